import Verif.Space
import Verif.UnitOp

/-!
# `Space` and `PoincarePolarVector` whose components carry units

The rules of `Verif/Space.lean` once more, with a unit for every component of every vector.
-/

namespace Verif

open Num

noncomputable section

/-- a vector held by a Space, see `SVec` -/
inductive SVecU where
  | pos (p : Pos (UQ ℝ))
  | vel (v : Vel (UQ ℝ))
  | acc (a : Acc (UQ ℝ))

/-- `v.shape` of a scalar vector -/
def SVecU.shape (_ : SVecU) : Res (List ℕ) := .ok []

/-- see `SVec.asPos` -/
def SVecU.asPos : SVecU → Res (Pos (UQ ℝ))
  | .pos p => .ok p
  | _ => .error .noDispatch

/-- see `SVec.asVel` -/
def SVecU.asVel : SVecU → Res (Vel (UQ ℝ))
  | .vel v => .ok v
  | _ => .error .noDispatch

/-- `temp_represent_as` (`_src/vectors/space/core.py` 594-622) -/
def tempRepresentAsU (cur : SVecU) (k : Kind) (s : Space SVecU) : Res SVecU :=
  match cur with
  | .pos p => do return .pos (← representAsU {} p k)
  | .vel v => do
    let p ← (← s.getStr "length").asPos
    return .vel (← representVelU {} v k.differential p)
  | .acc a => do
    let v ← (← s.getStr "speed").asVel
    let p ← (← s.getStr "length").asPos
    return .acc (← representAccU {} a k.differential v p)

/-- `represent_as(space, target)` (`space/core.py` 579-584), for a position class as target -/
def representSpaceU (names : DimNames) (s : Space SVecU) (k : Kind) : Res (Space SVecU) :=
  s.mapValues names SVecU.shape fun v => tempRepresentAsU v k s

/-- `-v`, see `SVec.neg` -/
def SVecU.neg : SVecU → Res SVecU
  | .pos p => do return .pos (← negPosU p)
  | .vel v => .ok (.vel (negVelU v))
  | .acc a => .ok (.acc (negVelU a))

/-- `-space` (`space/core.py` 384-400) -/
def Space.negU (names : DimNames) (s : Space SVecU) : Res (Space SVecU) :=
  s.mapValues names SVecU.shape SVecU.neg

/-- `PoincarePolarVector` (`_src/vectors/dn/poincare.py` 20-47) -/
structure PoincareU where
  rho : UQ ℝ
  ppPhi : UQ ℝ
  z : UQ ℝ
  dRho : UQ ℝ
  dPpPhi : UQ ℝ
  dZ : UQ ℝ

/-- `PoincarePolarVector(...)`: the converters of `rho`, `z`, `d_rho`, `d_z` check physical types, `pp_phi` and `d_pp_phi` have
none (23-47) -/
def mkPoincareU (rho pp z dRho dPp dZ : UQ ℝ) : Res PoincareU := do
  let rho ← ofDim RUnit.au.dim rho
  let z ← ofDim RUnit.au.dim z
  let dRho ← ofDim (perTime 1 RUnit.au.dim) dRho
  let dZ ← ofDim (perTime 1 RUnit.au.dim) dZ
  return ⟨rho, pp, z, dRho, dPp, dZ⟩

/-- fields of a cylindrical position -/
def Pos.cylFieldsU : Pos (UQ ℝ) → Res (UQ ℝ × UQ ℝ × UQ ℝ)
  | .cyl rho phi z => .ok (rho, phi, z)
  | _ => .error .badField

/-- fields `d_rho, d_phi, d_z` of a cylindrical velocity -/
def Vel.cylFieldsU : Vel (UQ ℝ) → Res (UQ ℝ × UQ ℝ × UQ ℝ)
  | .cyl a b c => .ok (a, b, c)
  | _ => .error .badField

/-- Space -> PoincarePolarVector (`_src/vectors/transform/space.py` 36-70) -/
def toPoincareU (s : Space SVecU) : Res PoincareU := do
  let q ← representAsU {} (← (← s.getStr "length").asPos) .cyl
  let p ← representVelU {} (← (← s.getStr "speed").asVel) .cyl q
  let (rho, phi, z) ← q.cylFieldsU
  let (dRho, dPhi, dZ) ← p.cylFieldsU
  let sqrt2theta ← ((rho.sq.smul (nat 2)).mul dPhi).abs.sqrt
  mkPoincareU rho (sqrt2theta.mul (← phi.cos)) z dRho (sqrt2theta.mul (← phi.sin)) dZ

/-- PoincarePolarVector -> Space (`_src/vectors/transform/dn.py` 15-59) -/
def ofPoincareU (names : DimNames) (w : PoincareU) : Res (Space SVecU) := do
  let phi ← w.dPpPhi.atan2 w.ppPhi
  let h ← (← w.ppPhi.sq.add w.dPpPhi.sq).divBy (nat 2)
  let dPhi ← h.div w.rho.sq
  let q ← mkCylU w.rho (.qty phi) w.z
  let p ← mkVelU 1 (.cyl w.dRho dPhi w.dZ)
  mkSpace names SVecU.shape [("length", .pos q), ("speed", .vel p)]

end

end Verif
