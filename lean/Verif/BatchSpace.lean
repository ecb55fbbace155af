import Verif.Space
import Verif.BatchVel
import Verif.BatchArith

/-!
# `Space` and `PoincarePolarVector` of batched vectors

The rules of `Verif/Space.lean` once more, on arrays with shapes and NaN.
-/

namespace Verif

/-- a vector held by a Space, see `SVec` -/
inductive SVecB where
  | pos (P : Pos BArr)
  | vel (V : Vel BArr)
  | acc (A : Acc BArr)

/-- `v.shape` -/
def SVecB.shape : SVecB → Res (List ℕ)
  | .pos P => P.shapeB
  | .vel V => V.shapeB
  | .acc A => A.shapeB

/-- see `SVec.asPos` -/
def SVecB.asPos : SVecB → Res (Pos BArr)
  | .pos P => .ok P
  | _ => .error .noDispatch

/-- see `SVec.asVel` -/
def SVecB.asVel : SVecB → Res (Vel BArr)
  | .vel V => .ok V
  | _ => .error .noDispatch

/-- `temp_represent_as` (`_src/vectors/space/core.py` 594-622) -/
noncomputable def tempRepresentAsB (cur : SVecB) (k : Kind) (s : Space SVecB) : Res SVecB :=
  match cur with
  | .pos P => do return .pos (← representAsB {} P k)
  | .vel V => do
    let P ← (← s.getStr "length").asPos
    return .vel (← representVelB {} V k.differential P)
  | .acc A => do
    let V ← (← s.getStr "speed").asVel
    let P ← (← s.getStr "length").asPos
    return .acc (← representAccB {} A k.differential V P)

/-- `represent_as(space, target)` (`space/core.py` 579-584), for a position class as target -/
noncomputable def representSpaceB (names : DimNames) (s : Space SVecB) (k : Kind) : Res (Space SVecB) :=
  s.mapValues names SVecB.shape fun v => tempRepresentAsB v k s

/-- `-v` (`_src/vectors/base/base_vel.py` 107-127, `base_acc.py` 90-110): `jnp.negative` of every field -/
noncomputable def negVelB (V : Vel BArr) : Vel BArr := V.map bneg

/-- `-v`, see `SVec.neg` -/
noncomputable def SVecB.neg : SVecB → Res SVecB
  | .pos P => do return .pos (← negPosB P)
  | .vel V => .ok (.vel (negVelB V))
  | .acc A => .ok (.acc (negVelB A))

/-- `-space` (`space/core.py` 384-400) -/
noncomputable def Space.negB (names : DimNames) (s : Space SVecB) : Res (Space SVecB) :=
  s.mapValues names SVecB.shape SVecB.neg

/-- `PoincarePolarVector` (`_src/vectors/dn/poincare.py` 20-47); no range checks -/
structure PoincareB where
  rho : BArr
  ppPhi : BArr
  z : BArr
  dRho : BArr
  dPpPhi : BArr
  dZ : BArr

/-- fields of a cylindrical position -/
def Pos.cylFieldsB : Pos BArr → Res (BArr × BArr × BArr)
  | .cyl rho phi z => .ok (rho, phi, z)
  | _ => .error .badField

/-- fields `d_rho, d_phi, d_z` of a cylindrical velocity -/
def Vel.cylFieldsB : Vel BArr → Res (BArr × BArr × BArr)
  | .cyl a b c => .ok (a, b, c)
  | _ => .error .badField

/-- Space -> PoincarePolarVector (`_src/vectors/transform/space.py` 36-70) -/
noncomputable def toPoincareB (s : Space SVecB) : Res PoincareB := do
  let q ← representAsB {} (← (← s.getStr "length").asPos) .cyl
  let p ← representVelB {} (← (← s.getStr "speed").asVel) .cyl q
  let (rho, phi, z) ← q.cylFieldsB
  let (dRho, dPhi, dZ) ← p.cylFieldsB
  let sqrt2theta := bsqrt (babs (← bmul (← bmul (bnat 2) (← bmul rho rho)) dPhi))
  return ⟨rho, ← bmul sqrt2theta (bcos phi), z, dRho, ← bmul sqrt2theta (bsin phi), dZ⟩

/-- PoincarePolarVector -> Space (`_src/vectors/transform/dn.py` 15-59) -/
noncomputable def ofPoincareB (names : DimNames) (w : PoincareB) : Res (Space SVecB) := do
  let phi ← batan2 w.dPpPhi w.ppPhi
  let h ← bdiv (← badd (← bmul w.ppPhi w.ppPhi) (← bmul w.dPpPhi w.dPpPhi)) (bnat 2)
  let dPhi ← bdiv h (← bmul w.rho w.rho)
  let q ← mkCylB w.rho (.qty phi) w.z
  mkSpace names SVecB.shape [("length", .pos q), ("speed", .vel (.cyl w.dRho dPhi w.dZ))]

end Verif
