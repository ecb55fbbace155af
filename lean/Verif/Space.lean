import Verif.Vel
import Verif.Acc
import Verif.Arith
import Verif.Op
import Verif.Shape

/-!
# `Space` and `PoincarePolarVector`
-/

namespace Verif

/-! ## Python dicts -/

section
variable {V : Type}

/-- `d[k] = v` on a dict in insertion order -/
def dictSet (d : List (String × V)) (k : String) (v : V) : List (String × V) :=
  match d with
  | [] => [(k, v)]
  | (k', v') :: rest => if k' = k then (k', v) :: rest else (k', v') :: dictSet rest k v

/-- `dict(pairs)` -/
def dictOf (l : List (String × V)) : List (String × V) := l.foldl (fun d kv => dictSet d kv.1 kv.2) []

/-- The names of physical types: `_get_dimension_name(k) = u.dimension(k)._physical_type_list[0]`
(`_src/vectors/space/core.py` 34-35), the first of the names astropy has for the physical type named
`k`. The table is astropy's and is a parameter; the first name of a physical type names the same type. -/
structure DimNames where
  canon : String → Res String
  idem : ∀ k k', canon k = .ok k' → canon k' = .ok k'

/-- `Space`: an immutable map from dimension names to vectors. -/
structure Space (V : Type) where
  data : List (String × V)

/-- `Space(...)` (`_src/vectors/space/core.py` 103-128); `shape` is `v.shape`. -/
def mkSpace (names : DimNames) (shape : V → Res (List ℕ)) (input : List (String × V)) : Res (Space V) := do
  let raw := dictOf input
  let keys ← raw.mapM fun kv => names.canon kv.1
  if keys.length < raw.length then throw .check
  let shapes ← raw.mapM fun kv => shape kv.2
  match broadcastShapes shapes with
  | .error _ => throw .check
  | .ok _ => return ⟨dictOf (keys.zip (raw.map Prod.snd))⟩

/-- `space[key]` for a string (222-255): no normalisation of the name -/
def Space.getStr (s : Space V) (k : String) : Res V :=
  match s.data.lookup k with
  | some v => .ok v
  | none => .error .key

/-- `space[dimension]` for the `Dimension` object named `k` (252-255) -/
def Space.getDim (names : DimNames) (s : Space V) (k : String) : Res V := do s.getStr (← names.canon k)

/-- `Space(**{k: f(v) for k, v in self.items()})` -/
def Space.mapValues (names : DimNames) (shape : V → Res (List ℕ)) (f : V → Res V) (s : Space V) :
    Res (Space V) := do
  mkSpace names shape (← s.data.mapM fun kv => do return (kv.1, ← f kv.2))

end

/-! ## scalar phase-space vectors -/

/-- a vector held by a Space -/
inductive SVec where
  | pos (p : Pos ℝ)
  | vel (v : Vel ℝ)
  | acc (a : Acc ℝ)

/-- `v.shape` of a scalar vector -/
def SVec.shape (_ : SVec) : Res (List ℕ) := .ok []

/-- used as the position argument of `represent_as`; plum rejects anything else -/
def SVec.asPos : SVec → Res (Pos ℝ)
  | .pos p => .ok p
  | _ => .error .noDispatch

/-- used as the velocity argument of `represent_as` -/
def SVec.asVel : SVec → Res (Vel ℝ)
  | .vel v => .ok v
  | _ => .error .noDispatch

/-- `differential_cls` of a position class (`_src/vectors/d3/cartesian.py` 62, `cylindrical.py` 61,
`lonlatspherical.py` 127, `mathspherical.py` 82, `spherical.py` 77, `spheroidal.py` 125, `d2/*.py`,
`d1/*.py`) -/
def Kind.differential : Kind → VKind
  | .cart1 => .cart1
  | .radial => .radial
  | .cart2 => .cart2
  | .polar => .polar
  | .twoSphere => .twoSphere
  | .cart3 => .cart3
  | .cyl => .cyl
  | .sph => .sph
  | .lonlat => .lonlat
  | .math => .math
  | .prolate => .prolate

/-- `temp_represent_as` (`_src/vectors/space/core.py` 594-622) -/
noncomputable def tempRepresentAs (cur : SVec) (k : Kind) (s : Space SVec) : Res SVec :=
  match cur with
  | .pos p => do return .pos (← representAs {} p k)
  | .vel v => do
    let p ← (← s.getStr "length").asPos
    return .vel (← representVel {} v k.differential p)
  | .acc a => do
    let v ← (← s.getStr "speed").asVel
    let p ← (← s.getStr "length").asPos
    return .acc (← representAcc {} a k.differential v p)

/-- `represent_as(space, target)` (579-584), for a position class as target -/
noncomputable def representSpace (names : DimNames) (s : Space SVec) (k : Kind) : Res (Space SVec) :=
  s.mapValues names SVec.shape fun v => tempRepresentAs v k s

/-- `-v` (`_src/vectors/base/base_pos.py` 91, `base_vel.py` 107-127, `base_acc.py` 90-110) -/
noncomputable def SVec.neg : SVec → Res SVec
  | .pos p => do return .pos (← negPos p)
  | .vel v => .ok (.vel (negVel v))
  | .acc a => .ok (.acc (negVel a))

/-- `-space` (384-400) -/
noncomputable def Space.neg (names : DimNames) (s : Space SVec) : Res (Space SVec) :=
  s.mapValues names SVec.shape SVec.neg

/-! ## batched Spaces -/

/-- a batched vector together with the argument checks of its class -/
structure ClsVec (α : Type) where
  chk : Checks α
  vec : BVec α

/-- `v.shape` -/
def ClsVec.shape {α : Type} (v : ClsVec α) : Res (List ℕ) := v.vec.shape

/-- `v[index]` -/
noncomputable def ClsVec.getitem {α : Type} (p : Plan) (v : ClsVec α) : Res (ClsVec α) := do
  return ⟨v.chk, ← v.vec.getitem v.chk p⟩

/-- `space[index]` for an index that is not a string (150-220): each vector is indexed on its own -/
noncomputable def Space.getitem {α : Type} (names : DimNames) (p : Plan)
    (s : Space (ClsVec α)) : Res (Space (ClsVec α)) :=
  s.mapValues names ClsVec.shape (fun v => v.getitem p)

/-- `space.shape` (316-332 with `shapes` 518-534): broadcast of the shapes of the vectors -/
def Space.shape {α : Type} (s : Space (ClsVec α)) : Res (List ℕ) := do
  broadcastShapes (← s.data.mapM fun kv => kv.2.shape)

/-! ## Poincaré polar coordinates -/

/-- `PoincarePolarVector` (`_src/vectors/dn/poincare.py` 20-47); no range checks -/
structure Poincare where
  rho : ℝ
  ppPhi : ℝ
  z : ℝ
  dRho : ℝ
  dPpPhi : ℝ
  dZ : ℝ

/-- fields of a cylindrical position -/
def Pos.cylFields : Pos ℝ → Res (ℝ × ℝ × ℝ)
  | .cyl rho phi z => .ok (rho, phi, z)
  | _ => .error .badField

/-- fields `d_rho, d_phi, d_z` of a cylindrical velocity -/
def Vel.cylFields : Vel ℝ → Res (ℝ × ℝ × ℝ)
  | .cyl a b c => .ok (a, b, c)
  | _ => .error .badField

/-- Space -> PoincarePolarVector (`_src/vectors/transform/space.py` 36-70) -/
noncomputable def toPoincare (s : Space SVec) : Res Poincare := do
  let q ← representAs {} (← (← s.getStr "length").asPos) .cyl
  let p ← representVel {} (← (← s.getStr "speed").asVel) .cyl q
  let (rho, phi, z) ← q.cylFields
  let (dRho, dPhi, dZ) ← p.cylFields
  let sqrt2theta ← Num.sqrt (Num.abs (Num.nat 2 * (rho * rho) * dPhi))
  return ⟨rho, sqrt2theta * Num.cos phi, z, dRho, sqrt2theta * Num.sin phi, dZ⟩

/-- PoincarePolarVector -> Space (`_src/vectors/transform/dn.py` 15-59) -/
noncomputable def ofPoincare (names : DimNames) (w : Poincare) : Res (Space SVec) := do
  let phi ← Num.atan2 w.dPpPhi w.ppPhi
  let h ← Num.div (w.ppPhi * w.ppPhi + w.dPpPhi * w.dPpPhi) (Num.nat 2)
  let dPhi ← Num.div h (w.rho * w.rho)
  let q ← mkCyl w.rho (.qty phi) w.z
  mkSpace names SVec.shape [("length", .pos q), ("speed", .vel (.cyl w.dRho dPhi w.dZ))]

end Verif
