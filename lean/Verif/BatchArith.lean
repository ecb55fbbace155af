import Verif.Arith
import Verif.Batch
import Verif.CartArith

/-!
# Arithmetic of positions whose components are arrays

`Verif/Arith.lean` transcribes the arithmetic of positions for one scalar element. Here the same rules are
transcribed on arrays, with the shape rules of `jax.lax` (`+`, `-`) and numpy (`*`, `/`, `==`, `norm`), and
with `represent_as` on arrays (`Verif/Batch.lean`). Lengths in AU, angles in radians; `none` is NaN.
-/

namespace Verif

open Num

/-- a binary operation of `jax.lax` on arrays: rank 0 or equal ranks (`laxShape`) -/
def Arr.laxMap2 {α β γ : Type} (f : α → β → γ) (a : Arr α) (b : Arr β) : Res (Arr γ) := do
  let s ← laxShape a.shape b.shape
  return ⟨s, fun idx => f (a.elem idx) (b.elem idx)⟩

/-- `qlax.add` -/
noncomputable def laxAdd (a b : BArr) : Res BArr := Arr.laxMap2 (el2 fun x y => .ok (x + y)) a b
/-- `qlax.sub` -/
noncomputable def laxSub (a b : BArr) : Res BArr := Arr.laxMap2 (el2 fun x y => .ok (x - y)) a b
/-- `qlax.mul` -/
noncomputable def laxMul (a b : BArr) : Res BArr := Arr.laxMap2 (el2 fun x y => .ok (x * y)) a b

/-- `vec.represent_as(vec._cartesian_cls)` -/
noncomputable def toCartesianB (P : Pos BArr) : Res (Pos BArr) := representAsB {} P P.kind.cartesian

/-- Componentwise binary operation on two vectors of one Cartesian class
(`d1/cartesian.py` 91-92, 160-161; `d2/cartesian.py` 100-101, 157-158; `d3/cartesian.py` 114-117,
150-151): `qlax.add` or `qlax.sub` on each pair of leaves. -/
def mapCart2B (g : BArr → BArr → Res BArr) : Pos BArr → Pos BArr → Res (Pos BArr)
  | .cart1 x, .cart1 x' => do return .cart1 (← g x x')
  | .cart2 x y, .cart2 x' y' => do return .cart2 (← g x x') (← g y y')
  | .cart3 x y z, .cart3 x' y' z' => do return .cart3 (← g x x') (← g y y') (← g z z')
  | _, _ => .error .noDispatch

/-- Componentwise unary operation on a Cartesian vector
(`d1/cartesian.py` 118, 133; `d2/cartesian.py` 124, 139; `d3/cartesian.py` 132, 412). -/
def mapCartB (g : BArr → Res BArr) : Pos BArr → Res (Pos BArr)
  | .cart1 x => do return .cart1 (← g x)
  | .cart2 x y => do return .cart2 (← g x) (← g y)
  | .cart3 x y z => do return .cart3 (← g x) (← g y) (← g z)
  | _ => .error .noDispatch

/-- Cartesian rule of `+` and `-`: `rhs.represent_as(type(lhs))`, then componentwise
(`d1/cartesian.py` 67-92, 136-161; `d2/cartesian.py` 81-101, 142-158; `d3/cartesian.py` 99-117, 135-151). -/
noncomputable def binCartB (g : BArr → BArr → Res BArr) (lhs rhs : Pos BArr) : Res (Pos BArr) := do
  mapCart2B g lhs (← representAsB {} rhs lhs.kind)

/-- `lhs + rhs`, `lhs - rhs` (`base_pos.py` 180-194, 450-460): Cartesian left operands have their own rule;
otherwise convert both to the Cartesian class of `lhs`, re-dispatch, convert back. -/
noncomputable def binPosB (g : BArr → BArr → Res BArr) (lhs rhs : Pos BArr) : Res (Pos BArr) :=
  match lhs with
  | .cart1 .. | .cart2 .. | .cart3 .. => binCartB g lhs rhs
  | _ => do
    let a ← representAsB {} lhs lhs.kind.cartesian
    let b ← representAsB {} rhs lhs.kind.cartesian
    representAsB {} (← binCartB g a b) lhs.kind

/-- `lhs + rhs` -/
noncomputable def addPosB (lhs rhs : Pos BArr) : Res (Pos BArr) := binPosB laxAdd lhs rhs
/-- `lhs - rhs` -/
noncomputable def subPosB (lhs rhs : Pos BArr) : Res (Pos BArr) := binPosB laxSub lhs rhs

/-- convert to the Cartesian class, act componentwise, convert back -/
noncomputable def viaCartB (g : BArr → Res BArr) (p : Pos BArr) : Res (Pos BArr) := do
  let c ← toCartesianB p
  representAsB {} (← mapCartB g c) p.kind

/-- `-p` (`base_pos.py` 383-405; Cartesian rules `d1/cartesian.py` 121-133, `d2/cartesian.py` 127-139,
`d3/cartesian.py` 120-132). -/
noncomputable def negPosB (p : Pos BArr) : Res (Pos BArr) :=
  match p with
  | .cart1 .. | .cart2 .. | .cart3 .. => mapCartB (fun x => .ok (bneg x)) p
  | _ => viaCartB (fun x => .ok (bneg x)) p

/-- `s * p` (`base_pos.py` 234-324; Cartesian rules `d1/cartesian.py` 95-118, `d2/cartesian.py` 104-124,
`d3/cartesian.py` 392-412; `PolarPos` `d2/polar.py` 62-92 and `MathSphericalPos` `d3/mathspherical.py`
186-219). Every rule first checks `any(jax.numpy.shape(lhs))`. -/
noncomputable def scalePosB (s : BArr) (p : Pos BArr) : Res (Pos BArr) :=
  if s.shape.all (· = 0) then
    match p with
    | .cart1 .. | .cart2 .. | .cart3 .. => mapCartB (fun x => bmul s x) p
    | .polar r phi => do mkPolarB (← r.mapRawM fun x => bmul s x) (.angle phi)
    | .math r theta phi => do mkMathB (← r.mapRawM fun x => bmul s x) (.angle theta) phi
    | _ => viaCartB (fun x => bmul s x) p
  else .error .check

/-- `p * s`: re-dispatches to `s * p` (`base_pos.py` 327-346). -/
noncomputable def scalePosRightB (p : Pos BArr) (s : BArr) : Res (Pos BArr) := scalePosB s p

/-- `TwoSpherePos(theta, phi)` (`_src/vectors/d2/spherical.py` 67-79) -/
noncomputable def mkTwoSphereB (theta : BArr) (phi : AzArg BArr) : Res (Pos BArr) := do
  checkRangeB theta (bnat 0) bpi
  return .twoSphere theta phi.convertB

/-- `p / s` (`base_pos.py` 200-219): `jnp.divide` on every component, `Delta` excepted, then the constructor.
The divisor may be an array. -/
noncomputable def divPosB (p : Pos BArr) (s : BArr) : Res (Pos BArr) :=
  match p with
  | .cart1 x => do return .cart1 (← bdiv x s)
  | .radial r => do mkRadialB (← r.mapRawM fun x => bdiv x s)
  | .cart2 x y => do return .cart2 (← bdiv x s) (← bdiv y s)
  | .polar r phi => do mkPolarB (← r.mapRawM fun x => bdiv x s) (.angle (← bdiv phi s))
  | .twoSphere theta phi => do mkTwoSphereB (← bdiv theta s) (.angle (← bdiv phi s))
  | .cart3 x y z => do return .cart3 (← bdiv x s) (← bdiv y s) (← bdiv z s)
  | .cyl rho phi z => do mkCylB (← bdiv rho s) (.angle (← bdiv phi s)) (← bdiv z s)
  | .sph r theta phi => do
      mkSphB (← r.mapRawM fun x => bdiv x s) (← bdiv theta s) (.angle (← bdiv phi s))
  | .lonlat lon lat d => do
      mkLonLatB (.angle (← bdiv lon s)) (← bdiv lat s) (← d.mapRawM fun x => bdiv x s)
  | .math r theta phi => do
      mkMathB (← r.mapRawM fun x => bdiv x s) (.angle (← bdiv theta s)) (← bdiv phi s)
  | .prolate mu nu phi delta => do
      mkProlateB (← bdiv mu s) (← bdiv nu s) (.angle (← bdiv phi s)) delta

/-- Fields of a Cartesian vector in order -/
def Pos.cartArrays : Pos BArr → Res (List BArr)
  | .cart1 x => .ok [x]
  | .cart2 x y => .ok [x, y]
  | .cart3 x y z => .ok [x, y, z]
  | _ => .error .noDispatch

/-- `jnp.stack(arrays, axis=-1)` of arrays of shape `s` -/
def stackB (s : List ℕ) (l : List BArr) : BArr :=
  ⟨s ++ [l.length], fun idx => match l[idx.getLastD 0]? with
    | some c => c.get idx.dropLast
    | none => none⟩

/-- `convert(pos, Quantity)` (`base/compat.py` 69-70): the Cartesian form, `full_shaped`, then stack -/
noncomputable def toQuantityB (p : Pos BArr) : Res BArr := do
  let l ← (← toCartesianB p).cartArrays
  let s ← broadcastShapes (l.map fun a => a.shape)
  return stackB s (l.map fun a => a.broadcastTo s)

/-- `pos * pos` (`base_pos.py` 349-377) -/
noncomputable def mulPosPosB (p q : Pos BArr) : Res BArr := do
  let a ← toQuantityB p
  let b ← toQuantityB q
  laxMul a b

/-- sum of elements (NaN if one is NaN); associated as in `sumList` -/
noncomputable def sumEl : List El → El
  | [] => some 0
  | [x] => x
  | x :: xs => el2 (fun a b => .ok (a + b)) x (sumEl xs)

/-- `jnp.sum(a, axis=-1)` -/
noncomputable def sumLastB (a : BArr) : Res BArr :=
  match a.shape.reverse with
  | [] => .error .value
  | F :: s => .ok ⟨s.reverse, fun idx => sumEl ((List.range F).map fun k => a.get (idx ++ [k]))⟩

/-- `pos.norm()` (`base_pos.py` 142-173, `jnp.linalg.vector_norm(self, axis=-1)`; overrides
`d3/cylindrical.py` 63-79, `d3/lonlatspherical.py` 129-145, `d3/mathspherical.py` 84-99). -/
noncomputable def normB (p : Pos BArr) : Res (Dist BArr) :=
  match p with
  | .cyl rho _ z => do return .dist (bsqrt (← badd (← bmul rho rho) (← bmul z z)))
  | .lonlat _ _ d => .ok d
  | .math r _ _ => .ok r
  | _ => do return .dist (bsqrt (← sumLastB (← mulPosPosB p p)))

/-- `jnp.equal` of two radial fields: the class belongs to the tree structure, which must agree -/
noncomputable def Dist.eqvB : Dist BArr → Dist BArr → Res (Arr Bool)
  | .dist a, .dist b => beqB a b
  | .par a, .par b => beqB a b
  | .dm a, .dm b => beqB a b
  | _, _ => .error .mismatch

/-- `jax.tree.map(jnp.equal, self, other)` for two vectors of one class (`base/base.py` 613-618); `Delta` is a
leaf -/
noncomputable def leavesEqB : Pos BArr → Pos BArr → Res (List (Arr Bool))
  | .cart1 x, .cart1 x' => do return [← beqB x x']
  | .radial r, .radial r' => do return [← r.eqvB r']
  | .cart2 x y, .cart2 x' y' => do return [← beqB x x', ← beqB y y']
  | .polar r phi, .polar r' phi' => do return [← r.eqvB r', ← beqB phi phi']
  | .twoSphere a b, .twoSphere a' b' => do return [← beqB a a', ← beqB b b']
  | .cart3 x y z, .cart3 x' y' z' => do return [← beqB x x', ← beqB y y', ← beqB z z']
  | .cyl a b c, .cyl a' b' c' => do return [← beqB a a', ← beqB b b', ← beqB c c']
  | .sph r a b, .sph r' a' b' => do return [← r.eqvB r', ← beqB a a', ← beqB b b']
  | .lonlat a b r, .lonlat a' b' r' => do return [← beqB a a', ← beqB b b', ← r.eqvB r']
  | .math r a b, .math r' a' b' => do return [← r.eqvB r', ← beqB a a', ← beqB b b']
  | .prolate a b c d, .prolate a' b' c' d' => do
      return [← beqB a a', ← beqB b b', ← beqB c c', ← beqB d d']
  | _, _ => .error .noDispatch

/-- `p == q` (`base_pos.py` 96-137, `base/base.py` 613-618): `q.represent_as(type(p))`, `jnp.equal` leaf by leaf,
then `jnp.logical_and.reduce(jnp.array(leaves))`, which raises unless all leaves have one shape (`allLeaves`) -/
noncomputable def eqPosB (p q : Pos BArr) : Res (Arr Bool) := do
  allLeaves (← leavesEqB p (← representAsB {} q p.kind))

/-- `normalize_vector` of a `CartesianPos3D` (`d3/cartesian.py` 159-190): fields of the `CartesianGeneric3D` -/
noncomputable def normalizeCart3B (x y z : BArr) : Res (BArr × BArr × BArr) := do
  let n ← normB (.cart3 x y z)
  return (← bdiv x n.raw, ← bdiv y n.raw, ← bdiv z n.raw)

end Verif
