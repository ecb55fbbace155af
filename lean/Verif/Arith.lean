import Verif.Represent

/-!
# Arithmetic of positions

`_src/vectors/base/base_pos.py` and the class-specific primitive rules. Scalars are plain numbers
(`ArrayLike` of shape `()`, the `eqx.error_if` on the shape is not modelled); all vectors carry
the same units (AU, rad).
-/

namespace Verif

open Num

section
variable {α : Type} [Num α]

/-- `vec.represent_as(vec._cartesian_cls)` -/
def toCartesian (p : Pos α) : Res (Pos α) := representAs {} p p.kind.cartesian

/-- Fields of a Cartesian vector (`jnp.stack(field_values(cart), axis=-1)`,
`base/compat.py` 31-70). -/
def Pos.cartComponents : Pos α → Res (List α)
  | .cart1 x => .ok [x]
  | .cart2 x y => .ok [x, y]
  | .cart3 x y z => .ok [x, y, z]
  | _ => .error .noDispatch

/-- `convert(pos, Quantity)` (`base/compat.py` 31-70) -/
def toQuantity (p : Pos α) : Res (List α) := do (← toCartesian p).cartComponents

/-- `qlax.mul` of two arrays of rank 1: equal lengths, or one of them has length 1 -/
def mulRank1 (a b : List α) : Res (List α) :=
  if a.length = b.length then .ok (List.zipWith (· * ·) a b) else
  match a, b with
  | [x], l => .ok (l.map fun y => x * y)
  | l, [y] => .ok (l.map fun x => x * y)
  | _, _ => .error .mismatch

/-- `pos * pos` (`base_pos.py` 349-377): elementwise product of the Cartesian quantities. -/
def mulPosPos (p q : Pos α) : Res (List α) := do
  let a ← toQuantity p
  let b ← toQuantity q
  mulRank1 a b

/-- `jnp.sum` over the last axis -/
def sumList : List α → α
  | [] => nat 0
  | [x] => x
  | x :: xs => x + sumList xs

/-- `pos.norm()`: default `base_pos.py` 142-173 (`vector_norm(self)`, i.e. `sqrt(sum(self * self))`),
overrides `d3/cylindrical.py` 63-79, `d3/lonlatspherical.py` 129-145 (returns the `distance` field),
`d3/mathspherical.py` 84-99 (returns the `r` field). -/
def norm (p : Pos α) : Res (Dist α) :=
  match p with
  | .cyl rho _ z => do return .dist (← sqrt (rho * rho + z * z))
  | .lonlat _ _ d => .ok d
  | .math r _ _ => .ok r
  | _ => do return .dist (← sqrt (sumList (← mulPosPos p p)))

/-- Componentwise binary operation on two vectors of the same Cartesian class
(`d1/cartesian.py` 91-92, 160-161; `d2/cartesian.py` 100-101, 157-158; `d3/cartesian.py` 114-117,
150-151). -/
def mapCart2 (f : α → α → α) : Pos α → Pos α → Res (Pos α)
  | .cart1 x, .cart1 x' => mkCart1 (f x x')
  | .cart2 x y, .cart2 x' y' => mkCart2 (f x x') (f y y')
  | .cart3 x y z, .cart3 x' y' z' => mkCart3 (f x x') (f y y') (f z z')
  | _, _ => .error .noDispatch

/-- Componentwise unary operation on a Cartesian vector
(`d1/cartesian.py` 118, 133; `d2/cartesian.py` 124, 139; `d3/cartesian.py` 132, 412). -/
def mapCart (f : α → α) : Pos α → Res (Pos α)
  | .cart1 x => mkCart1 (f x)
  | .cart2 x y => mkCart2 (f x) (f y)
  | .cart3 x y z => mkCart3 (f x) (f y) (f z)
  | _ => .error .noDispatch

/-- Cartesian rule of `+` (`f = add`) and `-` (`f = sub`): `rhs.represent_as(type(lhs))`, then
componentwise (`d1/cartesian.py` 67-92, 136-161; `d2/cartesian.py` 81-101, 142-158;
`d3/cartesian.py` 99-117, 135-151). -/
def binCart (f : α → α → α) (lhs rhs : Pos α) : Res (Pos α) := do
  mapCart2 f lhs (← representAs {} rhs lhs.kind)

/-- `lhs + rhs`, `lhs - rhs` (generic rules `base_pos.py` 180-194, 450-460: convert both to the
Cartesian class of `lhs`, re-dispatch, convert back to `type(lhs)`). -/
def binPos (f : α → α → α) (lhs rhs : Pos α) : Res (Pos α) :=
  match lhs with
  | .cart1 .. | .cart2 .. | .cart3 .. => binCart f lhs rhs
  | _ => do
    let a ← representAs {} lhs lhs.kind.cartesian
    let b ← representAs {} rhs lhs.kind.cartesian
    representAs {} (← binCart f a b) lhs.kind

/-- `lhs + rhs` -/
def addPos (lhs rhs : Pos α) : Res (Pos α) := binPos (· + ·) lhs rhs
/-- `lhs - rhs` -/
def subPos (lhs rhs : Pos α) : Res (Pos α) := binPos (· - ·) lhs rhs

/-- `-p` (`base_pos.py` 383-405; Cartesian rules `d1/cartesian.py` 121-133, `d2/cartesian.py`
127-139, `d3/cartesian.py` 120-132). -/
def negPos (p : Pos α) : Res (Pos α) :=
  match p with
  | .cart1 .. | .cart2 .. | .cart3 .. => mapCart (fun x => -x) p
  | _ => do
    let c ← toCartesian p
    representAs {} (← mapCart (fun x => -x) c) p.kind

/-- `s * p` (`base_pos.py` 234-324; Cartesian rules `d1/cartesian.py` 95-118, `d2/cartesian.py`
104-124, `d3/cartesian.py` 392-412; `PolarPos` `d2/polar.py` 62-92 and `MathSphericalPos`
`d3/mathspherical.py` 186-219: `replace(rhs, r=lhs * rhs.r)`). -/
def scalePos (s : α) (p : Pos α) : Res (Pos α) :=
  match p with
  | .cart1 .. | .cart2 .. | .cart3 .. => mapCart (fun x => s * x) p
  | .polar r phi => mkPolar (r.mapRaw (fun x => s * x)) (.angle phi)
  | .math r theta phi => mkMath (r.mapRaw (fun x => s * x)) (.angle theta) phi
  | _ => do
    let c ← toCartesian p
    representAs {} (← mapCart (fun x => s * x) c) p.kind

/-- `p * s`: re-dispatches to `s * p` (`base_pos.py` 327-346). -/
def scalePosRight (p : Pos α) (s : α) : Res (Pos α) := scalePos s p

/-- `r / s` on a radial field keeps its class. -/
def Dist.divRaw (r : Dist α) (s : α) : Res (Dist α) := do
  let v ← div r.raw s
  return r.mapRaw (fun _ => v)

/-- `p / s` (`base_pos.py` 200-219): every component, angles included, is divided, and the
constructor runs again (`Angle / s` is an `Angle`, so azimuths are not wrapped again). `AttrFilter`
leaves `Delta` alone. -/
def divPos (p : Pos α) (s : α) : Res (Pos α) :=
  match p with
  | .cart1 x => do mkCart1 (← div x s)
  | .radial r => do mkRadial (← r.divRaw s)
  | .cart2 x y => do mkCart2 (← div x s) (← div y s)
  | .polar r phi => do mkPolar (← r.divRaw s) (.angle (← div phi s))
  | .twoSphere theta phi => do mkTwoSphere (← div theta s) (.angle (← div phi s))
  | .cart3 x y z => do mkCart3 (← div x s) (← div y s) (← div z s)
  | .cyl rho phi z => do mkCyl (← div rho s) (.angle (← div phi s)) (← div z s)
  | .sph r theta phi => do mkSph (← r.divRaw s) (← div theta s) (.angle (← div phi s))
  | .lonlat lon lat d => do mkLonLat (.angle (← div lon s)) (← div lat s) (← d.divRaw s)
  | .math r theta phi => do mkMath (← r.divRaw s) (.angle (← div theta s)) (← div phi s)
  | .prolate mu nu phi delta => do
      mkProlate (← div mu s) (← div nu s) (.angle (← div phi s)) delta

/-- `jnp.equal` on a radial field; the distance class is part of the pytree structure. -/
def Dist.eqv : Dist α → Dist α → Res Bool
  | .dist a, .dist b => .ok (beq a b)
  | .par a, .par b => .ok (beq a b)
  | .dm a, .dm b => .ok (beq a b)
  | _, _ => .error .mismatch

/-- `AbstractVector.__eq__` (`base/base.py` 545-618): componentwise equality of two vectors of one
class, `Delta` included (it is a leaf of the pytree). -/
def eqSame : Pos α → Pos α → Res Bool
  | .cart1 x, .cart1 x' => .ok (beq x x')
  | .radial r, .radial r' => r.eqv r'
  | .cart2 x y, .cart2 x' y' => .ok (beq x x' && beq y y')
  | .polar r phi, .polar r' phi' => do return (← r.eqv r') && beq phi phi'
  | .twoSphere a b, .twoSphere a' b' => .ok (beq a a' && beq b b')
  | .cart3 x y z, .cart3 x' y' z' => .ok (beq x x' && beq y y' && beq z z')
  | .cyl a b c, .cyl a' b' c' => .ok (beq a a' && beq b b' && beq c c')
  | .sph r a b, .sph r' a' b' => do return (← r.eqv r') && beq a a' && beq b b'
  | .lonlat a b r, .lonlat a' b' r' => do return beq a a' && beq b b' && (← r.eqv r')
  | .math r a b, .math r' a' b' => do return (← r.eqv r') && beq a a' && beq b b'
  | .prolate a b c d, .prolate a' b' c' d' =>
      .ok (beq a a' && beq b b' && beq c c' && beq d d')
  | _, _ => .error .noDispatch

/-- `p == q` (`base_pos.py` 96-137): `q.represent_as(type(p))`, then `AbstractVector.__eq__`. -/
def eqPos (p q : Pos α) : Res Bool := do eqSame p (← representAs {} q p.kind)

/-- `normalize_vector` of a `CartesianPos3D` (`d3/cartesian.py` 159-190): components divided by the
norm; of any other 3-D position: of its Cartesian form. Result: the components of the
`CartesianGeneric3D`. -/
def normalizeCart3 (x y z : α) : Res (α × α × α) := do
  let n ← sqrt (x * x + y * y + z * z)
  return (← div x n, ← div y n, ← div z n)

end

end Verif
