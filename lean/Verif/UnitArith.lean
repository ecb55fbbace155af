import Verif.UnitRep
import Verif.Arith

/-!
# Arithmetic of positions whose components carry units

The rules of `Verif/Arith.lean` once more, with a unit per component. Two ways of combining vectors occur in the code:
`qlax.add` of two Quantities, which converts the second to the unit of the first, and `jax.tree.map(qlax.add, ...)`,
which acts on the stored arrays and requires both vectors to have the same pytree structure. The units are static
fields of Quantity, i.e. part of that structure: other units raise `ValueError`.
-/

namespace Verif

open Num

noncomputable section

/-- a Quantity with one axis: values and one unit -/
structure QRow where
  values : List ℝ
  unit : RUnit

/-- `jnp.stack((q1, q2, ...), axis=-1)` (unxt): in the unit of the first -/
def stackU : List (UQ ℝ) → Res QRow
  | [] => .error .badField
  | q :: l => do return ⟨q.value :: (← l.mapM fun r => r.strip q.unit), q.unit⟩

/-- `vec.represent_as(vec._cartesian_cls)` -/
def toCartesianU (p : Pos (UQ ℝ)) : Res (Pos (UQ ℝ)) := representAsU {} p p.kind.cartesian

/-- `field_values(cart)` of a Cartesian vector -/
def Pos.cartFieldsU : Pos (UQ ℝ) → Res (List (UQ ℝ))
  | .cart1 x => .ok [x]
  | .cart2 x y => .ok [x, y]
  | .cart3 x y z => .ok [x, y, z]
  | _ => .error .noDispatch

/-- `convert(pos, Quantity)` (`base/compat.py` 31-70) -/
def toQuantityU (p : Pos (UQ ℝ)) : Res QRow := do stackU (← (← toCartesianU p).cartFieldsU)

/-- `pos * pos` (`base_pos.py` 349-377) -/
def mulPosPosU (p q : Pos (UQ ℝ)) : Res QRow := do
  let a ← toQuantityU p
  let b ← toQuantityU q
  return ⟨← mulRank1 a.values b.values, a.unit.mul b.unit⟩

/-- `pos.norm()` (`base_pos.py` 142-173, `d3/cylindrical.py` 63-79, `d3/lonlatspherical.py` 129-145,
`d3/mathspherical.py` 84-99) -/
def normU (p : Pos (UQ ℝ)) : Res (Dist (UQ ℝ)) :=
  match p with
  | .cyl rho _ z => do return .dist (← (← rho.sq.add z.sq).sqrt)
  | .lonlat _ _ d => .ok d
  | .math r _ _ => .ok r
  | _ => do
    let w ← mulPosPosU p p
    return .dist (← UQ.sqrt ⟨sumList w.values, w.unit⟩)

open Classical in
/-- one leaf of `jax.tree.map(f, v, w)`: the units belong to the structure and must agree -/
def leafOp (f : ℝ → ℝ → ℝ) (a b : UQ ℝ) : Res (UQ ℝ) :=
  if a.unit = b.unit then .ok ⟨f a.value b.value, a.unit⟩ else .error .mismatch

/-- `jax.tree.map(f, v, w)` of two Cartesian vectors of one class; the constructor is not run
(`d1/cartesian.py` 92, 161; `d2/cartesian.py` 101, 158; `d3/cartesian.py` 151) -/
def treeCart (f : ℝ → ℝ → ℝ) : Pos (UQ ℝ) → Pos (UQ ℝ) → Res (Pos (UQ ℝ))
  | .cart1 x, .cart1 x' => do return .cart1 (← leafOp f x x')
  | .cart2 x y, .cart2 x' y' => do return .cart2 (← leafOp f x x') (← leafOp f y y')
  | .cart3 x y z, .cart3 x' y' z' => do return .cart3 (← leafOp f x x') (← leafOp f y y') (← leafOp f z z')
  | _, _ => .error .noDispatch

/-- Cartesian `+`: `replace(lhs, x=qlax.add(...), ...)` in three dimensions (`d3/cartesian.py` 114-117), `jax.tree.map`
in one and two (`d1/cartesian.py` 92, `d2/cartesian.py` 101) -/
def addCartU : Pos (UQ ℝ) → Pos (UQ ℝ) → Res (Pos (UQ ℝ))
  | .cart3 x y z, .cart3 x' y' z' => do mkCart3U (← x.add x') (← y.add y') (← z.add z')
  | a, b => treeCart (· + ·) a b

/-- Cartesian `-`: `jax.tree.map` in all dimensions (`d1/cartesian.py` 161, `d2/cartesian.py` 158,
`d3/cartesian.py` 151) -/
def subCartU (a b : Pos (UQ ℝ)) : Res (Pos (UQ ℝ)) := treeCart (· - ·) a b

/-- Cartesian rules convert `rhs` to the class of `lhs`; the generic rules (`base_pos.py` 180-194, 450-460) convert
both to the Cartesian class of `lhs` and back. -/
def binPosU (f : Pos (UQ ℝ) → Pos (UQ ℝ) → Res (Pos (UQ ℝ))) (lhs rhs : Pos (UQ ℝ)) : Res (Pos (UQ ℝ)) :=
  match lhs with
  | .cart1 .. | .cart2 .. | .cart3 .. => do f lhs (← representAsU {} rhs lhs.kind)
  | _ => do
    let a ← representAsU {} lhs lhs.kind.cartesian
    let b ← representAsU {} rhs lhs.kind.cartesian
    let c ← representAsU {} b a.kind
    representAsU {} (← f a c) lhs.kind

/-- `lhs + rhs` -/
def addPosU (lhs rhs : Pos (UQ ℝ)) : Res (Pos (UQ ℝ)) := binPosU addCartU lhs rhs
/-- `lhs - rhs` -/
def subPosU (lhs rhs : Pos (UQ ℝ)) : Res (Pos (UQ ℝ)) := binPosU subCartU lhs rhs

/-- Componentwise unary operation on a Cartesian vector (`d1/cartesian.py` 118, 133; `d2/cartesian.py` 124, 139;
`d3/cartesian.py` 132, 412) -/
def mapCartU (f : UQ ℝ → UQ ℝ) : Pos (UQ ℝ) → Res (Pos (UQ ℝ))
  | .cart1 x => mkCart1U (f x)
  | .cart2 x y => mkCart2U (f x) (f y)
  | .cart3 x y z => mkCart3U (f x) (f y) (f z)
  | _ => .error .noDispatch

/-- `-p` (`base_pos.py` 383-405 and the Cartesian rules) -/
def negPosU (p : Pos (UQ ℝ)) : Res (Pos (UQ ℝ)) :=
  match p with
  | .cart1 .. | .cart2 .. | .cart3 .. => mapCartU UQ.neg p
  | _ => do
    let c ← toCartesianU p
    representAsU {} (← mapCartU UQ.neg c) p.kind

/-- `s * p`, `p * s` (`base_pos.py` 234-346, `d2/polar.py` 62-92, `d3/mathspherical.py` 186-219 and the Cartesian
rules) -/
def scalePosU (s : ℝ) (p : Pos (UQ ℝ)) : Res (Pos (UQ ℝ)) :=
  match p with
  | .cart1 .. | .cart2 .. | .cart3 .. => mapCartU (UQ.smul s) p
  | .polar r phi => mkPolarU (r.mapRaw (UQ.smul s)) (.angle phi)
  | .math r theta phi => mkMathU (r.mapRaw (UQ.smul s)) (.angle theta) phi
  | _ => do
    let c ← toCartesianU p
    representAsU {} (← mapCartU (UQ.smul s) c) p.kind

/-- `q / s` -/
def UQ.divBy (s : ℝ) (q : UQ ℝ) : Res (UQ ℝ) := do return ⟨← Num.div q.value s, q.unit⟩

/-- `r / s` on a radial field keeps its class -/
def Dist.divByU (s : ℝ) (r : Dist (UQ ℝ)) : Res (Dist (UQ ℝ)) := do
  let v ← r.raw.divBy s
  return r.mapRaw fun _ => v

/-- `TwoSpherePos(theta, phi)` (`_src/vectors/d2/spherical.py` 67-79) -/
def mkTwoSphereU (theta : UQ ℝ) (phi : AzArg (UQ ℝ)) : Res (Pos (UQ ℝ)) := do
  let theta ← ofDim RUnit.rad.dim theta
  let phi ← phi.convertU
  checkRangeU theta (.degs 0) (.degs 180)
  return .twoSphere theta phi

/-- `p / s` (`base_pos.py` 200-219): all components, angles included; the constructor runs again -/
def divPosU (p : Pos (UQ ℝ)) (s : ℝ) : Res (Pos (UQ ℝ)) :=
  match p with
  | .cart1 x => do mkCart1U (← x.divBy s)
  | .radial r => do mkRadialU (← r.divByU s)
  | .cart2 x y => do mkCart2U (← x.divBy s) (← y.divBy s)
  | .polar r phi => do mkPolarU (← r.divByU s) (.angle (← phi.divBy s))
  | .twoSphere theta phi => do mkTwoSphereU (← theta.divBy s) (.angle (← phi.divBy s))
  | .cart3 x y z => do mkCart3U (← x.divBy s) (← y.divBy s) (← z.divBy s)
  | .cyl rho phi z => do mkCylU (← rho.divBy s) (.angle (← phi.divBy s)) (← z.divBy s)
  | .sph r theta phi => do mkSphU (← r.divByU s) (← theta.divBy s) (.angle (← phi.divBy s))
  | .lonlat lon lat d => do mkLonLatU (.angle (← lon.divBy s)) (← lat.divBy s) (← d.divByU s)
  | .math r theta phi => do mkMathU (← r.divByU s) (.angle (← theta.divBy s)) (← phi.divBy s)
  | .prolate mu nu phi delta => do mkProlateU (← mu.divBy s) (← nu.divBy s) (.angle (← phi.divBy s)) delta

open Classical in
/-- one leaf of `tree.map(jnp.equal, self, other)` -/
def leafEqU (a b : UQ ℝ) : Res Bool := if a.unit = b.unit then .ok (beq a.value b.value) else .error .mismatch

/-- the distance class is part of the pytree structure -/
def Dist.leafEqU : Dist (UQ ℝ) → Dist (UQ ℝ) → Res Bool
  | .dist a, .dist b => Verif.leafEqU a b
  | .par a, .par b => Verif.leafEqU a b
  | .dm a, .dm b => Verif.leafEqU a b
  | _, _ => .error .mismatch

/-- `AbstractVector.__eq__` (`base/base.py` 545-618): `tree.map` over the stored values, `Delta` included -/
def eqSameU : Pos (UQ ℝ) → Pos (UQ ℝ) → Res Bool
  | .cart1 x, .cart1 x' => leafEqU x x'
  | .radial r, .radial r' => r.leafEqU r'
  | .cart2 x y, .cart2 x' y' => do return (← leafEqU x x') && (← leafEqU y y')
  | .polar r a, .polar r' a' => do return (← r.leafEqU r') && (← leafEqU a a')
  | .twoSphere a b, .twoSphere a' b' => do return (← leafEqU a a') && (← leafEqU b b')
  | .cart3 x y z, .cart3 x' y' z' => do return (← leafEqU x x') && (← leafEqU y y') && (← leafEqU z z')
  | .cyl a b c, .cyl a' b' c' => do return (← leafEqU a a') && (← leafEqU b b') && (← leafEqU c c')
  | .sph r a b, .sph r' a' b' => do return (← r.leafEqU r') && (← leafEqU a a') && (← leafEqU b b')
  | .lonlat a b r, .lonlat a' b' r' => do return (← leafEqU a a') && (← leafEqU b b') && (← r.leafEqU r')
  | .math r a b, .math r' a' b' => do return (← r.leafEqU r') && (← leafEqU a a') && (← leafEqU b b')
  | .prolate a b c d, .prolate a' b' c' d' => do
      return (← leafEqU a a') && (← leafEqU b b') && (← leafEqU c c') && (← leafEqU d d')
  | _, _ => .error .noDispatch

/-- `p == q` (`base_pos.py` 96-137) -/
def eqPosU (p q : Pos (UQ ℝ)) : Res Bool := do eqSameU p (← representAsU {} q p.kind)

/-- `normalize_vector` of a `CartesianPos3D` (`d3/cartesian.py` 159-190); the fields of `CartesianGeneric3D` accept any
Quantity -/
def normalizeCart3U (x y z : UQ ℝ) : Res (UQ ℝ × UQ ℝ × UQ ℝ) := do
  let n ← normU (.cart3 x y z)
  return (← x.div n.raw, ← y.div n.raw, ← z.div n.raw)

end

end Verif
