import Verif.AngDist
import Verif.Acc

/-!
# Conversions of vectors whose components carry units

The rules of `_src/vectors/d{1,2,3}/transform.py` and `_src/vectors/transform/*.py` once more, on quantities with
explicit units. `Verif/Represent.lean` and `Verif/Vel.lean` work in one unit per physical type; here every component
has its own, and the arithmetic is that of unxt:

* `a + b`, `a - b`, `a < b`, `atan2(a, b)` convert `b` to the unit of `a` and raise for another physical type,
* `a * b`, `a / b`, `a ** 2`, `sqrt(a)` act on the values and on the units,
* `sin`, `cos`, `tan` take the value in radians, `acos` the dimensionless value; they return a dimensionless quantity
  and an angle in radians,
* `where` and `select` convert all cases to the unit of the first case of `lax.select_n`, i.e. of the value for
  "false", whichever is selected.

unxt is not part of the repository: these rules are trusted. Scalars are over any `CNum`, so that the model can be run
on real values and on dual numbers (`jax.jacfwd`).
-/

namespace Verif

open Num

/-- Scalars with real constants (the factors of unit conversions). -/
class CNum (α : Type) extends Num α where
  /-- a constant: no tangent -/
  const : ℝ → α

noncomputable instance : CNum ℝ where
  const c := c

noncomputable instance : CNum Dual where
  const := Dual.const

/-- A quantity: value and unit. -/
structure UQ (α : Type) where
  value : α
  unit : RUnit

namespace RUnit
/-- `u.unit("m")`: an astronomical unit is 149597870700 m -/
noncomputable def metre : RUnit := ⟨{ len := 1 }, 1 / 149597870700, by positivity⟩
end RUnit

noncomputable section
variable {α : Type} [CNum α]

open CNum (const)

namespace UQ

/-- `u.ustrip(unit, q)` (unxt) -/
def strip (un : RUnit) (q : UQ α) : Res α :=
  if un.dim = q.unit.dim then .ok (const (q.unit.scale / un.scale) * q.value) else .error .units

/-- `u.uconvert(unit, q)` (unxt) -/
def inUnit (un : RUnit) (q : UQ α) : Res (UQ α) := do return ⟨← q.strip un, un⟩

/-- `a + b` -/
def add (a b : UQ α) : Res (UQ α) := do return ⟨a.value + (← b.strip a.unit), a.unit⟩
/-- `a - b` -/
def sub (a b : UQ α) : Res (UQ α) := do return ⟨a.value - (← b.strip a.unit), a.unit⟩
/-- `a * b` -/
def mul (a b : UQ α) : UQ α := ⟨a.value * b.value, a.unit.mul b.unit⟩
/-- `a ** 2` -/
def sq (a : UQ α) : UQ α := a.mul a
/-- `s * a` and `a * s` with an array `s` -/
def smul (s : α) (a : UQ α) : UQ α := ⟨s * a.value, a.unit⟩
/-- `a / b` -/
def div (a b : UQ α) : Res (UQ α) := do return ⟨← Num.div a.value b.value, a.unit.div b.unit⟩
/-- `-a` -/
def neg (a : UQ α) : UQ α := ⟨-a.value, a.unit⟩
/-- `xp.abs(a)` -/
def abs (a : UQ α) : UQ α := ⟨Num.abs a.value, a.unit⟩
/-- `xp.sqrt(a)` -/
def sqrt (a : UQ α) : Res (UQ α) := do return ⟨← Num.sqrt a.value, a.unit.pow (1 / 2)⟩
/-- `xp.sin(a)` -/
def sin (a : UQ α) : Res (UQ α) := do return ⟨Num.sin (← a.strip .rad), .one⟩
/-- `xp.cos(a)` -/
def cos (a : UQ α) : Res (UQ α) := do return ⟨Num.cos (← a.strip .rad), .one⟩
/-- `xp.tan(a)` -/
def tan (a : UQ α) : Res (UQ α) := do return ⟨← Num.tan (← a.strip .rad), .one⟩
/-- `xp.acos(a)` -/
def acos (a : UQ α) : Res (UQ α) := do return ⟨← Num.acos (← a.strip .one), .rad⟩
/-- `xp.atan2(y, x)` -/
def atan2 (y x : UQ α) : Res (UQ α) := do return ⟨← Num.atan2 y.value (← x.strip y.unit), .rad⟩
/-- `a < b` -/
def lt (a b : UQ α) : Res Bool := do return Num.lt a.value (← b.strip a.unit)
/-- `a < 0` (unxt compares any quantity with a literal zero) and `a < zeros_like(a)` -/
def neg? (a : UQ α) : Bool := Num.lt a.value (nat 0)
/-- `a > 0` -/
def pos? (a : UQ α) : Bool := Num.lt (nat 0) a.value
/-- `a == 0` -/
def zero? (a : UQ α) : Bool := Num.beq a.value (nat 0)
/-- `a % 360deg`: the value modulo 360 deg in the unit of `a` -/
def wrap (a : UQ α) : UQ α := ⟨const (1 / a.unit.scale) * Num.wrap (const a.unit.scale * a.value), a.unit⟩
/-- `qlax.select(c, a, b)` and `xp.where(c, a, b)`: in the unit of `b` -/
def select (c : Bool) (a b : UQ α) : Res (UQ α) := do
  let a' ← a.inUnit b.unit
  return if c then a' else b

/-- `Quantity(n, "deg")` -/
def degs (n : ℕ) : UQ α := ⟨nat n, .deg⟩

end UQ

/-! ### Distances -/

/-- `AbstractDistance.distance` (`_src/distances/core.py` 51-63, 155-172, 229-242); the unit of a `DistanceModulus` is
`mag` itself (223-227), so its value is used as it is. -/
def Dist.distanceU : Dist (UQ α) → Res (UQ α)
  | .dist d => .ok d
  | .par p => do UQ.div ⟨nat 1, .au⟩ (← p.tan)
  | .dm m => do
      let e ← Num.div m.value (nat 5)
      return ⟨pow10 (e + nat 1), .pc⟩

/-- The radial-field converter `Unless(AbstractDistance, Distance.from_)` on a Quantity
(`_src/distances/core.py` 275-320): a length is a distance, an angle a parallax, magnitudes a distance modulus. -/
def radialFrom (q : UQ α) : Res (Dist (UQ α)) :=
  if q.unit.dim = RUnit.au.dim then .ok (.dist q)
  else if q.unit.dim = RUnit.rad.dim then do return .dist (← (Dist.par q).distanceU)
  else if q.unit.dim = RUnit.mag.dim then do
    return .dist (← (Dist.dm (← q.inUnit .mag)).distanceU)
  else .error .units

/-- `Quantity[dim].from_(q)`: raises for another physical type -/
def ofDim (d : RDim) (q : UQ α) : Res (UQ α) := if q.unit.dim = d then .ok q else .error .units

/-- `Quantity["length"].from_(r)` of any distance -/
def Dist.lengthU (r : Dist (UQ α)) : Res (UQ α) := ofDim RUnit.au.dim r.raw

/-- Azimuth converter `Unless(Angle, lambda x: converter_azimuth_to_range(Angle.from_(x)))`
(`_src/vectors/converters.py` 12-28) -/
def AzArg.convertU : AzArg (UQ α) → Res (UQ α)
  | .qty x => do return (← ofDim RUnit.rad.dim x).wrap
  | .angle x => .ok x

/-! ### Constructors: field converters, then `__check_init__` -/

/-- `check_non_negative`, `check_r_non_negative` (`_src/vectors/checks.py` 19-39, 85-106) -/
def checkNonNegU (x : UQ α) : Res Unit := if x.neg? then .error .check else .ok ()

/-- `check_non_negative_non_zero` (`_src/vectors/checks.py` 109-138) -/
def checkPosU (x : UQ α) : Res Unit := if x.pos? then .ok () else .error .check

/-- `check_greater_than_equal(x, y)` and `check_less_than_equal(y, x)` (`_src/vectors/checks.py` 172-200, 234-262):
`x < y` raises -/
def checkNotLtU (x y : UQ α) : Res Unit := do
  let a ← x.lt y
  if a then .error .check else .ok ()

/-- `check_polar_range` (`_src/vectors/checks.py` 42-82) -/
def checkRangeU (x lo hi : UQ α) : Res Unit := do
  let a ← x.lt lo
  let b ← hi.lt x
  if a || b then .error .check else .ok ()

/-- `CartesianPos1D(x)` (`d1/cartesian.py` 52) -/
def mkCart1U (x : UQ α) : Res (Pos (UQ α)) := do return .cart1 (← ofDim RUnit.au.dim x)
/-- `CartesianPos2D(x, y)` (`d2/cartesian.py` 36-41) -/
def mkCart2U (x y : UQ α) : Res (Pos (UQ α)) := do
  return .cart2 (← ofDim RUnit.au.dim x) (← ofDim RUnit.au.dim y)
/-- `CartesianPos3D(x, y, z)` (`d3/cartesian.py` 39-55) -/
def mkCart3U (x y z : UQ α) : Res (Pos (UQ α)) := do
  return .cart3 (← ofDim RUnit.au.dim x) (← ofDim RUnit.au.dim y) (← ofDim RUnit.au.dim z)
/-- `RadialPos(r)` (`d1/radial.py` 26-33) -/
def mkRadialU (r : Dist (UQ α)) : Res (Pos (UQ α)) := do
  checkNonNegU r.raw
  return .radial r
/-- `PolarPos(r, phi)` (`d2/polar.py` 40-54) -/
def mkPolarU (r : Dist (UQ α)) (phi : AzArg (UQ α)) : Res (Pos (UQ α)) := do
  let phi ← phi.convertU
  checkNonNegU r.raw
  return .polar r phi
/-- `CylindricalPos(rho, phi, z)` (`d3/cylindrical.py` 36-55) -/
def mkCylU (rho : UQ α) (phi : AzArg (UQ α)) (z : UQ α) : Res (Pos (UQ α)) := do
  let rho ← ofDim RUnit.au.dim rho
  let phi ← phi.convertU
  let z ← ofDim RUnit.au.dim z
  checkNonNegU rho
  return .cyl rho phi z
/-- `SphericalPos(r, theta, phi)` (`d3/spherical.py` 54-72) -/
def mkSphU (r : Dist (UQ α)) (theta : UQ α) (phi : AzArg (UQ α)) : Res (Pos (UQ α)) := do
  let theta ← ofDim RUnit.rad.dim theta
  let phi ← phi.convertU
  checkNonNegU r.raw
  checkRangeU theta (.degs 0) (.degs 180)
  return .sph r theta phi
/-- `LonLatSphericalPos(lon, lat, distance)` (`d3/lonlatspherical.py` 103-121) -/
def mkLonLatU (lon : AzArg (UQ α)) (lat : UQ α) (distance : Dist (UQ α)) : Res (Pos (UQ α)) := do
  let lon ← lon.convertU
  let lat ← ofDim RUnit.rad.dim lat
  checkRangeU lat (UQ.degs 90).neg (.degs 90)
  checkNonNegU distance.raw
  return .lonlat lon lat distance
/-- `MathSphericalPos(r, theta, phi)` (`d3/mathspherical.py` 58-76) -/
def mkMathU (r : Dist (UQ α)) (theta : AzArg (UQ α)) (phi : UQ α) : Res (Pos (UQ α)) := do
  let theta ← theta.convertU
  let phi ← ofDim RUnit.rad.dim phi
  checkNonNegU r.raw
  checkRangeU phi (.degs 0) (.degs 180)
  return .math r theta phi
/-- `ProlateSpheroidalPos(mu, nu, phi, Delta=...)` (`d3/spheroidal.py` 90-120). `Delta` has no converter, but the
comparisons with `Delta**2` raise unless it is a length. -/
def mkProlateU (mu nu : UQ α) (phi : AzArg (UQ α)) (delta : UQ α) : Res (Pos (UQ α)) := do
  let mu ← ofDim (RUnit.au.dim.mul RUnit.au.dim) mu
  let nu ← ofDim (RUnit.au.dim.mul RUnit.au.dim) nu
  let phi ← phi.convertU
  checkPosU delta
  checkNotLtU mu delta.sq
  checkNotLtU delta.sq nu.abs
  return .prolate mu nu phi delta

/-- `SphericalPos.from_` after the field converters (`d3/spherical.py` 142-161) -/
def sphFromU (r : Dist (UQ α)) (theta : UQ α) (phi : AzArg (UQ α)) : Res (Pos (UQ α)) := do
  let theta ← ofDim RUnit.rad.dim theta
  let phi ← phi.convertU
  let neg := r.raw.neg?
  let r := if neg then r.mapRaw UQ.neg else r
  let phi ← UQ.select neg (← phi.add (.degs 180)) phi
  let theta ← UQ.select neg (← (UQ.degs 180).sub theta) theta
  let theta := theta.wrap
  let small ← theta.lt (.degs 180)
  let theta' ← UQ.select small theta (← (UQ.degs 360).sub theta)
  let phi ← UQ.select small phi (← phi.add (.degs 180))
  mkSphU r theta' (.qty phi)

/-- `MathSphericalPos.from_` (`d3/mathspherical.py` 164-183) -/
def mathFromU (r : Dist (UQ α)) (theta : AzArg (UQ α)) (phi : UQ α) : Res (Pos (UQ α)) := do
  let theta ← theta.convertU
  let phi ← ofDim RUnit.rad.dim phi
  let neg := r.raw.neg?
  let r := if neg then r.mapRaw UQ.neg else r
  let theta ← UQ.select neg (← theta.add (.degs 180)) theta
  let phi ← UQ.select neg (← (UQ.degs 180).sub phi) phi
  let phi := phi.wrap
  let small ← phi.lt (.degs 180)
  let phi' ← UQ.select small phi (← (UQ.degs 360).sub phi)
  let theta ← UQ.select small theta (← theta.add (.degs 180))
  mkMathU r (.qty theta) phi'

/-! ### 3-D rules, `_src/vectors/d3/transform.py` -/

/-- keyword argument with its default `Quantity(0.0, "m")` or `Quantity(0.0, "radian")` -/
def orZeroU (un : RUnit) (o : Option (UQ α)) : UQ α := o.getD ⟨nat 0, un⟩

/-- 186-204 -/
def cart3ToCylU (x y z : UQ α) : Res (Pos (UQ α)) := do
  let rho ← (← x.sq.add y.sq).sqrt
  let phi ← y.atan2 x
  mkCylU rho (.qty phi) z

/-- 207-226 -/
def cart3ToSphU (x y z : UQ α) : Res (Pos (UQ α)) := do
  let r ← (← (← x.sq.add y.sq).add z.sq).sqrt
  let theta ← (← z.div r).acos
  let phi ← y.atan2 x
  mkSphU (← radialFrom r) theta (.qty phi)

/-- 263-285 -/
def cylToCart3U (rho phi z : UQ α) : Res (Pos (UQ α)) := do
  mkCart3U (rho.mul (← phi.cos)) (rho.mul (← phi.sin)) z

/-- 288-309 -/
def cylToSphU (rho phi z : UQ α) : Res (Pos (UQ α)) := do
  let r ← (← rho.sq.add z.sq).sqrt
  let theta ← (← z.div r).acos
  mkSphU (← radialFrom r) theta (.angle phi)

/-- 349-371 -/
def sphToCart3U (r : Dist (UQ α)) (theta phi : UQ α) : Res (Pos (UQ α)) := do
  let d ← r.distanceU
  let s ← theta.sin
  let c ← theta.cos
  mkCart3U ((d.mul s).mul (← phi.cos)) ((d.mul s).mul (← phi.sin)) (d.mul c)

/-- 374-395 -/
def sphToCylU (r : Dist (UQ α)) (theta phi : UQ α) : Res (Pos (UQ α)) := do
  let d ← r.distanceU
  let s ← theta.sin
  let c ← theta.cos
  mkCylU (d.mul s).abs (.angle phi) (d.mul c)

/-- 398-419 -/
def sphToLonLatU (r : Dist (UQ α)) (theta phi : UQ α) : Res (Pos (UQ α)) := do
  mkLonLatU (.angle phi) (← (UQ.degs 90).sub theta) r

/-- 498-519 -/
def lonlatToSphU (lon lat : UQ α) (distance : Dist (UQ α)) : Res (Pos (UQ α)) := do
  mkSphU distance (← (UQ.degs 90).sub lat) (.angle lon)

/-- 601-629; `1 - nu_D2` takes the dimensionless value -/
def prolateToCylU (mu nu phi delta : UQ α) : Res (Pos (UQ α)) := do
  let delta2 := delta.sq
  let nuD2 ← nu.abs.div delta2
  let a ← mu.sub delta2
  let b ← UQ.sub ⟨nat 1, .one⟩ nuD2
  let rho ← (a.mul b).sqrt
  let s ← (mu.mul nuD2).sqrt
  mkCylU rho (.angle phi) (s.smul (sign nu.value))

/-- `D` of 670, 682-683 -/
def prolateDU (rho z sum diff rad : UQ α) : Res (UQ α) := do
  let d0 ← rad.sqrt
  let d1 ← UQ.select z.zero? sum d0
  UQ.select rho.zero? diff.abs d1

/-- `mu_minus_delta` of 686-693, in the unit of the case "false" (`neg_mu_minus_delta`) -/
def prolMuMinusDeltaU (half : α) (d diff delta2 r2 : UQ α) : Res (UQ α) := do
  let num := delta2.mul r2
  let m ← d.sub diff
  let p ← d.add diff
  if diff.neg? then num.div (m.smul half) else (p.smul half).inUnit (num.unit.div m.unit)

/-- `delta_minus_nu` of 687-694, in the unit of the case "false" (`neg_delta_minus_nu`) -/
def prolDeltaMinusNuU (half : α) (d diff delta2 r2 : UQ α) : Res (UQ α) := do
  let num := delta2.mul r2
  let m ← d.sub diff
  let p ← d.add diff
  if diff.neg? then return m.smul half else (← num.div (p.smul half)).inUnit m.unit

/-- `abs_nu` of 701, in the unit of the case "false" (`abs_nu`) -/
def prolAbsNuU (absNu0 : UQ α) (half : α) (d diff delta2 r2 : UQ α) : Res (UQ α) := do
  if ← delta2.lt (absNu0.smul (nat 2)) then
    (← delta2.sub (← prolDeltaMinusNuU half d diff delta2 r2)).inUnit absNu0.unit
  else return absNu0

/-- 632-705, with `Delta` given -/
def cylToProlateU (rho phi z delta : UQ α) : Res (Pos (UQ α)) := do
  let r2 := rho.sq
  let z2 := z.sq
  let delta2 := delta.sq
  let rz ← r2.add z2
  let sum ← rz.add delta2
  let diff ← rz.sub delta2
  let rad ← diff.sq.add ((r2.smul (nat 4)).mul delta2)
  let d ← prolateDU rho z sum diff rad
  let half ← Num.div (nat 1) (nat 2)
  let muMinusDelta ← prolMuMinusDeltaU half d diff delta2 r2
  let q ← (delta2.smul (nat 2)).div (← sum.add d)
  let absNu ← prolAbsNuU (q.mul z2) half d diff delta2 r2
  let mu ← delta2.add muMinusDelta
  mkProlateU mu (absNu.smul (sign z.value)) (.angle phi) delta

open Classical in
/-- Prolate to prolate, 734-775: `jax.lax.cond` traces both branches and raises (`TypeError`) unless their results have
the same structure, which includes the units. The branch that converts gives `mu` in the square of the unit of the new
`Delta`, `nu` in the unit computed below, and `Delta` in its own unit; the other branch gives the vector as it is. -/
def sameStructure (mu nu delta dl : UQ α) : Bool :=
  let rho := (mu.unit.mul RUnit.one).pow (1 / 2)
  let z := (mu.unit.mul (nu.unit.div (delta.unit.mul delta.unit))).pow (1 / 2)
  let dl2 := dl.unit.mul dl.unit
  decide (mu.unit = dl2 ∧ nu.unit = (dl2.div (rho.mul rho)).mul (z.mul z) ∧ delta.unit = dl.unit)

/-! ### 2-D, 1-D and dimension-changing rules -/

/-- `d2/transform.py` 58-69 -/
def cart2ToPolarU (x y : UQ α) : Res (Pos (UQ α)) := do
  let r ← (← x.sq.add y.sq).sqrt
  let phi ← y.atan2 x
  mkPolarU (← radialFrom r) (.qty phi)

/-- `d2/transform.py` 76-83 -/
def polarToCart2U (r : Dist (UQ α)) (phi : UQ α) : Res (Pos (UQ α)) := do
  let d ← r.distanceU
  mkCart2U (d.mul (← phi.cos)) (d.mul (← phi.sin))

/-- `transform/d3.py` 272-296: `current.r`, whatever its class -/
def sphToCart1U (r : Dist (UQ α)) (theta phi : UQ α) : Res (Pos (UQ α)) := do
  mkCart1U ((r.raw.mul (← theta.sin)).mul (← phi.cos))

/-- `transform/d3.py` 330-357 -/
def sphToCart2U (r : Dist (UQ α)) (theta phi : UQ α) : Res (Pos (UQ α)) := do
  let s ← theta.sin
  mkCart2U ((r.raw.mul s).mul (← phi.cos)) ((r.raw.mul s).mul (← phi.sin))

/-- `transform/d3.py` 360-385 -/
def sphToPolarU (r : Dist (UQ α)) (theta phi : UQ α) : Res (Pos (UQ α)) := do
  mkPolarU (← radialFrom (r.raw.mul (← theta.sin))) (.angle phi)

/-- `transform/d2.py` 224-248 -/
def polarToCart1U (r : Dist (UQ α)) (phi : UQ α) : Res (Pos (UQ α)) := do
  mkCart1U (r.raw.mul (← phi.cos))

end

/-- `coordinax.represent_as(vec, target, **kwargs)` for positions whose components have units: the rules and line
numbers of `represent` (`Verif/Represent.lean`). -/
noncomputable def representU {α : Type} [CNum α] : ℕ → Kw (UQ α) → Pos (UQ α) → Kind → Res (Pos (UQ α))
  | 0, _, _, _ => .error .recursion
  | n + 1, kw, p, k =>
    let len (o : Option (UQ α)) : UQ α := orZeroU .metre o
    let ang (o : Option (UQ α)) : UQ α := orZeroU .rad o
    match p, k with
    | .cart3 .., .cart3 => .ok p
    | .cyl .., .cyl => .ok p
    | .sph .., .sph => .ok p
    | .lonlat .., .lonlat => .ok p
    | .math .., .math => .ok p
    | .cart3 x y z, .cyl => cart3ToCylU x y z
    | .cart3 x y z, .sph => cart3ToSphU x y z
    | .cart3 .., .lonlat => do representU n {} (← representU n {} p .sph) .lonlat
    | .cart3 .., .math => do representU n {} (← representU n {} p .sph) .math
    | .cyl rho phi z, .cart3 => cylToCart3U rho phi z
    | .cyl rho phi z, .sph => cylToSphU rho phi z
    | .cyl .., .lonlat => do representU n {} (← representU n {} p .sph) .lonlat
    | .cyl .., .math => do representU n {} (← representU n {} p .sph) .math
    | .sph r theta phi, .cart3 => sphToCart3U r theta phi
    | .sph r theta phi, .cyl => sphToCylU r theta phi
    | .sph r theta phi, .lonlat => sphToLonLatU r theta phi
    | .sph r theta phi, .math => mkMathU r (.angle phi) theta
    | .lonlat .., .cart3 => do representU n {} (← representU n {} p .sph) .cart3
    | .lonlat .., .cyl => do representU n {} (← representU n {} p .sph) .cyl
    | .lonlat lon lat d, .sph => lonlatToSphU lon lat d
    | .math r theta phi, .cart3 => sphToCart3U r phi theta
    | .math r theta phi, .cyl => sphToCylU r phi theta
    | .math r theta phi, .sph => mkSphU r phi (.angle theta)
    | .lonlat .., .math => do representU n {} (← representU n {} p .cart3) .math
    | .math .., .lonlat => do representU n {} (← representU n {} p .cart3) .lonlat
    | .prolate mu nu phi delta, .cyl => prolateToCylU mu nu phi delta
    | .prolate .., .cart3 => do representU n {} (← representU n {} p .cyl) .cart3
    | .prolate .., .sph => do representU n {} (← representU n {} p .cyl) .sph
    | .prolate .., .lonlat => do representU n {} (← representU n {} p .cyl) .lonlat
    | .prolate .., .math => do representU n {} (← representU n {} p .cyl) .math
    | .prolate mu nu _ delta, .prolate =>
      if sameStructure mu nu delta (kw.delta.getD delta) then
        match kw.delta with
        | none => .ok p
        | some dl => do representU n { delta := some dl } (← representU n {} p .cyl) .prolate
      else .error .mismatch
    | .cyl rho phi z, .prolate =>
      match kw.delta with
      | none => .error .missingDelta
      | some dl => cylToProlateU rho phi z dl
    | .cart3 .., .prolate | .sph .., .prolate | .lonlat .., .prolate | .math .., .prolate =>
      match kw.delta with
      | none => .error .missingDelta
      | some dl => do representU n { delta := some dl } (← representU n {} p .cyl) .prolate
    | .cart2 .., .cart2 => .ok p
    | .polar .., .polar => .ok p
    | .cart2 x y, .polar => cart2ToPolarU x y
    | .polar r phi, .cart2 => polarToCart2U r phi
    | .cart2 .., .twoSphere => do representU n {} (← representU n {} p .cart2) .twoSphere
    | .polar .., .twoSphere => do representU n {} (← representU n {} p .cart2) .twoSphere
    | .twoSphere .., .cart2 => do representU n {} (← representU n {} p .cart2) .cart2
    | .twoSphere .., .polar => do representU n {} (← representU n {} p .cart2) .polar
    | .twoSphere .., .twoSphere => do representU n {} (← representU n {} p .cart2) .twoSphere
    | .cart1 .., .cart1 => .ok p
    | .radial .., .radial => .ok p
    | .cart1 x, .radial => do mkRadialU (← radialFrom x)
    | .radial r, .cart1 => do mkCart1U (← r.distanceU)
    | .cart1 x, .cart2 => mkCart2U x (len kw.y)
    | .cart1 x, .polar => do mkPolarU (← radialFrom x) (.qty (ang kw.phi))
    | .cart1 x, .cart3 => mkCart3U x (len kw.y) (len kw.z)
    | .cart1 x, .sph => do sphFromU (← radialFrom x) (ang kw.theta) (.qty (ang kw.phi))
    | .cart1 x, .math => do mathFromU (← radialFrom x) (.qty (ang kw.theta)) (ang kw.phi)
    | .cart1 x, .cyl => mkCylU x (.qty (ang kw.phi)) (len kw.z)
    | .radial r, .cart2 => mkCart2U r.raw (len kw.y)
    | .radial r, .polar => mkPolarU r (.qty (ang kw.phi))
    | .radial r, .cart3 => mkCart3U r.raw (len kw.y) (len kw.z)
    | .radial r, .sph => sphFromU r (ang kw.theta) (.qty (ang kw.phi))
    | .radial r, .math => mathFromU r (.qty (ang kw.theta)) (ang kw.phi)
    | .radial r, .cyl => mkCylU r.raw (.qty (ang kw.phi)) (len kw.z)
    | .cart2 .., .cyl => do representU n {} (← representU n { z := some (len kw.z) } p .cart3) .cyl
    | .cart2 .., .sph => do representU n {} (← representU n { z := some (len kw.z) } p .cart3) .sph
    | .cart2 .., .math =>
      do representU n {} (← representU n { z := some (len kw.z) } p .cart3) .math
    | .polar .., .cart3 =>
      do representU n {} (← representU n { z := some (len kw.z) } p .cyl) .cart3
    | .cart2 x _, .cart1 => mkCart1U x
    | .cart2 x y, .radial => do mkRadialU (← radialFrom (← (← x.sq.add y.sq).sqrt))
    | .cart2 x y, .cart3 => mkCart3U x y (len kw.z)
    | .polar r phi, .cart1 => polarToCart1U r phi
    | .polar r _, .radial => mkRadialU r
    | .polar r phi, .sph => sphFromU r (ang kw.theta) (.angle phi)
    | .polar r phi, .math => mathFromU r (.angle phi) (ang kw.phi)
    | .polar r phi, .cyl => mkCylU r.raw (.angle phi) (len kw.z)
    | .cart3 x _ _, .cart1 => mkCart1U x
    | .cart3 x y z, .radial => do mkRadialU (← radialFrom (← (← (← x.sq.add y.sq).add z.sq).sqrt))
    | .cart3 x y _, .cart2 => mkCart2U x y
    | .cart3 .., .polar => do representU n {} (← representU n {} p .cart2) .polar
    | .cyl rho phi _, .cart1 => do mkCart1U (rho.mul (← phi.cos))
    | .cyl rho _ _, .radial => do mkRadialU (← radialFrom rho)
    | .cyl rho phi _, .cart2 => do mkCart2U (rho.mul (← phi.cos)) (rho.mul (← phi.sin))
    | .cyl rho phi _, .polar => do mkPolarU (← radialFrom rho) (.angle phi)
    | .sph r theta phi, .cart1 => sphToCart1U r theta phi
    | .sph r _ _, .radial => mkRadialU r
    | .sph r theta phi, .cart2 => sphToCart2U r theta phi
    | .sph r theta phi, .polar => sphToPolarU r theta phi
    | .math r theta phi, .cart1 => sphToCart1U r phi theta
    | .math r _ _, .radial => mkRadialU r
    | .math r theta phi, .cart2 => sphToCart2U r phi theta
    | .math r theta phi, .polar => sphToPolarU r phi theta
    | .prolate .., .cart1 => do representU n {} (← representU n {} p .cart3) .cart1
    | .prolate .., .radial => do representU n {} (← representU n {} p .cart3) .radial
    | .prolate .., .cart2 => do representU n {} (← representU n {} p .cart3) .cart2
    | .prolate .., .polar => do representU n {} (← representU n {} p .cart3) .polar
    | .prolate .., .twoSphere => do representU n {} (← representU n {} p .cart3) .twoSphere
    | _, _ => .error .noDispatch

/-- `vec.represent_as(target, **kw)` -/
noncomputable def representAsU {α : Type} [CNum α] (kw : Kw (UQ α)) (p : Pos (UQ α)) (k : Kind) : Res (Pos (UQ α)) :=
  representU pyDepth kw p k

end Verif
