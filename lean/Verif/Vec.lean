import Verif.Num

/-!
# Position vectors and their constructors

Lengths are in astronomical units, angles in radians (unit handling is modelled separately in
`Verif/Units.lean`). A vector is scalar (batch shape `()`); the code is elementwise over batches.
-/

namespace Verif

open Num

/-- `AbstractDistance` and its three classes (`_src/distances/core.py` 26-49, 106-153, 206-227).
The radial fields of `RadialPos`, `PolarPos`, `SphericalPos`, `MathSphericalPos`,
`LonLatSphericalPos` keep whichever class they are given
(`converter=Unless(AbstractDistance, ...)`). -/
inductive Dist (α : Type) where
  /-- `Distance`: a length in AU -/
  | dist (d : α)
  /-- `Parallax`: an angle in radians -/
  | par (p : α)
  /-- `DistanceModulus`: magnitudes -/
  | dm (m : α)

section
variable {α : Type} [Num α]

/-- one parsec in AU: `648000 / π` (IAU definition) -/
def pcAU : Res α := div (nat 648000) pi

/-- `AbstractDistance.distance` (`_src/distances/core.py` 51-63, 155-172, 229-242).
`Parallax`: `1 AU / tan p`; `DistanceModulus`: `10 ** (m / 5 + 1)` parsec. -/
def Dist.distance : Dist α → Res α
  | .dist d => .ok d
  | .par p => do
      let t ← tan p
      div (nat 1) t
  | .dm m => do
      let e ← div m (nat 5)
      let pc ← pcAU
      return pow10 (e + nat 1) * pc

/-- The stored value, which is what `x < 0` looks at (`_src/vectors/checks.py` 106). -/
def Dist.raw : Dist α → α
  | .dist d => d
  | .par p => p
  | .dm m => m

/-- Apply a function to the stored value, keeping the distance class
(`-r`, `lhs * r` with an array `lhs`). -/
def Dist.mapRaw (f : α → α) : Dist α → Dist α
  | .dist d => .dist (f d)
  | .par p => .par (f p)
  | .dm m => .dm (f m)

/-- `Quantity["length"].from_(r)` for a distance-valued argument: only lengths are accepted. -/
def Dist.asLength : Dist α → Res α
  | .dist d => .ok d
  | _ => .error .units

/-- `r * q` for dimensionless Quantity `q`: the distance degrades to a Quantity of the same unit
(`_src/distances/compat.py` 16), and the radial-field converter then re-reads it with
`Distance.from_`, which treats angles as parallaxes and magnitudes as distance moduli
(`_src/distances/core.py` 275-320). -/
def Dist.scaleThenFrom (r : Dist α) (q : α) : Res (Dist α) :=
  match r with
  | .dist d => .ok (.dist (d * q))
  | .par p => do return .dist (← (Dist.par (p * q)).distance)
  | .dm m => do return .dist (← (Dist.dm (m * q)).distance)

end

/-- Concrete position classes in 1, 2 and 3 dimensions. -/
inductive Kind where
  | cart1 | radial
  | cart2 | polar | twoSphere
  | cart3 | cyl | sph | lonlat | math | prolate
  deriving DecidableEq, Repr

/-- Position vectors, fields in declaration order.
* `CartesianPos1D` `_src/vectors/d1/cartesian.py`; `RadialPos` `_src/vectors/d1/radial.py` 23-33
* `CartesianPos2D` `_src/vectors/d2/cartesian.py`; `PolarPos` `_src/vectors/d2/polar.py` 27-54;
  `TwoSpherePos` `_src/vectors/d2/spherical.py` 24-79
* `CartesianPos3D` `_src/vectors/d3/cartesian.py` 39-55; `CylindricalPos` `.../cylindrical.py` 29-55;
  `SphericalPos` `.../spherical.py` 36-72; `LonLatSphericalPos` `.../lonlatspherical.py` 37-121;
  `MathSphericalPos` `.../mathspherical.py` 40-76; `ProlateSpheroidalPos` `.../spheroidal.py` 30-120 -/
inductive Pos (α : Type) where
  | cart1 (x : α)
  | radial (r : Dist α)
  | cart2 (x y : α)
  | polar (r : Dist α) (phi : α)
  | twoSphere (theta phi : α)
  | cart3 (x y z : α)
  | cyl (rho phi z : α)
  | sph (r : Dist α) (theta phi : α)
  | lonlat (lon lat : α) (distance : Dist α)
  | math (r : Dist α) (theta phi : α)
  | prolate (mu nu phi delta : α)

/-- `type(vec)` -/
def Pos.kind {α : Type} : Pos α → Kind
  | .cart1 .. => .cart1
  | .radial .. => .radial
  | .cart2 .. => .cart2
  | .polar .. => .polar
  | .twoSphere .. => .twoSphere
  | .cart3 .. => .cart3
  | .cyl .. => .cyl
  | .sph .. => .sph
  | .lonlat .. => .lonlat
  | .math .. => .math
  | .prolate .. => .prolate

/-- `_dimensionality`: `AbstractPos1D`, `AbstractPos2D`, `AbstractPos3D`. -/
def Kind.dim : Kind → ℕ
  | .cart1 | .radial => 1
  | .cart2 | .polar | .twoSphere => 2
  | _ => 3

/-- `_cartesian_cls` (`_src/vectors/d1/base.py` 30-33, `d2/base.py`, `d3/base.py`). -/
def Kind.cartesian : Kind → Kind
  | .cart1 | .radial => .cart1
  | .cart2 | .polar | .twoSphere => .cart2
  | _ => .cart3

/-- Argument for an azimuth field: a plain `Quantity` or an `Angle`. -/
inductive AzArg (α : Type) where
  | qty (x : α)
  | angle (x : α)

section
variable {α : Type} [Num α]

/-- Azimuth field converter
`Unless(Angle, lambda x: converter_azimuth_to_range(Angle.from_(x)))`
(`_src/vectors/d3/spherical.py` 62-66, `_src/vectors/converters.py` 12-28):
an `Angle` is kept as it is, anything else is wrapped into `[0, 360)` deg. -/
def AzArg.convert : AzArg α → α
  | .qty x => wrap x
  | .angle x => x

/-- The angle denoted by an azimuth argument. -/
def AzArg.val : AzArg α → α
  | .qty x => x
  | .angle x => x

/-- `check_r_non_negative` / `check_non_negative` (`_src/vectors/checks.py` 19-39, 85-106). -/
def checkNonNeg (x : α) : Res Unit := if lt x (nat 0) then .error .check else .ok ()

/-- `check_non_negative_non_zero` (`_src/vectors/checks.py` 109-138): `x <= 0` raises. -/
def checkPos (x : α) : Res Unit := if lt (nat 0) x then .ok () else .error .check

/-- `check_polar_range` (`_src/vectors/checks.py` 42-82). -/
def checkRange (x lo hi : α) : Res Unit :=
  if lt x lo || lt hi x then .error .check else .ok ()

/-- 90 deg -/
def halfPi : Res α := div pi (nat 2)

/-- `CartesianPos1D(x)` -/
def mkCart1 (x : α) : Res (Pos α) := .ok (.cart1 x)
/-- `CartesianPos2D(x, y)` -/
def mkCart2 (x y : α) : Res (Pos α) := .ok (.cart2 x y)
/-- `CartesianPos3D(x, y, z)` (`_src/vectors/d3/cartesian.py` 39-55; no checks) -/
def mkCart3 (x y z : α) : Res (Pos α) := .ok (.cart3 x y z)

/-- `RadialPos(r)` (`_src/vectors/d1/radial.py` 26-33) -/
def mkRadial (r : Dist α) : Res (Pos α) := do
  checkNonNeg r.raw
  return .radial r

/-- `PolarPos(r, phi)` (`_src/vectors/d2/polar.py` 40-54) -/
def mkPolar (r : Dist α) (phi : AzArg α) : Res (Pos α) := do
  checkNonNeg r.raw
  return .polar r phi.convert

/-- `TwoSpherePos(theta, phi)` (`_src/vectors/d2/spherical.py` 67-79) -/
def mkTwoSphere (theta : α) (phi : AzArg α) : Res (Pos α) := do
  checkRange theta (nat 0) pi
  return .twoSphere theta phi.convert

/-- `CylindricalPos(rho, phi, z)` (`_src/vectors/d3/cylindrical.py` 36-55) -/
def mkCyl (rho : α) (phi : AzArg α) (z : α) : Res (Pos α) := do
  checkNonNeg rho
  return .cyl rho phi.convert z

/-- `SphericalPos(r, theta, phi)` (`_src/vectors/d3/spherical.py` 54-72) -/
def mkSph (r : Dist α) (theta : α) (phi : AzArg α) : Res (Pos α) := do
  checkNonNeg r.raw
  checkRange theta (nat 0) pi
  return .sph r theta phi.convert

/-- `LonLatSphericalPos(lon, lat, distance)` (`_src/vectors/d3/lonlatspherical.py` 103-121) -/
def mkLonLat (lon : AzArg α) (lat : α) (distance : Dist α) : Res (Pos α) := do
  let hp ← halfPi
  checkRange lat (-hp) hp
  checkNonNeg distance.raw
  return .lonlat lon.convert lat distance

/-- `MathSphericalPos(r, theta, phi)`: `theta` is the azimuth, `phi` the inclination
(`_src/vectors/d3/mathspherical.py` 58-76) -/
def mkMath (r : Dist α) (theta : AzArg α) (phi : α) : Res (Pos α) := do
  checkNonNeg r.raw
  checkRange phi (nat 0) pi
  return .math r theta.convert phi

/-- `ProlateSpheroidalPos(mu, nu, phi, Delta=...)` (`_src/vectors/d3/spheroidal.py` 90-120);
`check_greater_than_equal` raises iff `mu < Delta^2`, `check_less_than_equal` iff
`|nu| > Delta^2` (`_src/vectors/checks.py` 172-200, 234-262). -/
def mkProlate (mu nu : α) (phi : AzArg α) (delta : α) : Res (Pos α) := do
  checkPos delta
  if lt mu (delta * delta) then throw .check
  if lt (delta * delta) (Num.abs nu) then throw .check
  return .prolate mu nu phi.convert delta

/-- 360 deg -/
def twoPi : α := nat 2 * pi

/-- Steps 1-4 of `SphericalPos.from_` (`_src/vectors/d3/spherical.py` 142-161): negative radius,
inclination outside `[0, 180]` deg, azimuth wrapping. After `phi + _180d` and `select` the azimuth
is a `Quantity`, so the constructor wraps it ("This also handles the azimuthal angle wrapping"). -/
def sphFrom (r : Dist α) (theta : α) (phi : AzArg α) : Res (Pos α) := do
  let phi := phi.convert
  let neg := lt r.raw (nat 0)
  let r := if neg then r.mapRaw (fun v => -v) else r
  let phi := if neg then phi + pi else phi
  let theta := if neg then pi - theta else theta
  let theta := wrap theta
  let small := lt theta pi
  let phi := if small then phi else phi + pi
  let theta := if small then theta else twoPi - theta
  mkSph r theta (.qty phi)

/-- `MathSphericalPos.from_` (`_src/vectors/d3/mathspherical.py` 164-183); same cascade with
`theta` the azimuth and `phi` the inclination. -/
def mathFrom (r : Dist α) (theta : AzArg α) (phi : α) : Res (Pos α) := do
  let theta := theta.convert
  let neg := lt r.raw (nat 0)
  let r := if neg then r.mapRaw (fun v => -v) else r
  let theta := if neg then theta + pi else theta
  let phi := if neg then pi - phi else phi
  let phi := wrap phi
  let small := lt phi pi
  let theta := if small then theta else theta + pi
  let phi := if small then phi else twoPi - phi
  mkMath r (.qty theta) phi

/-- `LonLatSphericalPos.from_` (`_src/vectors/d3/lonlatspherical.py` 219-242); the latitude is
reflected at most once at each pole ("TODO: fix when lat < -180, lat > 180"). -/
def lonlatFrom (lon : AzArg α) (lat : α) (distance : Dist α) : Res (Pos α) := do
  let hp ← halfPi
  let lon := lon.convert
  let neg := lt distance.raw (nat 0)
  let distance := if neg then distance.mapRaw (fun v => -v) else distance
  let lon := if neg then lon + pi else lon
  let lat := if neg then -lat else lat
  let below := lt lat (-hp)
  let lon := if below then lon + pi else lon
  let lat := if below then -pi - lat else lat
  let above := lt hp lat
  let lon := if above then lon + pi else lon
  let lat := if above then pi - lat else lat
  mkLonLat (.qty lon) lat distance

end

end Verif
