import Verif.Vec

/-!
# Position conversion: `coordinax.represent_as`

One definition per rule of `_src/vectors/d{1,2,3}/transform.py` and
`_src/vectors/transform/d{1,2,3}.py`; `represent` is the dispatcher.
-/

namespace Verif

open Num

/-- Keyword arguments understood by some rule. The defaults (`y = z = 0 m`, `theta = phi = 0 rad`)
are applied by the rules that declare them. -/
structure Kw (α : Type) where
  y : Option α := none
  z : Option α := none
  theta : Option α := none
  phi : Option α := none
  delta : Option α := none

section
variable {α : Type} [Num α]

/-- `getD` with the default `Quantity(0.0, ...)` -/
def orZero (o : Option α) : α := o.getD (nat 0)

/-! ### 3-D primitives, `_src/vectors/d3/transform.py` -/

/-- CartesianPos3D -> CylindricalPos, 186-204 -/
def cart3ToCyl (x y z : α) : Res (Pos α) := do
  let rho ← sqrt (x * x + y * y)
  let phi ← atan2 y x
  mkCyl rho (.qty phi) z

/-- CartesianPos3D -> SphericalPos, 207-226 -/
def cart3ToSph (x y z : α) : Res (Pos α) := do
  let r ← sqrt (x * x + y * y + z * z)
  let c ← div z r
  let theta ← acos c
  let phi ← atan2 y x
  mkSph (.dist r) theta (.qty phi)

/-- CylindricalPos -> CartesianPos3D, 263-285 -/
def cylToCart3 (rho phi z : α) : Res (Pos α) :=
  mkCart3 (rho * cos phi) (rho * sin phi) z

/-- CylindricalPos -> SphericalPos, 288-309 (`phi` is an `Angle`, hence not wrapped again) -/
def cylToSph (rho phi z : α) : Res (Pos α) := do
  let r ← sqrt (rho * rho + z * z)
  let c ← div z r
  let theta ← acos c
  mkSph (.dist r) theta (.angle phi)

/-- SphericalPos -> CartesianPos3D, 349-371 -/
def sphToCart3 (r : Dist α) (theta phi : α) : Res (Pos α) := do
  let d ← r.distance
  mkCart3 (d * sin theta * cos phi) (d * sin theta * sin phi) (d * cos theta)

/-- SphericalPos -> CylindricalPos, 374-395 -/
def sphToCyl (r : Dist α) (theta phi : α) : Res (Pos α) := do
  let d ← r.distance
  mkCyl (Num.abs (d * sin theta)) (.angle phi) (d * cos theta)

/-- SphericalPos -> LonLatSphericalPos, 398-419 -/
def sphToLonLat (r : Dist α) (theta phi : α) : Res (Pos α) := do
  let hp ← halfPi
  mkLonLat (.angle phi) (hp - theta) r

/-- SphericalPos -> MathSphericalPos, 422-441 -/
def sphToMath (r : Dist α) (theta phi : α) : Res (Pos α) := mkMath r (.angle phi) theta

/-- LonLatSphericalPos -> SphericalPos, 498-519 -/
def lonlatToSph (lon lat : α) (distance : Dist α) : Res (Pos α) := do
  let hp ← halfPi
  mkSph distance (hp - lat) (.angle lon)

/-- MathSphericalPos -> CartesianPos3D, 526-548 -/
def mathToCart3 (r : Dist α) (theta phi : α) : Res (Pos α) := do
  let d ← r.distance
  mkCart3 (d * sin phi * cos theta) (d * sin phi * sin theta) (d * cos phi)

/-- MathSphericalPos -> CylindricalPos, 551-572 -/
def mathToCyl (r : Dist α) (theta phi : α) : Res (Pos α) := do
  let d ← r.distance
  mkCyl (Num.abs (d * sin phi)) (.angle theta) (d * cos phi)

/-- MathSphericalPos -> SphericalPos, 575-594 -/
def mathToSph (r : Dist α) (theta phi : α) : Res (Pos α) := mkSph r phi (.angle theta)

/-- ProlateSpheroidalPos -> CylindricalPos, 601-629 -/
def prolateToCyl (mu nu phi delta : α) : Res (Pos α) := do
  let delta2 := delta * delta
  let nuD2 ← div (Num.abs nu) delta2
  let rho ← sqrt ((mu - delta2) * (nat 1 - nuD2))
  let s ← sqrt (mu * nuD2)
  mkCyl rho (.angle phi) (s * sign nu)

/-- `D` of 670, 682-683: `xp.where(z == 0, sum_, sqrt(...))` then `xp.where(rho == 0, |diff_|, D)`. -/
def prolateD (rho z sum diff rad : α) : Res α := do
  let d0 ← sqrt rad
  let d1 := if beq z (nat 0) then sum else d0
  return if beq rho (nat 0) then Num.abs diff else d1

/-- `mu_minus_delta` of 686-693: `xp.where(diff_ >= 0, 0.5 * (D + diff_), Delta2 * R2 / (0.5 * (D - diff_)))`.
`xp.where` discards the unselected side (and its NaN), so only the selected side is computed. -/
def prolMuMinusDelta (half d diff delta2 r2 : α) : Res α :=
  if lt diff (nat 0) then div (delta2 * r2) (half * (d - diff)) else .ok (half * (d + diff))

/-- `delta_minus_nu` of 687-694: `xp.where(diff_ >= 0, Delta2 * R2 / (0.5 * (D + diff_)), 0.5 * (D - diff_))`. -/
def prolDeltaMinusNu (half d diff delta2 r2 : α) : Res α :=
  if lt diff (nat 0) then .ok (half * (d - diff)) else div (delta2 * r2) (half * (d + diff))

/-- `abs_nu` of 701: `xp.where(abs_nu * 2 > Delta2, Delta2 - delta_minus_nu, abs_nu)`. -/
def prolAbsNu (absNu0 half d diff delta2 r2 : α) : Res α :=
  if lt delta2 (absNu0 * nat 2) then do
    return delta2 - (← prolDeltaMinusNu half d diff delta2 r2)
  else .ok absNu0

/-- CylindricalPos -> ProlateSpheroidalPos, 632-705, with `Delta` given. -/
def cylToProlate (rho phi z delta : α) : Res (Pos α) := do
  let r2 := rho * rho
  let z2 := z * z
  let delta2 := delta * delta
  let sum := r2 + z2 + delta2
  let diff := r2 + z2 - delta2
  let d ← prolateD rho z sum diff (diff * diff + nat 4 * r2 * delta2)
  let half ← div (nat 1) (nat 2)
  let muMinusDelta ← prolMuMinusDelta half d diff delta2 r2
  let q ← div (nat 2 * delta2) (sum + d)
  let absNu ← prolAbsNu (q * z2) half d diff delta2 r2
  mkProlate (delta2 + muMinusDelta) (absNu * sign z) (.angle phi) delta

/-! ### 2-D and 1-D primitives -/

/-- CartesianPos2D -> PolarPos, `d2/transform.py` 58-69 -/
def cart2ToPolar (x y : α) : Res (Pos α) := do
  let r ← sqrt (x * x + y * y)
  let phi ← atan2 y x
  mkPolar (.dist r) (.qty phi)

/-- PolarPos -> CartesianPos2D, `d2/transform.py` 76-83 -/
def polarToCart2 (r : Dist α) (phi : α) : Res (Pos α) := do
  let d ← r.distance
  mkCart2 (d * cos phi) (d * sin phi)

/-! ### Dimension-changing primitives -/

/-- SphericalPos -> CartesianPos1D, `transform/d3.py` 272-296: uses `current.r`, not `.distance` -/
def sphToCart1 (r : Dist α) (theta phi : α) : Res (Pos α) := do
  let d ← r.asLength
  mkCart1 (d * sin theta * cos phi)

/-- SphericalPos -> CartesianPos2D, `transform/d3.py` 330-357 -/
def sphToCart2 (r : Dist α) (theta phi : α) : Res (Pos α) := do
  let d ← r.asLength
  mkCart2 (d * sin theta * cos phi) (d * sin theta * sin phi)

/-- SphericalPos -> PolarPos, `transform/d3.py` 360-385 -/
def sphToPolar (r : Dist α) (theta phi : α) : Res (Pos α) := do
  let r' ← r.scaleThenFrom (sin theta)
  mkPolar r' (.angle phi)

/-- PolarPos -> CartesianPos1D, `transform/d2.py` 224-248: uses `current.r`, not `.distance` -/
def polarToCart1 (r : Dist α) (phi : α) : Res (Pos α) := do
  let d ← r.asLength
  mkCart1 (d * cos phi)

end

/-- `coordinax.represent_as(vec, target, **kwargs)` for positions. One branch per dispatch rule;
`fuel` bounds the Python recursion depth. Rules that call `represent_as` without forwarding
`kwargs` pass `{}`.
Target-independent comments give the file of each block. -/
def represent {α : Type} [Num α] : ℕ → Kw α → Pos α → Kind → Res (Pos α)
  | 0, _, _, _ => .error .recursion
  | n + 1, kw, p, k =>
    match p, k with
    -- `d3/transform.py` 41-97: self transforms
    | .cart3 .., .cart3 => .ok p
    | .cyl .., .cyl => .ok p
    | .sph .., .sph => .ok p
    | .lonlat .., .lonlat => .ok p
    | .math .., .math => .ok p
    -- `d3/transform.py` 186-256: from CartesianPos3D
    | .cart3 x y z, .cyl => cart3ToCyl x y z
    | .cart3 x y z, .sph => cart3ToSph x y z
    | .cart3 .., .lonlat => do represent n {} (← represent n {} p .sph) .lonlat
    | .cart3 .., .math => do represent n {} (← represent n {} p .sph) .math
    -- 263-342: from CylindricalPos
    | .cyl rho phi z, .cart3 => cylToCart3 rho phi z
    | .cyl rho phi z, .sph => cylToSph rho phi z
    | .cyl .., .lonlat => do represent n {} (← represent n {} p .sph) .lonlat
    | .cyl .., .math => do represent n {} (← represent n {} p .sph) .math
    -- 349-441: from SphericalPos
    | .sph r theta phi, .cart3 => sphToCart3 r theta phi
    | .sph r theta phi, .cyl => sphToCyl r theta phi
    | .sph r theta phi, .lonlat => sphToLonLat r theta phi
    | .sph r theta phi, .math => sphToMath r theta phi
    -- 448-519: from LonLatSphericalPos
    | .lonlat .., .cart3 => do represent n {} (← represent n {} p .sph) .cart3
    | .lonlat .., .cyl => do represent n {} (← represent n {} p .sph) .cyl
    | .lonlat lon lat d, .sph => lonlatToSph lon lat d
    -- 526-594: from MathSphericalPos
    | .math r theta phi, .cart3 => mathToCart3 r theta phi
    | .math r theta phi, .cyl => mathToCyl r theta phi
    | .math r theta phi, .sph => mathToSph r theta phi
    -- 33-38: generic rule, the only one left for these pairs
    | .lonlat .., .math => do represent n {} (← represent n {} p .cart3) .math
    | .math .., .lonlat => do represent n {} (← represent n {} p .cart3) .lonlat
    -- 601-705, 708-731: prolate source
    | .prolate mu nu phi delta, .cyl => prolateToCyl mu nu phi delta
    | .prolate .., .cart3 => do represent n {} (← represent n {} p .cyl) .cart3
    | .prolate .., .sph => do represent n {} (← represent n {} p .cyl) .sph
    | .prolate .., .lonlat => do represent n {} (← represent n {} p .cyl) .lonlat
    | .prolate .., .math => do represent n {} (← represent n {} p .cyl) .math
    -- 734-775: prolate to prolate
    | .prolate .., .prolate =>
      match kw.delta with
      | none => .ok p
      | some dl => do represent n { delta := some dl } (← represent n {} p .cyl) .prolate
    -- 632-705: cylindrical to prolate
    | .cyl rho phi z, .prolate =>
      match kw.delta with
      | none => .error .missingDelta
      | some dl => cylToProlate rho phi z dl
    -- 778-821: any other 3-D position to prolate
    | .cart3 .., .prolate | .sph .., .prolate | .lonlat .., .prolate | .math .., .prolate =>
      match kw.delta with
      | none => .error .missingDelta
      | some dl => do represent n { delta := some dl } (← represent n {} p .cyl) .prolate
    -- `d2/transform.py` 28-36: self transforms (TwoSpherePos is not listed)
    | .cart2 .., .cart2 => .ok p
    | .polar .., .polar => .ok p
    -- `d2/transform.py` 58-83
    | .cart2 x y, .polar => cart2ToPolar x y
    | .polar r phi, .cart2 => polarToCart2 r phi
    -- `d2/transform.py` 17-25: generic rule, left for every pair involving TwoSpherePos
    | .cart2 .., .twoSphere => do represent n {} (← represent n {} p .cart2) .twoSphere
    | .polar .., .twoSphere => do represent n {} (← represent n {} p .cart2) .twoSphere
    | .twoSphere .., .cart2 => do represent n {} (← represent n {} p .cart2) .cart2
    | .twoSphere .., .polar => do represent n {} (← represent n {} p .cart2) .polar
    | .twoSphere .., .twoSphere => do represent n {} (← represent n {} p .cart2) .twoSphere
    -- `d1/transform.py` 31-45: self transforms; 115-138
    | .cart1 .., .cart1 => .ok p
    | .radial .., .radial => .ok p
    | .cart1 x, .radial => mkRadial (.dist x)
    | .radial r, .cart1 => do mkCart1 (← r.distance)
    -- `transform/d1.py` 29-96: CartesianPos1D to 2-D
    | .cart1 x, .cart2 => mkCart2 x (orZero kw.y)
    | .cart1 x, .polar => mkPolar (.dist x) (.qty (orZero kw.phi))
    -- 103-245: CartesianPos1D to 3-D
    | .cart1 x, .cart3 => mkCart3 x (orZero kw.y) (orZero kw.z)
    | .cart1 x, .sph => sphFrom (.dist x) (orZero kw.theta) (.qty (orZero kw.phi))
    | .cart1 x, .math => mathFrom (.dist x) (.qty (orZero kw.theta)) (orZero kw.phi)
    | .cart1 x, .cyl => mkCyl x (.qty (orZero kw.phi)) (orZero kw.z)
    -- 255-322: RadialPos to 2-D
    | .radial r, .cart2 => do mkCart2 (← r.asLength) (orZero kw.y)
    | .radial r, .polar => mkPolar r (.qty (orZero kw.phi))
    -- 329-471: RadialPos to 3-D
    | .radial r, .cart3 => do mkCart3 (← r.asLength) (orZero kw.y) (orZero kw.z)
    | .radial r, .sph => sphFrom r (orZero kw.theta) (.qty (orZero kw.phi))
    | .radial r, .math => mathFrom r (.qty (orZero kw.theta)) (orZero kw.phi)
    | .radial r, .cyl => do mkCyl (← r.asLength) (.qty (orZero kw.phi)) (orZero kw.z)
    -- `transform/d2.py` 25-76: CartesianPos2D to curvilinear 3-D through CartesianPos3D
    | .cart2 .., .cyl => do represent n {} (← represent n { z := some (orZero kw.z) } p .cart3) .cyl
    | .cart2 .., .sph => do represent n {} (← represent n { z := some (orZero kw.z) } p .cart3) .sph
    | .cart2 .., .math =>
      do represent n {} (← represent n { z := some (orZero kw.z) } p .cart3) .math
    -- 79-112: PolarPos to CartesianPos3D through CylindricalPos
    | .polar .., .cart3 =>
      do represent n {} (← represent n { z := some (orZero kw.z) } p .cyl) .cart3
    -- 123-214: CartesianPos2D to CartesianPos1D, RadialPos, CartesianPos3D
    | .cart2 x _, .cart1 => mkCart1 x
    | .cart2 x y, .radial => do mkRadial (.dist (← sqrt (x * x + y * y)))
    | .cart2 x y, .cart3 => mkCart3 x y (orZero kw.z)
    -- 224-367: PolarPos to CartesianPos1D, RadialPos, SphericalPos, MathSphericalPos, CylindricalPos
    | .polar r phi, .cart1 => polarToCart1 r phi
    | .polar r _, .radial => mkRadial r
    | .polar r phi, .sph => sphFrom r (orZero kw.theta) (.angle phi)
    | .polar r phi, .math => mathFrom r (.angle phi) (orZero kw.phi)
    | .polar r phi, .cyl => do mkCyl (← r.asLength) (.angle phi) (orZero kw.z)
    -- `transform/d3.py` 31-137: CartesianPos3D to lower dimension
    | .cart3 x _ _, .cart1 => mkCart1 x
    | .cart3 x y z, .radial => do mkRadial (.dist (← sqrt (x * x + y * y + z * z)))
    | .cart3 x y _, .cart2 => mkCart2 x y
    | .cart3 .., .polar => do represent n {} (← represent n {} p .cart2) .polar
    -- 148-261: CylindricalPos to lower dimension
    | .cyl rho phi _, .cart1 => mkCart1 (rho * cos phi)
    | .cyl rho _ _, .radial => mkRadial (.dist rho)
    | .cyl rho phi _, .cart2 => mkCart2 (rho * cos phi) (rho * sin phi)
    | .cyl rho phi _, .polar => mkPolar (.dist rho) (.angle phi)
    -- 272-385: SphericalPos to lower dimension
    | .sph r theta phi, .cart1 => sphToCart1 r theta phi
    | .sph r _ _, .radial => mkRadial r
    | .sph r theta phi, .cart2 => sphToCart2 r theta phi
    | .sph r theta phi, .polar => sphToPolar r theta phi
    -- 396-509: MathSphericalPos to lower dimension (same formulas, theta and phi exchanged)
    | .math r theta phi, .cart1 => sphToCart1 r phi theta
    | .math r _ _, .radial => mkRadial r
    | .math r theta phi, .cart2 => sphToCart2 r phi theta
    | .math r theta phi, .polar => sphToPolar r phi theta
    -- 520-597: ProlateSpheroidalPos to lower dimension through CartesianPos3D
    | .prolate .., .cart1 => do represent n {} (← represent n {} p .cart3) .cart1
    | .prolate .., .radial => do represent n {} (← represent n {} p .cart3) .radial
    | .prolate .., .cart2 => do represent n {} (← represent n {} p .cart3) .cart2
    | .prolate .., .polar => do represent n {} (← represent n {} p .cart3) .polar
    | .prolate .., .twoSphere => do represent n {} (← represent n {} p .cart3) .twoSphere
    -- no rule
    | _, _ => .error .noDispatch

/-- `sys.getrecursionlimit()` is 1000 and each `represent_as` call takes a few Python frames. -/
def pyDepth : ℕ := 200

/-- `vec.represent_as(target, **kw)` (`_src/vectors/base/base.py` 152ff forwards here). -/
def representAs {α : Type} [Num α] (kw : Kw α) (p : Pos α) (k : Kind) : Res (Pos α) :=
  represent pyDepth kw p k

end Verif
