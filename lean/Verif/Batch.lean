import Verif.Shape
import Verif.Represent

/-!
# Positions whose components are arrays

`Verif/Represent.lean` transcribes each formula for one scalar element. Here the same rules are
transcribed a second time on arrays, operation by operation, with numpy broadcasting, elementwise
`where`, JAX's `select` (which does not broadcast), checks that look at all elements, and the shape
rule of `jax.lax.cond`. Nothing is assumed to be elementwise: that is what property C49 proves.

An element is a real number or `none`: NaN. An infinite element is treated like NaN (comparisons
involving it are false). Lengths in AU, angles in radians.
-/

namespace Verif

open Num

/-- an element: `none` is NaN (or infinite) -/
abbrev El := Option ℝ

/-- the array inside a `Quantity` -/
abbrev BArr := Arr El

section ops
variable {α β γ : Type}

/-- the element that stands at index `idx` of any array to which `a` is broadcast -/
def Arr.elem (a : Arr α) (idx : List ℕ) : α := a.get (bcIdxRev a.shape.reverse idx.reverse).reverse

/-- elementwise function of one array -/
def Arr.map (f : α → β) (a : Arr α) : Arr β := ⟨a.shape, fun idx => f (a.get idx)⟩

/-- elementwise function of two arrays, with broadcasting; raises when the shapes do not fit -/
def Arr.map2 (f : α → β → γ) (a : Arr α) (b : Arr β) : Res (Arr γ) := do
  let s ← bc2 a.shape b.shape
  return ⟨s, fun idx => f (a.elem idx) (b.elem idx)⟩

/-- rank-0 array -/
def Arr.scalar (x : α) : Arr α := ⟨[], fun _ => x⟩

end ops

/-- NaN in, NaN out; NaN where the operation is not finite -/
noncomputable def el1 (f : ℝ → Res ℝ) (x : El) : El :=
  match x with
  | none => none
  | some v => match f v with
    | .ok w => some w
    | .error _ => none

/-- the same for two arguments -/
noncomputable def el2 (f : ℝ → ℝ → Res ℝ) (x y : El) : El :=
  match x, y with
  | some v, some w => match f v w with
    | .ok u => some u
    | .error _ => none
  | _, _ => none

/-- comparison: false as soon as one side is NaN -/
noncomputable def elCmp (f : ℝ → ℝ → Bool) (x y : El) : Bool :=
  match x, y with
  | some v, some w => f v w
  | _, _ => false

/-- `a + b` -/
noncomputable def badd (a b : BArr) : Res BArr := Arr.map2 (el2 fun x y => .ok (x + y)) a b
/-- `a - b` -/
noncomputable def bsub (a b : BArr) : Res BArr := Arr.map2 (el2 fun x y => .ok (x - y)) a b
/-- `a * b` -/
noncomputable def bmul (a b : BArr) : Res BArr := Arr.map2 (el2 fun x y => .ok (x * y)) a b
/-- `a / b` -/
noncomputable def bdiv (a b : BArr) : Res BArr := Arr.map2 (el2 Num.div) a b
/-- `xp.atan2(a, b)` -/
noncomputable def batan2 (a b : BArr) : Res BArr := Arr.map2 (el2 Num.atan2) a b
/-- `-a` -/
noncomputable def bneg (a : BArr) : BArr := a.map (el1 fun x => .ok (-x))
/-- `xp.abs` -/
noncomputable def babs (a : BArr) : BArr := a.map (el1 fun x => .ok (Num.abs x))
/-- `xp.sign` -/
noncomputable def bsign (a : BArr) : BArr := a.map (el1 fun x => .ok (Num.sign x))
/-- `xp.sin` -/
noncomputable def bsin (a : BArr) : BArr := a.map (el1 fun x => .ok (Num.sin x))
/-- `xp.cos` -/
noncomputable def bcos (a : BArr) : BArr := a.map (el1 fun x => .ok (Num.cos x))
/-- `a % 360 deg` -/
noncomputable def bwrap (a : BArr) : BArr := a.map (el1 fun x => .ok (Num.wrap x))
/-- `10 ** a` -/
noncomputable def bpow10 (a : BArr) : BArr := a.map (el1 fun x => .ok (Num.pow10 x))
/-- `xp.sqrt` -/
noncomputable def bsqrt (a : BArr) : BArr := a.map (el1 Num.sqrt)
/-- `xp.acos` -/
noncomputable def bacos (a : BArr) : BArr := a.map (el1 Num.acos)
/-- `xp.tan` -/
noncomputable def btan (a : BArr) : BArr := a.map (el1 Num.tan)
/-- a literal -/
noncomputable def bnat (n : ℕ) : BArr := .scalar (some (Num.nat n))
/-- `180 deg` -/
noncomputable def bpi : BArr := .scalar (some Num.pi)
/-- `a < b` -/
noncomputable def blt (a b : BArr) : Res (Arr Bool) := Arr.map2 (elCmp Num.lt) a b
/-- `a == b` -/
noncomputable def beqB (a b : BArr) : Res (Arr Bool) := Arr.map2 (elCmp Num.beq) a b
/-- `a >= b` -/
noncomputable def bge (a b : BArr) : Res (Arr Bool) := Arr.map2 (elCmp fun x y => !Num.lt x y) a b
/-- `a <= b` -/
noncomputable def ble (a b : BArr) : Res (Arr Bool) := Arr.map2 (elCmp fun x y => !Num.lt y x) a b

/-- `xp.where(c, a, b)`: all three broadcast together -/
def bwhere (c : Arr Bool) (a b : BArr) : Res BArr := do
  let ab ← Arr.map2 (fun x y => (x, y)) a b
  Arr.map2 (fun (t : Bool) (p : El × El) => if t then p.1 else p.2) c ab

/-- `qlax.select(c, a, b)` (`jax.lax.select`): `a` and `b` must have the same shape, and `c` that shape or
rank 0; nothing is broadcast -/
def bselect (c : Arr Bool) (a b : BArr) : Res BArr :=
  if a.shape = b.shape ∧ (c.shape = [] ∨ c.shape = a.shape) then
    .ok ⟨a.shape, fun idx => if c.elem idx then a.get idx else b.get idx⟩
  else .error .typeError

/-- `xp.any` -/
def bany (c : Arr Bool) : Prop := ∃ idx, InB c.shape idx ∧ c.get idx = true

open Classical in
/-- `eqx.error_if(_, xp.any(c), _)` -/
noncomputable def errorIfAny (c : Arr Bool) : Res Unit := if bany c then .error .check else .ok ()

/-! ## checks and constructors -/

/-- `check_non_negative` (`_src/vectors/checks.py` 106) -/
noncomputable def checkNonNegB (x : BArr) : Res Unit := do errorIfAny (← blt x (bnat 0))

/-- `check_non_negative_non_zero` (136-138) -/
noncomputable def checkPosB (x : BArr) : Res Unit := do errorIfAny (← ble x (bnat 0))

/-- `check_polar_range` (78-82) -/
noncomputable def checkRangeB (x lo hi : BArr) : Res Unit := do
  errorIfAny (← Arr.map2 (fun a b => a || b) (← blt x lo) (← blt hi x))

/-- azimuth converter: as `AzArg.convert`, on arrays (`_src/vectors/converters.py` 12-28) -/
noncomputable def AzArg.convertB : AzArg BArr → BArr
  | .qty x => bwrap x
  | .angle x => x

/-- `RadialPos(r)` (`_src/vectors/d1/radial.py` 26-33) -/
noncomputable def mkRadialB (r : Dist BArr) : Res (Pos BArr) := do
  checkNonNegB r.raw
  return .radial r

/-- `PolarPos(r, phi)` (`_src/vectors/d2/polar.py` 40-54) -/
noncomputable def mkPolarB (r : Dist BArr) (phi : AzArg BArr) : Res (Pos BArr) := do
  checkNonNegB r.raw
  return .polar r phi.convertB

/-- `CylindricalPos(rho, phi, z)` (`_src/vectors/d3/cylindrical.py` 36-55) -/
noncomputable def mkCylB (rho : BArr) (phi : AzArg BArr) (z : BArr) : Res (Pos BArr) := do
  checkNonNegB rho
  return .cyl rho phi.convertB z

/-- `SphericalPos(r, theta, phi)` (`_src/vectors/d3/spherical.py` 54-72) -/
noncomputable def mkSphB (r : Dist BArr) (theta : BArr) (phi : AzArg BArr) : Res (Pos BArr) := do
  checkNonNegB r.raw
  checkRangeB theta (bnat 0) bpi
  return .sph r theta phi.convertB

/-- `90 deg` -/
noncomputable def bhalfPi : BArr := .scalar (el1 (fun x => Num.div x (Num.nat 2)) (some Num.pi))

/-- `LonLatSphericalPos(lon, lat, distance)` (`_src/vectors/d3/lonlatspherical.py` 103-121) -/
noncomputable def mkLonLatB (lon : AzArg BArr) (lat : BArr) (distance : Dist BArr) : Res (Pos BArr) := do
  checkRangeB lat (bneg bhalfPi) bhalfPi
  checkNonNegB distance.raw
  return .lonlat lon.convertB lat distance

/-- `MathSphericalPos(r, theta, phi)` (`_src/vectors/d3/mathspherical.py` 58-76) -/
noncomputable def mkMathB (r : Dist BArr) (theta : AzArg BArr) (phi : BArr) : Res (Pos BArr) := do
  checkNonNegB r.raw
  checkRangeB phi (bnat 0) bpi
  return .math r theta.convertB phi

/-- `ProlateSpheroidalPos(mu, nu, phi, Delta=...)` (`_src/vectors/d3/spheroidal.py` 90-120) -/
noncomputable def mkProlateB (mu nu : BArr) (phi : AzArg BArr) (delta : BArr) : Res (Pos BArr) := do
  checkPosB delta
  let delta2 ← bmul delta delta
  errorIfAny (← blt mu delta2)
  errorIfAny (← blt delta2 (babs nu))
  return .prolate mu nu phi.convertB delta

/-- `AbstractDistance.distance` (`_src/distances/core.py` 51-63, 155-172, 229-242) -/
noncomputable def Dist.distanceB : Dist BArr → Res BArr
  | .dist d => .ok d
  | .par p => bdiv (bnat 1) (btan p)
  | .dm m => do
    let e ← badd (← bdiv m (bnat 5)) (bnat 1)
    bmul (bpow10 e) (.scalar (el1 (fun x => Num.div (Num.nat 648000) x) (some Num.pi)))

/-- as `Dist.asLength`, on arrays -/
def Dist.asLengthB : Dist BArr → Res BArr
  | .dist d => .ok d
  | _ => .error .units

/-- as `Dist.scaleThenFrom`, on arrays (`_src/distances/compat.py` 16, `_src/distances/core.py` 275-320) -/
noncomputable def Dist.scaleThenFromB (r : Dist BArr) (q : BArr) : Res (Dist BArr) :=
  match r with
  | .dist d => do return .dist (← bmul d q)
  | .par p => do return .dist (← (Dist.par (← bmul p q)).distanceB)
  | .dm m => do return .dist (← (Dist.dm (← bmul m q)).distanceB)

/-- apply a partial array function to the stored array -/
def Dist.mapRawM (f : BArr → Res BArr) : Dist BArr → Res (Dist BArr)
  | .dist d => do return .dist (← f d)
  | .par p => do return .par (← f p)
  | .dm m => do return .dm (← f m)

/-- `SphericalPos.from_` (`_src/vectors/d3/spherical.py` 142-161), line by line -/
noncomputable def sphFromB (r : Dist BArr) (theta : BArr) (phi : AzArg BArr) : Res (Pos BArr) := do
  let phi := phi.convertB
  let rPred ← blt r.raw (bnat 0)
  let r ← r.mapRawM fun a => bselect rPred (bneg a) a
  let phi ← bselect rPred (← badd phi bpi) phi
  let theta ← bselect rPred (← bsub bpi theta) theta
  let theta := bwrap theta
  let thetaPred ← blt theta bpi
  let theta' ← bselect thetaPred theta (← bsub (← bmul (bnat 2) bpi) theta)
  let phi ← bselect thetaPred phi (← badd phi bpi)
  mkSphB r theta' (.qty phi)

/-- `MathSphericalPos.from_` (`_src/vectors/d3/mathspherical.py` 164-183), line by line -/
noncomputable def mathFromB (r : Dist BArr) (theta : AzArg BArr) (phi : BArr) : Res (Pos BArr) := do
  let theta := theta.convertB
  let rPred ← blt r.raw (bnat 0)
  let r ← r.mapRawM fun a => bselect rPred (bneg a) a
  let theta ← bselect rPred (← badd theta bpi) theta
  let phi ← bselect rPred (← bsub bpi phi) phi
  let phi := bwrap phi
  let phiPred ← blt phi bpi
  let phi' ← bselect phiPred phi (← bsub (← bmul (bnat 2) bpi) phi)
  let theta ← bselect phiPred theta (← badd theta bpi)
  mkMathB r (.qty theta) phi'

/-- `LonLatSphericalPos.from_` (`_src/vectors/d3/lonlatspherical.py` 219-242), line by line -/
noncomputable def lonlatFromB (lon : AzArg BArr) (lat : BArr) (distance : Dist BArr) : Res (Pos BArr) := do
  let lon := lon.convertB
  let dPred ← blt distance.raw (bnat 0)
  let distance ← distance.mapRawM fun a => bselect dPred (bneg a) a
  let lon ← bselect dPred (← badd lon bpi) lon
  let lat ← bselect dPred (bneg lat) lat
  let latPred ← blt lat (bneg bhalfPi)
  let lat ← bselect latPred (← bsub (bneg bpi) lat) lat
  let lon ← bselect latPred (← badd lon bpi) lon
  let latPred ← blt bhalfPi lat
  let lat ← bselect latPred (← bsub bpi lat) lat
  let lon ← bselect latPred (← badd lon bpi) lon
  mkLonLatB (.qty lon) lat distance

/-- `jnp.broadcast_arrays(r, a, b)` then `target.from_(...)` (`_src/vectors/transform/d1.py` 203-204,
429-430) -/
def broadcast3 (r : Dist BArr) (a b : BArr) : Res (Dist BArr × BArr × BArr) := do
  let s ← broadcastShapes [r.raw.shape, a.shape, b.shape]
  return (r.mapRaw (fun x => x.broadcastTo s), a.broadcastTo s, b.broadcastTo s)

/-! ## conversion rules, same order and same citations as `Verif/Represent.lean` -/

/-- `getD` with the default `Quantity(0.0, ...)` -/
noncomputable def orZeroB (o : Option BArr) : BArr := o.getD (bnat 0)

/-- CartesianPos3D -> CylindricalPos, `_src/vectors/d3/transform.py` 186-204 -/
noncomputable def cart3ToCylB (x y z : BArr) : Res (Pos BArr) := do
  let rho := bsqrt (← badd (← bmul x x) (← bmul y y))
  let phi ← batan2 y x
  mkCylB rho (.qty phi) z

/-- CartesianPos3D -> SphericalPos, 207-226 -/
noncomputable def cart3ToSphB (x y z : BArr) : Res (Pos BArr) := do
  let r := bsqrt (← badd (← badd (← bmul x x) (← bmul y y)) (← bmul z z))
  let theta := bacos (← bdiv z r)
  let phi ← batan2 y x
  mkSphB (.dist r) theta (.qty phi)

/-- CylindricalPos -> CartesianPos3D, 263-285 -/
noncomputable def cylToCart3B (rho phi z : BArr) : Res (Pos BArr) := do
  return .cart3 (← bmul rho (bcos phi)) (← bmul rho (bsin phi)) z

/-- CylindricalPos -> SphericalPos, 288-309 -/
noncomputable def cylToSphB (rho phi z : BArr) : Res (Pos BArr) := do
  let r := bsqrt (← badd (← bmul rho rho) (← bmul z z))
  let theta := bacos (← bdiv z r)
  mkSphB (.dist r) theta (.angle phi)

/-- SphericalPos -> CartesianPos3D, 349-371 -/
noncomputable def sphToCart3B (r : Dist BArr) (theta phi : BArr) : Res (Pos BArr) := do
  let d ← r.distanceB
  let x ← bmul (← bmul d (bsin theta)) (bcos phi)
  let y ← bmul (← bmul d (bsin theta)) (bsin phi)
  let z ← bmul d (bcos theta)
  return .cart3 x y z

/-- SphericalPos -> CylindricalPos, 374-395 -/
noncomputable def sphToCylB (r : Dist BArr) (theta phi : BArr) : Res (Pos BArr) := do
  let d ← r.distanceB
  let rho := babs (← bmul d (bsin theta))
  let z ← bmul d (bcos theta)
  mkCylB rho (.angle phi) z

/-- SphericalPos -> LonLatSphericalPos, 398-419 -/
noncomputable def sphToLonLatB (r : Dist BArr) (theta phi : BArr) : Res (Pos BArr) := do
  mkLonLatB (.angle phi) (← bsub bhalfPi theta) r

/-- LonLatSphericalPos -> SphericalPos, 498-519 -/
noncomputable def lonlatToSphB (lon lat : BArr) (distance : Dist BArr) : Res (Pos BArr) := do
  mkSphB distance (← bsub bhalfPi lat) (.angle lon)

/-- ProlateSpheroidalPos -> CylindricalPos, 601-629 -/
noncomputable def prolateToCylB (mu nu phi delta : BArr) : Res (Pos BArr) := do
  let delta2 ← bmul delta delta
  let nuD2 ← bdiv (babs nu) delta2
  let rho := bsqrt (← bmul (← bsub mu delta2) (← bsub (bnat 1) nuD2))
  let z ← bmul (bsqrt (← bmul mu nuD2)) (bsign nu)
  mkCylB rho (.angle phi) z

/-- CylindricalPos -> ProlateSpheroidalPos, 662-705, with `Delta` given -/
noncomputable def cylToProlateB (rho phi z delta : BArr) : Res (Pos BArr) := do
  let r2 ← bmul rho rho
  let z2 ← bmul z z
  let delta2 ← bmul delta delta
  let sum ← badd (← badd r2 z2) delta2
  let diff ← bsub (← badd r2 z2) delta2
  let d0 := bsqrt (← badd (← bmul diff diff) (← bmul (← bmul (bnat 4) r2) delta2))
  let d1 ← bwhere (← beqB z (bnat 0)) sum d0
  let d ← bwhere (← beqB rho (bnat 0)) (babs diff) d1
  let half ← bdiv (bnat 1) (bnat 2)
  let posMuMinusDelta ← bmul half (← badd d diff)
  let posDeltaMinusNu ← bdiv (← bmul delta2 r2) posMuMinusDelta
  let negDeltaMinusNu ← bmul half (← bsub d diff)
  let negMuMinusDelta ← bdiv (← bmul delta2 r2) negDeltaMinusNu
  let muMinusDelta ← bwhere (← bge diff (bnat 0)) posMuMinusDelta negMuMinusDelta
  let deltaMinusNu ← bwhere (← bge diff (bnat 0)) posDeltaMinusNu negDeltaMinusNu
  let mu ← badd delta2 muMinusDelta
  let absNu0 ← bmul (← bdiv (← bmul (bnat 2) delta2) (← badd sum d)) z2
  let absNu ← bwhere (← blt delta2 (← bmul absNu0 (bnat 2))) (← bsub delta2 deltaMinusNu) absNu0
  let nu ← bmul absNu (bsign z)
  mkProlateB mu nu (.angle phi) delta

/-- shape rule of the `jax.lax.cond` in 768-775: both branches are traced and their outputs must have the
same shapes, component by component, whichever branch is taken. The first branch returns arrays of the
common broadcast shape for `mu` and `nu`, and `Delta` as given. -/
def condShapes (mu nu delta dl : BArr) : Res Unit := do
  let s ← broadcastShapes [mu.shape, nu.shape, delta.shape, dl.shape]
  if mu.shape = s ∧ nu.shape = s ∧ delta.shape = dl.shape then .ok () else .error .typeError

/-- CartesianPos2D -> PolarPos, `d2/transform.py` 58-69 -/
noncomputable def cart2ToPolarB (x y : BArr) : Res (Pos BArr) := do
  let r := bsqrt (← badd (← bmul x x) (← bmul y y))
  let phi ← batan2 y x
  mkPolarB (.dist r) (.qty phi)

/-- PolarPos -> CartesianPos2D, `d2/transform.py` 76-83 -/
noncomputable def polarToCart2B (r : Dist BArr) (phi : BArr) : Res (Pos BArr) := do
  let d ← r.distanceB
  return .cart2 (← bmul d (bcos phi)) (← bmul d (bsin phi))

/-- SphericalPos -> CartesianPos1D, `transform/d3.py` 272-296 -/
noncomputable def sphToCart1B (r : Dist BArr) (theta phi : BArr) : Res (Pos BArr) := do
  let d ← r.asLengthB
  return .cart1 (← bmul (← bmul d (bsin theta)) (bcos phi))

/-- SphericalPos -> CartesianPos2D, `transform/d3.py` 330-357 -/
noncomputable def sphToCart2B (r : Dist BArr) (theta phi : BArr) : Res (Pos BArr) := do
  let d ← r.asLengthB
  let x ← bmul (← bmul d (bsin theta)) (bcos phi)
  let y ← bmul (← bmul d (bsin theta)) (bsin phi)
  return .cart2 x y

/-- SphericalPos -> PolarPos, `transform/d3.py` 360-385 -/
noncomputable def sphToPolarB (r : Dist BArr) (theta phi : BArr) : Res (Pos BArr) := do
  let r' ← r.scaleThenFromB (bsin theta)
  mkPolarB r' (.angle phi)

/-- PolarPos -> CartesianPos1D, `transform/d2.py` 224-248 -/
noncomputable def polarToCart1B (r : Dist BArr) (phi : BArr) : Res (Pos BArr) := do
  let d ← r.asLengthB
  return .cart1 (← bmul d (bcos phi))

/-- `sqrt(x**2 + y**2)` to RadialPos, `transform/d2.py` 177 -/
noncomputable def cart2ToRadialB (x y : BArr) : Res (Pos BArr) := do
  mkRadialB (.dist (bsqrt (← badd (← bmul x x) (← bmul y y))))

/-- `sqrt(x**2 + y**2 + z**2)` to RadialPos, `transform/d3.py` 79 -/
noncomputable def cart3ToRadialB (x y z : BArr) : Res (Pos BArr) := do
  mkRadialB (.dist (bsqrt (← badd (← badd (← bmul x x) (← bmul y y)) (← bmul z z))))

/-- 1-D position to SphericalPos: broadcast, then `from_` (`transform/d1.py` 203-204, 429-430) -/
noncomputable def oneToSphB (r : Dist BArr) (theta phi : BArr) : Res (Pos BArr) := do
  let t ← broadcast3 r theta phi
  sphFromB t.1 t.2.1 (.qty t.2.2)

/-- 1-D position to MathSphericalPos (same lines) -/
noncomputable def oneToMathB (r : Dist BArr) (theta phi : BArr) : Res (Pos BArr) := do
  let t ← broadcast3 r theta phi
  mathFromB t.1 (.qty t.2.1) t.2.2

/-- `represent_as` on arrays: the rules of `represent`, in the same order, with the array versions.
The citations of `represent` apply. -/
noncomputable def representB : ℕ → Kw BArr → Pos BArr → Kind → Res (Pos BArr)
  | 0, _, _, _ => .error .recursion
  | n + 1, kw, p, k =>
    match p, k with
    | .cart3 .., .cart3 => .ok p
    | .cyl .., .cyl => .ok p
    | .sph .., .sph => .ok p
    | .lonlat .., .lonlat => .ok p
    | .math .., .math => .ok p
    | .cart3 x y z, .cyl => cart3ToCylB x y z
    | .cart3 x y z, .sph => cart3ToSphB x y z
    | .cart3 .., .lonlat => do representB n {} (← representB n {} p .sph) .lonlat
    | .cart3 .., .math => do representB n {} (← representB n {} p .sph) .math
    | .cyl rho phi z, .cart3 => cylToCart3B rho phi z
    | .cyl rho phi z, .sph => cylToSphB rho phi z
    | .cyl .., .lonlat => do representB n {} (← representB n {} p .sph) .lonlat
    | .cyl .., .math => do representB n {} (← representB n {} p .sph) .math
    | .sph r theta phi, .cart3 => sphToCart3B r theta phi
    | .sph r theta phi, .cyl => sphToCylB r theta phi
    | .sph r theta phi, .lonlat => sphToLonLatB r theta phi
    | .sph r theta phi, .math => mkMathB r (.angle phi) theta
    | .lonlat .., .cart3 => do representB n {} (← representB n {} p .sph) .cart3
    | .lonlat .., .cyl => do representB n {} (← representB n {} p .sph) .cyl
    | .lonlat lon lat d, .sph => lonlatToSphB lon lat d
    | .math r theta phi, .cart3 => sphToCart3B r phi theta
    | .math r theta phi, .cyl => sphToCylB r phi theta
    | .math r theta phi, .sph => mkSphB r phi (.angle theta)
    | .lonlat .., .math => do representB n {} (← representB n {} p .cart3) .math
    | .math .., .lonlat => do representB n {} (← representB n {} p .cart3) .lonlat
    | .prolate mu nu phi delta, .cyl => prolateToCylB mu nu phi delta
    | .prolate .., .cart3 => do representB n {} (← representB n {} p .cyl) .cart3
    | .prolate .., .sph => do representB n {} (← representB n {} p .cyl) .sph
    | .prolate .., .lonlat => do representB n {} (← representB n {} p .cyl) .lonlat
    | .prolate .., .math => do representB n {} (← representB n {} p .cyl) .math
    | .prolate mu nu _ delta, .prolate =>
      match kw.delta with
      | none => do
        condShapes mu nu delta delta
        return p
      | some dl => do
        condShapes mu nu delta dl
        representB n { delta := some dl } (← representB n {} p .cyl) .prolate
    | .cyl rho phi z, .prolate =>
      match kw.delta with
      | none => .error .missingDelta
      | some dl => cylToProlateB rho phi z dl
    | .cart3 .., .prolate | .sph .., .prolate | .lonlat .., .prolate | .math .., .prolate =>
      match kw.delta with
      | none => .error .missingDelta
      | some dl => do representB n { delta := some dl } (← representB n {} p .cyl) .prolate
    | .cart2 .., .cart2 => .ok p
    | .polar .., .polar => .ok p
    | .cart2 x y, .polar => cart2ToPolarB x y
    | .polar r phi, .cart2 => polarToCart2B r phi
    | .cart2 .., .twoSphere => do representB n {} (← representB n {} p .cart2) .twoSphere
    | .polar .., .twoSphere => do representB n {} (← representB n {} p .cart2) .twoSphere
    | .twoSphere .., .cart2 => do representB n {} (← representB n {} p .cart2) .cart2
    | .twoSphere .., .polar => do representB n {} (← representB n {} p .cart2) .polar
    | .twoSphere .., .twoSphere => do representB n {} (← representB n {} p .cart2) .twoSphere
    | .cart1 .., .cart1 => .ok p
    | .radial .., .radial => .ok p
    | .cart1 x, .radial => mkRadialB (.dist x)
    | .radial r, .cart1 => do return .cart1 (← r.distanceB)
    | .cart1 x, .cart2 => .ok (.cart2 x (orZeroB kw.y))
    | .cart1 x, .polar => mkPolarB (.dist x) (.qty (orZeroB kw.phi))
    | .cart1 x, .cart3 => .ok (.cart3 x (orZeroB kw.y) (orZeroB kw.z))
    | .cart1 x, .sph => oneToSphB (.dist x) (orZeroB kw.theta) (orZeroB kw.phi)
    | .cart1 x, .math => oneToMathB (.dist x) (orZeroB kw.theta) (orZeroB kw.phi)
    | .cart1 x, .cyl => mkCylB x (.qty (orZeroB kw.phi)) (orZeroB kw.z)
    | .radial r, .cart2 => do return .cart2 (← r.asLengthB) (orZeroB kw.y)
    | .radial r, .polar => mkPolarB r (.qty (orZeroB kw.phi))
    | .radial r, .cart3 => do return .cart3 (← r.asLengthB) (orZeroB kw.y) (orZeroB kw.z)
    | .radial r, .sph => oneToSphB r (orZeroB kw.theta) (orZeroB kw.phi)
    | .radial r, .math => oneToMathB r (orZeroB kw.theta) (orZeroB kw.phi)
    | .radial r, .cyl => do mkCylB (← r.asLengthB) (.qty (orZeroB kw.phi)) (orZeroB kw.z)
    | .cart2 .., .cyl => do representB n {} (← representB n { z := some (orZeroB kw.z) } p .cart3) .cyl
    | .cart2 .., .sph => do representB n {} (← representB n { z := some (orZeroB kw.z) } p .cart3) .sph
    | .cart2 .., .math =>
      do representB n {} (← representB n { z := some (orZeroB kw.z) } p .cart3) .math
    | .polar .., .cart3 =>
      do representB n {} (← representB n { z := some (orZeroB kw.z) } p .cyl) .cart3
    | .cart2 x _, .cart1 => .ok (.cart1 x)
    | .cart2 x y, .radial => cart2ToRadialB x y
    | .cart2 x y, .cart3 => .ok (.cart3 x y (orZeroB kw.z))
    | .polar r phi, .cart1 => polarToCart1B r phi
    | .polar r _, .radial => mkRadialB r
    -- `transform/d2.py` 308, 337: no broadcasting before `from_`
    | .polar r phi, .sph => sphFromB r (orZeroB kw.theta) (.angle phi)
    | .polar r phi, .math => mathFromB r (.angle phi) (orZeroB kw.phi)
    | .polar r phi, .cyl => do mkCylB (← r.asLengthB) (.angle phi) (orZeroB kw.z)
    | .cart3 x _ _, .cart1 => .ok (.cart1 x)
    | .cart3 x y z, .radial => cart3ToRadialB x y z
    | .cart3 x y _, .cart2 => .ok (.cart2 x y)
    | .cart3 .., .polar => do representB n {} (← representB n {} p .cart2) .polar
    | .cyl rho phi _, .cart1 => do return .cart1 (← bmul rho (bcos phi))
    | .cyl rho _ _, .radial => mkRadialB (.dist rho)
    | .cyl rho phi _, .cart2 => do return .cart2 (← bmul rho (bcos phi)) (← bmul rho (bsin phi))
    | .cyl rho phi _, .polar => mkPolarB (.dist rho) (.angle phi)
    | .sph r theta phi, .cart1 => sphToCart1B r theta phi
    | .sph r _ _, .radial => mkRadialB r
    | .sph r theta phi, .cart2 => sphToCart2B r theta phi
    | .sph r theta phi, .polar => sphToPolarB r theta phi
    | .math r theta phi, .cart1 => sphToCart1B r phi theta
    | .math r _ _, .radial => mkRadialB r
    | .math r theta phi, .cart2 => sphToCart2B r phi theta
    | .math r theta phi, .polar => sphToPolarB r phi theta
    | .prolate .., .cart1 => do representB n {} (← representB n {} p .cart3) .cart1
    | .prolate .., .radial => do representB n {} (← representB n {} p .cart3) .radial
    | .prolate .., .cart2 => do representB n {} (← representB n {} p .cart3) .cart2
    | .prolate .., .polar => do representB n {} (← representB n {} p .cart3) .polar
    | .prolate .., .twoSphere => do representB n {} (← representB n {} p .cart3) .twoSphere
    | _, _ => .error .noDispatch

/-- `vec.represent_as(target, **kw)` on arrays -/
noncomputable def representAsB (kw : Kw BArr) (p : Pos BArr) (k : Kind) : Res (Pos BArr) :=
  representB pyDepth kw p k

end Verif
