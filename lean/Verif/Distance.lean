import Verif.Vec

/-!
# Distances, parallaxes, distance moduli (`coordinax.distance`)

Lengths in AU, angles in radians, moduli in magnitudes.
-/

namespace Verif

open Num

section
variable {α : Type} [Num α]

/-- `Parallax(v)` with `check_negative=True` (`_src/distances/core.py` 142-153). -/
def mkParallax (v : α) : Res (Dist α) := if lt v (nat 0) then .error .check else .ok (.par v)

/-- `Distance.parallax` (`_src/distances/core.py` 65-83): `arctan2(1 AU, d)`. -/
def parallaxOfDistance (d : α) : Res (Dist α) := do mkParallax (← atan2 (nat 1) d)

/-- `Distance.distance_modulus` (`_src/distances/core.py` 85-99): `5 log10(d / 10 pc)`. -/
def modulusOfDistance (d : α) : Res (Dist α) := do
  let pc ← pcAU
  let x ← div d (nat 10 * pc)
  return .dm (nat 5 * (← log10 x))

/-- `AbstractDistance.distance` as a `Distance`
(`_src/distances/core.py` 51-63, 155-172, 229-242). -/
def Dist.toDistance (x : Dist α) : Res (Dist α) := do return .dist (← x.distance)

/-- `AbstractDistance.parallax` (`_src/distances/core.py` 65-83, 174-186, 244-255). -/
def Dist.toParallax : Dist α → Res (Dist α)
  | .dist d => parallaxOfDistance d
  | .par p => .ok (.par p)
  | .dm m => do parallaxOfDistance (← (Dist.dm m).distance)

/-- `AbstractDistance.distance_modulus` (`_src/distances/core.py` 85-99, 188-199, 257-268). -/
def Dist.toModulus : Dist α → Res (Dist α)
  | .dist d => modulusOfDistance d
  | .par p => do modulusOfDistance (← (Dist.par p).distance)
  | .dm m => .ok (.dm m)

/-- `Distance.from_(x)` for `x` a `Distance`, `Parallax` or `DistanceModulus`, or a Quantity of the same
dimension (`_src/distances/core.py` 275-320; lengths: the constructor of `unxt` Quantities). -/
def distanceFrom : Dist α → Res (Dist α)
  | .dist d => .ok (.dist d)
  | .par p => do return .dist (← div (nat 1) (← tan p))
  | .dm m => do return .dist (pow10 ((← div m (nat 5)) + nat 1) * (← pcAU))

/-- `Parallax.from_(x)` for a distance, length or angle (`_src/distances/core.py` 323-343). -/
def parallaxFrom : Dist α → Res (Dist α)
  | .dist d => do mkParallax (← atan2 (nat 1) d)
  | .par p => mkParallax p
  | .dm _ => .error .units

end

end Verif
