import Verif.Distance

/-!
# Parallaxes that may be negative

`Parallax(v, check_negative=False)` (`_src/distances/core.py` 127-153), for noisy measurements. Angles in radians, lengths in AU, moduli in magnitudes, as in
`Distance.lean`.
-/

namespace Verif

open Num

/-- `Parallax(v, check_negative=check)` (`_src/distances/core.py` 135-153) -/
def mkParallaxC {α : Type} [Num α] (check : Bool) (v : α) : Res (Dist α) :=
  if check && lt v (nat 0) then .error .check else .ok (.par v)

/-- `Parallax(v, check_negative=check).distance` (155-172) -/
def distanceC {α : Type} [Num α] (check : Bool) (v : α) : Res (Dist α) := do (← mkParallaxC check v).toDistance

/-- `Parallax(v, check_negative=check).distance.parallax` (65-83): the second parallax is made with the check -/
def parallaxAgainC {α : Type} [Num α] (check : Bool) (v : α) : Res (Dist α) := do (← distanceC check v).toParallax

/-- `Parallax(v, check_negative=check).distance_modulus` (188-199) -/
def modulusC {α : Type} [Num α] (check : Bool) (v : α) : Res (Dist α) := do (← mkParallaxC check v).toModulus

end Verif
