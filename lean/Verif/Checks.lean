import Verif.Units

/-!
# The range checks

All functions of `_src/vectors/checks.py`, on arrays of any shape with infinities and NaN, with units.

A number is NaN, an infinity or a real number. Broadcasting two arrays with index sets `ι` and `κ` is a set `o` of indices of the result with the
place each has in the one and in the other. `eqx.error_if(x, pred, msg)` raises if `pred`, and returns `x`.
-/

namespace Verif

/-- A floating-point number without rounding -/
inductive XNum where
  | nan | ninf | fin (r : ℝ) | pinf

/-- `a < b`: false if one is NaN -/
def XNum.lt : XNum → XNum → Prop
  | .nan, _ => False
  | _, .nan => False
  | .fin a, .fin b => a < b
  | .pinf, _ => False
  | _, .pinf => True
  | _, .ninf => False
  | .ninf, _ => True

/-- `a <= b`: false if one is NaN -/
def XNum.le : XNum → XNum → Prop
  | .nan, _ => False
  | _, .nan => False
  | .fin a, .fin b => a ≤ b
  | .ninf, _ => True
  | _, .pinf => True
  | _, .ninf => False
  | .pinf, _ => False

/-- product with a positive factor -/
def XNum.scale (s : ℝ) : XNum → XNum
  | .fin r => .fin (s * r)
  | x => x

/-- An array with a unit: values, physical type, factor to the base unit -/
structure XQty (ι : Type) where
  val : ι → XNum
  dim : Dim
  factor : ℝ

/-- `x.to(unit).value`, for a unit of the same type with this factor -/
noncomputable def XQty.valIn {ι : Type} (x : XQty ι) (factor : ℝ) (i : ι) : XNum := (x.val i).scale (x.factor / factor)

open Classical in
/-- `eqx.error_if(x, any(pred), msg)` -/
noncomputable def errorIfX {ι o : Type} (x : XQty ι) (pred : o → Prop) : Res (XQty ι) :=
  if ∃ k, pred k then .error .check else .ok x

/-- comparison of two Quantities: the second is converted to the unit of the first; different types raise -/
noncomputable def checkRelX {ι κ o : Type} (l : o → ι) (r : o → κ) (rel : XNum → XNum → Prop) (x : XQty ι) (y : XQty κ) : Res (XQty ι) :=
  if x.dim ≠ y.dim then .error .units else errorIfX x fun k => rel (x.val (l k)) (y.valIn x.factor (r k))

section
variable {ι κ o : Type} (l : o → ι) (r : o → κ) (x : XQty ι) (y : XQty κ)

/-- `check_less_than(x, max_val)` (`_src/vectors/checks.py` 141-169): raises where `x >= max_val` -/
noncomputable def checkLtX : Res (XQty ι) := checkRelX l r (fun a b => b.le a) x y

/-- `check_less_than_equal` (172-200): raises where `x > max_val` -/
noncomputable def checkLeX : Res (XQty ι) := checkRelX l r (fun a b => b.lt a) x y

/-- `check_greater_than` (203-231): raises where `x <= min_val` -/
noncomputable def checkGtX : Res (XQty ι) := checkRelX l r (fun a b => a.le b) x y

/-- `check_greater_than_equal` (234-262): raises where `x < min_val` -/
noncomputable def checkGeX : Res (XQty ι) := checkRelX l r (fun a b => a.lt b) x y

/-- `check_non_negative`, `check_r_non_negative` (19-39, 85-106): raises where `x < 0`; a Quantity of any unit can be compared with 0 -/
noncomputable def checkNonNegX : Res (XQty ι) := errorIfX x fun i => (x.val i).lt (.fin 0)

/-- `check_non_negative_non_zero` (109-138): raises where `x <= 0` -/
noncomputable def checkPosX : Res (XQty ι) := errorIfX x fun i => (x.val i).le (.fin 0)

/-- an angle in radians, `Angle(v, "rad")` -/
def radiansX (v : ℝ) : XQty Unit := ⟨fun _ => .fin v, .ang, 1⟩

/-- `check_polar_range` (42-82): raises if this is no angle, and where `polar < lower` or `polar > upper`; by default 0 and 180 degrees -/
noncomputable def checkPolarX (lo hi : ℝ) : Res (XQty ι) :=
  if x.dim ≠ .ang then .error .check
  else errorIfX x fun i => (x.val i).lt ((radiansX lo).valIn x.factor ()) ∨ ((radiansX hi).valIn x.factor ()).lt (x.val i)

end

end Verif
