import Verif.Units
import Mathlib.Analysis.SpecialFunctions.Pow.Real

/-!
# `normalize_vector` of arrays and Quantities

`_src/vectors/funcs.py` 15-58: `x / vector_norm(x, axis=-1, keepdims=True)` for arrays of shape `(*batch, N)`, any batch and any `N`. The batch is an
index set `β`. A component is a number, or NaN (`none`): where the norm is 0 all components are 0, and 0 / 0 is NaN.
-/

namespace Verif

/-- `jnp.linalg.vector_norm` of one row -/
noncomputable def rowNorm {n : ℕ} (v : Fin n → ℝ) : ℝ := √(∑ i, v i ^ 2)

/-- `normalize_vector(x)` for an array (`_src/vectors/funcs.py` 15-34) -/
noncomputable def normalizeArr {β : Type} {n : ℕ} (x : β → Fin n → ℝ) (b : β) (i : Fin n) : Option ℝ :=
  if rowNorm (x b) = 0 then none else some (x b i / rowNorm (x b))

/-- A Quantity of shape `(*batch, N)` -/
structure RowQty (β : Type) (n : ℕ) where
  val : β → Fin n → ℝ
  dim : Dim
  factor : ℝ

/-- `normalize_vector(x)` for a Quantity (37-58): values divided by the values of the norm, units and physical types divided, which gives the unit `""`; returned
are the values, the physical type and the factor of the unit -/
noncomputable def normalizeQty {β : Type} {n : ℕ} (x : RowQty β n) : (β → Fin n → Option ℝ) × Dim × ℝ :=
  (normalizeArr x.val, ⟨x.dim.len - x.dim.len, x.dim.time - x.dim.time, x.dim.mass - x.dim.mass, x.dim.angle - x.dim.angle, x.dim.mag - x.dim.mag⟩,
   x.factor / x.factor)

end Verif
