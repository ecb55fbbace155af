import Verif.Normalize
import Verif.Props.Arith

/-!
# `normalize_vector` of arrays and Quantities

C85, for every batch and every number of components.
-/

namespace Verif

/-! ### Specification -/

/-- `w` is the direction of `v`: of length 1, and `v` is a positive multiple of it -/
def IsDirection {n : ℕ} (v w : Fin n → ℝ) : Prop := ∑ i, w i ^ 2 = 1 ∧ ∃ s : ℝ, 0 < s ∧ ∀ i, v i = s * w i

/-! ### Lemmas -/

theorem rowNorm_sq {n : ℕ} (v : Fin n → ℝ) : rowNorm v ^ 2 = ∑ i, v i ^ 2 :=
  Real.sq_sqrt (Finset.sum_nonneg fun i _ => sq_nonneg (v i))

theorem rowNorm_zero {n : ℕ} (v : Fin n → ℝ) : rowNorm v = 0 ↔ ∀ i, v i = 0 := by
  rw [← sq_eq_zero_iff, rowNorm_sq, Finset.sum_eq_zero_iff_of_nonneg fun i _ => sq_nonneg (v i)]
  simp

theorem rowNorm_nonneg {n : ℕ} (v : Fin n → ℝ) : 0 ≤ rowNorm v := Real.sqrt_nonneg _

theorem rowNorm_smul {n : ℕ} (c : ℝ) (v : Fin n → ℝ) : rowNorm (fun i => c * v i) = |c| * rowNorm v := by
  unfold rowNorm
  simp only [mul_pow, ← Finset.mul_sum]
  rw [Real.sqrt_mul (sq_nonneg c), Real.sqrt_sq_eq_abs]

section
variable {β : Type} {n : ℕ} (x : β → Fin n → ℝ) (b : β)

theorem normalize_some (h : ∃ i, x b i ≠ 0) (i : Fin n) : normalizeArr x b i = some (x b i / rowNorm (x b)) := by
  obtain ⟨j, hj⟩ := h
  exact if_neg fun e => hj ((rowNorm_zero _).1 e j)

/-- **C85**: every row that is not 0 becomes its direction: the one row of length 1 of which it is a positive multiple. -/
theorem C85_direction (h : ∃ i, x b i ≠ 0) :
    ∃ w, IsDirection (x b) w ∧ (∀ i, normalizeArr x b i = some (w i)) ∧ ∀ w', IsDirection (x b) w' → w' = w := by
  have hn : rowNorm (x b) ≠ 0 := fun e => by
    obtain ⟨j, hj⟩ := h
    exact hj ((rowNorm_zero _).1 e j)
  have hp : 0 < rowNorm (x b) := lt_of_le_of_ne (rowNorm_nonneg _) hn.symm
  refine ⟨fun i => x b i / rowNorm (x b), ⟨?_, rowNorm (x b), hp, fun i => by field_simp⟩, normalize_some x b h, ?_⟩
  · simp only [div_pow, ← Finset.sum_div, ← rowNorm_sq]
    exact div_self (pow_ne_zero 2 hn)
  · rintro w' ⟨h1, s, hs, hv⟩
    have e : rowNorm (x b) = s := by
      rw [show x b = fun i => s * w' i from funext hv, rowNorm_smul, abs_of_pos hs]
      unfold rowNorm
      rw [h1, Real.sqrt_one, mul_one]
    funext i
    rw [e, hv i]; field_simp

/-- **C85**: a row that is 0 becomes NaN in every component, and no other row does in any. Each row of the result depends on the same row only: one row of
zeros does no harm to the others. -/
theorem C85_zero : ((∀ i, x b i = 0) → ∀ i, normalizeArr x b i = none) ∧ (∀ i, normalizeArr x b i = none → ∀ j, x b j = 0) ∧
    ∀ (y : β → Fin n → ℝ), y b = x b → normalizeArr y b = normalizeArr x b := by
  refine ⟨fun h i => if_pos ((rowNorm_zero _).2 h), fun i h => ?_, fun y h => ?_⟩
  · by_contra hc
    simp only [not_forall] at hc
    rw [normalize_some x b hc] at h
    cases h
  · funext i
    simp only [normalizeArr, h]

/-- **C85**: a positive factor changes nothing, also a different one for each row; a negative one changes the sign. -/
theorem C85_scale (c : β → ℝ) :
    ((∀ b, 0 < c b) → normalizeArr (fun b i => c b * x b i) = normalizeArr x) ∧
    ((∀ b, c b < 0) → ∀ b i, normalizeArr (fun b i => c b * x b i) b i = (normalizeArr x b i).map Neg.neg) := by
  constructor
  · intro h
    funext b i
    have hc := h b
    simp only [normalizeArr, rowNorm_smul, abs_of_pos hc, mul_eq_zero, hc.ne', false_or]
    split
    · rfl
    · rw [mul_div_mul_left _ _ hc.ne']
  · intro h b i
    have hc := h b
    simp only [normalizeArr, rowNorm_smul, abs_of_neg hc, mul_eq_zero, neg_eq_zero, hc.ne, false_or]
    split
    · rfl
    · rw [Option.map_some, neg_mul, div_neg, mul_div_mul_left _ _ hc.ne]

/-- **C85**: what does not change is exactly what has length 1, and normalizing twice is normalizing once. -/
theorem C85_fixed (h : ∃ i, x b i ≠ 0) :
    ((∀ i, normalizeArr x b i = some (x b i)) ↔ ∑ i, x b i ^ 2 = 1) ∧
    ∀ y : β → Fin n → ℝ, (∀ i, normalizeArr x b i = some (y b i)) → ∀ i, normalizeArr y b i = some (y b i) := by
  have key : ∀ z : β → Fin n → ℝ, ∑ i, z b i ^ 2 = 1 → ∀ i, normalizeArr z b i = some (z b i) := fun z hz i => by
    have e : rowNorm (z b) = 1 := by unfold rowNorm; rw [hz, Real.sqrt_one]
    simp [normalizeArr, e]
  obtain ⟨w, hw, he, hu⟩ := C85_direction x b h
  constructor
  · refine ⟨fun hf => ?_, key x⟩
    have : x b = w := funext fun i => Option.some.inj ((hf i).symm.trans (he i))
    rw [this]; exact hw.1
  · intro y hy
    refine key y ?_
    have : y b = w := funext fun i => Option.some.inj ((hy i).symm.trans (he i))
    rw [this]; exact hw.1

/-- **C85**: the result of a Quantity is dimensionless with the unit 1, whatever the physical type, and two Quantities with the same physical values in different
units have the same result. -/
theorem C85_quantity (q q' : RowQty β n) (h : 0 < q.factor) (h' : 0 < q'.factor) :
    (normalizeQty q).2 = (⟨0, 0, 0, 0, 0⟩, 1) ∧
    ((∀ b i, q.val b i * q.factor = q'.val b i * q'.factor) → normalizeQty q = normalizeQty q') := by
  have d : ∀ q : RowQty β n, 0 < q.factor → normalizeQty q = (normalizeArr q.val, ⟨0, 0, 0, 0, 0⟩, 1) := fun q h => by
    simp only [normalizeQty, sub_self, div_self h.ne']
  refine ⟨by rw [d q h], fun e => ?_⟩
  rw [d q h, d q' h']
  have hs : q.val = fun b i => (q'.factor / q.factor) * q'.val b i := by
    funext b i
    have := e b i
    field_simp
    linarith
  rw [hs, (C85_scale q'.val fun _ => q'.factor / q.factor).1 fun _ => div_pos h' h]

end

/-- **C85**: the same as `normalize_vector` of a `CartesianPos3D` with these components: it returns the row of components exactly if the row of the array has no NaN, and
then they are equal. -/
theorem C85_cartesian (x y z a b c : ℝ) :
    normalizeCart3 x y z = .ok (a, b, c) ↔ normalizeArr (fun _ : Unit => ![x, y, z]) () = ![some a, some b, some c] := by
  have hr : rowNorm ![x, y, z] = √(x * x + y * y + z * z) := by
    unfold rowNorm
    congr 1
    simp [Fin.sum_univ_three, sq]
  have h0 : 0 ≤ x * x + y * y + z * z := by nlinarith [mul_self_nonneg x, mul_self_nonneg y, mul_self_nonneg z]
  have hv : ∀ u v w u' v' w' : Option ℝ, (![u, v, w] = ![u', v', w']) ↔ u = u' ∧ v = v' ∧ w = w' := by
    intros; simp
  have hl : normalizeArr (fun _ : Unit => ![x, y, z]) () = ![normalizeArr (fun _ : Unit => ![x, y, z]) () 0,
      normalizeArr (fun _ : Unit => ![x, y, z]) () 1, normalizeArr (fun _ : Unit => ![x, y, z]) () 2] := by
    funext i; fin_cases i <;> rfl
  rw [hl, hv]
  simp only [normalizeArr, hr, normalizeCart3, sqrt_real_ok h0, ok_bind, div_real]
  by_cases h : √(x * x + y * y + z * z) = 0
  · simp only [h, if_true]
    exact ⟨fun e => (nomatch e), fun e => (nomatch e.1)⟩
  · simp only [h, if_false, ok_bind, Option.some.injEq]
    show (Except.ok _ = Except.ok _) ↔ _
    rw [Except.ok.injEq, Prod.mk.injEq, Prod.mk.injEq]
    rfl

/-! ### Examples -/

/-- two rows, the second is 0 -/
noncomputable def xRows : Fin 2 → Fin 2 → ℝ := ![![3, 4], ![0, 0]]

example : normalizeArr xRows 0 1 = some (4 / 5) ∧ normalizeArr xRows 1 1 = none := by
  constructor
  · rw [normalize_some xRows 0 ⟨0, by norm_num [xRows]⟩]
    have : rowNorm (xRows 0) = 5 := by
      unfold rowNorm
      rw [show (∑ i, xRows 0 i ^ 2) = 5 ^ 2 by norm_num [xRows, Fin.sum_univ_two]]
      exact Real.sqrt_sq (by norm_num)
    rw [this]; norm_num [xRows]
  · exact (C85_zero xRows 1).1 (by intro i; fin_cases i <;> rfl) 1

example : ∃ w, IsDirection (xRows 0) w ∧ ∀ i, normalizeArr xRows 0 i = some (w i) := by
  obtain ⟨w, h1, h2, -⟩ := C85_direction xRows 0 ⟨0, by norm_num [xRows]⟩
  exact ⟨w, h1, h2⟩

/-- 3 km and 4 km, and the same in m -/
example : normalizeQty (⟨fun _ => ![3, 4], .length, 1000⟩ : RowQty Unit 2) = normalizeQty ⟨fun _ => ![3000, 4000], .length, 1⟩ :=
  (C85_quantity _ _ (by norm_num) (by norm_num)).2 (by intro b i; fin_cases i <;> norm_num)

end Verif
