import Verif.Num
import Mathlib.Tactic.Linarith
import Mathlib.Tactic.FieldSimp
import Mathlib.Tactic.Ring

/-! # Facts about the real scalar operations -/

namespace Verif

open Real

theorem signR_pos {x : ℝ} (h : 0 < x) : signR x = 1 := by simp [signR, h]
theorem signR_neg {x : ℝ} (h : x < 0) : signR x = -1 := by simp [signR, h, not_lt.mpr h.le]
@[simp] theorem signR_zero : signR 0 = 0 := by simp [signR]
theorem signR_mul_abs (x : ℝ) : signR x * |x| = x := by
  rcases lt_trichotomy x 0 with h | h | h
  · rw [signR_neg h, abs_of_neg h]; ring
  · simp [h]
  · rw [signR_pos h, abs_of_pos h]; ring
theorem abs_eq_signR_mul (x : ℝ) : |x| = signR x * x := by
  rcases lt_trichotomy x 0 with h | h | h
  · rw [signR_neg h, abs_of_neg h]; ring
  · simp [h]
  · rw [signR_pos h, abs_of_pos h]; ring
theorem signR_sq {x : ℝ} (h : x ≠ 0) : signR x * signR x = 1 := by
  rcases lt_or_gt_of_ne h with h | h
  · rw [signR_neg h]; ring
  · rw [signR_pos h]; ring

theorem wrapR_nonneg (x : ℝ) : 0 ≤ wrapR x := by
  unfold wrapR
  have h2 : 0 < 2 * π := by positivity
  have := Int.floor_le (x / (2 * π))
  have h3 : (⌊x / (2 * π)⌋ : ℝ) * (2 * π) ≤ x := by
    rwa [le_div_iff₀ h2] at this
  linarith

theorem wrapR_lt (x : ℝ) : wrapR x < 2 * π := by
  unfold wrapR
  have h2 : 0 < 2 * π := by positivity
  have := Int.lt_floor_add_one (x / (2 * π))
  rw [div_lt_iff₀ h2] at this
  nlinarith

theorem wrapR_eq_sub (x : ℝ) : ∃ n : ℤ, wrapR x = x - n * (2 * π) :=
  ⟨⌊x / (2 * π)⌋, by unfold wrapR; ring⟩

@[simp] theorem cos_wrapR (x : ℝ) : cos (wrapR x) = cos x := by
  obtain ⟨n, h⟩ := wrapR_eq_sub x
  rw [h, Real.cos_sub_int_mul_two_pi]

@[simp] theorem sin_wrapR (x : ℝ) : sin (wrapR x) = sin x := by
  obtain ⟨n, h⟩ := wrapR_eq_sub x
  rw [h, Real.sin_sub_int_mul_two_pi]

theorem wrapR_of_mem {x : ℝ} (h0 : 0 ≤ x) (h1 : x < 2 * π) : wrapR x = x := by
  have h2 : 0 < 2 * π := by positivity
  have : ⌊x / (2 * π)⌋ = 0 := by
    rw [Int.floor_eq_zero_iff]
    exact ⟨by positivity, by rwa [div_lt_one h2]⟩
  simp [wrapR, this]

theorem wrapR_unique {x y : ℝ} (n : ℤ) (h : y = x - n * (2 * π)) (h0 : 0 ≤ y)
    (h1 : y < 2 * π) : wrapR x = y := by
  have h2 : 0 < 2 * π := by positivity
  have : ⌊x / (2 * π)⌋ = n := by
    rw [Int.floor_eq_iff]
    constructor
    · rw [le_div_iff₀ h2]; linarith
    · rw [div_lt_iff₀ h2]; linarith
  unfold wrapR; rw [this, h]; ring

/-- Two angles in one turn with the same sine and cosine are equal. -/
theorem angle_unique {a b : ℝ} (ha : 0 ≤ a) (ha' : a < 2 * π) (hb : 0 ≤ b) (hb' : b < 2 * π)
    (hc : cos a = cos b) (hs : sin a = sin b) : a = b := by
  have h := (Real.Angle.angle_eq_iff_two_pi_dvd_sub (θ := a) (ψ := b)).1
    (Real.Angle.cos_sin_inj hc hs)
  obtain ⟨k, hk⟩ := h
  have h2 : 0 < 2 * π := by positivity
  have h3 : (k : ℝ) < 1 := by nlinarith
  have h4 : (-1 : ℝ) < k := by nlinarith
  have : k = 0 := by
    have h5 : k < 1 := by exact_mod_cast h3
    have h6 : -1 < k := by exact_mod_cast h4
    omega
  rw [this] at hk; simp at hk; linarith

theorem norm_mk (x y : ℝ) : ‖(⟨x, y⟩ : ℂ)‖ = sqrt (x * x + y * y) := by
  rw [Complex.norm_def, Complex.normSq_mk]

theorem sqrt_mul_cos_atan2 (x y : ℝ) : sqrt (x * x + y * y) * cos (atan2R y x) = x := by
  rw [← norm_mk]; exact Complex.norm_mul_cos_arg _

theorem sqrt_mul_sin_atan2 (x y : ℝ) : sqrt (x * x + y * y) * sin (atan2R y x) = y := by
  rw [← norm_mk]; exact Complex.norm_mul_sin_arg _

theorem sumsq3_nonneg (x y z : ℝ) : 0 ≤ x * x + y * y + z * z := by nlinarith [mul_self_nonneg x, mul_self_nonneg y, mul_self_nonneg z]

theorem sumsq2_nonneg (x y : ℝ) : 0 ≤ x * x + y * y := by nlinarith [mul_self_nonneg x, mul_self_nonneg y]

end Verif
