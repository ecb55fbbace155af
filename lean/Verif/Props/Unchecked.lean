import Verif.Unchecked
import Verif.Props.Distance

/-!
# Parallaxes that may be negative

C83: what becomes of a parallax that is made without the check, for every angle.
-/

namespace Verif

open Real

/-- **C83**: with the check, this is the constructor of C26, which rejects exactly the negative ones; without, every angle is taken and kept as it
is. -/
theorem C83_construct (v : ℝ) :
    (mkParallaxC true v = mkParallax v) ∧ ((∃ x, mkParallaxC true v = .ok x) ↔ 0 ≤ v) ∧ mkParallaxC false v = .ok (.par v) := by
  refine ⟨rfl, ?_, rfl⟩
  rw [show mkParallaxC true v = mkParallax v from rfl]
  unfold mkParallax
  by_cases h : v < 0
  · simp [h]
  · simp [h, not_lt.1 h]

theorem tan_eq_mod_pi {a b : ℝ} (ha : cos a ≠ 0) (hb : cos b ≠ 0) (h : tan a = tan b) : ∃ k : ℤ, a = b + k * π := by
  rw [tan_eq_sin_div_cos, tan_eq_sin_div_cos, div_eq_div_iff ha hb] at h
  have : sin (a - b) = 0 := by rw [sin_sub]; linarith
  obtain ⟨k, hk⟩ := sin_eq_zero_iff.1 this
  exact ⟨k, by linarith⟩

theorem arg_upper (d : ℝ) : 0 < atan2R 1 d ∧ atan2R 1 d < π := by
  unfold atan2R
  refine ⟨?_, ?_⟩
  · have h0 : 0 ≤ Complex.arg ⟨d, 1⟩ := Complex.arg_nonneg_iff.2 (by norm_num)
    refine lt_of_le_of_ne h0 fun e => ?_
    have := (Complex.arg_eq_zero_iff.1 e.symm).2
    norm_num at this
  · refine lt_of_le_of_ne (Complex.arg_le_pi _) fun e => ?_
    have := (Complex.arg_eq_pi_iff.1 e).2
    norm_num at this

theorem distance_unchecked (p : ℝ) : (sin p ≠ 0 → cos p ≠ 0 → (Dist.par p).distance = .ok (1 / tan p)) ∧
    (sin p = 0 ∨ cos p = 0 → ∃ e, (Dist.par p).distance = .error e) := by
  constructor
  · intro hs hc
    have ht : tan p ≠ 0 := by rw [tan_eq_sin_div_cos]; exact div_ne_zero hs hc
    have h1 : (Num.tan p : Res ℝ) = .ok (tan p) := if_neg hc
    simp only [Dist.distance, h1, ok_bind]
    rw [div_real_ok ht]; simp [Num.nat]
  · rintro (h | h)
    · have hc : cos p ≠ 0 := fun hc => by have := sin_sq_add_cos_sq p; rw [h, hc] at this; norm_num at this
      have h1 : (Num.tan p : Res ℝ) = .ok (tan p) := if_neg hc
      have ht : tan p = 0 := by rw [tan_eq_sin_div_cos, h, zero_div]
      simp only [Dist.distance, h1, ok_bind, ht]
      exact ⟨_, if_pos rfl⟩
    · have h1 : (Num.tan p : Res ℝ) = .error .nonFinite := if_pos h
      simp only [Dist.distance, h1]
      exact ⟨_, rfl⟩

/-- **C83**: the distance of a parallax `p` made without the check is `1 AU / tan p`: negative for every small negative parallax. It is undefined
(infinite or NaN in floating point) exactly where `sin p` or `cos p` is 0, so at `p = 0`. -/
theorem C83_distance (p : ℝ) :
    ((∃ x, distanceC false p = .ok x) ↔ sin p ≠ 0 ∧ cos p ≠ 0) ∧
    (sin p ≠ 0 → cos p ≠ 0 → distanceC false p = .ok (.dist (1 / tan p))) ∧
    (-(π / 2) < p → p < 0 → ∃ d, distanceC false p = .ok (.dist d) ∧ d < 0) := by
  have key : sin p ≠ 0 → cos p ≠ 0 → distanceC false p = .ok (.dist (1 / tan p)) := fun hs hc => by
    show (Dist.par p).toDistance = _
    unfold Dist.toDistance
    rw [(distance_unchecked p).1 hs hc]; rfl
  refine ⟨⟨?_, fun h => ⟨_, key h.1 h.2⟩⟩, key, fun h1 h2 => ?_⟩
  · rintro ⟨x, h⟩
    by_contra hn
    obtain ⟨e, he⟩ := (distance_unchecked p).2 (by tauto)
    have : (Dist.par p).toDistance = .ok x := h
    unfold Dist.toDistance at this
    rw [he] at this
    cases this
  · have hs : sin p < 0 := sin_neg_of_neg_of_neg_pi_lt h2 (by linarith [pi_pos])
    have hc : 0 < cos p := cos_pos_of_mem_Ioo ⟨by linarith, by linarith [pi_pos]⟩
    refine ⟨_, key hs.ne hc.ne', ?_⟩
    rw [tan_eq_sin_div_cos, one_div_div]
    exact div_neg_of_pos_of_neg hc hs

/-- **C83**: going from a parallax to the distance and back gives the angle between 0 and `π` that differs from the parallax by a multiple of
`π`. So the round trip is the identity exactly for parallaxes between 0 and `π`, and nothing is raised for the others. -/
theorem C83_round_trip (p : ℝ) (hs : sin p ≠ 0) (hc : cos p ≠ 0) :
    ∃ p', parallaxAgainC false p = .ok (.par p') ∧ 0 < p' ∧ p' < π ∧ (∃ k : ℤ, p' = p + k * π) ∧ (p' = p ↔ 0 < p ∧ p < π) := by
  have ht : tan p ≠ 0 := by rw [tan_eq_sin_div_cos]; exact div_ne_zero hs hc
  obtain ⟨h0, h1⟩ := arg_upper (1 / tan p)
  have hm : ∀ x : ℝ, 0 < x → mkParallax x = .ok (.par x) := fun x hx => by simp [mkParallax, not_lt.2 hx.le]
  have hr : parallaxAgainC false p = .ok (.par (atan2R 1 (1 / tan p))) := by
    unfold parallaxAgainC
    rw [(C83_distance p).2.1 hs hc]
    show parallaxOfDistance (1 / tan p) = _
    unfold parallaxOfDistance
    rw [show (Num.atan2 (Num.nat 1) (1 / tan p) : Res ℝ) = .ok (atan2R 1 (1 / tan p)) by simp [Num.atan2, Num.nat], ok_bind]
    exact hm _ h0
  have htan : tan (atan2R 1 (1 / tan p)) = tan p := by
    unfold atan2R
    rw [Complex.tan_arg]
    simp
  have hcos : cos (atan2R 1 (1 / tan p)) ≠ 0 := fun h => by
    rw [tan_eq_sin_div_cos, h, div_zero] at htan
    exact ht htan.symm
  obtain ⟨k, hk⟩ := tan_eq_mod_pi hcos hc htan
  refine ⟨_, hr, h0, h1, ⟨k, hk⟩, fun e => e ▸ ⟨h0, h1⟩, fun ⟨a, b⟩ => ?_⟩
  have hp := pi_pos
  have k0 : k = 0 := by
    have u1 : (k : ℝ) < 1 := by nlinarith
    have u2 : (-1 : ℝ) < k := by nlinarith
    have : k < 1 := by exact_mod_cast u1
    have : -1 < k := by exact_mod_cast u2
    omega
  rw [hk, k0]; simp

/-- **C83**: for a small negative parallax the round trip gives `p + π`, almost half a turn, and the distance modulus is undefined (NaN). -/
theorem C83_negative (p : ℝ) (h1 : -(π / 2) < p) (h2 : p < 0) :
    parallaxAgainC false p = .ok (.par (p + π)) ∧ modulusC false p = .error .nonFinite := by
  have hs : sin p < 0 := sin_neg_of_neg_of_neg_pi_lt h2 (by linarith [pi_pos])
  have hc : 0 < cos p := cos_pos_of_mem_Ioo ⟨by linarith, by linarith [pi_pos]⟩
  constructor
  · obtain ⟨p', e, a, b, ⟨k, hk⟩, -⟩ := C83_round_trip p hs.ne hc.ne'
    rw [e]
    have hp := pi_pos
    have k1 : k = 1 := by
      have u1 : (k : ℝ) < 2 := by nlinarith
      have u2 : (0 : ℝ) < k := by
        by_contra hn
        have : (k : ℝ) * π ≤ 0 := mul_nonpos_of_nonpos_of_nonneg (not_lt.1 hn) hp.le
        linarith
      have : k < 2 := by exact_mod_cast u1
      have : 0 < k := by exact_mod_cast u2
      omega
    rw [hk, k1]; simp
  · show (Dist.par p).toModulus = _
    have hd : 1 / tan p ≤ 0 := by
      rw [tan_eq_sin_div_cos, one_div_div]
      exact (div_neg_of_pos_of_neg hc hs).le
    have := (C26_domain (1 / tan p) 0).1 hd
    simp only [Dist.toModulus] at this ⊢
    rw [(distance_unchecked p).1 hs.ne hc.ne', ok_bind, this]

/-! ### Examples -/

/-- a parallax of minus 45 degrees is a distance of -1 AU, whose parallax is 135 degrees -/
example : distanceC false (-(π / 4)) = .ok (.dist (-1)) ∧ parallaxAgainC false (-(π / 4)) = .ok (.par (3 * π / 4)) := by
  have hp := pi_pos
  constructor
  · rw [(C83_distance _).2.1 (by rw [sin_neg, sin_pi_div_four]; simp) (by rw [cos_neg, cos_pi_div_four]; simp), tan_neg, tan_pi_div_four]
    norm_num
  · rw [(C83_negative _ (by linarith) (by linarith)).1]
    congr 2; ring

end Verif
