import Verif.Distance
import Verif.Spec
import Verif.Forms
import Mathlib.Analysis.SpecialFunctions.Trigonometric.Arctan

/-!
# Distances: C26
-/

namespace Verif

open Real Spec

/-- `x` stands for the length `d` (in AU). A parallax is the acute angle with tangent `1 AU / d`, a
distance modulus is `5 log10(d / 10 pc)`, and `1 pc = 648000/π AU`. -/
def Denotes (x : Dist ℝ) (d : ℝ) : Prop :=
  match x with
  | .dist d' => d' = d
  | .par p => 0 < p ∧ p < π / 2 ∧ tan p = 1 / d
  | .dm m => m = 5 * (Real.log (d / (10 * (648000 / π))) / Real.log 10)

theorem atan2_one {d : ℝ} (hd : 0 < d) : 0 < atan2R 1 d ∧ atan2R 1 d < π / 2 ∧ tan (atan2R 1 d) = 1 / d := by
  have h1 : atan2R 1 d = arctan (1 / d) := by
    unfold atan2R
    rw [Complex.arg_of_re_nonneg (by exact hd.le)]
    rw [norm_mk, Real.arctan_eq_arcsin]
    congr 1
    have : √(d * d + 1 * 1) = d * √(1 + (1 / d) ^ 2) := by
      rw [show d * d + 1 * 1 = d ^ 2 * (1 + (1 / d) ^ 2) by field_simp, Real.sqrt_mul (by positivity),
        Real.sqrt_sq hd.le]
    simp only [this]
    field_simp
  refine ⟨?_, ?_, ?_⟩
  · rw [h1]; exact Real.arctan_pos.mpr (by positivity)
  · rw [h1]; exact Real.arctan_lt_pi_div_two _
  · rw [h1]; exact Real.tan_arctan _

theorem tan_inj_acute {p q : ℝ} (hp : 0 < p) (hp' : p < π / 2) (hq : 0 < q) (hq' : q < π / 2)
    (h : tan p = tan q) : p = q :=
  Real.injOn_tan ⟨by linarith, hp'⟩ ⟨by linarith, hq'⟩ h

/-- what a value stands for determines it, within its class -/
theorem Denotes.unique {x y : Dist ℝ} {d : ℝ} (hx : Denotes x d) (hy : Denotes y d)
    (h : (∃ a b, x = .dist a ∧ y = .dist b) ∨ (∃ a b, x = .par a ∧ y = .par b) ∨
      ∃ a b, x = .dm a ∧ y = .dm b) : x = y := by
  rcases h with ⟨a, b, rfl, rfl⟩ | ⟨a, b, rfl, rfl⟩ | ⟨a, b, rfl, rfl⟩
  · rw [show a = d from hx, show b = d from hy]
  · rw [tan_inj_acute hx.1 hx.2.1 hy.1 hy.2.1 (hx.2.2.trans hy.2.2.symm)]
  · rw [show a = _ from hx, show b = _ from hy]

theorem distance_of_denotes {x : Dist ℝ} {d : ℝ} (hd : 0 < d) (h : Denotes x d) :
    x.distance = .ok d := by
  cases x with
  | dist d' => rw [show d' = d from h]; rfl
  | par p =>
    obtain ⟨h0, h1, h2⟩ := h
    rw [distance_ok (r := .par p) ⟨h0, h1⟩]
    simp [distOf, h2]
  | dm m =>
    have hm : m = _ := h
    have : Dist.distance (.dm m) = .ok (distOf (.dm m)) := by simp [Dist.distance, div_real, distOf]
    rw [this]
    congr 1
    simp only [distOf]
    have hx : 0 < d / (10 * (648000 / π)) := by positivity
    rw [hm, show 5 * (Real.log (d / (10 * (648000 / π))) / Real.log 10) / 5 + 1
      = Real.logb 10 (d / (10 * (648000 / π))) + 1 by unfold Real.logb; ring]
    rw [Real.rpow_add (by norm_num), Real.rpow_logb (by norm_num) (by norm_num) hx, Real.rpow_one]
    have := Real.pi_pos
    field_simp

theorem parallaxOfDistance_ok {d : ℝ} (hd : 0 < d) :
    parallaxOfDistance d = .ok (.par (atan2R 1 d)) := by
  have h := (atan2_one hd).1
  simp [parallaxOfDistance, mkParallax, not_lt.mpr h.le]

theorem modulusOfDistance_ok {d : ℝ} (hd : 0 < d) :
    modulusOfDistance d = .ok (.dm (5 * (Real.log (d / (10 * (648000 / π))) / Real.log 10))) := by
  have h1 : (10 * (648000 / π) : ℝ) ≠ 0 := by have := Real.pi_pos; positivity
  have h2 : ¬ d / (10 * (648000 / π)) ≤ 0 := by
    have := Real.pi_pos
    push Not; positivity
  have h3 : (Num.log10 (d / (10 * (648000 / π))) : Res ℝ)
      = .ok (Real.logb 10 (d / (10 * (648000 / π)))) := if_neg h2
  simp only [modulusOfDistance, pcAU_real, ok_bind]
  rw [show (Num.nat 10 : ℝ) = 10 from by simp [Num.nat], div_real_ok h1, ok_bind, h3]
  simp [Real.logb]

/-- **C26.** Each of the three properties `distance`, `parallax`, `distance_modulus` of any
distance-like value standing for a positive length returns a value of the requested class standing
for the same length. -/
theorem C26_same_length (x : Dist ℝ) (d : ℝ) (hd : 0 < d) (h : Denotes x d) :
    (∃ a, x.toDistance = .ok (.dist a) ∧ Denotes (.dist a) d) ∧
    (∃ p, x.toParallax = .ok (.par p) ∧ Denotes (.par p) d) ∧
    (∃ m, x.toModulus = .ok (.dm m) ∧ Denotes (.dm m) d) := by
  have hx := distance_of_denotes hd h
  refine ⟨⟨d, ?_, rfl⟩, ?_, ?_⟩
  · simp only [Dist.toDistance, hx, ok_bind]; rfl
  · cases x with
    | dist d' => rw [show d' = d from h]; exact ⟨_, parallaxOfDistance_ok hd, atan2_one hd⟩
    | par p => exact ⟨p, rfl, h⟩
    | dm m => exact ⟨_, by simp only [Dist.toParallax, hx, ok_bind]; exact parallaxOfDistance_ok hd,
        atan2_one hd⟩
  · cases x with
    | dist d' => rw [show d' = d from h]; exact ⟨_, modulusOfDistance_ok hd, rfl⟩
    | par p => exact ⟨_, by simp only [Dist.toModulus, hx, ok_bind]; exact modulusOfDistance_ok hd, rfl⟩
    | dm m => exact ⟨m, rfl, h⟩

/-- Every positive distance, acute parallax and real modulus stands for exactly one positive length. -/
theorem C26_denotes_unique (x : Dist ℝ) :
    (∃! d, 0 < d ∧ Denotes x d) ↔
      match x with
      | .dist d => 0 < d
      | .par p => 0 < p ∧ p < π / 2
      | .dm _ => True := by
  cases x with
  | dist d =>
    constructor
    · rintro ⟨e, ⟨h1, h2⟩, _⟩; rw [show d = e from h2]; exact h1
    · intro h; exact ⟨d, ⟨h, rfl⟩, fun e he => he.2.symm⟩
  | par p =>
    constructor
    · rintro ⟨e, ⟨h1, h2⟩, _⟩; exact ⟨h2.1, h2.2.1⟩
    · rintro ⟨h0, h1⟩
      have ht := Real.tan_pos_of_pos_of_lt_pi_div_two h0 h1
      refine ⟨1 / tan p, ⟨by positivity, h0, h1, by simp⟩, fun e he => ?_⟩
      rw [he.2.2.2]; simp
  | dm m =>
    refine ⟨fun _ => trivial, fun _ => ?_⟩
    have hpi := Real.pi_pos
    have hl : Real.log 10 ≠ 0 := (Real.log_pos (by norm_num)).ne'
    refine ⟨(10 : ℝ) ^ (m / 5) * (10 * (648000 / π)), ⟨by positivity, ?_⟩, fun e he => ?_⟩
    · show m = _
      rw [mul_div_assoc, div_self (by positivity), mul_one, Real.log_rpow (by norm_num)]
      field_simp
    · have hm : m = _ := he.2
      have hx : 0 < e / (10 * (648000 / π)) := div_pos he.1 (by positivity)
      rw [hm, show 5 * (Real.log (e / (10 * (648000 / π))) / Real.log 10) / 5
        = Real.logb 10 (e / (10 * (648000 / π))) by unfold Real.logb; ring,
        Real.rpow_logb (by norm_num) (by norm_num) hx]
      field_simp

/-- **C26, round trips.** Whatever is positive comes back exactly: through a parallax, through a distance
modulus, through a distance, and all longer paths (by `C26_same_length`). -/
theorem C26_round_trips :
    (∀ d : ℝ, 0 < d → (Dist.dist d).toParallax >>= Dist.toDistance = .ok (.dist d)) ∧
    (∀ d : ℝ, 0 < d → (Dist.dist d).toModulus >>= Dist.toDistance = .ok (.dist d)) ∧
    (∀ p : ℝ, 0 < p → p < π / 2 → (Dist.par p).toDistance >>= Dist.toParallax = .ok (.par p)) ∧
    (∀ p : ℝ, 0 < p → p < π / 2 → (Dist.par p).toModulus >>= Dist.toParallax = .ok (.par p)) ∧
    (∀ m : ℝ, (Dist.dm m).toDistance >>= Dist.toModulus = .ok (.dm m)) ∧
    (∀ m : ℝ, (Dist.dm m).toParallax >>= Dist.toModulus = .ok (.dm m)) := by
  have par : ∀ p : ℝ, 0 < p → p < π / 2 → ∃ d, 0 < d ∧ Denotes (.par p) d := fun p h0 h1 => by
    obtain ⟨d, h, _⟩ := (C26_denotes_unique (.par p)).mpr ⟨h0, h1⟩; exact ⟨d, h⟩
  have dm : ∀ m : ℝ, ∃ d, 0 < d ∧ Denotes (.dm m) d := fun m => by
    obtain ⟨d, h, _⟩ := (C26_denotes_unique (.dm m)).mpr trivial; exact ⟨d, h⟩
  refine ⟨?_, ?_, ?_, ?_, ?_, ?_⟩
  · intro d hd
    obtain ⟨_, ⟨p, h1, h2⟩, _⟩ := C26_same_length (.dist d) d hd rfl
    obtain ⟨⟨a, h3, h4⟩, _⟩ := C26_same_length _ d hd h2
    rw [h1, ok_bind, h3, show a = d from h4]
  · intro d hd
    obtain ⟨_, _, ⟨p, h1, h2⟩⟩ := C26_same_length (.dist d) d hd rfl
    obtain ⟨⟨a, h3, h4⟩, _⟩ := C26_same_length _ d hd h2
    rw [h1, ok_bind, h3, show a = d from h4]
  · intro p h0 h1
    obtain ⟨d, hd, h⟩ := par p h0 h1
    obtain ⟨⟨a, h1, h2⟩, _, _⟩ := C26_same_length _ d hd h
    obtain ⟨_, ⟨q, h3, h4⟩, _⟩ := C26_same_length _ d hd h2
    rw [h1, ok_bind, h3, h4.unique h (Or.inr (Or.inl ⟨_, _, rfl, rfl⟩))]
  · intro p h0 h1
    obtain ⟨d, hd, h⟩ := par p h0 h1
    obtain ⟨_, _, ⟨a, h1, h2⟩⟩ := C26_same_length _ d hd h
    obtain ⟨_, ⟨q, h3, h4⟩, _⟩ := C26_same_length _ d hd h2
    rw [h1, ok_bind, h3, h4.unique h (Or.inr (Or.inl ⟨_, _, rfl, rfl⟩))]
  · intro m
    obtain ⟨d, hd, h⟩ := dm m
    obtain ⟨⟨a, h1, h2⟩, _, _⟩ := C26_same_length _ d hd h
    obtain ⟨_, _, ⟨q, h3, h4⟩⟩ := C26_same_length _ d hd h2
    rw [h1, ok_bind, h3, h4.unique h (Or.inr (Or.inr ⟨_, _, rfl, rfl⟩))]
  · intro m
    obtain ⟨d, hd, h⟩ := dm m
    obtain ⟨_, ⟨a, h1, h2⟩, _⟩ := C26_same_length _ d hd h
    obtain ⟨_, _, ⟨q, h3, h4⟩⟩ := C26_same_length _ d hd h2
    rw [h1, ok_bind, h3, h4.unique h (Or.inr (Or.inr ⟨_, _, rfl, rfl⟩))]

/-- **C26.** The constructors `Distance.from_` and `Parallax.from_` agree with the properties, wherever
the value stands for a positive length. -/
theorem C26_from_agrees (x : Dist ℝ) (d : ℝ) (h : Denotes x d) :
    distanceFrom x = x.toDistance ∧
    ((∀ m, x ≠ .dm m) → parallaxFrom x = x.toParallax) := by
  constructor
  · cases x with
    | dist d => rfl
    | par p => simp only [distanceFrom, Dist.toDistance, Dist.distance, bind_assoc]
    | dm m => simp only [distanceFrom, Dist.toDistance, Dist.distance, bind_assoc, pure_bind]
  · intro hm
    cases x with
    | dist d => rfl
    | par p =>
      have : ¬ p < 0 := not_lt.mpr h.1.le
      simp [parallaxFrom, mkParallax, Dist.toParallax, this]
    | dm m => exact absurd rfl (hm m)

/-- **C26, monotonicity.** The parallax strictly decreases and the modulus strictly increases with
distance. -/
theorem C26_monotone (d d' p p' m m' : ℝ) (hd : 0 < d) (h : d < d')
    (hp : (Dist.dist d).toParallax = .ok (.par p)) (hp' : (Dist.dist d').toParallax = .ok (.par p'))
    (hm : (Dist.dist d).toModulus = .ok (.dm m)) (hm' : (Dist.dist d').toModulus = .ok (.dm m')) :
    p' < p ∧ m < m' := by
  have hd' := hd.trans h
  obtain ⟨_, ⟨q, a1, a2⟩, ⟨n, a3, a4⟩⟩ := C26_same_length (.dist d) d hd rfl
  obtain ⟨_, ⟨q', b1, b2⟩, ⟨n', b3, b4⟩⟩ := C26_same_length (.dist d') d' hd' rfl
  rw [a1] at hp; rw [b1] at hp'; rw [a3] at hm; rw [b3] at hm'
  cases hp; cases hp'; cases hm; cases hm'
  constructor
  · by_contra hc
    push Not at hc
    have hpi := Real.pi_pos
    have ha := a2.1
    have hb := b2.1
    have := Real.strictMonoOn_tan.monotoneOn (a := p) (b := p') ⟨by linarith, a2.2.1⟩
      ⟨by linarith, b2.2.1⟩ hc
    rw [a2.2.2, b2.2.2] at this
    have := one_div_lt_one_div_of_lt hd h
    linarith
  · rw [show m = _ from a4, show m' = _ from b4]
    have hpi := Real.pi_pos
    have hl : 0 < Real.log 10 := Real.log_pos (by norm_num)
    have : Real.log (d / (10 * (648000 / π))) < Real.log (d' / (10 * (648000 / π))) :=
      Real.log_lt_log (by positivity) (by gcongr)
    gcongr

/-- Outside the positive lengths: the distance modulus of a length `≤ 0` is undefined, and a negative
parallax is rejected. -/
theorem C26_domain (d p : ℝ) :
    (d ≤ 0 → (Dist.dist d).toModulus = .error .nonFinite) ∧
    (p < 0 → mkParallax p = .error .check) := by
  constructor
  · intro h
    have h1 : (10 * (648000 / π) : ℝ) ≠ 0 := by have := Real.pi_pos; positivity
    have h2 : d / (10 * (648000 / π)) ≤ 0 := div_nonpos_of_nonpos_of_nonneg h (by have := Real.pi_pos; positivity)
    have h3 : (Num.log10 (d / (10 * (648000 / π))) : Res ℝ) = .error .nonFinite := if_pos h2
    simp only [Dist.toModulus, modulusOfDistance, pcAU_real, ok_bind]
    rw [show (Num.nat 10 : ℝ) = 10 from by simp [Num.nat], div_real_ok h1, ok_bind, h3]
    rfl
  · intro h; simp [mkParallax, h]

/-- 10 pc is modulus 0 -/
example : Denotes (.dm 0) (10 * (648000 / π)) := by
  have : (10 * (648000 / π) : ℝ) ≠ 0 := by have := Real.pi_pos; positivity
  simp [Denotes, div_self this]

/-- 45 degrees is 1 AU -/
example : Denotes (.par (π / 4)) 1 :=
  ⟨by have := Real.pi_pos; positivity, by linarith [Real.pi_pos], by simp⟩

end Verif
