import Verif.SpecVel
import Verif.ConvTotal
import Mathlib.Analysis.Calculus.Deriv.Mul
import Mathlib.Analysis.SpecialFunctions.Trigonometric.Deriv
import Mathlib.Analysis.SpecialFunctions.Sqrt

/-! # Velocities: helper lemmas -/

namespace Verif

open Real Spec

theorem prolZ_ne_zero {μ ν Δ : ℝ} (h : (point (.prolate μ ν φ Δ)).z ≠ 0) : ν ≠ 0 := by
  rintro rfl
  apply h; simp [point, cylPoint, prolZ]

/-- `cartVel` is the derivative of the Cartesian coordinates along every curve with these rates. -/
theorem cartVel_hasDeriv {c : ℝ → Pos ℝ} {t : ℝ} {v : Vel ℝ} (h : RatesAt c t v)
    (hs : v.kind ≠ .twoSphere) (hv : Valid (c t)) (hr : Regular v.kind.integral (point (c t))) :
    HasDeriv3 (fun s => point (c s)) (cartVel (c t) v) t := by
  cases v with
  | cart1 a =>
    obtain ⟨x, hc, h1⟩ := h
    simp only [hc, point, cartVel]
    exact ⟨h1, hasDerivAt_const _ _, hasDerivAt_const _ _⟩
  | radial a =>
    obtain ⟨x, hc, h1⟩ := h
    simp only [hc, point, cartVel]
    exact ⟨h1, hasDerivAt_const _ _, hasDerivAt_const _ _⟩
  | cart2 a b =>
    obtain ⟨x, y, hc, h1, h2⟩ := h
    simp only [hc, point, cartVel]
    exact ⟨h1, h2, hasDerivAt_const _ _⟩
  | polar a b =>
    obtain ⟨r, φ, hc, h1, h2⟩ := h
    simp only [hc, point, cartVel, distOf]
    refine ⟨?_, ?_, hasDerivAt_const _ _⟩
    · exact (h1.fun_mul h2.cos).congr_deriv (by ring)
    · exact (h1.fun_mul h2.sin).congr_deriv (by ring)
  | twoSphere a b => exact absurd rfl hs
  | cart3 a b e =>
    obtain ⟨x, y, z, hc, h1, h2, h3⟩ := h
    simp only [hc, point, cartVel]
    exact ⟨h1, h2, h3⟩
  | cyl a b e =>
    obtain ⟨r, φ, z, hc, h1, h2, h3⟩ := h
    simp only [hc, point, cartVel, cylPoint]
    refine ⟨?_, ?_, h3⟩
    · exact (h1.fun_mul h2.cos).congr_deriv (by ring)
    · exact (h1.fun_mul h2.sin).congr_deriv (by ring)
  | sph a b e =>
    obtain ⟨r, θ, φ, hc, h1, h2, h3⟩ := h
    simp only [hc, point, cartVel, sphPoint, distOf]
    refine ⟨?_, ?_, ?_⟩
    · exact ((h1.fun_mul h2.sin).fun_mul h3.cos).congr_deriv (by ring)
    · exact ((h1.fun_mul h2.sin).fun_mul h3.sin).congr_deriv (by ring)
    · exact (h1.fun_mul h2.cos).congr_deriv (by ring)
  | math a b e =>
    obtain ⟨r, θ, φ, hc, h1, h2, h3⟩ := h
    simp only [hc, point, cartVel, sphPoint, distOf]
    refine ⟨?_, ?_, ?_⟩
    · exact ((h1.fun_mul h3.sin).fun_mul h2.cos).congr_deriv (by ring)
    · exact ((h1.fun_mul h3.sin).fun_mul h2.sin).congr_deriv (by ring)
    · exact (h1.fun_mul h3.cos).congr_deriv (by ring)
  | lonlat a b e =>
    obtain ⟨lon, lat, d, hc, h1, h2, h3⟩ := h
    simp only [hc, point, cartVel, lonlatPoint, distOf]
    refine ⟨?_, ?_, ?_⟩
    · exact ((h3.fun_mul h2.cos).fun_mul h1.cos).congr_deriv (by ring)
    · exact ((h3.fun_mul h2.cos).fun_mul h1.sin).congr_deriv (by ring)
    · exact (h3.fun_mul h2.sin).congr_deriv (by ring)
  | lonCosLat a b e =>
    obtain ⟨lon, lat, d, a', hc, h1, ha, h2, h3⟩ := h
    subst ha
    simp only [hc, point, cartVel, lonlatPoint, distOf]
    refine ⟨?_, ?_, ?_⟩
    · exact ((h3.fun_mul h2.cos).fun_mul h1.cos).congr_deriv (by ring)
    · exact ((h3.fun_mul h2.cos).fun_mul h1.sin).congr_deriv (by ring)
    · exact (h3.fun_mul h2.sin).congr_deriv (by ring)
  | prolate a b e =>
    obtain ⟨μ, ν, φ, Δ, hc, h1, h2, h3⟩ := h
    rw [hc t] at hv hr
    obtain ⟨hd, hμ, hν⟩ := hv
    obtain ⟨hoff, hz⟩ := hr
    have hν0 : ν t ≠ 0 := prolZ_ne_zero hz
    have hR : (μ t - Δ ^ 2) * (1 - |ν t| / Δ ^ 2) ≠ 0 := by
      intro h0
      apply hoff
      simp [point, cylPoint, prolR, h0]
    have hZ : μ t * (|ν t| / Δ ^ 2) ≠ 0 := by
      have : 0 < μ t := lt_of_lt_of_le (by positivity) hμ
      have : 0 < |ν t| := abs_pos.mpr hν0
      positivity
    have habs : HasDerivAt (fun s => |ν s|) ((if ν t < 0 then (-1 : ℝ) else 1) * b) t := by
      rcases lt_or_gt_of_ne hν0 with h | h
      · rw [if_pos h]
        have : (fun s => |ν s|) =ᶠ[nhds t] fun s => -ν s := by
          filter_upwards [h2.continuousAt.eventually_lt continuousAt_const h] with s hs
          exact abs_of_neg hs
        exact (h2.neg.congr_of_eventuallyEq this).congr_deriv (by ring)
      · rw [if_neg (not_lt.mpr h.le)]
        have : (fun s => |ν s|) =ᶠ[nhds t] fun s => ν s := by
          filter_upwards [continuousAt_const.eventually_lt h2.continuousAt h] with s hs
          exact abs_of_pos hs
        exact (h2.congr_of_eventuallyEq this).congr_deriv (by ring)
    have hRd : HasDerivAt (fun s => prolR (μ s) (ν s) Δ)
        ((a * (1 - |ν t| / Δ ^ 2) - (μ t - Δ ^ 2) * ((if ν t < 0 then (-1 : ℝ) else 1) * b) / Δ ^ 2)
          / (2 * prolR (μ t) (ν t) Δ)) t := by
      have := (((h1.sub_const (Δ ^ 2)).fun_mul ((habs.div_const (Δ ^ 2)).const_sub 1))).sqrt hR
      refine this.congr_deriv ?_
      simp only [prolR]
      ring
    have hZs : HasDerivAt (fun s => √(μ s * (|ν s| / Δ ^ 2)))
        ((a * |ν t| + μ t * ((if ν t < 0 then (-1 : ℝ) else 1) * b)) / Δ ^ 2
          / (2 * √(μ t * (|ν t| / Δ ^ 2)))) t := by
      have := ((h1.fun_mul (habs.div_const (Δ ^ 2)))).sqrt hZ
      refine this.congr_deriv ?_
      ring
    have hZd : HasDerivAt (fun s => prolZ (μ s) (ν s) Δ)
        ((a * |ν t| + μ t * ((if ν t < 0 then (-1 : ℝ) else 1) * b)) / Δ ^ 2
          / (2 * prolZ (μ t) (ν t) Δ)) t := by
      rcases lt_or_gt_of_ne hν0 with h | h
      · have e1 : (fun s => prolZ (μ s) (ν s) Δ) =ᶠ[nhds t] fun s => -√(μ s * (|ν s| / Δ ^ 2)) := by
          filter_upwards [h2.continuousAt.eventually_lt continuousAt_const h] with s hs
          simp [prolZ, hs]
        refine (hZs.neg.congr_of_eventuallyEq e1).congr_deriv ?_
        simp only [prolZ, h, if_true]
        ring
      · have e1 : (fun s => prolZ (μ s) (ν s) Δ) =ᶠ[nhds t] fun s => √(μ s * (|ν s| / Δ ^ 2)) := by
          filter_upwards [continuousAt_const.eventually_lt h2.continuousAt h] with s hs
          simp [prolZ, not_lt.mpr hs.le]
        refine (hZs.congr_of_eventuallyEq e1).congr_deriv ?_
        simp only [prolZ, not_lt.mpr h.le, if_false]
    simp only [hc, point, cartVel, cylPoint]
    refine ⟨?_, ?_, hZd⟩
    · exact (hRd.fun_mul h3.cos).congr_deriv (by ring)
    · exact (hRd.fun_mul h3.sin).congr_deriv (by ring)

end Verif
