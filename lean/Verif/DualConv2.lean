import Verif.DualConv

/-! # Conversion rules on dual numbers, continued -/

namespace Verif

open Real Spec

theorem d_cyl_cart3 (rho phi z : Dual) :
    ∃ Q, cylToCart3 rho phi z = .ok Q ∧ DGood (.cyl rho phi z) Q .cart3 := by
  refine ⟨_, rfl, rfl, good_cyl_cart3 ?_, ?_, ?_⟩
  · rw [cylToCart3_eq]; rfl
  · trivial
  · intro v hv
    cases hv
    refine ⟨_, rfl, ?_⟩
    simp only [Pos.re, cartVel]
    ext <;> simp <;> ring

theorem d_cyl_sph (rho phi z : Dual) (h : 0 < rho.re) :
    ∃ Q, cylToSph rho phi z = .ok Q ∧ DGood (.cyl rho phi z) Q .sph := by
  have h1 : 0 < rho.re * rho.re := by positivity
  have h3 : 0 < rho.re * rho.re + z.re * z.re := by nlinarith [mul_self_nonneg z.re]
  have hs : 0 < (rho * rho + z * z).re := by simpa using h3
  have hr := Real.sqrt_pos.mpr h3
  have hi := incl_lt (z := z.re) h1
  refine ⟨_, by
    rw [cylToSph, dual_sqrt_ok hs, ok_bind, dual_div_ok (by simpa using hr.ne'), ok_bind,
      dual_acos_ok (by simpa using hi.1) (by simpa using hi.2), ok_bind,
      mkSph_dual _ (Real.sqrt_nonneg _) (Real.arccos_nonneg _) (Real.arccos_le_pi _)],
    rfl, good_cyl_sph h.le ?_, ?_, ?_⟩
  · rw [cylToSph_eq h3]; rfl
  · exact ⟨_, rfl⟩
  · intro v hv
    cases hv
    refine ⟨_, rfl, ?_⟩
    simp only [Pos.re, Dist.re, distOf, cartVel, AzArg.convert, sin_incl h1, cos_incl h1,
      sqrt_one_sub h1, dual_add_re, dual_mul_re, dual_add_du, dual_mul_du,
      Real.sqrt_mul_self h.le]
    have hq3 := Real.mul_self_sqrt h3.le
    set r := √(rho.re * rho.re + z.re * z.re)
    have hr0 : r ≠ 0 := hr.ne'
    have hs0 : rho.re ≠ 0 := h.ne'
    ext
    · simp only; field_simp; grind
    · simp only; field_simp; grind
    · simp only; field_simp; grind

theorem d_sph_cart3 (r theta phi : Dual) (hv : Valid (.sph (.dist r.re) theta.re phi.re)) :
    ∃ Q, sphToCart3 (.dist r) theta phi = .ok Q ∧ DGood (.sph (.dist r) theta phi) Q .cart3 := by
  refine ⟨_, rfl, rfl, good_sph_cart3 hv ?_, ?_, ?_⟩
  · exact sphToCart3_eq (r := .dist r.re) hv.1 _ _
  · trivial
  · intro v hv
    cases hv
    refine ⟨_, rfl, ?_⟩
    simp only [Pos.re, Dist.re, distOf, cartVel]
    ext <;> simp <;> ring

theorem d_sph_cyl (r theta phi : Dual) (hv : Valid (.sph (.dist r.re) theta.re phi.re))
    (ho : 0 < r.re * sin theta.re) :
    ∃ Q, sphToCyl (.dist r) theta phi = .ok Q ∧ DGood (.sph (.dist r) theta phi) Q .cyl := by
  refine ⟨_, by
    rw [sphToCyl]
    show mkCyl _ _ _ = _
    rw [mkCyl_dual _ (abs_nonneg _)], rfl, good_sph_cyl hv ?_, ?_, ?_⟩
  · exact sphToCyl_eq (r := .dist r.re) hv.1 _ _
  · trivial
  · intro v hv
    cases hv
    refine ⟨_, rfl, ?_⟩
    simp only [Pos.re, Dist.re, distOf, cartVel, AzArg.convert, dual_abs_re, dual_abs_du,
      dual_mul_re, dual_sin_re, abs_of_pos ho, signR_pos ho, dual_mul_du, dual_sin_du,
      dual_cos_re, dual_cos_du]
    ext <;> simp only <;> ring

theorem d_sph_lonlat (r theta phi : Dual) (hv : Valid (.sph (.dist r.re) theta.re phi.re)) :
    ∃ Q, sphToLonLat (.dist r) theta phi = .ok Q ∧ DGood (.sph (.dist r) theta phi) Q .lonlat := by
  refine ⟨_, by
    rw [sphToLonLat, dual_halfPi, ok_bind,
      mkLonLat_dual _ hv.1 (by simp only [dual_sub_re]; linarith [hv.2.2])
        (by simp only [dual_sub_re]; linarith [hv.2.1])], rfl, good_sph_lonlat hv ?_, ?_, ?_⟩
  · exact sphToLonLat_eq (r := .dist r.re) hv.1 _ hv.2.1 hv.2.2
  · exact ⟨_, rfl⟩
  · intro v hv
    cases hv
    refine ⟨_, rfl, ?_⟩
    simp only [Pos.re, Dist.re, distOf, cartVel, AzArg.convert, dual_sub_re, dual_sub_du,
      Real.sin_pi_div_two_sub, Real.cos_pi_div_two_sub]
    ext <;> simp only <;> ring

theorem d_sph_math (r theta phi : Dual) (hv : Valid (.sph (.dist r.re) theta.re phi.re)) :
    ∃ Q, sphToMath (.dist r) theta phi = .ok Q ∧ DGood (.sph (.dist r) theta phi) Q .math := by
  refine ⟨_, by rw [sphToMath, mkMath_dual _ hv.1 hv.2.1 hv.2.2], rfl, good_sph_math hv ?_, ?_, ?_⟩
  · exact sphToMath_eq (r := .dist r.re) hv.1 _ hv.2.1 hv.2.2
  · exact ⟨_, rfl⟩
  · intro v hv
    cases hv
    refine ⟨_, rfl, ?_⟩
    simp only [Pos.re, Dist.re, distOf, cartVel, AzArg.convert]
    ext <;> simp only <;> ring

theorem d_math_sph (r theta phi : Dual) (hv : Valid (.math (.dist r.re) theta.re phi.re)) :
    ∃ Q, mathToSph (.dist r) theta phi = .ok Q ∧ DGood (.math (.dist r) theta phi) Q .sph := by
  refine ⟨_, by rw [mathToSph, mkSph_dual _ hv.1 hv.2.1 hv.2.2], rfl, good_math_sph hv ?_, ?_, ?_⟩
  · exact mathToSph_eq (r := .dist r.re) hv.1 _ hv.2.1 hv.2.2
  · exact ⟨_, rfl⟩
  · intro v hv
    cases hv
    refine ⟨_, rfl, ?_⟩
    simp only [Pos.re, Dist.re, distOf, cartVel, AzArg.convert]
    ext <;> simp only <;> ring

theorem d_lonlat_sph (lon lat d : Dual) (hv : Valid (.lonlat lon.re lat.re (.dist d.re))) :
    ∃ Q, lonlatToSph lon lat (.dist d) = .ok Q ∧ DGood (.lonlat lon lat (.dist d)) Q .sph := by
  refine ⟨_, by
    rw [lonlatToSph, dual_halfPi, ok_bind,
      mkSph_dual _ hv.1 (by simp only [dual_sub_re]; linarith [hv.2.2])
        (by simp only [dual_sub_re]; linarith [hv.2.1])], rfl, good_lonlat_sph hv ?_, ?_, ?_⟩
  · exact lonlatToSph_eq (r := .dist d.re) hv.1 _ hv.2.1 hv.2.2
  · exact ⟨_, rfl⟩
  · intro v hv
    cases hv
    refine ⟨_, rfl, ?_⟩
    simp only [Pos.re, Dist.re, distOf, cartVel, AzArg.convert, dual_sub_re, dual_sub_du,
      Real.sin_pi_div_two_sub, Real.cos_pi_div_two_sub]
    ext <;> simp only <;> ring

theorem d_math_cart3 (r theta phi : Dual) (hv : Valid (.math (.dist r.re) theta.re phi.re)) :
    ∃ Q, mathToCart3 (.dist r) theta phi = .ok Q ∧ DGood (.math (.dist r) theta phi) Q .cart3 := by
  refine ⟨_, rfl, rfl, good_math_cart3 hv ?_, ?_, ?_⟩
  · exact mathToCart3_eq (r := .dist r.re) hv.1 _ _
  · trivial
  · intro v hv
    cases hv
    refine ⟨_, rfl, ?_⟩
    simp only [Pos.re, Dist.re, distOf, cartVel]
    ext <;> simp <;> ring

theorem d_math_cyl (r theta phi : Dual) (hv : Valid (.math (.dist r.re) theta.re phi.re))
    (ho : 0 < r.re * sin phi.re) :
    ∃ Q, mathToCyl (.dist r) theta phi = .ok Q ∧ DGood (.math (.dist r) theta phi) Q .cyl := by
  refine ⟨_, by
    rw [mathToCyl]
    show mkCyl _ _ _ = _
    rw [mkCyl_dual _ (abs_nonneg _)], rfl, good_math_cyl hv ?_, ?_, ?_⟩
  · exact mathToCyl_eq (r := .dist r.re) hv.1 _ _
  · trivial
  · intro v hv
    cases hv
    refine ⟨_, rfl, ?_⟩
    simp only [Pos.re, Dist.re, distOf, cartVel, AzArg.convert, dual_abs_re, dual_abs_du,
      dual_mul_re, dual_sin_re, abs_of_pos ho, signR_pos ho, dual_mul_du, dual_sin_du,
      dual_cos_re, dual_cos_du]
    ext <;> simp only <;> ring

theorem d_cart2_polar (x y : Dual) (h : 0 < x.re * x.re + y.re * y.re) :
    ∃ Q, cart2ToPolar x y = .ok Q ∧ DGood (.cart2 x y) Q .polar := by
  have hs : 0 < (x * x + y * y).re := by simpa using h
  have ha : ¬ (x.re = 0 ∧ y.re = 0) := by rintro ⟨h1, h2⟩; simp [h1, h2] at h
  have hp := Real.sqrt_pos.mpr h
  refine ⟨_, by rw [cart2ToPolar, dual_sqrt_ok hs, ok_bind, dual_atan2_ok ha, ok_bind,
    mkPolar_dual _ (Real.sqrt_nonneg _)], rfl, good_cart2_polar ?_, ?_, ?_⟩
  · rw [cart2ToPolar_eq]; rfl
  · exact ⟨_, rfl⟩
  · intro v hv
    cases hv
    refine ⟨_, rfl, ?_⟩
    simp only [Pos.re, Dist.re, distOf, cartVel, AzArg.convert, dual_wrap_re, cos_wrap_atan2 h,
      sin_wrap_atan2 h, dual_add_re, dual_mul_re, dual_add_du, dual_mul_du, dual_wrap_du]
    have hq := Real.mul_self_sqrt h.le
    set s := √(x.re * x.re + y.re * y.re)
    rw [← hq]
    ext
    · simp only; field_simp; linear_combination (-2 * x.du) * hq
    · simp only; field_simp; linear_combination (-2 * y.du) * hq
    · rfl

theorem d_polar_cart2 (r phi : Dual) (hv : Valid (.polar (.dist r.re) phi.re)) :
    ∃ Q, polarToCart2 (.dist r) phi = .ok Q ∧ DGood (.polar (.dist r) phi) Q .cart2 := by
  refine ⟨_, rfl, rfl, good_polar_cart2 hv ?_, ?_, ?_⟩
  · exact polarToCart2_eq (r := .dist r.re) hv _
  · trivial
  · intro v hv
    cases hv
    refine ⟨_, rfl, ?_⟩
    simp only [Pos.re, Dist.re, distOf, cartVel]
    ext <;> simp <;> ring

theorem d_cart1_radial (x : Dual) (h : 0 ≤ x.re) :
    ∃ Q, mkRadial (.dist x) = .ok Q ∧ DGood (.cart1 x) Q .radial := by
  refine ⟨_, mkRadial_dual h, rfl, good_cart1_radial ?_, ?_, ?_⟩
  · rw [mkRadial_ok (r := .dist x.re) h]; rfl
  · exact ⟨_, rfl⟩
  · intro v hv
    cases hv
    exact ⟨_, rfl, rfl⟩

theorem d_radial_cart1 (r : Dual) (hv : Valid (.radial (.dist r.re))) :
    ∃ Q, (do mkCart1 (← (Dist.dist r).distance)) = .ok Q ∧ DGood (.radial (.dist r)) Q .cart1 := by
  refine ⟨_, rfl, rfl, good_radial_cart1 (r := .dist r.re) hv ?_, ?_, ?_⟩
  · rfl
  · trivial
  · intro v hv
    cases hv
    exact ⟨_, rfl, rfl⟩

theorem DGood.refl {P : Pos Dual} (hv : Valid P.re) (hp : PlainDist P.re) : DGood P P P.kind :=
  ⟨rfl, by have := Good.refl hv; rwa [Pos.re_kind] at this, hp, fun v h => ⟨v, h, rfl⟩⟩

end Verif
