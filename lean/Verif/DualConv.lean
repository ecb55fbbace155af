import Verif.VelLemmas

/-! # Conversion rules on dual numbers (helper lemmas)

Each rule, run on dual numbers at a non-singular position, returns; its value part is the real
conversion, its tangent part has the same Cartesian velocity. -/

namespace Verif

open Real Spec

section ops
variable (a b : Dual)
@[simp] theorem dual_add_re : (a + b).re = a.re + b.re := rfl
@[simp] theorem dual_add_du : (a + b).du = a.du + b.du := rfl
@[simp] theorem dual_sub_re : (a - b).re = a.re - b.re := rfl
@[simp] theorem dual_sub_du : (a - b).du = a.du - b.du := rfl
@[simp] theorem dual_mul_re : (a * b).re = a.re * b.re := rfl
@[simp] theorem dual_mul_du : (a * b).du = a.du * b.re + a.re * b.du := rfl
@[simp] theorem dual_neg_re : (-a).re = -a.re := rfl
@[simp] theorem dual_neg_du : (-a).du = -a.du := rfl
@[simp] theorem dual_nat_re (n : ℕ) : (Num.nat n : Dual).re = n := rfl
@[simp] theorem dual_nat_du (n : ℕ) : (Num.nat n : Dual).du = 0 := rfl
@[simp] theorem dual_pi_re : (Num.pi : Dual).re = π := rfl
@[simp] theorem dual_pi_du : (Num.pi : Dual).du = 0 := rfl
@[simp] theorem dual_abs_re : (Num.abs a).re = |a.re| := rfl
@[simp] theorem dual_abs_du : (Num.abs a).du = signR a.re * a.du := rfl
@[simp] theorem dual_sign_re : (Num.sign a).re = signR a.re := rfl
@[simp] theorem dual_sign_du : (Num.sign a).du = 0 := rfl
@[simp] theorem dual_sin_re : (Num.sin a).re = sin a.re := rfl
@[simp] theorem dual_sin_du : (Num.sin a).du = cos a.re * a.du := rfl
@[simp] theorem dual_cos_re : (Num.cos a).re = cos a.re := rfl
@[simp] theorem dual_cos_du : (Num.cos a).du = -sin a.re * a.du := rfl
@[simp] theorem dual_wrap_re : (Num.wrap a).re = wrapR a.re := rfl
@[simp] theorem dual_wrap_du : (Num.wrap a).du = a.du := rfl
@[simp] theorem dual_lt : Num.lt a b = decide (a.re < b.re) := rfl
@[simp] theorem dual_beq : Num.beq a b = decide (a.re = b.re) := rfl
theorem dual_sqrt_ok {a : Dual} (h : 0 < a.re) :
    Num.sqrt a = Except.ok ⟨√a.re, a.du / (2 * √a.re)⟩ := by
  show (if a.re ≤ 0 then _ else _) = _
  rw [if_neg (not_le.mpr h)]
theorem dual_div_ok {a b : Dual} (h : b.re ≠ 0) :
    Num.div a b = Except.ok ⟨a.re / b.re, a.du / b.re - a.re * b.du / (b.re * b.re)⟩ := by
  show (if b.re = 0 then _ else _) = _
  rw [if_neg h]
theorem dual_acos_ok {a : Dual} (h : -1 < a.re) (h' : a.re < 1) :
    Num.acos a = Except.ok ⟨arccos a.re, -a.du / √(1 - a.re * a.re)⟩ := by
  show (if a.re ≤ -1 ∨ 1 ≤ a.re then _ else _) = _
  rw [if_neg (by push Not; exact ⟨h, h'⟩)]
theorem dual_atan2_ok {y x : Dual} (h : ¬ (x.re = 0 ∧ y.re = 0)) :
    Num.atan2 y x = Except.ok ⟨atan2R y.re x.re,
      (x.re * y.du - y.re * x.du) / (x.re * x.re + y.re * y.re)⟩ := by
  show (if x.re = 0 ∧ y.re = 0 then _ else _) = _
  rw [if_neg h]
theorem dual_halfPi : (halfPi : Res Dual) = Except.ok ⟨π / 2, 0⟩ := by
  unfold halfPi
  rw [dual_div_ok (by simp)]
  simp
end ops

/-- value part of a distance -/
def Dist.re : Dist Dual → Dist ℝ
  | .dist d => .dist d.re
  | .par d => .par d.re
  | .dm d => .dm d.re

/-- value part of a position -/
def Pos.re : Pos Dual → Pos ℝ
  | .cart1 x => .cart1 x.re
  | .radial r => .radial r.re
  | .cart2 x y => .cart2 x.re y.re
  | .polar r phi => .polar r.re phi.re
  | .twoSphere theta phi => .twoSphere theta.re phi.re
  | .cart3 x y z => .cart3 x.re y.re z.re
  | .cyl rho phi z => .cyl rho.re phi.re z.re
  | .sph r theta phi => .sph r.re theta.re phi.re
  | .lonlat lon lat d => .lonlat lon.re lat.re d.re
  | .math r theta phi => .math r.re theta.re phi.re
  | .prolate mu nu phi delta => .prolate mu.re nu.re phi.re delta.re

/-- One dual conversion: `P ↦ Q`, tangents `v ↦ w`, same Cartesian velocity. -/
structure DGood (P Q : Pos Dual) (k : Kind) : Prop where
  kind : Q.kind = k
  good : Good P.re Q.re k
  plain : PlainDist Q.re
  tan : ∀ v, P.tangent = .ok v → ∃ w, Q.tangent = .ok w ∧ cartVel Q.re w = cartVel P.re v

theorem Pos.re_kind (P : Pos Dual) : P.re.kind = P.kind := by cases P <;> rfl

theorem offAxis_cyl {rho phi z : ℝ} (h : OffAxis (cylPoint rho phi z)) : rho ≠ 0 := by
  rintro rfl; apply h; simp [cylPoint]

theorem offAxis_sq {v : V3} (h : OffAxis v) : 0 < v.x * v.x + v.y * v.y := by
  rcases (sumsq2_nonneg v.x v.y).eq_or_lt with h0 | h0
  · exfalso; apply h
    constructor <;> nlinarith [mul_self_nonneg v.x, mul_self_nonneg v.y]
  · exact h0

/-! ### constructors on duals -/

theorem mkCyl_dual {rho z : Dual} (phi : AzArg Dual) (h : 0 ≤ rho.re) :
    mkCyl rho phi z = Except.ok (.cyl rho phi.convert z) := by
  simp [mkCyl, checkNonNeg, not_lt.mpr h]
theorem mkSph_dual {r theta : Dual} (phi : AzArg Dual) (h : 0 ≤ r.re) (h0 : 0 ≤ theta.re)
    (h1 : theta.re ≤ π) : mkSph (.dist r) theta phi = Except.ok (.sph (.dist r) theta phi.convert) := by
  simp [mkSph, checkNonNeg, checkRange, Dist.raw, not_lt.mpr h, not_lt.mpr h0, not_lt.mpr h1]
theorem mkMath_dual {r phi : Dual} (theta : AzArg Dual) (h : 0 ≤ r.re) (h0 : 0 ≤ phi.re)
    (h1 : phi.re ≤ π) :
    mkMath (.dist r) theta phi = Except.ok (.math (.dist r) theta.convert phi) := by
  simp [mkMath, checkNonNeg, checkRange, Dist.raw, not_lt.mpr h, not_lt.mpr h0, not_lt.mpr h1]
theorem mkLonLat_dual {d lat : Dual} (lon : AzArg Dual) (h : 0 ≤ d.re) (h0 : -(π / 2) ≤ lat.re)
    (h1 : lat.re ≤ π / 2) :
    mkLonLat lon lat (.dist d) = Except.ok (.lonlat lon.convert lat (.dist d)) := by
  simp [mkLonLat, checkNonNeg, checkRange, Dist.raw, dual_halfPi, not_lt.mpr h, not_lt.mpr h0,
    not_lt.mpr h1]
theorem mkPolar_dual {r : Dual} (phi : AzArg Dual) (h : 0 ≤ r.re) :
    mkPolar (.dist r) phi = Except.ok (.polar (.dist r) phi.convert) := by
  simp [mkPolar, checkNonNeg, Dist.raw, not_lt.mpr h]
theorem mkRadial_dual {r : Dual} (h : 0 ≤ r.re) :
    mkRadial (.dist r) = Except.ok (.radial (.dist r)) := by
  simp [mkRadial, checkNonNeg, Dist.raw, not_lt.mpr h]

/-! ### trigonometry of the polar and spherical charts -/

theorem cos_wrap_atan2 {x y : ℝ} (h : 0 < x * x + y * y) :
    cos (wrapR (atan2R y x)) = x / √(x * x + y * y) := by
  have hp := Real.sqrt_pos.mpr h
  obtain ⟨n, hn⟩ := wrapR_eq_sub (atan2R y x)
  rw [hn, Real.cos_sub_int_mul_two_pi, eq_div_iff hp.ne']
  linarith [sqrt_mul_cos_atan2 x y]

theorem sin_wrap_atan2 {x y : ℝ} (h : 0 < x * x + y * y) :
    sin (wrapR (atan2R y x)) = y / √(x * x + y * y) := by
  have hp := Real.sqrt_pos.mpr h
  obtain ⟨n, hn⟩ := wrapR_eq_sub (atan2R y x)
  rw [hn, Real.sin_sub_int_mul_two_pi, eq_div_iff hp.ne']
  linarith [sqrt_mul_sin_atan2 x y]

/-- `ρ > 0`: the inclination is strictly between 0 and 180 deg -/
theorem incl_lt {a z : ℝ} (ha : 0 < a) :
    -1 < z / √(a + z * z) ∧ z / √(a + z * z) < 1 := by
  have h2 : 0 < a + z * z := by nlinarith [mul_self_nonneg z]
  have hp := Real.sqrt_pos.mpr h2
  have hlt : |z| < √(a + z * z) := by
    rw [← Real.sqrt_mul_self_eq_abs]; exact Real.sqrt_lt_sqrt (mul_self_nonneg z) (by linarith)
  rw [abs_lt] at hlt
  constructor
  · rw [lt_div_iff₀ hp]; linarith
  · rw [div_lt_one hp]; exact hlt.2

theorem sqrt_one_sub {a z : ℝ} (ha : 0 < a) :
    √(1 - z / √(a + z * z) * (z / √(a + z * z))) = √a / √(a + z * z) := by
  have h2 : 0 < a + z * z := by nlinarith [mul_self_nonneg z]
  rw [← Real.sqrt_div ha.le]
  congr 1
  rw [div_mul_div_comm, Real.mul_self_sqrt h2.le]
  field_simp
  ring

theorem sin_incl {a z : ℝ} (ha : 0 < a) :
    sin (arccos (z / √(a + z * z))) = √a / √(a + z * z) := by
  rw [Real.sin_arccos, ← sqrt_one_sub ha]
  congr 2; ring

theorem cos_incl {a z : ℝ} (ha : 0 < a) :
    cos (arccos (z / √(a + z * z))) = z / √(a + z * z) :=
  Real.cos_arccos (incl_lt ha).1.le (incl_lt ha).2.le

/-! ### rules -/

theorem d_cart3_cyl (x y z : Dual) (h : 0 < x.re * x.re + y.re * y.re) :
    ∃ Q, cart3ToCyl x y z = .ok Q ∧ DGood (.cart3 x y z) Q .cyl := by
  have hs : 0 < (x * x + y * y).re := by simpa using h
  have ha : ¬ (x.re = 0 ∧ y.re = 0) := by rintro ⟨h1, h2⟩; simp [h1, h2] at h
  have hp := Real.sqrt_pos.mpr h
  refine ⟨_, by rw [cart3ToCyl, dual_sqrt_ok hs, ok_bind, dual_atan2_ok ha, ok_bind,
    mkCyl_dual _ (Real.sqrt_nonneg _)], rfl, good_cart3_cyl ?_, ?_, ?_⟩
  · rw [cart3ToCyl_eq]; rfl
  · trivial
  · intro v hv
    cases hv
    refine ⟨_, rfl, ?_⟩
    simp only [Pos.re, cartVel, AzArg.convert, dual_wrap_re, cos_wrap_atan2 h, sin_wrap_atan2 h,
      dual_add_re, dual_mul_re, dual_add_du, dual_mul_du, dual_wrap_du]
    have hq := Real.mul_self_sqrt h.le
    set s := √(x.re * x.re + y.re * y.re)
    rw [← hq]
    ext
    · simp only; field_simp; linear_combination (-2 * x.du) * hq
    · simp only; field_simp; linear_combination (-2 * y.du) * hq
    · rfl

theorem d_cart3_sph (x y z : Dual) (h : 0 < x.re * x.re + y.re * y.re) :
    ∃ Q, cart3ToSph x y z = .ok Q ∧ DGood (.cart3 x y z) Q .sph := by
  have h3 : 0 < x.re * x.re + y.re * y.re + z.re * z.re := by nlinarith [mul_self_nonneg z.re]
  have hs : 0 < (x * x + y * y + z * z).re := by simpa using h3
  have ha : ¬ (x.re = 0 ∧ y.re = 0) := by rintro ⟨h1, h2⟩; simp [h1, h2] at h
  have hp := Real.sqrt_pos.mpr h
  have hr := Real.sqrt_pos.mpr h3
  have hi := incl_lt (z := z.re) h
  refine ⟨_, by
    rw [cart3ToSph, dual_sqrt_ok hs, ok_bind, dual_div_ok (by simpa using hr.ne'), ok_bind,
      dual_acos_ok (by simpa using hi.1) (by simpa using hi.2), ok_bind, dual_atan2_ok ha, ok_bind,
      mkSph_dual _ (Real.sqrt_nonneg _) (Real.arccos_nonneg _) (Real.arccos_le_pi _)],
    rfl, good_cart3_sph ?_, ?_, ?_⟩
  · rw [cart3ToSph_eq h3]; rfl
  · exact ⟨_, rfl⟩
  · intro v hv
    cases hv
    refine ⟨_, rfl, ?_⟩
    simp only [Pos.re, Dist.re, distOf, cartVel, AzArg.convert, dual_wrap_re, cos_wrap_atan2 h,
      sin_wrap_atan2 h, sin_incl h, cos_incl h, sqrt_one_sub h,
      dual_add_re, dual_mul_re, dual_add_du, dual_mul_du, dual_wrap_du]
    have hq := Real.mul_self_sqrt h.le
    have hq3 := Real.mul_self_sqrt h3.le
    rw [← hq] at hq3 ⊢
    set s := √(x.re * x.re + y.re * y.re)
    set r := √(s * s + z.re * z.re)
    have hs0 : s ≠ 0 := hp.ne'
    have hr0 : r ≠ 0 := by rw [← hq] at hr; exact hr.ne'
    ext
    · simp only; field_simp; grind
    · simp only; field_simp; grind
    · simp only; field_simp; grind

end Verif
