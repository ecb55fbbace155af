import Verif.Represent
import Verif.Spec
import Verif.RealLemmas

/-! # Closed forms of the conversion rules over `ℝ` (helper lemmas) -/

namespace Verif

open Real Spec

section bind
variable {α β : Type}
@[simp] theorem ok_bind (a : α) (f : α → Res β) : (Except.ok a >>= f) = f a := rfl
@[simp] theorem error_bind (e : Err) (f : α → Res β) :
    ((Except.error e : Res α) >>= f) = Except.error e := rfl
@[simp] theorem pure_ok (a : α) : (pure a : Res α) = Except.ok a := rfl
@[simp] theorem throw_error (e : Err) : (throw e : Res α) = Except.error e := rfl
theorem bind_ok_iff (x : Res α) (f : α → Res β) (b : β) :
    (x >>= f) = Except.ok b ↔ ∃ a, x = Except.ok a ∧ f a = Except.ok b := by
  cases x <;> simp
theorem ite_err_ok_iff {c : Prop} [Decidable c] {e : Err} {x : Res α} {b : α} :
    (if c then Except.error e else x) = Except.ok b ↔ ¬ c ∧ x = Except.ok b := by
  split <;> simp_all
end bind

section real
@[simp] theorem nat_real (n : ℕ) : (Num.nat n : ℝ) = n := rfl
@[simp] theorem pi_real : (Num.pi : ℝ) = π := rfl
@[simp] theorem abs_real (x : ℝ) : Num.abs x = |x| := rfl
@[simp] theorem sign_real (x : ℝ) : Num.sign x = signR x := rfl
@[simp] theorem sin_real (x : ℝ) : Num.sin x = Real.sin x := rfl
@[simp] theorem cos_real (x : ℝ) : Num.cos x = Real.cos x := rfl
@[simp] theorem wrap_real (x : ℝ) : Num.wrap x = wrapR x := rfl
@[simp] theorem pow10_real (x : ℝ) : Num.pow10 x = (10 : ℝ) ^ x := rfl
@[simp] theorem lt_real (a b : ℝ) : Num.lt a b = decide (a < b) := rfl
@[simp] theorem beq_real (a b : ℝ) : Num.beq a b = decide (a = b) := rfl
@[simp] theorem atan2_real (y x : ℝ) : Num.atan2 y x = Except.ok (atan2R y x) := rfl
theorem div_real (a b : ℝ) :
    Num.div a b = if b = 0 then Except.error Err.nonFinite else Except.ok (a / b) := rfl
theorem div_real_ok {a b : ℝ} (h : b ≠ 0) : Num.div a b = Except.ok (a / b) := by
  simp [div_real, h]
theorem sqrt_real (a : ℝ) :
    Num.sqrt a = if a < 0 then Except.error Err.nonFinite else Except.ok (Real.sqrt a) := rfl
theorem sqrt_real_ok {a : ℝ} (h : 0 ≤ a) : Num.sqrt a = Except.ok (Real.sqrt a) := by
  simp [sqrt_real, not_lt.mpr h]
theorem acos_real (a : ℝ) :
    Num.acos a = if a < -1 ∨ 1 < a then Except.error Err.nonFinite
      else Except.ok (Real.arccos a) := rfl
theorem acos_real_ok {a : ℝ} (h : -1 ≤ a) (h' : a ≤ 1) :
    Num.acos a = Except.ok (Real.arccos a) := by
  simp [acos_real, not_lt.mpr h, not_lt.mpr h']
theorem tan_real (a : ℝ) :
    Num.tan a = if Real.cos a = 0 then Except.error Err.nonFinite
      else Except.ok (Real.tan a) := rfl
theorem log10_real (a : ℝ) :
    Num.log10 a = if a ≤ 0 then Except.error Err.nonFinite
      else Except.ok (Real.logb 10 a) := rfl

@[simp] theorem halfPi_real : (halfPi : Res ℝ) = Except.ok (π / 2) := by
  simp [halfPi, div_real]
@[simp] theorem twoPi_real : (twoPi : ℝ) = 2 * π := by
  simp [twoPi]
@[simp] theorem pcAU_real : (pcAU : Res ℝ) = Except.ok (648000 / π) := by
  simp [pcAU, div_real, Real.pi_ne_zero]
@[simp] theorem orZero_none : orZero (none : Option ℝ) = 0 := by simp [orZero]
@[simp] theorem orZero_some (a : ℝ) : orZero (some a) = a := by simp [orZero]

/-! ### constructors -/

theorem checkNonNeg_ok {x : ℝ} (h : 0 ≤ x) : checkNonNeg x = Except.ok () := by
  simp [checkNonNeg, not_lt.mpr h]
theorem checkNonNeg_err {x : ℝ} (h : x < 0) : checkNonNeg x = Except.error Err.check := by
  simp [checkNonNeg, h]
theorem checkRange_ok {x lo hi : ℝ} (h : lo ≤ x) (h' : x ≤ hi) :
    checkRange x lo hi = Except.ok () := by
  simp [checkRange, not_lt.mpr h, not_lt.mpr h']

theorem mkCyl_ok {rho z : ℝ} (phi : AzArg ℝ) (h : 0 ≤ rho) :
    mkCyl rho phi z = Except.ok (.cyl rho phi.convert z) := by
  simp [mkCyl, checkNonNeg_ok h]
theorem mkSph_ok {r : Dist ℝ} {theta : ℝ} (phi : AzArg ℝ) (h : 0 ≤ r.raw) (h0 : 0 ≤ theta)
    (h1 : theta ≤ π) : mkSph r theta phi = Except.ok (.sph r theta phi.convert) := by
  simp [mkSph, checkNonNeg_ok h, checkRange_ok h0 h1]
theorem mkMath_ok {r : Dist ℝ} {phi : ℝ} (theta : AzArg ℝ) (h : 0 ≤ r.raw) (h0 : 0 ≤ phi)
    (h1 : phi ≤ π) : mkMath r theta phi = Except.ok (.math r theta.convert phi) := by
  simp [mkMath, checkNonNeg_ok h, checkRange_ok h0 h1]
theorem mkLonLat_ok {r : Dist ℝ} {lat : ℝ} (lon : AzArg ℝ) (h : 0 ≤ r.raw) (h0 : -(π / 2) ≤ lat)
    (h1 : lat ≤ π / 2) : mkLonLat lon lat r = Except.ok (.lonlat lon.convert lat r) := by
  simp [mkLonLat, checkNonNeg_ok h, checkRange_ok h0 h1]
theorem mkPolar_ok {r : Dist ℝ} (phi : AzArg ℝ) (h : 0 ≤ r.raw) :
    mkPolar r phi = Except.ok (.polar r phi.convert) := by
  simp [mkPolar, checkNonNeg_ok h]
theorem mkRadial_ok {r : Dist ℝ} (h : 0 ≤ r.raw) :
    mkRadial r = Except.ok (.radial r) := by
  simp [mkRadial, checkNonNeg_ok h]
theorem mkProlate_ok {mu nu : ℝ} (phi : AzArg ℝ) {delta : ℝ} (h : 0 < delta)
    (h0 : delta * delta ≤ mu) (h1 : |nu| ≤ delta * delta) :
    mkProlate mu nu phi delta = Except.ok (.prolate mu nu phi.convert delta) := by
  simp [mkProlate, checkPos, h, not_lt.mpr h0, not_lt.mpr h1]

/-! ### distances -/

theorem distOk_raw {r : Dist ℝ} (h : DistOk r) : 0 ≤ r.raw := by
  cases r with
  | dist d => exact h
  | par p => exact h.1.le
  | dm m => exact h

theorem distOf_nonneg {r : Dist ℝ} (h : DistOk r) : 0 ≤ distOf r := by
  cases r with
  | dist d => exact h
  | par p =>
    have := Real.tan_pos_of_pos_of_lt_pi_div_two h.1 h.2
    simp only [distOf]; positivity
  | dm m =>
    simp only [distOf]
    have := Real.pi_pos
    positivity

theorem distOf_pos_dm (m : ℝ) : 0 < distOf (.dm m) := by
  simp only [distOf]
  have := Real.pi_pos
  positivity

theorem distance_ok {r : Dist ℝ} (h : DistOk r) : r.distance = Except.ok (distOf r) := by
  cases r with
  | dist d => rfl
  | par p =>
    have hc : 0 < cos p := Real.cos_pos_of_mem_Ioo ⟨by linarith [h.1, Real.pi_pos], h.2⟩
    have ht := Real.tan_pos_of_pos_of_lt_pi_div_two h.1 h.2
    simp [Dist.distance, tan_real, hc.ne', div_real, ht.ne', distOf]
  | dm m =>
    simp [Dist.distance, div_real, distOf]

/-! ### conversions -/

theorem cart3ToCyl_eq (x y z : ℝ) :
    cart3ToCyl x y z = Except.ok (.cyl (√(x * x + y * y)) (wrapR (atan2R y x)) z) := by
  simp [cart3ToCyl, sqrt_real_ok (sumsq2_nonneg x y), mkCyl_ok _ (Real.sqrt_nonneg _),
    AzArg.convert]

theorem div_sqrt_mem (a z : ℝ) (hz : z * z ≤ a) : -1 ≤ z / √a ∧ z / √a ≤ 1 := by
  have : |z| ≤ √a := by
    rw [← Real.sqrt_sq_eq_abs]; exact Real.sqrt_le_sqrt (by nlinarith)
  have h2 : |z / √a| ≤ 1 := by
    rw [abs_div, abs_of_nonneg (Real.sqrt_nonneg a)]
    exact div_le_one_of_le₀ this (Real.sqrt_nonneg a)
  exact abs_le.mp h2

theorem cart3ToSph_eq {x y z : ℝ} (h : 0 < x * x + y * y + z * z) :
    cart3ToSph x y z = Except.ok (.sph (.dist (√(x * x + y * y + z * z)))
      (arccos (z / √(x * x + y * y + z * z))) (wrapR (atan2R y x))) := by
  have h1 := div_sqrt_mem (x * x + y * y + z * z) z (by nlinarith [sumsq2_nonneg x y])
  simp [cart3ToSph, sqrt_real_ok h.le, div_real_ok (Real.sqrt_pos.mpr h).ne',
    acos_real_ok h1.1 h1.2]
  rw [mkSph_ok]
  · rfl
  · exact Real.sqrt_nonneg _
  · exact Real.arccos_nonneg _
  · exact Real.arccos_le_pi _

theorem cart3ToSph_zero : cart3ToSph (0 : ℝ) 0 0 = Except.error Err.nonFinite := by
  simp [cart3ToSph, sqrt_real, div_real]

theorem cylToSph_eq {rho phi z : ℝ} (h : 0 < rho * rho + z * z) :
    cylToSph rho phi z = Except.ok (.sph (.dist (√(rho * rho + z * z)))
      (arccos (z / √(rho * rho + z * z))) phi) := by
  have h1 := div_sqrt_mem (rho * rho + z * z) z (by nlinarith [mul_self_nonneg rho])
  simp [cylToSph, sqrt_real_ok h.le, div_real_ok (Real.sqrt_pos.mpr h).ne',
    acos_real_ok h1.1 h1.2]
  rw [mkSph_ok]
  · rfl
  · exact Real.sqrt_nonneg _
  · exact Real.arccos_nonneg _
  · exact Real.arccos_le_pi _

theorem cylToSph_zero (phi : ℝ) : cylToSph 0 phi 0 = Except.error Err.nonFinite := by
  simp [cylToSph, sqrt_real, div_real]

theorem cylToCart3_eq (rho phi z : ℝ) :
    cylToCart3 rho phi z = Except.ok (.cart3 (rho * cos phi) (rho * sin phi) z) := rfl

theorem sphToCart3_eq {r : Dist ℝ} (h : DistOk r) (theta phi : ℝ) :
    sphToCart3 r theta phi = Except.ok (.cart3 (distOf r * sin theta * cos phi)
      (distOf r * sin theta * sin phi) (distOf r * cos theta)) := by
  simp [sphToCart3, distance_ok h, mkCart3]

theorem sphToCyl_eq {r : Dist ℝ} (h : DistOk r) (theta phi : ℝ) :
    sphToCyl r theta phi =
      Except.ok (.cyl |distOf r * sin theta| phi (distOf r * cos theta)) := by
  simp only [sphToCyl, distance_ok h, ok_bind, abs_real, sin_real, cos_real]
  rw [mkCyl_ok _ (abs_nonneg _)]
  rfl

theorem sphToLonLat_eq {r : Dist ℝ} (h : DistOk r) {theta : ℝ} (phi : ℝ) (h0 : 0 ≤ theta)
    (h1 : theta ≤ π) :
    sphToLonLat r theta phi = Except.ok (.lonlat phi (π / 2 - theta) r) := by
  simp only [sphToLonLat, halfPi_real, ok_bind]
  rw [mkLonLat_ok _ (distOk_raw h) (by linarith) (by linarith)]
  rfl

theorem sphToMath_eq {r : Dist ℝ} (h : DistOk r) {theta : ℝ} (phi : ℝ) (h0 : 0 ≤ theta)
    (h1 : theta ≤ π) : sphToMath r theta phi = Except.ok (.math r phi theta) := by
  simp only [sphToMath]
  rw [mkMath_ok _ (distOk_raw h) h0 h1]
  rfl

theorem lonlatToSph_eq {r : Dist ℝ} (h : DistOk r) {lat : ℝ} (lon : ℝ) (h0 : -(π / 2) ≤ lat)
    (h1 : lat ≤ π / 2) :
    lonlatToSph lon lat r = Except.ok (.sph r (π / 2 - lat) lon) := by
  simp only [lonlatToSph, halfPi_real, ok_bind]
  rw [mkSph_ok _ (distOk_raw h) (by linarith) (by linarith)]
  rfl

theorem mathToCart3_eq {r : Dist ℝ} (h : DistOk r) (theta phi : ℝ) :
    mathToCart3 r theta phi = Except.ok (.cart3 (distOf r * sin phi * cos theta)
      (distOf r * sin phi * sin theta) (distOf r * cos phi)) := by
  simp [mathToCart3, distance_ok h, mkCart3]

theorem mathToCyl_eq {r : Dist ℝ} (h : DistOk r) (theta phi : ℝ) :
    mathToCyl r theta phi =
      Except.ok (.cyl |distOf r * sin phi| theta (distOf r * cos phi)) := by
  simp only [mathToCyl, distance_ok h, ok_bind, abs_real, sin_real, cos_real]
  rw [mkCyl_ok _ (abs_nonneg _)]
  rfl

theorem mathToSph_eq {r : Dist ℝ} (h : DistOk r) (theta : ℝ) {phi : ℝ} (h0 : 0 ≤ phi)
    (h1 : phi ≤ π) : mathToSph r theta phi = Except.ok (.sph r phi theta) := by
  simp only [mathToSph]
  rw [mkSph_ok _ (distOk_raw h) h0 h1]
  rfl

theorem cart2ToPolar_eq (x y : ℝ) :
    cart2ToPolar x y = Except.ok (.polar (.dist (√(x * x + y * y))) (wrapR (atan2R y x))) := by
  simp only [cart2ToPolar, sqrt_real_ok (sumsq2_nonneg x y), ok_bind, atan2_real]
  rw [mkPolar_ok]
  · rfl
  · exact Real.sqrt_nonneg _

theorem polarToCart2_eq {r : Dist ℝ} (h : DistOk r) (phi : ℝ) :
    polarToCart2 r phi = Except.ok (.cart2 (distOf r * cos phi) (distOf r * sin phi)) := by
  simp [polarToCart2, distance_ok h, mkCart2]

/-! ### prolate spheroidal -/

theorem prolateToCyl_eq {mu nu phi delta : ℝ} (hd : 0 < delta) (hmu : delta ^ 2 ≤ mu)
    (hnu : |nu| ≤ delta ^ 2) :
    prolateToCyl mu nu phi delta = Except.ok (.cyl (prolR mu nu delta) phi (prolZ mu nu delta)) := by
  have h2 : delta * delta ≠ 0 := by positivity
  have hq : |nu| / (delta * delta) ≤ 1 := by
    rw [div_le_one (by positivity)]; nlinarith
  have hq0 : 0 ≤ |nu| / (delta * delta) := by positivity
  have hmu0 : 0 ≤ mu := le_trans (by positivity) hmu
  have h3 : 0 ≤ (mu - delta * delta) * (1 - |nu| / (delta * delta)) :=
    mul_nonneg (by nlinarith) (by linarith)
  have h4 : 0 ≤ mu * (|nu| / (delta * delta)) := mul_nonneg hmu0 hq0
  simp only [prolateToCyl, abs_real, div_real_ok h2, ok_bind, nat_real, Nat.cast_one,
    sqrt_real_ok h3, sqrt_real_ok h4, sign_real]
  rw [mkCyl_ok _ (Real.sqrt_nonneg _)]
  congr 2
  · simp [prolR, pow_two]
  · simp only [prolZ, pow_two]
    rcases lt_trichotomy nu 0 with h | h | h
    · simp [signR_neg h, h]
    · simp [h]
    · simp [signR_pos h, not_lt.mpr h.le]

/-- `D` of the prolate conversion. -/
noncomputable def pD (rho z delta : ℝ) : ℝ :=
  √((rho * rho + z * z - delta * delta) * (rho * rho + z * z - delta * delta)
    + 4 * (rho * rho) * (delta * delta))

theorem prad_nonneg (rho z delta : ℝ) :
    0 ≤ (rho * rho + z * z - delta * delta) * (rho * rho + z * z - delta * delta)
    + 4 * (rho * rho) * (delta * delta) := by
  nlinarith [mul_nonneg (mul_self_nonneg rho) (mul_self_nonneg delta),
    mul_self_nonneg (rho * rho + z * z - delta * delta)]

theorem pD_sq (rho z delta : ℝ) : pD rho z delta * pD rho z delta =
    (rho * rho + z * z - delta * delta) * (rho * rho + z * z - delta * delta)
    + 4 * (rho * rho) * (delta * delta) := by
  unfold pD
  exact Real.mul_self_sqrt (prad_nonneg _ _ _)

theorem pD_nonneg (rho z delta : ℝ) : 0 ≤ pD rho z delta := Real.sqrt_nonneg _

/-- the special cases `z == 0` and `rho == 0` agree with the general formula -/
theorem prolateD_eq (rho z delta : ℝ) :
    prolateD rho z (rho * rho + z * z + delta * delta) (rho * rho + z * z - delta * delta)
      ((rho * rho + z * z - delta * delta) * (rho * rho + z * z - delta * delta)
        + 4 * (rho * rho) * (delta * delta)) = Except.ok (pD rho z delta) := by
  have hrad : 0 ≤ (rho * rho + z * z - delta * delta) * (rho * rho + z * z - delta * delta)
        + 4 * (rho * rho) * (delta * delta) := prad_nonneg _ _ _
  simp only [prolateD, sqrt_real_ok hrad, ok_bind, beq_real, nat_real, Nat.cast_zero, abs_real,
    decide_eq_true_eq, pure_ok]
  congr 1
  split
  · next h =>
    subst h
    rw [pD, ← Real.sqrt_mul_self_eq_abs]
    congr 1; ring
  · split
    · next h =>
      subst h
      rw [pD, eq_comm, Real.sqrt_eq_iff_mul_self_eq (prad_nonneg _ _ _) (sumsq3_nonneg _ _ _)]
      ring
    · rfl

/-- `|diff| ≤ D ≤ sum` -/
theorem pD_ge (rho z delta : ℝ) : |rho * rho + z * z - delta * delta| ≤ pD rho z delta := by
  rw [pD, ← Real.sqrt_mul_self_eq_abs]
  exact Real.sqrt_le_sqrt (by nlinarith [mul_nonneg (mul_self_nonneg rho) (mul_self_nonneg delta)])

theorem pD_le (rho z delta : ℝ) : pD rho z delta ≤ rho * rho + z * z + delta * delta := by
  rw [pD]
  refine Real.sqrt_le_iff.mpr ⟨sumsq3_nonneg _ _ _, ?_⟩
  nlinarith [mul_nonneg (mul_self_nonneg z) (mul_self_nonneg delta)]

/-- closed form of `mu` -/
noncomputable def pMu (rho z delta : ℝ) : ℝ :=
  (rho * rho + z * z + delta * delta + pD rho z delta) / 2

/-- closed form of `|nu|` -/
noncomputable def pAbsNu (rho z delta : ℝ) : ℝ :=
  (rho * rho + z * z + delta * delta - pD rho z delta) / 2

theorem pAbsNu_nonneg (rho z delta : ℝ) : 0 ≤ pAbsNu rho z delta := by
  unfold pAbsNu; linarith [pD_le rho z delta]

theorem pAbsNu_le (rho z delta : ℝ) : pAbsNu rho z delta ≤ delta * delta := by
  unfold pAbsNu
  linarith [(abs_le.mp (pD_ge rho z delta)).2, le_abs_self (rho * rho + z * z - delta * delta),
    pD_ge rho z delta]

theorem pMu_ge (rho z delta : ℝ) : delta * delta ≤ pMu rho z delta := by
  unfold pMu
  linarith [neg_abs_le (rho * rho + z * z - delta * delta), pD_ge rho z delta]

theorem pMu_mul_pAbsNu (rho z delta : ℝ) :
    pMu rho z delta * pAbsNu rho z delta = z * z * (delta * delta) := by
  unfold pMu pAbsNu
  have := pD_sq rho z delta
  nlinarith

theorem pMu_sub_mul (rho z delta : ℝ) :
    (pMu rho z delta - delta * delta) * (delta * delta - pAbsNu rho z delta)
      = rho * rho * (delta * delta) := by
  unfold pMu pAbsNu
  have := pD_sq rho z delta
  nlinarith

theorem cylToProlate_eq {rho phi z delta : ℝ} (hd : 0 < delta)
    (hf : ¬ (rho = 0 ∧ z * z = delta * delta)) :
    cylToProlate rho phi z delta = Except.ok (.prolate (pMu rho z delta)
      (pAbsNu rho z delta * signR z) phi delta) := by
  have hdd : 0 < delta * delta := by positivity
  have hD := pD_sq rho z delta
  have hD0 := pD_nonneg rho z delta
  have hge := pD_ge rho z delta
  have hsum : 0 < rho * rho + z * z + delta * delta + pD rho z delta := by
    have := sumsq2_nonneg rho z; linarith
  have hq : 2 * (delta * delta) / (rho * rho + z * z + delta * delta + pD rho z delta) * (z * z)
      = pAbsNu rho z delta := by
    rw [div_mul_eq_mul_div, div_eq_iff hsum.ne']
    have := pMu_mul_pAbsNu rho z delta
    unfold pMu at this
    nlinarith
  have hmk : mkProlate (pMu rho z delta) (pAbsNu rho z delta * signR z) (.angle phi) delta =
      Except.ok (.prolate (pMu rho z delta) (pAbsNu rho z delta * signR z) phi delta) := by
    rw [mkProlate_ok _ hd (pMu_ge _ _ _)]
    · rfl
    · rw [abs_mul, abs_of_nonneg (pAbsNu_nonneg _ _ _)]
      have h1 : |signR z| ≤ 1 := by
        rcases lt_trichotomy z 0 with h | h | h
        · simp [signR_neg h]
        · simp [h]
        · simp [signR_pos h]
      nlinarith [pAbsNu_le rho z delta, pAbsNu_nonneg rho z delta, abs_nonneg (signR z)]
  simp only [cylToProlate, nat_real, Nat.cast_ofNat]
  rw [prolateD_eq]
  simp only [ok_bind, div_real_ok (two_ne_zero), div_real_ok hsum.ne', Nat.cast_one, sign_real, hq]
  by_cases hneg : rho * rho + z * z - delta * delta < 0
  · have hpos : (1 : ℝ) / 2 * (pD rho z delta - (rho * rho + z * z - delta * delta)) ≠ 0 := by
      apply ne_of_gt; linarith
    have hmu : delta * delta + delta * delta * (rho * rho) /
        (1 / 2 * (pD rho z delta - (rho * rho + z * z - delta * delta))) = pMu rho z delta := by
      rw [← eq_sub_iff_add_eq', div_eq_iff hpos]
      unfold pMu; nlinarith
    have hnu : delta * delta - 1 / 2 * (pD rho z delta - (rho * rho + z * z - delta * delta))
        = pAbsNu rho z delta := by unfold pAbsNu; ring
    simp only [prolMuMinusDelta, prolAbsNu, prolDeltaMinusNu, lt_real, nat_real, Nat.cast_zero,
      hneg, decide_true, if_true, div_real_ok hpos, ok_bind, hmu, hnu, pure_ok, ite_self, hmk]
  · have hmu : delta * delta + 1 / 2 * (pD rho z delta + (rho * rho + z * z - delta * delta))
        = pMu rho z delta := by unfold pMu; ring
    have hA : prolAbsNu (pAbsNu rho z delta) (1 / 2) (pD rho z delta)
        (rho * rho + z * z - delta * delta) (delta * delta) (rho * rho)
        = Except.ok (pAbsNu rho z delta) := by
      unfold prolAbsNu
      split
      · have hpos : (1 : ℝ) / 2 * (pD rho z delta + (rho * rho + z * z - delta * delta)) ≠ 0 := by
          intro h0
          apply hf
          have h1 : pD rho z delta = 0 := by linarith
          have h2 : rho * rho + z * z - delta * delta = 0 := by linarith
          rw [h1, h2] at hD
          have h3 : rho * rho = 0 := by
            have : rho * rho * (delta * delta) = 0 := by linarith
            rcases mul_eq_zero.mp this with h | h
            · exact h
            · exact absurd h hdd.ne'
          have h4 : rho = 0 := mul_self_eq_zero.mp h3
          exact ⟨h4, by linarith⟩
        have hnu : delta * delta - delta * delta * (rho * rho) /
            (1 / 2 * (pD rho z delta + (rho * rho + z * z - delta * delta)))
            = pAbsNu rho z delta := by
          rw [sub_eq_iff_eq_add, ← sub_eq_iff_eq_add', eq_div_iff hpos]
          unfold pAbsNu; nlinarith
        simp only [prolDeltaMinusNu, lt_real, nat_real, Nat.cast_zero, hneg, decide_false,
          Bool.false_eq_true, if_false, div_real_ok hpos, ok_bind, hnu, pure_ok]
      · rfl
    simp only [prolMuMinusDelta, lt_real, nat_real, Nat.cast_zero,
      hneg, decide_false, Bool.false_eq_true, if_false, ok_bind, hmu, hA, hmk]

/-- at the foci the conversion yields NaN -/
theorem cylToProlate_focus {phi z delta : ℝ} (hd : 0 < delta) (hz : z * z = delta * delta) :
    cylToProlate 0 phi z delta = Except.error Err.nonFinite := by
  have hdd : 0 < delta * delta := by positivity
  have hD : pD 0 z delta = 0 := by
    unfold pD; rw [hz]; simp
  have hsum : 0 < (0:ℝ) * 0 + z * z + delta * delta + pD 0 z delta := by
    rw [hD, hz]; linarith
  have h1 : delta * delta < 2 * (delta * delta) / (0 * 0 + delta * delta + delta * delta + 0) *
      (delta * delta) * 2 := by
    rw [div_mul_eq_mul_div, div_mul_eq_mul_div, lt_div_iff₀ (by linarith)]
    nlinarith
  simp only [cylToProlate, nat_real, Nat.cast_ofNat]
  rw [prolateD_eq]
  simp only [ok_bind, div_real_ok (two_ne_zero), div_real_ok hsum.ne', Nat.cast_one, sign_real]
  rw [hD, hz]
  have hneg : ¬ ((0:ℝ) * 0 + delta * delta - delta * delta < 0) := by simp
  simp only [prolMuMinusDelta, prolAbsNu, prolDeltaMinusNu, lt_real, nat_real, Nat.cast_zero,
    Nat.cast_ofNat, h1, hneg, decide_true, decide_false, if_true, Bool.false_eq_true, if_false,
    ok_bind]
  rw [div_real, if_pos (by ring)]
  rfl

theorem cylToProlate_delta_pos {rho phi z delta : ℝ} {q : Pos ℝ}
    (h : cylToProlate rho phi z delta = Except.ok q) : 0 < delta := by
  by_contra hd
  simp only [cylToProlate, bind_ok_iff] at h
  obtain ⟨_, _, _, _, _, _, _, _, _, _, h⟩ := h
  simp [mkProlate, checkPos, hd] at h

end real

end Verif
