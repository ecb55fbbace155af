import Verif.DualConv2

/-! # Cylindrical to prolate spheroidal, on dual numbers -/

namespace Verif

open Real Spec

theorem dual_div_of_mul {a u w : Dual} (h : u.re ≠ 0) (h1 : a.re = u.re * w.re)
    (h2 : a.du = u.du * w.re + u.re * w.du) : Num.div a u = Except.ok w := by
  rw [dual_div_ok h]
  congr 1
  apply Dual.ext'
  · simp only; rw [h1]; field_simp
  · simp only; rw [h1, h2]; field_simp; ring

theorem d_cyl_prolate (rho phi z : Dual) (dl : ℝ) (hr : 0 < rho.re) (hz : z.re ≠ 0) (hd : 0 < dl) :
    ∃ Q, cylToProlate rho phi z (Dual.const dl) = .ok Q ∧ DGood (.cyl rho phi z) Q .prolate ∧
      focal Q.re = some dl := by
  have hdd : 0 < dl * dl := by positivity
  have hD := pD_sq rho.re z.re dl
  have hge := pD_ge rho.re z.re dl
  have hle := pD_le rho.re z.re dl
  have hzz : 0 < z.re * z.re := mul_self_pos.mpr hz
  have hrr : 0 < rho.re * rho.re := by positivity
  have hrad : 0 < (rho.re * rho.re + z.re * z.re - dl * dl) *
      (rho.re * rho.re + z.re * z.re - dl * dl) + 4 * (rho.re * rho.re) * (dl * dl) := by
    have : 0 < 4 * (rho.re * rho.re) * (dl * dl) := by positivity
    nlinarith [mul_self_nonneg (rho.re * rho.re + z.re * z.re - dl * dl)]
  have hDpos : 0 < pD rho.re z.re dl := Real.sqrt_pos.mpr hrad
  -- the value and the tangent of `D`
  obtain ⟨dD, hdD⟩ : ∃ dD, dD = ((2 * (rho.re * rho.re + z.re * z.re - dl * dl) *
      (2 * rho.re * rho.du + 2 * z.re * z.du) + 8 * rho.re * rho.du * (dl * dl)) /
      (2 * pD rho.re z.re dl)) := ⟨_, rfl⟩
  have h2D : 2 * pD rho.re z.re dl * dD = 2 * (rho.re * rho.re + z.re * z.re - dl * dl) *
      (2 * rho.re * rho.du + 2 * z.re * z.du) + 8 * rho.re * rho.du * (dl * dl) := by
    rw [hdD]; field_simp
  have hprolD : prolateD rho z (rho * rho + z * z + Dual.const dl * Dual.const dl)
      (rho * rho + z * z - Dual.const dl * Dual.const dl)
      ((rho * rho + z * z - Dual.const dl * Dual.const dl) *
        (rho * rho + z * z - Dual.const dl * Dual.const dl)
        + Num.nat 4 * (rho * rho) * (Dual.const dl * Dual.const dl)) =
      Except.ok ⟨pD rho.re z.re dl, dD⟩ := by
    rw [prolateD, dual_sqrt_ok (by simpa [Dual.const] using hrad), ok_bind, dual_beq, dual_beq]
    simp only [dual_nat_re, Nat.cast_zero, hz, hr.ne', decide_false, Bool.false_eq_true, if_false]
    show Except.ok _ = _
    congr 1
    apply Dual.ext'
    · simp [Dual.const, pD]
    · simp only [Dual.const, dual_add_re, dual_sub_re, dual_mul_re, dual_add_du, dual_sub_du,
        dual_mul_du, dual_nat_re, dual_nat_du, Nat.cast_ofNat]
      rw [hdD]
      show _ / (2 * pD rho.re z.re dl) = _
      congr 1
      ring
  have hhalf : (Num.div (Num.nat 1) (Num.nat 2) : Res Dual) = Except.ok ⟨1 / 2, 0⟩ := by
    rw [dual_div_ok (by simp)]; simp
  -- `mu - Delta^2`
  have hmu : prolMuMinusDelta (⟨1 / 2, 0⟩ : Dual) ⟨pD rho.re z.re dl, dD⟩
      (rho * rho + z * z - Dual.const dl * Dual.const dl) (Dual.const dl * Dual.const dl)
      (rho * rho) = Except.ok ⟨pMu rho.re z.re dl - dl * dl,
        (2 * rho.re * rho.du + 2 * z.re * z.du + dD) / 2⟩ := by
    unfold prolMuMinusDelta
    rw [dual_lt]
    by_cases hneg : rho.re * rho.re + z.re * z.re - dl * dl < 0
    · rw [if_pos (by simpa [Dual.const] using hneg)]
      apply dual_div_of_mul
      · simp [Dual.const]; linarith
      · simp [Dual.const, pMu]; linarith
      · simp [Dual.const, pMu]; linarith
    · rw [if_neg (by simpa [Dual.const] using hneg)]
      congr 1
      apply Dual.ext'
      · simp [Dual.const, pMu]; ring
      · simp [Dual.const]; ring
  -- `Delta^2 - |nu|`
  have hdn : prolDeltaMinusNu (⟨1 / 2, 0⟩ : Dual) ⟨pD rho.re z.re dl, dD⟩
      (rho * rho + z * z - Dual.const dl * Dual.const dl) (Dual.const dl * Dual.const dl)
      (rho * rho) = Except.ok ⟨dl * dl - pAbsNu rho.re z.re dl,
        (dD - (2 * rho.re * rho.du + 2 * z.re * z.du)) / 2⟩ := by
    unfold prolDeltaMinusNu
    rw [dual_lt]
    by_cases hneg : rho.re * rho.re + z.re * z.re - dl * dl < 0
    · rw [if_pos (by simpa [Dual.const] using hneg)]
      congr 1
      apply Dual.ext'
      · simp [Dual.const, pAbsNu]; ring
      · simp [Dual.const]; ring
    · rw [if_neg (by simpa [Dual.const] using hneg)]
      apply dual_div_of_mul
      · simp [Dual.const]; linarith
      · simp [Dual.const, pAbsNu]; linarith
      · simp [Dual.const, pAbsNu]; linarith
  have hsum : 0 < rho.re * rho.re + z.re * z.re + dl * dl + pD rho.re z.re dl := by linarith
  -- `|nu|`, first formula
  have hq : ∃ q : Dual, Num.div (Num.nat 2 * (Dual.const dl * Dual.const dl))
      (rho * rho + z * z + Dual.const dl * Dual.const dl + ⟨pD rho.re z.re dl, dD⟩) = .ok q ∧
      q * (z * z) = ⟨pAbsNu rho.re z.re dl, (2 * rho.re * rho.du + 2 * z.re * z.du - dD) / 2⟩ := by
    refine ⟨_, dual_div_ok (by simpa [Dual.const] using hsum.ne'), ?_⟩
    apply Dual.ext'
    · simp only [Dual.const, dual_mul_re, dual_add_re, pAbsNu, dual_nat_re, Nat.cast_ofNat]
      field_simp
      linear_combination hD
    · simp only [Dual.const, dual_mul_re, dual_add_re, dual_mul_du, dual_add_du, dual_nat_re,
        dual_nat_du, Nat.cast_ofNat]
      field_simp
      grind
  obtain ⟨q, hq1, hq2⟩ := hq
  have hnu : prolAbsNu (⟨pAbsNu rho.re z.re dl, (2 * rho.re * rho.du + 2 * z.re * z.du - dD) / 2⟩)
      (⟨1 / 2, 0⟩ : Dual) ⟨pD rho.re z.re dl, dD⟩
      (rho * rho + z * z - Dual.const dl * Dual.const dl) (Dual.const dl * Dual.const dl)
      (rho * rho) = Except.ok
        ⟨pAbsNu rho.re z.re dl, (2 * rho.re * rho.du + 2 * z.re * z.du - dD) / 2⟩ := by
    unfold prolAbsNu
    split
    · rw [hdn, ok_bind]
      show Except.ok _ = _
      congr 1
      apply Dual.ext'
      · simp [Dual.const]
      · simp [Dual.const]; ring
    · rfl
  have hnn := pAbsNu_nonneg rho.re z.re dl
  have hsg := signR_abs_le z.re
  have hmk : ∀ a b : ℝ, mkProlate (Dual.const dl * Dual.const dl + ⟨pMu rho.re z.re dl - dl * dl, a⟩)
      (⟨pAbsNu rho.re z.re dl, b⟩ * Num.sign z) (.angle phi) (Dual.const dl) =
      Except.ok (.prolate ⟨pMu rho.re z.re dl, a⟩ ⟨pAbsNu rho.re z.re dl * signR z.re,
        b * signR z.re⟩ phi (Dual.const dl)) := by
    intro a b
    unfold mkProlate checkPos
    have e1 : ¬ (pMu rho.re z.re dl < dl * dl) := not_lt.mpr (pMu_ge _ _ _)
    have e2 : ¬ (dl * dl < |pAbsNu rho.re z.re dl * signR z.re|) := by
      rw [abs_pNu hd]; exact not_lt.mpr (pAbsNu_le _ _ _)
    simp only [dual_lt, dual_nat_re, Nat.cast_zero, Dual.const, hd, decide_true, if_true, ok_bind,
      dual_add_re, dual_mul_re, dual_abs_re, dual_sign_re, add_sub_cancel, e1, e2, decide_false,
      Bool.false_eq_true, if_false]
    show Except.ok _ = _
    congr 2
    · apply Dual.ext'
      · simp
      · simp
    · apply Dual.ext'
      · simp
      · simp
  refine ⟨_, by
    rw [cylToProlate]
    rw [hprolD, ok_bind, hhalf, ok_bind, hmu, ok_bind, hq1, ok_bind, hq2, hnu, ok_bind, hmk],
    ⟨rfl, good_cyl_prolate hr.le (delta := dl) ?_, ?_, ?_⟩, rfl⟩
  · rw [cylToProlate_eq hd (by rintro ⟨h, _⟩; exact hr.ne' h)]; rfl
  · trivial
  · intro v hv
    cases hv
    refine ⟨_, rfl, ?_⟩
    have hNpos : 0 < pAbsNu rho.re z.re dl := by
      rcases hnn.eq_or_lt with h0 | h0
      · exfalso
        have := pMu_mul_pAbsNu rho.re z.re dl
        rw [← h0] at this
        have : 0 < z.re * z.re * (dl * dl) := by positivity
        linarith
      · exact h0
    have hs1 : ∀ b : ℝ, (if pAbsNu rho.re z.re dl * signR z.re < 0 then (-1 : ℝ) else 1) *
        (b * signR z.re) = b := by
      intro b
      rcases lt_or_gt_of_ne hz with h | h
      · rw [signR_neg h, if_pos (by linarith)]; ring
      · rw [signR_pos h, if_neg (by linarith)]; ring
    simp only [Pos.re, cartVel, AzArg.convert, Dual.const, prolR_pMu hr.le hd, prolZ_pMu hd,
      abs_pNu hd, hs1]
    have hr0 := hr.ne'
    ext
    · simp only [pMu, pAbsNu]; field_simp; grind
    · simp only [pMu, pAbsNu]; field_simp; grind
    · simp only [pMu, pAbsNu]; field_simp; grind

end Verif
