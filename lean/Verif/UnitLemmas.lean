import Verif.UnitRep

/-! # Quantities with units behave like their values in base units -/

namespace Verif

open Num CNum

/-- Laws of scalars with constants: multiplication by a positive constant commutes with every operation. -/
class LawfulCNum (α : Type) [CNum α] : Prop where
  c_mul_comm (x y : α) : x * y = y * x
  c_one_mul (x : α) : const 1 * x = x
  c_mul_mul (a b : ℝ) (x : α) : const a * (const b * x) = const (a * b) * x
  c_mul_mul_mul (a b : ℝ) (x y : α) : (const a * x) * (const b * y) = const (a * b) * (x * y)
  c_mul_add (c : ℝ) (x y : α) : const c * (x + y) = const c * x + const c * y
  c_mul_sub (c : ℝ) (x y : α) : const c * (x - y) = const c * x - const c * y
  c_mul_neg (c : ℝ) (x : α) : const c * -x = -(const c * x)
  c_neg_const (c : ℝ) : -(const c : α) = const (-c)
  c_const_mul (a b : ℝ) : (const a * const b : α) = const (a * b)
  c_nat_eq (n : ℕ) : (nat n : α) = const n
  c_pi_eq : (pi : α) = const Real.pi
  c_abs_mul {c : ℝ} (h : 0 < c) (x : α) : Num.abs (const c * x) = const c * Num.abs x
  c_sign_mul {c : ℝ} (h : 0 < c) (x : α) : sign (const c * x) = sign x
  c_lt_mul {c : ℝ} (h : 0 < c) (x y : α) : Num.lt (const c * x) (const c * y) = Num.lt x y
  c_beq_mul {c : ℝ} (h : 0 < c) (x y : α) : Num.beq (const c * x) (const c * y) = Num.beq x y
  c_div_mul {c d : ℝ} (h : 0 < c) (h' : 0 < d) (x y : α) :
    Num.div (const c * x) (const d * y) = (Num.div x y).map (const (c / d) * ·)
  c_div_const {a b : ℝ} (h : b ≠ 0) : Num.div (const a : α) (const b) = .ok (const (a / b))
  c_sqrt_mul {c : ℝ} (h : 0 < c) (x : α) : Num.sqrt (const c * x) = (Num.sqrt x).map (const (√c) * ·)
  c_atan2_mul {c : ℝ} (h : 0 < c) (y x : α) : Num.atan2 (const c * y) (const c * x) = Num.atan2 y x

theorem signR_mul {c : ℝ} (h : 0 < c) (x : ℝ) : signR (c * x) = signR x := by
  unfold signR
  have a : 0 < c * x ↔ 0 < x := by constructor <;> intro g <;> [exact (pos_iff_pos_of_mul_pos g).mp h; positivity]
  have b : c * x < 0 ↔ x < 0 := by
    constructor <;> intro g
    · by_contra k; exact absurd g (not_lt.mpr (mul_nonneg h.le (not_lt.mp k)))
    · exact mul_neg_of_pos_of_neg h g
  simp only [a, b]

theorem atan2R_mul {c : ℝ} (h : 0 < c) (y x : ℝ) : atan2R (c * y) (c * x) = atan2R y x := by
  unfold atan2R
  have : (⟨c * x, c * y⟩ : ℂ) = (c : ℂ) * ⟨x, y⟩ := by
    apply Complex.ext <;> simp
  rw [this, Complex.arg_real_mul _ h]

theorem mul_eq_zero_pos {c : ℝ} (h : 0 < c) {x : ℝ} : c * x = 0 ↔ x = 0 := by simp [h.ne']

theorem mul_neg_pos {c : ℝ} (h : 0 < c) {x : ℝ} : c * x < 0 ↔ x < 0 := by
  constructor <;> intro g
  · by_contra k; exact absurd g (not_lt.mpr (mul_nonneg h.le (not_lt.mp k)))
  · exact mul_neg_of_pos_of_neg h g

theorem mul_nonpos_pos {c : ℝ} (h : 0 < c) {x : ℝ} : c * x ≤ 0 ↔ x ≤ 0 := by
  constructor <;> intro g
  · by_contra k; exact absurd g (not_le.mpr (mul_pos h (not_le.mp k)))
  · exact mul_nonpos_of_nonneg_of_nonpos h.le g

instance : LawfulCNum ℝ where
  c_mul_comm x y := _root_.mul_comm x y
  c_one_mul x := _root_.one_mul x
  c_mul_mul a b x := by show a * (b * x) = a * b * x; ring
  c_mul_mul_mul a b x y := by show (a * x) * (b * y) = a * b * (x * y); ring
  c_mul_add c x y := by show c * (x + y) = c * x + c * y; ring
  c_mul_sub c x y := by show c * (x - y) = c * x - c * y; ring
  c_mul_neg c x := by show c * -x = -(c * x); ring
  c_neg_const c := rfl
  c_const_mul a b := rfl
  c_nat_eq n := rfl
  c_pi_eq := rfl
  c_abs_mul h x := by show |_ * x| = _ * |x|; rw [_root_.abs_mul]; congr 1; exact abs_of_pos h
  c_sign_mul h x := signR_mul h x
  c_lt_mul {c} h x y := by
    show decide (c * x < c * y) = decide (x < y)
    simp only [mul_lt_mul_iff_right₀ h]
  c_beq_mul {c} h x y := by
    show decide (c * x = c * y) = decide (x = y)
    simp only [mul_right_inj' h.ne']
  c_div_mul {c d} h h' x y := by
    show (if d * y = 0 then .error .nonFinite else .ok (c * x / (d * y)) : Res ℝ)
      = (if y = 0 then .error .nonFinite else .ok (x / y) : Res ℝ).map (c / d * ·)
    simp only [mul_eq_zero_pos h']
    split
    · rfl
    · show Except.ok _ = Except.ok _
      congr 1
      field_simp
  c_div_const {a b} h := by
    show (if b = 0 then .error .nonFinite else .ok (a / b) : Res ℝ) = .ok (a / b)
    rw [if_neg h]
  c_sqrt_mul {c} h x := by
    show (if c * x < 0 then .error .nonFinite else .ok (√(c * x)) : Res ℝ)
      = (if x < 0 then .error .nonFinite else .ok (√x) : Res ℝ).map (√c * ·)
    simp only [mul_neg_pos h]
    split
    · rfl
    · show Except.ok _ = Except.ok _
      rw [Real.sqrt_mul h.le]
  c_atan2_mul {c} h y x := by
    show Except.ok (atan2R (c * y) (c * x)) = Except.ok (atan2R y x)
    rw [atan2R_mul h]

instance : LawfulCNum Dual where
  c_mul_comm x y := by
    apply Dual.ext'
    · exact _root_.mul_comm x.re y.re
    · show x.du * y.re + x.re * y.du = y.du * x.re + y.re * x.du; ring
  c_one_mul x := by
    apply Dual.ext'
    · exact _root_.one_mul x.re
    · show 0 * x.re + 1 * x.du = x.du; ring
  c_mul_mul a b x := by
    apply Dual.ext'
    · show a * (b * x.re) = a * b * x.re; ring
    · show 0 * (b * x.re) + a * (0 * x.re + b * x.du) = 0 * x.re + a * b * x.du; ring
  c_mul_mul_mul a b x y := by
    apply Dual.ext'
    · show a * x.re * (b * y.re) = a * b * (x.re * y.re); ring
    · show (0 * x.re + a * x.du) * (b * y.re) + a * x.re * (0 * y.re + b * y.du)
        = 0 * (x.re * y.re) + a * b * (x.du * y.re + x.re * y.du)
      ring
  c_mul_add c x y := by
    apply Dual.ext'
    · show c * (x.re + y.re) = c * x.re + c * y.re; ring
    · show 0 * (x.re + y.re) + c * (x.du + y.du) = (0 * x.re + c * x.du) + (0 * y.re + c * y.du); ring
  c_mul_sub c x y := by
    apply Dual.ext'
    · show c * (x.re - y.re) = c * x.re - c * y.re; ring
    · show 0 * (x.re - y.re) + c * (x.du - y.du) = (0 * x.re + c * x.du) - (0 * y.re + c * y.du); ring
  c_mul_neg c x := by
    apply Dual.ext'
    · show c * -x.re = -(c * x.re); ring
    · show 0 * -x.re + c * -x.du = -(0 * x.re + c * x.du); ring
  c_neg_const c := by apply Dual.ext' <;> [rfl; exact neg_zero]
  c_const_mul a b := by
    apply Dual.ext'
    · rfl
    · show 0 * b + a * 0 = 0; ring
  c_nat_eq n := rfl
  c_pi_eq := rfl
  c_abs_mul {c} h x := by
    apply Dual.ext'
    · show |c * x.re| = c * |x.re|; rw [_root_.abs_mul, abs_of_pos h]
    · show signR (c * x.re) * (0 * x.re + c * x.du) = 0 * |x.re| + c * (signR x.re * x.du)
      rw [signR_mul h]; ring
  c_sign_mul {c} h x := by
    apply Dual.ext'
    · show signR (c * x.re) = signR x.re; exact signR_mul h _
    · rfl
  c_lt_mul {c} h x y := by
    show decide (c * x.re < c * y.re) = decide (x.re < y.re)
    simp only [mul_lt_mul_iff_right₀ h]
  c_beq_mul {c} h x y := by
    show decide (c * x.re = c * y.re) = decide (x.re = y.re)
    simp only [mul_right_inj' h.ne']
  c_div_mul {c d} h h' x y := by
    show (if d * y.re = 0 then .error .nonFinite else .ok ⟨c * x.re / (d * y.re), (0 * x.re + c * x.du) / (d * y.re)
        - c * x.re * (0 * y.re + d * y.du) / (d * y.re * (d * y.re))⟩ : Res Dual)
      = (if y.re = 0 then .error .nonFinite else .ok ⟨x.re / y.re, x.du / y.re - x.re * y.du / (y.re * y.re)⟩
          : Res Dual).map (const (c / d) * ·)
    simp only [mul_eq_zero_pos h']
    split
    · rfl
    · rename_i hy
      show Except.ok _ = Except.ok _
      congr 1
      apply Dual.ext'
      · show c * x.re / (d * y.re) = c / d * (x.re / y.re); field_simp
      · show _ = 0 * (x.re / y.re) + c / d * (x.du / y.re - x.re * y.du / (y.re * y.re))
        field_simp
        ring
  c_div_const {a b} h := by
    show (if b = 0 then .error .nonFinite else .ok ⟨a / b, 0 / b - a * 0 / (b * b)⟩ : Res Dual) = .ok ⟨a / b, 0⟩
    rw [if_neg h]
    simp
  c_sqrt_mul {c} h x := by
    show (if c * x.re ≤ 0 then .error .nonFinite
        else .ok ⟨√(c * x.re), (0 * x.re + c * x.du) / (2 * √(c * x.re))⟩ : Res Dual)
      = (if x.re ≤ 0 then .error .nonFinite else .ok ⟨√x.re, x.du / (2 * √x.re)⟩ : Res Dual).map (const (√c) * ·)
    simp only [mul_nonpos_pos h]
    split
    · rfl
    · rename_i hx
      have hx' : 0 < √x.re := Real.sqrt_pos.mpr (not_le.mp hx)
      have hc : 0 < √c := Real.sqrt_pos.mpr h
      have e : c = √c * √c := (Real.mul_self_sqrt h.le).symm
      show Except.ok _ = Except.ok _
      congr 1
      apply Dual.ext'
      · exact Real.sqrt_mul h.le _
      · show (0 * x.re + c * x.du) / (2 * √(c * x.re)) = 0 * √x.re + √c * (x.du / (2 * √x.re))
        rw [Real.sqrt_mul h.le]
        nth_rewrite 1 [e]
        field_simp
        ring
  c_atan2_mul {c} h y x := by
    show (if c * x.re = 0 ∧ c * y.re = 0 then .error .nonFinite else .ok ⟨atan2R (c * y.re) (c * x.re),
        (c * x.re * (0 * y.re + c * y.du) - c * y.re * (0 * x.re + c * x.du))
          / (c * x.re * (c * x.re) + c * y.re * (c * y.re))⟩ : Res Dual)
      = if x.re = 0 ∧ y.re = 0 then .error .nonFinite
        else .ok ⟨atan2R y.re x.re, (x.re * y.du - y.re * x.du) / (x.re * x.re + y.re * y.re)⟩
    simp only [mul_eq_zero_pos h]
    split
    · rfl
    · congr 1
      apply Dual.ext'
      · exact atan2R_mul h _ _
      · show (c * x.re * (0 * y.re + c * y.du) - c * y.re * (0 * x.re + c * x.du))
          / (c * x.re * (c * x.re) + c * y.re * (c * y.re)) = (x.re * y.du - y.re * x.du) / (x.re * x.re + y.re * y.re)
        have e1 : c * x.re * (0 * y.re + c * y.du) - c * y.re * (0 * x.re + c * x.du)
          = (c * c) * (x.re * y.du - y.re * x.du) := by ring
        have e2 : c * x.re * (c * x.re) + c * y.re * (c * y.re) = (c * c) * (x.re * x.re + y.re * y.re) := by ring
        rw [e1, e2, mul_div_mul_left _ _ (by positivity)]

end Verif
