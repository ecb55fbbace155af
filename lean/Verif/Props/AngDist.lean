import Verif.AngDist
import Verif.Props.Distance

/-!
# C59: angles and distances do not depend on their units

Values of every shape, every unit. Physical values are in base units: AU, rad, mag.
-/

namespace Verif

open Real

set_option linter.unusedSimpArgs false

namespace Spec

variable {ι : Type}

/-- quantities a user can hold: the physical type fits the class, a checked parallax is non-negative, a distance
modulus is in magnitudes -/
def LegalQ (x : AQ ι) : Prop :=
  match x.cls with
  | .quantity | .unchecked => True
  | .angle => x.unit.dim = { angle := 1 }
  | .distance => x.unit.dim = { len := 1 }
  | .parallax chk => x.unit.dim = { angle := 1 } ∧ (chk = true → ∀ i, 0 ≤ x.phys i)
  | .distmod => x.unit.dim = { mag := 1 } ∧ x.unit.scale = 1

/-- the same quantity, possibly in another unit -/
structure SameAQ (x y : AQ ι) : Prop where
  cls : y.cls = x.cls
  dim : y.unit.dim = x.unit.dim
  phys : ∀ i, y.phys i = x.phys i

/-- both calls raise the same error, or both return and the results are the same quantity -/
def SameResult (r s : Res (AQ ι)) : Prop :=
  (∃ e, r = .error e ∧ s = .error e) ∨ ∃ a b, r = .ok a ∧ s = .ok b ∧ SameAQ a b

/-- `r` is a plain `Quantity` of physical type `d` with physical values `f` -/
structure IsQ (r : AQ ι) (d : RDim) (f : ι → ℝ) : Prop where
  cls : r.cls = .quantity
  dim : r.unit.dim = d
  phys : ∀ i, r.phys i = f i

/-- the quantity `x` stands for the lengths `d` (in AU), in whatever unit it is -/
def DenotesQ (x : AQ ι) (d : ι → ℝ) : Prop :=
  match x.cls with
  | .distance => x.unit.dim = { len := 1 } ∧ ∀ i, x.phys i = d i
  | .parallax _ => x.unit.dim = { angle := 1 } ∧
      ∀ i, 0 < x.phys i ∧ x.phys i < π / 2 ∧ Real.tan (x.phys i) = 1 / d i
  | .distmod => x.unit.dim = { mag := 1 } ∧ x.unit.scale = 1 ∧
      ∀ i, x.phys i = 5 * (Real.log (d i / (10 * (648000 / π))) / Real.log 10)
  | _ => False

end Spec

open Spec

/-! ### Lemmas -/

section
variable {ι : Type}

theorem RUnit.ext' {a b : RUnit} (h : a.dim = b.dim) (h' : a.scale = b.scale) : a = b := by
  cases a; cases b; simp_all

theorem elementwise_ok {dom : ℝ → Prop} {f : ℝ → ℝ} {v : ι → ℝ} (h : ∀ i, dom (v i)) :
    elementwise dom f v = .ok fun i => f (v i) := if_pos h

theorem elementwise_err {dom : ℝ → Prop} {f : ℝ → ℝ} {v : ι → ℝ} (h : ¬ ∀ i, dom (v i)) :
    elementwise dom f v = .error .nonFinite := if_neg h

theorem ustripA_ok {un : RUnit} {x : AQ ι} (h : un.dim = x.unit.dim) :
    ustripA un x = .ok fun i => x.phys i / un.scale := by
  rw [ustripA, if_pos h]
  congr 1; funext i
  simp only [AQ.phys]; ring

theorem err_bind' {α β : Type} (e : Err) (f : α → Res β) : ((.error e : Res α) >>= f) = .error e := rfl

theorem legal_iff (x : AQ ι) : LegalQ x ↔ mkAQ x.cls x.value x.unit = .ok x := by
  obtain ⟨c, v, un⟩ := x
  have hs : ∀ i, (0 ≤ v i * un.scale ↔ ¬ v i < 0) := fun i => by
    rw [mul_nonneg_iff_of_pos_right un.pos, not_lt]
  cases c with
  | quantity => simp [LegalQ, mkAQ]
  | unchecked => simp [LegalQ, mkAQ]
  | angle =>
    simp only [LegalQ, mkAQ]
    by_cases h : un.dim = { angle := 1 } <;> simp [h]
  | distance =>
    simp only [LegalQ, mkAQ]
    by_cases h : un.dim = { len := 1 } <;> simp [h]
  | parallax chk =>
    simp only [LegalQ, mkAQ, AQ.phys, hs]
    by_cases h : un.dim = { angle := 1 }
    · simp only [h, true_and, if_true]
      by_cases h2 : chk = true ∧ ∃ i, v i < 0
      · rw [if_pos h2]
        obtain ⟨h3, i, hi⟩ := h2
        exact ⟨fun h => absurd hi (h h3 i), fun h => by cases h⟩
      · rw [if_neg h2]
        refine ⟨fun _ => rfl, fun _ h3 i hi => h2 ⟨h3, i, hi⟩⟩
    · simp [h]
  | distmod =>
    change (un.dim = RUnit.mag.dim ∧ un.scale = RUnit.mag.scale) ↔ _
    simp only [mkAQ]
    by_cases h : un.dim = RUnit.mag.dim ∧ un.scale = RUnit.mag.scale
    · simp [h]
    · rw [if_neg h]; exact ⟨fun h' => absurd h' h, fun h => by cases h⟩

theorem mkAQ_eq {c : ACls} {v : ι → ℝ} {un : RUnit} {r : AQ ι} (h : mkAQ c v un = .ok r) : r = ⟨c, v, un⟩ := by
  cases c <;> simp only [mkAQ] at h <;> (try split at h) <;> (try split at h) <;>
    first | exact (Except.ok.inj h).symm | cases h

theorem mkAQ_ok {c : ACls} {v : ι → ℝ} {un : RUnit} (h : LegalQ (⟨c, v, un⟩ : AQ ι)) :
    mkAQ c v un = .ok ⟨c, v, un⟩ := (legal_iff _).mp h

theorem Spec.SameAQ.symm {x y : AQ ι} (h : SameAQ x y) : SameAQ y x :=
  ⟨h.cls.symm, h.dim.symm, fun i => (h.phys i).symm⟩

theorem Spec.SameAQ.legal {x y : AQ ι} (h : SameAQ x y) (hm : x.cls = .distmod → y.unit.scale = 1)
    (hx : LegalQ x) : LegalQ y := by
  obtain ⟨hc, hd, hp⟩ := h
  unfold LegalQ at *
  rw [hc, hd]
  simp only [hp]
  cases h : x.cls <;> simp only [h] at hx ⊢ <;> try exact hx
  exact ⟨hx.1, hm h⟩

/-! ### Constructors -/

/-- **C59, constructors.** A class accepts a value and a unit exactly if the physical type is the right one (and the
parallax non-negative unless unchecked, the modulus in magnitudes), and keeps both. -/
theorem C59_constructors (c : ACls) (v : ι → ℝ) (un : RUnit) (r : AQ ι) :
    mkAQ c v un = .ok r ↔ LegalQ (⟨c, v, un⟩ : AQ ι) ∧ r = ⟨c, v, un⟩ := by
  constructor
  · intro h
    have := mkAQ_eq h
    subst this
    exact ⟨(legal_iff _).mpr h, rfl⟩
  · rintro ⟨h, rfl⟩; exact (legal_iff _).mp h

/-! ### Trigonometric functions -/

/-- **C59, cos and sin.** The cosine and sine of an `Angle` in any unit are those of the physical angle, as plain
dimensionless Quantities. -/
theorem C59_cos_sin (x : AQ ι) (hc : x.cls = .angle) (hx : LegalQ x) :
    (∃ r, x.cos = .ok r ∧ IsQ r {} fun i => Real.cos (x.phys i)) ∧
    (∃ r, x.sin = .ok r ∧ IsQ r {} fun i => Real.sin (x.phys i)) := by
  have hd : x.unit.dim = { angle := 1 } := by simpa [LegalQ, hc] using hx
  have hu := ustripA_ok (un := .rad) (x := x) hd.symm
  constructor
  · refine ⟨⟨.quantity, fun i => Real.cos (x.phys i / 1), .one⟩, ?_, rfl, rfl, fun i => by
      simp [AQ.phys, RUnit.one]⟩
    simp only [AQ.cos, hc, ACls.isAngle, if_true, hu, ok_bind]
    rfl
  · refine ⟨⟨.quantity, fun i => Real.sin (x.phys i / 1), .one⟩, ?_, rfl, rfl, fun i => by
      simp [AQ.phys, RUnit.one]⟩
    simp only [AQ.sin, hc, ACls.isAngle, if_true, hu, ok_bind]
    rfl

theorem tan_angle {x : AQ ι} (hc : x.cls.isDistance ∨ x.cls = .quantity) (hd : x.unit.dim = { angle := 1 })
    (h : ∀ i, Real.cos (x.phys i) ≠ 0) :
    x.tan = .ok ⟨.quantity, fun i => Real.tan (x.phys i), .one⟩ := by
  have hu := ustripA_ok (un := .rad) (x := x) hd.symm
  have h' : ∀ i, Real.cos (x.phys i / RUnit.rad.scale) ≠ 0 := fun i => by simpa [RUnit.rad] using h i
  rw [AQ.tan, if_pos hc]
  simp only [AQ.radOrOne]
  rw [if_pos (by rw [hd]; rfl), hu, ok_bind, elementwise_ok (dom := fun a => Real.cos a ≠ 0) h', ok_bind]
  simp [mkAQ, RUnit.rad]

theorem tan_angle_err {x : AQ ι} (hc : x.cls.isDistance ∨ x.cls = .quantity) (hd : x.unit.dim = { angle := 1 })
    (h : ¬ ∀ i, Real.cos (x.phys i) ≠ 0) : x.tan = .error .nonFinite := by
  have hu := ustripA_ok (un := .rad) (x := x) hd.symm
  have h' : ¬ ∀ i, Real.cos (x.phys i / RUnit.rad.scale) ≠ 0 := fun h' => h fun i => by
    simpa [RUnit.rad] using h' i
  rw [AQ.tan, if_pos hc]
  simp only [AQ.radOrOne]
  rw [if_pos (by rw [hd]; rfl), hu, ok_bind, elementwise_err (dom := fun a => Real.cos a ≠ 0) h']
  rfl

/-- **C59, tan.** The tangent of a parallax is that of the physical angle (no result exactly if an entry is an odd
multiple of 90 deg); the tangent of a `Distance` or a `DistanceModulus` raises. -/
theorem C59_tan (x : AQ ι) (hx : LegalQ x) :
    (∀ chk, x.cls = .parallax chk → ((∃ r, x.tan = .ok r) ↔ ∀ i, Real.cos (x.phys i) ≠ 0) ∧
      ∀ r, x.tan = .ok r → IsQ r {} fun i => Real.tan (x.phys i)) ∧
    (x.cls = .distance ∨ x.cls = .distmod → x.tan = .error .units) := by
  constructor
  · intro chk hc
    have hd : x.unit.dim = { angle := 1 } := by
      simp only [LegalQ, hc] at hx
      exact hx.1
    have hc' : x.cls.isDistance ∨ x.cls = .quantity := by simp [hc, ACls.isDistance]
    by_cases h : ∀ i, Real.cos (x.phys i) ≠ 0
    · rw [tan_angle hc' hd h]
      refine ⟨⟨fun _ => h, fun _ => ⟨_, rfl⟩⟩, fun r hr => ?_⟩
      obtain rfl := Except.ok.inj hr
      exact ⟨rfl, rfl, fun i => by simp [AQ.phys, RUnit.one]⟩
    · rw [tan_angle_err hc' hd h]
      exact ⟨⟨fun ⟨r, hr⟩ => (by cases hr), fun h' => absurd h' h⟩, fun r hr => (by cases hr)⟩
  · intro hc
    have hc' : x.cls.isDistance ∨ x.cls = .quantity := by rcases hc with hc | hc <;> simp [hc, ACls.isDistance]
    have hd : x.unit.dim ≠ { angle := 1 } ∧ x.unit.dim ≠ {} := by
      rcases hc with hc | hc
      · have hd : x.unit.dim = { len := 1 } := by simpa [LegalQ, hc] using hx
        rw [hd]; decide
      · have hd : x.unit.dim = { mag := 1 } := by
          simp only [LegalQ, hc] at hx
          exact hx.1
        rw [hd]; decide
    rw [AQ.tan, if_pos hc']
    simp only [AQ.radOrOne]
    rw [if_neg (show x.unit.dim ≠ RUnit.rad.dim from hd.1), ustripA,
      if_neg (show RUnit.one.dim ≠ x.unit.dim from Ne.symm hd.2)]
    rfl

/-! ### Roots and powers -/

theorem scale_nonneg_iff (x : AQ ι) (i : ι) : 0 ≤ x.value i ↔ 0 ≤ x.phys i := by
  rw [AQ.phys, mul_nonneg_iff_of_pos_right x.unit.pos]

theorem scale_ne_iff (x : AQ ι) (i : ι) : x.value i ≠ 0 ↔ x.phys i ≠ 0 := by
  rw [AQ.phys, ne_eq, ne_eq, mul_eq_zero, or_iff_left x.unit.pos.ne']

theorem scale_pos_iff (x : AQ ι) (i : ι) : 0 < x.value i ↔ 0 < x.phys i := by
  rw [AQ.phys, mul_pos_iff_of_pos_right x.unit.pos]

theorem scale_neg_iff (x : AQ ι) (i : ι) : x.value i < 0 ↔ x.phys i < 0 := by
  rw [← not_le, ← not_le, scale_nonneg_iff]

theorem powDom_iff (x : AQ ι) (y : ℚ) (i : ι) : PowDom y (x.value i) ↔ PowDom y (x.phys i) := by
  unfold PowDom
  rw [scale_pos_iff, scale_neg_iff]
  have := scale_ne_iff x i
  tauto

/-- **C59, square roots.** `sqrt` returns exactly if no entry is negative; the result is the plain Quantity whose
square has the physical type and the physical values of the argument. -/
theorem C59_sqrt (x : AQ ι) (hc : x.cls ≠ .unchecked) :
    ((∃ r, x.sqrt = .ok r) ↔ ∀ i, 0 ≤ x.phys i) ∧
    ∀ r, x.sqrt = .ok r → r.cls = .quantity ∧ r.unit.dim.mul r.unit.dim = x.unit.dim ∧
      ∀ i, 0 ≤ r.phys i ∧ r.phys i * r.phys i = x.phys i := by
  by_cases h : ∀ i, 0 ≤ x.value i
  · have e : x.sqrt = .ok ⟨.quantity, fun i => √(x.value i), x.unit.pow (1 / 2)⟩ := by
      rw [AQ.sqrt, if_neg hc, elementwise_ok (dom := fun a => 0 ≤ a) h]; rfl
    rw [e]
    refine ⟨⟨fun _ i => (scale_nonneg_iff x i).mp (h i), fun _ => ⟨_, rfl⟩⟩, fun r hr => ?_⟩
    obtain rfl := Except.ok.inj hr
    refine ⟨rfl, ?_, fun i => ?_⟩
    · simp only [RUnit.pow, RDim.pow, RDim.mul]
      cases hd : x.unit.dim; simp only [RDim.mk.injEq]; refine ⟨?_, ?_, ?_, ?_, ?_⟩ <;> ring
    · have hs := x.unit.pos
      have e2 : (x.unit.scale ^ (((1 / 2 : ℚ) : ℚ) : ℝ)) = √x.unit.scale := by
        rw [Real.sqrt_eq_rpow]; norm_num
      simp only [AQ.phys, RUnit.pow, e2]
      refine ⟨by positivity, ?_⟩
      rw [mul_mul_mul_comm, Real.mul_self_sqrt (h i), Real.mul_self_sqrt hs.le]
  · have e : x.sqrt = .error .nonFinite := by
      rw [AQ.sqrt, if_neg hc, elementwise_err (dom := fun a => 0 ≤ a) h]; rfl
    rw [e]
    exact ⟨⟨fun ⟨r, hr⟩ => (by cases hr), fun h' => absurd (fun i => (scale_nonneg_iff x i).mpr (h' i)) h⟩,
      fun r hr => by cases hr⟩

theorem cbrtR_cube (x : ℝ) : cbrtR x * cbrtR x * cbrtR x = x := by
  have key : ∀ a : ℝ, 0 ≤ a → a ^ ((1 : ℝ) / 3) * a ^ ((1 : ℝ) / 3) * a ^ ((1 : ℝ) / 3) = a := by
    intro a ha
    have : (a ^ ((1 : ℝ) / 3)) ^ (3 : ℕ) = a := by
      rw [← Real.rpow_natCast, ← Real.rpow_mul ha]; norm_num
    calc _ = (a ^ ((1 : ℝ) / 3)) ^ (3 : ℕ) := by ring
      _ = a := this
  have k := key |x| (abs_nonneg x)
  unfold cbrtR signR
  rcases lt_trichotomy x 0 with h | h | h
  · rw [if_neg h.le.not_gt, if_pos h]
    rw [abs_of_neg h] at k ⊢
    linear_combination -k
  · simp [h]
  · rw [if_pos h]
    rw [abs_of_pos h] at k ⊢
    linear_combination k

/-- **C59, cube roots.** `cbrt` always returns: the plain Quantity whose cube has the physical type and the physical
values of the argument. -/
theorem C59_cbrt (x : AQ ι) (hc : x.cls ≠ .unchecked) :
    ∃ r, x.cbrt = .ok r ∧ r.cls = .quantity ∧ (r.unit.dim.mul r.unit.dim).mul r.unit.dim = x.unit.dim ∧
      ∀ i, r.phys i * r.phys i * r.phys i = x.phys i := by
  refine ⟨⟨.quantity, fun i => cbrtR (x.value i), x.unit.pow (1 / 3)⟩, ?_, rfl, ?_, fun i => ?_⟩
  · rw [AQ.cbrt, if_neg hc, elementwise_ok (dom := fun _ => True) fun _ => trivial]; rfl
  · simp only [RUnit.pow, RDim.pow, RDim.mul]
    cases hd : x.unit.dim; simp only [RDim.mk.injEq]; refine ⟨?_, ?_, ?_, ?_, ?_⟩ <;> ring
  · have hs := x.unit.pos
    have e2 : (x.unit.scale ^ (((1 / 3 : ℚ) : ℚ) : ℝ)) = cbrtR x.unit.scale := by
      rw [cbrtR, signR, if_pos hs, abs_of_pos hs, one_mul]; norm_num
    simp only [AQ.phys, RUnit.pow, e2]
    have h1 := cbrtR_cube (x.value i)
    have h2 := cbrtR_cube x.unit.scale
    calc _ = (cbrtR (x.value i) * cbrtR (x.value i) * cbrtR (x.value i)) *
        (cbrtR x.unit.scale * cbrtR x.unit.scale * cbrtR x.unit.scale) := by ring
      _ = _ := by rw [h1, h2]

/-- **C59, integer powers.** No result exactly if the exponent is negative and an entry is zero; otherwise the plain
Quantity of the powers of the physical values, the physical type raised to the same power. -/
theorem C59_integer_pow (x : AQ ι) (hc : x.cls ≠ .unchecked) (y : ℤ) :
    ((∃ r, x.integerPow y = .ok r) ↔ ∀ i, x.phys i ≠ 0 ∨ 0 ≤ y) ∧
    ∀ r, x.integerPow y = .ok r → IsQ r (x.unit.dim.pow y) fun i => x.phys i ^ y := by
  by_cases h : ∀ i, x.value i ≠ 0 ∨ 0 ≤ y
  · have e : x.integerPow y = .ok ⟨.quantity, fun i => x.value i ^ y, x.unit.pow y⟩ := by
      rw [AQ.integerPow, if_neg hc, elementwise_ok (dom := fun a => a ≠ 0 ∨ 0 ≤ y) h]; rfl
    rw [e]
    refine ⟨⟨fun _ i => (h i).imp_left (scale_ne_iff x i).mp, fun _ => ⟨_, rfl⟩⟩, fun r hr => ?_⟩
    obtain rfl := Except.ok.inj hr
    refine ⟨rfl, rfl, fun i => ?_⟩
    simp only [AQ.phys, RUnit.pow]
    rw [mul_zpow, show ((y : ℚ) : ℝ) = (y : ℝ) by norm_cast, Real.rpow_intCast]
  · have e : x.integerPow y = .error .nonFinite := by
      rw [AQ.integerPow, if_neg hc, elementwise_err (dom := fun a => a ≠ 0 ∨ 0 ≤ y) h]; rfl
    rw [e]
    exact ⟨⟨fun ⟨r, hr⟩ => (by cases hr),
      fun h' => absurd (fun i => (h' i).imp_left (scale_ne_iff x i).mpr) h⟩, fun r hr => by cases hr⟩

theorem rpow_scale {a s : ℝ} {y : ℚ} (hs : 0 < s) (h : PowDom y a) :
    (a * s) ^ (y : ℝ) = a ^ (y : ℝ) * s ^ (y : ℝ) := by
  rcases h with h | ⟨rfl, h⟩ | ⟨h, hy⟩
  · exact Real.mul_rpow h.le hs.le
  · exact Real.mul_rpow le_rfl hs.le
  · have : y = (y.num : ℚ) := ((Rat.den_eq_one_iff y).mp hy).symm
    rw [this, show (((y.num : ℤ) : ℚ) : ℝ) = (y.num : ℝ) by norm_cast]
    simp only [Real.rpow_intCast, mul_zpow]

/-- **C59, powers.** `x ** y` has a result exactly if every entry is positive, or zero with `y ≥ 0`, or negative with
an integer `y`; then it is the plain Quantity of the powers of the physical values, the physical type raised to
`y`. -/
theorem C59_pow (x : AQ ι) (hc : x.cls ≠ .unchecked) (y : ℚ) :
    ((∃ r, x.pow y = .ok r) ↔
      ∀ i, 0 < x.phys i ∨ (x.phys i = 0 ∧ 0 ≤ y) ∨ (x.phys i < 0 ∧ ∃ n : ℤ, y = n)) ∧
    ∀ r, x.pow y = .ok r → IsQ r (x.unit.dim.pow y) fun i => x.phys i ^ (y : ℝ) := by
  have hden : (∃ n : ℤ, y = n) ↔ y.den = 1 := by
    constructor
    · rintro ⟨n, rfl⟩; rfl
    · intro h; exact ⟨y.num, ((Rat.den_eq_one_iff y).mp h).symm⟩
  rw [hden]
  change ((∃ r, x.pow y = .ok r) ↔ ∀ i, PowDom y (x.phys i)) ∧ _
  by_cases h : ∀ i, PowDom y (x.value i)
  · have e : x.pow y = .ok ⟨.quantity, fun i => x.value i ^ (y : ℝ), x.unit.pow y⟩ := by
      rw [AQ.pow, if_neg hc]
      simp only [mkAQ, ok_bind]
      rw [elementwise_ok (dom := PowDom y) h]; rfl
    rw [e]
    refine ⟨⟨fun _ i => (powDom_iff x y i).mp (h i), fun _ => ⟨_, rfl⟩⟩, fun r hr => ?_⟩
    obtain rfl := Except.ok.inj hr
    refine ⟨rfl, rfl, fun i => ?_⟩
    simp only [AQ.phys, RUnit.pow]
    exact (rpow_scale x.unit.pos (h i)).symm
  · have e : x.pow y = .error .nonFinite := by
      rw [AQ.pow, if_neg hc]
      simp only [mkAQ, ok_bind]
      rw [elementwise_err (dom := PowDom y) h]; rfl
    rw [e]
    exact ⟨⟨fun ⟨r, hr⟩ => (by cases hr),
      fun h' => absurd (fun i => (powDom_iff x y i).mpr (h' i)) h⟩, fun r hr => by cases hr⟩


/-! ### Dot products -/

/-- **C59, dot products.** The dot product of two `Angle`s or of two distances is the plain Quantity whose physical
values are the sums of the products of the physical values and whose physical type is the product of the two. -/
theorem C59_dot {B M N K : Type} [Fintype K] (x : AQ (B × M × K)) (y : AQ (B × N × K))
    (h : (x.cls.isAngle ∧ y.cls.isAngle) ∨ (x.cls.isDistance ∧ y.cls.isDistance)) :
    ∃ r, x.dot y = .ok r ∧ IsQ r (x.unit.dim.mul y.unit.dim)
      fun i => ∑ k, x.phys (i.1, i.2.1, k) * y.phys (i.1, i.2.2, k) := by
  refine ⟨_, by rw [AQ.dot, if_pos h]; rfl, rfl, rfl, fun i => ?_⟩
  simp only [AQ.phys, RUnit.mul, Finset.sum_mul]
  exact Finset.sum_congr rfl fun k _ => by ring

/-! ### A root undone by the power -/

theorem AQ.ext' {x y : AQ ι} (hc : x.cls = y.cls) (hv : x.value = y.value) (hu : x.unit = y.unit) : x = y := by
  cases x; cases y; simp_all

/-- **C59, roots and powers.** The square of the square root of an `Angle` or a `Distance` (without negative
entries), and the cube of the cube root of any, converted back to the class, are the original: same value, same
unit. -/
theorem C59_root_then_power (x : AQ ι) (hc : x.cls = .angle ∨ x.cls = .distance) (hx : LegalQ x) :
    ((∀ i, 0 ≤ x.phys i) → (do (← (← x.sqrt).integerPow 2).convertTo x.cls) = .ok x) ∧
    (do (← (← x.cbrt).integerPow 3).convertTo x.cls) = .ok x := by
  have hcu : x.cls ≠ .unchecked := by rcases hc with h | h <;> rw [h] <;> decide
  have back : ∀ z : AQ ι, z.cls = .quantity → z.value = x.value → z.unit = x.unit → z.convertTo x.cls = .ok x := by
    intro z h1 h2 h3
    have hm := (legal_iff x).mp hx
    rcases hc with h | h <;> rw [h] at hm ⊢ <;> simp only [AQ.convertTo, h1, h2, h3] <;> exact hm
  constructor
  · intro h
    have h' : ∀ i, 0 ≤ x.value i := fun i => (scale_nonneg_iff x i).mpr (h i)
    have e : x.sqrt = .ok ⟨.quantity, fun i => √(x.value i), x.unit.pow (1 / 2)⟩ := by
      rw [AQ.sqrt, if_neg hcu, elementwise_ok (dom := fun a => 0 ≤ a) h']; rfl
    rw [e, ok_bind, AQ.integerPow, if_neg (by simp),
      elementwise_ok (dom := fun a => a ≠ 0 ∨ (0 : ℤ) ≤ 2) (fun i => Or.inr (by norm_num)), ok_bind]
    simp only [mkAQ, ok_bind]
    refine back _ rfl ?_ (RUnit.ext' ?_ ?_)
    · funext i
      exact (zpow_ofNat _ 2).trans (Real.sq_sqrt (h' i))
    · simp only [RUnit.pow, RDim.pow]
      cases hd : x.unit.dim; simp only [RDim.mk.injEq]; push_cast; refine ⟨?_, ?_, ?_, ?_, ?_⟩ <;> ring
    · simp only [RUnit.pow]
      rw [← Real.rpow_mul x.unit.pos.le]; norm_num
  · have e : x.cbrt = .ok ⟨.quantity, fun i => cbrtR (x.value i), x.unit.pow (1 / 3)⟩ := by
      rw [AQ.cbrt, if_neg hcu, elementwise_ok (dom := fun _ => True) fun _ => trivial]; rfl
    rw [e, ok_bind, AQ.integerPow, if_neg (by simp),
      elementwise_ok (dom := fun a => a ≠ 0 ∨ (0 : ℤ) ≤ 3) (fun i => Or.inr (by norm_num)), ok_bind]
    simp only [mkAQ, ok_bind]
    refine back _ rfl ?_ (RUnit.ext' ?_ ?_)
    · funext i
      have := cbrtR_cube (x.value i)
      have h3 : (cbrtR (x.value i)) ^ (3 : ℤ) = cbrtR (x.value i) ^ 3 := zpow_ofNat _ 3
      show (cbrtR (x.value i)) ^ (3 : ℤ) = _
      rw [h3]; linear_combination this
    · simp only [RUnit.pow, RDim.pow]
      cases hd : x.unit.dim; simp only [RDim.mk.injEq]; push_cast; refine ⟨?_, ?_, ?_, ?_, ?_⟩ <;> ring
    · simp only [RUnit.pow]
      rw [← Real.rpow_mul x.unit.pos.le]; norm_num

/-! ### Conversions between the classes -/

/-- **C59, conversions.** Converting to `Quantity` always succeeds for an `Angle` or a distance class and keeps value
and unit; converting any quantity of another class to `Angle`, `Distance`, `Parallax`, `DistanceModulus` succeeds
exactly if the constructor accepts it, and keeps value and unit; a quantity of the class is returned as it is. -/
theorem C59_conversions (x : AQ ι) :
    (x.cls ≠ .unchecked → x.convertTo .quantity = .ok ⟨.quantity, x.value, x.unit⟩) ∧
    (∀ c, x.cls = c → x.convertTo c = .ok x) ∧
    (∀ c r, (c = .angle ∨ c = .distance ∨ c = .distmod) → x.cls ≠ c →
      (x.convertTo c = .ok r ↔ LegalQ (⟨c, x.value, x.unit⟩ : AQ ι) ∧ r = ⟨c, x.value, x.unit⟩)) ∧
    (∀ b r, (∀ b', x.cls ≠ .parallax b') →
      (x.convertTo (.parallax b) = .ok r ↔
        (x.unit.dim = { angle := 1 } ∧ ∀ i, 0 ≤ x.phys i) ∧ r = ⟨.parallax true, x.value, x.unit⟩)) := by
  obtain ⟨c, v, un⟩ := x
  refine ⟨fun h => ?_, fun c' h => ?_, fun c' r hc hne => ?_, fun b r hne => ?_⟩
  · cases c <;> first | rfl | exact absurd rfl h
  · subst h; cases c <;> rfl
  · rw [← C59_constructors]
    rcases hc with rfl | rfl | rfl <;> cases c <;> first | exact Iff.rfl | exact absurd rfl hne
  · have : ((un.dim = { angle := 1 } ∧ ∀ i, 0 ≤ v i * un.scale) ↔
        LegalQ (⟨.parallax true, v, un⟩ : AQ ι)) := by
      simp only [LegalQ, AQ.phys, forall_const]
    simp only [AQ.phys]
    rw [this, ← C59_constructors]
    cases c <;> first | exact Iff.rfl | exact absurd rfl (hne _)

/-- **C59, conversions and back.** A legal `Angle`, `Distance`, `DistanceModulus` or checked `Parallax` comes back
unchanged from `Quantity`; an unchecked parallax does not: it comes back as a checked one, or not at all. -/
theorem C59_conversion_round_trip (x : AQ ι) (hx : LegalQ x) (hu : x.cls ≠ .unchecked) :
    ((∀ b, x.cls = .parallax b → b = true) →
      (do (← x.convertTo .quantity).convertTo x.cls) = .ok x) ∧
    (x.cls = .parallax false →
      ((∀ i, 0 ≤ x.phys i) →
        (do (← x.convertTo .quantity).convertTo x.cls) = .ok ⟨.parallax true, x.value, x.unit⟩) ∧
      ((∃ i, x.phys i < 0) → (do (← x.convertTo .quantity).convertTo x.cls) = .error .check)) := by
  have e := (C59_conversions x).1 hu
  rw [e, ok_bind]
  have hm := (legal_iff x).mp hx
  obtain ⟨c, v, un⟩ := x
  constructor
  · intro hb
    cases c with
    | parallax b => rw [hb b rfl] at hm ⊢; exact hm
    | unchecked => exact absurd rfl hu
    | _ => exact hm
  · rintro rfl
    have hd : un.dim = { angle := 1 } := by
      simp only [LegalQ] at hx; exact hx.1
    constructor
    · intro h
      exact (legal_iff _).mp (show LegalQ (⟨.parallax true, v, un⟩ : AQ ι) from ⟨hd, fun _ => h⟩)
    · rintro ⟨i, hi⟩
      have hv : ∃ i, v i < 0 := ⟨i, (scale_neg_iff ⟨.parallax false, v, un⟩ i).mpr hi⟩
      simp only [AQ.convertTo, mkAQ]
      rw [if_pos hd, if_pos ⟨rfl, hv⟩]

/-- **C59, from Astropy.** `convert(q, cls)` of an Astropy quantity to a distance class is the constructor. -/
theorem C59_from_astropy (v : ι → ℝ) (un : RUnit) (r : AQ ι) :
    (fromAstropyQ v un .distance = .ok r ↔ un.dim = { len := 1 } ∧ r = ⟨.distance, v, un⟩) ∧
    (∀ b, fromAstropyQ v un (.parallax b) = .ok r ↔
      (un.dim = { angle := 1 } ∧ ∀ i, 0 ≤ v i) ∧ r = ⟨.parallax true, v, un⟩) ∧
    (fromAstropyQ v un .distmod = .ok r ↔
      (un.dim = { mag := 1 } ∧ un.scale = 1) ∧ r = ⟨.distmod, v, un⟩) := by
  refine ⟨C59_constructors .distance v un r, fun b => ?_, C59_constructors .distmod v un r⟩
  refine (C59_constructors (.parallax true) v un r).trans ?_
  simp only [LegalQ, forall_const, AQ.phys, mul_nonneg_iff_of_pos_right un.pos]


/-! ### Distance, parallax, distance modulus in any unit -/

theorem au_div_one : RUnit.au.div RUnit.one = RUnit.au :=
  RUnit.ext' (by simp [RUnit.div, RDim.div, RDim.mul, RDim.pow, RUnit.au, RUnit.one]) (by simp [RUnit.div, RUnit.au, RUnit.one])

theorem tanDistance_ok {x : AQ ι} (hc : x.cls.isDistance ∨ x.cls = .quantity) (hd : x.unit.dim = { angle := 1 })
    (h1 : ∀ i, Real.cos (x.phys i) ≠ 0) (h2 : ∀ i, Real.tan (x.phys i) ≠ 0) :
    tanDistance x = .ok ⟨.distance, fun i => 1 / Real.tan (x.phys i), .au⟩ := by
  rw [tanDistance, tan_angle hc hd h1, ok_bind, elementwise_ok (dom := fun a => a ≠ 0) h2, ok_bind, au_div_one]
  exact mkAQ_ok (show LegalQ (⟨.distance, _, .au⟩ : AQ ι) from rfl)

theorem magDistance_ok (m : ι → ℝ) :
    magDistance m = .ok ⟨.distance, fun i => (10 : ℝ) ^ (m i / 5 + 1), .pc⟩ :=
  mkAQ_ok (show LegalQ (⟨.distance, _, .pc⟩ : AQ ι) from rfl)

theorem atan2_one_pos (d : ℝ) : 0 < atan2R 1 d ∧ atan2R 1 d < π := by
  have h0 : atan2R 1 d ≠ π := by
    intro h
    have := (Complex.arg_eq_pi_iff.mp h).2
    norm_num at this
  have h1 : 0 ≤ atan2R 1 d := Complex.arg_nonneg_iff.mpr (by norm_num)
  have h2 : atan2R 1 d ≠ 0 := by
    intro h
    have := (Complex.arg_eq_zero_iff.mp h).2
    norm_num at this
  exact ⟨lt_of_le_of_ne h1 (Ne.symm h2), lt_of_le_of_ne (Complex.arg_le_pi _) h0⟩

theorem atanParallax_ok {x : AQ ι} (hd : x.unit.dim = { len := 1 }) :
    atanParallax x = .ok ⟨.parallax true, fun i => atan2R 1 (x.phys i), .rad⟩ := by
  rw [atanParallax, ustripA_ok (show RUnit.au.dim = _ from hd.symm), ok_bind]
  have : (fun i => atan2R 1 (x.phys i / RUnit.au.scale)) = fun i => atan2R 1 (x.phys i) := by
    funext i; simp [RUnit.au]
  rw [this]
  refine mkAQ_ok (show LegalQ (⟨.parallax true, _, .rad⟩ : AQ ι) from ⟨rfl, fun _ i => ?_⟩)
  simp only [AQ.phys, RUnit.rad, mul_one]
  exact (atan2_one_pos _).1.le

theorem logModulus_ok {x : AQ ι} (hd : x.unit.dim = { len := 1 }) (h : ∀ i, 0 < x.phys i) :
    logModulus x = .ok ⟨.distmod, fun i => 5 * (Real.log (x.phys i / (10 * (648000 / π))) / Real.log 10), .mag⟩ := by
  have hpi := Real.pi_pos
  have hdim : RUnit.one.dim = (x.unit.div .pc).dim := by
    simp [RUnit.div, hd, RDim.div, RDim.mul, RDim.pow, RUnit.pc, RUnit.one]
  have hq : ustripA RUnit.one (⟨.quantity, fun i => x.value i / 10, x.unit.div .pc⟩ : AQ ι)
      = .ok fun i => x.phys i / (10 * (648000 / π)) := by
    rw [ustripA_ok hdim]
    congr 1; funext i
    simp only [AQ.phys, RUnit.div, RUnit.one, RUnit.pc]
    field_simp
  have hdom : ∀ i, 0 < x.phys i / (10 * (648000 / π)) := fun i => div_pos (h i) (by positivity)
  rw [logModulus, show mkAQ .quantity (fun i => x.value i / 10) (x.unit.div .pc) = .ok ⟨_, _, _⟩ from rfl, ok_bind, hq,
    ok_bind, elementwise_ok (dom := fun a => 0 < a) hdom, ok_bind]
  exact mkAQ_ok (show LegalQ (⟨.distmod, _, .mag⟩ : AQ ι) from ⟨rfl, rfl⟩)

theorem tan_acute {p : ℝ} (h0 : 0 < p) (h1 : p < π / 2) : Real.cos p ≠ 0 ∧ Real.tan p ≠ 0 :=
  ⟨(Real.cos_pos_of_mem_Ioo ⟨by linarith, h1⟩).ne', (Real.tan_pos_of_pos_of_lt_pi_div_two h0 h1).ne'⟩

theorem mag_length {d : ℝ} (hd : 0 < d) :
    (10 : ℝ) ^ (5 * (Real.log (d / (10 * (648000 / π))) / Real.log 10) / 5 + 1) * (648000 / π) = d := by
  have hpi := Real.pi_pos
  have hx : 0 < d / (10 * (648000 / π)) := by positivity
  rw [show 5 * (Real.log (d / (10 * (648000 / π))) / Real.log 10) / 5 + 1
    = Real.logb 10 (d / (10 * (648000 / π))) + 1 by unfold Real.logb; ring]
  rw [Real.rpow_add (by norm_num), Real.rpow_logb (by norm_num) (by norm_num) hx, Real.rpow_one]
  field_simp

/-- `.distance` of a quantity standing for `d` -/
theorem distance_denotes {x : AQ ι} {d : ι → ℝ} (hd : ∀ i, 0 < d i) (h : DenotesQ x d) :
    ∃ r, x.distance = .ok r ∧ r.cls = .distance ∧ r.unit.dim = { len := 1 } ∧ ∀ i, r.phys i = d i := by
  unfold DenotesQ at h
  cases hc : x.cls with
  | distance =>
    simp only [hc] at h
    exact ⟨x, by simp only [AQ.distance, hc], hc, h.1, h.2⟩
  | parallax b =>
    simp only [hc] at h
    refine ⟨⟨.distance, fun i => 1 / Real.tan (x.phys i), .au⟩, ?_, rfl, rfl, fun i => ?_⟩
    · simp only [AQ.distance, hc]
      exact tanDistance_ok (by simp [hc, ACls.isDistance]) h.1
        (fun i => (tan_acute (h.2 i).1 (h.2 i).2.1).1) (fun i => (tan_acute (h.2 i).1 (h.2 i).2.1).2)
    · show 1 / Real.tan (x.phys i) * RUnit.au.scale = d i
      rw [(h.2 i).2.2]; simp [RUnit.au]
  | distmod =>
    simp only [hc] at h
    obtain ⟨h1, h2, h3⟩ := h
    refine ⟨_, by simp only [AQ.distance, hc]; exact magDistance_ok _, rfl, rfl, fun i => ?_⟩
    have hv := h3 i
    rw [AQ.phys, h2, mul_one] at hv
    simp only [AQ.phys, RUnit.pc, hv]
    exact mag_length (hd i)
  | _ => simp only [hc] at h

/-- **C59, distances in any unit.** Each of `distance`, `parallax`, `distance_modulus` of a distance-like quantity in
any unit, standing for positive lengths `d`, returns a quantity of the requested class standing for the same
lengths. -/
theorem C59_same_length (x : AQ ι) (d : ι → ℝ) (hd : ∀ i, 0 < d i) (h : DenotesQ x d) :
    (∃ r, x.distance = .ok r ∧ r.cls = .distance ∧ DenotesQ r d) ∧
    (∃ r b, x.parallax = .ok r ∧ r.cls = .parallax b ∧ DenotesQ r d) ∧
    (∃ r, x.distanceModulus = .ok r ∧ r.cls = .distmod ∧ DenotesQ r d) := by
  obtain ⟨z, hz, hzc, hzd, hzp⟩ := distance_denotes hd h
  have hzpos : ∀ i, 0 < z.phys i := fun i => hzp i ▸ hd i
  have par : DenotesQ (⟨.parallax true, fun i => atan2R 1 (z.phys i), .rad⟩ : AQ ι) d := by
    refine ⟨rfl, fun i => ?_⟩
    simp only [AQ.phys, RUnit.rad, mul_one]
    have := atan2_one (hzpos i)
    rw [hzp i] at this
    have e : z.value i * z.unit.scale = d i := hzp i
    rw [e]; exact this
  have dm : DenotesQ (⟨.distmod, fun i => 5 * (Real.log (z.phys i / (10 * (648000 / π))) / Real.log 10), .mag⟩ : AQ ι)
      d := by
    refine ⟨rfl, rfl, fun i => ?_⟩
    show _ * RUnit.mag.scale = _
    simp only [hzp i, RUnit.mag, mul_one]
  refine ⟨⟨z, hz, hzc, by simp only [DenotesQ, hzc]; exact ⟨hzd, hzp⟩⟩, ?_, ?_⟩
  · cases hc : x.cls with
    | distance =>
      have : x = z := by simp only [AQ.distance, hc] at hz; exact Except.ok.inj hz
      subst this
      exact ⟨_, true, by simp only [AQ.parallax, hc]; exact atanParallax_ok hzd, rfl, par⟩
    | parallax b => exact ⟨x, b, by simp only [AQ.parallax, hc], hc, h⟩
    | distmod =>
      exact ⟨_, true, by simp only [AQ.parallax, hc, hz, ok_bind]; exact atanParallax_ok hzd, rfl, par⟩
    | _ => simp only [DenotesQ, hc] at h
  · cases hc : x.cls with
    | distance =>
      have : x = z := by simp only [AQ.distance, hc] at hz; exact Except.ok.inj hz
      subst this
      exact ⟨_, by simp only [AQ.distanceModulus, hc]; exact logModulus_ok hzd hzpos, rfl, dm⟩
    | parallax b =>
      exact ⟨_, by simp only [AQ.distanceModulus, hc, hz, ok_bind]; exact logModulus_ok hzd hzpos, rfl, dm⟩
    | distmod => exact ⟨x, by simp only [AQ.distanceModulus, hc], hc, h⟩
    | _ => simp only [DenotesQ, hc] at h


namespace Spec

/-- what `Distance.from_` and `Parallax.from_` understand: a distance-like quantity, or a plain `Quantity` that is a
length, an angle (a parallax) or a number of magnitudes (a distance modulus), in any unit -/
def MeansLength (x : AQ ι) (d : ι → ℝ) : Prop :=
  DenotesQ x d ∨ x.cls = .quantity ∧
    ((x.unit.dim = { len := 1 } ∧ ∀ i, x.phys i = d i) ∨
     (x.unit.dim = { angle := 1 } ∧ ∀ i, 0 < x.phys i ∧ x.phys i < π / 2 ∧ Real.tan (x.phys i) = 1 / d i) ∨
     (x.unit.dim = { mag := 1 } ∧ ∀ i, x.phys i = 5 * (Real.log (d i / (10 * (648000 / π))) / Real.log 10)))

end Spec

/-- **C59, `Distance.from_`.** Whatever means the positive lengths `d`, in any class and any unit, becomes a
`Distance` of these lengths. -/
theorem C59_distance_from (x : AQ ι) (d : ι → ℝ) (hd : ∀ i, 0 < d i) (h : MeansLength x d) :
    ∃ r, x.distanceFrom = .ok r ∧ r.cls = .distance ∧ DenotesQ r d := by
  suffices h' : ∃ r, x.distanceFrom = .ok r ∧ r.cls = .distance ∧ r.unit.dim = { len := 1 } ∧ ∀ i, r.phys i = d i by
    obtain ⟨r, h1, h2, h3⟩ := h'
    exact ⟨r, h1, h2, by simp only [DenotesQ, h2]; exact h3⟩
  have tanCase : ∀ (hc : x.cls.isDistance ∨ x.cls = .quantity), x.unit.dim = { angle := 1 } →
      (∀ i, 0 < x.phys i ∧ x.phys i < π / 2 ∧ Real.tan (x.phys i) = 1 / d i) →
      ∃ r, tanDistance x = .ok r ∧ r.cls = .distance ∧ r.unit.dim = { len := 1 } ∧ ∀ i, r.phys i = d i := by
    intro hc h1 h2
    refine ⟨_, tanDistance_ok hc h1 (fun i => (tan_acute (h2 i).1 (h2 i).2.1).1)
      (fun i => (tan_acute (h2 i).1 (h2 i).2.1).2), rfl, rfl, fun i => ?_⟩
    show 1 / Real.tan (x.phys i) * RUnit.au.scale = d i
    rw [(h2 i).2.2]; simp [RUnit.au]
  have magCase : x.unit.dim = { mag := 1 } →
      (∀ i, x.phys i = 5 * (Real.log (d i / (10 * (648000 / π))) / Real.log 10)) →
      ∃ r, (do magDistance (← ustripA .mag x)) = .ok r ∧ r.cls = .distance ∧ r.unit.dim = { len := 1 } ∧
        ∀ i, r.phys i = d i := by
    intro h1 h2
    refine ⟨_, by rw [ustripA_ok (show RUnit.mag.dim = _ from h1.symm), ok_bind]; exact magDistance_ok _, rfl, rfl,
      fun i => ?_⟩
    show (10 : ℝ) ^ (x.phys i / RUnit.mag.scale / 5 + 1) * RUnit.pc.scale = d i
    rw [h2 i]
    simp only [RUnit.mag, RUnit.pc, div_one]
    exact mag_length (hd i)
  rcases h with h | ⟨hc, h⟩
  · unfold DenotesQ at h
    cases hc : x.cls with
    | distance => simp only [hc] at h; exact ⟨x, by simp only [AQ.distanceFrom, hc], hc, h⟩
    | parallax b =>
      simp only [hc] at h
      simp only [AQ.distanceFrom, hc]
      exact tanCase (by simp [hc, ACls.isDistance]) h.1 h.2
    | distmod =>
      simp only [hc] at h
      simp only [AQ.distanceFrom, hc]
      exact magCase h.1 h.2.2
    | _ => simp only [hc] at h
  · simp only [AQ.distanceFrom, hc]
    rcases h with ⟨h1, h2⟩ | ⟨h1, h2⟩ | ⟨h1, h2⟩
    · rw [if_neg (by rw [h1]; decide), if_neg (by rw [h1]; decide)]
      exact ⟨_, mkAQ_ok (show LegalQ (⟨.distance, _, _⟩ : AQ ι) from h1), rfl, h1, h2⟩
    · rw [if_pos (by rw [h1]; rfl)]
      exact tanCase (Or.inr hc) h1 h2
    · rw [if_neg (by rw [h1]; decide), if_pos (by rw [h1]; rfl)]
      exact magCase h1 h2

/-- **C59, `Parallax.from_`.** A `Distance`, a `Parallax`, a length or an angle meaning the positive lengths `d`
becomes a `Parallax` for these lengths. -/
theorem C59_parallax_from (x : AQ ι) (d : ι → ℝ) (hd : ∀ i, 0 < d i) (h : MeansLength x d)
    (hm : x.unit.dim ≠ { mag := 1 }) :
    ∃ r b, x.parallaxFrom = .ok r ∧ r.cls = .parallax b ∧ DenotesQ r d := by
  have atanCase : x.unit.dim = { len := 1 } → (∀ i, x.phys i = d i) →
      ∃ r b, atanParallax x = .ok r ∧ r.cls = .parallax b ∧ DenotesQ r d := by
    intro h1 h2
    refine ⟨_, true, atanParallax_ok h1, rfl, rfl, fun i => ?_⟩
    simp only [AQ.phys, RUnit.rad, mul_one]
    have e : x.value i * x.unit.scale = d i := h2 i
    rw [e]; exact atan2_one (hd i)
  rcases h with h | ⟨hc, h⟩
  · have h' := h
    unfold DenotesQ at h
    cases hc : x.cls with
    | distance =>
      simp only [hc] at h
      simp only [AQ.parallaxFrom, hc]
      exact atanCase h.1 h.2
    | parallax b => exact ⟨x, b, by simp only [AQ.parallaxFrom, hc], hc, h'⟩
    | distmod => simp only [hc] at h; exact absurd h.1 hm
    | _ => simp only [hc] at h
  · simp only [AQ.parallaxFrom, hc]
    rcases h with ⟨h1, h2⟩ | ⟨h1, h2⟩ | ⟨h1, h2⟩
    · rw [if_pos (by rw [h1]; rfl)]
      exact atanCase h1 h2
    · rw [if_neg (by rw [h1]; decide)]
      exact ⟨_, true, mkAQ_ok (show LegalQ (⟨.parallax true, x.value, x.unit⟩ : AQ ι) from
        ⟨h1, fun _ i => (h2 i).1.le⟩), rfl, h1, h2⟩
    · exact absurd h1 hm

/-- **C59, rejections.** An `Angle` is not taken for a parallax although the same angle as a `Quantity` is; a distance
modulus or magnitudes do not become a parallax; a plain quantity of any other physical type is rejected by both. -/
theorem C59_from_rejects (x : AQ ι) (hx : LegalQ x) :
    (x.cls = .angle → x.distanceFrom = .error .value) ∧
    (x.cls = .distmod ∨ (x.cls = .quantity ∧ x.unit.dim = { mag := 1 }) → x.parallaxFrom = .error .value) ∧
    (x.cls = .quantity → x.unit.dim ≠ { len := 1 } → x.unit.dim ≠ { angle := 1 } →
      x.parallaxFrom = .error .value ∧ (x.unit.dim ≠ { mag := 1 } → x.distanceFrom = .error .value)) := by
  refine ⟨fun hc => ?_, fun hc => ?_, fun hc h1 h2 => ⟨?_, fun h3 => ?_⟩⟩
  · have hd : x.unit.dim = { angle := 1 } := by simpa only [LegalQ, hc] using hx
    simp only [AQ.distanceFrom, hc, mkAQ]
    rw [if_neg (by rw [hd]; decide)]
  · rcases hc with hc | ⟨hc, hd⟩
    · have hd : x.unit.dim = { mag := 1 } := by simp only [LegalQ, hc] at hx; exact hx.1
      simp only [AQ.parallaxFrom, hc, mkAQ]
      rw [if_neg (by rw [hd]; decide)]
    · simp only [AQ.parallaxFrom, hc, mkAQ]
      rw [if_neg (by rw [hd]; decide), if_neg (by rw [hd]; decide)]
  · simp only [AQ.parallaxFrom, hc, mkAQ]
    rw [if_neg (show x.unit.dim ≠ RUnit.au.dim from h1), if_neg h2]
  · simp only [AQ.distanceFrom, hc, mkAQ]
    rw [if_neg (show x.unit.dim ≠ RUnit.rad.dim from h2), if_neg (show x.unit.dim ≠ RUnit.mag.dim from h3), if_neg h1]

theorem tan_atan2 {d : ℝ} (hd : d ≠ 0) :
    Real.cos (atan2R 1 d) ≠ 0 ∧ Real.tan (atan2R 1 d) = 1 / d := by
  have hz : (⟨d, 1⟩ : ℂ) ≠ 0 := by
    intro h; have := congrArg Complex.im h; norm_num at this
  have hc : Real.cos (atan2R 1 d) = d / ‖(⟨d, 1⟩ : ℂ)‖ := Complex.cos_arg hz
  have hn : ‖(⟨d, 1⟩ : ℂ)‖ ≠ 0 := norm_ne_zero_iff.mpr hz
  refine ⟨by rw [hc]; exact div_ne_zero hd hn, ?_⟩
  exact Complex.tan_arg _

/-- **C59, negative distances.** A `Distance` in any unit, without zero entries but of any signs, comes back from its
parallax with the same lengths; where it is negative the parallax is obtuse. -/
theorem C59_signed_round_trip (x : AQ ι) (hc : x.cls = .distance) (hx : LegalQ x) (h0 : ∀ i, x.phys i ≠ 0) :
    ∃ p, x.parallax = .ok p ∧ (∀ i, 0 < p.phys i ∧ p.phys i < π ∧ (x.phys i < 0 ↔ π / 2 < p.phys i)) ∧
      ∃ r, p.distance = .ok r ∧ SameAQ x r := by
  have hd : x.unit.dim = { len := 1 } := by simpa only [LegalQ, hc] using hx
  refine ⟨_, by simp only [AQ.parallax, hc]; exact atanParallax_ok hd, fun i => ?_, ?_⟩
  · show _ < _ * RUnit.rad.scale ∧ _ * RUnit.rad.scale < _ ∧ (_ ↔ _ < _ * RUnit.rad.scale)
    simp only [RUnit.rad, mul_one]
    refine ⟨(atan2_one_pos _).1, (atan2_one_pos _).2, ?_⟩
    have hz : (⟨x.phys i, 1⟩ : ℂ) ≠ 0 := by
      intro h; have := congrArg Complex.im h; norm_num at this
    have hcos : Real.cos (atan2R 1 (x.phys i)) = x.phys i / ‖(⟨x.phys i, 1⟩ : ℂ)‖ := Complex.cos_arg hz
    have hn : 0 < ‖(⟨x.phys i, 1⟩ : ℂ)‖ := norm_pos_iff.mpr hz
    have hb := atan2_one_pos (x.phys i)
    constructor
    · intro hneg
      by_contra hle
      have : 0 ≤ Real.cos (atan2R 1 (x.phys i)) :=
        Real.cos_nonneg_of_neg_pi_div_two_le_of_le (by linarith [Real.pi_pos]) (not_lt.mp hle)
      rw [hcos] at this
      exact absurd (div_neg_of_neg_of_pos hneg hn) (not_lt.mpr this)
    · intro hlt
      have : Real.cos (atan2R 1 (x.phys i)) < 0 :=
        Real.cos_neg_of_pi_div_two_lt_of_lt hlt (by linarith [Real.pi_pos])
      rw [hcos] at this
      by_contra hge
      exact absurd this (not_lt.mpr (div_nonneg (not_lt.mp hge) hn.le))
  · have hp : ∀ i, (⟨.parallax true, fun i => atan2R 1 (x.phys i), .rad⟩ : AQ ι).phys i = atan2R 1 (x.phys i) :=
      fun i => mul_one _
    refine ⟨_, by
      simp only [AQ.distance]
      refine tanDistance_ok (by simp [ACls.isDistance]) rfl (fun i => ?_) (fun i => ?_)
      · rw [hp]; exact (tan_atan2 (h0 i)).1
      · rw [hp, (tan_atan2 (h0 i)).2]; exact one_div_ne_zero (h0 i), hc.symm, hd.symm, fun i => ?_⟩
    show 1 / Real.tan _ * RUnit.au.scale = _
    rw [hp, (tan_atan2 (h0 i)).2]
    simp [RUnit.au]


/-! ### Nothing depends on the unit -/

theorem Spec.SameResult.error {e : Err} : SameResult (.error e : Res (AQ ι)) (.error e) := Or.inl ⟨e, rfl, rfl⟩

theorem Spec.SameResult.ok {a b : AQ ι} (h : SameAQ a b) : SameResult (.ok a) (.ok b) := Or.inr ⟨a, b, rfl, rfl, h⟩

theorem Spec.SameResult.bind {r s : Res (AQ ι)} {κ : Type} {f g : AQ ι → Res (AQ κ)} (h : SameResult r s)
    (hfg : ∀ a b, r = .ok a → s = .ok b → SameAQ a b → SameResult (f a) (g b)) :
    SameResult (r >>= f) (s >>= g) := by
  rcases h with ⟨e, rfl, rfl⟩ | ⟨a, b, rfl, rfl, h⟩
  · exact .error
  · exact hfg a b rfl rfl h

theorem Spec.SameAQ.dim_eq {x y : AQ ι} (h : SameAQ x y) : y.unit.dim = x.unit.dim := h.dim

theorem same_unary {dom : ℝ → Prop} {f : ℝ → ℝ} {e : ℚ} {x y : AQ ι} (h : SameAQ x y)
    (hdom : ∀ a s : ℝ, 0 < s → (dom (a * s) ↔ dom a))
    (hf : ∀ a s : ℝ, 0 < s → dom a → f (a * s) = f a * s ^ (e : ℝ)) :
    SameResult (elementwise dom f x.value >>= fun v => mkAQ .quantity v (x.unit.pow e))
      (elementwise dom f y.value >>= fun v => mkAQ .quantity v (y.unit.pow e)) := by
  have hd : ∀ i, dom (y.value i) ↔ dom (x.value i) := fun i => by
    rw [← hdom (y.value i) _ y.unit.pos, ← hdom (x.value i) _ x.unit.pos]
    exact iff_of_eq (congrArg dom (h.phys i))
  by_cases hx : ∀ i, dom (x.value i)
  · have hy : ∀ i, dom (y.value i) := fun i => (hd i).mpr (hx i)
    rw [elementwise_ok hx, elementwise_ok hy]
    refine .ok ⟨rfl, by simp only [RUnit.pow, h.dim], fun i => ?_⟩
    simp only [AQ.phys, RUnit.pow]
    rw [← hf _ _ y.unit.pos (hy i), ← hf _ _ x.unit.pos (hx i)]
    exact congrArg f (h.phys i)
  · have hy : ¬ ∀ i, dom (y.value i) := fun h' => hx fun i => (hd i).mp (h' i)
    rw [elementwise_err hx, elementwise_err hy]
    exact .error

theorem same_ustrip {x y : AQ ι} (h : SameAQ x y) (un : RUnit) : ustripA un x = ustripA un y := by
  by_cases hd : un.dim = x.unit.dim
  · rw [ustripA_ok hd, ustripA_ok (hd.trans h.dim.symm)]
    simp only [h.phys]
  · rw [ustripA, ustripA, if_neg hd, if_neg (fun e => hd (e.trans h.dim))]

theorem Spec.SameAQ.refl (x : AQ ι) : SameAQ x x := ⟨rfl, rfl, fun _ => rfl⟩

theorem Spec.SameResult.refl (r : Res (AQ ι)) : SameResult r r := by
  cases r with
  | error e => exact .error
  | ok a => exact .ok (.refl a)

theorem same_tan {x y : AQ ι} (h : SameAQ x y) : x.tan = y.tan := by
  simp only [AQ.tan, AQ.radOrOne, h.cls, h.dim, same_ustrip h]

theorem same_tanDistance {x y : AQ ι} (h : SameAQ x y) : tanDistance x = tanDistance y := by
  rw [tanDistance, tanDistance, same_tan h]

theorem same_atanParallax {x y : AQ ι} (h : SameAQ x y) : atanParallax x = atanParallax y := by
  rw [atanParallax, atanParallax, same_ustrip h]

theorem same_logModulus {x y : AQ ι} (h : SameAQ x y) : logModulus x = logModulus y := by
  have : ustripA RUnit.one (⟨.quantity, fun i => x.value i / 10, x.unit.div .pc⟩ : AQ ι)
      = ustripA RUnit.one (⟨.quantity, fun i => y.value i / 10, y.unit.div .pc⟩ : AQ ι) := by
    refine same_ustrip (x := ⟨.quantity, fun i => x.value i / 10, x.unit.div .pc⟩)
      (y := ⟨.quantity, fun i => y.value i / 10, y.unit.div .pc⟩)
      ⟨rfl, by simp only [RUnit.div, h.dim], fun i => ?_⟩ _
    have := h.phys i
    simp only [AQ.phys, RUnit.div] at this ⊢
    linear_combination this / (10 * RUnit.pc.scale)
  have k : ∀ z : AQ ι, logModulus z = (do
      let l ← elementwise (fun a => 0 < a) (Real.logb 10)
        (← ustripA .one (⟨.quantity, fun i => z.value i / 10, z.unit.div .pc⟩ : AQ ι))
      mkAQ .distmod (fun i => 5 * l i) .mag) := fun z => rfl
  rw [k, k, this]

theorem same_mk {c : ACls} {x y : AQ ι} (h : SameAQ x y) (hc : c ≠ .distmod) :
    SameResult (mkAQ c x.value x.unit) (mkAQ c y.value y.unit) := by
  have hs : SameAQ (⟨c, x.value, x.unit⟩ : AQ ι) ⟨c, y.value, y.unit⟩ := ⟨rfl, h.dim, h.phys⟩
  by_cases hx : LegalQ (⟨c, x.value, x.unit⟩ : AQ ι)
  · rw [mkAQ_ok hx, mkAQ_ok (hs.legal (fun e => absurd e hc) hx)]
    exact .ok hs
  · have hneg : (∃ i, y.value i < 0) ↔ ∃ i, x.value i < 0 := by
      refine exists_congr fun i => ?_
      rw [scale_neg_iff, scale_neg_iff, h.phys]
    cases c with
    | distmod => exact absurd rfl hc
    | quantity => exact absurd trivial hx
    | unchecked => exact absurd trivial hx
    | parallax chk =>
      simp only [mkAQ, h.dim, hneg]
      split
      · by_cases hb : chk = true ∧ ∃ i, x.value i < 0
        · rw [if_pos hb, if_pos ⟨hb.1, hneg.mpr hb.2⟩]; exact .error
        · rw [if_neg hb, if_neg fun h' => hb ⟨h'.1, hneg.mp h'.2⟩]; exact .ok hs
      · exact .error
    | _ =>
      simp only [mkAQ, h.dim]
      split
      · exact .ok hs
      · exact .error

/-- **C59, unit independence.** For two quantities that differ only in their unit, roots, powers, trigonometric
functions, distance, parallax, distance modulus and the conversions between classes raise alike or return results
that differ only in their unit. (Conversion to `DistanceModulus` alone depends on the unit:
`C59_modulus_needs_mag`.) -/
theorem C59_unit_independent (x y : AQ ι) (hx : LegalQ x) (hy : LegalQ y) (h : SameAQ x y) :
    SameResult x.sqrt y.sqrt ∧ SameResult x.cbrt y.cbrt ∧
    (∀ n, SameResult (x.integerPow n) (y.integerPow n)) ∧ (∀ e, SameResult (x.pow e) (y.pow e)) ∧
    SameResult x.cos y.cos ∧ SameResult x.sin y.sin ∧ SameResult x.tan y.tan ∧
    SameResult x.distance y.distance ∧ SameResult x.parallax y.parallax ∧
    SameResult x.distanceModulus y.distanceModulus ∧
    SameResult x.distanceFrom y.distanceFrom ∧ SameResult x.parallaxFrom y.parallaxFrom ∧
    (∀ c, c ≠ .distmod → SameResult (x.convertTo c) (y.convertTo c)) := by
  have hdist : SameResult x.distance y.distance := by
    unfold AQ.distance
    rw [h.cls]
    cases hc : x.cls with
    | distance => exact .ok h
    | parallax b => simp only []; rw [same_tanDistance h]; exact .refl _
    | distmod =>
      simp only []
      have h1 : x.unit.scale = 1 := by simp only [LegalQ, hc] at hx; exact hx.2
      have h2 : y.unit.scale = 1 := by simp only [LegalQ, h.cls, hc] at hy; exact hy.2
      have : x.value = y.value := by
        funext i; have := h.phys i; rw [AQ.phys, AQ.phys, h1, h2] at this; linarith
      rw [this]; exact .refl _
    | _ => exact .error
  refine ⟨?_, ?_, fun n => ?_, fun e => ?_, ?_, ?_, ?_, hdist, ?_, ?_, ?_, ?_, fun c hc => ?_⟩
  · unfold AQ.sqrt
    rw [h.cls]
    split
    · exact .error
    · refine same_unary h (fun a s hs => by rw [mul_nonneg_iff_of_pos_right hs]) fun a s hs ha => ?_
      rw [Real.sqrt_mul ha, Real.sqrt_eq_rpow s]; norm_num
  · unfold AQ.cbrt
    rw [h.cls]
    split
    · exact .error
    · refine same_unary h (fun a s hs => Iff.rfl) fun a s hs _ => ?_
      have h1 : signR (a * s) = signR a := by
        unfold signR
        simp only [mul_pos_iff_of_pos_right hs]
        have : a * s < 0 ↔ a < 0 := by
          rw [← not_le, ← not_le, mul_nonneg_iff_of_pos_right hs]
        simp only [this]
      rw [cbrtR, cbrtR, h1, abs_mul, abs_of_pos hs, Real.mul_rpow (abs_nonneg a) hs.le]
      push_cast; ring
  · unfold AQ.integerPow
    rw [h.cls]
    split
    · exact .error
    · refine same_unary h (fun a s hs => by rw [ne_eq, mul_eq_zero, or_iff_left hs.ne']) fun a s hs _ => ?_
      rw [mul_zpow, show ((n : ℚ) : ℝ) = (n : ℝ) by norm_cast, Real.rpow_intCast]
  · unfold AQ.pow
    rw [h.cls]
    split
    · exact .error
    · refine same_unary (x := ⟨.quantity, x.value, x.unit⟩) (y := ⟨.quantity, y.value, y.unit⟩)
        (dom := PowDom e) (f := fun a => a ^ (e : ℝ)) ⟨rfl, h.dim, h.phys⟩ (fun a s hs => ?_)
        fun a s hs ha => rpow_scale hs ha
      unfold PowDom
      have h1 : a * s < 0 ↔ a < 0 := by rw [← not_le, ← not_le, mul_nonneg_iff_of_pos_right hs]
      rw [mul_pos_iff_of_pos_right hs, h1, mul_eq_zero, or_iff_left hs.ne']
  · unfold AQ.cos; rw [h.cls, same_ustrip h]; exact .refl _
  · unfold AQ.sin; rw [h.cls, same_ustrip h]; exact .refl _
  · rw [same_tan h]; exact .refl _
  · unfold AQ.parallax
    rw [h.cls]
    cases hc : x.cls with
    | distance => simp only []; rw [same_atanParallax h]; exact .refl _
    | parallax b => exact .ok h
    | distmod => exact hdist.bind fun a b _ _ hab => by rw [same_atanParallax hab]; exact .refl _
    | _ => exact .error
  · unfold AQ.distanceModulus
    rw [h.cls]
    cases hc : x.cls with
    | distance => simp only []; rw [same_logModulus h]; exact .refl _
    | parallax b => exact hdist.bind fun a b _ _ hab => by rw [same_logModulus hab]; exact .refl _
    | distmod => exact .ok h
    | _ => exact .error
  · unfold AQ.distanceFrom
    rw [h.cls, h.dim, same_tanDistance h, same_ustrip h]
    cases hc : x.cls with
    | distance => exact .ok h
    | parallax b => exact .refl _
    | distmod => exact .refl _
    | quantity =>
      simp only []
      split
      · exact .refl _
      · split
        · exact .refl _
        · exact same_mk h (by simp)
    | _ => exact same_mk h (by simp)
  · unfold AQ.parallaxFrom
    rw [h.cls, h.dim, same_atanParallax h]
    cases hc : x.cls with
    | distance => exact .refl _
    | parallax b => exact .ok h
    | quantity =>
      simp only []
      split
      · exact .refl _
      · exact same_mk h (by simp)
    | _ => exact same_mk h (by simp)
  · unfold AQ.convertTo
    rw [h.cls]
    cases c with
    | distmod => exact absurd rfl hc
    | quantity => cases x.cls <;> first | exact .ok h | exact .error | exact same_mk h (by simp)
    | unchecked => cases x.cls <;> first | exact .ok h | exact .error | exact same_mk h (by simp)
    | angle => cases x.cls <;> first | exact .ok h | exact same_mk h (by simp)
    | distance => cases x.cls <;> first | exact .ok h | exact same_mk h (by simp)
    | parallax b => cases x.cls <;> first | exact .ok h | exact same_mk h (by simp)

/-- the same for dot products -/
theorem C59_dot_unit_independent {B M N K : Type} [Fintype K] (x x' : AQ (B × M × K)) (y y' : AQ (B × N × K))
    (hx : SameAQ x x') (hy : SameAQ y y') : SameResult (x.dot y) (x'.dot y') := by
  by_cases h : (x.cls.isAngle ∧ y.cls.isAngle) ∨ (x.cls.isDistance ∧ y.cls.isDistance)
  · obtain ⟨r, h1, h2, h3, h4⟩ := C59_dot x y h
    obtain ⟨r', h1', h2', h3', h4'⟩ := C59_dot x' y' (by rw [hx.cls, hy.cls]; exact h)
    rw [h1, h1']
    refine .ok ⟨h2'.trans h2.symm, by rw [h3, h3', hx.dim, hy.dim], fun i => ?_⟩
    rw [h4, h4']
    simp only [hx.phys, hy.phys]
  · have h' : ¬ ((x'.cls.isAngle ∧ y'.cls.isAngle) ∨ (x'.cls.isDistance ∧ y'.cls.isDistance)) := by
      rw [hx.cls, hy.cls]; exact h
    rw [AQ.dot, AQ.dot, if_neg h, if_neg h']
    exact .error

/-- **C59, the exception.** A Quantity of magnitudes converts to `DistanceModulus` only when its unit is the magnitude
itself: the same number of magnitudes in another logarithmic unit is rejected. -/
theorem C59_modulus_needs_mag (v : ι → ℝ) :
    ∃ x y : AQ ι, LegalQ x ∧ LegalQ y ∧ SameAQ x y ∧ (∀ i, x.phys i = v i) ∧
      x.convertTo .distmod = .ok ⟨.distmod, v, .mag⟩ ∧ y.convertTo .distmod = .error .value := by
  refine ⟨⟨.quantity, v, .mag⟩, ⟨.quantity, fun i => v i * (2 / 5), ⟨{ mag := 1 }, 5 / 2, by norm_num⟩⟩, trivial,
    trivial, ⟨rfl, rfl, fun i => ?_⟩, fun i => mul_one _, ?_, ?_⟩
  · simp only [AQ.phys, RUnit.mag]; ring
  · exact mkAQ_ok (show LegalQ (⟨.distmod, v, .mag⟩ : AQ ι) from ⟨rfl, rfl⟩)
  · simp only [AQ.convertTo, mkAQ]
    rw [if_neg]
    rintro ⟨_, h⟩
    simp only [RUnit.mag] at h
    norm_num at h

/-! ### The hypotheses are met -/

/-- `Angle([60, -90], "deg")` -/
noncomputable def angleWitness : AQ (Fin 2) := ⟨.angle, ![60, -90], .deg⟩

example : angleWitness.cls = .angle ∧ LegalQ angleWitness ∧ angleWitness.phys 0 = π / 3 := by
  refine ⟨rfl, rfl, ?_⟩
  simp only [AQ.phys, angleWitness, RUnit.deg, Matrix.cons_val_zero]; ring

example : ∃ r, angleWitness.cos = .ok r ∧ r.phys 0 = 1 / 2 := by
  obtain ⟨⟨r, h1, h2⟩, _⟩ := C59_cos_sin angleWitness rfl rfl
  refine ⟨r, h1, ?_⟩
  rw [h2.phys 0, show angleWitness.phys 0 = π / 3 by
    simp only [AQ.phys, angleWitness, RUnit.deg, Matrix.cons_val_zero]; ring, Real.cos_pi_div_three]

/-- `Distance([1, 1000], "pc")` stands for these lengths -/
example : DenotesQ (⟨.distance, ![1, 1000], .pc⟩ : AQ (Fin 2)) ![648000 / π, 648000000 / π] ∧
    ∀ i, 0 < (![648000 / π, 648000000 / π] : Fin 2 → ℝ) i := by
  have := Real.pi_pos
  refine ⟨⟨rfl, fun i => ?_⟩, fun i => ?_⟩ <;> fin_cases i <;> simp [AQ.phys, RUnit.pc]
  · ring
  · positivity
  · positivity

/-- the same `Angle` in degrees and in radians -/
example : SameAQ angleWitness ⟨.angle, ![π / 3, -(π / 2)], .rad⟩ ∧
    LegalQ (⟨.angle, ![π / 3, -(π / 2)], .rad⟩ : AQ (Fin 2)) := by
  refine ⟨⟨rfl, rfl, fun i => ?_⟩, rfl⟩
  fin_cases i <;> simp [AQ.phys, RUnit.rad, angleWitness, RUnit.deg] <;> ring

/-- a negative parallax that was not checked -/
example : LegalQ (⟨.parallax false, fun _ : Unit => -1, .rad⟩ : AQ Unit) := ⟨rfl, nofun⟩

end

end Verif
