import Verif.Flt
import Verif.Forms
import Verif.KindLemmas
import Mathlib.Analysis.Real.Pi.Bounds

/-!
# C72: what survives rounding

Specification: ranges of the fields of a vector of floating-point numbers.
-/

namespace Verif

open Num

namespace Spec

/-- the ranges in the documentation of the classes, in floating-point numbers -/
def RangesF {A : FltArith} : Pos (Flt A) → Prop
  | .cart1 _ | .cart2 _ _ | .cart3 _ _ _ => True
  | .radial r | .polar r _ => 0 ≤ r.raw.val
  | .twoSphere θ _ => 0 ≤ θ.val ∧ θ.val ≤ A.piF
  | .cyl ρ _ _ => 0 ≤ ρ.val
  | .sph r θ _ => 0 ≤ r.raw.val ∧ 0 ≤ θ.val ∧ θ.val ≤ A.piF
  | .math r _ φ => 0 ≤ r.raw.val ∧ 0 ≤ φ.val ∧ φ.val ≤ A.piF
  | .lonlat _ lat d => 0 ≤ d.raw.val ∧ -(A.piF / 2) ≤ lat.val ∧ lat.val ≤ A.piF / 2
  | .prolate mu nu _ d => 0 < d.val ∧ A.fl (d.val * d.val) ≤ mu.val ∧ |nu.val| ≤ A.fl (d.val * d.val)

/-- the azimuth, if there is one, is in `[0, 360]` deg (closed: see `C72_azimuth_can_be_360`) -/
def AzimuthF {A : FltArith} : Pos (Flt A) → Prop
  | .polar _ φ | .twoSphere _ φ | .cyl _ φ _ | .sph _ _ φ | .prolate _ _ φ _ => 0 ≤ φ.val ∧ φ.val ≤ 2 * A.piF
  | .lonlat lon _ _ => 0 ≤ lon.val ∧ lon.val ≤ 2 * A.piF
  | .math _ θ _ => 0 ≤ θ.val ∧ θ.val ≤ 2 * A.piF
  | _ => True

/-- what the projection of a spherical position on a polar one needs: the radius is a `Distance` (not a `Parallax` or a
`DistanceModulus`) and the sine of the inclination is not negative. (In `float64` it never is, since `180 deg` is rounded down; in
`float32` that is rounded up, see `C72_sine_negative_raises`.) -/
def PlaneOk {A : FltArith} : Pos (Flt A) → Prop
  | .sph r θ _ => (∃ d, r = .dist d) ∧ 0 ≤ A.sinF θ.val
  | .math r _ φ => (∃ d, r = .dist d) ∧ 0 ≤ A.sinF φ.val
  | _ => True

/-- the radius, if there is one, is a `Distance` -/
def DistanceRadius {α : Type} : Pos α → Prop
  | .radial r | .polar r _ | .sph r _ _ | .math r _ _ | .lonlat _ _ r => ∃ d, r = .dist d
  | _ => True

/-- conversions that compute no inclination from Cartesian or cylindrical coordinates -/
def Plain : Kind → Kind → Bool
  | .twoSphere, _ | .prolate, _ | _, .twoSphere | _, .prolate => false
  | .lonlat, k => k = .cart3 || k = .cyl || k = .sph || k = .lonlat
  | k, .sph => k = .cart1 || k = .radial || k = .polar || k = .sph || k = .math
  | k, .math => k = .cart1 || k = .radial || k = .polar || k = .sph || k = .math
  | k, .lonlat => k = .sph
  | _, _ => true

/-- a call returns a vector with the property, or NaN, or raises something other than a failed range check -/
def NoCheck {A : FltArith} (P : Pos (Flt A) → Prop) (r : Res (Pos (Flt A))) : Prop :=
  (∀ q, r = .ok q → P q) ∧ r ≠ .error .check

end Spec

open Spec

variable {A : FltArith}

/-! ### arithmetic -/

theorem FltArith.fl_zero : A.fl 0 = 0 := by simpa using A.small 0 (by decide)
theorem FltArith.fl_nonneg {x : ℝ} (h : 0 ≤ x) : 0 ≤ A.fl x := by rw [← A.fl_zero]; exact A.mono h
theorem FltArith.fl_le {x : ℝ} {y : Flt A} (h : x ≤ y.val) : A.fl x ≤ y.val := by rw [← y.rep]; exact A.mono h
theorem FltArith.le_fl {x : ℝ} {y : Flt A} (h : y.val ≤ x) : y.val ≤ A.fl x := by rw [← y.rep]; exact A.mono h
theorem FltArith.fl_le' {x y : ℝ} (h : x ≤ y) (hy : A.fl y = y) : A.fl x ≤ y := by rw [← hy]; exact A.mono h
theorem FltArith.le_fl' {x y : ℝ} (h : y ≤ x) (hy : A.fl y = y) : y ≤ A.fl x := by rw [← hy]; exact A.mono h

theorem val_zero : (nat 0 : Flt A).val = 0 := by
  show A.fl ((0 : ℕ) : ℝ) = 0
  simpa using A.small 0 (by decide)
theorem val_pi : (pi : Flt A).val = A.piF := A.fl_pi
theorem val_neg (a : Flt A) : (-a).val = -a.val := by
  show A.fl (-a.val) = _
  rw [A.odd, a.rep]
theorem val_abs (a : Flt A) : (Num.abs a).val = |a.val| := by
  show A.fl |a.val| = _
  rcases abs_choice a.val with h | h <;> rw [h]
  · exact a.rep
  · rw [A.odd, a.rep]

theorem mod_range (x : ℝ) : 0 ≤ A.modF x ∧ A.modF x < 2 * A.piF := by
  have hm : 0 < 2 * A.piF := by have := A.pi_pos; linarith
  have h1 := Int.floor_le (x / (2 * A.piF))
  have h2 := Int.lt_floor_add_one (x / (2 * A.piF))
  rw [le_div_iff₀ hm] at h1
  rw [div_lt_iff₀ hm] at h2
  unfold FltArith.modF
  constructor <;> nlinarith

theorem wrap_rangeF (a : Flt A) : 0 ≤ (wrap a).val ∧ (wrap a).val ≤ 2 * A.piF :=
  ⟨A.fl_nonneg (mod_range a.val).1, A.fl_le' (mod_range a.val).2.le A.fl_two⟩

theorem val_half {h : Flt A} (e : (halfPi : Res (Flt A)) = .ok h) : h.val = A.piF / 2 := by
  have h2 : (nat 2 : Flt A).val = 2 := by
    show A.fl ((2 : ℕ) : ℝ) = 2
    simpa using A.small 2 (by decide)
  unfold halfPi at e
  change (if (nat 2 : Flt A).val = 0 then _ else _) = _ at e
  rw [if_neg (by rw [h2]; norm_num)] at e
  obtain rfl := Except.ok.inj e
  show A.fl ((pi : Flt A).val / (nat 2 : Flt A).val) = _
  rw [val_pi, h2, A.fl_half]

theorem half_okF : ∃ h, (halfPi : Res (Flt A)) = .ok h := by
  have h2 : (nat 2 : Flt A).val = 2 := by
    show A.fl ((2 : ℕ) : ℝ) = 2
    simpa using A.small 2 (by decide)
  refine ⟨A.rnd ((pi : Flt A).val / (nat 2 : Flt A).val), ?_⟩
  show (if (nat 2 : Flt A).val = 0 then _ else _) = _
  rw [if_neg (by rw [h2]; norm_num)]

theorem sqrt_nonneg {a b : Flt A} (h : Num.sqrt a = .ok b) : 0 ≤ b.val := by
  change (if a.val < 0 then _ else _) = _ at h
  split at h
  · cases h
  · obtain rfl := Except.ok.inj h
    exact A.fl_nonneg (Real.sqrt_nonneg _)

theorem acos_rangeF {a b : Flt A} (h : Num.acos a = .ok b) : 0 ≤ b.val ∧ b.val ≤ A.piF := by
  change (if a.val < -1 ∨ 1 < a.val then _ else _) = _ at h
  split at h
  · cases h
  · rename_i hc
    push Not at hc
    obtain rfl := Except.ok.inj h
    obtain ⟨h1, h2⟩ := A.acos_range a.val hc.1 hc.2
    exact ⟨A.fl_nonneg h1, A.fl_le' h2 A.fl_pi⟩

theorem div_nonnegF {a b c : Flt A} (ha : 0 ≤ a.val) (hb : 0 ≤ b.val) (h : Num.div a b = .ok c) : 0 ≤ c.val := by
  change (if b.val = 0 then _ else _) = _ at h
  split at h
  · cases h
  · obtain rfl := Except.ok.inj h
    exact A.fl_nonneg (div_nonneg ha hb)

/-! ### calls that do not fail a check -/

section
variable {P : Pos (Flt A) → Prop}

theorem nc_ok {q : Pos (Flt A)} (h : P q) : NoCheck P (.ok q) := ⟨fun _ e => Except.ok.inj e ▸ h, fun e => by cases e⟩
theorem nc_err {e : Err} (h : e ≠ .check) : NoCheck P (.error e) := ⟨(fun _ e => by cases e), fun e' => h (Except.error.inj e')⟩

theorem nc_bind {β : Type} {x : Res β} {f : β → Res (Pos (Flt A))} (hx : x ≠ .error .check)
    (h : ∀ b, x = .ok b → NoCheck P (f b)) : NoCheck P (x >>= f) := by
  cases x with
  | error e => exact nc_err fun e' => hx (by rw [e'])
  | ok b => exact h b rfl

theorem nc_bindP {Q : Pos (Flt A) → Prop} {x : Res (Pos (Flt A))} {f : Pos (Flt A) → Res (Pos (Flt A))} (hx : NoCheck Q x)
    (h : ∀ b, x = .ok b → Q b → NoCheck P (f b)) : NoCheck P (x >>= f) :=
  nc_bind hx.2 fun b e => h b e (hx.1 b e)

theorem ne_sqrt (a : Flt A) : Num.sqrt a ≠ .error .check := by
  intro h; change (if a.val < 0 then _ else _) = _ at h
  split at h <;> cases h
theorem ne_div (a b : Flt A) : Num.div a b ≠ .error .check := by
  intro h; change (if b.val = 0 then _ else _) = _ at h
  split at h <;> cases h
theorem ne_acos (a : Flt A) : Num.acos a ≠ .error .check := by
  intro h; change (if a.val < -1 ∨ 1 < a.val then _ else _) = _ at h
  split at h <;> cases h
theorem ne_atan2 (a b : Flt A) : Num.atan2 a b ≠ .error .check := fun h => by cases h
theorem ne_half : (halfPi : Res (Flt A)) ≠ .error .check := ne_div _ _
theorem ne_distance (r : Dist (Flt A)) : r.distance ≠ .error .check := by
  intro h
  cases r with
  | dist d => cases h
  | par p => exact ne_div _ _ (show Num.div (nat 1) (A.rnd (A.tanF p.val)) = .error .check from h)
  | dm m =>
    have h : (do let e ← Num.div m (nat 5); let pc ← pcAU; return pow10 (e + nat 1) * pc : Res (Flt A)) = .error .check := h
    cases h1 : Num.div m (nat 5) with
    | error e => rw [h1] at h; exact ne_div _ _ (h1.trans h)
    | ok e =>
      rw [h1, ok_bind] at h
      cases h2 : (pcAU : Res (Flt A)) with
      | error e => rw [h2] at h; exact ne_div _ _ (h2.trans h)
      | ok e => rw [h2] at h; cases h
theorem ne_asLength (r : Dist (Flt A)) : r.asLength ≠ .error .check := by
  intro h; cases r <;> cases h

theorem checkNonNeg_okF {x : Flt A} (h : 0 ≤ x.val) : checkNonNeg x = .ok () := by
  unfold checkNonNeg
  rw [if_neg]
  show ¬ decide (x.val < (nat 0 : Flt A).val) = true
  rw [val_zero]
  simpa using h

theorem checkRange_okF {x lo hi : Flt A} (h1 : lo.val ≤ x.val) (h2 : x.val ≤ hi.val) : checkRange x lo hi = .ok () := by
  unfold checkRange
  rw [if_neg]
  show ¬ (decide (x.val < lo.val) || decide (hi.val < x.val)) = true
  simp [h1, h2]

end

/-- ranges, and the azimuth if `b` -/
def GoodF (b : Prop) (p : Pos (Flt A)) : Prop := RangesF p ∧ (b → AzimuthF p)

/-- azimuth arguments -/
def AzOk (b : Prop) : AzArg (Flt A) → Prop
  | .qty _ => True
  | .angle x => b → 0 ≤ x.val ∧ x.val ≤ 2 * A.piF

theorem AzOk.convert {b : Prop} {x : AzArg (Flt A)} (h : AzOk b x) : b → 0 ≤ x.convert.val ∧ x.convert.val ≤ 2 * A.piF := by
  cases x with
  | qty x => exact fun _ => wrap_rangeF x
  | angle x => exact h

variable {b : Prop}

theorem nc_radial {r : Dist (Flt A)} (h : 0 ≤ r.raw.val) : NoCheck (GoodF b) (mkRadial r) := by
  unfold mkRadial; rw [checkNonNeg_okF h]; exact nc_ok ⟨h, fun _ => trivial⟩
theorem nc_polar {r : Dist (Flt A)} {φ : AzArg (Flt A)} (h : 0 ≤ r.raw.val) (a : AzOk b φ) : NoCheck (GoodF b) (mkPolar r φ) := by
  unfold mkPolar; rw [checkNonNeg_okF h]; exact nc_ok ⟨h, a.convert⟩
theorem nc_cyl {ρ z : Flt A} {φ : AzArg (Flt A)} (h : 0 ≤ ρ.val) (a : AzOk b φ) : NoCheck (GoodF b) (mkCyl ρ φ z) := by
  unfold mkCyl; rw [checkNonNeg_okF h]; exact nc_ok ⟨h, a.convert⟩
theorem nc_sph {r : Dist (Flt A)} {θ : Flt A} {φ : AzArg (Flt A)} (h : 0 ≤ r.raw.val) (h1 : 0 ≤ θ.val) (h2 : θ.val ≤ A.piF)
    (a : AzOk b φ) : NoCheck (GoodF b) (mkSph r θ φ) := by
  unfold mkSph
  rw [checkNonNeg_okF h, checkRange_okF (by rw [val_zero]; exact h1) (by rw [val_pi]; exact h2)]
  exact nc_ok ⟨⟨h, h1, h2⟩, a.convert⟩
theorem nc_math {r : Dist (Flt A)} {φ : Flt A} {θ : AzArg (Flt A)} (h : 0 ≤ r.raw.val) (h1 : 0 ≤ φ.val) (h2 : φ.val ≤ A.piF)
    (a : AzOk b θ) : NoCheck (GoodF b) (mkMath r θ φ) := by
  unfold mkMath
  rw [checkNonNeg_okF h, checkRange_okF (by rw [val_zero]; exact h1) (by rw [val_pi]; exact h2)]
  exact nc_ok ⟨⟨h, h1, h2⟩, a.convert⟩
theorem nc_lonlat {d : Dist (Flt A)} {lat : Flt A} {lon : AzArg (Flt A)} (h : 0 ≤ d.raw.val) (h1 : -(A.piF / 2) ≤ lat.val)
    (h2 : lat.val ≤ A.piF / 2) (a : AzOk b lon) : NoCheck (GoodF b) (mkLonLat lon lat d) := by
  unfold mkLonLat
  refine nc_bind ne_half fun hp e => ?_
  have hv := val_half e
  rw [checkRange_okF (by rw [val_neg, hv]; exact h1) (by rw [hv]; exact h2), checkNonNeg_okF h]
  exact nc_ok ⟨⟨h, h1, h2⟩, a.convert⟩

/-! ### rules -/

theorem mul_self_fl (x : Flt A) : 0 ≤ (x * x).val := A.fl_nonneg (mul_self_nonneg _)

theorem nc_cart3ToCyl (x y z : Flt A) : NoCheck (GoodF b) (cart3ToCyl x y z) :=
  nc_bind (ne_sqrt _) fun _ e => nc_bind (ne_atan2 _ _) fun _ _ => nc_cyl (sqrt_nonneg e) trivial
theorem nc_cart3ToSph (x y z : Flt A) : NoCheck (GoodF b) (cart3ToSph x y z) :=
  nc_bind (ne_sqrt _) fun _ e => nc_bind (ne_div _ _) fun _ _ => nc_bind (ne_acos _) fun _ e' => nc_bind (ne_atan2 _ _) fun _ _ =>
    nc_sph (sqrt_nonneg e) (acos_rangeF e').1 (acos_rangeF e').2 trivial
theorem nc_cylToSph {ρ φ z : Flt A} (a : AzOk b (.angle φ)) : NoCheck (GoodF b) (cylToSph ρ φ z) :=
  nc_bind (ne_sqrt _) fun _ e => nc_bind (ne_div _ _) fun _ _ => nc_bind (ne_acos _) fun _ e' =>
    nc_sph (sqrt_nonneg e) (acos_rangeF e').1 (acos_rangeF e').2 a
theorem nc_cart3 (x y z : Flt A) : NoCheck (GoodF b) (mkCart3 x y z) := nc_ok ⟨trivial, fun _ => trivial⟩
theorem nc_cart2 (x y : Flt A) : NoCheck (GoodF b) (mkCart2 x y) := nc_ok ⟨trivial, fun _ => trivial⟩
theorem nc_cart1 (x : Flt A) : NoCheck (GoodF b) (mkCart1 x) := nc_ok ⟨trivial, fun _ => trivial⟩

theorem nc_sphToCyl {r : Dist (Flt A)} {θ φ : Flt A} (a : AzOk b (.angle φ)) : NoCheck (GoodF b) (sphToCyl r θ φ) :=
  nc_bind (ne_distance _) fun _ _ => nc_cyl (by rw [val_abs]; exact abs_nonneg _) a
theorem nc_mathToCyl {r : Dist (Flt A)} {θ φ : Flt A} (a : AzOk b (.angle θ)) : NoCheck (GoodF b) (mathToCyl r θ φ) :=
  nc_bind (ne_distance _) fun _ _ => nc_cyl (by rw [val_abs]; exact abs_nonneg _) a

theorem fl_neg_half : A.fl (-(A.piF / 2)) = -(A.piF / 2) := by rw [A.odd, A.fl_half]

theorem nc_sphToLonLat {r : Dist (Flt A)} {θ φ : Flt A} (h : RangesF (.sph r θ φ)) (a : AzOk b (.angle φ)) :
    NoCheck (GoodF b) (sphToLonLat r θ φ) := by
  obtain ⟨h0, h1, h2⟩ := h
  refine nc_bind ne_half fun hp e => nc_lonlat h0 ?_ ?_ a
  · show _ ≤ A.fl (hp.val - θ.val)
    rw [val_half e]
    exact A.le_fl' (by linarith) fl_neg_half
  · show A.fl (hp.val - θ.val) ≤ _
    rw [val_half e]
    exact A.fl_le' (by linarith) A.fl_half

theorem nc_lonlatToSph {lon lat : Flt A} {d : Dist (Flt A)} (h : RangesF (.lonlat lon lat d)) (a : AzOk b (.angle lon)) :
    NoCheck (GoodF b) (lonlatToSph lon lat d) := by
  obtain ⟨h0, h1, h2⟩ := h
  refine nc_bind ne_half fun hp e => nc_sph h0 ?_ ?_ a
  · show _ ≤ A.fl (hp.val - lat.val)
    rw [val_half e]
    exact A.fl_nonneg (by linarith)
  · show A.fl (hp.val - lat.val) ≤ _
    rw [val_half e]
    exact A.fl_le' (by linarith) A.fl_pi

theorem nc_prolateToCyl {mu nu φ d : Flt A} (a : AzOk b (.angle φ)) : NoCheck (GoodF b) (prolateToCyl mu nu φ d) :=
  nc_bind (ne_div _ _) fun _ _ => nc_bind (ne_sqrt _) fun _ e => nc_bind (ne_sqrt _) fun _ _ => nc_cyl (sqrt_nonneg e) a

theorem nc_cart2ToPolar (x y : Flt A) : NoCheck (GoodF b) (cart2ToPolar x y) :=
  nc_bind (ne_sqrt _) fun _ e => nc_bind (ne_atan2 _ _) fun _ _ => nc_polar (r := .dist _) (sqrt_nonneg e) trivial

theorem two_pi_val : (twoPi : Flt A).val = 2 * A.piF := by
  have h2 : (nat 2 : Flt A).val = 2 := by
    show A.fl ((2 : ℕ) : ℝ) = 2
    simpa using A.small 2 (by decide)
  show A.fl ((nat 2 : Flt A).val * (pi : Flt A).val) = _
  rw [h2, val_pi, A.fl_two]

theorem mapRaw_neg (r : Dist (Flt A)) : ((r.mapRaw fun v => -v).raw).val = -r.raw.val := by
  cases r <;> exact val_neg _

/-- the cascade of `from_`: any radius and any inclination end up in range -/
theorem incl_range (θ : Flt A) : let t := wrap θ
    0 ≤ (if lt t pi then t else twoPi - t : Flt A).val ∧ (if lt t pi then t else twoPi - t : Flt A).val ≤ A.piF := by
  intro t
  obtain ⟨h1, h2⟩ := wrap_rangeF θ
  split
  · rename_i h
    have h : decide (t.val < (pi : Flt A).val) = true := h
    rw [val_pi] at h
    exact ⟨h1, (of_decide_eq_true h).le⟩
  · rename_i h
    have h : ¬ decide (t.val < (pi : Flt A).val) = true := h
    rw [val_pi] at h
    have h3 : A.piF ≤ t.val := not_lt.mp fun h' => h (decide_eq_true h')
    constructor
    · show 0 ≤ A.fl ((twoPi : Flt A).val - t.val)
      rw [two_pi_val]
      exact A.fl_nonneg (sub_nonneg.mpr h2)
    · show A.fl ((twoPi : Flt A).val - t.val) ≤ _
      rw [two_pi_val]
      exact A.fl_le' (by linarith) A.fl_pi

theorem neg_radius (r : Dist (Flt A)) : 0 ≤ (if lt r.raw (nat 0) then r.mapRaw (fun v => -v) else r).raw.val := by
  split
  · rename_i h
    have h : decide (r.raw.val < (nat 0 : Flt A).val) = true := h
    rw [val_zero] at h
    rw [mapRaw_neg]
    linarith [of_decide_eq_true h]
  · rename_i h
    have h : ¬ decide (r.raw.val < (nat 0 : Flt A).val) = true := h
    rw [val_zero] at h
    exact not_lt.mp fun h' => h (decide_eq_true h')

theorem nc_sphFrom (r : Dist (Flt A)) (θ : Flt A) (φ : AzArg (Flt A)) : NoCheck (GoodF b) (sphFrom r θ φ) :=
  nc_sph (neg_radius r) (incl_range _).1 (incl_range _).2 trivial

theorem nc_mathFrom (r : Dist (Flt A)) (θ : AzArg (Flt A)) (φ : Flt A) : NoCheck (GoodF b) (mathFrom r θ φ) :=
  nc_math (neg_radius r) (incl_range _).1 (incl_range _).2 trivial

theorem nc_sphToPolar {d θ φ : Flt A} (hs : 0 ≤ A.sinF θ.val) (h : RangesF (.sph (.dist d) θ φ)) (a : AzOk b (.angle φ)) :
    NoCheck (GoodF b) (sphToPolar (.dist d) θ φ) :=
  nc_polar (r := .dist _) (A.fl_nonneg (mul_nonneg h.1 (A.fl_nonneg hs))) a

theorem asLength_nonneg {r : Dist (Flt A)} {d : Flt A} (h : 0 ≤ r.raw.val) (e : r.asLength = .ok d) : 0 ≤ d.val := by
  cases r with
  | dist x => obtain rfl := Except.ok.inj e; exact h
  | par x => cases e
  | dm x => cases e

/-! ### all conversions -/

theorem represent_noCheck (n : ℕ) : ∀ (kw : Kw (Flt A)) (p : Pos (Flt A)) (k : Kind), GoodF b p →
    (∀ x, p = .cart1 x → 0 ≤ x.val) → k ≠ .prolate → (k = .polar → PlaneOk p) → NoCheck (GoodF b) (represent n kw p k) := by
  induction n with
  | zero => intro kw p k _ _ _ _; exact nc_err (by decide)
  | succ n ih =>
    intro kw p k hp hx hk hl
    have ih' : ∀ (kw : Kw (Flt A)) (p : Pos (Flt A)) (k : Kind), GoodF b p → (∀ x, p ≠ .cart1 x) → k ≠ .prolate →
        (k = .polar → PlaneOk p) → NoCheck (GoodF b) (represent n kw p k) :=
      fun kw p k h1 h2 h3 h4 => ih kw p k h1 (fun x e => absurd e (h2 x)) h3 h4
    have two : ∀ (kw1 kw2 : Kw (Flt A)) (m : Kind), (∀ x, p ≠ .cart1 x) → m ≠ .prolate → m ≠ .polar → m ≠ .cart1 →
        (k = .polar → m = .cart2 ∨ m = .cart3) →
        NoCheck (GoodF b) (represent n kw1 p m >>= fun q => represent n kw2 q k) := by
      intro kw1 kw2 m h1 h2 h3 h4 h5
      refine nc_bindP (ih' kw1 p m hp h1 h2 fun e => absurd e h3) fun q e hq => ?_
      have hkq := represent_kind n kw1 p m q e
      refine ih' kw2 q k hq (fun x e => ?_) hk fun e => ?_
      · rw [e] at hkq; exact h4 hkq.symm
      · rcases h5 e with rfl | rfl <;> (cases q <;> first | trivial | cases hkq)
    cases p <;> cases k <;> simp only [represent]
    all_goals first
      | exact absurd rfl hk
      | with_reducible exact nc_err (by decide)
      | with_reducible exact nc_ok hp
      | (with_reducible refine two _ _ _ ?_ ?_ ?_ ?_ ?_
         · intro x e; cases e
         · decide
         · decide
         · decide
         · intro e; first | exact .inl rfl | exact .inr rfl | cases e)
      | with_reducible exact nc_cart3 _ _ _
      | with_reducible exact nc_cart2 _ _
      | with_reducible exact nc_cart1 _
      | with_reducible exact nc_cart3ToCyl _ _ _
      | with_reducible exact nc_cart3ToSph _ _ _
      | with_reducible exact nc_cart2ToPolar _ _
      | with_reducible exact nc_sphFrom _ _ _
      | with_reducible exact nc_mathFrom _ _ _
      | skip
    case succ.cart1.radial => exact nc_radial (r := .dist _) (hx _ rfl)
    case succ.cart1.polar => exact nc_polar (r := .dist _) (hx _ rfl) trivial
    case succ.cart1.cyl => exact nc_cyl (hx _ rfl) trivial
    case succ.radial.cart1 => exact nc_bind (ne_distance _) fun _ _ => nc_cart1 _
    case succ.radial.cart2 => exact nc_bind (ne_asLength _) fun _ _ => nc_cart2 _ _
    case succ.radial.cart3 => exact nc_bind (ne_asLength _) fun _ _ => nc_cart3 _ _ _
    case succ.radial.polar => exact nc_polar hp.1 trivial
    case succ.radial.cyl => exact nc_bind (ne_asLength _) fun _ e => nc_cyl (asLength_nonneg hp.1 e) trivial
    case succ.polar.cart1 => exact nc_bind (ne_asLength _) fun _ _ => nc_cart1 _
    case succ.polar.radial => exact nc_radial hp.1
    case succ.polar.cart2 => exact nc_bind (ne_distance _) fun _ _ => nc_cart2 _ _
    case succ.polar.cyl => exact nc_bind (ne_asLength _) fun _ e => nc_cyl (asLength_nonneg hp.1 e) hp.2
    case succ.cart2.radial => exact nc_bind (ne_sqrt _) fun _ e => nc_radial (r := .dist _) (sqrt_nonneg e)
    case succ.cart3.radial => exact nc_bind (ne_sqrt _) fun _ e => nc_radial (r := .dist _) (sqrt_nonneg e)
    case succ.cyl.radial => exact nc_radial (r := .dist _) hp.1
    case succ.cyl.polar => exact nc_polar (r := .dist _) hp.1 hp.2
    case succ.cyl.cart3 => exact nc_cart3 _ _ _
    case succ.cyl.sph => exact nc_cylToSph hp.2
    case succ.sph.cart1 => exact nc_bind (ne_asLength _) fun _ _ => nc_cart1 _
    case succ.sph.radial => exact nc_radial hp.1.1
    case succ.sph.cart2 => exact nc_bind (ne_asLength _) fun _ _ => nc_cart2 _ _
    case succ.sph.polar => obtain ⟨⟨d, rfl⟩, hs⟩ := hl rfl; exact nc_sphToPolar hs hp.1 hp.2
    case succ.sph.cart3 => exact nc_bind (ne_distance _) fun _ _ => nc_cart3 _ _ _
    case succ.sph.cyl => exact nc_sphToCyl hp.2
    case succ.sph.lonlat => exact nc_sphToLonLat hp.1 hp.2
    case succ.sph.math => exact nc_math hp.1.1 hp.1.2.1 hp.1.2.2 hp.2
    case succ.lonlat.sph => exact nc_lonlatToSph hp.1 hp.2
    case succ.math.cart1 => exact nc_bind (ne_asLength _) fun _ _ => nc_cart1 _
    case succ.math.radial => exact nc_radial hp.1.1
    case succ.math.cart2 => exact nc_bind (ne_asLength _) fun _ _ => nc_cart2 _ _
    case succ.math.polar => obtain ⟨⟨d, rfl⟩, hs⟩ := hl rfl; exact nc_sphToPolar hs hp.1 hp.2
    case succ.math.cart3 => exact nc_bind (ne_distance _) fun _ _ => nc_cart3 _ _ _
    case succ.math.cyl => exact nc_mathToCyl hp.2
    case succ.math.sph => exact nc_sph hp.1.1 hp.1.2.1 hp.1.2.2 hp.2
    case succ.prolate.cyl => exact nc_prolateToCyl hp.2

/-! ### vectors that are returned are in range -/

/-- a call returns nothing but vectors in range -/
def InRange (r : Res (Pos (Flt A))) : Prop := ∀ q, r = .ok q → RangesF q

theorem ir_ok {p : Pos (Flt A)} (h : RangesF p) : InRange (.ok p) := fun _ e => Except.ok.inj e ▸ h
theorem ir_err {e : Err} : InRange (A := A) (.error e) := fun _ e => by cases e
theorem ir_bind {β : Type} {x : Res β} {f : β → Res (Pos (Flt A))} (h : ∀ b, x = .ok b → InRange (f b)) : InRange (x >>= f) := by
  cases x with
  | error e => exact ir_err
  | ok b => exact h b rfl

theorem nonNeg_of {x : Flt A} {u : Unit} (h : checkNonNeg x = .ok u) : 0 ≤ x.val := by
  unfold checkNonNeg at h
  split at h
  · cases h
  · rename_i hc
    have hc : ¬ decide (x.val < (nat 0 : Flt A).val) = true := hc
    rw [val_zero] at hc
    exact not_lt.mp fun h' => hc (decide_eq_true h')

theorem range_of {x lo hi : Flt A} {u : Unit} (h : checkRange x lo hi = .ok u) : lo.val ≤ x.val ∧ x.val ≤ hi.val := by
  unfold checkRange at h
  split at h
  · cases h
  · rename_i hc
    have hc : ¬ (decide (x.val < lo.val) || decide (hi.val < x.val)) = true := hc
    simpa using hc

theorem ir_radial {r : Dist (Flt A)} : InRange (mkRadial r) := ir_bind fun _ e => ir_ok (nonNeg_of e)
theorem ir_polar {r : Dist (Flt A)} {φ : AzArg (Flt A)} : InRange (mkPolar r φ) := ir_bind fun _ e => ir_ok (nonNeg_of e)
theorem ir_cyl {ρ z : Flt A} {φ : AzArg (Flt A)} : InRange (mkCyl ρ φ z) := ir_bind fun _ e => ir_ok (nonNeg_of e)
theorem ir_sph {r : Dist (Flt A)} {θ : Flt A} {φ : AzArg (Flt A)} : InRange (mkSph r θ φ) :=
  ir_bind fun _ e => ir_bind fun _ e' => ir_ok ⟨nonNeg_of e, by
    have h := range_of e'; rw [val_zero, val_pi] at h; exact h⟩
theorem ir_math {r : Dist (Flt A)} {θ : AzArg (Flt A)} {φ : Flt A} : InRange (mkMath r θ φ) :=
  ir_bind fun _ e => ir_bind fun _ e' => ir_ok ⟨nonNeg_of e, by
    have h := range_of e'; rw [val_zero, val_pi] at h; exact h⟩
theorem ir_lonlat {d : Dist (Flt A)} {lon : AzArg (Flt A)} {lat : Flt A} : InRange (mkLonLat lon lat d) :=
  ir_bind fun _ e => ir_bind fun _ e' => ir_bind fun _ e'' => ir_ok ⟨nonNeg_of e'', by
    have h := range_of e'; rw [val_neg, val_half e] at h; exact h⟩
theorem ir_prolate {mu nu d : Flt A} {φ : AzArg (Flt A)} : InRange (mkProlate mu nu φ d) := by
  intro q h
  unfold mkProlate checkPos at h
  by_cases h0 : lt (nat 0) d = true
  · rw [if_pos h0] at h
    by_cases h1 : lt mu (d * d) = true
    · rw [if_pos h1] at h; cases h
    · rw [if_neg h1] at h
      by_cases h2 : lt (d * d) (Num.abs nu) = true
      · rw [if_pos h2] at h; cases h
      · rw [if_neg h2] at h
        obtain rfl := Except.ok.inj h
        change decide ((nat 0 : Flt A).val < d.val) = true at h0
        change ¬ decide (mu.val < A.fl (d.val * d.val)) = true at h1
        change ¬ decide (A.fl (d.val * d.val) < (Num.abs nu).val) = true at h2
        rw [val_zero] at h0
        rw [val_abs] at h2
        exact ⟨of_decide_eq_true h0, not_lt.mp fun h' => h1 (decide_eq_true h'), not_lt.mp fun h' => h2 (decide_eq_true h')⟩
  · rw [if_neg h0] at h; cases h

theorem represent_inRange (n : ℕ) : ∀ (kw : Kw (Flt A)) (p : Pos (Flt A)) (k : Kind), RangesF p → InRange (represent n kw p k) := by
  induction n with
  | zero => intro kw p k _; exact ir_err
  | succ n ih =>
    intro kw p k hp
    have two : ∀ (kw1 kw2 : Kw (Flt A)) (m : Kind),
        InRange (represent n kw1 p m >>= fun q => represent n kw2 q k) :=
      fun kw1 kw2 m => ir_bind fun q e => ih kw2 q k (ih kw1 p m hp q e)
    cases p <;> cases k <;> simp only [represent]
    all_goals first
      | with_reducible exact ir_err
      | with_reducible exact ir_ok hp
      | with_reducible exact two _ _ _
      | (cases kw.delta <;> first
          | with_reducible exact ir_err
          | with_reducible exact ir_ok hp
          | with_reducible exact two _ _ _
          | exact ir_bind fun _ _ => ir_bind fun _ _ => ir_bind fun _ _ => ir_bind fun _ _ => ir_bind fun _ _ => ir_prolate)
      | with_reducible exact ir_radial
      | with_reducible exact ir_polar
      | with_reducible exact ir_cyl
      | exact ir_sph
      | exact ir_math
      | exact ir_ok trivial
      | exact ir_bind fun _ _ => ir_ok trivial
      | exact ir_bind fun _ _ => ir_radial
      | exact ir_bind fun _ _ => ir_polar
      | exact ir_bind fun _ _ => ir_cyl
      | exact ir_bind fun _ _ => ir_sph
      | exact ir_bind fun _ _ => ir_lonlat
      | exact ir_bind fun _ _ => ir_bind fun _ _ => ir_cyl
      | exact ir_bind fun _ _ => ir_bind fun _ _ => ir_polar
      | exact ir_bind fun _ _ => ir_bind fun _ _ => ir_bind fun _ _ => ir_sph
      | exact ir_bind fun _ _ => ir_bind fun _ _ => ir_bind fun _ _ => ir_cyl
      | exact ir_bind fun _ _ => ir_bind fun _ _ => ir_bind fun _ _ => ir_bind fun _ _ => ir_sph
      | exact ir_polar
      | skip

/-! ### conversions that always return -/

/-- a call fails, if at all, with a failed range check -/
def OnlyCheck {β : Type} (r : Res β) : Prop := ∀ e, r = .error e → e = .check

theorem oc_ok {β : Type} {x : β} : OnlyCheck (.ok x) := fun _ e => by cases e
theorem oc_bind {β γ : Type} {x : Res β} {f : β → Res γ} (hx : OnlyCheck x) (h : ∀ b, x = .ok b → OnlyCheck (f b)) :
    OnlyCheck (x >>= f) := by
  cases x with
  | error e => exact fun e' h' => hx e' (by rw [error_bind] at h'; rw [Except.error.inj h'])
  | ok b => exact h b rfl
theorem oc_nonNeg (x : Flt A) : OnlyCheck (checkNonNeg x) := by
  unfold checkNonNeg; split
  · exact fun e h => (Except.error.inj h).symm
  · exact oc_ok
theorem oc_range (x lo hi : Flt A) : OnlyCheck (checkRange x lo hi) := by
  unfold checkRange; split
  · exact fun e h => (Except.error.inj h).symm
  · exact oc_ok
theorem oc_half : OnlyCheck (halfPi : Res (Flt A)) := by obtain ⟨h, e⟩ := half_okF (A := A); rw [e]; exact oc_ok
theorem oc_sqrt {a : Flt A} (h : 0 ≤ a.val) : OnlyCheck (Num.sqrt a) := by
  change OnlyCheck (if a.val < 0 then _ else _)
  rw [if_neg (not_lt.mpr h)]; exact oc_ok
theorem oc_radial {r : Dist (Flt A)} : OnlyCheck (mkRadial r) := oc_bind (oc_nonNeg _) fun _ _ => oc_ok
theorem oc_polar {r : Dist (Flt A)} {φ : AzArg (Flt A)} : OnlyCheck (mkPolar r φ) := oc_bind (oc_nonNeg _) fun _ _ => oc_ok
theorem oc_cyl {ρ z : Flt A} {φ : AzArg (Flt A)} : OnlyCheck (mkCyl ρ φ z) := oc_bind (oc_nonNeg _) fun _ _ => oc_ok
theorem oc_sph {r : Dist (Flt A)} {θ : Flt A} {φ : AzArg (Flt A)} : OnlyCheck (mkSph r θ φ) :=
  oc_bind (oc_nonNeg _) fun _ _ => oc_bind (oc_range _ _ _) fun _ _ => oc_ok
theorem oc_math {r : Dist (Flt A)} {θ : AzArg (Flt A)} {φ : Flt A} : OnlyCheck (mkMath r θ φ) :=
  oc_bind (oc_nonNeg _) fun _ _ => oc_bind (oc_range _ _ _) fun _ _ => oc_ok
theorem oc_lonlat {d : Dist (Flt A)} {lon : AzArg (Flt A)} {lat : Flt A} : OnlyCheck (mkLonLat lon lat d) :=
  oc_bind oc_half fun _ _ => oc_bind (oc_range _ _ _) fun _ _ => oc_bind (oc_nonNeg _) fun _ _ => oc_ok
theorem oc_cart1 {x : Flt A} : OnlyCheck (mkCart1 x) := oc_ok
theorem oc_cart2 {x y : Flt A} : OnlyCheck (mkCart2 x y) := oc_ok
theorem oc_cart3 {x y z : Flt A} : OnlyCheck (mkCart3 x y z) := oc_ok
theorem sum2_nonneg (x y : Flt A) : 0 ≤ (x * x + y * y).val := A.fl_nonneg (add_nonneg (mul_self_fl x) (mul_self_fl y))
theorem sum3_nonneg (x y z : Flt A) : 0 ≤ (x * x + y * y + z * z).val := A.fl_nonneg (add_nonneg (sum2_nonneg x y) (mul_self_fl z))

/-- conversions by one rule -/
theorem oc_one (n : ℕ) (kw : Kw (Flt A)) (p : Pos (Flt A)) (k : Kind) (h : Plain p.kind k = true) (hd : DistanceRadius p)
    (h1 : ¬ (p.kind = .cart2 ∧ k = .cyl)) (h2 : ¬ (p.kind = .polar ∧ k = .cart3)) (h3 : ¬ (p.kind = .cart3 ∧ k = .polar))
    (h4 : ¬ (p.kind = .lonlat ∧ k = .cart3)) (h5 : ¬ (p.kind = .lonlat ∧ k = .cyl)) : OnlyCheck (represent (n + 1) kw p k) := by
  cases p <;> cases k <;> simp only [represent]
  all_goals first
    | exact Bool.noConfusion h
    | with_reducible exact oc_ok
    | exact absurd ⟨rfl, rfl⟩ h1
    | exact absurd ⟨rfl, rfl⟩ h2
    | exact absurd ⟨rfl, rfl⟩ h3
    | exact absurd ⟨rfl, rfl⟩ h4
    | exact absurd ⟨rfl, rfl⟩ h5
    | with_reducible exact oc_cart1
    | with_reducible exact oc_cart2
    | with_reducible exact oc_cart3
    | with_reducible exact oc_radial
    | with_reducible exact oc_polar
    | with_reducible exact oc_cyl
    | exact oc_sph
    | exact oc_math
    | exact oc_bind (oc_sqrt (sum2_nonneg _ _)) fun _ _ => oc_radial
    | exact oc_bind (oc_sqrt (sum3_nonneg _ _ _)) fun _ _ => oc_radial
    | exact oc_bind (oc_sqrt (sum2_nonneg _ _)) fun _ _ => oc_bind oc_ok fun _ _ => oc_polar
    | exact oc_bind (oc_sqrt (sum2_nonneg _ _)) fun _ _ => oc_bind oc_ok fun _ _ => oc_cyl
    | exact oc_bind oc_half fun _ _ => oc_sph
    | exact oc_bind oc_half fun _ _ => oc_lonlat
    | (obtain ⟨d, rfl⟩ := hd; first
        | exact oc_cart1
        | exact oc_cart2
        | exact oc_cart3
        | exact oc_cyl
        | exact oc_polar
        | exact oc_bind oc_ok fun _ _ => oc_cart1
        | exact oc_bind oc_ok fun _ _ => oc_cart2
        | exact oc_bind oc_ok fun _ _ => oc_cart3
        | exact oc_bind oc_ok fun _ _ => oc_cyl
        | exact oc_bind oc_ok fun _ _ => oc_polar)
    | skip

theorem oc_two (n : ℕ) (kw kw1 kw2 : Kw (Flt A)) (p : Pos (Flt A)) (m k : Kind) (hm : OnlyCheck (represent (n + 1) kw1 p m))
    (hk : ∀ q, represent (n + 1) kw1 p m = .ok q → OnlyCheck (represent (n + 1) kw2 q k))
    (e : represent (n + 2) kw p k = (represent (n + 1) kw1 p m >>= fun q => represent (n + 1) kw2 q k)) :
    OnlyCheck (represent (n + 2) kw p k) := by
  rw [e]
  exact oc_bind hm hk

theorem oc_plain (n : ℕ) (kw : Kw (Flt A)) (p : Pos (Flt A)) (k : Kind) (h : Plain p.kind k = true) (hd : DistanceRadius p) :
    OnlyCheck (represent (n + 2) kw p k) := by
  have hkind : ∀ kw1 m q, represent (n + 1) kw1 p m = .ok q → q.kind = m := fun kw1 m q e => represent_kind (n + 1) kw1 p m q e
  by_cases h1 : p.kind = .cart2 ∧ k = .cyl
  · obtain ⟨h1, rfl⟩ := h1
    cases p <;> try cases h1
    refine oc_two n kw { z := some (orZero kw.z) } {} _ .cart3 .cyl (oc_one n _ _ _ rfl trivial ?_ ?_ ?_ ?_ ?_) (fun q e => ?_) (by conv_lhs => rw [represent])
    · simp [Pos.kind]
    · simp [Pos.kind]
    · simp [Pos.kind]
    · simp [Pos.kind]
    · simp [Pos.kind]
    · have hq := hkind _ _ _ e
      cases q <;> try cases hq
      exact oc_one n _ _ _ rfl trivial (by simp [Pos.kind]) (by simp [Pos.kind]) (by simp [Pos.kind]) (by simp [Pos.kind]) (by simp [Pos.kind])
  by_cases h2 : p.kind = .polar ∧ k = .cart3
  · obtain ⟨h2, rfl⟩ := h2
    cases p <;> try cases h2
    refine oc_two n kw { z := some (orZero kw.z) } {} _ .cyl .cart3 (oc_one n _ _ _ rfl hd ?_ ?_ ?_ ?_ ?_) (fun q e => ?_) (by conv_lhs => rw [represent])
    · simp [Pos.kind]
    · simp [Pos.kind]
    · simp [Pos.kind]
    · simp [Pos.kind]
    · simp [Pos.kind]
    · have hq := hkind _ _ _ e
      cases q <;> try cases hq
      exact oc_one n _ _ _ rfl trivial (by simp [Pos.kind]) (by simp [Pos.kind]) (by simp [Pos.kind]) (by simp [Pos.kind]) (by simp [Pos.kind])
  by_cases h3 : p.kind = .cart3 ∧ k = .polar
  · obtain ⟨h3, rfl⟩ := h3
    cases p <;> try cases h3
    refine oc_two n kw {} {} _ .cart2 .polar (oc_one n _ _ _ rfl hd ?_ ?_ ?_ ?_ ?_) (fun q e => ?_) (by conv_lhs => rw [represent])
    · simp [Pos.kind]
    · simp [Pos.kind]
    · simp [Pos.kind]
    · simp [Pos.kind]
    · simp [Pos.kind]
    · have hq := hkind _ _ _ e
      cases q <;> try cases hq
      exact oc_one n _ _ _ rfl trivial (by simp [Pos.kind]) (by simp [Pos.kind]) (by simp [Pos.kind]) (by simp [Pos.kind]) (by simp [Pos.kind])
  have sphD : ∀ kw1 q, p.kind = .lonlat → represent (n + 1) kw1 p .sph = .ok q → DistanceRadius q := by
    intro kw1 q e h
    cases p <;> try cases e
    obtain ⟨d, rfl⟩ := hd
    rw [represent] at h
    simp only [lonlatToSph, mkSph, bind_ok_iff] at h
    obtain ⟨_, _, _, _, _, _, h⟩ := h
    obtain rfl := Except.ok.inj h
    exact ⟨d, rfl⟩
  by_cases h4 : p.kind = .lonlat ∧ k = .cart3
  · obtain ⟨h4, rfl⟩ := h4
    cases p <;> try cases h4
    refine oc_two n kw {} {} _ .sph .cart3 (oc_one n _ _ _ rfl hd ?_ ?_ ?_ ?_ ?_) (fun q e => ?_) (by conv_lhs => rw [represent])
    · simp [Pos.kind]
    · simp [Pos.kind]
    · simp [Pos.kind]
    · simp [Pos.kind]
    · simp [Pos.kind]
    · have hq := hkind _ _ _ e
      have hdq := sphD _ _ rfl e
      cases q <;> try cases hq
      exact oc_one n _ _ _ rfl hdq (by simp [Pos.kind]) (by simp [Pos.kind]) (by simp [Pos.kind]) (by simp [Pos.kind]) (by simp [Pos.kind])
  by_cases h5 : p.kind = .lonlat ∧ k = .cyl
  · obtain ⟨h5, rfl⟩ := h5
    cases p <;> try cases h5
    refine oc_two n kw {} {} _ .sph .cyl (oc_one n _ _ _ rfl hd ?_ ?_ ?_ ?_ ?_) (fun q e => ?_) (by conv_lhs => rw [represent])
    · simp [Pos.kind]
    · simp [Pos.kind]
    · simp [Pos.kind]
    · simp [Pos.kind]
    · simp [Pos.kind]
    · have hq := hkind _ _ _ e
      have hdq := sphD _ _ rfl e
      cases q <;> try cases hq
      exact oc_one n _ _ _ rfl hdq (by simp [Pos.kind]) (by simp [Pos.kind]) (by simp [Pos.kind]) (by simp [Pos.kind]) (by simp [Pos.kind])
  exact oc_one (n + 1) kw p k h hd h1 h2 h3 h4 h5

/-! ### inclinations -/

theorem radius_ge {s z : Flt A} (h : A.fl (z.val * z.val) ≤ s.val) : A.fl (Real.sqrt (A.fl (z.val * z.val))) ≤ A.fl (Real.sqrt s.val) :=
  A.mono (Real.sqrt_le_sqrt h)

theorem acos_quot_ok {s z r : Flt A} (hz : |z.val| ≤ A.fl (Real.sqrt (A.fl (z.val * z.val)))) (h : A.fl (z.val * z.val) ≤ s.val)
    (hr : r.val = A.fl (Real.sqrt s.val)) (h0 : r.val ≠ 0) : ∃ c θ, Num.div z r = .ok c ∧ Num.acos c = .ok θ := by
  have hle : |z.val| ≤ r.val := by rw [hr]; exact hz.trans (radius_ge h)
  have hpos : 0 < r.val := lt_of_le_of_ne ((abs_nonneg _).trans hle) (Ne.symm h0)
  obtain ⟨hl, hu⟩ := abs_le.mp hle
  have f1 : A.fl 1 = 1 := by simpa using A.small 1 (by decide)
  have c1 : -1 ≤ A.fl (z.val / r.val) := by
    have : A.fl (-1) = -1 := by rw [A.odd, f1]
    exact A.le_fl' (by rw [le_div_iff₀ hpos]; linarith) this
  have c2 : A.fl (z.val / r.val) ≤ 1 := A.fl_le' (by rw [div_le_iff₀ hpos]; linarith) f1
  refine ⟨A.rnd (z.val / r.val), A.rnd (A.acosF (A.fl (z.val / r.val))), ?_, ?_⟩
  · show (if r.val = 0 then _ else _) = _
    rw [if_neg h0]
  · show (if A.fl (z.val / r.val) < -1 ∨ 1 < A.fl (z.val / r.val) then _ else _) = _
    rw [if_neg (by push Not; exact ⟨c1, c2⟩)]
    rfl

theorem sqrt_ok {s : Flt A} (h : 0 ≤ s.val) : Num.sqrt s = .ok (A.rnd (Real.sqrt s.val)) := by
  show (if s.val < 0 then _ else _) = _
  rw [if_neg (not_lt.mpr h)]

theorem sq_le2 (x z : Flt A) : A.fl (z.val * z.val) ≤ (x * x + z * z).val := by
  show _ ≤ A.fl ((x * x).val + (z * z).val)
  have h := mul_self_fl x
  exact A.le_fl' (y := (z * z).val) (by linarith) (z * z).rep
theorem sq_le3 (x y z : Flt A) : A.fl (z.val * z.val) ≤ (x * x + y * y + z * z).val := by
  show _ ≤ A.fl ((x * x + y * y).val + (z * z).val)
  have h := sum2_nonneg x y
  exact A.le_fl' (y := (z * z).val) (by linarith) (z * z).rep

/-! ### theorems -/

/-- **C72.** Rounding never makes a conversion fail a range check: `vec.represent_as(target)` of a vector in range does not raise, whatever
the precision, except that the target must not be prolate spheroidal, the radius of a vector projected on a polar one must be a length,
and the sine of its inclination must not be negative. -/
theorem C72_no_spurious_raise (kw : Kw (Flt A)) (p : Pos (Flt A)) (k : Kind) (hp : RangesF p)
    (hx : ∀ x, p = .cart1 x → 0 ≤ x.val) (hk : k ≠ .prolate) (hl : k = .polar → PlaneOk p) :
    representAs kw p k ≠ .error .check :=
  (represent_noCheck (b := False) _ kw p k ⟨hp, fun h => h.elim⟩ hx hk hl).2

/-- **C72.** Whatever is returned, by any conversion in any precision, is in the documented range. -/
theorem C72_ranges (kw : Kw (Flt A)) (p q : Pos (Flt A)) (k : Kind) (hp : RangesF p) (h : representAs kw p k = .ok q) : RangesF q :=
  represent_inRange _ kw p k hp q h

/-- **C72.** The azimuth stays in `[0, 360]` deg. -/
theorem C72_azimuth (kw : Kw (Flt A)) (p q : Pos (Flt A)) (k : Kind) (hp : RangesF p) (ha : AzimuthF p)
    (hx : ∀ x, p = .cart1 x → 0 ≤ x.val) (hk : k ≠ .prolate) (hl : k = .polar → PlaneOk p)
    (h : representAs kw p k = .ok q) : AzimuthF q :=
  ((represent_noCheck (b := True) _ kw p k ⟨hp, fun _ => ha⟩ hx hk hl).1 q h).2 trivial

/-- **C72.** Conversions that compute no inclination from Cartesian or cylindrical coordinates always return, in any precision: no NaN and
no exception. -/
theorem C72_returns (kw : Kw (Flt A)) (p : Pos (Flt A)) (k : Kind) (hp : RangesF p)
    (hx : ∀ x, p = .cart1 x → 0 ≤ x.val) (hd : DistanceRadius p) (hk : Plain p.kind k = true)
    (hl : k = .polar → PlaneOk p) : ∃ q, representAs kw p k = .ok q ∧ q.kind = k ∧ RangesF q := by
  have hprol : k ≠ .prolate := by
    rintro rfl
    cases p <;> exact Bool.noConfusion hk
  have h1 := C72_no_spurious_raise kw p k hp hx hprol hl
  have h2 : OnlyCheck (represent (198 + 2) kw p k) := oc_plain 198 kw p k hk hd
  have h3 := fun q => C72_ranges kw p q k hp
  unfold representAs pyDepth at *
  have h4 := represent_kind 200 kw p k
  generalize represent 200 kw p k = r at *
  cases r with
  | error e => exact absurd (h2 e rfl ▸ rfl) h1
  | ok q => exact ⟨q, rfl, h4 q rfl, h3 q rfl⟩

/-- the inclination of a Cartesian position -/
theorem cart3ToSph_ok {x y z : Flt A} (hz : |z.val| ≤ A.fl (Real.sqrt (A.fl (z.val * z.val))))
    (h0 : A.fl (Real.sqrt (x * x + y * y + z * z).val) ≠ 0) : ∃ q, cart3ToSph x y z = .ok q := by
  obtain ⟨c, θ, hc, hθ⟩ := acos_quot_ok (r := A.rnd (Real.sqrt (x * x + y * y + z * z).val)) hz (sq_le3 x y z) rfl h0
  have hn := nc_cart3ToSph (b := False) x y z
  unfold cart3ToSph at hn ⊢
  rw [sqrt_ok (sum3_nonneg x y z), ok_bind, hc, ok_bind, hθ, ok_bind, show Num.atan2 y x = .ok (A.rnd (A.atan2F y.val x.val)) from rfl,
    ok_bind] at hn ⊢
  have ho := oc_sph (r := .dist (A.rnd (Real.sqrt (x * x + y * y + z * z).val))) (θ := θ) (φ := .qty (A.rnd (A.atan2F y.val x.val)))
  generalize mkSph _ θ _ = r at hn ho
  cases r with
  | error e => exact absurd (ho e rfl ▸ rfl) hn.2
  | ok q => exact ⟨q, rfl⟩

theorem cylToSph_ok {ρ φ z : Flt A} (hz : |z.val| ≤ A.fl (Real.sqrt (A.fl (z.val * z.val))))
    (h0 : A.fl (Real.sqrt (ρ * ρ + z * z).val) ≠ 0) : ∃ q, cylToSph ρ φ z = .ok q := by
  obtain ⟨c, θ, hc, hθ⟩ := acos_quot_ok (r := A.rnd (Real.sqrt (ρ * ρ + z * z).val)) hz (sq_le2 ρ z) rfl h0
  have hn := nc_cylToSph (b := False) (ρ := ρ) (φ := φ) (z := z) fun h => h.elim
  unfold cylToSph at hn ⊢
  rw [sqrt_ok (sum2_nonneg ρ z), ok_bind, hc, ok_bind, hθ, ok_bind] at hn ⊢
  have ho := oc_sph (r := .dist (A.rnd (Real.sqrt (ρ * ρ + z * z).val))) (θ := θ) (φ := .angle φ)
  generalize mkSph _ θ _ = r at hn ho
  cases r with
  | error e => exact absurd (ho e rfl ▸ rfl) hn.2
  | ok q => exact ⟨q, rfl⟩

theorem div_zero_err {a b : Flt A} (h : b.val = 0) : Num.div a b = .error .nonFinite := by
  show (if b.val = 0 then _ else _) = _
  rw [if_pos h]

/-- **C72.** The inclination of a Cartesian or cylindrical position is a number, not a NaN from an arccosine of more than 1, iff the radius computed for it is
not zero. (`|z| ≤ fl (sqrt (fl (z * z)))` holds with equality in radix 2 unless `z * z` underflows.) -/
theorem C72_inclination_iff (kw : Kw (Flt A)) (x y z ρ φ : Flt A) (hz : |z.val| ≤ A.fl (Real.sqrt (A.fl (z.val * z.val)))) :
    ((∃ q, representAs kw (.cart3 x y z) .sph = .ok q) ↔ A.fl (Real.sqrt (x * x + y * y + z * z).val) ≠ 0) ∧
      ((∃ q, representAs kw (.cyl ρ φ z) .sph = .ok q) ↔ A.fl (Real.sqrt (ρ * ρ + z * z).val) ≠ 0) := by
  have e1 : representAs kw (.cart3 x y z) .sph = cart3ToSph x y z := by show represent (199 + 1) _ _ _ = _; rw [represent]
  have e2 : representAs kw (.cyl ρ φ z) .sph = cylToSph ρ φ z := by show represent (199 + 1) _ _ _ = _; rw [represent]
  rw [e1, e2]
  refine ⟨⟨fun ⟨q, h⟩ h0 => ?_, cart3ToSph_ok hz⟩, ⟨fun ⟨q, h⟩ h0 => ?_, cylToSph_ok hz⟩⟩
  · unfold cart3ToSph at h
    rw [sqrt_ok (sum3_nonneg x y z), ok_bind, div_zero_err h0] at h
    cases h
  · unfold cylToSph at h
    rw [sqrt_ok (sum2_nonneg ρ z), ok_bind, div_zero_err h0] at h
    cases h

/-- **C72, exception.** A position so close to the origin that the squares of its coordinates underflow has NaN for an inclination,
although it is not the origin. -/
theorem C72_underflow_nan (kw : Kw (Flt A)) (x y z : Flt A) (hx : A.fl (x.val * x.val) = 0) (hy : A.fl (y.val * y.val) = 0)
    (hz : A.fl (z.val * z.val) = 0) : representAs kw (.cart3 x y z) .sph = .error .nonFinite := by
  have e1 : representAs kw (.cart3 x y z) .sph = cart3ToSph x y z := by show represent (199 + 1) _ _ _ = _; rw [represent]
  have h2 : (x * x + y * y).val = 0 := by
    show A.fl ((x * x).val + (y * y).val) = 0
    rw [show (x * x).val = 0 from hx, show (y * y).val = 0 from hy, add_zero, A.fl_zero]
  have h3 : (x * x + y * y + z * z).val = 0 := by
    show A.fl ((x * x + y * y).val + (z * z).val) = 0
    rw [h2, show (z * z).val = 0 from hz, add_zero, A.fl_zero]
  rw [e1]
  unfold cart3ToSph
  rw [sqrt_ok (sum3_nonneg x y z), ok_bind, div_zero_err (by
    show A.fl (Real.sqrt (x * x + y * y + z * z).val) = 0
    rw [h3, Real.sqrt_zero, A.fl_zero])]
  rfl

/-- **C72.** `SphericalPos.from_` and `MathSphericalPos.from_` accept any radius and any angles, and return a position in range with an
azimuth in `[0, 360]` deg. -/
theorem C72_from_normalises (r : Dist (Flt A)) (θ : Flt A) (φ : AzArg (Flt A)) :
    (∃ q, sphFrom r θ φ = .ok q ∧ RangesF q ∧ AzimuthF q) ∧ (∃ q, mathFrom r φ θ = .ok q ∧ RangesF q ∧ AzimuthF q) := by
  constructor
  · have hn := nc_sphFrom (b := True) r θ φ
    have ho : OnlyCheck (sphFrom r θ φ) := oc_sph
    generalize sphFrom r θ φ = s at hn ho
    cases s with
    | error e => exact absurd (ho e rfl ▸ rfl) hn.2
    | ok q => exact ⟨q, rfl, (hn.1 q rfl).1, (hn.1 q rfl).2 trivial⟩
  · have hn := nc_mathFrom (b := True) r φ θ
    have ho : OnlyCheck (mathFrom r φ θ) := oc_math
    generalize mathFrom r φ θ = s at hn ho
    cases s with
    | error e => exact absurd (ho e rfl ▸ rfl) hn.2
    | ok q => exact ⟨q, rfl, (hn.1 q rfl).1, (hn.1 q rfl).2 trivial⟩

/-- **C72, exception.** The documented half-open range `[0, 360)` of the azimuth is not kept: a small negative azimuth is stored as exactly
360 deg. (So that reading the stored azimuth back in as a plain quantity changes it, to zero.) -/
theorem C72_azimuth_can_be_360 (ρ z ε : Flt A) (hρ : 0 ≤ ρ.val) (h0 : 0 < ε.val) (h1 : ε.val < 2 * A.piF)
    (he : A.fl (2 * A.piF - ε.val) = 2 * A.piF) :
    ∃ φ φ', mkCyl ρ (.qty (-ε)) z = .ok (.cyl ρ φ z) ∧ φ.val = 2 * A.piF ∧
      mkCyl ρ (.qty φ) z = .ok (.cyl ρ φ' z) ∧ φ'.val = 0 := by
  have hm : 0 < 2 * A.piF := by have := A.pi_pos; linarith
  have hw : (wrap (-ε)).val = 2 * A.piF := by
    show A.fl (A.modF (-ε).val) = _
    rw [val_neg]
    have hf : ⌊-ε.val / (2 * A.piF)⌋ = -1 := by
      rw [Int.floor_eq_iff]
      constructor
      · rw [le_div_iff₀ hm]; push_cast; linarith
      · rw [div_lt_iff₀ hm]; push_cast; linarith
    unfold FltArith.modF
    rw [hf, ← he]
    congr 1
    push_cast; rw [he]; ring
  refine ⟨wrap (-ε), wrap (wrap (-ε)), ?_, hw, ?_, ?_⟩
  · unfold mkCyl; rw [checkNonNeg_okF hρ]; rfl
  · unfold mkCyl; rw [checkNonNeg_okF hρ]; rfl
  · show A.fl (A.modF (wrap (-ε)).val) = 0
    rw [hw]
    unfold FltArith.modF
    rw [div_self hm.ne', Int.floor_one]
    simp [A.fl_zero]

/-- **C72, exception.** Without the hypothesis on the sine a projection does fail a check: where `sin(180 deg)` rounds to a negative number, as in
`float32`, a position on the negative `z` axis cannot be projected on the plane (`transform/d3.py` 360-385). -/
theorem C72_sine_negative_raises (kw : Kw (Flt A)) (d θ φ : Flt A) (h : A.fl (d.val * A.fl (A.sinF θ.val)) < 0) :
    representAs kw (.sph (.dist d) θ φ) .polar = .error .check := by
  have e1 : representAs kw (.sph (.dist d) θ φ) .polar = sphToPolar (.dist d) θ φ := by
    show represent (199 + 1) _ _ _ = _; rw [represent]
  rw [e1]
  show mkPolar (.dist (d * sin θ)) (.angle φ) = _
  unfold mkPolar checkNonNeg
  rw [if_pos]
  · rfl
  · show decide ((d * sin θ).val < (nat 0 : Flt A).val) = true
    rw [val_zero]
    exact decide_eq_true h

/-! ### a concrete arithmetic

Multiples of 1/8 below 4 (rounded towards zero), multiples of 1/2 from 4 on (rounded to
nearest), and `180 deg` either below or above `π`. The hypotheses above are met, and so are those of the exceptions. -/

namespace FltExample

/-- rounding of nonnegative numbers -/
noncomputable def g (x : ℝ) : ℝ := if x < 4 then (⌊8 * x⌋ : ℝ) / 8 else (⌊2 * x + 1 / 2⌋ : ℝ) / 2
/-- rounding -/
noncomputable def fl (x : ℝ) : ℝ := if 0 ≤ x then g x else -g (-x)

theorem g_lo {x : ℝ} (h : x < 4) : g x ≤ x := by
  unfold g; rw [if_pos h]
  have := Int.floor_le (8 * x)
  linarith
theorem g_hi {x : ℝ} (h : 4 ≤ x) : 4 ≤ g x := by
  unfold g; rw [if_neg (not_lt.mpr h)]
  have : (8 : ℤ) ≤ ⌊2 * x + 1 / 2⌋ := by rw [Int.le_floor]; push_cast; linarith
  have : ((8 : ℤ) : ℝ) ≤ (⌊2 * x + 1 / 2⌋ : ℝ) := by exact_mod_cast this
  push_cast at this; linarith
theorem g_nonneg {x : ℝ} (h : 0 ≤ x) : 0 ≤ g x := by
  by_cases h4 : x < 4
  · unfold g; rw [if_pos h4]
    have : (0 : ℤ) ≤ ⌊8 * x⌋ := by rw [Int.le_floor]; push_cast; linarith
    have : (0 : ℝ) ≤ (⌊8 * x⌋ : ℝ) := by exact_mod_cast this
    linarith
  · linarith [g_hi (not_lt.mp h4)]
theorem g_mono {x y : ℝ} (h : x ≤ y) : g x ≤ g y := by
  by_cases hy : y < 4
  · have hx : x < 4 := lt_of_le_of_lt h hy
    unfold g; rw [if_pos hx, if_pos hy]
    have : (⌊8 * x⌋ : ℝ) ≤ ⌊8 * y⌋ := by exact_mod_cast Int.floor_le_floor (by linarith : 8 * x ≤ 8 * y)
    linarith
  · by_cases hx : x < 4
    · linarith [g_lo hx, g_hi (not_lt.mp hy)]
    · unfold g; rw [if_neg hx, if_neg hy]
      have : (⌊2 * x + 1 / 2⌋ : ℝ) ≤ ⌊2 * y + 1 / 2⌋ := by
        exact_mod_cast Int.floor_le_floor (by linarith : 2 * x + 1 / 2 ≤ 2 * y + 1 / 2)
      linarith
/-- multiples of 1/8 below 4 are representable -/
theorem g_eighth {n : ℤ} (h : n < 32) : g ((n : ℝ) / 8) = (n : ℝ) / 8 := by
  have h : (n : ℝ) < 32 := by exact_mod_cast h
  unfold g; rw [if_pos (by linarith), show 8 * ((n : ℝ) / 8) = n by ring, Int.floor_intCast]
/-- multiples of 1/2 from 4 on are representable -/
theorem g_half {n : ℤ} (h : 8 ≤ n) : g ((n : ℝ) / 2) = (n : ℝ) / 2 := by
  have h : (8 : ℝ) ≤ n := by exact_mod_cast h
  unfold g; rw [if_neg (by linarith)]
  rw [show 2 * ((n : ℝ) / 2) + 1 / 2 = (n : ℝ) + 1 / 2 by ring, show ⌊(n : ℝ) + 1 / 2⌋ = n by
    rw [Int.floor_eq_iff]; constructor <;> linarith]
theorem g_idem {x : ℝ} : g (g x) = g x := by
  by_cases h : x < 4
  · have e : g x = (⌊8 * x⌋ : ℝ) / 8 := by unfold g; rw [if_pos h]
    rw [e]
    refine g_eighth ?_
    rw [Int.floor_lt]; push_cast; linarith
  · have e : g x = (⌊2 * x + 1 / 2⌋ : ℝ) / 2 := by unfold g; rw [if_neg h]
    rw [e]
    refine g_half ?_
    rw [Int.le_floor]; push_cast; linarith [not_lt.mp h]

theorem fl_pos {x : ℝ} (h : 0 ≤ x) : fl x = g x := by unfold fl; rw [if_pos h]
theorem g_zero : g 0 = 0 := by simpa using g_eighth (n := 0) (by decide)
theorem fl_odd (x : ℝ) : fl (-x) = -fl x := by
  rcases lt_trichotomy x 0 with h | rfl | h
  · rw [fl_pos (by linarith)]; unfold fl; rw [if_neg (by linarith), neg_neg]
  · simp [fl_pos le_rfl, g_zero]
  · rw [fl_pos h.le]; unfold fl; rw [if_neg (by linarith), neg_neg]
theorem fl_mono : Monotone fl := by
  intro x y h
  by_cases hx : 0 ≤ x
  · rw [fl_pos hx, fl_pos (hx.trans h)]; exact g_mono h
  · by_cases hy : 0 ≤ y
    · have : fl x ≤ 0 := by unfold fl; rw [if_neg hx]; linarith [g_nonneg (x := -x) (by linarith)]
      exact this.trans (by rw [fl_pos hy]; exact g_nonneg hy)
    · unfold fl; rw [if_neg hx, if_neg hy]
      linarith [g_mono (show -y ≤ -x by linarith)]
theorem fl_idem (x : ℝ) : fl (fl x) = fl x := by
  by_cases hx : 0 ≤ x
  · rw [fl_pos hx, fl_pos (g_nonneg hx), g_idem]
  · have e : fl x = -fl (-x) := by rw [fl_odd, neg_neg]
    have h' : 0 ≤ -x := by linarith
    rw [e, fl_odd, fl_pos h', fl_pos (g_nonneg h'), g_idem]
theorem fl_eighth {n : ℕ} (h : n < 32) : fl ((n : ℝ) / 8) = (n : ℝ) / 8 := by
  rw [fl_pos (by positivity)]
  have := g_eighth (n := (n : ℤ)) (by exact_mod_cast h)
  rwa [Int.cast_natCast] at this
theorem fl_half {n : ℕ} (h : 8 ≤ n) : fl ((n : ℝ) / 2) = (n : ℝ) / 2 := by
  rw [fl_pos (by positivity)]
  have := g_half (n := (n : ℤ)) (by exact_mod_cast h)
  rwa [Int.cast_natCast] at this
theorem fl_small (n : ℕ) (h : n ≤ 4) : fl n = n := by
  by_cases h4 : n = 4
  · subst h4
    have := fl_half (n := 8) le_rfl
    norm_num at this ⊢
    exact this
  · have := fl_eighth (n := 8 * n) (by omega)
    rw [show (((8 * n : ℕ) : ℝ)) / 8 = n by push_cast; ring] at this
    exact this

/-- the arithmetic with a given value of `180 deg` -/
noncomputable def arith (m : ℕ) (h : m = 24 ∨ m = 28) : FltArith where
  fl := fl
  mono := fl_mono
  idem := fl_idem
  odd := fl_odd
  small := fl_small
  piF := (m : ℝ) / 8
  pi_pos := by rcases h with rfl | rfl <;> norm_num
  fl_pi := by rcases h with rfl | rfl <;> exact fl_eighth (by decide)
  fl_half := by
    rcases h with rfl | rfl
    · have := fl_eighth (n := 12) (by decide); norm_num at this ⊢; exact this
    · have := fl_eighth (n := 14) (by decide); norm_num at this ⊢; exact this
  fl_two := by
    rcases h with rfl | rfl
    · have := fl_half (n := 12) (by decide); norm_num at this ⊢; exact this
    · have := fl_half (n := 14) (by decide); norm_num at this ⊢; exact this
  sinF := Real.sin
  cosF := Real.cos
  tanF := Real.tan
  acosF c := min (Real.arccos c) ((m : ℝ) / 8)
  atan2F y x := Complex.arg ⟨x, y⟩
  pow10F x := (10 : ℝ) ^ x
  log10F x := Real.logb 10 x
  acos_range c _ _ := ⟨le_min (Real.arccos_nonneg c) (by positivity), min_le_right _ _⟩

/-- `180 deg` rounded down, as in `float64` -/
noncomputable abbrev down : FltArith := arith 24 (.inl rfl)
/-- `180 deg` rounded up, as in `float32` -/
noncomputable abbrev up : FltArith := arith 28 (.inr rfl)

theorem down_pi : down.piF = 3 := by show ((24 : ℕ) : ℝ) / 8 = 3; norm_num
theorem up_pi : up.piF = 7 / 2 := by show ((28 : ℕ) : ℝ) / 8 = 7 / 2; norm_num

/-- the sine hypothesis holds where `180 deg` is rounded down -/
theorem down_sine (θ : ℝ) (h0 : 0 ≤ θ) (h1 : θ ≤ down.piF) : 0 ≤ down.sinF θ := by
  rw [down_pi] at h1
  exact Real.sin_nonneg_of_nonneg_of_le_pi h0 (by linarith [Real.pi_gt_three])

/-- one eighth -/
noncomputable def eighth : Flt down := ⟨1 / 8, by
  have := fl_eighth (n := 1) (by decide); norm_num at this ⊢; exact this⟩
/-- two -/
noncomputable def two : Flt down := ⟨2, by have := fl_small 2 (by decide); norm_num at this ⊢; exact this⟩

theorem fl_two' : fl 2 = 2 := by have := fl_small 2 (by decide); norm_num at this ⊢; exact this
theorem fl_four' : fl 4 = 4 := by have := fl_small 4 (by decide); norm_num at this ⊢; exact this

/-- `C72_no_spurious_raise`, `C72_ranges`, `C72_azimuth`, `C72_returns`: a spherical position with inclination `2`, radius `2` -/
example : RangesF (.sph (.dist two) two two) ∧ AzimuthF (.sph (.dist two) two two) ∧ DistanceRadius (.sph (.dist two) two two) ∧
    Plain (Pos.sph (.dist two) two two).kind .polar = true := by
  refine ⟨⟨?_, ?_, ?_⟩, ⟨?_, ?_⟩, ⟨_, rfl⟩, rfl⟩ <;> simp only [two, Dist.raw, down_pi] <;> norm_num

/-- it is converted -/
example : ∃ q, representAs {} (.sph (.dist two) two two) .polar = .ok q ∧ q.kind = .polar ∧ RangesF q := by
  refine C72_returns {} _ _ ⟨?_, ?_, ?_⟩ (fun _ e => by cases e) ⟨_, rfl⟩ rfl fun _ => ⟨⟨_, rfl⟩, down_sine _ ?_ ?_⟩ <;> simp only [two, Dist.raw, down_pi] <;> norm_num

/-- `C72_inclination_iff`: the hypothesis on `z`, and a radius that is not zero -/
example : |two.val| ≤ down.fl (Real.sqrt (down.fl (two.val * two.val))) := by
  show |(2 : ℝ)| ≤ fl (Real.sqrt (fl (2 * 2)))
  rw [show (2 : ℝ) * 2 = 4 by norm_num, fl_four', show (4 : ℝ) = 2 ^ 2 by norm_num, Real.sqrt_sq (by norm_num), fl_two']
  norm_num

/-- `C72_underflow_nan`: one eighth of the way up the `z` axis -/
example : eighth.val ≠ 0 ∧ representAs {} (.cart3 (nat 0) (nat 0) eighth) .sph = .error .nonFinite := by
  have z : (nat 0 : Flt down).val = 0 := val_zero
  refine ⟨by norm_num [eighth], C72_underflow_nan {} _ _ _ ?_ ?_ ?_⟩
  · rw [z, mul_zero]; exact FltArith.fl_zero
  · rw [z, mul_zero]; exact FltArith.fl_zero
  · show fl (1 / 8 * (1 / 8)) = 0
    rw [fl_pos (by norm_num)]
    unfold g
    rw [if_pos (by norm_num), show ⌊8 * ((1 : ℝ) / 8 * (1 / 8))⌋ = 0 by rw [Int.floor_eq_iff]; norm_num]
    norm_num

/-- `C72_azimuth_can_be_360`: the azimuth `-1/8` -/
example : ∃ φ φ', mkCyl two (.qty (-eighth)) two = .ok (.cyl two φ two) ∧ φ.val = 2 * down.piF ∧
    mkCyl two (.qty φ) two = .ok (.cyl two φ' two) ∧ φ'.val = 0 := by
  refine C72_azimuth_can_be_360 two two eighth (by norm_num [two]) (by norm_num [eighth]) (by rw [down_pi]; norm_num [eighth]) ?_
  rw [down_pi]
  show fl (2 * 3 - 1 / 8) = 2 * 3
  rw [fl_pos (by norm_num)]
  unfold g
  rw [if_neg (by norm_num), show ⌊2 * ((2 : ℝ) * 3 - 1 / 8) + 1 / 2⌋ = 12 by rw [Int.floor_eq_iff]; norm_num]
  norm_num

/-- `C72_sine_negative_raises`: inclination `180 deg`, rounded up; the position is in range -/
example : ∃ d θ φ : Flt up, RangesF (.sph (.dist d) θ φ) ∧ representAs {} (.sph (.dist d) θ φ) .polar = .error .check := by
  have h2 : up.fl 2 = 2 := fl_two'
  have hp : up.fl (7 / 2) = 7 / 2 := by have := up.fl_pi; rw [up_pi] at this; exact this
  refine ⟨⟨2, h2⟩, ⟨7 / 2, hp⟩, ⟨2, h2⟩, ⟨?_, ?_, ?_⟩, C72_sine_negative_raises {} _ _ _ ?_⟩
  · norm_num [Dist.raw]
  · norm_num
  · rw [up_pi]
  · have hs : Real.sin (7 / 2) ≤ -(1 / 8) := by
      have h3 := Real.pi_gt_d2
      have h4 := Real.pi_lt_d2
      have h5 := Real.sin_gt_sub_cube (x := 7 / 2 - Real.pi) (by linarith)
      have h6 : Real.sin (7 / 2 - Real.pi) = -Real.sin (7 / 2) := Real.sin_sub_pi _
      rw [h6] at h5
      have h7 : (7 / 2 - Real.pi) ^ 3 ≤ (0.36 : ℝ) ^ 3 := pow_le_pow_left₀ (by linarith) (by linarith) 3
      norm_num at h7 h5 h3 ⊢
      linarith
    show fl (2 * fl (Real.sin (7 / 2))) < 0
    have e8 : fl (-(1 / 8)) = -(1 / 8) := by
      rw [fl_odd]; have := fl_eighth (n := 1) (by decide); norm_num at this ⊢; exact this
    have e4 : fl (-(1 / 4)) = -(1 / 4) := by
      rw [fl_odd]; have := fl_eighth (n := 2) (by decide); norm_num at this ⊢; exact this
    have a := fl_mono hs
    rw [e8] at a
    have b := fl_mono (show 2 * fl (Real.sin (7 / 2)) ≤ -(1 / 4) by linarith)
    rw [e4] at b
    linarith

end FltExample

end Verif
