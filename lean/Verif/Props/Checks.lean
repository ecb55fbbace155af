import Verif.Checks
import Mathlib.Data.EReal.Basic

/-!
# The range checks

C84: what the checks of `_src/vectors/checks.py` accept, for arrays of any shape, with NaN and infinities, in any units.
-/

namespace Verif

/-! ### Specification -/

/-- the extended real number, unless NaN -/
noncomputable def XNum.toE : XNum → Option EReal
  | .nan => none
  | .ninf => some ⊥
  | .pinf => some ⊤
  | .fin r => some (r : EReal)

/-- The physical value: the number in base units -/
def XQty.phys {ι : Type} (x : XQty ι) (i : ι) : XNum := (x.val i).scale x.factor

/-- The relation holds, or one of the two is NaN. -/
def HoldsOrNan (R : EReal → EReal → Prop) (a b : XNum) : Prop := ∀ u v, a.toE = some u → b.toE = some v → R u v

/-! ### Lemmas -/

theorem xlt_iff (a b : XNum) : a.lt b ↔ ∃ u v, a.toE = some u ∧ b.toE = some v ∧ u < v := by
  cases a <;> cases b <;> simp [XNum.lt, XNum.toE]

theorem xle_iff (a b : XNum) : a.le b ↔ ∃ u v, a.toE = some u ∧ b.toE = some v ∧ u ≤ v := by
  cases a <;> cases b <;> simp [XNum.le, XNum.toE]

theorem xlt_scale (a b : XNum) {s t : ℝ} (hs : 0 < s) : a.lt (b.scale (t / s)) ↔ (a.scale s).lt (b.scale t) := by
  cases a <;> cases b <;> simp only [XNum.lt, XNum.scale]
  rw [div_mul_eq_mul_div, lt_div_iff₀ hs, mul_comm s]

theorem xlt_scale' (a b : XNum) {s t : ℝ} (hs : 0 < s) : (b.scale (t / s)).lt a ↔ (b.scale t).lt (a.scale s) := by
  cases a <;> cases b <;> simp only [XNum.lt, XNum.scale]
  rw [div_mul_eq_mul_div, div_lt_iff₀ hs, mul_comm s]

theorem xle_scale (a b : XNum) {s t : ℝ} (hs : 0 < s) : a.le (b.scale (t / s)) ↔ (a.scale s).le (b.scale t) := by
  cases a <;> cases b <;> simp only [XNum.le, XNum.scale]
  rw [div_mul_eq_mul_div, le_div_iff₀ hs, mul_comm s]

theorem xle_scale' (a b : XNum) {s t : ℝ} (hs : 0 < s) : (b.scale (t / s)).le a ↔ (b.scale t).le (a.scale s) := by
  cases a <;> cases b <;> simp only [XNum.le, XNum.scale]
  rw [div_mul_eq_mul_div, div_le_iff₀ hs, mul_comm s]

theorem errorIfX_ok {ι o : Type} (x z : XQty ι) (pred : o → Prop) : errorIfX x pred = .ok z ↔ z = x ∧ ∀ k, ¬ pred k := by
  unfold errorIfX
  split
  · rename_i h
    constructor
    · intro h'; cases h'
    · rintro ⟨-, h'⟩; obtain ⟨k, hk⟩ := h; exact absurd hk (h' k)
  · rename_i h
    constructor
    · intro h'; exact ⟨(Except.ok.inj h').symm, fun k hk => h ⟨k, hk⟩⟩
    · rintro ⟨rfl, -⟩; rfl

theorem checkRelX_ok {ι κ o : Type} (l : o → ι) (r : o → κ) (rel : XNum → XNum → Prop) (x : XQty ι) (y : XQty κ) (z : XQty ι) :
    checkRelX l r rel x y = .ok z ↔ z = x ∧ x.dim = y.dim ∧ ∀ k, ¬ rel (x.val (l k)) (y.valIn x.factor (r k)) := by
  unfold checkRelX
  split
  · rename_i h
    exact ⟨fun h' => (nomatch h'), fun h' => absurd h'.2.1 h⟩
  · rename_i h
    rw [errorIfX_ok, not_ne_iff.1 h]; simp

theorem not_xlt (a b : XNum) : ¬ a.lt b ↔ HoldsOrNan (fun u v => v ≤ u) a b := by
  rw [xlt_iff]; unfold HoldsOrNan
  exact ⟨fun h u v hu hv => not_lt.1 fun hl => h ⟨u, v, hu, hv, hl⟩, fun h ⟨u, v, hu, hv, hl⟩ => absurd hl (not_lt.2 (h u v hu hv))⟩

theorem not_xle (a b : XNum) : ¬ a.le b ↔ HoldsOrNan (fun u v => v < u) a b := by
  rw [xle_iff]; unfold HoldsOrNan
  exact ⟨fun h u v hu hv => not_le.1 fun hl => h ⟨u, v, hu, hv, hl⟩, fun h ⟨u, v, hu, hv, hl⟩ => absurd hl (not_le.2 (h u v hu hv))⟩

theorem holds_swap {R : EReal → EReal → Prop} {a b : XNum} : HoldsOrNan R a b ↔ HoldsOrNan (fun u v => R v u) b a :=
  ⟨fun h u v hu hv => h v u hv hu, fun h u v hu hv => h v u hv hu⟩

/-! ### Theorems -/

section
variable {ι κ o : Type} (l : o → ι) (r : o → κ) (x z : XQty ι) (y : XQty κ)

/-- **C84**: the four comparisons return their argument unchanged, with its own shape and unit, exactly if the two Quantities have the same physical type and
the relation holds between the physical values, whatever the units, at every place of the broadcast arrays where neither is NaN. So NaN passes every check,
as value and as limit, and an empty array too. -/
theorem C84_compare (hx : 0 < x.factor) :
    (checkLtX l r x y = .ok z ↔ z = x ∧ x.dim = y.dim ∧ ∀ k, HoldsOrNan (· < ·) (x.phys (l k)) (y.phys (r k))) ∧
    (checkLeX l r x y = .ok z ↔ z = x ∧ x.dim = y.dim ∧ ∀ k, HoldsOrNan (· ≤ ·) (x.phys (l k)) (y.phys (r k))) ∧
    (checkGtX l r x y = .ok z ↔ z = x ∧ x.dim = y.dim ∧ ∀ k, HoldsOrNan (· > ·) (x.phys (l k)) (y.phys (r k))) ∧
    (checkGeX l r x y = .ok z ↔ z = x ∧ x.dim = y.dim ∧ ∀ k, HoldsOrNan (· ≥ ·) (x.phys (l k)) (y.phys (r k))) := by
  refine ⟨?_, ?_, ?_, ?_⟩
  · unfold checkLtX
    rw [checkRelX_ok]
    simp only [XQty.valIn, xle_scale' _ _ hx, not_xle]
    simp only [XQty.phys, holds_swap (R := fun u v : EReal => v < u)]
  · unfold checkLeX
    rw [checkRelX_ok]
    simp only [XQty.valIn, xlt_scale' _ _ hx, not_xlt]
    simp only [XQty.phys, holds_swap (R := fun u v : EReal => v ≤ u)]
  · unfold checkGtX
    rw [checkRelX_ok]
    simp only [XQty.valIn, xle_scale _ _ hx, not_xle]
    rfl
  · unfold checkGeX
    rw [checkRelX_ok]
    simp only [XQty.valIn, xlt_scale _ _ hx, not_xlt]
    rfl

theorem xzero_scale (s : ℝ) : (XNum.fin 0).scale s = .fin 0 := by simp [XNum.scale]

/-- **C84**: the comparisons with 0, for any physical type and unit. -/
theorem C84_zero (hx : 0 < x.factor) :
    (checkNonNegX x = .ok z ↔ z = x ∧ ∀ i, HoldsOrNan (· ≥ ·) (x.phys i) (.fin 0)) ∧
    (checkPosX x = .ok z ↔ z = x ∧ ∀ i, HoldsOrNan (· > ·) (x.phys i) (.fin 0)) := by
  have e1 : ∀ a : XNum, a.lt (.fin 0) ↔ (a.scale x.factor).lt (.fin 0) := fun a => by
    have := xlt_scale a (.fin 0) (t := 1) hx
    rwa [xzero_scale, xzero_scale] at this
  have e2 : ∀ a : XNum, a.le (.fin 0) ↔ (a.scale x.factor).le (.fin 0) := fun a => by
    have := xle_scale a (.fin 0) (t := 1) hx
    rwa [xzero_scale, xzero_scale] at this
  constructor
  · unfold checkNonNegX
    rw [errorIfX_ok]
    simp only [e1 (x.val _), not_xlt]
    rfl
  · unfold checkPosX
    rw [errorIfX_ok]
    simp only [e2 (x.val _), not_xle]
    rfl

/-- **C84**: the check of polar angles accepts angles, and of these exactly those whose value in radians is between the bounds, the bounds included, or
NaN. -/
theorem C84_polar (lo hi : ℝ) (hx : 0 < x.factor) :
    checkPolarX x lo hi = .ok z ↔ z = x ∧ x.dim = .ang ∧
      ∀ i, HoldsOrNan (· ≥ ·) (x.phys i) (.fin lo) ∧ HoldsOrNan (· ≤ ·) (x.phys i) (.fin hi) := by
  have hs : ∀ v, (XNum.fin v).scale 1 = .fin v := fun v => by simp [XNum.scale]
  unfold checkPolarX
  split
  · rename_i h
    exact ⟨fun h' => (nomatch h'), fun h' => absurd h'.2.1 h⟩
  · rename_i h
    rw [errorIfX_ok, not_ne_iff.1 h]
    simp only [XQty.valIn, radiansX, not_or, xlt_scale _ _ hx, xlt_scale' _ _ hx, not_xlt, hs]
    simp only [true_and, XQty.phys, holds_swap (R := fun u v : EReal => v ≤ u) (a := .fin hi)]

/-- **C84**: a value that is NaN everywhere, and an array without elements, pass every check of the right physical type. -/
theorem C84_nan (hx : 0 < x.factor) (h : ∀ i, x.val i = .nan) :
    (x.dim = y.dim → checkLtX l r x y = .ok x ∧ checkLeX l r x y = .ok x ∧ checkGtX l r x y = .ok x ∧ checkGeX l r x y = .ok x) ∧
    checkNonNegX x = .ok x ∧ checkPosX x = .ok x ∧ (x.dim = .ang → ∀ lo hi, checkPolarX x lo hi = .ok x) := by
  have hn : ∀ (R : EReal → EReal → Prop) i b, HoldsOrNan R (x.phys i) b := fun R i b u v hu => by
    unfold XQty.phys at hu
    rw [h i] at hu; cases hu
  have c := C84_compare l r x x y hx
  have d := C84_zero x x hx
  exact ⟨fun hd => ⟨c.1.2 ⟨rfl, hd, fun k => hn _ _ _⟩, c.2.1.2 ⟨rfl, hd, fun k => hn _ _ _⟩, c.2.2.1.2 ⟨rfl, hd, fun k => hn _ _ _⟩,
    c.2.2.2.2 ⟨rfl, hd, fun k => hn _ _ _⟩⟩, d.1.2 ⟨rfl, fun i => hn _ _ _⟩, d.2.2 ⟨rfl, fun i => hn _ _ _⟩,
    fun hd lo hi => (C84_polar x x lo hi hx).2 ⟨rfl, hd, fun i => ⟨hn _ _ _, hn _ _ _⟩⟩⟩

end

/-! ### Examples -/

/-- lengths 1 km and infinity, not below 2000 m; 1 km alone is below it -/
def xKm : XQty (Fin 2) := ⟨![.fin 1, .pinf], .length, 1000⟩
def xLim : XQty Unit := ⟨fun _ => .fin 2000, .length, 1⟩

example : checkLtX id (fun _ => ()) xKm xLim ≠ .ok xKm := fun h => by
  have := ((C84_compare id (fun _ => ()) xKm xKm xLim (by norm_num [xKm])).1.1 h).2.2 1 ⊤ (2000 : ℝ) rfl (by simp [xLim, XQty.phys, XNum.scale, XNum.toE])
  simp at this

example : checkLtX (fun _ : Unit => (0 : Fin 2)) id xKm xLim = .ok xKm :=
  (C84_compare _ _ xKm xKm xLim (by norm_num [xKm])).1.2 ⟨rfl, rfl, fun k u v hu hv => by
    simp [xKm, xLim, XQty.phys, XNum.scale, XNum.toE] at hu hv
    subst hu hv
    norm_num⟩

example : checkPosX (⟨fun _ => .nan, .length, 2⟩ : XQty (Fin 5)) = .ok ⟨fun _ => .nan, .length, 2⟩ :=
  (C84_nan id id _ ⟨fun _ => .nan, .length, 2⟩ (by norm_num) fun _ => rfl).2.2.1

end Verif
