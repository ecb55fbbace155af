import Verif.SimplifyTol
import Verif.Props.SimplifyExact

/-!
# C69: `simplify_op` with given tolerances

Specification: a *Galilean transformation* `x ↦ R x + d + (t + s) v, t ↦ t + s` for every operator (`Params`, `Params.apply`), and
the parameters that are left when negligible ones are replaced by trivial ones (`kept`).
-/

namespace Verif

open Spec

namespace Spec

/-- rotation, translation in space and time, velocity -/
structure Params where
  R : Mat3
  d : V3
  s : ℝ
  v : V3

/-- the transformation of an event -/
noncomputable def Params.apply (P : Params) (x : V3) (t : ℝ) : V3 × ℝ :=
  (((mulV P.R x).add P.d).add (V3.smul (t + P.s) P.v), t + P.s)

/-- every entry of `R` is that of the unit matrix up to `atol`, on the diagonal up to `atol + rtol` -/
def NearOne (τ : Tol) (R : Mat3) : Prop :=
  (∀ i, |R i i - 1| ≤ τ.atol + τ.rtol) ∧ ∀ i j, i ≠ j → |R i j| ≤ τ.atol

/-- every coordinate is at most `b` -/
def Within (w : V3) (b : ℝ) : Prop := |w.x| ≤ b ∧ |w.y| ≤ b ∧ |w.z| ≤ b

/-- the translation is negligible -/
def SmallShift (τ : Tol) (u : StoredUnits) (d : Four) : Prop :=
  |d.c * d.t| ≤ τ.atol * u.len ∧ Within (point d.q) (τ.atol * u.len)

open Classical in
/-- what is left of an operator -/
noncomputable def kept (τ : Tol) (u : StoredUnits) : Op → Params
  | .rotation R => ⟨if NearOne τ R then 1 else R, V3.zero, 0, V3.zero⟩
  | .spatial d => ⟨1, if Within (point d) (τ.atol * u.len) then V3.zero else point d, 0, V3.zero⟩
  | .translation d => ⟨1, if SmallShift τ u d then V3.zero else point d.q, if SmallShift τ u d then 0 else d.t, V3.zero⟩
  | .boost v => ⟨1, V3.zero, 0, if Within (velV v) (τ.atol * u.vel) then V3.zero else velV v⟩
  | .galilean R d v => ⟨if NearOne τ R then 1 else R, if SmallShift τ u d then V3.zero else point d.q,
      if SmallShift τ u d then 0 else d.t, if Within (velV v) (τ.atol * u.vel) then V3.zero else velV v⟩
  | _ => ⟨1, V3.zero, 0, V3.zero⟩

/-- the operators whose rules take keyword arguments -/
def TakesTolerances : Op → Prop
  | .identity => False
  | .pipe _ => False
  | _ => True

end Spec

theorem isCloseT_zero_div (τ : Tol) {l : ℝ} (hl : 0 < l) (x : ℝ) : isCloseT τ (x / l) 0 = true ↔ |x| ≤ τ.atol * l := by
  simp only [isCloseT, sub_zero, abs_zero, mul_zero, add_zero, decide_eq_true_eq]
  rw [abs_div, abs_of_pos hl, div_le_iff₀ hl]

theorem closeToZerosT_ok (τ : Tol) {n : ℕ} {xs : List ℝ} (h : xs.length = n) :
    closeToZerosT τ n xs = .ok (xs.all fun x => isCloseT τ x 0) := by
  unfold closeToZerosT; rw [if_pos (Or.inl h)]

open Classical in
theorem rotationT_eq (τ : Tol) (R : Mat3) : simplifyRotationT τ R = if NearOne τ R then .identity else .rotation R := by
  have key : ((List.finRange 3).all fun i => (List.finRange 3).all fun j =>
      isCloseT τ (R i j) (if i = j then 1 else 0)) = true ↔ NearOne τ R := by
    simp only [List.all_eq_true, List.mem_finRange, true_implies]
    constructor
    · intro h
      refine ⟨fun i => ?_, fun i j hij => ?_⟩
      · have := h i i; simpa [isCloseT] using this
      · have := h i j; simpa [isCloseT, hij] using this
    · rintro ⟨h1, h2⟩ i j
      by_cases hij : i = j
      · subst hij; simpa [isCloseT] using h1 i
      · simpa [isCloseT, hij] using h2 i j hij
  unfold simplifyRotationT
  by_cases h : NearOne τ R
  · rw [if_pos (key.mpr h), if_pos h]
  · rw [if_neg (fun e => h (key.mp e)), if_neg h]

open Classical in
theorem spatialT_eq (τ : Tol) {u : StoredUnits} (hu : 0 < u.len) {d : Pos ℝ} (hd : Valid3 d) :
    simplifySpatialT τ u d = .ok (if Within (point d) (τ.atol * u.len) then .identity else .spatial d) := by
  unfold simplifySpatialT
  rw [toQuantity3 hd, ok_bind, closeToZerosT_ok τ (n := 3) rfl, ok_bind]
  refine congrArg Except.ok (if_congr ?_ rfl rfl)
  simp [isCloseT_zero_div τ hu, Within]

open Classical in
theorem translationT_eq (τ : Tol) {u : StoredUnits} (hu : 0 < u.len) {d : Four} (hd : Valid3 d.q) :
    simplifyTranslationT τ u d = .ok (if SmallShift τ u d then .identity else .translation d) := by
  unfold simplifyTranslationT Four.toQuantity
  rw [toQuantity3 hd, ok_bind]
  simp only [pure, Except.pure, ok_bind]
  rw [closeToZerosT_ok τ (n := 4) rfl, ok_bind]
  refine congrArg Except.ok (if_congr ?_ rfl rfl)
  simp [isCloseT_zero_div τ hu, SmallShift, Within]

open Classical in
theorem velT_eq (τ : Tol) {u : StoredUnits} (hu : 0 < u.vel) {v : Vel ℝ} (hv : v.kind = .cart3) :
    velNegligibleT τ u v = .ok (decide (Within (velV v) (τ.atol * u.vel))) := by
  cases v <;> first | (cases hv; done) | skip
  unfold velNegligibleT velToQuantity
  rw [ok_bind, closeToZerosT_ok τ (n := 3) rfl]
  refine congrArg Except.ok ?_
  rw [Bool.eq_iff_iff, decide_eq_true_iff]
  simp [velV, isCloseT_zero_div τ hu, Within]

/-- on Cartesian positions a call is the action -/
theorem call_act (o : Op) (wo : WellFormed o) (x y z t : ℝ) : o.call (.posTime (.cart3 x y z) t) =
    .ok (.posTime (.cart3 (act o (⟨x, y, z⟩, t)).1.x (act o (⟨x, y, z⟩, t)).1.y (act o (⟨x, y, z⟩, t)).1.z)
      (act o (⟨x, y, z⟩, t)).2) := by
  have hq : Valid3 (.cart3 x y z) := ⟨trivial, rfl⟩
  obtain ⟨a, h1⟩ := call_total o wo _ t hq (Or.inl rfl)
  obtain ⟨q', t', rfl, m⟩ := call_sound o wo _ t a hq h1
  have hk := m.kind
  have ha := m.act
  cases q' <;> first | (cases hk; done) | skip
  rw [h1, show act o (⟨x, y, z⟩, t) = _ from ha.symm]
  rfl

open Classical in
theorem simplifyT_act (τ : Tol) (u : StoredUnits) (hl : 0 < u.len) (hv : 0 < u.vel) (op s : Op) (w : WellFormed op)
    (h : op.simplifyT τ u = .ok s) : WellFormed s ∧ ∀ x t, act s (x, t) = (kept τ u op).apply x t := by
  cases op with
  | identity => cases h
  | pipe ops => cases h
  | rotation R =>
    obtain rfl := Except.ok.inj h
    rw [rotationT_eq]
    split <;> rename_i hn
    · exact ⟨trivial, fun x t => by simp [act, kept, hn, Params.apply, mulV_one, v3_add_zero, smul_zero']⟩
    · exact ⟨trivial, fun x t => by simp [act, kept, hn, Params.apply, v3_add_zero, smul_zero']⟩
  | spatial d =>
    have w' : Valid3 d := w
    simp only [Op.simplifyT] at h
    rw [spatialT_eq τ hl w'] at h
    obtain rfl := Except.ok.inj h
    split <;> rename_i hn
    · exact ⟨trivial, fun x t => by simp [act, kept, hn, Params.apply, mulV_one, v3_add_zero, smul_zero']⟩
    · exact ⟨w, fun x t => by simp [act, kept, hn, Params.apply, mulV_one, v3_add_zero, smul_zero']⟩
  | translation d =>
    have w' : Valid3 d.q := w
    simp only [Op.simplifyT] at h
    rw [translationT_eq τ hl w'] at h
    obtain rfl := Except.ok.inj h
    split <;> rename_i hn
    · exact ⟨trivial, fun x t => by simp [act, kept, hn, Params.apply, mulV_one, v3_add_zero, smul_zero']⟩
    · exact ⟨w, fun x t => by simp [act, kept, hn, Params.apply, mulV_one, v3_add_zero, smul_zero']⟩
  | boost v =>
    have w' : v.kind = .cart3 := w
    simp only [Op.simplifyT] at h
    rw [velT_eq τ hv w', ok_bind] at h
    obtain rfl := Except.ok.inj h
    by_cases hn : Within (velV v) (τ.atol * u.vel)
    · rw [if_pos (decide_eq_true hn)]
      exact ⟨trivial, fun x t => by simp [act, kept, hn, Params.apply, mulV_one, v3_add_zero, smul_zero']⟩
    · rw [if_neg (by simpa using hn)]
      exact ⟨w, fun x t => by simp [act, kept, hn, Params.apply, mulV_one, v3_add_zero]⟩
  | vboost v =>
    simp only [Op.simplifyT] at h
    obtain ⟨b, _, h⟩ := (bind_ok_iff _ _ _).mp h
    obtain rfl := Except.ok.inj h
    cases b
    · exact ⟨w, fun x t => by simp [act, kept, Params.apply, mulV_one, v3_add_zero, smul_zero']⟩
    · exact ⟨trivial, fun x t => by simp [act, kept, Params.apply, mulV_one, v3_add_zero, smul_zero']⟩
  | galilean R d v =>
    obtain ⟨w1, w2⟩ : Valid3 d.q ∧ v.kind = .cart3 := w
    simp only [Op.simplifyT] at h
    rw [translationT_eq τ hl w1, ok_bind, velT_eq τ hv w2, ok_bind, rotationT_eq] at h
    by_cases h1 : NearOne τ R <;> by_cases h2 : SmallShift τ u d <;> by_cases h3 : Within (velV v) (τ.atol * u.vel)
    all_goals
      simp only [h1, h2, h3, if_true, if_false, decide_true, decide_false, Op.isIdentity, Bool.or_true, Bool.or_false,
        Bool.false_eq_true, simplifyFold, simplify2, ok_bind, List.cons_append, List.nil_append] at h
      obtain rfl := Except.ok.inj h
    all_goals refine ⟨?_, fun x t => ?_⟩
    all_goals first
      | exact ⟨w1, w2⟩
      | exact trivial
      | exact w1
      | exact w2
      | simp only [WellFormed, Every, EveryAll, w1, w2, and_self]
      | simp [act, actAll, kept, h1, h2, h3, Params.apply, mulV_one, v3_add_zero, smul_zero']

/-- **C69**: whatever `simplify_op(op, rtol=..., atol=...)` returns acts as the Galilean transformation with the parameters of `op`, of
which the negligible ones are replaced by trivial ones. -/
theorem C69_acts (τ : Tol) (u : StoredUnits) (hl : 0 < u.len) (hv : 0 < u.vel) (op s : Op) (w : WellFormed op)
    (h : op.simplifyT τ u = .ok s) (x y z t : ℝ) : ∃ x' y' z' t', s.call (.posTime (.cart3 x y z) t) =
      .ok (.posTime (.cart3 x' y' z') t') ∧ (⟨x', y', z'⟩, t') = (kept τ u op).apply ⟨x, y, z⟩ t := by
  obtain ⟨ws, e⟩ := simplifyT_act τ u hl hv op s w h
  exact ⟨_, _, _, _, call_act s ws x y z t, e ⟨x, y, z⟩ t⟩

/-- **C69**: keyword arguments are taken for every operator other than `Identity` and `Pipe`, which raise. -/
theorem C69_returns_iff (τ : Tol) (u : StoredUnits) (hl : 0 < u.len) (hv : 0 < u.vel) (op : Op) (w : WellFormed op)
    (wv : ∀ v, op = .vboost v → v.kind = .cart3) : ((∃ s, op.simplifyT τ u = .ok s) ↔ TakesTolerances op) ∧
      (¬ TakesTolerances op → op.simplifyT τ u = .error .typeError) := by
  classical
  cases op with
  | identity => exact ⟨⟨fun ⟨s, h⟩ => (by cases h), fun h => h.elim⟩, fun _ => rfl⟩
  | pipe ops => exact ⟨⟨fun ⟨s, h⟩ => (by cases h), fun h => h.elim⟩, fun _ => rfl⟩
  | rotation R => exact ⟨⟨fun _ => trivial, fun _ => ⟨_, rfl⟩⟩, fun h => (h trivial).elim⟩
  | spatial d => exact ⟨⟨fun _ => trivial, fun _ => ⟨_, spatialT_eq τ hl w⟩⟩, fun h => (h trivial).elim⟩
  | translation d => exact ⟨⟨fun _ => trivial, fun _ => ⟨_, translationT_eq τ hl w⟩⟩, fun h => (h trivial).elim⟩
  | boost v =>
    refine ⟨⟨fun _ => trivial, fun _ => ?_⟩, fun h => (h trivial).elim⟩
    simp only [Op.simplifyT]; rw [velT_eq τ hv w, ok_bind]; exact ⟨_, rfl⟩
  | vboost v =>
    refine ⟨⟨fun _ => trivial, fun _ => ?_⟩, fun h => (h trivial).elim⟩
    simp only [Op.simplifyT]; rw [velT_eq τ hv (wv v rfl), ok_bind]; exact ⟨_, rfl⟩
  | galilean R d v =>
    refine ⟨⟨fun _ => trivial, fun _ => ?_⟩, fun h => (h trivial).elim⟩
    obtain ⟨w1, w2⟩ : Valid3 d.q ∧ v.kind = .cart3 := w
    simp only [Op.simplifyT]
    rw [translationT_eq τ hl w1, ok_bind, velT_eq τ hv w2, ok_bind, rotationT_eq]
    by_cases h1 : NearOne τ R <;> by_cases h2 : SmallShift τ u d <;> by_cases h3 : Within (velV v) (τ.atol * u.vel)
    all_goals
      simp only [h1, h2, h3, if_true, if_false, decide_true, decide_false, Op.isIdentity, Bool.or_true, Bool.or_false,
        Bool.false_eq_true, simplifyFold, simplify2, ok_bind]
      exact ⟨_, rfl⟩

/-- **C69**: `op.simplify()` is `simplify_op(op, atol=1e-8, rtol=1e-5)`, where the latter is taken. -/
theorem C69_defaults (u : StoredUnits) (op : Op) (h : TakesTolerances op) : op.simplifyT .default u = op.simplify u := by
  cases op <;> first | exact h.elim | rfl

/-- **C69**: what becomes `Identity`. -/
theorem C69_dropped_iff (τ : Tol) (u : StoredUnits) (hl : 0 < u.len) (hv : 0 < u.vel) (op : Op) (w : WellFormed op) :
    match op with
    | .rotation R => op.simplifyT τ u = .ok .identity ↔ NearOne τ R
    | .spatial d => op.simplifyT τ u = .ok .identity ↔ Within (point d) (τ.atol * u.len)
    | .translation d => op.simplifyT τ u = .ok .identity ↔ SmallShift τ u d
    | .boost v => op.simplifyT τ u = .ok .identity ↔ Within (velV v) (τ.atol * u.vel)
    | .galilean R d v => op.simplifyT τ u = .ok .identity ↔
        NearOne τ R ∧ SmallShift τ u d ∧ Within (velV v) (τ.atol * u.vel)
    | _ => True := by
  classical
  have one : ∀ (p : Prop) (o : Op), o ≠ .identity → ((Except.ok (if p then Op.identity else o) : Res Op) = .ok .identity ↔ p) := by
    intro p o ho
    by_cases hp : p
    · simp [hp]
    · simp [hp, ho]
  cases op with
  | identity => trivial
  | pipe ops => trivial
  | vboost v => trivial
  | rotation R => simp only [Op.simplifyT, rotationT_eq]; exact one _ _ nofun
  | spatial d => simp only [Op.simplifyT]; rw [spatialT_eq τ hl w]; exact one _ _ nofun
  | translation d => simp only [Op.simplifyT]; rw [translationT_eq τ hl w]; exact one _ _ nofun
  | boost v =>
    simp only [Op.simplifyT]; rw [velT_eq τ hv w, ok_bind]
    simp only [decide_eq_true_eq]
    exact one _ _ nofun
  | galilean R d v =>
    obtain ⟨w1, w2⟩ : Valid3 d.q ∧ v.kind = .cart3 := w
    simp only [Op.simplifyT]
    rw [translationT_eq τ hl w1, ok_bind, velT_eq τ hv w2, ok_bind, rotationT_eq]
    by_cases h1 : NearOne τ R <;> by_cases h2 : SmallShift τ u d <;> by_cases h3 : Within (velV v) (τ.atol * u.vel)
    all_goals
      simp only [h1, h2, h3, if_true, if_false, decide_true, decide_false, Op.isIdentity, Bool.or_true, Bool.or_false,
        Bool.false_eq_true, simplifyFold, simplify2, ok_bind, and_self, and_true, and_false, iff_true, iff_false]
    all_goals first
      | rfl
      | (intro h; cases h)

theorem within_zero {w : V3} (h : Within w 0) : w = V3.zero := by
  obtain ⟨h1, h2, h3⟩ := h
  exact V3.ext (abs_nonpos_iff.mp h1) (abs_nonpos_iff.mp h2) (abs_nonpos_iff.mp h3)

theorem nearOne_zero {R : Mat3} (h : NearOne ⟨0, 0⟩ R) : R = 1 := by
  obtain ⟨h1, h2⟩ := h
  ext i j
  by_cases e : i = j
  · subst e
    have := abs_nonpos_iff.mp ((h1 i).trans_eq (by simp))
    rw [Matrix.one_apply_eq]; linarith
  · rw [Matrix.one_apply_ne e]; exact abs_nonpos_iff.mp (h2 i j e)

/-- **C69**: with `atol=0, rtol=0` the result acts on every position, of any class, and time exactly like the operator. -/
theorem C69_zero_tolerance (u : StoredUnits) (hl : 0 < u.len) (hv : 0 < u.vel) (op s : Op) (w : WellFormed op)
    (hc : ∀ d, (op = .translation d ∨ ∃ R v, op = .galilean R d v) → d.c ≠ 0)
    (h : op.simplifyT ⟨0, 0⟩ u = .ok s) :
    (∀ x y z t, s.call (.posTime (.cart3 x y z) t) = op.call (.posTime (.cart3 x y z) t)) ∧
    ∀ q t a b, Valid3 q → op.call (.posTime q t) = .ok a → s.call (.posTime q t) = .ok b →
      ∃ q₁ q₂ t', a = .posTime q₁ t' ∧ b = .posTime q₂ t' ∧ q₁.kind = q.kind ∧ q₂.kind = q.kind ∧ point q₁ = point q₂ := by
  classical
  obtain ⟨ws, e⟩ := simplifyT_act _ u hl hv op s w h
  have shift : ∀ d : Four, d.c ≠ 0 → SmallShift ⟨0, 0⟩ u d → point d.q = V3.zero ∧ d.t = 0 := by
    intro d hd ⟨h1, h2⟩
    simp only [zero_mul] at h1 h2
    exact ⟨within_zero h2, (mul_eq_zero.mp (abs_nonpos_iff.mp h1)).resolve_left hd⟩
  have key : ∀ x t, act s (x, t) = act op (x, t) := by
    intro x t
    rw [e]
    cases op with
    | identity => cases h
    | pipe ops => cases h
    | rotation R =>
      by_cases hn : NearOne ⟨0, 0⟩ R
      · simp [kept, hn, Params.apply, act, nearOne_zero hn, v3_add_zero, smul_zero']
      · simp [kept, hn, Params.apply, act, v3_add_zero, smul_zero']
    | spatial d =>
      by_cases hn : Within (point d) 0
      · simp [kept, hn, Params.apply, act, within_zero hn, v3_add_zero, smul_zero', mulV_one]
      · simp [kept, hn, Params.apply, act, v3_add_zero, smul_zero', mulV_one]
    | translation d =>
      by_cases hn : SmallShift ⟨0, 0⟩ u d
      · obtain ⟨h1, h2⟩ := shift d (hc d (.inl rfl)) hn
        simp [kept, hn, Params.apply, act, h1, h2, v3_add_zero, smul_zero', mulV_one]
      · simp [kept, hn, Params.apply, act, v3_add_zero, smul_zero', mulV_one]
    | boost v =>
      by_cases hn : Within (velV v) 0
      · simp [kept, hn, Params.apply, act, within_zero hn, v3_add_zero, smul_zero', mulV_one]
      · simp [kept, hn, Params.apply, act, v3_add_zero, mulV_one]
    | vboost v => simp [kept, Params.apply, act, v3_add_zero, smul_zero', mulV_one]
    | galilean R d v =>
      have hR : (if NearOne ⟨0, 0⟩ R then (1 : Mat3) else R) = R := by
        split <;> rename_i hn
        · exact (nearOne_zero hn).symm
        · rfl
      have hv' : (if Within (velV v) (0 * u.vel) then V3.zero else velV v) = velV v := by
        split <;> rename_i hn
        · rw [zero_mul] at hn; exact (within_zero hn).symm
        · rfl
      have hd : (if SmallShift ⟨0, 0⟩ u d then V3.zero else point d.q) = point d.q ∧
          (if SmallShift ⟨0, 0⟩ u d then 0 else d.t) = d.t := by
        split <;> rename_i hn
        · obtain ⟨h1, h2⟩ := shift d (hc d (.inr ⟨_, _, rfl⟩)) hn
          exact ⟨h1.symm, h2.symm⟩
        · exact ⟨rfl, rfl⟩
      simp only [kept, Params.apply, act, hR, hv', hd.1, hd.2]
  refine ⟨fun x y z t => by rw [call_act s ws, call_act op w, key], fun q t a b hq h1 h2 => ?_⟩
  obtain ⟨q₁, t₁, rfl, s₁⟩ := call_sound op w q t a hq h1
  obtain ⟨q₂, t₂, rfl, s₂⟩ := call_sound s ws q t b hq h2
  have e := s₂.act
  rw [key, ← s₁.act] at e
  obtain ⟨e1, rfl⟩ := Prod.mk.inj e
  exact ⟨q₁, q₂, _, rfl, rfl, s₁.kind, s₂.kind, e1.symm⟩

namespace Spec

/-- how far a point may be moved by what is neglected: `V` bounds the components of the velocity of a `GalileanOperator` -/
noncomputable def slack (τ : Tol) (u : StoredUnits) (V : ℝ) (op : Op) (x : V3) (t : ℝ) : ℝ :=
  match op with
  | .rotation _ => (τ.atol + τ.rtol) * (|x.x| + |x.y| + |x.z|)
  | .spatial _ => τ.atol * u.len
  | .translation _ => τ.atol * u.len
  | .boost _ => τ.atol * u.vel * |t|
  | .galilean _ d _ => (τ.atol + τ.rtol) * (|x.x| + |x.y| + |x.z|) + τ.atol * u.len + τ.atol * u.vel * |t + d.t| +
      τ.atol * u.len / |d.c| * V
  | _ => 0

end Spec

theorem near_apply {τ : Tol} {R : Mat3} (ha : 0 ≤ τ.atol) (hr : 0 ≤ τ.rtol) (h : NearOne τ R) (x : V3) :
    Within ((mulV R x).sub x) ((τ.atol + τ.rtol) * (|x.x| + |x.y| + |x.z|)) := by
  have hoff : ∀ i j, i ≠ j → |R i j| ≤ τ.atol + τ.rtol := fun i j hij => (h.2 i j hij).trans (by linarith)
  have key : ∀ a b c p q r : ℝ, |a| ≤ τ.atol + τ.rtol → |b| ≤ τ.atol + τ.rtol → |c| ≤ τ.atol + τ.rtol →
      |a * p + b * q + c * r| ≤ (τ.atol + τ.rtol) * (|p| + |q| + |r|) := by
    intro a b c p q r h1 h2 h3
    calc |a * p + b * q + c * r| ≤ |a * p| + |b * q| + |c * r| := abs_add_three _ _ _
      _ = |a| * |p| + |b| * |q| + |c| * |r| := by rw [abs_mul, abs_mul, abs_mul]
      _ ≤ _ := by
        have := mul_le_mul_of_nonneg_right h1 (abs_nonneg p)
        have := mul_le_mul_of_nonneg_right h2 (abs_nonneg q)
        have := mul_le_mul_of_nonneg_right h3 (abs_nonneg r)
        linarith
  have k0 := key (R 0 0 - 1) (R 0 1) (R 0 2) x.x x.y x.z (h.1 0) (hoff 0 1 (by decide)) (hoff 0 2 (by decide))
  have k1 := key (R 1 0) (R 1 1 - 1) (R 1 2) x.x x.y x.z (hoff 1 0 (by decide)) (h.1 1) (hoff 1 2 (by decide))
  have k2 := key (R 2 0) (R 2 1) (R 2 2 - 1) x.x x.y x.z (hoff 2 0 (by decide)) (hoff 2 1 (by decide)) (h.1 2)
  refine ⟨?_, ?_, ?_⟩
  · refine le_of_eq_of_le (congrArg _ ?_) k0
    simp only [V3.sub, mulV]; ring
  · refine le_of_eq_of_le (congrArg _ ?_) k1
    simp only [V3.sub, mulV]; ring
  · refine le_of_eq_of_le (congrArg _ ?_) k2
    simp only [V3.sub, mulV]; ring

theorem within_self {w : V3} {b : ℝ} (h : 0 ≤ b) : Within (w.sub w) b := by
  simp [Within, V3.sub, h]

/-- **C69**: what is neglected moves no coordinate by more than `slack`, and no time by more than `atol` length units divided by the
`c` of the translation. -/
theorem C69_error_bound (τ : Tol) (ha : 0 ≤ τ.atol) (hr : 0 ≤ τ.rtol) (u : StoredUnits) (hl : 0 < u.len) (hv : 0 < u.vel)
    (op s : Op) (w : WellFormed op) (hc : ∀ d, (op = .translation d ∨ ∃ R v, op = .galilean R d v) → d.c ≠ 0)
    (V : ℝ) (hV : ∀ R d v, op = .galilean R d v → Within (velV v) V)
    (h : op.simplifyT τ u = .ok s) (x y z t : ℝ) : ∃ x₁ y₁ z₁ t₁ x₂ y₂ z₂ t₂,
      op.call (.posTime (.cart3 x y z) t) = .ok (.posTime (.cart3 x₁ y₁ z₁) t₁) ∧
      s.call (.posTime (.cart3 x y z) t) = .ok (.posTime (.cart3 x₂ y₂ z₂) t₂) ∧
      Within ⟨x₁ - x₂, y₁ - y₂, z₁ - z₂⟩ (slack τ u V op ⟨x, y, z⟩ t) ∧
      ∀ d, (op = .translation d ∨ ∃ R v, op = .galilean R d v) → |t₁ - t₂| ≤ τ.atol * u.len / |d.c| := by
  classical
  obtain ⟨ws, e⟩ := simplifyT_act τ u hl hv op s w h
  refine ⟨_, _, _, _, _, _, _, _, call_act op w x y z t, call_act s ws x y z t, ?_⟩
  rw [e]
  generalize hX : (⟨x, y, z⟩ : V3) = X
  have hL : 0 ≤ τ.atol * u.len := mul_nonneg ha hl.le
  have hU : 0 ≤ τ.atol * u.vel := mul_nonneg ha hv.le
  have hn1 : 0 ≤ |X.x| + |X.y| + |X.z| := by positivity
  have hRX : 0 ≤ (τ.atol + τ.rtol) * (|X.x| + |X.y| + |X.z|) := mul_nonneg (add_nonneg ha hr) hn1
  have shift : ∀ d : Four, d.c ≠ 0 → |d.t - (if SmallShift τ u d then 0 else d.t)| ≤ τ.atol * u.len / |d.c| := by
    intro d hd
    have hp := abs_pos.mpr hd
    split <;> rename_i hn
    · rw [sub_zero, le_div_iff₀ hp, mul_comm, ← abs_mul]; exact hn.1
    · rw [sub_self, abs_zero]; positivity
  have rot : ∀ R : Mat3, Within ((mulV R X).sub (mulV (if NearOne τ R then 1 else R) X)) ((τ.atol + τ.rtol) * (|X.x| + |X.y| + |X.z|)) := by
    intro R
    split <;> rename_i hn
    · rw [mulV_one]; exact near_apply ha hr hn X
    · exact within_self hRX
  have dsp : ∀ d : Four, Within ((point d.q).sub (if SmallShift τ u d then V3.zero else point d.q)) (τ.atol * u.len) := by
    intro d
    split <;> rename_i hn
    · simpa [Within, V3.sub, V3.zero] using hn.2
    · exact within_self hL
  have vel : ∀ v : Vel ℝ, Within ((velV v).sub (if Within (velV v) (τ.atol * u.vel) then V3.zero else velV v)) (τ.atol * u.vel) := by
    intro v
    split <;> rename_i hn
    · simpa [Within, V3.sub, V3.zero] using hn
    · exact within_self hU
  cases op with
  | identity => cases h
  | pipe ops => cases h
  | rotation R =>
    refine ⟨?_, fun d hd => by rcases hd with hd | ⟨_, _, hd⟩ <;> cases hd⟩
    have := rot R
    simpa [act, kept, Params.apply, v3_add_zero, smul_zero', slack, V3.sub] using this
  | spatial d =>
    refine ⟨?_, fun d hd => by rcases hd with hd | ⟨_, _, hd⟩ <;> cases hd⟩
    by_cases hn : Within (point d) (τ.atol * u.len)
    · simp only [act, kept, Params.apply, slack, hn, if_true, mulV_one, v3_add_zero, smul_zero', add_zero]
      simpa [Within, V3.add] using hn
    · simp only [act, kept, Params.apply, slack, hn, if_false, mulV_one, v3_add_zero, smul_zero', add_zero]
      simpa [Within] using hL
  | translation d =>
    refine ⟨?_, fun d' hd => ?_⟩
    · by_cases hn : SmallShift τ u d
      · simp only [act, kept, Params.apply, slack, hn, if_true, mulV_one, v3_add_zero, smul_zero', add_zero]
        simpa [Within, V3.add] using hn.2
      · simp only [act, kept, Params.apply, slack, hn, if_false, mulV_one, v3_add_zero, smul_zero', add_zero]
        simpa [Within] using hL
    · obtain rfl : d = d' := by rcases hd with hd | ⟨_, _, hd⟩ <;> cases hd; rfl
      have := shift d (hc d (.inl rfl))
      simpa [act, kept, Params.apply] using this
  | boost v =>
    refine ⟨?_, fun d hd => by rcases hd with hd | ⟨_, _, hd⟩ <;> cases hd⟩
    by_cases hn : Within (velV v) (τ.atol * u.vel)
    · have hm : ∀ a : ℝ, |a| ≤ τ.atol * u.vel → |t * a| ≤ τ.atol * u.vel * |t| := fun a h => by
        rw [abs_mul, mul_comm]; exact mul_le_mul_of_nonneg_right h (abs_nonneg t)
      simp only [act, kept, Params.apply, slack, hn, if_true, mulV_one, v3_add_zero, smul_zero', add_zero]
      simp only [Within, V3.add, V3.smul]
      obtain ⟨h1, h2, h3⟩ := hn
      refine ⟨?_, ?_, ?_⟩ <;> rw [add_sub_cancel_left]
      · exact hm _ h1
      · exact hm _ h2
      · exact hm _ h3
    · have : 0 ≤ τ.atol * u.vel * |t| := mul_nonneg hU (abs_nonneg t)
      simp only [act, kept, Params.apply, slack, hn, if_false, mulV_one, v3_add_zero, smul_zero', add_zero]
      simpa [Within] using this
  | vboost v =>
    refine ⟨?_, fun d hd => by rcases hd with hd | ⟨_, _, hd⟩ <;> cases hd⟩
    simp [act, kept, Params.apply, v3_add_zero, smul_zero', slack, mulV_one, Within]
  | galilean R d v =>
    have hcd := hc d (.inr ⟨_, _, rfl⟩)
    refine ⟨?_, fun d' hd => ?_⟩
    · have h1 := rot R
      have h2 := dsp d
      have h3 := vel v
      have h4 := shift d hcd
      have h5 := hV R d v rfl
      simp only [act, kept, Params.apply, slack]
      generalize (if SmallShift τ u d then V3.zero else point d.q) = d' at *
      generalize (if SmallShift τ u d then 0 else d.t) = s' at *
      generalize mulV (if NearOne τ R then 1 else R) X = X' at *
      have h6 : Within (if Within (velV v) (τ.atol * u.vel) then V3.zero else velV v) V := by
        split
        · exact ⟨by simpa [V3.zero] using (abs_nonneg _).trans h5.1, by simpa [V3.zero] using (abs_nonneg _).trans h5.1,
            by simpa [V3.zero] using (abs_nonneg _).trans h5.1⟩
        · exact h5
      generalize (if Within (velV v) (τ.atol * u.vel) then V3.zero else velV v) = v' at *
      have key : ∀ a a' b b' w w' : ℝ, |a - a'| ≤ (τ.atol + τ.rtol) * (|X.x| + |X.y| + |X.z|) → |b - b'| ≤ τ.atol * u.len →
          |w - w'| ≤ τ.atol * u.vel → |w'| ≤ V → |a + b + (t + d.t) * w - (a' + b' + (t + s') * w')| ≤
            (τ.atol + τ.rtol) * (|X.x| + |X.y| + |X.z|) + τ.atol * u.len + τ.atol * u.vel * |t + d.t| + τ.atol * u.len / |d.c| * V := by
        intro a a' b b' w w' k1 k2 k3 k4
        have e : a + b + (t + d.t) * w - (a' + b' + (t + s') * w') =
            ((a - a') + (b - b') + (w - w') * (t + d.t)) + (d.t - s') * w' := by ring
        rw [e]
        refine (abs_add_le _ _).trans (add_le_add ((abs_add_three _ _ _).trans (add_le_add (add_le_add k1 k2) ?_)) ?_)
        · rw [abs_mul]; exact mul_le_mul_of_nonneg_right k3 (abs_nonneg _)
        · rw [abs_mul]; exact mul_le_mul h4 k4 (abs_nonneg _) ((abs_nonneg _).trans h4)
      exact ⟨key _ _ _ _ _ _ h1.1 h2.1 h3.1 h6.1, key _ _ _ _ _ _ h1.2.1 h2.2.1 h3.2.1 h6.2.1, key _ _ _ _ _ _ h1.2.2 h2.2.2 h3.2.2 h6.2.2⟩
    · obtain rfl : d = d' := by
        rcases hd with hd | ⟨_, _, hd⟩
        · cases hd
        · cases hd; rfl
      have := shift d hcd
      simpa [act, kept, Params.apply] using this

/-- a translation by `(3, 0, 4)` length units is kept with `atol=3.5`, dropped with `atol=4` -/
example (u : StoredUnits) (hl : 0 < u.len) (hv : 0 < u.vel) :
    (Op.spatial (.cart3 (3 * u.len) 0 (4 * u.len))).simplifyT ⟨4, 0⟩ u = .ok .identity ∧
    (Op.spatial (.cart3 (3 * u.len) 0 (4 * u.len))).simplifyT ⟨3.5, 0⟩ u ≠ .ok .identity := by
  have w : WellFormed (Op.spatial (.cart3 (3 * u.len) 0 (4 * u.len))) := ⟨trivial, rfl⟩
  have a3 : |3 * u.len| = 3 * u.len := abs_of_pos (by positivity)
  have a4 : |4 * u.len| = 4 * u.len := abs_of_pos (by positivity)
  constructor
  · refine (C69_dropped_iff ⟨4, 0⟩ u hl hv (.spatial (.cart3 (3 * u.len) 0 (4 * u.len))) w).mpr ⟨?_, ?_, ?_⟩
    · show |3 * u.len| ≤ 4 * u.len
      linarith
    · show |(0 : ℝ)| ≤ 4 * u.len
      rw [abs_zero]; positivity
    · exact a4.le
  · intro h
    obtain ⟨-, -, h⟩ := (C69_dropped_iff ⟨3.5, 0⟩ u hl hv (.spatial (.cart3 (3 * u.len) 0 (4 * u.len))) w).mp h
    have h : |4 * u.len| ≤ 3.5 * u.len := h
    rw [a4] at h
    linarith

/-- the hypotheses of `C69_zero_tolerance` and `C69_error_bound` for a `GalileanOperator` -/
example (u : StoredUnits) (hl : 0 < u.len) (hv : 0 < u.vel) :
    let op : Op := .galilean 1 ⟨1, .cart3 1 2 3, 300⟩ (.cart3 0 1 0)
    WellFormed op ∧ (∀ d, (op = .translation d ∨ ∃ R v, op = .galilean R d v) → d.c ≠ 0) ∧
      (∀ R d v, op = .galilean R d v → Within (velV v) 1) ∧ ∃ s, op.simplifyT ⟨0, 0⟩ u = .ok s := by
  refine ⟨⟨⟨trivial, rfl⟩, rfl⟩, fun d hd => ?_, fun R d v h => ?_, ?_⟩
  · rcases hd with hd | ⟨_, _, hd⟩
    · cases hd
    · cases hd; norm_num
  · cases h; simp [Within, velV]
  · exact ((C69_returns_iff ⟨0, 0⟩ u hl hv (.galilean 1 ⟨1, .cart3 1 2 3, 300⟩ (.cart3 0 1 0)) ⟨⟨trivial, rfl⟩, rfl⟩
      (fun v h => by cases h)).1).mpr trivial

end Verif
