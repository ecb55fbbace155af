import Verif.Props.Operators

/-!
# Simplification of operators: C29

Specification: `Verif/SpecOp.lean` and `Resolved`, `RotationsCommute` below.
-/

namespace Verif

open Spec Props

namespace Spec

/-- some coordinate is larger than `b` in absolute value -/
def Exceeds (v : V3) (b : ℝ) : Prop := b < |v.x| ∨ b < |v.y| ∨ b < |v.z|

/-- The matrix is the identity, or differs from it by more than `jnp.allclose` tolerates: `1e-8` off the
diagonal, `1e-8 + 1e-5` on it. -/
def ResolvedRotation (R : Mat3) : Prop :=
  R = 1 ∨ (∃ i, 1e-8 + 1e-5 < |R i i - 1|) ∨ ∃ i j, i ≠ j ∧ 1e-8 < |R i j|

/-- The translation is zero, or one of its coordinates `ct, x, y, z` is larger than `1e-8` length
units. -/
def ResolvedTranslation (u : StoredUnits) (d : Four) : Prop :=
  (d.t = 0 ∧ point d.q = V3.zero) ∨ 1e-8 * u.len < |d.c * d.t| ∨ Exceeds (point d.q) (1e-8 * u.len)

/-- The velocity is zero, or one of its components is larger than `1e-8` velocity units. -/
def ResolvedVel (u : StoredUnits) (v : Vel ℝ) : Prop :=
  velV v = V3.zero ∨ Exceeds (velV v) (1e-8 * u.vel)

/-- The parameters of the operator are trivial or not negligible; no condition for a Pipe (parts of a
Pipe are never dropped). -/
def Resolved (u : StoredUnits) : Op → Prop
  | .rotation R => ResolvedRotation R
  | .spatial d => point d = V3.zero ∨ Exceeds (point d) (1e-8 * u.len)
  | .translation d => ResolvedTranslation u d
  | .boost v => ResolvedVel u v
  | .galilean R d v => ResolvedRotation R ∧ ResolvedTranslation u d ∧ ResolvedVel u v
  | _ => True

/-- The rotations that are direct elements of a Pipe commute. -/
def RotationsCommute : Op → Prop
  | .pipe ops => ∀ R S, Op.rotation R ∈ ops → Op.rotation S ∈ ops → R * S = S * R
  | _ => True

end Spec

/-! ### The tolerance tests -/

theorem isClose_zero (x : ℝ) : isClose x 0 = true ↔ |x| ≤ 1e-8 := by
  simp [isClose]

theorem isClose_zero_div {l : ℝ} (hl : 0 < l) (x : ℝ) : isClose (x / l) 0 = true ↔ |x| ≤ 1e-8 * l := by
  rw [isClose_zero, abs_div, abs_of_pos hl, div_le_iff₀ hl]

theorem not_exceeds {v : V3} {b : ℝ} : ¬ Exceeds v b ↔ |v.x| ≤ b ∧ |v.y| ≤ b ∧ |v.z| ≤ b := by
  simp [Exceeds]

/-- the test of `simplifyRotation` -/
theorem simplifyRotation_eq (R : Mat3) : (simplifyRotation R = .identity ∧
      (∀ i, |R i i - 1| ≤ 1e-8 + 1e-5) ∧ ∀ i j, i ≠ j → |R i j| ≤ 1e-8) ∨
    (simplifyRotation R = .rotation R ∧
      ¬ ((∀ i, |R i i - 1| ≤ 1e-8 + 1e-5) ∧ ∀ i j, i ≠ j → |R i j| ≤ 1e-8)) := by
  unfold simplifyRotation
  have key : ((List.finRange 3).all fun i => (List.finRange 3).all fun j =>
      isClose (R i j) (if i = j then 1 else 0)) = true ↔
      (∀ i, |R i i - 1| ≤ 1e-8 + 1e-5) ∧ ∀ i j, i ≠ j → |R i j| ≤ 1e-8 := by
    simp only [List.all_eq_true, List.mem_finRange, true_implies]
    constructor
    · intro h
      refine ⟨fun i => ?_, fun i j hij => ?_⟩
      · have := h i i; simpa [isClose] using this
      · have := h i j; simpa [isClose, hij] using this
    · rintro ⟨h1, h2⟩ i j
      by_cases hij : i = j
      · subst hij; simpa [isClose] using h1 i
      · simpa [isClose, hij] using h2 i j hij
  split
  · rename_i h; exact Or.inl ⟨rfl, key.mp h⟩
  · rename_i h; exact Or.inr ⟨rfl, fun h' => h (key.mpr h')⟩

theorem rotation_one (R : Mat3) (e : Event) (h : R = 1) : act (.rotation R) e = e := by
  subst h; simp [act, mulV_one]

theorem simplifyRotation_act {R : Mat3} (h : ResolvedRotation R) :
    (simplifyRotation R = .identity ∧ R = 1) ∨ simplifyRotation R = .rotation R := by
  rcases simplifyRotation_eq R with ⟨h1, h2, h3⟩ | ⟨h1, _⟩
  · rcases h with h | ⟨i, h⟩ | ⟨i, j, hij, h⟩
    · exact Or.inl ⟨h1, h⟩
    · exact absurd (h2 i) (not_le.mpr h)
    · exact absurd (h3 i j hij) (not_le.mpr h)
  · exact Or.inr h1

/-- the Cartesian components of a 3-D position -/
theorem toQuantity3 {d : Pos ℝ} (hd : Valid3 d) :
    toQuantity d = .ok [(point d).x, (point d).y, (point d).z] := by
  have hs : d.kind ≠ .twoSphere := by intro e; have := hd.2; rw [e] at this; cases this
  obtain ⟨c, h1, g⟩ := toCart_total d hd.1 hs
  have hk : d.kind.cartesian = .cart3 := by rw [cartesian_of_dim (k' := .cart3) hd.2]; rfl
  have hck : c.kind = .cart3 := by rw [g.kind, hk]
  have hp := g.point
  unfold toQuantity toCartesian
  rw [h1, ok_bind, ← hp]
  cases c <;> first | (cases hck; done) | rfl

theorem closeToZeros_ok {n : ℕ} {xs : List ℝ} (h : xs.length = n) :
    closeToZeros n xs = .ok (xs.all fun x => isClose x 0) := by
  unfold closeToZeros; rw [if_pos (Or.inl h)]

theorem simplifySpatial_eq {u : StoredUnits} (hu : 0 < u.len) {d : Pos ℝ} (hd : Valid3 d) :
    (simplifySpatial u d = .ok .identity ∧ ¬ Exceeds (point d) (1e-8 * u.len)) ∨
    (simplifySpatial u d = .ok (.spatial d) ∧ Exceeds (point d) (1e-8 * u.len)) := by
  unfold simplifySpatial
  rw [toQuantity3 hd, ok_bind, closeToZeros_ok (n := 3) rfl, ok_bind]
  by_cases h : Exceeds (point d) (1e-8 * u.len)
  · refine Or.inr ⟨?_, h⟩
    rw [if_neg]; · rfl
    intro hh
    refine not_exceeds.mpr ?_ h
    simpa [isClose_zero_div hu] using hh
  · refine Or.inl ⟨?_, h⟩
    rw [if_pos]; · rfl
    simpa [isClose_zero_div hu] using not_exceeds.mp h

theorem simplifyTranslation_eq {u : StoredUnits} (hu : 0 < u.len) {d : Four} (hd : Valid3 d.q) :
    (simplifyTranslation u d = .ok .identity ∧ |d.c * d.t| ≤ 1e-8 * u.len ∧
      ¬ Exceeds (point d.q) (1e-8 * u.len)) ∨
    (simplifyTranslation u d = .ok (.translation d) ∧
      (1e-8 * u.len < |d.c * d.t| ∨ Exceeds (point d.q) (1e-8 * u.len))) := by
  unfold simplifyTranslation Four.toQuantity
  rw [toQuantity3 hd, ok_bind]
  simp only [pure, Except.pure, ok_bind]
  rw [closeToZeros_ok (n := 4) rfl, ok_bind]
  by_cases h : 1e-8 * u.len < |d.c * d.t| ∨ Exceeds (point d.q) (1e-8 * u.len)
  · refine Or.inr ⟨?_, h⟩
    rw [if_neg]
    intro hh
    simp only [List.map_cons, List.map_nil, List.all_cons, List.all_nil, Bool.and_true,
      Bool.and_eq_true, isClose_zero_div hu] at hh
    rcases h with h | h
    · exact absurd hh.1 (not_le.mpr h)
    · exact not_exceeds.mpr ⟨hh.2.1, hh.2.2.1, hh.2.2.2⟩ h
  · push Not at h
    have h2 := not_exceeds.mp h.2
    refine Or.inl ⟨?_, h.1, h.2⟩
    rw [if_pos]
    simp only [List.map_cons, List.map_nil, List.all_cons, List.all_nil, Bool.and_true,
      Bool.and_eq_true, isClose_zero_div hu]
    exact ⟨h.1, h2.1, h2.2.1, h2.2.2⟩

theorem velNegligible_eq {u : StoredUnits} (hu : 0 < u.vel) {v : Vel ℝ} (hv : v.kind = .cart3) :
    (velNegligible u v = .ok true ∧ ¬ Exceeds (velV v) (1e-8 * u.vel)) ∨
    (velNegligible u v = .ok false ∧ Exceeds (velV v) (1e-8 * u.vel)) := by
  cases v <;> first | (cases hv; done) | skip
  rename_i a b c
  unfold velNegligible velToQuantity
  rw [ok_bind, closeToZeros_ok (n := 3) rfl]
  by_cases h : Exceeds (velV (.cart3 a b c)) (1e-8 * u.vel)
  · refine Or.inr ⟨congrArg _ ?_, h⟩
    rw [Bool.eq_false_iff]
    intro hh
    refine not_exceeds.mpr ?_ h
    simpa [velV, isClose_zero_div hu] using hh
  · refine Or.inl ⟨congrArg _ ?_, h⟩
    simpa [velV, isClose_zero_div hu] using not_exceeds.mp h

/-! ### The fold -/

/-- adding two Cartesian velocities -/
theorem addVel_cart3 {v w s : Vel ℝ} (hv : v.kind = .cart3) (h : addVel v w = .ok s) :
    s.kind = .cart3 ∧ velV s = (velV v).add (velV w) := by
  cases v <;> first | (cases hv; done) | skip
  cases w <;> first | (cases h; done) | skip
  obtain rfl := Except.ok.inj h
  exact ⟨rfl, rfl⟩

/-- the rotations of the accumulator and the next operator -/
def RotComm (a b : Op) : Prop := ∀ R S, a = .rotation R → b = .rotation S → R * S = S * R

theorem smul_add' (s : ℝ) (a b : V3) : V3.smul s (a.add b) = (V3.smul s a).add (V3.smul s b) := by
  ext <;> simp [V3.smul, V3.add, mul_add]

theorem v3_add_assoc (a b c : V3) : (a.add b).add c = a.add (b.add c) := by
  ext <;> simp [V3.add, add_assoc]

theorem wf_pipe {ops : List Op} : WellFormed (.pipe ops) ↔ ∀ o ∈ ops, WellFormed o := by
  simp only [WellFormed, Every, everyAll_iff]

theorem simplify2_spec {a b s : Op} (ha : WellFormed a) (hb : WellFormed b) (hc : RotComm a b)
    (h : simplify2 a b = .ok s) : WellFormed s ∧ ∀ e, act s e = act b (act a e) := by
  have pair : ∀ x y : Op, WellFormed x → WellFormed y →
      WellFormed (.pipe [x, y]) ∧ ∀ e, act (.pipe [x, y]) e = act y (act x e) := by
    intro x y hx hy
    exact ⟨wf_pipe.mpr (by simp [hx, hy]), fun e => by simp [act, actAll]⟩
  have app : ∀ (as : List Op) (y : Op), WellFormed (.pipe as) → WellFormed y →
      WellFormed (.pipe (as ++ [y])) ∧ ∀ e, act (.pipe (as ++ [y])) e = act y (act (.pipe as) e) := by
    intro as y hx hy
    refine ⟨wf_pipe.mpr fun o ho => ?_, fun e => by simp [act, actAll, actAll_append]⟩
    rcases List.mem_append.mp ho with ho | ho
    · exact wf_pipe.mp hx o ho
    · obtain rfl := List.mem_singleton.mp ho; exact hy
  unfold simplify2 at h
  split at h
  · obtain rfl := Except.ok.inj h; exact ⟨ha, fun e => by simp [act]⟩
  · obtain rfl := Except.ok.inj h; exact ⟨hb, fun e => by simp [act]⟩
  · obtain rfl := Except.ok.inj h
    exact ⟨everyAll_append ha hb, fun e => by simp [act, actAll_append]⟩
  · obtain rfl := Except.ok.inj h; exact app _ _ ha hb
  · rename_i R S
    obtain rfl := Except.ok.inj h
    exact ⟨trivial, fun e => by simp [act, hc R S rfl rfl, mulV_mul]⟩
  · rename_i d d'
    obtain ⟨q, h1, h2⟩ := (bind_ok_iff _ _ _).mp h
    obtain rfl := Except.ok.inj h2
    have ha : Valid3 d := ha
    have hb : Valid3 d' := hb
    obtain ⟨k, v, _, p⟩ := addPos_good ha.1 hb.1 (by rw [ha.2, hb.2]) h1
    exact ⟨show Valid3 q from ⟨v, by rw [k]; exact ha.2⟩, fun e => by simp [act, p, v3_add_assoc]⟩
  · rename_i d d'
    obtain ⟨q, h1, h2⟩ := (bind_ok_iff _ _ _).mp h
    obtain rfl := Except.ok.inj h2
    have ha : Valid3 d.q := ha
    have hb : Valid3 d'.q := hb
    obtain ⟨r, h3, h4⟩ := (bind_ok_iff _ _ _).mp h1
    obtain rfl := Except.ok.inj h4
    obtain ⟨k, v, _, p⟩ := addPos_good ha.1 hb.1 (by rw [ha.2, hb.2]) h3
    exact ⟨show Valid3 r from ⟨v, by rw [k]; exact ha.2⟩,
      fun e => by simp [act, p, v3_add_assoc, add_assoc]⟩
  · rename_i v w
    obtain ⟨q, h1, h2⟩ := (bind_ok_iff _ _ _).mp h
    obtain rfl := Except.ok.inj h2
    have ha : v.kind = .cart3 := ha
    obtain ⟨k, p⟩ := addVel_cart3 ha h1
    exact ⟨show q.kind = .cart3 from k, fun e => by simp [act, p, smul_add', v3_add_assoc]⟩
  · obtain ⟨q, h1, h2⟩ := (bind_ok_iff _ _ _).mp h
    obtain rfl := Except.ok.inj h2
    exact ⟨trivial, fun e => by simp [act]⟩
  · obtain rfl := Except.ok.inj h; exact pair _ _ ha hb

/-- a rotation produced by the pair rules commutes with everything both parts commute with -/
theorem simplify2_rot {a b : Op} {T X : Mat3} (h : simplify2 a b = .ok (.rotation T))
    (ha : ∀ R, a = .rotation R → R * X = X * R) (hb : ∀ R, b = .rotation R → R * X = X * R) :
    T * X = X * T := by
  unfold simplify2 at h
  split at h
  · exact ha T (Except.ok.inj h)
  · exact hb T (Except.ok.inj h)
  · cases h
  · cases h
  · rename_i R S
    obtain rfl := Op.rotation.inj (Except.ok.inj h)
    rw [Matrix.mul_assoc, hb S rfl, ← Matrix.mul_assoc, ha R rfl, Matrix.mul_assoc]
  · obtain ⟨q, _, h2⟩ := (bind_ok_iff _ _ _).mp h; cases h2
  · obtain ⟨q, _, h2⟩ := (bind_ok_iff _ _ _).mp h; cases h2
  · obtain ⟨q, _, h2⟩ := (bind_ok_iff _ _ _).mp h; cases h2
  · obtain ⟨q, _, h2⟩ := (bind_ok_iff _ _ _).mp h; cases h2
  · cases h

theorem simplifyFold_spec (ops : List Op) (hw : ∀ o ∈ ops, WellFormed o)
    (hc : ∀ R S, Op.rotation R ∈ ops → Op.rotation S ∈ ops → R * S = S * R) (acc s : Op)
    (ha : WellFormed acc) (hac : ∀ S, Op.rotation S ∈ ops → ∀ R, acc = .rotation R → R * S = S * R)
    (h : simplifyFold acc ops = .ok s) :
    WellFormed s ∧ ∀ e, act s e = actAll ops (act acc e) := by
  induction ops generalizing acc with
  | nil =>
    obtain rfl := Except.ok.inj h
    exact ⟨ha, fun e => by simp [actAll]⟩
  | cons o os ih =>
    obtain ⟨acc', h1, h2⟩ := (bind_ok_iff _ _ _).mp h
    have ho := hw o (by simp)
    obtain ⟨w', f'⟩ := simplify2_spec ha ho (fun R S e1 e2 => hac S (by simp [← e2]) R e1) h1
    obtain ⟨w, f⟩ := ih (fun x hx => hw x (by simp [hx]))
      (fun R S hR hS => hc R S (by simp [hR]) (by simp [hS])) acc' w'
      (fun S hS T hT => simplify2_rot (a := acc) (b := o) (by rw [h1, hT])
        (fun R e => hac S (by simp [hS]) R e) (fun R e => hc R S (by simp [← e]) (by simp [hS]))) h2
    exact ⟨w, fun e => by rw [f, f']; simp [actAll]⟩

theorem velCase {u : StoredUnits} (hu : 0 < u.vel) {v : Vel ℝ} (hv : v.kind = .cart3)
    (hr : ResolvedVel u v) : (velNegligible u v = .ok true ∧ velV v = V3.zero) ∨
      velNegligible u v = .ok false := by
  rcases velNegligible_eq hu hv with ⟨h1, h2⟩ | ⟨h1, h2⟩
  · exact Or.inl ⟨h1, hr.resolve_right h2⟩
  · exact Or.inr h1

theorem trCase {u : StoredUnits} (hu : 0 < u.len) {d : Four} (hd : Valid3 d.q)
    (hr : ResolvedTranslation u d) :
    (simplifyTranslation u d = .ok .identity ∧ d.t = 0 ∧ point d.q = V3.zero) ∨
      simplifyTranslation u d = .ok (.translation d) := by
  rcases simplifyTranslation_eq hu hd with ⟨h1, h2, h3⟩ | ⟨h1, _⟩
  · rcases hr with h | h | h
    · exact Or.inl ⟨h1, h⟩
    · exact absurd h2 (not_le.mpr h)
    · exact absurd h h3
  · exact Or.inr h1

theorem smul_zero' (s : ℝ) : V3.smul s V3.zero = V3.zero := by
  simp [V3.smul, V3.zero]

/-- the simplified operator acts as the operator -/
theorem simplify_act (u : StoredUnits) (hl : 0 < u.len) (hv : 0 < u.vel) (op s : Op)
    (w : WellFormed op) (hr : Resolved u op) (hc : RotationsCommute op)
    (h : op.simplify u = .ok s) : WellFormed s ∧ ∀ e, act s e = act op e := by
  cases op with
  | identity => obtain rfl := Except.ok.inj h; exact ⟨w, fun _ => rfl⟩
  | rotation R =>
    obtain rfl := Except.ok.inj h
    rcases simplifyRotation_act hr with ⟨h1, h2⟩ | h1
    · rw [h1]; exact ⟨trivial, fun e => by rw [rotation_one R e h2]; simp [act]⟩
    · rw [h1]; exact ⟨trivial, fun _ => rfl⟩
  | spatial d =>
    have w' : Valid3 d := w
    rcases simplifySpatial_eq hl w' with ⟨h1, h2⟩ | ⟨h1, _⟩
    · have : Op.identity = s := Except.ok.inj (h1.symm.trans h)
      subst this
      have hp : point d = V3.zero := Or.resolve_right hr h2
      exact ⟨trivial, fun e => by simp [act, hp, v3_add_zero]⟩
    · have : Op.spatial d = s := Except.ok.inj (h1.symm.trans h)
      subst this; exact ⟨w, fun _ => rfl⟩
  | translation d =>
    have w' : Valid3 d.q := w
    rcases trCase hl w' hr with ⟨h1, h2, h3⟩ | h1
    · have : Op.identity = s := Except.ok.inj (h1.symm.trans h)
      subst this
      exact ⟨trivial, fun e => by simp [act, h2, h3, v3_add_zero]⟩
    · have : Op.translation d = s := Except.ok.inj (h1.symm.trans h)
      subst this; exact ⟨w, fun _ => rfl⟩
  | boost v =>
    have w' : v.kind = .cart3 := w
    simp only [Op.simplify] at h
    rcases velCase hv w' hr with ⟨h1, h2⟩ | h1
    · rw [h1, ok_bind] at h
      have : Op.identity = s := Except.ok.inj h
      subst this
      exact ⟨trivial, fun e => by simp [act, h2, smul_zero', v3_add_zero]⟩
    · rw [h1, ok_bind] at h
      have : Op.boost v = s := Except.ok.inj h
      subst this; exact ⟨w, fun _ => rfl⟩
  | vboost v =>
    simp only [Op.simplify] at h
    obtain ⟨b, _, h⟩ := (bind_ok_iff _ _ _).mp h
    cases b
    · have : Op.vboost v = s := Except.ok.inj h
      subst this; exact ⟨w, fun _ => rfl⟩
    · have : Op.identity = s := Except.ok.inj h
      subst this; exact ⟨trivial, fun e => by simp [act]⟩
  | galilean R d v =>
    obtain ⟨w1, w2⟩ : Valid3 d.q ∧ v.kind = .cart3 := w
    obtain ⟨r1, r2, r3⟩ := hr
    simp only [Op.simplify] at h
    obtain ⟨b, hb, h⟩ := (bind_ok_iff _ _ _).mp h
    obtain ⟨n, hn, h⟩ := (bind_ok_iff _ _ _).mp h
    have ha : WellFormed (simplifyRotation R) ∧
        ∀ e, act (simplifyRotation R) e = act (.rotation R) e := by
      rcases simplifyRotation_act r1 with ⟨h1, h2⟩ | h1
      · rw [h1]; exact ⟨trivial, fun e => by rw [rotation_one R e h2]; simp [act]⟩
      · rw [h1]; exact ⟨trivial, fun _ => rfl⟩
    have hb' : WellFormed b ∧ (∀ e, act b e = act (.translation d) e) ∧ ∀ S, b ≠ .rotation S := by
      rcases trCase hl w1 r2 with ⟨h1, h2, h3⟩ | h1
      · obtain rfl := Except.ok.inj (h1.symm.trans hb)
        exact ⟨trivial, fun e => by simp [act, h2, h3, v3_add_zero], fun S e => by cases e⟩
      · obtain rfl := Except.ok.inj (h1.symm.trans hb)
        exact ⟨w1, fun e => rfl, fun S e => by cases e⟩
    have hc' : ∀ c : Op, c = (if n = true then Op.identity else .boost v) →
        WellFormed c ∧ (∀ e, act c e = act (.boost v) e) ∧ ∀ S, c ≠ .rotation S := by
      rintro c rfl
      rcases velCase hv w2 r3 with ⟨h1, h2⟩ | h1
      · obtain rfl := Except.ok.inj (h1.symm.trans hn)
        rw [if_pos rfl]
        exact ⟨trivial, fun e => by simp [act, h2, smul_zero', v3_add_zero], fun S e => by cases e⟩
      · obtain rfl := Except.ok.inj (h1.symm.trans hn)
        rw [if_neg (by decide)]
        exact ⟨w2, fun e => rfl, fun S e => by cases e⟩
    have h : (if ((simplifyRotation R).isIdentity || b.isIdentity ||
        (if n = true then Op.identity else .boost v).isIdentity) = true then
        simplifyFold .identity [simplifyRotation R, b, if n = true then Op.identity else .boost v]
        else .ok (.galilean R d v)) = .ok s := by cases n <;> exact h
    by_cases hi : ((simplifyRotation R).isIdentity || b.isIdentity ||
        (if n = true then Op.identity else .boost v).isIdentity) = true
    · rw [if_pos hi] at h
      obtain ⟨c1, c2, c3⟩ := hc' _ rfl
      have only : ∀ S, Op.rotation S ∈ [simplifyRotation R, b,
          if n = true then Op.identity else .boost v] → simplifyRotation R = .rotation S := by
        intro S hS
        simp only [List.mem_cons, List.not_mem_nil, or_false] at hS
        rcases hS with hS | hS | hS
        · exact hS.symm
        · exact absurd hS.symm (hb'.2.2 S)
        · exact absurd hS.symm (c3 S)
      have g := simplifyFold_spec _ (by
          intro o ho
          simp only [List.mem_cons, List.not_mem_nil, or_false] at ho
          rcases ho with rfl | rfl | rfl
          · exact ha.1
          · exact hb'.1
          · exact c1) (by
          intro A B hA hB
          have := (only A hA).symm.trans (only B hB)
          obtain rfl := Op.rotation.inj this
          rfl) .identity s trivial (fun S _ A e => by cases e) h
      refine ⟨g.1, fun e => ?_⟩
      rw [g.2]
      simp only [actAll, ha.2, hb'.2.1, c2]
      simp [act]
    · rw [if_neg hi] at h
      have : Op.galilean R d v = s := Except.ok.inj h
      subst this; exact ⟨⟨w1, w2⟩, fun _ => rfl⟩
  | pipe ops =>
    have g := simplifyFold_spec ops (wf_pipe.mp w) hc .identity s trivial (fun S _ A e => by cases e) h
    exact ⟨g.1, fun e => by rw [g.2]; simp [act]⟩

/-- **C29**, for operators whose parameters are trivial or above the tolerance, and Pipes whose
rotations commute: `simplify()` acts on every (3-D position, time) like the operator: same class,
same point, same time. Exactly when: `C29_simplify_iff`; see also `C29_rotations_swapped`,
`C29_small_dropped`. -/
theorem C29_simplify_acts_alike (u : StoredUnits) (hl : 0 < u.len) (hv : 0 < u.vel)
    (op s : Op) (w : WellFormed op) (hr : Resolved u op) (hc : RotationsCommute op)
    (h : op.simplify u = .ok s) (q : Pos ℝ) (t : ℝ) (hq : Valid3 q) (a b : Arg)
    (h1 : op.call (.posTime q t) = .ok a) (h2 : s.call (.posTime q t) = .ok b) :
    ∃ q₁ q₂ t', a = .posTime q₁ t' ∧ b = .posTime q₂ t' ∧ q₁.kind = q.kind ∧ q₂.kind = q.kind ∧
      Valid q₁ ∧ Valid q₂ ∧ point q₁ = point q₂ := by
  obtain ⟨ws, f⟩ := simplify_act u hl hv op s w hr hc h
  obtain ⟨q₁, t₁, rfl, s₁⟩ := call_sound op w q t a hq h1
  obtain ⟨q₂, t₂, rfl, s₂⟩ := call_sound s ws q t b hq h2
  have e := s₂.act
  rw [f, ← s₁.act] at e
  obtain ⟨e1, rfl⟩ := Prod.mk.inj e
  exact ⟨q₁, q₂, _, rfl, rfl, s₁.kind, s₂.kind, s₁.valid, s₂.valid, e1.symm⟩

/-- **C29**, on Cartesian positions both calls return, and give the very same result. -/
theorem C29_simplify_cartesian (u : StoredUnits) (hl : 0 < u.len) (hv : 0 < u.vel)
    (op s : Op) (w : WellFormed op) (hr : Resolved u op) (hc : RotationsCommute op)
    (h : op.simplify u = .ok s) (x y z t : ℝ) :
    ∃ x' y' z' t', op.call (.posTime (.cart3 x y z) t) = .ok (.posTime (.cart3 x' y' z') t') ∧
      s.call (.posTime (.cart3 x y z) t) = .ok (.posTime (.cart3 x' y' z') t') := by
  have hq : Valid3 (.cart3 x y z) := ⟨trivial, rfl⟩
  obtain ⟨ws, _⟩ := simplify_act u hl hv op s w hr hc h
  obtain ⟨a, h1⟩ := call_total op w _ t hq (Or.inl rfl)
  obtain ⟨b, h2⟩ := call_total s ws _ t hq (Or.inl rfl)
  obtain ⟨q₁, q₂, t', rfl, rfl, k1, k2, _, _, e⟩ :=
    C29_simplify_acts_alike u hl hv op s w hr hc h _ t hq a b h1 h2
  cases q₁ <;> first | (cases k1; done) | skip
  cases q₂ <;> first | (cases k2; done) | skip
  simp only [point, V3.mk.injEq] at e
  obtain ⟨rfl, rfl, rfl⟩ := e
  exact ⟨_, _, _, _, h1, h2⟩

/-- all parameters are Cartesian and three-dimensional -/
def Spec.CartesianParams : Op → Prop :=
  Every fun
    | .spatial d => d.kind = .cart3
    | .translation d => d.q.kind = .cart3
    | .boost v => v.kind = .cart3
    | .vboost v => v.kind = .cart3
    | .galilean _ d v => d.q.kind = .cart3 ∧ v.kind = .cart3
    | _ => True

theorem valid3_of_cart3 {d : Pos ℝ} (h : d.kind = .cart3) : Valid3 d :=
  ⟨valid_of_cart _ (by rw [h]; rfl), by rw [h]; rfl⟩

theorem addPos_cart3 {d e : Pos ℝ} (hd : d.kind = .cart3) (he : e.kind = .cart3) :
    ∃ q, addPos d e = .ok q ∧ q.kind = .cart3 := by
  have h1 := valid3_of_cart3 hd
  have h2 := valid3_of_cart3 he
  obtain ⟨q, h⟩ := addPos_total3 h1 h2 (by rw [hd]; decide) (Or.inl hd)
  exact ⟨q, h, by rw [(addPos_good h1.1 h2.1 (by rw [h1.2, h2.2]) h).1, hd]⟩

theorem addVel_total3 {v w : Vel ℝ} (hv : v.kind = .cart3) (hw : w.kind = .cart3) :
    ∃ s, addVel v w = .ok s ∧ s.kind = .cart3 := by
  cases v <;> first | (cases hv; done) | skip
  cases w <;> first | (cases hw; done) | exact ⟨_, rfl, rfl⟩

theorem simplify2_total {a b : Op} (ha : CartesianParams a) (hb : CartesianParams b) :
    ∃ s, simplify2 a b = .ok s ∧ CartesianParams s := by
  unfold simplify2
  split
  · exact ⟨_, rfl, ha⟩
  · exact ⟨_, rfl, hb⟩
  · exact ⟨_, rfl, everyAll_append ha hb⟩
  · exact ⟨_, rfl, everyAll_append ha ⟨hb, trivial⟩⟩
  · exact ⟨_, rfl, trivial⟩
  · obtain ⟨q, h, k⟩ := addPos_cart3 ha hb
    exact ⟨.spatial q, by simp only [h, ok_bind]; rfl, k⟩
  · rename_i d e
    obtain ⟨q, h, k⟩ := addPos_cart3 (d := d.q) (e := e.q) ha hb
    exact ⟨.translation { d with t := d.t + e.t, q := q }, by
      simp only [Four.add, h, ok_bind]; rfl, k⟩
  · obtain ⟨q, h, k⟩ := addVel_total3 ha hb
    exact ⟨.boost q, by simp only [h, ok_bind]; rfl, k⟩
  · obtain ⟨q, h, k⟩ := addVel_total3 ha hb
    exact ⟨.vboost q, by simp only [h, ok_bind]; rfl, k⟩
  · exact ⟨_, rfl, ha, hb, trivial⟩

theorem simplifyFold_total (ops : List Op) (acc : Op) (ha : CartesianParams acc)
    (h : ∀ o ∈ ops, CartesianParams o) : ∃ s, simplifyFold acc ops = .ok s := by
  induction ops generalizing acc with
  | nil => exact ⟨_, rfl⟩
  | cons o os ih =>
    obtain ⟨a, h1, h2⟩ := simplify2_total ha (h o (by simp))
    obtain ⟨s, h3⟩ := ih a h2 (fun x hx => h x (by simp [hx]))
    exact ⟨s, by simp only [simplifyFold, h1, ok_bind, h3]⟩

/-- **C29**, existence: `simplify()` returns for every operator with 3-D Cartesian parameters, Pipes
of any length. -/
theorem C29_simplify_returns (u : StoredUnits) (hl : 0 < u.len) (hv : 0 < u.vel) (op : Op)
    (h : CartesianParams op) : ∃ s, op.simplify u = .ok s := by
  have hb : ∀ v : Vel ℝ, v.kind = .cart3 → ∃ b, velNegligible u v = .ok b := fun v hk =>
    (velNegligible_eq hv hk).elim (fun e => ⟨_, e.1⟩) (fun e => ⟨_, e.1⟩)
  have ht : ∀ d : Four, d.q.kind = .cart3 → ∃ b, simplifyTranslation u d = .ok b ∧
      CartesianParams b := fun d hk =>
    (simplifyTranslation_eq hl (valid3_of_cart3 hk)).elim (fun e => ⟨_, e.1, trivial⟩)
      (fun e => ⟨_, e.1, hk⟩)
  cases op with
  | identity => exact ⟨_, rfl⟩
  | rotation R => exact ⟨_, rfl⟩
  | spatial d =>
    have h : d.kind = .cart3 := h
    exact (simplifySpatial_eq hl (valid3_of_cart3 h)).elim (fun e => ⟨_, e.1⟩) (fun e => ⟨_, e.1⟩)
  | translation d => obtain ⟨b, e, _⟩ := ht d h; exact ⟨b, e⟩
  | boost v => obtain ⟨b, e⟩ := hb v h; exact ⟨_, by simp only [Op.simplify, e, ok_bind]; rfl⟩
  | vboost v => obtain ⟨b, e⟩ := hb v h; exact ⟨_, by simp only [Op.simplify, e, ok_bind]; rfl⟩
  | galilean R d v =>
    obtain ⟨h1, h2⟩ : d.q.kind = .cart3 ∧ v.kind = .cart3 := h
    obtain ⟨b, e, hb'⟩ := ht d h1
    obtain ⟨n, en⟩ := hb v h2
    simp only [Op.simplify, e, en, ok_bind]
    split <;>
    · split
      · refine simplifyFold_total _ _ trivial ?_
        intro o ho
        simp only [List.mem_cons, List.not_mem_nil, or_false] at ho
        rcases ho with rfl | rfl | rfl
        · rcases simplifyRotation_eq R with ⟨e, _⟩ | ⟨e, _⟩ <;> rw [e] <;> trivial
        · exact hb'
        · trivial
      · exact ⟨_, rfl⟩
  | pipe ops =>
    exact simplifyFold_total ops .identity trivial ((everyAll_iff ops).mp h)

/-- **C29, exception.** Rotations: two rotations in a row are fused in the wrong order. The Pipe applies
`R` first, `simplify()` gives the rotation `R S`, which applies `S` first; the two agree at all
points only if the matrices commute. -/
theorem C29_rotations_swapped (u : StoredUnits) (R S : Mat3) :
    (Op.pipe [.rotation R, .rotation S]).simplify u = .ok (.rotation (R * S)) ∧
    (∀ x y z t, (Op.pipe [.rotation R, .rotation S]).call (.posTime (.cart3 x y z) t)
      = (Op.rotation (S * R)).call (.posTime (.cart3 x y z) t)) ∧
    ((∀ x y z t, (Op.pipe [.rotation R, .rotation S]).call (.posTime (.cart3 x y z) t)
      = (Op.rotation (R * S)).call (.posTime (.cart3 x y z) t)) ↔ R * S = S * R) := by
  have hrot : ∀ (A : Mat3) (x y z t : ℝ), (Op.rotation A).call (.posTime (.cart3 x y z) t) =
      .ok (.posTime (matApply A x y z) t) := by
    intro A x y z t
    simp only [Op.call, callRotation, rotPos]
    rw [if_neg (fun h => h rfl), show representAs {} (.cart3 x y z) Kind.cart3 = .ok (.cart3 x y z) from
      representAs_self_cart _ _ rfl, ok_bind]
    simp only [Pos.kind]
    rw [show representAs {} (matApply A x y z) Kind.cart3 = .ok (matApply A x y z) from
      representAs_self_cart _ _ rfl]
    rfl
  have happ : ∀ (x y z : ℝ), ∃ a b c, matApply R x y z = .cart3 a b c ∧
      matApply S a b c = matApply (S * R) x y z := by
    intro x y z
    refine ⟨_, _, _, rfl, ?_⟩
    simp only [matApply, Matrix.mul_apply, Fin.sum_univ_three, Pos.cart3.injEq]
    refine ⟨?_, ?_, ?_⟩ <;> ring
  have h2 : ∀ x y z t, (Op.pipe [.rotation R, .rotation S]).call (.posTime (.cart3 x y z) t)
      = (Op.rotation (S * R)).call (.posTime (.cart3 x y z) t) := by
    intro x y z t
    rw [call_pipe rfl]
    simp only [callAll]
    obtain ⟨a, b, c, e1, e2⟩ := happ x y z
    rw [hrot, hrot, ok_bind, e1, hrot, e2]; rfl
  refine ⟨rfl, h2, fun h => ?_, fun h x y z t => by rw [h2, h]⟩
  have key : ∀ x y z, matApply (S * R) x y z = matApply (R * S) x y z := by
    intro x y z
    have := h x y z 0
    rw [h2, hrot, hrot] at this
    simpa using this
  have k1 := key 1 0 0
  have k2 := key 0 1 0
  have k3 := key 0 0 1
  simp only [matApply, Pos.cart3.injEq, mul_one, mul_zero, add_zero, zero_add] at k1 k2 k3
  ext i j
  fin_cases i <;> fin_cases j <;> simp_all

/-- **C29, exception**, for a concrete pair: quarter turns about z and x -/
theorem C29_rotations_swapped_example (u : StoredUnits) :
    ∃ R S : Mat3, Orthogonal R ∧ Orthogonal S ∧ ∃ s, (Op.pipe [.rotation R, .rotation S]).simplify u
      = .ok s ∧ ∃ x y z t, (Op.pipe [.rotation R, .rotation S]).call (.posTime (.cart3 x y z) t)
        ≠ s.call (.posTime (.cart3 x y z) t) := by
  refine ⟨!![0, -1, 0; 1, 0, 0; 0, 0, 1], !![1, 0, 0; 0, 0, -1; 0, 1, 0], quarterTurn_orthogonal, ?_,
    _, (C29_rotations_swapped u _ _).1, ?_⟩
  · unfold Orthogonal
    ext i j
    fin_cases i <;> fin_cases j <;> simp [Matrix.mul_apply, Fin.sum_univ_three, Matrix.transpose_apply]
  · by_contra h
    push Not at h
    have := (C29_rotations_swapped u _ _).2.2.mp h
    have := congrFun (congrFun this 0) 1
    simp [Matrix.mul_apply, Fin.sum_univ_three, Matrix.cons_val] at this

/-- **C29, exception.** Small parameters: a non-zero translation by `1e-9` length units is dropped,
whatever the units are. -/
theorem C29_small_dropped (u : StoredUnits) (hl : 0 < u.len) :
    (Op.spatial (.cart3 (1e-9 * u.len) 0 0)).simplify u = .ok .identity ∧
    point (.cart3 (1e-9 * u.len) 0 0) ≠ V3.zero ∧
    ∀ t, ∃ q', (Op.spatial (.cart3 (1e-9 * u.len) 0 0)).call (.posTime (.cart3 0 0 0) t)
      = .ok (.posTime q' t) ∧ point q' ≠ V3.zero := by
  have hne : point (.cart3 (1e-9 * u.len) 0 0) ≠ V3.zero := by
    intro h
    have := congrArg V3.x h
    simp only [point, V3.zero] at this
    have : 0 < 1e-9 * u.len := by positivity
    linarith
  have v3 : ∀ x : ℝ, Valid3 (.cart3 x 0 0) := fun x => ⟨trivial, rfl⟩
  refine ⟨?_, hne, fun t => ?_⟩
  · rcases simplifySpatial_eq hl (v3 (1e-9 * u.len)) with ⟨h, _⟩ | ⟨_, h⟩
    · exact h
    · rcases h with h | h | h
      · simp only [point] at h
        rw [abs_of_pos (by positivity)] at h
        nlinarith
      · simp only [point, abs_zero] at h
        have : (0 : ℝ) < 1e-8 * u.len := by positivity
        linarith
      · simp only [point, abs_zero] at h
        have : (0 : ℝ) < 1e-8 * u.len := by positivity
        linarith
  · have wf : WellFormed (.spatial (.cart3 (1e-9 * u.len) 0 0)) := v3 _
    obtain ⟨a, h⟩ := call_total (.spatial (.cart3 (1e-9 * u.len) 0 0)) wf (.cart3 0 0 0) t (v3 0)
      (Or.inl rfl)
    obtain ⟨q', t', rfl, s⟩ := call_sound _ wf _ _ _ (v3 0) h
    obtain ⟨e1, rfl⟩ := Prod.mk.inj s.act
    refine ⟨q', h, ?_⟩
    rw [e1]
    intro hz
    apply hne
    rw [← hz]
    simp [point, V3.add]

/-- **C29**, what is dropped is small: an operator that `simplify()` replaces by the identity moves no
coordinate of any point by more than the tolerance (for rotations, relative to the size of the
coordinates; for boosts, per unit of time). -/
theorem C29_dropped_is_small (u : StoredUnits) (hl : 0 < u.len) (hv : 0 < u.vel) (op : Op)
    (w : WellFormed op) (h : op.simplify u = .ok .identity) (x : V3) (t : ℝ) :
    match op with
    | .rotation _ => ¬ Exceeds ((act op (x, t)).1.sub x) ((1e-8 + 1e-5) * (|x.x| + |x.y| + |x.z|))
    | .spatial _ => ¬ Exceeds ((act op (x, t)).1.sub x) (1e-8 * u.len)
    | .translation d => ¬ Exceeds ((act op (x, t)).1.sub x) (1e-8 * u.len) ∧
        |d.c * ((act op (x, t)).2 - t)| ≤ 1e-8 * u.len
    | .boost _ => ¬ Exceeds ((act op (x, t)).1.sub x) (1e-8 * u.vel * |t|)
    | _ => True := by
  cases op with
  | rotation R =>
    rcases simplifyRotation_eq R with ⟨_, h2, h3⟩ | ⟨h1, _⟩
    · simp only [act, not_exceeds, V3.sub, mulV]
      have hoff : ∀ i j, i ≠ j → |R i j| ≤ 1e-8 + 1e-5 := fun i j hij =>
        (h3 i j hij).trans (by norm_num)
      have key : ∀ a b c p q r : ℝ, |a| ≤ 1e-8 + 1e-5 → |b| ≤ 1e-8 + 1e-5 → |c| ≤ 1e-8 + 1e-5 →
          |a * p + b * q + c * r| ≤ (1e-8 + 1e-5) * (|p| + |q| + |r|) := by
        intro a b c p q r ha hb hc
        calc |a * p + b * q + c * r| ≤ |a * p| + |b * q| + |c * r| := abs_add_three _ _ _
          _ = |a| * |p| + |b| * |q| + |c| * |r| := by rw [abs_mul, abs_mul, abs_mul]
          _ ≤ (1e-8 + 1e-5) * |p| + (1e-8 + 1e-5) * |q| + (1e-8 + 1e-5) * |r| := by gcongr
          _ = _ := by ring
      refine ⟨?_, ?_, ?_⟩
      · have := key (R 0 0 - 1) (R 0 1) (R 0 2) x.x x.y x.z (h2 0) (hoff _ _ (by decide))
          (hoff _ _ (by decide))
        convert this using 2; ring
      · have := key (R 1 0) (R 1 1 - 1) (R 1 2) x.x x.y x.z (hoff _ _ (by decide)) (h2 1)
          (hoff _ _ (by decide))
        convert this using 2; ring
      · have := key (R 2 0) (R 2 1) (R 2 2 - 1) x.x x.y x.z (hoff _ _ (by decide))
          (hoff _ _ (by decide)) (h2 2)
        convert this using 2; ring
    · have := h1.symm.trans (Except.ok.inj h)
      cases this
  | spatial d =>
    have w : Valid3 d := w
    rcases simplifySpatial_eq hl w with ⟨_, h2⟩ | ⟨h1, _⟩
    · simpa [act, V3.sub, V3.add, Exceeds] using h2
    · have := h1.symm.trans h; cases this
  | translation d =>
    have w : Valid3 d.q := w
    rcases simplifyTranslation_eq hl w with ⟨_, h2, h3⟩ | ⟨h1, _⟩
    · exact ⟨by simpa [act, V3.sub, V3.add, Exceeds] using h3, by simpa [act] using h2⟩
    · have := h1.symm.trans h; cases this
  | boost v =>
    have w : v.kind = .cart3 := w
    simp only [Op.simplify] at h
    rcases velNegligible_eq hv w with ⟨_, h2⟩ | ⟨h1, _⟩
    · have h2 := not_exceeds.mp h2
      have key : ∀ a : ℝ, |a| ≤ 1e-8 * u.vel → |t * a| ≤ 1e-8 * u.vel * |t| := by
        intro a ha
        rw [abs_mul, mul_comm]; gcongr
      simp only [act, not_exceeds, V3.sub, V3.add, V3.smul, add_sub_cancel_left]
      exact ⟨key _ h2.1, key _ h2.2.1, key _ h2.2.2⟩
    · rw [h1, ok_bind] at h; cases h
  | _ => trivial

/-- **C29, exception.** In two dimensions simplifying a planar translation raises (shapes `(2,)` and `(3,)`
do not broadcast), although the operator itself works. -/
theorem C29_planar_raises (u : StoredUnits) (a b x y : ℝ) :
    (Op.spatial (.cart2 a b)).simplify u = .error .mismatch ∧
    (Op.spatial (.cart2 a b)).call (.pos (.cart2 x y)) = .ok (.pos (.cart2 (x + a) (y + b))) := by
  constructor
  · simp only [Op.simplify, simplifySpatial, toQuantity, toCartesian]
    rw [show representAs {} (.cart2 a b) (Pos.cart2 a b : Pos ℝ).kind.cartesian = .ok (.cart2 a b) from
      representAs_self_cart _ _ rfl]
    simp only [ok_bind, Pos.cartComponents, closeToZeros]
    rfl
  · have h : addPos (.cart2 x y) (.cart2 a b) = (.ok (.cart2 (x + a) (y + b)) : Res (Pos ℝ)) := by
      show binPos _ _ _ = _
      rw [binPos_cart rfl]
      unfold binCart
      rw [show representAs {} (.cart2 a b) (Pos.cart2 x y : Pos ℝ).kind = .ok (.cart2 a b) from
        representAs_self_cart _ _ rfl]
      rfl
    simp only [Op.call, callSpatial, h]; rfl

/-- the hypotheses are met by a Pipe of two rotations about the same axis, a translation given in
cylindrical components and a boost -/
example : ∃ s, (Op.pipe [.rotation !![0, -1, 0; 1, 0, 0; 0, 0, 1], .rotation !![0, -1, 0; 1, 0, 0; 0, 0, 1],
      .spatial (.cart3 1 2 3), .spatial (.cyl 1 1 1), .boost (.cart3 1 0 0)]).simplify ⟨1, 1⟩ = .ok s ∧
    WellFormed (Op.pipe [.rotation !![0, -1, 0; 1, 0, 0; 0, 0, 1], .rotation !![0, -1, 0; 1, 0, 0; 0, 0, 1],
      .spatial (.cart3 1 2 3), .spatial (.cyl 1 1 1), .boost (.cart3 1 0 0)]) ∧
    RotationsCommute (Op.pipe [.rotation !![0, -1, 0; 1, 0, 0; 0, 0, 1], .rotation !![0, -1, 0; 1, 0, 0; 0, 0, 1],
      .spatial (.cart3 1 2 3), .spatial (.cyl 1 1 1), .boost (.cart3 1 0 0)]) := by
  refine ⟨_, rfl, ⟨trivial, trivial, ⟨trivial, rfl⟩, ⟨by norm_num [Valid], rfl⟩, rfl, trivial⟩, ?_⟩
  intro R S hR hS
  simp only [List.mem_cons, Op.rotation.injEq, List.not_mem_nil, reduceCtorEq, or_false, or_self] at hR hS
  rw [hR, hS]

/-- a Galilean operator without rotation is resolved -/
example : Resolved ⟨1, 1⟩ (.galilean 1 ⟨2, .cart3 0 0 3, 1⟩ (.cart3 0 0 0)) :=
  ⟨Or.inl rfl, Or.inr (Or.inl (by norm_num)), Or.inl rfl⟩

end Verif
