import Verif.Props.Simplify

/-!
# C29 exactly: when simplification keeps the action, and what it does otherwise

Property C29 of `/verif/properties.jsonl`.
-/

namespace Verif

open Spec Props

/-! ## Specification -/

/-- The rotations at the head of a list of operators (identities between them do not count), and the
operators after them. -/
def leadRotations : List Op → List Mat3 × List Op
  | .identity :: ops => leadRotations ops
  | .rotation R :: ops => (R :: (leadRotations ops).1, (leadRotations ops).2)
  | ops => ([], ops)

/-- The product of the rotations at the head of a Pipe does not depend on whether it is taken forwards
or backwards; no condition for an operator that is not a Pipe. -/
def LeadAgree : Op → Prop
  | .pipe ops => (leadRotations ops).1.prod = (leadRotations ops).1.reverse.prod
  | _ => True

/-! ## Lemmas -/

theorem mulV_inj {A B : Mat3} (h : ∀ v, mulV A v = mulV B v) : A = B := by
  have k1 := h ⟨1, 0, 0⟩
  have k2 := h ⟨0, 1, 0⟩
  have k3 := h ⟨0, 0, 1⟩
  simp only [mulV, V3.mk.injEq, mul_one, mul_zero, add_zero, zero_add] at k1 k2 k3
  ext i j
  fin_cases i <;> fin_cases j <;> simp_all

theorem v3_add_right_cancel {a b c : V3} (h : a.add c = b.add c) : a = b := by
  simp only [V3.add, V3.mk.injEq, add_left_inj] at h
  ext
  · exact h.1
  · exact h.2.1
  · exact h.2.2

theorem v3_add_left_cancel {a b c : V3} (h : c.add a = c.add b) : a = b := by
  simp only [V3.add, V3.mk.injEq, add_right_inj] at h
  ext
  · exact h.1
  · exact h.2.1
  · exact h.2.2

theorem v3_zero_add (a : V3) : V3.zero.add a = a := by simp [V3.add, V3.zero]

theorem v3_one_smul (a : V3) : V3.smul 1 a = a := by simp [V3.smul]

theorem v3_zero_smul (a : V3) : V3.smul 0 a = V3.zero := by simp [V3.smul, V3.zero]

theorem mulV_zero (A : Mat3) : mulV A V3.zero = V3.zero := by simp [mulV, V3.zero]

/-- rigid operators move different events to different events -/
theorem act_injective (op : Op) : Rigid op → ∀ e e', act op e = act op e' → e = e' := by
  induction op using Op.ind with
  | id | vb => intro _ e e' h; simpa [act] using h
  | rot R =>
    intro r e e' h
    simp only [act, Prod.mk.injEq] at h
    have := congrArg (mulV R.transpose) h.1
    rw [(Orthogonal.cancel r e.1).2, (Orthogonal.cancel r e'.1).2] at this
    exact Prod.ext this h.2
  | sp d =>
    intro _ e e' h
    simp only [act, Prod.mk.injEq] at h
    exact Prod.ext (v3_add_right_cancel h.1) h.2
  | tr d =>
    intro _ e e' h
    simp only [act, Prod.mk.injEq, add_left_inj] at h
    exact Prod.ext (v3_add_right_cancel h.1) h.2
  | bo v =>
    intro _ e e' h
    simp only [act, Prod.mk.injEq] at h
    obtain ⟨h1, h2⟩ := h
    rw [h2] at h1
    exact Prod.ext (v3_add_right_cancel h1) h2
  | ga R d v =>
    intro r e e' h
    simp only [act, Prod.mk.injEq, add_left_inj] at h
    obtain ⟨h1, h2⟩ := h
    rw [h2] at h1
    have h1 := v3_add_right_cancel (v3_add_right_cancel h1)
    have := congrArg (mulV R.transpose) h1
    rw [(Orthogonal.cancel r e.1).2, (Orthogonal.cancel r e'.1).2] at this
    exact Prod.ext this h2
  | pi ops ih =>
    intro r e e' h
    simp only [Rigid, Every, everyAll_iff] at r
    simp only [act] at h
    clear * - ih r h
    induction ops generalizing e e' with
    | nil => simpa [actAll] using h
    | cons o os ihl =>
      simp only [actAll] at h
      exact ih o (by simp) (r o (by simp)) _ _
        (ihl (fun x hx => ih x (by simp [hx])) _ _ h (fun x hx => r x (by simp [hx])))

theorem leadRotations_act (ops : List Op) (e : Event) : actAll ops e =
    actAll (leadRotations ops).2 (mulV (leadRotations ops).1.reverse.prod e.1, e.2) := by
  induction ops generalizing e with
  | nil => simp [leadRotations, mulV_one]
  | cons o os ih =>
    cases o with
    | identity => simp only [leadRotations, actAll, act]; exact ih e
    | rotation R =>
      simp only [leadRotations, actAll, act]
      rw [ih]
      simp [mulV_mul]
    | _ => simp [leadRotations, mulV_one]

theorem leadRotations_rigid (ops : List Op) (h : ∀ o ∈ ops, Rigid o) :
    ∀ o ∈ (leadRotations ops).2, Rigid o := by
  induction ops with
  | nil => simp [leadRotations]
  | cons o os ih =>
    have ih := ih (fun x hx => h x (by simp [hx]))
    cases o <;> first | exact ih | exact h

/-- once the accumulator is neither the identity nor a rotation, it stays so, and the fold keeps the
action -/
theorem fold_other (ops : List Op) (hw : ∀ o ∈ ops, WellFormed o) (acc s : Op) (ha : WellFormed acc)
    (h0 : acc ≠ .identity) (h1 : ∀ R, acc ≠ .rotation R) (h : simplifyFold acc ops = .ok s) :
    WellFormed s ∧ ∀ e, act s e = actAll ops (act acc e) := by
  induction ops generalizing acc with
  | nil =>
    obtain rfl := Except.ok.inj h
    exact ⟨ha, fun e => by simp [actAll]⟩
  | cons o os ih =>
    obtain ⟨acc', e1, e2⟩ := (bind_ok_iff _ _ _).mp h
    obtain ⟨w', f'⟩ := simplify2_spec ha (hw o (by simp)) (fun R S e => absurd e (h1 R)) e1
    have key : acc' ≠ .identity ∧ ∀ R, acc' ≠ .rotation R := by
      clear * - e1 h0 h1
      unfold simplify2 at e1
      split at e1
      · obtain rfl := Except.ok.inj e1; exact ⟨h0, h1⟩
      · exact absurd rfl h0
      · obtain rfl := Except.ok.inj e1; exact ⟨nofun, nofun⟩
      · obtain rfl := Except.ok.inj e1; exact ⟨nofun, nofun⟩
      · exact absurd rfl (h1 _)
      · obtain ⟨q, _, e⟩ := (bind_ok_iff _ _ _).mp e1; obtain rfl := Except.ok.inj e; exact ⟨nofun, nofun⟩
      · obtain ⟨q, _, e⟩ := (bind_ok_iff _ _ _).mp e1; obtain rfl := Except.ok.inj e; exact ⟨nofun, nofun⟩
      · obtain ⟨q, _, e⟩ := (bind_ok_iff _ _ _).mp e1; obtain rfl := Except.ok.inj e; exact ⟨nofun, nofun⟩
      · obtain ⟨q, _, e⟩ := (bind_ok_iff _ _ _).mp e1; obtain rfl := Except.ok.inj e; exact ⟨nofun, nofun⟩
      · obtain rfl := Except.ok.inj e1; exact ⟨nofun, nofun⟩
    obtain ⟨w, f⟩ := ih (fun x hx => hw x (by simp [hx])) acc' w' key.1 key.2 e2
    exact ⟨w, fun e => by rw [f, f']; simp [actAll]⟩

theorem fold_rotation (ops : List Op) (hw : ∀ o ∈ ops, WellFormed o) (A : Mat3) (s : Op)
    (h : simplifyFold (.rotation A) ops = .ok s) :
    WellFormed s ∧ ∀ e, act s e =
      actAll (leadRotations ops).2 (mulV (A * (leadRotations ops).1.prod) e.1, e.2) := by
  induction ops generalizing A with
  | nil =>
    obtain rfl := Except.ok.inj h
    exact ⟨trivial, fun e => by simp [actAll, leadRotations, act]⟩
  | cons o os ih =>
    have hw' : ∀ x ∈ os, WellFormed x := fun x hx => hw x (by simp [hx])
    obtain ⟨acc', e1, e2⟩ := (bind_ok_iff _ _ _).mp h
    cases o with
    | identity =>
      simp only [simplify2] at e1
      obtain rfl := Except.ok.inj e1
      exact ih hw' A e2
    | rotation S =>
      simp only [simplify2] at e1
      obtain rfl := Except.ok.inj e1
      obtain ⟨w, f⟩ := ih hw' (A * S) e2
      exact ⟨w, fun e => by rw [f]; simp [leadRotations, Matrix.mul_assoc]⟩
    | _ =>
      simp only [simplify2] at e1
      obtain rfl := Except.ok.inj e1
      obtain ⟨w, f⟩ := fold_other os hw' _ s (wf_pipe.mpr (by
        intro x hx
        simp only [List.mem_cons, List.not_mem_nil, or_false] at hx
        rcases hx with rfl | rfl
        · trivial
        · exact hw _ (by simp))) nofun nofun e2
      exact ⟨w, fun e => by rw [f]; simp [leadRotations, act, actAll]⟩

theorem fold_identity (ops : List Op) (hw : ∀ o ∈ ops, WellFormed o) (s : Op)
    (h : simplifyFold .identity ops = .ok s) :
    WellFormed s ∧ ∀ e, act s e =
      actAll (leadRotations ops).2 (mulV (leadRotations ops).1.prod e.1, e.2) := by
  induction ops with
  | nil =>
    obtain rfl := Except.ok.inj h
    exact ⟨trivial, fun e => by simp [actAll, leadRotations, act, mulV_one]⟩
  | cons o os ih =>
    have hw' : ∀ x ∈ os, WellFormed x := fun x hx => hw x (by simp [hx])
    obtain ⟨acc', e1, e2⟩ := (bind_ok_iff _ _ _).mp h
    cases o with
    | identity =>
      simp only [simplify2] at e1
      obtain rfl := Except.ok.inj e1
      exact ih hw' e2
    | rotation S =>
      simp only [simplify2] at e1
      obtain rfl := Except.ok.inj e1
      obtain ⟨w, f⟩ := fold_rotation os hw' S s e2
      exact ⟨w, fun e => by rw [f]; simp [leadRotations]⟩
    | _ =>
      simp only [simplify2] at e1
      have e1 := (Except.ok.inj e1).symm
      obtain ⟨w, f⟩ := fold_other os hw' acc' s (e1 ▸ hw _ (List.mem_cons_self ..))
        (by rw [e1]; nofun) (by rw [e1]; nofun) e2
      subst e1
      exact ⟨w, fun e => by rw [f]; simp [leadRotations, act, actAll, mulV_one]⟩

/-- the simplified operator is well formed, whatever is dropped -/
theorem simplify_exact (u : StoredUnits) (hl : 0 < u.len) (hv : 0 < u.vel) (op s : Op)
    (w : WellFormed op) (r : Rigid op) (h : op.simplify u = .ok s) :
    WellFormed s ∧ ((∀ e, act s e = act op e) ↔ Resolved u op ∧ LeadAgree op) := by
  have hrot : ∀ R : Mat3, ∃ R', WellFormed (simplifyRotation R) ∧
      (∀ e, act (simplifyRotation R) e = (mulV R' e.1, e.2)) ∧ (R' = R → ResolvedRotation R) := by
    intro R
    rcases simplifyRotation_eq R with ⟨h1, _⟩ | ⟨h1, h2⟩
    · exact ⟨1, by rw [h1]; trivial, fun e => by rw [h1]; simp [act, mulV_one], fun e => Or.inl e.symm⟩
    · refine ⟨R, by rw [h1]; trivial, fun e => by rw [h1]; simp [act], fun _ => Or.inr ?_⟩
      by_contra hn
      push Not at hn
      exact h2 ⟨hn.1, hn.2⟩
  have htr : ∀ (d : Four) (b : Op), Valid3 d.q → simplifyTranslation u d = .ok b → ∃ x' τ',
      WellFormed b ∧ (∀ e, act b e = (e.1.add x', e.2 + τ')) ∧ (∀ S, b ≠ .rotation S) ∧
      (x' = point d.q → τ' = d.t → ResolvedTranslation u d) := by
    intro d b hd hb
    rcases simplifyTranslation_eq hl hd with ⟨h1, _⟩ | ⟨h1, h2⟩
    · obtain rfl := Except.ok.inj (h1.symm.trans hb)
      exact ⟨V3.zero, 0, trivial, fun e => by simp [act, v3_add_zero], nofun,
        fun e1 e2 => Or.inl ⟨e2.symm, e1.symm⟩⟩
    · obtain rfl := Except.ok.inj (h1.symm.trans hb)
      exact ⟨point d.q, d.t, hd, fun e => by simp [act], nofun, fun _ _ => Or.inr h2⟩
  have hbo : ∀ (v : Vel ℝ) (n : Bool), v.kind = .cart3 → velNegligible u v = .ok n → ∃ v',
      WellFormed (if n = true then Op.identity else .boost v) ∧
      (∀ e, act (if n = true then Op.identity else .boost v) e = (e.1.add (V3.smul e.2 v'), e.2)) ∧
      (∀ S, (if n = true then Op.identity else .boost v) ≠ .rotation S) ∧
      (v' = velV v → ResolvedVel u v) := by
    intro v n hk hn
    rcases velNegligible_eq hv hk with ⟨h1, _⟩ | ⟨h1, h2⟩
    · obtain rfl := Except.ok.inj (h1.symm.trans hn)
      exact ⟨V3.zero, trivial, fun e => by simp [act, smul_zero', v3_add_zero], nofun,
        fun e => Or.inl e.symm⟩
    · obtain rfl := Except.ok.inj (h1.symm.trans hn)
      rw [if_neg (by decide)]
      exact ⟨velV v, hk, fun e => by simp [act], nofun, fun _ => Or.inr h2⟩
  have back : op.isPipe = false → Resolved u op → ∀ e, act s e = act op e := by
    intro hp hr
    exact (simplify_act u hl hv op s w hr (by cases op <;> first | trivial | cases hp) h).2
  cases op with
  | identity =>
    obtain rfl := Except.ok.inj h
    exact ⟨w, iff_of_true (fun _ => rfl) ⟨trivial, trivial⟩⟩
  | vboost v =>
    have hs : WellFormed s := by
      simp only [Op.simplify] at h
      obtain ⟨b, _, h⟩ := (bind_ok_iff _ _ _).mp h
      cases b <;> (obtain rfl := Except.ok.inj h; trivial)
    exact ⟨hs, iff_of_true (back rfl trivial) ⟨trivial, trivial⟩⟩
  | rotation R =>
    obtain rfl := Except.ok.inj h
    obtain ⟨R', h1, h2, h3⟩ := hrot R
    refine ⟨h1, fun f => ⟨h3 (mulV_inj fun v => ?_), trivial⟩, fun k => back rfl k.1⟩
    have := f (v, 0)
    rw [h2] at this
    simp only [act, Prod.mk.injEq] at this
    exact this.1
  | spatial d =>
    have w' : Valid3 d := w
    rcases simplifySpatial_eq hl w' with ⟨h1, _⟩ | ⟨h1, h2⟩
    · have : Op.identity = s := Except.ok.inj (h1.symm.trans h)
      subst this
      refine ⟨trivial, fun f => ⟨Or.inl ?_, trivial⟩, fun k => back rfl k.1⟩
      have := f (V3.zero, 0)
      simp only [act, Prod.mk.injEq, v3_zero_add] at this
      exact this.1.symm
    · have : Op.spatial d = s := Except.ok.inj (h1.symm.trans h)
      subst this
      exact ⟨w, iff_of_true (fun _ => rfl) ⟨Or.inr h2, trivial⟩⟩
  | translation d =>
    obtain ⟨x', τ', h1, h2, _, h3⟩ := htr d s w h
    refine ⟨h1, fun f => ⟨?_, trivial⟩, fun k => back rfl k.1⟩
    have := f (V3.zero, 0)
    rw [h2] at this
    simp only [act, Prod.mk.injEq, v3_zero_add, zero_add] at this
    exact h3 this.1 this.2
  | boost v =>
    simp only [Op.simplify] at h
    obtain ⟨n, hn, h⟩ := (bind_ok_iff _ _ _).mp h
    obtain ⟨v', h1, h2, _, h3⟩ := hbo v n w hn
    have : (if n = true then Op.identity else .boost v) = s := by
      cases n <;> exact Except.ok.inj h
    subst this
    refine ⟨h1, fun f => ⟨h3 ?_, trivial⟩, fun k => back rfl k.1⟩
    have := f (V3.zero, 1)
    rw [h2] at this
    simp only [act, Prod.mk.injEq, v3_zero_add] at this
    rw [v3_one_smul, v3_one_smul] at this
    exact this.1
  | galilean R d v =>
    obtain ⟨w1, w2⟩ : Valid3 d.q ∧ v.kind = .cart3 := w
    have h' := h
    simp only [Op.simplify] at h
    obtain ⟨b, hb, h⟩ := (bind_ok_iff _ _ _).mp h
    obtain ⟨n, hn, h⟩ := (bind_ok_iff _ _ _).mp h
    obtain ⟨R', a1, a2, a3⟩ := hrot R
    obtain ⟨x', τ', b1, b2, b3, b4⟩ := htr d b w1 hb
    obtain ⟨v', c1, c2, c3, c4⟩ := hbo v n w2 hn
    have h : (if ((simplifyRotation R).isIdentity || b.isIdentity ||
        (if n = true then Op.identity else .boost v).isIdentity) = true then
        simplifyFold .identity [simplifyRotation R, b, if n = true then Op.identity else .boost v]
        else .ok (.galilean R d v)) = .ok s := by cases n <;> exact h
    by_cases hi : ((simplifyRotation R).isIdentity || b.isIdentity ||
        (if n = true then Op.identity else .boost v).isIdentity) = true
    · rw [if_pos hi] at h
      have only : ∀ S, Op.rotation S ∈ [simplifyRotation R, b,
          if n = true then Op.identity else .boost v] → simplifyRotation R = .rotation S := by
        intro S hS
        simp only [List.mem_cons, List.not_mem_nil, or_false] at hS
        rcases hS with hS | hS | hS
        · exact hS.symm
        · exact absurd hS.symm (b3 S)
        · exact absurd hS.symm (c3 S)
      have g := simplifyFold_spec _ (by
          intro o ho
          simp only [List.mem_cons, List.not_mem_nil, or_false] at ho
          rcases ho with rfl | rfl | rfl
          · exact a1
          · exact b1
          · exact c1) (by
          intro A B hA hB
          have := (only A hA).symm.trans (only B hB)
          obtain rfl := Op.rotation.inj this
          rfl) .identity s trivial (fun S _ A e => by cases e) h
      have gs : ∀ e : Event, act s e =
          (((mulV R' e.1).add x').add (V3.smul (e.2 + τ') v'), e.2 + τ') := by
        intro e
        rw [g.2]
        simp only [actAll, a2, b2, c2]
        simp [act]
      refine ⟨g.1, fun f => ?_, fun k => back rfl k.1⟩
      have f' : ∀ e : Event, (((mulV R' e.1).add x').add (V3.smul (e.2 + τ') v'), e.2 + τ') =
          (((mulV R e.1).add (point d.q)).add (V3.smul (e.2 + d.t) (velV v)), e.2 + d.t) := by
        intro e
        rw [← gs, f]; simp [act]
      have eτ : τ' = d.t := by
        have := (Prod.mk.inj (f' (V3.zero, 0))).2
        simpa using this
      rw [eτ] at f'
      have ex : x' = point d.q := by
        have := (Prod.mk.inj (f' (V3.zero, -d.t))).1
        simp only [mulV_zero, v3_zero_add, neg_add_cancel, v3_zero_smul, v3_add_zero] at this
        exact this
      have ev : v' = velV v := by
        have := (Prod.mk.inj (f' (V3.zero, 1 - d.t))).1
        simp only [mulV_zero, v3_zero_add, sub_add_cancel, v3_one_smul, ex] at this
        exact v3_add_left_cancel this
      have eR : R' = R := by
        refine mulV_inj fun x => ?_
        have := (Prod.mk.inj (f' (x, 0))).1
        rw [ex, ev] at this
        exact v3_add_right_cancel (v3_add_right_cancel this)
      exact ⟨⟨a3 eR, b4 ex eτ, c4 ev⟩, trivial⟩
    · rw [if_neg hi] at h
      have : Op.galilean R d v = s := Except.ok.inj h
      subst this
      refine ⟨⟨w1, w2⟩, iff_of_true (fun _ => rfl) ⟨⟨?_, ?_, ?_⟩, trivial⟩⟩
      · simp only [Bool.or_eq_true, not_or] at hi
        rcases simplifyRotation_eq R with ⟨h1, _⟩ | ⟨h1, h2⟩
        · rw [h1] at hi; exact absurd rfl hi.1.1
        · refine Or.inr ?_
          by_contra hn
          push Not at hn
          exact h2 ⟨hn.1, hn.2⟩
      · simp only [Bool.or_eq_true, not_or] at hi
        rcases simplifyTranslation_eq hl w1 with ⟨h1, _⟩ | ⟨h1, h2⟩
        · obtain rfl := Except.ok.inj (h1.symm.trans hb); exact absurd rfl hi.1.2
        · exact Or.inr h2
      · simp only [Bool.or_eq_true, not_or] at hi
        rcases velNegligible_eq hv w2 with ⟨h1, _⟩ | ⟨h1, h2⟩
        · obtain rfl := Except.ok.inj (h1.symm.trans hn); exact absurd rfl hi.2
        · exact Or.inr h2
  | pipe ops =>
    obtain ⟨g1, g2⟩ := fold_identity ops (wf_pipe.mp w) s h
    simp only [Rigid, Every, everyAll_iff] at r
    refine ⟨g1, fun f => ⟨trivial, mulV_inj fun x => ?_⟩, fun k e => ?_⟩
    · have := f (x, 0)
      rw [g2] at this
      simp only [act] at this
      rw [leadRotations_act ops] at this
      have inj := act_injective (.pipe (leadRotations ops).2) (by
        simp only [Rigid, Every, everyAll_iff]
        exact leadRotations_rigid ops r) _ _ (by simp only [act]; exact this)
      exact (Prod.mk.inj inj).1
    · rw [g2, show (leadRotations ops).1.prod = _ from k.2]
      simp only [act]
      rw [← leadRotations_act]

/-! ## Theorems -/

/-- **C29, exactly.** Let `s` be the simplified operator. On `CartesianPos3D` arguments both always
return, and they return the same for all arguments iff every parameter of a single operator is
trivial or above the tolerance and the rotations at the head of a Pipe have the same product
forwards and backwards. -/
theorem C29_simplify_iff (u : StoredUnits) (hl : 0 < u.len) (hv : 0 < u.vel) (op s : Op)
    (w : WellFormed op) (r : Rigid op) (h : op.simplify u = .ok s) :
    (∀ x y z t, ∃ x' y' z' t', s.call (.posTime (.cart3 x y z) t) = .ok (.posTime (.cart3 x' y' z') t')) ∧
    ((∀ x y z t, s.call (.posTime (.cart3 x y z) t) = op.call (.posTime (.cart3 x y z) t)) ↔
      Resolved u op ∧ LeadAgree op) := by
  obtain ⟨ws, e⟩ := simplify_exact u hl hv op s w r h
  have one : ∀ o : Op, WellFormed o → ∀ x y z t, o.call (.posTime (.cart3 x y z) t) =
      .ok (.posTime (.cart3 (act o (⟨x, y, z⟩, t)).1.x (act o (⟨x, y, z⟩, t)).1.y
        (act o (⟨x, y, z⟩, t)).1.z) (act o (⟨x, y, z⟩, t)).2) := by
    intro o wo x y z t
    have hq : Valid3 (.cart3 x y z) := ⟨trivial, rfl⟩
    obtain ⟨a, h1⟩ := call_total o wo _ t hq (Or.inl rfl)
    obtain ⟨q', t', rfl, m⟩ := call_sound o wo _ t a hq h1
    have hk := m.kind
    have ha := m.act
    cases q' <;> first | (cases hk; done) | skip
    rw [h1, show act o (⟨x, y, z⟩, t) = _ from ha.symm]
    rfl
  refine ⟨fun x y z t => ⟨_, _, _, _, one s ws x y z t⟩, ?_⟩
  rw [← e]
  constructor
  · intro f e
    obtain ⟨⟨x, y, z⟩, t⟩ := e
    have := f x y z t
    rw [one s ws, one op w] at this
    simp only [Except.ok.injEq, Arg.posTime.injEq, Pos.cart3.injEq] at this
    exact Prod.ext (V3.ext this.1.1 this.1.2.1 this.1.2.2) this.2
  · intro f x y z t
    rw [one s ws, one op w, f]

/-- **C29, every class.** Whatever the class of the position: if the condition of `C29_simplify_iff`
holds, the two calls, when they return, give the same event in the class of the input. -/
theorem C29_simplify_any_class (u : StoredUnits) (hl : 0 < u.len) (hv : 0 < u.vel) (op s : Op)
    (w : WellFormed op) (r : Rigid op) (h : op.simplify u = .ok s) (hc : Resolved u op ∧ LeadAgree op)
    (q : Pos ℝ) (t : ℝ) (hq : Valid3 q) (a b : Arg)
    (h1 : op.call (.posTime q t) = .ok a) (h2 : s.call (.posTime q t) = .ok b) :
    ∃ q₁ q₂ t', a = .posTime q₁ t' ∧ b = .posTime q₂ t' ∧ q₁.kind = q.kind ∧ q₂.kind = q.kind ∧
      Valid q₁ ∧ Valid q₂ ∧ point q₁ = point q₂ := by
  obtain ⟨ws, e⟩ := simplify_exact u hl hv op s w r h
  obtain ⟨q₁, t₁, rfl, s₁⟩ := call_sound op w q t a hq h1
  obtain ⟨q₂, t₂, rfl, s₂⟩ := call_sound s ws q t b hq h2
  have g := s₂.act
  rw [e.mpr hc, ← s₁.act] at g
  obtain ⟨e1, rfl⟩ := Prod.mk.inj g
  exact ⟨q₁, q₂, _, rfl, rfl, s₁.kind, s₂.kind, s₁.valid, s₂.valid, e1.symm⟩

/-- **C29, what a simplified Pipe does.** Only the rotations at its head are fused, into their product
`R₁ R₂ ⋯`, which applies them in the reverse order; then follow the other operators. -/
theorem C29_pipe_simplified (u : StoredUnits) (ops : List Op) (s : Op) (w : WellFormed (.pipe ops))
    (h : (Op.pipe ops).simplify u = .ok s) (e : Event) :
    act s e = actAll (leadRotations ops).2 (mulV (leadRotations ops).1.prod e.1, e.2) ∧
    act (.pipe ops) e =
      actAll (leadRotations ops).2 (mulV (leadRotations ops).1.reverse.prod e.1, e.2) :=
  ⟨(fold_identity ops (wf_pipe.mp w) s h).2 e, by simp only [act]; exact leadRotations_act ops e⟩

/-- the condition is met by rotations that are separated by a translation, commuting or not -/
example (u : StoredUnits) (hl : 0 < u.len) (hv : 0 < u.vel) (R S : Mat3) (hR : Orthogonal R)
    (hS : Orthogonal S) : ∃ s,
    (Op.pipe [.rotation R, .spatial (.cart3 1 2 3), .rotation S]).simplify u = .ok s ∧
    ∀ x y z t, s.call (.posTime (.cart3 x y z) t) =
      (Op.pipe [.rotation R, .spatial (.cart3 1 2 3), .rotation S]).call (.posTime (.cart3 x y z) t) := by
  have w : WellFormed (.pipe [.rotation R, .spatial (.cart3 1 2 3), .rotation S]) :=
    ⟨trivial, ⟨trivial, rfl⟩, trivial, trivial⟩
  obtain ⟨s, hs⟩ := C29_simplify_returns u hl hv
    (.pipe [.rotation R, .spatial (.cart3 1 2 3), .rotation S]) ⟨trivial, rfl, trivial, trivial⟩
  exact ⟨s, hs, (C29_simplify_iff u hl hv _ s w ⟨hR, trivial, hS, trivial⟩ hs).2.mpr
    ⟨trivial, by simp [LeadAgree, leadRotations]⟩⟩

/-- **C29, boosts of every velocity class.** A boost by a one-dimensional velocity (Cartesian or radial)
simplifies to the identity iff its stored number is at most `1e-8` in absolute value, one by a Cartesian 3-D velocity
iff all three are; otherwise it is left alone.  A two-dimensional one raises (its shape does not broadcast to `(3,)`)
and so does a velocity that has no conversion to a Quantity. -/
theorem C29_boost_simplify (u : StoredUnits) (hu : 0 < u.vel) (mk : Vel ℝ → Op) (hm : mk = .boost ∨ mk = .vboost) :
    (∀ v a, v = .cart1 a ∨ v = .radial a →
      (|a| ≤ 1e-8 * u.vel → (mk v).simplify u = .ok .identity) ∧
      (1e-8 * u.vel < |a| → (mk v).simplify u = .ok (mk v))) ∧
    (∀ a b c, (|a| ≤ 1e-8 * u.vel ∧ |b| ≤ 1e-8 * u.vel ∧ |c| ≤ 1e-8 * u.vel →
        (mk (.cart3 a b c)).simplify u = .ok .identity) ∧
      (1e-8 * u.vel < |a| ∨ 1e-8 * u.vel < |b| ∨ 1e-8 * u.vel < |c| →
        (mk (.cart3 a b c)).simplify u = .ok (mk (.cart3 a b c)))) ∧
    (∀ a b, (mk (.cart2 a b)).simplify u = .error .mismatch) ∧
    (∀ v : Vel ℝ, v.kind ≠ .cart1 → v.kind ≠ .radial → v.kind ≠ .cart2 → v.kind ≠ .cart3 →
      (mk v).simplify u = .error .noDispatch) := by
  have key : ∀ v, (mk v).simplify u = (do return if ← velNegligible u v then .identity else mk v) := by
    intro v
    rcases hm with rfl | rfl <;> simp only [Op.simplify]
  have yes : ∀ v, velNegligible u v = .ok true → (mk v).simplify u = .ok .identity := by
    intro v h; rw [key, h, ok_bind]; rfl
  have no : ∀ v, velNegligible u v = .ok false → (mk v).simplify u = .ok (mk v) := by
    intro v h; rw [key, h, ok_bind]; rfl
  refine ⟨fun v a hv => ?_, fun a b c => ?_, fun a b => ?_, fun v h1 h2 h3 h4 => ?_⟩
  · have e : velNegligible u v = .ok (isClose (a / u.vel) 0) := by
      rcases hv with rfl | rfl <;> simp [velNegligible, velToQuantity, closeToZeros, ok_bind]
    constructor
    · intro h
      exact yes v (by rw [e, (isClose_zero_div hu _).mpr h])
    · intro h
      refine no v ?_
      rw [e]
      congr 1
      rw [Bool.eq_false_iff]
      exact fun hh => absurd ((isClose_zero_div hu _).mp hh) (not_le.mpr h)
  · rcases velNegligible_eq hu (v := .cart3 a b c) rfl with ⟨h1, h2⟩ | ⟨h1, h2⟩
    · refine ⟨fun _ => yes _ h1, fun h => absurd ?_ h2⟩
      by_contra hn
      obtain ⟨n1, n2, n3⟩ := not_exceeds.mp hn
      rcases h with h | h | h
      · exact absurd n1 (not_le.mpr h)
      · exact absurd n2 (not_le.mpr h)
      · exact absurd n3 (not_le.mpr h)
    · refine ⟨fun h => absurd h2 (not_exceeds.mpr h), fun _ => no _ h1⟩
  · rw [key]
    simp [velNegligible, velToQuantity, closeToZeros, ok_bind, error_bind]
  · rw [key]
    have e : velToQuantity v = .error .noDispatch := by
      cases v <;> first | rfl | exact absurd rfl h1 | exact absurd rfl h2 | exact absurd rfl h3 | exact absurd rfl h4
    unfold velNegligible
    rw [e, error_bind, error_bind]

/-- the first condition is met by a radial boost of `0`, the second by one of `1` in the stored unit -/
example (u : StoredUnits) (hu : 0 < u.vel) : (Op.vboost (.radial 0)).simplify u = .ok .identity ∧
    (Op.vboost (.radial u.vel)).simplify u = .ok (.vboost (.radial u.vel)) :=
  ⟨((C29_boost_simplify u hu .vboost (.inr rfl)).1 _ 0 (.inr rfl)).1 (by simp; positivity),
    ((C29_boost_simplify u hu .vboost (.inr rfl)).1 _ u.vel (.inr rfl)).2 (by rw [abs_of_pos hu]; linarith)⟩

end Verif
