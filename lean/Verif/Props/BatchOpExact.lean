import Verif.Props.BatchExact
import Verif.Props.BatchOp

/-!
# C60: exactly when does an operator with array parameters return on a batch?

If the scalar call returns at every index, only shapes can make the call on the batches raise. `Accepts` says which shapes:
every sum of positions must be possible component by component (`Addable`), every sum of velocities likewise, and every
four-vector that is built must pass the shape check of the class (`TimeFits`).
-/

namespace Verif

open List Spec

namespace Spec

/-- the batches `q` and `d` can be added: component by component, the shapes of their Cartesian forms are combined by
`jax.lax` -/
def Addable (q d : Pos BArr) : Prop := ∃ C D, representAsB {} q q.kind.cartesian = .ok C ∧
  representAsB {} d q.kind.cartesian = .ok D ∧ Combine C D

/-- the shape check of `FourVector(t=t, q=q)` -/
def TimeFits (t : BArr) (q : Pos BArr) : Prop :=
  ∃ s, IsBroadcast ((coordsOf q).map fun a => a.shape) s ∧ BroadcastsTo t.shape s

/-- the shapes one operator that is not a sequence needs -/
def StepAccepts : OpB → ArgB → Prop
  | .rotation R, .four x => ∀ Q, rotPosB R x.q = .ok Q → TimeFits x.t Q
  | .spatial d, .pos q => Addable q d
  | .spatial d, .posTime q _ => Addable q d
  | .spatial d, .four x => Addable x.q d ∧ ∀ Q, addPosB x.q d = .ok Q → TimeFits x.t Q
  | .translation d, .posTime q _ => Addable q d.q
  | .translation d, .four x => Addable x.q d.q ∧
    ∀ T Q, badd x.t d.t = .ok T → addPosB x.q d.q = .ok Q → TimeFits T Q
  | .boost v, .posTime q t => ∀ d, velTimesB v t = .ok d → Addable q d
  | .boost v, .four x => ∀ d, velTimesB v x.t = .ok d →
    Addable x.q d ∧ ∀ Q, addPosB x.q d = .ok Q → TimeFits x.t Q
  | .vboost v, .vel p => Forall₂ (fun a b : BArr => LaxFit a.shape b.shape) (velComps p) (velComps v)
  | .vboost v, .posVel _ p => Forall₂ (fun a b : BArr => LaxFit a.shape b.shape) (velComps p) (velComps v)
  | .vboost _, .four x => TimeFits x.t x.q
  | _, _ => True

mutual
/-- the shapes an operator needs: a sequence needs them step by step -/
def Accepts : OpB → ArgB → Prop
  | .galilean R d v, A => StepAccepts (.rotation R) A ∧ ∀ B, callRotationB R A = .ok B →
    StepAccepts (.translation d) B ∧ ∀ C, callTranslationB d B = .ok C → StepAccepts (.boost v) C
  | .pipe ops, A => AcceptsAll ops A
  | op, A => StepAccepts op A

def AcceptsAll : List OpB → ArgB → Prop
  | [], _ => True
  | op :: ops, A => Accepts op A ∧ ∀ B, op.call A = .ok B → AcceptsAll ops B
end

end Spec

section
variable {D : Set (List ℕ)} {S : List ℕ}

theorem addable_iff (hF : Full D S) {q d : Pos BArr} (hq : DefP D S q) (hd : DefP D S d)
    (h : ∀ i ∈ D, ∃ r, addPos (q.elemD i) (d.elemD i) = .ok r) : (∃ Q, addPosB q d = .ok Q) ↔ Addable q d := by
  obtain ⟨C, E, h1, h2, h3⟩ := binPosB_returns_def isLax_add hF hq hd h
  refine h3.trans ⟨fun h => ⟨C, E, h1, h2, h⟩, fun ⟨C', E', e1, e2, h⟩ => ?_⟩
  rw [h1] at e1; rw [h2] at e2
  obtain rfl := Except.ok.inj e1
  obtain rfl := Except.ok.inj e2
  exact h

theorem timeFits_iff {t : BArr} {q : Pos BArr} {c : ℝ} : (∃ x, mkFourB t q c = .ok x) ↔ TimeFits t q :=
  ⟨fun ⟨x, h⟩ => ((C60_four_shape t q c x).mp h).2, fun h => ⟨_, (C60_four_shape t q c _).mpr ⟨rfl, h⟩⟩⟩

/-- two steps -/
theorem two_steps {α β : Type} {x : Res α} {g : α → Res β} :
    (∃ b, (x >>= g) = .ok b) ↔ (∃ a, x = .ok a) ∧ ∀ a, x = .ok a → ∃ b, g a = .ok b := by
  cases x with
  | ok a =>
    simp only [ok_bind]
    exact ⟨fun ⟨b, h⟩ => ⟨⟨a, rfl⟩, fun a' e => by obtain rfl := Except.ok.inj e; exact ⟨b, h⟩⟩, fun ⟨_, h⟩ => h a rfl⟩
  | error e =>
    simp only [error_bind]
    exact ⟨fun ⟨b, h⟩ => (by cases h), fun ⟨⟨a, h⟩, _⟩ => (by cases h)⟩

theorem first_pos {α : Type} {s : List ℕ → Res (Pos ℝ)} {g : List ℕ → Pos ℝ → Res α}
    (h : ∀ i ∈ D, ∃ r, (s i >>= g i) = .ok r) : ∀ i ∈ D, ∃ r, s i = .ok r := fun i hi => by
  obtain ⟨r, hr⟩ := h i hi
  obtain ⟨q, hq, -⟩ := (bind_ok_iff _ _ _).mp hr
  exact ⟨q, hq⟩

theorem ret_iff {α β : Type} {x : Res α} {f : α → β} : (∃ b, (do return f (← x)) = Except.ok (ε := Err) b) ↔ ∃ a, x = .ok a := by
  cases x with
  | ok a => exact ⟨fun _ => ⟨a, rfl⟩, fun _ => ⟨f a, rfl⟩⟩
  | error e => exact ⟨fun ⟨b, h⟩ => (by cases h), fun ⟨a, h⟩ => (by cases h)⟩

theorem callRotationB_iff (hF : Full D S) (R : Mat3) {A : ArgB} (hA : DefL D S A.arrays)
    (h : ∀ i ∈ D, ∃ r, callRotation R (A.elemD i) = .ok r) :
    (∃ Q, callRotationB R A = .ok Q) ↔ StepAccepts (.rotation R) A := by
  obtain ⟨i0, h0⟩ := hF.nonempty
  cases A with
  | pos q =>
    obtain ⟨Q, hQ⟩ := (rotPosB_sim (T := True) hF.inB R hA).total trivial hF (first_pos h)
    exact ⟨fun _ => trivial, fun _ => ⟨.pos Q, by simp only [callRotationB, hQ, ok_bind]; rfl⟩⟩
  | posTime q t =>
    obtain ⟨ht, hq⟩ := defL_cons.mp hA
    obtain ⟨Q, hQ⟩ := (rotPosB_sim (T := True) hF.inB R hq).total trivial hF (first_pos h)
    exact ⟨fun _ => trivial, fun _ => ⟨.posTime Q t, by simp only [callRotationB, hQ, ok_bind]; rfl⟩⟩
  | four x =>
    obtain ⟨ht, hq⟩ := defL_cons.mp hA
    obtain ⟨Q, hQ⟩ := (rotPosB_sim (T := True) hF.inB R hq).total trivial hF (first_pos h)
    have e : callRotationB R (.four x) = do return .four (← mkFourB x.t Q lightSpeed) := by
      simp only [callRotationB, hQ, ok_bind]
    rw [e, ret_iff, timeFits_iff]
    exact ⟨fun h Q' e => by rw [hQ] at e; obtain rfl := Except.ok.inj e; exact h, fun h => h Q hQ⟩
  | posVel => obtain ⟨r, hr⟩ := h i0 h0; cases hr
  | vel => obtain ⟨r, hr⟩ := h i0 h0; cases hr

theorem callSpatialB_iff (hF : Full D S) {d : Pos BArr} (hd : DefP D S d)
    {A : ArgB} (hA : DefL D S A.arrays) (hp : ∀ q p, A ≠ .posVel q p)
    (h : ∀ i ∈ D, ∃ r, callSpatial (d.elemD i) (A.elemD i) = .ok r) :
    (∃ Q, callSpatialB d A = .ok Q) ↔ StepAccepts (.spatial d) A := by
  obtain ⟨i0, h0⟩ := hF.nonempty
  cases A with
  | pos q =>
    simp only [callSpatialB, StepAccepts]
    rw [ret_iff]; exact addable_iff hF hA hd (first_pos h)
  | posTime q t =>
    obtain ⟨ht, hq⟩ := defL_cons.mp hA
    simp only [callSpatialB, StepAccepts]
    rw [ret_iff]; exact addable_iff hF hq hd (first_pos h)
  | four x =>
    obtain ⟨ht, hq⟩ := defL_cons.mp hA
    have h' : ∀ i ∈ D, ∃ r, addPos (x.q.elemD i) (d.elemD i) = .ok r := first_pos h
    simp only [callSpatialB, StepAccepts]
    rw [two_steps, addable_iff hF hq hd h']
    exact and_congr_right fun _ => forall_congr' fun Q => imp_congr_right fun _ => by rw [ret_iff, timeFits_iff]
  | posVel q p => exact absurd rfl (hp q p)
  | vel => obtain ⟨r, hr⟩ := h i0 h0; cases hr

theorem callTranslationB_iff (hF : Full D S) {d : FourB} (hd : DefL D S (d.t :: d.q.arrays))
    {A : ArgB} (hA : DefL D S A.arrays)
    (h : ∀ i ∈ D, ∃ r, callTranslation (d.elemD i) (A.elemD i) = .ok r) :
    (∃ Q, callTranslationB d A = .ok Q) ↔ StepAccepts (.translation d) A := by
  obtain ⟨i0, h0⟩ := hF.nonempty
  obtain ⟨dt, dq⟩ := defL_cons.mp hd
  cases A with
  | pos => obtain ⟨r, hr⟩ := h i0 h0; cases hr
  | posTime q t =>
    obtain ⟨ht, hq⟩ := defL_cons.mp hA
    have h3 : ¬ q.kind.dim ≠ 3 := fun hn => by
      obtain ⟨r, hr⟩ := h i0 h0
      simp only [ArgB.elemD, callTranslation, elemD_kind, if_pos hn] at hr
      cases hr
    obtain ⟨Z, z1, -, -⟩ := badd_def ht dt
    have h' : ∀ i ∈ D, ∃ r, addPos (q.elemD i) (d.q.elemD i) = .ok r := fun i hi => by
      obtain ⟨r, hr⟩ := h i hi
      simp only [ArgB.elemD, callTranslation, elemD_kind, if_neg h3] at hr
      obtain ⟨y, hy, -⟩ := (bind_ok_iff _ _ _).mp hr
      exact ⟨y, hy⟩
    simp only [callTranslationB, if_neg h3, StepAccepts]
    rw [two_steps, addable_iff hF hq dq h']
    exact ⟨fun h => h.1, fun h => ⟨h, fun Q _ => ⟨.posTime Q Z, by rw [z1]; rfl⟩⟩⟩
  | four x =>
    obtain ⟨ht, hq⟩ := defL_cons.mp hA
    obtain ⟨Z, z1, -, -⟩ := badd_def ht dt
    have h' : ∀ i ∈ D, ∃ r, addPos (x.q.elemD i) (d.q.elemD i) = .ok r := fun i hi => by
      obtain ⟨r, hr⟩ := h i hi
      have hr' : (do return Arg.four (← (x.elemD i).add (d.elemD i))) = Except.ok r := hr
      obtain ⟨y, hy, -⟩ := (bind_ok_iff _ _ _).mp hr'
      obtain ⟨z, hz, -⟩ := (bind_ok_iff _ _ _).mp hy
      exact ⟨z, hz⟩
    simp only [callTranslationB, StepAccepts]
    rw [ret_iff]
    simp only [FourB.add, z1, ok_bind]
    rw [two_steps, addable_iff hF hq dq h']
    refine and_congr_right fun _ => ⟨fun h T Q e1 e2 => ?_, fun h Q e => timeFits_iff.mpr (h Z Q rfl e)⟩
    obtain rfl := Except.ok.inj e1
    exact timeFits_iff.mp (h Q e2)
  | posVel => obtain ⟨r, hr⟩ := h i0 h0; cases hr
  | vel => obtain ⟨r, hr⟩ := h i0 h0; cases hr

/-- `velocity * time` returns for the batch and has the scalar values -/
theorem velTimesB_def (hF : Full D S) {v : Vel BArr} {t : BArr} (hv : DefL D S v.comps) (ht : DefA D S t)
    (h : ∀ i ∈ D, ∃ q, velTimes (v.elemD i) (t.elemD i) = .ok q) :
    ∃ Q, velTimesB v t = .ok Q ∧ DefP D S Q ∧ ∀ i ∈ D, velTimes (v.elemD i) (t.elemD i) = .ok (Q.elemD i) := by
  have hs := velTimesB_sim (T := True) hF.inB hv ht
  obtain ⟨Q, hQ⟩ := hs.total trivial hF h
  refine ⟨Q, hQ, fun a ha => ⟨(hs.ok Q hQ).1 a ha, fun i hi => ?_⟩, fun i hi => ?_⟩
  · obtain ⟨q, hq⟩ := h i hi
    exact (Pos.elem_some (((hs.ok Q hQ).2 i hi).1 q hq)).2 a ha
  · obtain ⟨q, hq⟩ := h i hi
    rw [(Pos.elem_some (((hs.ok Q hQ).2 i hi).1 q hq)).1]; exact hq

theorem callBoostB_iff (hF : Full D S) {v : Vel BArr} (hv : DefL D S v.comps) {A : ArgB} (hA : DefL D S A.arrays)
    (h : ∀ i ∈ D, ∃ r, callBoost (v.elemD i) (A.elemD i) = .ok r) :
    (∃ Q, callBoostB v A = .ok Q) ↔ StepAccepts (.boost v) A := by
  obtain ⟨i0, h0⟩ := hF.nonempty
  cases A with
  | pos => obtain ⟨r, hr⟩ := h i0 h0; cases hr
  | posTime q t =>
    obtain ⟨ht, hq⟩ := defL_cons.mp hA
    obtain ⟨d, d1, d2, d3⟩ := velTimesB_def hF hv ht (first_pos h)
    have h' : ∀ i ∈ D, ∃ r, addPos (q.elemD i) (d.elemD i) = .ok r := fun i hi => by
      obtain ⟨r, hr⟩ := h i hi
      obtain ⟨y, hy, hr⟩ := (bind_ok_iff _ _ _).mp hr
      rw [d3 i hi] at hy
      obtain rfl := Except.ok.inj hy
      obtain ⟨z, hz, -⟩ := (bind_ok_iff _ _ _).mp hr
      exact ⟨z, hz⟩
    simp only [callBoostB, StepAccepts, d1, ok_bind]
    rw [ret_iff, addable_iff hF hq d2 h']
    exact ⟨fun h d' e => by obtain rfl := Except.ok.inj e; exact h, fun h => h d rfl⟩
  | four x =>
    obtain ⟨ht, hq⟩ := defL_cons.mp hA
    obtain ⟨d, d1, d2, d3⟩ := velTimesB_def hF hv ht (first_pos h)
    have h' : ∀ i ∈ D, ∃ r, addPos (x.q.elemD i) (d.elemD i) = .ok r := fun i hi => by
      obtain ⟨r, hr⟩ := h i hi
      obtain ⟨y, hy, hr⟩ := (bind_ok_iff _ _ _).mp hr
      have hy' : velTimes (v.elemD i) (x.t.elemD i) = .ok y := hy
      rw [d3 i hi] at hy'
      obtain rfl := Except.ok.inj hy'
      obtain ⟨z, hz, -⟩ := (bind_ok_iff _ _ _).mp hr
      exact ⟨z, hz⟩
    simp only [callBoostB, StepAccepts, d1, ok_bind]
    rw [two_steps, addable_iff hF hq d2 h']
    have key : (∀ a, addPosB x.q d = .ok a → ∃ b, (do return ArgB.four (← mkFourB x.t a x.c)) = Except.ok (ε := Err) b) ↔
        ∀ Q, addPosB x.q d = .ok Q → TimeFits x.t Q :=
      forall_congr' fun Q => imp_congr_right fun _ => by rw [ret_iff, timeFits_iff]
    rw [key]
    exact ⟨fun h d' e => by obtain rfl := Except.ok.inj e; exact h, fun h => h d rfl⟩
  | posVel => obtain ⟨r, hr⟩ := h i0 h0; cases hr
  | vel => obtain ⟨r, hr⟩ := h i0 h0; cases hr

theorem laxAdd_iff {X Y : BArr} : (∃ Z, laxAdd X Y = .ok Z) ↔ LaxFit X.shape Y.shape :=
  ⟨fun ⟨_, h⟩ => ((laxShape_ok_iff _ _ _).mp (laxMap2_shape h)).1, fun h => by
    obtain ⟨u, hu⟩ := laxShape_total h
    obtain ⟨Z, hZ, -⟩ := laxAdd_total hu
    exact ⟨Z, hZ⟩⟩

theorem addVelB_iff {p v : Vel BArr} {i : List ℕ} (h : ∃ r, addVel (p.elemD i) (v.elemD i) = .ok r) :
    (∃ w, addVelB p v = .ok w) ↔ Forall₂ (fun a b : BArr => LaxFit a.shape b.shape) (velComps p) (velComps v) := by
  obtain ⟨r, h⟩ := h
  have f2 : ∀ {α β : Type} {x : Res α} {P : α → Res β} {Q : Prop}, (∀ a, x = .ok a → ((∃ b, P a = .ok b) ↔ Q)) →
      ((∃ b, (x >>= P) = .ok b) ↔ (∃ a, x = .ok a) ∧ ((∃ a, x = .ok a) → Q)) := fun {α β x P Q} k => by
    rw [two_steps]
    exact and_congr_right fun ⟨a, ha⟩ => ⟨fun h _ => (k a ha).mp (h a ha), fun h a' ha' => (k a' ha').mpr (h ⟨a, ha⟩)⟩
  have pq : ∀ {P Q : Prop}, P ∧ (P → Q) ↔ P ∧ Q := fun {P Q} => ⟨fun h => ⟨h.1, h.2 h.1⟩, fun h => ⟨h.1, fun _ => h.2⟩⟩
  cases p with
  | cart1 a =>
    cases v <;> first | (cases h; done) | skip
    simp only [addVelB, velComps]
    rw [ret_iff, laxAdd_iff]
    simp
  | cart2 a b =>
    cases v with
    | cart2 a' b' =>
      simp only [addVelB, velComps]
      rw [f2 (fun _ _ => ret_iff), pq, laxAdd_iff, laxAdd_iff]
      simp
    | _ => cases h
  | cart3 a b c =>
    cases v with
    | cart3 a' b' c' =>
      simp only [addVelB, velComps]
      rw [f2 (fun _ _ => f2 (fun _ _ => ret_iff)), pq, pq, laxAdd_iff, laxAdd_iff, laxAdd_iff]
      simp
    | _ => cases h
  | _ => cases h

theorem callVBoostB_iff (hF : Full D S) {v : Vel BArr} {A : ArgB}
    (h : ∀ i ∈ D, ∃ r, callVBoost (v.elemD i) (A.elemD i) = .ok r) :
    (∃ Q, callVBoostB v A = .ok Q) ↔ StepAccepts (.vboost v) A := by
  obtain ⟨i0, h0⟩ := hF.nonempty
  obtain ⟨r, hr⟩ := h i0 h0
  cases A with
  | pos q => exact ⟨fun _ => trivial, fun _ => ⟨_, rfl⟩⟩
  | posTime q t => exact ⟨fun _ => trivial, fun _ => ⟨_, rfl⟩⟩
  | four x =>
    simp only [callVBoostB, StepAccepts]
    rw [ret_iff, timeFits_iff]
  | posVel q p =>
    simp only [callVBoostB, StepAccepts]
    rw [ret_iff]
    exact addVelB_iff (i := i0) (by obtain ⟨y, hy, -⟩ := (bind_ok_iff _ _ _).mp hr; exact ⟨y, hy⟩)
  | vel p =>
    simp only [callVBoostB, StepAccepts]
    rw [ret_iff]
    exact addVelB_iff (i := i0) (by obtain ⟨y, hy, -⟩ := (bind_ok_iff _ _ _).mp hr; exact ⟨y, hy⟩)

mutual
theorem callB_iff : ∀ (op : OpB) {A : ArgB}, Full D S → DefL D S op.arrays → DefL D S A.arrays →
    (A.isPair = false ∨ op.translates = false) →
    (∀ i ∈ D, ∃ r, (op.elemD i).call (A.elemD i) = .ok r) → ((∃ Q, op.call A = .ok Q) ↔ Accepts op A)
  | .identity, A, hF, ho, hA, hp, h => by
    simp only [OpB.call, Accepts, StepAccepts]; simp
  | .rotation R, A, hF, ho, hA, hp, h => by
    simp only [OpB.call, OpB.elemD, Op.call, Accepts] at h ⊢
    exact callRotationB_iff hF R hA h
  | .spatial d, A, hF, ho, hA, hp, h => by
    simp only [OpB.call, OpB.elemD, Op.call, Accepts] at h ⊢
    exact callSpatialB_iff hF ho hA (fun q p e => by
      rcases hp with hp | hp
      · rw [e] at hp; cases hp
      · simp [OpB.translates] at hp) h
  | .translation d, A, hF, ho, hA, hp, h => by
    simp only [OpB.call, OpB.elemD, Op.call, Accepts] at h ⊢
    exact callTranslationB_iff hF ho hA h
  | .boost v, A, hF, ho, hA, hp, h => by
    simp only [OpB.call, OpB.elemD, Op.call, Accepts] at h ⊢
    exact callBoostB_iff hF ho hA h
  | .vboost v, A, hF, ho, hA, hp, h => by
    simp only [OpB.call, OpB.elemD, Op.call, Accepts] at h ⊢
    exact callVBoostB_iff hF h
  | .galilean R d v, A, hF, ho, hA, hp, h => by
    simp only [OpB.call, OpB.elemD, Op.call, Accepts] at h ⊢
    obtain ⟨hd, hv⟩ := defL_append.mp ho
    rw [two_steps, callRotationB_iff hF R hA (hF.first h)]
    refine and_congr_right fun _ => forall_congr' fun B => imp_congr_right fun b1 => ?_
    obtain ⟨b3, b4⟩ := (callRotationB_sim hF.inB R hA).step b1
      (g := fun i a => callTranslation (d.elemD i) a >>= callBoost (v.elemD i)) h
    rw [two_steps, callTranslationB_iff hF hd b3 (hF.first (g := fun i a => callBoost (v.elemD i) a) b4)]
    refine and_congr_right fun _ => forall_congr' fun C => imp_congr_right fun c1 => ?_
    obtain ⟨c3, c4⟩ := (callTranslationB_sim hF.inB hd b3).step c1 (g := fun i a => callBoost (v.elemD i) a) b4
    exact callBoostB_iff hF hv c3 c4
  | .pipe ops, A, hF, ho, hA, hp, h => by
    obtain ⟨i0, h0⟩ := hF.nonempty
    simp only [OpB.call, OpB.elemD, Op.call, isVel_elemD, elemsD_length, Accepts] at h ⊢
    by_cases hc : A.isVel = true ∧ ops.length ≠ 1
    · simp only [if_pos hc] at h
      obtain ⟨r, hr⟩ := h i0 h0
      cases hr
    · simp only [if_neg hc] at h ⊢
      exact callAllB_iff ops hF ho hA hp h

theorem callAllB_iff : ∀ (ops : List OpB) {A : ArgB}, Full D S → DefL D S (opArrays ops) → DefL D S A.arrays →
    (A.isPair = false ∨ anyTranslates ops = false) →
    (∀ i ∈ D, ∃ r, callAll (elemsD i ops) (A.elemD i) = .ok r) → ((∃ Q, callAllB ops A = .ok Q) ↔ AcceptsAll ops A)
  | [], A, hF, ho, hA, hp, h => by simp only [callAllB, AcceptsAll]; simp
  | op :: ops, A, hF, ho, hA, hp, h => by
    simp only [callAllB, elemsD, callAll, AcceptsAll] at h ⊢
    obtain ⟨h1, h2⟩ := defL_append.mp ho
    have hp1 : A.isPair = false ∨ op.translates = false := hp.imp id fun h => by
      simp only [anyTranslates, Bool.or_eq_false_iff] at h; exact h.1
    rw [two_steps, callB_iff op hF h1 hA hp1 (hF.first h)]
    refine and_congr_right fun _ => forall_congr' fun B => imp_congr_right fun b1 => ?_
    obtain ⟨b3, b4⟩ := (callB_sim op hF.inB h1 hA hp1).step b1 (g := fun i => callAll (elemsD i ops)) h
    exact callAllB_iff ops hF h2 b3 (hp.imp
      (fun h => by rw [isPair_tag, callB_tag op b1, ← isPair_tag]; exact h)
      fun h => by simp only [anyTranslates, Bool.or_eq_false_iff] at h; exact h.2) b4
end

end

/-- **C60 (returning, exactly).** Let the parameters of the operator and the arguments broadcast to `s` (no empty axis), and
let the scalar call return at every index. Then the call on the batches returns exactly when, step by step, the shapes can be
combined (`Accepts`). The one exclusion is a pair (position, velocity) through a `GalileanSpatialTranslation`, where a batch
is not processed element by element (`C60_pair_batch_raises`, `C60_pair_square_wrong`). -/
theorem C60_returns_iff (op : OpB) (A : ArgB) (s : List ℕ) (ho : OpFits s op) (hA : ArgFits s A) (h0 : 0 ∉ s)
    (hp : ¬ IsPair A ∨ NoTranslation op)
    (h : ∀ idx, InB s idx → ∃ o a r, opAt idx op = some o ∧ argAt idx A = some a ∧ o.call a = .ok r) :
    (∃ Q, op.call A = .ok Q) ↔ Accepts op A := by
  have d1 : ∀ i ∈ {i | InB s i}, DefL {i} s op.arrays := fun i hi => by
    obtain ⟨o, a, r, h1, h2, h3⟩ := h i hi
    exact ((opAt_def hi op ho).mp h1).2
  have d2 : ∀ i ∈ {i | InB s i}, DefL {i} s A.arrays := fun i hi => by
    obtain ⟨o, a, r, h1, h2, h3⟩ := h i hi
    exact ((argAt_def hA hi).mp h2).2
  have hF : Full {i | InB s i} s := ⟨rfl, h0⟩
  obtain ⟨i0, hi0⟩ := hF.nonempty
  exact callB_iff op hF (defL_of_singles (fun a ha => (d1 i0 hi0 a ha).fits) d1)
    (defL_of_singles (fun a ha => (d2 i0 hi0 a ha).fits) d2) (pair_cond hp) fun i hi => by
      obtain ⟨o, a, r, h1, h2, h3⟩ := h i hi
      rw [((opAt_def hi op ho).mp h1).1, ((argAt_def hA hi).mp h2).1]
      exact ⟨r, h3⟩

/-! ### examples -/

theorem addCart1 (x y : ℝ) : addPos (.cart1 x) (.cart1 y) = .ok (.cart1 (x + y)) := by
  have : representAs {} (.cart1 y) .cart1 = .ok (.cart1 y) := by
    have : represent (199 + 1) {} (.cart1 y) .cart1 = .ok (.cart1 y) := by rw [represent]
    exact this
  show binPos (· + ·) _ _ = _
  rw [binPos_cart rfl]
  unfold binCart
  rw [show (Pos.cart1 x).kind = .cart1 from rfl, this]
  rfl

theorem addCart1B {x y z : BArr} (h : laxAdd x y = .ok z) : addPosB (.cart1 x) (.cart1 y) = .ok (.cart1 z) := by
  have : representAsB {} (.cart1 y) .cart1 = .ok (.cart1 y) := representB_self rfl
  show binCartB laxAdd (.cart1 x) (.cart1 y) = _
  unfold binCartB
  rw [show (Pos.cart1 x).kind = .cart1 from rfl, this, ok_bind]
  simp only [mapCart2B, h, ok_bind]
  rfl

/-- two translations in sequence: by a single vector and by a batch of two; the batch of two positions is accepted, a batch
of shape `(3, 2)` is not, although all its elements can be translated -/
example (x : BArr) (hx : ∀ i, x.get i = some 7) (s : List ℕ) (hs : x.shape = s) (h2 : s = [2] ∨ s = [3, 2]) :
    (∃ Q, (OpB.pipe [.spatial (.cart1 ⟨[], fun _ => some 1⟩), .spatial (.cart1 ⟨[2], fun _ => some 3⟩)]).call (.pos (.cart1 x))
      = .ok Q) ↔ s = [2] := by
  have f2 : BroadcastsTo [2] s := by
    rcases h2 with rfl | rfl
    · exact broadcastsTo_refl _
    · simp [BroadcastsTo, CompatRev]
  have hx' : ∀ i, at_ i x = some 7 := fun i => hx _
  rw [C60_returns_iff _ _ s (by simp [OpFits, OpsFit, Fits, compsOf, broadcastsTo_nil, f2])
    (by simp [ArgFits, Fits, compsOf, hs, broadcastsTo_refl]) (by rcases h2 with rfl | rfl <;> simp) (.inl (by simp [IsPair]))
    fun idx _ => ⟨.pipe [.spatial (.cart1 1), .spatial (.cart1 3)], .pos (.cart1 7), .pos (.cart1 (7 + 1 + 3)), rfl, by
      simp [argAt, posAt, hx'], by
      simp only [Op.call, callAll, callSpatial, addCart1, ok_bind, Arg.isVel]
      simp [addCart1]⟩]
  obtain ⟨Z, hZ, hZ'⟩ := laxAdd_total (X := x) (Y := ⟨[], fun _ => some 1⟩) (u := s) (by
    rw [hs]; rcases h2 with rfl | rfl <;> rfl)
  have key : ∀ (a b : BArr), Addable (.cart1 a) (.cart1 b) ↔ LaxFit a.shape b.shape := fun a b => by
    have e1 : representAsB {} (.cart1 a) .cart1 = .ok (.cart1 a) := representB_self rfl
    have e2 : representAsB {} (.cart1 b) .cart1 = .ok (.cart1 b) := representB_self rfl
    constructor
    · rintro ⟨C, D, h1, h2, h3⟩
      obtain rfl := Except.ok.inj (h1.symm.trans e1)
      obtain rfl := Except.ok.inj (h2.symm.trans e2)
      cases h3; assumption
    · exact fun h => ⟨_, _, e1, e2, .cons h .nil⟩
  simp only [Accepts, AcceptsAll, StepAccepts, OpB.call, callSpatialB, addCart1B hZ, ok_bind, key, hs]
  constructor
  · rintro ⟨-, h⟩
    have := (h _ rfl).1
    simp only [key, hZ'] at this
    rcases h2 with rfl | rfl
    · rfl
    · rcases this with h | h | ⟨h, -⟩ <;> simp at h
  · rintro rfl
    refine ⟨.inr (.inl rfl), fun B hB => ⟨?_, fun _ _ => trivial⟩⟩
    obtain rfl := Except.ok.inj hB
    simp only [key, hZ']
    exact .inr (.inr ⟨rfl, _, broadcastsTo_refl _, broadcastsTo_refl _⟩)

end Verif
