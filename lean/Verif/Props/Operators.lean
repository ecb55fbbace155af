import Verif.OpLemmas
import Verif.Props.Arith
import Mathlib.LinearAlgebra.Matrix.NonsingularInverse

/-!
# Operators: C27, C28, C30, C31

Specification: `Verif/SpecOp.lean`. Model: `Verif/Op.lean`.
-/

namespace Verif

open Spec Props

theorem v3_add_zero (a : V3) : a.add V3.zero = a := by simp [V3.add, V3.zero]

theorem mulV_mul (A B : Mat3) (v : V3) : mulV (A * B) v = mulV A (mulV B v) := by
  simp only [mulV, Matrix.mul_apply, Fin.sum_univ_three, V3.mk.injEq]
  refine ⟨?_, ?_, ?_⟩ <;> ring

theorem mulV_one (v : V3) : mulV 1 v = v := by
  simp [mulV]

theorem Spec.Orthogonal.transpose {R : Mat3} (h : Orthogonal R) : Orthogonal R.transpose := by
  unfold Orthogonal at *
  rw [Matrix.transpose_transpose]
  exact mul_eq_one_comm.mp h

theorem Spec.Orthogonal.cancel {R : Mat3} (h : Orthogonal R) (v : V3) :
    mulV R (mulV R.transpose v) = v ∧ mulV R.transpose (mulV R v) = v := by
  refine ⟨?_, ?_⟩
  · rw [← mulV_mul, h, mulV_one]
  · rw [← mulV_mul, show R.transpose * R = 1 from mul_eq_one_comm.mp h, mulV_one]

theorem velV_neg {v : Vel ℝ} (h : v.kind = .cart3) : velV (negVel v) = (velV v).neg := by
  cases v <;> first | (cases h; done) | rfl

theorem negVel_kind (v : Vel ℝ) : (negVel v).kind = v.kind := by cases v <;> rfl

theorem actAll_append (as bs : List Op) (e : Event) :
    actAll (as ++ bs) e = actAll bs (actAll as e) := by
  induction as generalizing e with
  | nil => simp [actAll]
  | cons o os ih => simp [actAll, ih]

theorem everyAll_append {P : Op → Prop} {as bs : List Op} (h1 : EveryAll P as)
    (h2 : EveryAll P bs) : EveryAll P (as ++ bs) := by
  rw [everyAll_iff] at *
  intro o ho
  rcases List.mem_append.mp ho with h | h
  · exact h1 o h
  · exact h2 o h

/-- the inverse is well formed and acts inversely -/
structure InverseOf (inv op : Op) : Prop where
  wf : WellFormed inv
  rigid : Rigid inv
  left : ∀ e, act inv (act op e) = e
  right : ∀ e, act op (act inv e) = e

theorem add_neg_cancel (a b : V3) : (a.add b).add b.neg = a ∧ (a.add b.neg).add b = a := by
  constructor <;> (ext <;> simp [V3.add, V3.neg])

theorem smul_neg' (s : ℝ) (b : V3) : V3.smul s b.neg = (V3.smul s b).neg := by
  ext <;> simp [V3.smul, V3.neg]

theorem negFour {d e : Four} (hd : Valid3 d.q) (h : d.neg = .ok e) :
    Valid3 e.q ∧ e.t = -d.t ∧ point e.q = (point d.q).neg := by
  obtain ⟨q, h1, h2⟩ := (bind_ok_iff _ _ _).mp h
  obtain rfl := Except.ok.inj h2
  obtain ⟨k, v, _, p⟩ := C16_negation _ _ hd.1 h1
  exact ⟨⟨v, by rw [k]; exact hd.2⟩, rfl, p⟩

theorem inverseAll_spec (ops : List Op)
    (ih : ∀ o ∈ ops, ∀ inv, o.inverse = .ok inv → InverseOf inv o) (invs : List Op)
    (h : inverseAll ops = .ok invs) : InverseOf (.pipe invs) (.pipe ops) := by
  induction ops generalizing invs with
  | nil =>
    simp only [inverseAll] at h
    obtain rfl := Except.ok.inj h
    exact ⟨trivial, trivial, fun e => by simp [act, actAll], fun e => by simp [act, actAll]⟩
  | cons o os ihl =>
    simp only [inverseAll] at h
    obtain ⟨rest, h1, h2⟩ := (bind_ok_iff _ _ _).mp h
    obtain ⟨i, h3, h4⟩ := (bind_ok_iff _ _ _).mp h2
    obtain rfl := Except.ok.inj h4
    have g := ih o (by simp) i h3
    have gs := ihl (fun x hx => ih x (by simp [hx])) rest h1
    refine ⟨everyAll_append gs.wf ⟨g.wf, trivial⟩, everyAll_append gs.rigid ⟨g.rigid, trivial⟩, ?_, ?_⟩
    · intro e
      have := gs.left (act o e)
      simp only [act, actAll, actAll_append] at this ⊢
      rw [this, g.left]
    · intro e
      simp only [act, actAll, actAll_append]
      rw [g.right]
      have := gs.right e
      simpa only [act] using this

/-- the inverse, where it exists, acts inversely -/
theorem inverse_spec (op : Op) : WellFormed op → Rigid op → ∀ inv, op.inverse = .ok inv →
    InverseOf inv op := by
  induction op using Op.ind with
  | id =>
    intro _ _ inv h
    simp only [Op.inverse] at h; obtain rfl := Except.ok.inj h
    exact ⟨trivial, trivial, fun e => by simp [act], fun e => by simp [act]⟩
  | rot R =>
    intro _ r inv h
    simp only [Op.inverse] at h; obtain rfl := Except.ok.inj h
    simp only [Rigid, Every] at r
    exact ⟨trivial, r.transpose, fun e => by simp [act, (r.cancel e.1).2],
      fun e => by simp [act, (r.cancel e.1).1]⟩
  | sp d =>
    intro w _ inv h
    simp only [WellFormed, Every] at w
    simp only [Op.inverse] at h
    obtain ⟨d', h1, h2⟩ := (bind_ok_iff _ _ _).mp h
    obtain rfl := Except.ok.inj h2
    obtain ⟨k, v, _, p⟩ := C16_negation _ _ w.1 h1
    refine ⟨⟨v, by rw [k]; exact w.2⟩, trivial, fun e => ?_, fun e => ?_⟩
    · simp [act, p, (add_neg_cancel e.1 (point d)).1]
    · simp [act, p, (add_neg_cancel e.1 (point d)).2]
  | tr d =>
    intro w _ inv h
    simp only [WellFormed, Every] at w
    simp only [Op.inverse] at h
    obtain ⟨d', h1, h2⟩ := (bind_ok_iff _ _ _).mp h
    obtain rfl := Except.ok.inj h2
    obtain ⟨v, ht, p⟩ := negFour w h1
    refine ⟨v, trivial, fun e => ?_, fun e => ?_⟩
    · simp [act, p, ht, (add_neg_cancel e.1 (point d.q)).1]
    · simp [act, p, ht, (add_neg_cancel e.1 (point d.q)).2]
  | bo v =>
    intro w _ inv h
    simp only [WellFormed, Every] at w
    simp only [Op.inverse] at h; obtain rfl := Except.ok.inj h
    refine ⟨(negVel_kind v).trans w, trivial, fun e => ?_, fun e => ?_⟩
    · simp [act, velV_neg w, smul_neg', (add_neg_cancel e.1 (V3.smul e.2 (velV v))).1]
    · simp [act, velV_neg w, smul_neg', (add_neg_cancel e.1 (V3.smul e.2 (velV v))).2]
  | vb v =>
    intro _ _ inv h
    simp only [Op.inverse] at h; obtain rfl := Except.ok.inj h
    exact ⟨trivial, trivial, fun e => by simp [act], fun e => by simp [act]⟩
  | ga R d v =>
    intro w r inv h
    simp only [WellFormed, Every] at w
    simp only [Rigid, Every] at r
    simp only [Op.inverse] at h
    obtain ⟨d', h1, h2⟩ := (bind_ok_iff _ _ _).mp h
    obtain rfl := Except.ok.inj h2
    obtain ⟨hv, ht, p⟩ := negFour w.1 h1
    refine ⟨⟨(negVel_kind v).trans w.2, hv, trivial, trivial⟩,
      ⟨trivial, trivial, r.transpose, trivial⟩, fun e => ?_, fun e => ?_⟩
    · simp only [act, actAll, velV_neg w.2, smul_neg', p, ht]
      rw [(add_neg_cancel _ (V3.smul (e.2 + d.t) (velV v))).1, (add_neg_cancel _ (point d.q)).1,
        (r.cancel e.1).2]
      simp
    · simp only [act, actAll, velV_neg w.2, smul_neg', p, ht]
      rw [(r.cancel _).1, (add_neg_cancel _ (point d.q)).2]
      have : e.2 + -d.t + d.t = e.2 := by ring
      rw [this, (add_neg_cancel _ (V3.smul e.2 (velV v))).2]
  | pi ops ih =>
    intro w r inv h
    simp only [WellFormed, Every, everyAll_iff] at w
    simp only [Rigid, Every, everyAll_iff] at r
    simp only [Op.inverse] at h
    obtain ⟨invs, h1, h2⟩ := (bind_ok_iff _ _ _).mp h
    obtain rfl := Except.ok.inj h2
    exact inverseAll_spec ops (fun o ho => ih o ho (w o ho) (r o ho)) invs h1

theorem negPos_total3 {d : Pos ℝ} (hv : Valid3 d) (h : HasOpposite d) : ∃ e, negPos d = .ok e := by
  have hd := hv.2
  refine C16_negation_returns d hv.1 (fun e => ?_) (fun e => ?_) (fun e => ?_) (h.imp ?_ ?_)
  · rw [e] at hd; cases hd
  · rcases h with h | h
    · rw [h] at e; cases e
    · exact h.1 e
  · rw [e] at hd; cases hd
  · intro e; rw [e]; rfl
  · exact fun h => h.2

theorem inverse_total (op : Op) : WellFormed op → Undoable op → ∃ inv, op.inverse = .ok inv := by
  induction op using Op.ind with
  | id => intro _ _; exact ⟨_, by simp only [Op.inverse]; rfl⟩
  | rot R => intro _ _; exact ⟨_, by simp only [Op.inverse]; rfl⟩
  | bo R => intro _ _; exact ⟨_, by simp only [Op.inverse]; rfl⟩
  | vb R => intro _ _; exact ⟨_, by simp only [Op.inverse]; rfl⟩
  | sp d =>
    intro w i
    obtain ⟨e, he⟩ := negPos_total3 w i
    exact ⟨_, by simp only [Op.inverse, he, ok_bind]; rfl⟩
  | tr d =>
    intro w i
    obtain ⟨e, he⟩ := negPos_total3 w i
    exact ⟨_, by simp only [Op.inverse, Four.neg, he, ok_bind]; rfl⟩
  | ga R d v =>
    intro w i
    obtain ⟨e, he⟩ := negPos_total3 w.1 i
    exact ⟨_, by simp only [Op.inverse, Four.neg, he, ok_bind]; rfl⟩
  | pi ops ih =>
    intro w i
    simp only [WellFormed, Every, everyAll_iff] at w
    simp only [Undoable, Every, everyAll_iff] at i
    have : ∃ invs, inverseAll ops = .ok invs := by
      clear * - ih w i
      induction ops with
      | nil => exact ⟨[], by simp only [inverseAll]⟩
      | cons o os ihl =>
        obtain ⟨rest, h1⟩ := ihl (fun x hx => ih x (by simp [hx])) (fun x hx => w x (by simp [hx]))
          (fun x hx => i x (by simp [hx]))
        obtain ⟨j, h2⟩ := ih o (by simp) (w o (by simp)) (i o (by simp))
        exact ⟨rest ++ [j], by simp only [inverseAll, h1, h2, ok_bind]; rfl⟩
    obtain ⟨invs, h⟩ := this
    exact ⟨_, by simp only [Op.inverse, h, ok_bind]; rfl⟩

theorem samePos_of {op inv : Op} {q q1 q2 : Pos ℝ} {t t1 t2 : ℝ} (hq : Valid q)
    (s1 : Sound op q t q1 t1) (s2 : Sound inv q1 t1 q2 t2)
    (h : act inv (act op (point q, t)) = (point q, t)) : SamePos q2 q ∧ t2 = t := by
  have e := s2.act
  rw [s1.act, h] at e
  have e := Prod.mk.inj e
  have hk : q2.kind = q.kind := by rw [s2.kind, s1.kind]
  refine ⟨⟨hk, s2.valid, e.1, fun c o np => ?_⟩, e.2⟩
  refine plain_eq_of_point_eq s2.valid hq hk (s2.canon (s1.canon c)) c ?_ (by rw [e.1]; exact o) e.1
  have hr : q2.kind ≠ .prolate := by rw [hk]; exact np
  cases q <;> cases q2 <;> first | rfl | exact absurd rfl np | exact absurd rfl hr

/-! ## C27: inverses -/

/-- **C27, Cartesian boosts.** For every operator built from identities, rotations by orthogonal matrices, spatial and
spacetime translations, Galilean boosts, velocity boosts, Galilean operators and pipes of any length
and nesting: applying the operator and then its inverse to a 3-D position of any class and a
time, or the inverse first and then the operator, gives back the position and the time. Boosts of
every class and all dimensions: `C27_inverse_undoes`. -/
theorem C27_inverse_undoes_cartesian (op inv : Op) (w : WellFormed op) (r : Rigid op)
    (hi : op.inverse = .ok inv) (q : Pos ℝ) (t : ℝ) (hq : Valid3 q) (a b : Arg) :
    (op.call (.posTime q t) = .ok a → inv.call a = .ok b → ∃ q', b = .posTime q' t ∧ SamePos q' q) ∧
    (inv.call (.posTime q t) = .ok a → op.call a = .ok b → ∃ q', b = .posTime q' t ∧ SamePos q' q) := by
  have g := inverse_spec op w r inv hi
  constructor
  · intro h1 h2
    obtain ⟨q1, t1, rfl, s1⟩ := call_sound op w q t a hq h1
    obtain ⟨q2, t2, rfl, s2⟩ := call_sound inv g.wf q1 t1 b (s1.valid3 hq.2) h2
    obtain ⟨s, rfl⟩ := samePos_of hq.1 s1 s2 (g.left _)
    exact ⟨q2, rfl, s⟩
  · intro h1 h2
    obtain ⟨q1, t1, rfl, s1⟩ := call_sound inv g.wf q t a hq h1
    obtain ⟨q2, t2, rfl, s2⟩ := call_sound op w q1 t1 b (s1.valid3 hq.2) h2
    obtain ⟨s, rfl⟩ := samePos_of hq.1 s1 s2 (g.right _)
    exact ⟨q2, rfl, s⟩

/-- **C27**, existence: the inverse exists when every translation vector has an opposite in its class,
and both calls return: always for a `CartesianPos3D` argument, for the other classes (except prolate
spheroidal) as long as no intermediate point is the origin. -/
theorem C27_inverse_returns_cartesian (op : Op) (w : WellFormed op) (r : Rigid op) (i : Undoable op)
    (q : Pos ℝ) (t : ℝ) (hq : Valid3 q) :
    ∃ inv, op.inverse = .ok inv ∧
      (Reaches op q.kind (point q, t) → Reaches inv q.kind (act op (point q, t)) →
        ∃ a b, op.call (.posTime q t) = .ok a ∧ inv.call a = .ok b) := by
  obtain ⟨inv, hi⟩ := inverse_total op w i
  have g := inverse_spec op w r inv hi
  refine ⟨inv, hi, fun h1 h2 => ?_⟩
  obtain ⟨a, ha⟩ := call_total op w q t hq h1
  obtain ⟨q1, t1, rfl, s1⟩ := call_sound op w q t a hq ha
  rw [← s1.act, ← s1.kind] at h2
  obtain ⟨b, hb⟩ := call_total inv g.wf q1 t1 (s1.valid3 hq.2) h2
  exact ⟨_, b, ha, hb⟩

/-- **C27, an exception.** A boost by a velocity that is not Cartesian: the inverse of a boost by a
`SphericalVel` with positive radial component cannot be applied to anything at a positive time,
because `velocity * time` reads the components as a `SphericalPos` with a negative radius. -/
theorem C27_curvilinear_boost_fails (a b c : ℝ) (ha : 0 < a) (q : Pos ℝ) (t : ℝ) (ht : 0 < t) :
    ∃ inv, (Op.boost (.sph a b c)).inverse = .ok inv ∧
      inv.call (.posTime q t) = .error .check := by
  refine ⟨.boost (.sph (-a) (-b) (-c)), by simp only [Op.inverse]; rfl, ?_⟩
  have : velTimes (.sph (-a) (-b) (-c)) t = .error .check := by
    simp only [velTimes, mkSph, Dist.raw]
    rw [checkNonNeg_err (show -a * t < 0 by nlinarith)]
    rfl
  simp only [Op.call, callBoost, this]
  rfl

theorem quarterTurn_orthogonal : Orthogonal !![0, -1, 0; 1, 0, 0; 0, 0, 1] := by
  unfold Orthogonal
  ext i j
  fin_cases i <;> fin_cases j <;> simp [Matrix.mul_apply, Fin.sum_univ_three]

/-- a quarter turn about the z axis, then a pipe of a Galilean operator and a spherical translation -/
noncomputable def exampleOp : Op :=
  .pipe [.rotation !![0, -1, 0; 1, 0, 0; 0, 0, 1],
    .pipe [.galilean !![0, -1, 0; 1, 0, 0; 0, 0, 1] ⟨2, .cart3 1 2 3, lightSpeed⟩ (.cart3 4 5 6),
      .spatial (.sph (.dist 1) 0 0)], .vboost (.sph 1 2 3)]

theorem exampleOp_wf : WellFormed exampleOp := by
  refine ⟨trivial, ⟨⟨⟨trivial, rfl⟩, rfl⟩, ⟨⟨?_, ?_, ?_⟩, rfl⟩, trivial⟩, trivial, trivial⟩
  · norm_num [DistOk]
  · norm_num
  · exact Real.pi_pos.le
theorem exampleOp_rigid : Rigid exampleOp :=
  ⟨quarterTurn_orthogonal, ⟨quarterTurn_orthogonal, trivial, trivial⟩, trivial, trivial⟩
theorem exampleOp_undoable : Undoable exampleOp :=
  ⟨trivial, ⟨Or.inl rfl, Or.inr ⟨fun h => (by cases h), fun h => by
    have := congrArg V3.z h
    simp [point, sphPoint, distOf, V3.zero] at this⟩, trivial⟩, trivial, trivial⟩

/-- the hypotheses are met: a nested pipe applied to a Cartesian position, and undone -/
example : ∃ inv a, exampleOp.inverse = .ok inv ∧ exampleOp.call (.posTime (.cart3 7 8 9) 1) = .ok a ∧
    ∃ q', inv.call a = .ok (.posTime q' 1) ∧ SamePos q' (.cart3 7 8 9) := by
  have hq : Valid3 (.cart3 7 8 9) := ⟨trivial, rfl⟩
  obtain ⟨inv, hi, f⟩ := C27_inverse_returns_cartesian exampleOp exampleOp_wf exampleOp_rigid
    exampleOp_undoable (.cart3 7 8 9) 1 hq
  obtain ⟨a, b, h1, h2⟩ := f (Or.inl rfl) (Or.inl rfl)
  obtain ⟨q', rfl, s⟩ := (C27_inverse_undoes_cartesian exampleOp inv exampleOp_wf exampleOp_rigid hi _ 1
    hq a b).1 h1 h2
  exact ⟨inv, a, hi, h1, q', h2, s⟩

/-! ## C28: pipes -/

/-- is the operator a `Pipe`? -/
def Op.isPipe : Op → Bool
  | .pipe _ => true
  | _ => false

theorem callAll_append (as bs : List Op) (x : Arg) :
    callAll (as ++ bs) x = (callAll as x >>= callAll bs) := by
  induction as generalizing x with
  | nil => simp only [List.nil_append, callAll, ok_bind]
  | cons o os ih =>
    simp only [List.cons_append, callAll]
    cases o.call x with
    | error e => rfl
    | ok y => simp only [ok_bind, ih]

theorem callRotation_nv {R : Mat3} {x y : Arg} (h : callRotation R x = .ok y) :
    y.isVel = false := by
  cases x <;> simp only [callRotation, bind_ok_iff] at h <;>
    first | (cases h; done) | (obtain ⟨_, _, h⟩ := h; obtain rfl := Except.ok.inj h; rfl)

theorem callTranslation_nv {d : Four} {x y : Arg} (h : callTranslation d x = .ok y) :
    y.isVel = false := by
  cases x <;> simp only [callTranslation] at h <;> first | (cases h; done) | skip
  · split at h
    · cases h
    · obtain ⟨_, _, h⟩ := (bind_ok_iff _ _ _).mp h; obtain rfl := Except.ok.inj h; rfl
  · obtain ⟨_, _, h⟩ := (bind_ok_iff _ _ _).mp h; obtain rfl := Except.ok.inj h; rfl

theorem callBoost_nv {v : Vel ℝ} {x y : Arg} (h : callBoost v x = .ok y) : y.isVel = false := by
  cases x <;> simp only [callBoost, bind_ok_iff] at h <;>
    first
    | (cases h; done)
    | (obtain ⟨_, _, _, _, h⟩ := h; obtain rfl := Except.ok.inj h; rfl)

/-- no operator turns another argument into a lone velocity -/
theorem call_not_vel (o : Op) : ∀ x y : Arg, x.isVel = false → o.call x = .ok y →
    y.isVel = false := by
  induction o using Op.ind with
  | id => intro x y hx h; simp only [Op.call] at h; obtain rfl := Except.ok.inj h; exact hx
  | rot R => intro x y hx h; simp only [Op.call] at h; exact callRotation_nv h
  | sp d =>
    intro x y hx h; simp only [Op.call] at h
    cases x <;> simp only [callSpatial, bind_ok_iff] at h <;>
      first
      | (cases h; done)
      | (obtain ⟨_, _, h⟩ := h; obtain rfl := Except.ok.inj h; rfl)
      | (obtain ⟨_, _, _, _, h⟩ := h; obtain rfl := Except.ok.inj h; rfl)
  | tr d => intro x y hx h; simp only [Op.call] at h; exact callTranslation_nv h
  | bo v => intro x y hx h; simp only [Op.call] at h; exact callBoost_nv h
  | vb v =>
    intro x y hx h; simp only [Op.call] at h
    cases x <;> simp only [callVBoost, bind_ok_iff] at h <;>
      first
      | (cases hx; done)
      | (obtain ⟨_, _, h⟩ := h; obtain rfl := Except.ok.inj h; rfl)
      | (obtain rfl := Except.ok.inj h; rfl)
  | ga R d v =>
    intro x y hx h; simp only [Op.call] at h
    obtain ⟨_, _, h1⟩ := (bind_ok_iff _ _ _).mp h
    obtain ⟨_, _, h2⟩ := (bind_ok_iff _ _ _).mp h1
    exact callBoost_nv h2
  | pi ops ih =>
    intro x y hx h
    rw [call_pipe hx] at h
    induction ops generalizing x with
    | nil => simp only [callAll] at h; obtain rfl := Except.ok.inj h; exact hx
    | cons o os ihl =>
      simp only [callAll] at h
      obtain ⟨z, h1, h2⟩ := (bind_ok_iff _ _ _).mp h
      exact ihl (fun p hp => ih p (by simp [hp])) z (ih o (by simp) x z hx h1) h2

/-- **C28.** Calling a Pipe of any length on a position, a position and a time, a `FourVector`, or a
position and a velocity is applying its operators one after the other, first one first. -/
theorem C28_pipe_left_to_right (ops : List Op) (x : Arg) (hx : x.isVel = false) :
    (Op.pipe ops).call x = ops.foldlM (fun y o => o.call y) x := by
  rw [call_pipe hx]
  clear hx
  induction ops generalizing x with
  | nil => simp only [callAll]; rfl
  | cons o os ih =>
    simp only [callAll, List.foldlM_cons]
    cases h : o.call x with
    | error e => rfl
    | ok y => simp only [ok_bind]; exact ih y

/-- **C28.** `a | b`, when it returns, acts as `a` followed by `b`, on every such argument. -/
theorem C28_or_is_composition (a b c : Op) (h : a.or b = .ok c) (x : Arg) (hx : x.isVel = false) :
    c.call x = (a.call x >>= b.call) := by
  have hb := fun y => call_not_vel a x y hx
  have two : ∀ a b : Op, callAll [a, b] x = (a.call x >>= b.call) := by
    intro a b
    simp only [callAll]
    cases a.call x with
    | error e => rfl
    | ok y =>
      simp only [ok_bind]
      cases b.call y <;> rfl
  have app : ∀ (as : List Op) (b : Op), callAll (as ++ [b]) x = (callAll as x >>= b.call) := by
    intro as b
    rw [callAll_append]
    cases callAll as x with
    | error e => rfl
    | ok y =>
      simp only [ok_bind, callAll]
      cases b.call y <;> rfl
  cases a with
  | pipe as =>
    rw [call_pipe hx] at hb
    cases b with
    | pipe bs =>
      obtain rfl := Except.ok.inj h
      rw [call_pipe hx, call_pipe hx, callAll_append]
      cases e : callAll as x with
      | error e => rfl
      | ok y => simp only [ok_bind]; rw [call_pipe (hb y e)]
    | _ => obtain rfl := Except.ok.inj h; rw [call_pipe hx, call_pipe hx, app]
  | _ =>
    cases b with
    | pipe bs => cases h
    | _ => obtain rfl := Except.ok.inj h; rw [call_pipe hx, two]

/-- **C28.** Associativity: whenever the four compositions return, `(a | b) | c` and
`a | (b | c)` act identically on every such argument. `a | (b | c)` raises unless `a`
is itself a Pipe (next theorem, and `C28_or_returns_iff`). -/
theorem C28_or_assoc (a b c ab bc l r : Op) (h1 : a.or b = .ok ab) (h2 : ab.or c = .ok l)
    (h3 : b.or c = .ok bc) (h4 : a.or bc = .ok r) (x : Arg) (hx : x.isVel = false) :
    l.call x = r.call x := by
  rw [C28_or_is_composition ab c l h2 x hx, C28_or_is_composition a b ab h1 x hx,
    C28_or_is_composition a bc r h4 x hx]
  cases e : a.call x with
  | error e => rfl
  | ok y =>
    simp only [ok_bind]
    rw [C28_or_is_composition b c bc h3 y (call_not_vel a x y hx e)]

/-- **C28, exception.** Composition always gives a Pipe, and anything that is not a Pipe
`|` a Pipe raises `AttributeError`. So `(a | b) | c` always works for non-Pipes and `a | (b | c)`
never does. -/
theorem C28_or_pipe_raises (a b c bc : Op) (ha : a.isPipe = false) (h : b.or c = .ok bc) :
    bc.isPipe = true ∧ a.or bc = .error .attribute ∧
      (b.isPipe = false → c.isPipe = false → ∃ ab l, a.or b = .ok ab ∧ ab.or c = .ok l) := by
  have hp : bc.isPipe = true := by
    cases b <;> cases c <;> first | (cases h; done) | (obtain rfl := Except.ok.inj h; rfl)
  refine ⟨hp, ?_, ?_⟩
  · cases bc <;> first | (cases hp; done) | skip
    cases a <;> first | (cases ha; done) | rfl
  · intro hb hc
    refine ⟨.pipe [a, b], .pipe [a, b, c], ?_, ?_⟩
    · cases a <;> first | (cases ha; done) | (cases b <;> first | (cases hb; done) | rfl)
    · cases c <;> first | (cases hc; done) | rfl

example : ∃ bc, (Op.rotation 1).or (.spatial (.cart3 1 2 3)) = .ok bc ∧
    (Op.boost (.cart3 1 0 0)).or bc = .error .attribute :=
  ⟨_, rfl, (C28_or_pipe_raises (.boost (.cart3 1 0 0)) (.rotation 1) (.spatial (.cart3 1 2 3)) _ rfl
    rfl).2.1⟩

/-- associativity is met by pipes of any length -/
example (as bs cs : List Op) : ∃ ab bc l r, (Op.pipe as).or (.pipe bs) = .ok ab ∧
    ab.or (.pipe cs) = .ok l ∧ (Op.pipe bs).or (.pipe cs) = .ok bc ∧ (Op.pipe as).or bc = .ok r :=
  ⟨_, _, _, _, rfl, rfl, rfl, rfl⟩

/-- **C28.** `Identity` is neutral on either side, for every argument (other than a lone velocity), also
inside a longer Pipe. -/
theorem C28_identity_neutral (a l r : Op) (h1 : Op.identity.or a = .ok l)
    (h2 : a.or .identity = .ok r) (x : Arg) (hx : x.isVel = false) (as bs : List Op) :
    l.call x = a.call x ∧ r.call x = a.call x ∧
      (Op.pipe (as ++ .identity :: bs)).call x = (Op.pipe (as ++ bs)).call x := by
  refine ⟨?_, ?_, ?_⟩
  · rw [C28_or_is_composition _ _ _ h1 x hx]; simp only [Op.call, ok_bind]
  · rw [C28_or_is_composition _ _ _ h2 x hx]
    cases a.call x <;> simp only [ok_bind, Op.call] <;> rfl
  · rw [call_pipe hx, call_pipe hx, callAll_append, callAll_append]
    cases callAll as x with
    | error e => rfl
    | ok y => simp only [ok_bind, callAll, Op.call]

/-- **C28, exception.** A lone velocity: a Pipe of two or more operators raises although each of them
accepts the velocity. -/
theorem C28_velocity_pipe_raises (v w p : Vel ℝ) (ops : List Op) :
    (Op.pipe (.vboost v :: .vboost w :: ops)).call (.vel p) = .error .typeError := by
  simp only [Op.call]
  rw [if_pos ⟨rfl, by simp⟩]

/-! ## C30: Galilean operators -/

/-- **C30.** A Galilean operator maps `(x, t)` to `(R x + s + (t + τ) v, t + τ)`, for a position of
any 3-D class, and returns it in that class. -/
theorem C30_galilean_affine (R : Mat3) (d : Four) (u v w : ℝ) (q : Pos ℝ) (t : ℝ) (a : Arg)
    (hq : Valid3 q) (hd : Valid3 d.q)
    (h : (Op.galilean R d (.cart3 u v w)).call (.posTime q t) = .ok a) :
    ∃ q', a = .posTime q' (t + d.t) ∧ q'.kind = q.kind ∧ Valid q' ∧
      point q' = ((mulV R (point q)).add (point d.q)).add (V3.smul (t + d.t) ⟨u, v, w⟩) := by
  obtain ⟨q', t', rfl, s⟩ := call_sound (.galilean R d (.cart3 u v w)) ⟨hd, rfl⟩ q t a hq h
  have e := Prod.mk.inj s.act
  refine ⟨q', ?_, s.kind, s.valid, ?_⟩
  · rw [e.2]
  · rw [e.1]; rfl

/-- **C30**, existence: it returns for every `CartesianPos3D`, and for the other classes (except the
prolate spheroidal one) when none of the three intermediate points is the origin. -/
theorem C30_galilean_returns (R : Mat3) (d : Four) (u v w : ℝ) (q : Pos ℝ) (t : ℝ)
    (hq : Valid3 q) (hd : Valid3 d.q)
    (h : q.kind = .cart3 ∨ (q.kind ≠ .prolate ∧ mulV R (point q) ≠ V3.zero ∧
      (mulV R (point q)).add (point d.q) ≠ V3.zero ∧
      ((mulV R (point q)).add (point d.q)).add (V3.smul (t + d.t) ⟨u, v, w⟩) ≠ V3.zero)) :
    ∃ a, (Op.galilean R d (.cart3 u v w)).call (.posTime q t) = .ok a :=
  call_total (.galilean R d (.cart3 u v w)) ⟨hd, rfl⟩ q t hq (h.imp_right fun ⟨h1, h2, h3, h4⟩ => ⟨h1, by
    simp only [visited, velV, List.mem_cons, List.not_mem_nil, or_false]
    rintro x (rfl | rfl | rfl)
    · exact h2
    · exact h3
    · exact h4⟩)

theorem dot_mulV (R : Mat3) (h : Orthogonal R) (a b : V3) :
    (mulV R a).dot (mulV R b) = a.dot b := by
  have e : R.transpose * R = 1 := mul_eq_one_comm.mp h
  have f : ∀ i j, R 0 i * R 0 j + R 1 i * R 1 j + R 2 i * R 2 j = (1 : Mat3) i j := by
    intro i j
    rw [← e]
    simp [Matrix.mul_apply, Fin.sum_univ_three]
  have f00 := f 0 0
  have f11 := f 1 1
  have f22 := f 2 2
  have f01 := f 0 1
  have f02 := f 0 2
  have f12 := f 1 2
  simp at f00 f11 f22 f01 f02 f12
  simp only [mulV, V3.dot]
  linear_combination a.x * b.x * f00 + a.y * b.y * f11 + a.z * b.z * f22
    + (a.x * b.y + a.y * b.x) * f01 + (a.x * b.z + a.z * b.x) * f02
    + (a.y * b.z + a.z * b.y) * f12

theorem mulV_sub (R : Mat3) (a b : V3) : (mulV R a).sub (mulV R b) = mulV R (a.sub b) := by
  simp only [mulV, V3.sub, V3.mk.injEq]
  refine ⟨?_, ?_, ?_⟩ <;> ring

theorem norm_mulV (R : Mat3) (h : Orthogonal R) (a : V3) : V3.norm (mulV R a) = V3.norm a := by
  have := dot_mulV R h a a
  simp only [V3.dot] at this
  simp only [V3.norm]
  congr 1
  nlinarith [this]

theorem sub_add_right (a b c : V3) : (a.add c).sub (b.add c) = a.sub b := by
  ext <;> simp [V3.add, V3.sub]

/-- all actions preserve simultaneous distances and time intervals -/
theorem act_isometry (op : Op) : Rigid op → ∀ (x y : V3) (t s : ℝ),
    dist3 (act op (x, t)).1 (act op (y, t)).1 = dist3 x y ∧
    (act op (x, t)).2 - (act op (y, s)).2 = t - s := by
  induction op using Op.ind with
  | id => intro _ x y t s; simp [act]
  | vb v => intro _ x y t s; simp [act]
  | rot R =>
    intro r x y t s
    exact ⟨by simp only [act, dist3, mulV_sub, norm_mulV R r], by simp [act]⟩
  | sp d => intro _ x y t s; simp [act, dist3, sub_add_right]
  | tr d => intro _ x y t s; simp [act, dist3, sub_add_right]
  | bo v => intro _ x y t s; simp [act, dist3, sub_add_right]
  | ga R d v =>
    intro r x y t s
    exact ⟨by simp only [act, dist3, sub_add_right, mulV_sub, norm_mulV R r], by simp [act]⟩
  | pi ops ih =>
    intro r x y t s
    simp only [Rigid, Every, everyAll_iff] at r
    simp only [act]
    induction ops generalizing x y t s with
    | nil => simp [actAll]
    | cons o os ihl =>
      simp only [actAll]
      obtain ⟨h1, h2⟩ := ih o (by simp) (r o (by simp)) x y t s
      have h3 := (ih o (by simp) (r o (by simp)) x y t t).2
      have g := fun x y t s => ihl (fun p hp => ih p (by simp [hp])) x y t s
        (fun p hp => r p (by simp [hp]))
      have e : act o (y, t) = ((act o (y, t)).1, (act o (x, t)).2) := by
        ext1
        · rfl
        · simp only; linarith
      obtain ⟨g1, _⟩ := g (act o (x, t)).1 (act o (y, t)).1 (act o (x, t)).2 (act o (y, s)).2
      obtain ⟨_, g2⟩ := g (act o (x, t)).1 (act o (y, s)).1 (act o (x, t)).2 (act o (y, s)).2
      constructor
      · rw [e]; exact g1.trans h1
      · exact g2.trans h2

/-- **C30.** Every operator with orthogonal rotations (in particular every Galilean operator, and any
pipe) preserves the distance between simultaneous events and all time intervals, whatever the
classes of the two positions. -/
theorem C30_distances_preserved (op : Op) (w : WellFormed op) (r : Rigid op) (q p : Pos ℝ)
    (t s : ℝ) (a b c : Arg) (hq : Valid3 q) (hp : Valid3 p)
    (h1 : op.call (.posTime q t) = .ok a) (h2 : op.call (.posTime p t) = .ok b)
    (h3 : op.call (.posTime p s) = .ok c) :
    ∃ q' p' p'' t' s', a = .posTime q' t' ∧ b = .posTime p' t' ∧ c = .posTime p'' s' ∧
      dist3 (point q') (point p') = dist3 (point q) (point p) ∧ t' - s' = t - s := by
  obtain ⟨q', t', rfl, s1⟩ := call_sound op w q t a hq h1
  obtain ⟨p', t'', rfl, s2⟩ := call_sound op w p t b hp h2
  obtain ⟨p'', s', rfl, s3⟩ := call_sound op w p s c hp h3
  obtain ⟨i1, i2⟩ := act_isometry op r (point q) (point p) t s
  have i3 := (act_isometry op r (point q) (point p) t t).2
  rw [← s1.act, ← s2.act] at i1 i3
  rw [← s1.act, ← s3.act] at i2
  simp only at i1 i2 i3
  have : t'' = t' := by linarith
  subst this
  exact ⟨q', p', p'', t'', s', rfl, rfl, rfl, i1, i2⟩

example : ∃ a, exampleOp.call (.posTime (.cart3 7 8 9) 1) = .ok a :=
  call_total exampleOp exampleOp_wf _ _ ⟨trivial, rfl⟩ (Or.inl rfl)

/-! ## C31: independence of the representation -/

/-- **C31.** Two positions of whatever 3-D classes that denote the same point are sent by an operator,
at equal times, to positions denoting the same point at the same time, each in the class of its
input. -/
theorem C31_class_independent (op : Op) (w : WellFormed op) (q p : Pos ℝ) (t : ℝ) (a b : Arg)
    (hq : Valid3 q) (hp : Valid3 p) (h : point q = point p)
    (h1 : op.call (.posTime q t) = .ok a) (h2 : op.call (.posTime p t) = .ok b) :
    ∃ q' p' t', a = .posTime q' t' ∧ b = .posTime p' t' ∧ q'.kind = q.kind ∧ p'.kind = p.kind ∧
      Valid q' ∧ Valid p' ∧ point q' = point p' := by
  obtain ⟨q', t', rfl, s1⟩ := call_sound op w q t a hq h1
  obtain ⟨p', t'', rfl, s2⟩ := call_sound op w p t b hp h2
  have e := s1.act
  rw [h, ← s2.act] at e
  have e := Prod.mk.inj e
  obtain ⟨e1, rfl⟩ := e
  exact ⟨q', p', t', rfl, rfl, s1.kind, s2.kind, s1.valid, s2.valid, e1⟩

/-- **C31**, with the Cartesian form: the point returned for `q` is the one returned for
`CartesianPos3D` at the same point (which always returns). Exactly when the other classes return:
`C31_call_exact`; prolate spheroidal positions never do (next theorem). -/
theorem C31_like_cartesian (op : Op) (w : WellFormed op) (q : Pos ℝ) (t : ℝ)
    (hq : Valid3 q) (hk : q.kind ≠ .prolate)
    (hv : ∀ x ∈ visited op (point q, t), x ≠ V3.zero) :
    ∃ q' x y z t', op.call (.posTime q t) = .ok (.posTime q' t') ∧ q'.kind = q.kind ∧ Valid q' ∧
      op.call (.posTime (.cart3 (point q).x (point q).y (point q).z) t)
        = .ok (.posTime (.cart3 x y z) t') ∧ point q' = ⟨x, y, z⟩ := by
  have hc : Valid3 (.cart3 (point q).x (point q).y (point q).z) := ⟨trivial, rfl⟩
  obtain ⟨a, h1⟩ := call_total op w q t hq (Or.inr ⟨hk, hv⟩)
  obtain ⟨b, h2⟩ := call_total op w _ t hc (Or.inl rfl)
  obtain ⟨q', p', t', rfl, rfl, k1, k2, v1, v2, e⟩ := C31_class_independent op w q _ t a b hq hc rfl h1 h2
  cases p' <;> first | (cases k2; done) | exact ⟨q', _, _, _, t', h1, k1, v1, h2, e⟩

/-- the hypotheses are met: a boost and a quarter turn of a spherical position -/
example : ∃ q' t', (Op.pipe [.boost (.cart3 0 0 1), .rotation 1]).call
      (.posTime (.sph (.dist 3) 0 0) 2) = .ok (.posTime q' t') ∧ q'.kind = .sph :=
  have ⟨q', _, _, _, t', h, k, _⟩ := C31_like_cartesian (.pipe [.boost (.cart3 0 0 1), .rotation 1]) ⟨rfl, trivial, trivial⟩
    (.sph (.dist 3) 0 0) 2 ⟨⟨by norm_num [DistOk], le_refl _, Real.pi_pos.le⟩, rfl⟩
    (fun h => by cases h) (by
      intro x hx h
      have := congrArg V3.z h
      simp only [visited, visitedAll, act, List.append_nil, List.mem_append, List.mem_singleton] at hx
      rcases hx with rfl | rfl <;>
        norm_num [point, sphPoint, distOf, velV, V3.smul, V3.add, V3.zero, mulV] at this)
  ⟨q', t', h, k⟩

/-- **C31, exception.** Prolate spheroidal positions: rotations, translations and boosts raise on them. -/
theorem C31_prolate_fails (mu nu phi delta t : ℝ) (hv : Valid (.prolate mu nu phi delta)) (R : Mat3)
    (d : Pos ℝ) (hd : Valid3 d) (x : Four) (hx : Valid3 x.q) (v : Vel ℝ) (hk : v.kind = .cart3) :
    ∀ op ∈ [Op.rotation R, .spatial d, .translation x, .boost v, .galilean R x v],
      op.call (.posTime (.prolate mu nu phi delta) t) = .error .missingDelta := by
  have ad : ∀ e : Pos ℝ, Valid3 e → addPos (.prolate mu nu phi delta) e = .error .missingDelta :=
    fun e he => (C15_prolate_fails mu nu phi delta e hv he.1 he.2).1
  have ro : rotPos R (.prolate mu nu phi delta) = .error .missingDelta := by
    obtain ⟨c, h1, g⟩ := toCart_total _ hv (fun h => by cases h)
    have ek : (Pos.prolate mu nu phi delta : Pos ℝ).kind.cartesian = .cart3 := rfl
    rw [ek] at h1 g
    have hck := g.kind
    cases c <;> first | (cases hck; done) | skip
    unfold rotPos
    rw [if_neg (fun h => h rfl), h1, ok_bind]
    exact cart_to_prolate_fails 199 (matApply R _ _ _) rfl
  obtain ⟨e, e1, e2, _⟩ := velTimes_cart3 hk t
  have ae := ad e ⟨valid_of_cart _ (by rw [e2]; rfl), by rw [e2]; rfl⟩
  intro op hop
  simp only [List.mem_cons, List.not_mem_nil, or_false] at hop
  rcases hop with rfl | rfl | rfl | rfl | rfl
  · simp only [Op.call, callRotation, ro]; rfl
  · simp only [Op.call, callSpatial, ad d hd]; rfl
  · simp only [Op.call, callTranslation, ad x.q hx]; rfl
  · simp only [Op.call, callBoost, e1, ok_bind, ae]; rfl
  · simp only [Op.call, callRotation, ro]; rfl

end Verif
