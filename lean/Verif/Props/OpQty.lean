import Verif.OpQty
import Verif.Props.Operators
import Verif.Props.FourVector
import Verif.Props.Frames

/-!
# Operators on bare Quantities (C54), Pipes as sequences (C55), construction of operators (C56)
-/

namespace Verif

open List Spec

namespace Spec

/-- the vector of one, two or three Cartesian coordinates -/
def vecOf : List ℝ → V3
  | [x] => ⟨x, 0, 0⟩
  | [x, y] => ⟨x, y, 0⟩
  | [x, y, z] => ⟨x, y, z⟩
  | _ => V3.zero

/-- The operator does not need a time: no boost, no spacetime translation, no Galilean operator inside. -/
def Static : Op → Prop :=
  Every fun
    | .translation _ | .boost _ | .galilean _ _ _ => False
    | _ => True

/-- `Pipe` or `GalileanOperator` -/
def Composite (op : Op) : Prop := (∃ ops, op = .pipe ops) ∨ ∃ R d v, op = .galilean R d v

/-- the operators a composite operator consists of, in the order of application -/
inductive Parts : Op → List Op → Prop where
  | pipe (ops) : Parts (.pipe ops) ops
  | galilean (R d v) : Parts (.galilean R d v) [.rotation R, .translation d, .boost v]

end Spec

/-! ### positions without time -/

/-- a call without time is a call that ignores the time -/
theorem call_pos (op : Op) : ∀ (q : Pos ℝ) (a : Arg), op.call (.pos q) = .ok a →
    Static op ∧ ∃ q', a = .pos q' ∧ ∀ t, op.call (.posTime q t) = .ok (.posTime q' t) := by
  induction op using Op.ind with
  | id =>
    intro q a h
    simp only [Op.call] at h
    obtain rfl := Except.ok.inj h
    exact ⟨trivial, q, rfl, fun t => by simp only [Op.call]⟩
  | rot R =>
    intro q a h
    simp only [Op.call, callRotation] at h
    obtain ⟨q', h1, h⟩ := (bind_ok_iff _ _ _).mp h
    obtain rfl := Except.ok.inj h
    exact ⟨trivial, q', rfl, fun t => by simp only [Op.call, callRotation, h1, ok_bind]; rfl⟩
  | sp d =>
    intro q a h
    simp only [Op.call, callSpatial] at h
    obtain ⟨q', h1, h⟩ := (bind_ok_iff _ _ _).mp h
    obtain rfl := Except.ok.inj h
    exact ⟨trivial, q', rfl, fun t => by simp only [Op.call, callSpatial, h1, ok_bind]; rfl⟩
  | tr d => intro q a h; simp only [Op.call, callTranslation] at h; cases h
  | bo v => intro q a h; simp only [Op.call, callBoost] at h; cases h
  | vb v =>
    intro q a h
    simp only [Op.call, callVBoost] at h
    obtain rfl := Except.ok.inj h
    exact ⟨trivial, q, rfl, fun t => by simp only [Op.call, callVBoost]⟩
  | ga R d v =>
    intro q a h
    simp only [Op.call] at h
    obtain ⟨b, h1, h⟩ := (bind_ok_iff _ _ _).mp h
    obtain ⟨c, h2, h⟩ := (bind_ok_iff _ _ _).mp h
    simp only [callRotation] at h1
    obtain ⟨q', h1, h3⟩ := (bind_ok_iff _ _ _).mp h1
    obtain rfl := Except.ok.inj h3
    simp only [callTranslation] at h2
    cases h2
  | pi ops ih =>
    intro q a h
    rw [call_pipe rfl] at h
    have key : ∀ os : List Op, (∀ o ∈ os, o ∈ ops) → ∀ (q : Pos ℝ) (a : Arg), callAll os (.pos q) = .ok a →
        EveryAll (fun
          | .translation _ | .boost _ | .galilean _ _ _ => False
          | _ => True) os ∧ ∃ q', a = .pos q' ∧ ∀ t, callAll os (.posTime q t) = .ok (.posTime q' t) := by
      intro os
      induction os with
      | nil =>
        intro _ q a h
        simp only [callAll] at h
        obtain rfl := Except.ok.inj h
        exact ⟨by simp [EveryAll], q, rfl, fun t => by simp only [callAll]⟩
      | cons o os ih2 =>
        intro hm q a h
        simp only [callAll] at h
        obtain ⟨b, h1, h⟩ := (bind_ok_iff _ _ _).mp h
        obtain ⟨s1, q1, rfl, e1⟩ := ih o (hm o (by simp)) q b h1
        obtain ⟨s2, q2, rfl, e2⟩ := ih2 (fun x hx => hm x (by simp [hx])) q1 a h
        exact ⟨by rw [EveryAll]; exact ⟨s1, s2⟩, q2, rfl, fun t => by simp only [callAll, e1, ok_bind, e2]⟩
    obtain ⟨s, q', e, f⟩ := key ops (fun _ h => h) q a h
    exact ⟨by simp only [Static, Every]; exact s, q', e, fun t => by rw [call_pipe rfl]; exact f t⟩

/-- a call on a position and a time gives a position and a time -/
theorem call_posTime_shape (op : Op) : ∀ (q : Pos ℝ) (t : ℝ) (a : Arg), op.call (.posTime q t) = .ok a →
    ∃ q' t', a = .posTime q' t' := by
  have tra : ∀ (d : Four) (q : Pos ℝ) (t : ℝ) (a : Arg), callTranslation d (.posTime q t) = .ok a →
      ∃ q' t', a = .posTime q' t' := by
    intro d q t a h
    simp only [callTranslation] at h
    split at h
    · cases h
    · obtain ⟨q', _, h⟩ := (bind_ok_iff _ _ _).mp h
      exact ⟨_, _, (Except.ok.inj h).symm⟩
  have rot : ∀ (R : Mat3) (q : Pos ℝ) (t : ℝ) (a : Arg), callRotation R (.posTime q t) = .ok a →
      ∃ q' t', a = .posTime q' t' := by
    intro R q t a h
    obtain ⟨q', _, h⟩ := (bind_ok_iff _ _ _).mp h
    exact ⟨_, _, (Except.ok.inj h).symm⟩
  have boo : ∀ (v : Vel ℝ) (q : Pos ℝ) (t : ℝ) (a : Arg), callBoost v (.posTime q t) = .ok a →
      ∃ q' t', a = .posTime q' t' := by
    intro v q t a h
    obtain ⟨_, _, h⟩ := (bind_ok_iff _ _ _).mp h
    obtain ⟨q', _, h⟩ := (bind_ok_iff _ _ _).mp h
    exact ⟨_, _, (Except.ok.inj h).symm⟩
  induction op using Op.ind with
  | id => intro q t a h; simp only [Op.call] at h; exact ⟨_, _, (Except.ok.inj h).symm⟩
  | vb v => intro q t a h; simp only [Op.call, callVBoost] at h; exact ⟨_, _, (Except.ok.inj h).symm⟩
  | rot R => intro q t a h; simp only [Op.call] at h; exact rot R q t a h
  | sp d =>
    intro q t a h; simp only [Op.call, callSpatial] at h
    obtain ⟨q', _, h⟩ := (bind_ok_iff _ _ _).mp h
    exact ⟨_, _, (Except.ok.inj h).symm⟩
  | tr d => intro q t a h; simp only [Op.call] at h; exact tra d q t a h
  | bo v => intro q t a h; simp only [Op.call] at h; exact boo v q t a h
  | ga R d v =>
    intro q t a h; simp only [Op.call] at h
    obtain ⟨b, h1, h⟩ := (bind_ok_iff _ _ _).mp h
    obtain ⟨c, h2, h⟩ := (bind_ok_iff _ _ _).mp h
    obtain ⟨q1, t1, rfl⟩ := rot R q t b h1
    obtain ⟨q2, t2, rfl⟩ := tra d q1 t1 c h2
    exact boo v q2 t2 a h
  | pi ops ih =>
    intro q t a h
    rw [call_pipe rfl] at h
    induction ops generalizing q t with
    | nil => simp only [callAll] at h; exact ⟨_, _, (Except.ok.inj h).symm⟩
    | cons o os ih2 =>
      simp only [callAll] at h
      obtain ⟨b, h1, h⟩ := (bind_ok_iff _ _ _).mp h
      obtain ⟨q1, t1, rfl⟩ := ih o (by simp) q t b h1
      exact ih2 (fun x hx => ih x (by simp [hx])) q1 t1 h

/-- and conversely for operators that need no time -/
theorem call_pos_total (op : Op) : Static op → ∀ (q q' : Pos ℝ) (t t' : ℝ),
    op.call (.posTime q t) = .ok (.posTime q' t') → op.call (.pos q) = .ok (.pos q') ∧ t' = t := by
  induction op using Op.ind with
  | id =>
    intro _ q q' t t' h
    simp only [Op.call] at h ⊢
    cases h; exact ⟨rfl, rfl⟩
  | rot R =>
    intro _ q q' t t' h
    simp only [Op.call, callRotation] at h ⊢
    obtain ⟨p, h1, h⟩ := (bind_ok_iff _ _ _).mp h
    cases h
    exact ⟨by rw [h1, ok_bind]; rfl, rfl⟩
  | sp d =>
    intro _ q q' t t' h
    simp only [Op.call, callSpatial] at h ⊢
    obtain ⟨p, h1, h⟩ := (bind_ok_iff _ _ _).mp h
    cases h
    exact ⟨by rw [h1, ok_bind]; rfl, rfl⟩
  | tr d => intro s; simp only [Static, Every] at s
  | bo v => intro s; simp only [Static, Every] at s
  | vb v =>
    intro _ q q' t t' h
    simp only [Op.call, callVBoost] at h ⊢
    cases h; exact ⟨rfl, rfl⟩
  | ga R d v => intro s; simp only [Static, Every] at s
  | pi ops ih =>
    intro s q q' t t' h
    rw [call_pipe rfl] at h ⊢
    simp only [Static, Every] at s
    rw [everyAll_iff] at s
    have key : ∀ os : List Op, (∀ o ∈ os, o ∈ ops) → ∀ (q : Pos ℝ), callAll os (.posTime q t) = .ok (.posTime q' t') →
        callAll os (.pos q) = .ok (.pos q') ∧ t' = t := by
      intro os
      induction os with
      | nil => intro _ q h; simp only [callAll] at h ⊢; cases h; exact ⟨rfl, rfl⟩
      | cons o os ih2 =>
        intro hm q h
        simp only [callAll] at h ⊢
        obtain ⟨b, h1, h⟩ := (bind_ok_iff _ _ _).mp h
        have hb : ∃ q1, b = .posTime q1 t ∧ o.call (.pos q) = .ok (.pos q1) := by
          have ho := hm o (by simp)
          obtain ⟨q1, t1, rfl⟩ := call_posTime_shape o q t b h1
          obtain ⟨e1, rfl⟩ := ih o ho (s o ho) q q1 t t1 h1
          exact ⟨q1, rfl, e1⟩
        obtain ⟨q1, rfl, e1⟩ := hb
        rw [e1, ok_bind]
        exact ih2 (fun x hx => hm x (by simp [hx])) q1 h
    exact key ops (fun _ h => h) q h

theorem toQuantity_cart3 (x y z : ℝ) : toQuantity (.cart3 x y z : Pos ℝ) = .ok [x, y, z] := by
  have hk : (Pos.cart3 x y z : Pos ℝ).kind.cartesian = .cart3 := rfl
  have := representAs_self_cart {} (.cart3 x y z : Pos ℝ) rfl
  rw [toQuantity, toCartesian, hk, show Kind.cart3 = (Pos.cart3 x y z : Pos ℝ).kind from rfl, this]; rfl

theorem toQuantity_cart (p : Pos ℝ) (h : p.kind.isCart = true) : ∃ xs, toQuantity p = .ok xs ∧
    xs.length = p.kind.dim ∧ vecOf xs = point p ∧ p.cartComponents = .ok xs := by
  have hk : p.kind.cartesian = p.kind := by cases p <;> first | rfl | cases h
  have e := representAs_self_cart {} p h
  cases p <;> first
    | (cases h; done)
    | exact ⟨_, by rw [toQuantity, toCartesian, hk, e]; rfl, rfl, rfl, rfl⟩

theorem cartOf_some {xs : List ℝ} {p : Pos ℝ} (h : cartOf xs = some p) : p.kind.isCart = true ∧
    p.kind.dim = xs.length ∧ point p = vecOf xs ∧ xs.length ≤ 3 := by
  unfold cartOf at h
  split at h <;> first | (cases h; done) | (cases h; exact ⟨rfl, rfl, rfl, by simp⟩)

/-- what an operator does to `CartesianPos3D` and a time -/
theorem call_cart3 (op : Op) (w : WellFormed op) (x y z t : ℝ) : ∃ x' y' z' t',
    op.call (.posTime (.cart3 x y z) t) = .ok (.posTime (.cart3 x' y' z') t') ∧
    act op (⟨x, y, z⟩, t) = (⟨x', y', z'⟩, t') := by
  have hq : Valid3 (.cart3 x y z) := ⟨trivial, rfl⟩
  obtain ⟨a, ha⟩ := call_total op w (.cart3 x y z) t hq (Or.inl rfl)
  obtain ⟨q', t', rfl, s⟩ := call_sound op w _ t a hq ha
  have hk := s.kind
  have hs := s.act
  cases q' <;> first | (cases hk; done) | exact ⟨_, _, _, _, ha, hs.symm⟩

/-! ## C54 -/

/-- **C54.** Any operator that is neither a Pipe nor a GalileanOperator, called on a Quantity of three coordinates and
a time, returns the Quantity and the time of the event the operator maps it to. -/
theorem C54_events (op : Op) (w : WellFormed op) (hc : ¬ Composite op) (x y z t : ℝ) :
    ∃ x' y' z' t', op.callQ (.qt [x, y, z] t) = .ok (.qt [x', y', z'] t') ∧
      act op (⟨x, y, z⟩, t) = (⟨x', y', z'⟩, t') := by
  obtain ⟨x', y', z', t', h1, h2⟩ := call_cart3 op w x y z t
  refine ⟨x', y', z', t', ?_, h2⟩
  have hg : op.callQtGeneric [x, y, z] t = .ok ([x', y', z'], t') := by
    simp only [Op.callQtGeneric, cartOf, h1, ok_bind, toQuantity_cart3]; rfl
  cases op with
  | identity =>
    simp only [Op.call] at h1
    cases h1; rfl
  | pipe ops => exact absurd (Or.inl ⟨_, rfl⟩) hc
  | galilean R d v => exact absurd (Or.inr ⟨_, _, _, rfl⟩) hc
  | _ => simp only [Op.callQ, Op.isComposite, hg, ok_bind]; rfl

/-- **C54.** On a Quantity of three coordinates without a time, an operator (a Pipe too) that needs no time returns
the coordinates of the point it maps to; an operator with a boost, a spacetime translation or a GalileanOperator inside
raises. -/
theorem C54_points (op : Op) (w : WellFormed op) (x y z : ℝ) :
    (Static op → ∃ x' y' z', op.callQ (.q [x, y, z]) = .ok (.q [x', y', z']) ∧
      ∀ t, act op (⟨x, y, z⟩, t) = (⟨x', y', z'⟩, t)) ∧
    (¬ Static op → ∃ e, op.callQ (.q [x, y, z]) = .error e) := by
  constructor
  · intro s
    have key : ∀ t, ∃ x' y' z', op.call (.pos (.cart3 x y z)) = .ok (.pos (.cart3 x' y' z')) ∧
        act op (⟨x, y, z⟩, t) = (⟨x', y', z'⟩, t) := by
      intro t
      obtain ⟨x', y', z', t', h1, h2⟩ := call_cart3 op w x y z t
      obtain ⟨h3, rfl⟩ := call_pos_total op s _ _ _ _ h1
      exact ⟨x', y', z', h3, h2⟩
    obtain ⟨x', y', z', h1, _⟩ := key 0
    have hall : ∀ t, act op (⟨x, y, z⟩, t) = (⟨x', y', z'⟩, t) := by
      intro t
      obtain ⟨a, b, c, g1, g2⟩ := key t
      rw [h1] at g1; cases g1; exact g2
    have hr := representAs_self_cart {} (.cart3 x' y' z' : Pos ℝ) rfl
    have hr : representAs {} (.cart3 x' y' z' : Pos ℝ) .cart3 = .ok (.cart3 x' y' z') := hr
    refine ⟨x', y', z', ?_, hall⟩
    cases op with
    | identity =>
      simp only [Op.call] at h1
      cases h1; rfl
    | rotation R =>
      have e := congrArg Prod.fst (hall 0)
      simp only [act, mulV] at e
      simp only [Op.callQ, Op.callQGeneric, Op.callQty, matApply, Pos.cartComponents, ok_bind]
      cases e; rfl
    | galilean R d v => simp only [Static, Every] at s
    | pipe ops =>
      simp only [Op.callQ, Op.callQGeneric, Op.callQty, h1, hr, ok_bind, toQuantity_cart3]
      rw [if_pos (show [x, y, z].length = 3 from rfl)]; rfl
    | _ => simp only [Op.callQ, Op.callQGeneric, Op.callQty, h1, hr, ok_bind, toQuantity_cart3]; rfl
  · intro ns
    cases h : op.callQ (.q [x, y, z]) with
    | error e => exact ⟨e, rfl⟩
    | ok r =>
      refine absurd ?_ ns
      have go : ∀ o : Op, (∃ r, (do
          match ← o.call (.pos (.cart3 x y z)) with
          | .pos q => toQuantity (← representAs {} q .cart3)
          | _ => .error .noDispatch : Res (List ℝ)) = .ok r) → Static o := by
        rintro o ⟨r, h⟩
        obtain ⟨b, h1, _⟩ := (bind_ok_iff _ _ _).mp h
        exact (call_pos o _ _ h1).1
      cases op with
      | identity => trivial
      | rotation R => trivial
      | spatial d => trivial
      | vboost v => trivial
      | galilean R d v => cases h
      | pipe ops =>
        simp only [Op.callQ] at h
        rw [if_pos (show [x, y, z].length = 3 from rfl)] at h
        obtain ⟨b, h1, _⟩ := (bind_ok_iff _ _ _).mp h
        exact go _ ⟨b, h1⟩
      | translation d =>
        obtain ⟨b, h1, _⟩ := (bind_ok_iff _ _ _).mp h
        exact go _ ⟨b, h1⟩
      | boost v =>
        obtain ⟨b, h1, _⟩ := (bind_ok_iff _ _ _).mp h
        exact go _ ⟨b, h1⟩

/-- **C54.** A Quantity `[ct, x, y, z]` is the event at time `ct / c`: the result is `[ct', x', y', z']` for the event
the operator maps it to. -/
theorem C54_four_components (op : Op) (w : WellFormed op) (hc : ¬ Composite op) (ct x y z : ℝ) :
    ∃ ct' x' y' z', op.callQ (.q [ct, x, y, z]) = .ok (.q [ct', x', y', z']) ∧
      act op (⟨x, y, z⟩, ct / lightSpeed) = (⟨x', y', z'⟩, ct' / lightSpeed) := by
  obtain ⟨v, f1, f2, f3, f4, f5⟩ := C42_from_to_quantity ct x y z
  obtain ⟨vt, vq, vc⟩ := v
  simp only at f2 f3 f4
  subst f2 f4
  have hn := lightSpeed_pos.ne'
  have ht : vt = ct / lightSpeed := by rw [eq_div_iff hn, mul_comm]; exact f3
  obtain ⟨x', y', z', t', h1, h2⟩ := call_cart3 op w x y z vt
  obtain ⟨c1, c2⟩ := C31_four_vector op w ⟨vt, .cart3 x y z, lightSpeed⟩ ⟨trivial, rfl⟩
  obtain ⟨c, h3⟩ := c2 _ _ h1
  obtain ⟨y1, e1, e2, _⟩ := c1 _ h3
  cases e1
  obtain rfl : c = lightSpeed := e2 rfl
  refine ⟨lightSpeed * t', x', y', z', ?_, ?_⟩
  · have hg : op.callQGeneric [ct, x, y, z] = .ok [lightSpeed * t', x', y', z'] := by
      simp only [Op.callQGeneric, f1, ok_bind, h3, Four.toQuantity, toQuantity_cart3]; rfl
    cases op with
    | identity =>
      simp only [Op.call] at h1
      cases h1
      simp only [Op.callQ, f3]
    | pipe ops => exact absurd (Or.inl ⟨_, rfl⟩) hc
    | galilean R d v => exact absurd (Or.inr ⟨_, _, _, rfl⟩) hc
    | _ => simp only [Op.callQ, hg, ok_bind]; rfl
  · rw [mul_div_cancel_left₀ _ hn, ← ht, h2]

/-- **C54.** In one and two dimensions a translation by a position of the same dimension (of any class) adds the point,
with and without a time; a boost by a Cartesian velocity adds velocity times time; rotations and spacetime translations
raise. -/
theorem C54_low_dimensions (xs : List ℝ) (hx : xs.length = 1 ∨ xs.length = 2) (t : ℝ) :
    (∀ d : Pos ℝ, Valid d → d.kind.dim = xs.length → d.kind ≠ .twoSphere →
      ∃ ys, (Op.spatial d).callQ (.q xs) = .ok (.q ys) ∧ (Op.spatial d).callQ (.qt xs t) = .ok (.qt ys t) ∧
        ys.length = xs.length ∧ vecOf ys = (vecOf xs).add (point d)) ∧
    (∀ vs : List ℝ, vs.length = xs.length → ∀ v : Vel ℝ, (v = .cart1 (vs.getD 0 0) ∧ vs.length = 1 ∨
        v = .cart2 (vs.getD 0 0) (vs.getD 1 0) ∧ vs.length = 2) →
      ∃ ys, (Op.boost v).callQ (.qt xs t) = .ok (.qt ys t) ∧ ys.length = xs.length ∧
        vecOf ys = (vecOf xs).add (V3.smul t (vecOf vs))) ∧
    (∀ R : Mat3, (∃ e, (Op.rotation R).callQ (.q xs) = .error e) ∧ ∃ e, (Op.rotation R).callQ (.qt xs t) = .error e) ∧
    (∀ d : Four, (∃ e, (Op.translation d).callQ (.q xs) = .error e) ∧
      ∃ e, (Op.translation d).callQ (.qt xs t) = .error e) := by
  obtain ⟨p, hp⟩ : ∃ p, cartOf xs = some p := by
    match xs, hx with
    | [x], _ => exact ⟨_, rfl⟩
    | [x, y], _ => exact ⟨_, rfl⟩
    | [], h => simp at h
    | _ :: _ :: _ :: _, h => simp at h
  obtain ⟨c1, c2, c3, _⟩ := cartOf_some hp
  have hgen : ∀ op : Op, op.callQGeneric xs = (do
      match ← op.call (.pos p) with
      | .pos q => toQuantity q
      | _ => .error .noDispatch : Res (List ℝ)) := by
    intro op
    match xs, hx, hp with
    | [x], _, hp => simp only [Op.callQGeneric, hp]; rfl
    | [x, y], _, hp => simp only [Op.callQGeneric, hp]; rfl
    | [], h, _ => simp at h
    | _ :: _ :: _ :: _, h, _ => simp at h
  have hgent : ∀ op : Op, op.callQtGeneric xs t = (do
      match ← op.call (.posTime p t) with
      | .posTime q t' => return (← toQuantity q, t')
      | _ => .error .noDispatch : Res (List ℝ × ℝ)) := by
    intro op
    simp only [Op.callQtGeneric, hp]; rfl
  have add : ∀ d : Pos ℝ, Valid d → d.kind.dim = xs.length → d.kind ≠ .twoSphere → ∃ q ys, addPos p d = .ok q ∧
      toQuantity q = .ok ys ∧ ys.length = xs.length ∧ vecOf ys = (vecOf xs).add (point d) := by
    intro d hv hd hs
    have hvp := valid_of_cart p c1
    have hdim : p.kind.dim = d.kind.dim := by rw [c2, hd]
    obtain ⟨q, hq⟩ := (Props.C15_add_sub_return p d hvp hv hdim (by intro e; rw [e] at c1; cases c1) hs
      (by intro e; rw [e] at c1; cases c1)).1 (Or.inl c1) (by intro e; rw [e] at c1; cases c1)
    obtain ⟨k, _, e⟩ := (Props.C15_add_sub p d q hvp hv hdim).1 hq
    obtain ⟨ys, y1, y2, y3, _⟩ := toQuantity_cart q (by rw [k]; exact c1)
    exact ⟨q, ys, hq, y1, by rw [y2, k, c2], by rw [y3, e, c3]⟩
  refine ⟨fun d hv hd hs => ?_, fun vs hvs v hv => ?_, fun R => ⟨?_, ?_⟩, fun d => ⟨?_, ?_⟩⟩
  · obtain ⟨q, ys, h1, h2, h3, h4⟩ := add d hv hd hs
    refine ⟨ys, ?_, ?_, h3, h4⟩
    · simp only [Op.callQ, hgen, Op.call, callSpatial, h1, ok_bind]
      show (do return QArg.q (← toQuantity q)) = _
      rw [h2]; rfl
    · simp only [Op.callQ, Op.isComposite, hgent, Op.call, callSpatial, h1, ok_bind]
      show (do let r ← (do return (← toQuantity q, t) : Res (List ℝ × ℝ)); return QArg.qt r.1 r.2) = _
      rw [h2]; rfl
  · obtain ⟨d, hd, d1, d2, d3⟩ : ∃ d, velTimes v t = .ok d ∧ d.kind.isCart = true ∧ d.kind.dim = xs.length ∧
        point d = V3.smul t (vecOf vs) := by
      match vs, hv with
      | [a], .inl ⟨e, _⟩ =>
        subst e
        exact ⟨_, rfl, rfl, by rw [← hvs]; rfl, by simp [point, V3.smul, vecOf, mul_comm]⟩
      | [a, b], .inr ⟨e, _⟩ =>
        subst e
        exact ⟨_, rfl, rfl, by rw [← hvs]; rfl, by simp [point, V3.smul, vecOf, mul_comm]⟩
      | [], .inl h => simp at h
      | [], .inr h => simp at h
      | [_], .inr h => simp at h
      | _ :: _ :: _, .inl h => simp at h
      | _ :: _ :: _ :: _, .inr h => simp at h
    obtain ⟨q, ys, h1, h2, h3, h4⟩ := add d (valid_of_cart d d1) d2 (by intro e; rw [e] at d1; cases d1)
    refine ⟨ys, ?_, h3, by rw [h4, d3]⟩
    simp only [Op.callQ, Op.isComposite, hgent, Op.call, callBoost, hd, h1, ok_bind]
    show (do let r ← (do return (← toQuantity q, t) : Res (List ℝ × ℝ)); return QArg.qt r.1 r.2) = _
    rw [h2]; rfl
  all_goals
    have hne : p.kind.dim ≠ 3 := by rw [c2]; rcases hx with h | h <;> rw [h] <;> decide
  · refine ⟨.noDispatch, ?_⟩
    simp only [Op.callQ, hgen, Op.call, callRotation, rotPos, if_pos hne]; rfl
  · refine ⟨.noDispatch, ?_⟩
    simp only [Op.callQ, Op.isComposite, hgent, Op.call, callRotation, rotPos, if_pos hne]; rfl
  · refine ⟨.noDispatch, ?_⟩
    simp only [Op.callQ, hgen, Op.call, callTranslation]; rfl
  · refine ⟨.noDispatch, ?_⟩
    simp only [Op.callQ, Op.isComposite, hgent, Op.call, callTranslation, if_pos hne]; rfl

/-- **C54, exception.** Pipes and Galilean operators raise on every Quantity with a time, Galilean operators on
every Quantity, Pipes on those of one, two or four components. -/
theorem C54_composite_raises (ops : List Op) (R : Mat3) (d : Four) (v : Vel ℝ) (xs : List ℝ) (t : ℝ) :
    (Op.pipe ops).callQ (.qt xs t) = .error .noDispatch ∧
    (Op.galilean R d v).callQ (.qt xs t) = .error .noDispatch ∧
    (Op.galilean R d v).callQ (.q xs) = .error .noDispatch ∧
    (xs.length ≠ 3 → (Op.pipe ops).callQ (.q xs) = .error .noDispatch) :=
  ⟨rfl, rfl, rfl, fun h => by simp only [Op.callQ]; rw [if_neg h]⟩

/-- witness -/
example : ∃ x' y' z' t', (Op.boost (.cart3 1 2 3)).callQ (.qt [4, 5, 6] 7) = .ok (.qt [x', y', z'] t') ∧ x' = 11 := by
  obtain ⟨x', y', z', t', h1, h2⟩ := C54_events (.boost (.cart3 1 2 3)) rfl
    (by rintro (⟨_, h⟩ | ⟨_, _, _, h⟩) <;> cases h) 4 5 6 7
  refine ⟨x', y', z', t', h1, ?_⟩
  have := congrArg (fun e => e.1.x) h2
  simp [act, V3.add, V3.smul, velV] at this
  linarith

example : ∃ x' y' z', (Op.pipe [.rotation !![0, -1, 0; 1, 0, 0; 0, 0, 1], .spatial (.cart3 1 2 3)]).callQ
    (.q [4, 5, 6]) = .ok (.q [x', y', z']) :=
  let ⟨x', y', z', h, _⟩ := (C54_points (.pipe [.rotation !![0, -1, 0; 1, 0, 0; 0, 0, 1], .spatial (.cart3 1 2 3)])
    ⟨trivial, ⟨trivial, rfl⟩, trivial⟩ 4 5 6).1 ⟨trivial, trivial, trivial⟩
  ⟨x', y', z', h⟩

/-! ## C55: Pipes and Galilean operators as sequences -/

theorem operators_iff {op : Op} {ops : List Op} : op.operators = some ops ↔ Parts op ops := by
  constructor
  · intro h
    cases op <;> first | (cases h; done) | (cases h; constructor)
  · rintro (_ | _) <;> rfl

theorem parts_call {op : Op} {ops : List Op} (h : Parts op ops) (x : Arg) (hx : x.isVel = false) :
    op.call x = callAll ops x := by
  cases h with
  | pipe => exact call_pipe hx
  | galilean R d v =>
    simp only [Op.call, callAll]
    cases callRotation R x with
    | error e => rfl
    | ok a =>
      simp only [ok_bind]
      cases callTranslation d a with
      | error e => rfl
      | ok b =>
        simp only [ok_bind]
        cases callBoost v b <;> rfl

/-- **C55.** A composite operator is called as its parts one after the other. -/
theorem C55_parts (op : Op) (ops : List Op) (h : Parts op ops) (x : Arg) (hx : x.isVel = false) :
    op.operators = some ops ∧ op.call x = ops.foldlM (fun y o => o.call y) x :=
  ⟨operators_iff.mpr h, by rw [parts_call h x hx, ← call_pipe hx, C28_pipe_left_to_right ops x hx]⟩

/-- **C55.** Indexing: `op[k]` is part number `k`, `op[-k]` the `k`-th from the end, other indices raise. -/
theorem C55_index (op : Op) (ops : List Op) (h : Parts op ops) (i : ℤ) :
    (∀ k : ℕ, ∀ hk : k < ops.length, op.getItem k = .ok ops[k] ∧ op.getItem (k - ops.length) = .ok ops[k]) ∧
    (i < -ops.length ∨ ops.length ≤ i → ∃ e, op.getItem i = .error e) := by
  rw [← operators_iff] at h
  have g : ∀ i, op.getItem i = match (pyIndex ops.length i).bind fun k => ops[k]? with
    | some o => .ok o
    | none => .error .key := fun i => by simp only [Op.getItem, h]; rfl
  refine ⟨fun k hk => ⟨?_, ?_⟩, fun hi => ⟨.key, ?_⟩⟩
  · have : pyIndex ops.length k = some k := by
      unfold pyIndex; rw [if_pos (by omega), if_pos (by omega)]; simp
    rw [g, this]; simp [hk]
  · have : pyIndex ops.length (k - ops.length) = some k := by
      unfold pyIndex; rw [if_neg (by omega), if_pos (by omega)]; simp
    rw [g, this]; simp [hk]
  · have : pyIndex ops.length i = none := by
      unfold pyIndex
      rcases hi with hi | hi
      · rw [if_neg (by omega), if_neg (by omega)]
      · rw [if_pos (by omega), if_neg (by omega)]
    rw [g, this]; rfl

/-- **C55.** Operators that are not composite are not sequences. -/
theorem C55_not_a_sequence (op : Op) (h : ¬ Composite op) (i : ℤ) (a b : Option ℤ) :
    (∃ e, op.getItem i = .error e) ∧ ∃ e, op.getSlice a b = .error e := by
  cases op with
  | pipe ops => exact absurd (Or.inl ⟨_, rfl⟩) h
  | galilean R d v => exact absurd (Or.inr ⟨_, _, _, rfl⟩) h
  | _ => exact ⟨⟨_, rfl⟩, ⟨_, rfl⟩⟩

/-- **C55.** Slicing gives a Pipe of the parts in the range, with Python's reading of negative and overshooting
bounds. -/
theorem C55_slice (op : Op) (ops : List Op) (h : Parts op ops) (i j : ℕ) :
    op.getSlice (some i) (some j) = .ok (.pipe ((ops.drop i).take (j - i))) ∧
    op.getSlice none (some j) = .ok (.pipe (ops.take j)) ∧
    op.getSlice (some i) none = .ok (.pipe (ops.drop i)) ∧
    op.getSlice none none = .ok (.pipe ops) ∧
    (0 < i → op.getSlice (some (-i)) none = .ok (.pipe (ops.drop (ops.length - i)))) ∧
    (0 < j → op.getSlice none (some (-j)) = .ok (.pipe (ops.take (ops.length - j)))) := by
  rw [← operators_iff] at h
  have g : ∀ a b, op.getSlice a b = .ok (.pipe (pySlice ops a b)) := fun a b => by simp only [Op.getSlice, h]
  have b1 : ∀ k : ℕ, pyBound ops.length k = min k ops.length := fun k => by
    unfold pyBound; rw [if_pos (by omega)]; simp
  have b2 : ∀ k : ℕ, 0 < k → pyBound ops.length (-k) = ops.length - k := fun k hk => by
    unfold pyBound; rw [if_neg (by omega)]; omega
  have m1 : ∀ k : ℕ, ops.take (min k ops.length) = ops.take k := fun k => by
    rcases le_total k ops.length with h | h
    · rw [min_eq_left h]
    · rw [min_eq_right h, take_length, take_of_length_le h]
  have m2 : ∀ (k : ℕ) (l : List Op), l.length ≤ ops.length → l.drop (min k ops.length) = l.drop k := fun k l hl => by
    rcases le_total k ops.length with h | h
    · rw [min_eq_left h]
    · rw [min_eq_right h, drop_of_length_le hl, drop_of_length_le (le_trans hl h)]
  simp only [g, pySlice, b1, m1, take_length, Except.ok.injEq, Op.pipe.injEq]
  refine ⟨?_, by simp, m2 i ops le_rfl, by simp, fun hi => by rw [b2 i hi], fun hj => by rw [b2 j hj]; simp⟩
  rw [m2 i _ (by simp), drop_take]

/-- **C55.** Cutting anywhere and calling the two slices one after the other, or joining them with `|`, is calling the
whole. -/
theorem C55_cut (op : Op) (ops : List Op) (h : Parts op ops) (k : ℤ) :
    ∃ a b c, op.getSlice none (some k) = .ok a ∧ op.getSlice (some k) none = .ok b ∧ a.or b = .ok c ∧ Parts c ops ∧
      ∀ x : Arg, x.isVel = false → (a.call x >>= b.call) = op.call x ∧ c.call x = op.call x := by
  have ho := operators_iff.mpr h
  refine ⟨.pipe (ops.take (pyBound ops.length k)), .pipe (ops.drop (pyBound ops.length k)), .pipe ops, ?_, ?_, ?_,
    .pipe ops, fun x hx => ?_⟩
  · simp only [Op.getSlice, ho, pySlice, drop_zero]
  · simp only [Op.getSlice, ho, pySlice, take_length]
  · simp only [Op.or, take_append_drop]
  · have e : (Op.pipe ops).call x = op.call x := by rw [parts_call h x hx, call_pipe hx]
    refine ⟨?_, e⟩
    rw [← e]
    have := C28_or_is_composition (.pipe (ops.take (pyBound ops.length k))) (.pipe (ops.drop (pyBound ops.length k)))
      (.pipe ops) (by simp only [Op.or, take_append_drop]) x hx
    exact this.symm

theorem inverseAll_append (as bs : List Op) : inverseAll (as ++ bs) =
    (do let r ← inverseAll bs; let s ← inverseAll as; return r ++ s) := by
  induction as with
  | nil =>
    simp only [nil_append, inverseAll]
    cases inverseAll bs <;> simp only [ok_bind, append_nil] <;> rfl
  | cons o os ih =>
    simp only [cons_append, inverseAll, ih]
    cases inverseAll bs with
    | error e => rfl
    | ok r =>
      simp only [ok_bind]
      cases inverseAll os with
      | error e => rfl
      | ok s =>
        simp only [ok_bind]
        cases o.inverse with
        | error e => rfl
        | ok t => simp only [ok_bind]; show Except.ok _ = Except.ok _; simp

theorem inverseAll_length {ops r : List Op} (h : inverseAll ops = .ok r) : r.length = ops.length := by
  induction ops generalizing r with
  | nil => simp only [inverseAll] at h; cases h; rfl
  | cons o os ih =>
    simp only [inverseAll] at h
    obtain ⟨s, h1, h⟩ := (bind_ok_iff _ _ _).mp h
    obtain ⟨t, h2, h⟩ := (bind_ok_iff _ _ _).mp h
    cases h
    simp [ih h1]

theorem inverse_parts {op inv : Op} {ops : List Op} (h : Parts op ops) (hi : op.inverse = .ok inv) :
    ∃ invs, inverseAll ops = .ok invs ∧ inv = .pipe invs := by
  cases h with
  | pipe =>
    simp only [Op.inverse] at hi
    obtain ⟨invs, h1, h2⟩ := (bind_ok_iff _ _ _).mp hi
    exact ⟨invs, h1, (Except.ok.inj h2).symm⟩
  | galilean R d v =>
    simp only [Op.inverse] at hi
    obtain ⟨e, h1, h2⟩ := (bind_ok_iff _ _ _).mp hi
    obtain rfl := Except.ok.inj h2
    exact ⟨_, by simp only [inverseAll, Op.inverse, h1, ok_bind]; rfl, rfl⟩

/-- **C55.** The inverse of a slice is the mirrored slice of the inverse. -/
theorem C55_inverse_of_slice (op inv : Op) (ops : List Op) (h : Parts op ops) (hi : op.inverse = .ok inv) (i j : ℕ)
    (hij : i ≤ j) (hj : j ≤ ops.length) :
    ∃ s t, op.getSlice (some i) (some j) = .ok s ∧ s.inverse = .ok t ∧
      inv.getSlice (some ↑(ops.length - j)) (some ↑(ops.length - i)) = .ok t := by
  obtain ⟨invs, h1, rfl⟩ := inverse_parts h hi
  have hs := (C55_slice op ops h i j).1
  have hsplit : ops = ops.take i ++ ((ops.drop i).take (j - i) ++ ops.drop j) := by
    have : ops.drop j = (ops.drop i).drop (j - i) := by rw [drop_drop]; congr 1; omega
    rw [this, take_append_drop, take_append_drop]
  rw [hsplit, inverseAll_append, inverseAll_append] at h1
  obtain ⟨cb, h2, h1⟩ := (bind_ok_iff _ _ _).mp h1
  obtain ⟨a, ha, h1⟩ := (bind_ok_iff _ _ _).mp h1
  obtain ⟨c, hc, h2⟩ := (bind_ok_iff _ _ _).mp h2
  obtain ⟨b, hb, h2⟩ := (bind_ok_iff _ _ _).mp h2
  obtain rfl := Except.ok.inj h2
  obtain rfl := Except.ok.inj h1
  have la := inverseAll_length ha
  have lb := inverseAll_length hb
  have lc := inverseAll_length hc
  simp only [length_take, length_drop] at la lb lc
  refine ⟨_, .pipe b, hs, ?_, ?_⟩
  · simp only [Op.inverse, hb, ok_bind]; rfl
  · rw [(C55_slice (.pipe (c ++ b ++ a)) _ (.pipe _) (ops.length - j) (ops.length - i)).1]
    congr 2
    rw [append_assoc, drop_append_of_le_length (by omega), drop_of_length_le (by omega), nil_append,
      take_append_of_le_length (by omega), take_of_length_le (by omega)]

/-- **C55.** `Pipe(...)` of operators: a tuple or list gives a Pipe of exactly those; a single operator, or a Pipe, one
that acts the same; `is_inertial` is always true. -/
theorem C55_make (ops : List Op) (o : Op) (x : Arg) (hx : x.isVel = false) :
    mkPipe (.tuple ops) = .ok (.pipe ops) ∧ mkPipe (.list ops) = .ok (.pipe ops) ∧
    ∃ p, mkPipe (.op o) = .ok p ∧ Composite p ∧ p.call x = o.call x := by
  refine ⟨rfl, rfl, ?_⟩
  have one : (Op.pipe [o]).call x = o.call x := by
    rw [call_pipe hx]; simp only [callAll]
    cases o.call x <;> rfl
  cases o with
  | pipe ops => exact ⟨_, rfl, Or.inl ⟨_, rfl⟩, rfl⟩
  | _ => exact ⟨_, rfl, Or.inl ⟨_, rfl⟩, one⟩

/-- **C55.** Every operator is inertial. -/
theorem C55_inertial (op : Op) : op.isInertial = true := by
  induction op using Op.ind with
  | pi ops ih =>
    rw [Op.isInertial, List.all_eq_true]
    rintro ⟨o, ho⟩ _
    exact ih o ho
  | _ => simp only [Op.isInertial]

example : (Op.galilean 1 ⟨0, .cart3 0 0 0, 1⟩ (.cart3 1 2 3)).getItem (-1) = .ok (.boost (.cart3 1 2 3)) :=
  ((C55_index _ _ (.galilean _ _ _) 0).1 2 (by simp)).2

/-! ## C56: construction -/

/-- **C56.** `from_` with a list of numbers and a unit: the operator translates or boosts by those numbers of that
unit. -/
theorem C56_from_values (un : UnitU) (x y z ct : ℝ) (p : V3) (t : ℝ) :
    (un.dim = .length → ∃ op, fromValues .spatial [x, y, z] un = .ok op ∧ WellFormed op ∧
      act op (p, t) = (p.add (V3.smul un.scale ⟨x, y, z⟩), t)) ∧
    (un.dim = .length → ∃ op, fromValues .translation [ct, x, y, z] un = .ok op ∧ WellFormed op ∧
      act op (p, t) = (p.add (V3.smul un.scale ⟨x, y, z⟩), t + un.scale * ct / lightSpeed)) ∧
    (un.dim = .speed → ∃ op, fromValues .boost [x, y, z] un = .ok op ∧ WellFormed op ∧
      act op (p, t) = (p.add (V3.smul (t * un.scale) ⟨x, y, z⟩), t)) ∧
    (un.dim = .speed → ∃ op, fromValues .vboost [x, y, z] un = .ok op ∧ ∀ a b c, op.call (.vel (.cart3 a b c)) =
      .ok (.vel (.cart3 (a + un.scale * x) (b + un.scale * y) (c + un.scale * z)))) := by
  refine ⟨fun h => ?_, fun h => ?_, fun h => ?_, fun h => ?_⟩
  · refine ⟨.spatial (.cart3 (x * un.scale) (y * un.scale) (z * un.scale)), ?_, ⟨trivial, rfl⟩, ?_⟩
    · simp only [fromValues, qtyOf, map_cons, map_nil, cartOf, if_pos h]
    · simp [act, V3.add, V3.smul, point, mul_comm]
  · obtain ⟨⟨vt, vq, vc⟩, f1, f2, f3, f4, f5⟩ :=
      C42_from_to_quantity (ct * un.scale) (x * un.scale) (y * un.scale) (z * un.scale)
    simp only at f2 f3 f4
    subst f2 f4
    refine ⟨.translation ⟨vt, .cart3 (x * un.scale) (y * un.scale) (z * un.scale), lightSpeed⟩, ?_, ⟨trivial, rfl⟩, ?_⟩
    · simp only [fromValues, qtyOf, map_cons, map_nil, if_pos h, f1, ok_bind]; rfl
    · have hn := lightSpeed_pos.ne'
      have : vt = un.scale * ct / lightSpeed := by rw [eq_div_iff hn, mul_comm, f3, mul_comm]
      simp [act, V3.add, V3.smul, point, mul_comm, this]
  · refine ⟨.boost (.cart3 (x * un.scale) (y * un.scale) (z * un.scale)), ?_, rfl, ?_⟩
    · simp only [fromValues, qtyOf, map_cons, map_nil, h]; rfl
    · simp only [act, V3.add, V3.smul, velV, Prod.mk.injEq, V3.mk.injEq, and_true]
      refine ⟨?_, ?_, ?_⟩ <;> ring
  · refine ⟨.vboost (.cart3 (x * un.scale) (y * un.scale) (z * un.scale)), ?_, fun a b c => ?_⟩
    · simp only [fromValues, qtyOf, map_cons, map_nil, h]; rfl
    · simp only [Op.call, callVBoost, addVel, mul_comm un.scale]; rfl

/-- **C56.** Numbers of the wrong dimension, and the wrong number of them for a translation, are rejected. -/
theorem C56_from_values_raises (un : UnitU) (xs : List ℝ) :
    (un.dim ≠ .length → (∃ e, fromValues .spatial xs un = .error e) ∧ ∃ e, fromValues .translation xs un = .error e) ∧
    (un.dim ≠ .speed → (∃ e, fromValues .boost xs un = .error e) ∧ ∃ e, fromValues .vboost xs un = .error e) ∧
    (xs = [] ∨ 3 < xs.length → ∃ e, fromValues .spatial xs un = .error e) ∧
    (xs.length ≠ 4 → ∃ e, fromValues .translation xs un = .error e) := by
  have cart : ∀ ys : List ℝ, (ys = [] ∨ 3 < ys.length) → cartOf ys = none := by
    intro ys h
    match ys, h with
    | [], _ => rfl
    | [_], h | [_, _], h | [_, _, _], h => simp at h
    | _ :: _ :: _ :: _ :: _, _ => rfl
  refine ⟨fun h => ⟨?_, ?_⟩, fun h => ⟨?_, ?_⟩, fun h => ?_, fun h => ?_⟩
  · simp only [fromValues]
    split
    · exact ⟨_, rfl⟩
    · exact ⟨_, by rw [if_neg h]⟩
  · exact ⟨_, by simp only [fromValues, if_neg h]; rfl⟩
  · exact ⟨_, by simp only [fromValues, if_pos h]; rfl⟩
  · exact ⟨_, by simp only [fromValues, if_pos h]; rfl⟩
  · refine ⟨.typeError, ?_⟩
    simp only [fromValues]
    rw [cart (qtyOf xs un) (by simpa [qtyOf] using h)]
  · simp only [fromValues]
    split
    · have : Four.from_ (qtyOf xs un) = .error .noDispatch := by
        have hl : (qtyOf xs un).length ≠ 4 := by simpa [qtyOf] using h
        generalize qtyOf xs un = ys at hl
        match ys, hl with
        | [], _ | [_], _ | [_, _], _ | [_, _, _], _ => rfl
        | [_, _, _, _], hl => simp at hl
        | _ :: _ :: _ :: _ :: _ :: _, _ => rfl
      exact ⟨_, by rw [this]; rfl⟩
    · exact ⟨_, rfl⟩

/-- **C56, exception.** For boosts, further numbers are dropped silently. -/
theorem C56_boost_drops_components (un : UnitU) (h : un.dim = .speed) (x y z : ℝ) (rest : List ℝ) :
    fromValues .boost (x :: y :: z :: rest) un = fromValues .boost [x, y, z] un ∧
    ∃ op, fromValues .boost [x, y, z] un = .ok op := by
  constructor
  · simp only [fromValues, qtyOf, map_cons]
  · obtain ⟨op, h, _⟩ := (C56_from_values un x y z 0 ⟨0, 0, 0⟩ 0).2.2.1 h
    exact ⟨op, h⟩

/-- **C56.** `from_` with an operator returns it if it is of that class, and raises otherwise. -/
theorem C56_from_operator (c : OpCls) (o p : Op) : fromOp c o = .ok p ↔ p = o ∧ o.cls = c := by
  unfold fromOp
  split
  · rename_i e
    exact ⟨fun h => ⟨(Except.ok.inj h).symm, e⟩, fun h => by rw [h.1]⟩
  · rename_i e
    exact ⟨fun h => (by cases h), fun h => absurd h.2 e⟩

/-- **C56.** Parts left out of `GalileanOperator(...)` do nothing: it acts as the rotation, then the translation, then
the boost that were given. -/
theorem C56_galilean_defaults (R : Option Mat3) (d : Option Four) (v : Option (Vel ℝ)) (e : Event) :
    act (mkGalilean R d v) e = actAll (R.toList.map .rotation ++ d.toList.map .translation ++ v.toList.map .boost) e := by
  obtain ⟨⟨a, b, c⟩, t⟩ := e
  cases R <;> cases d <;> cases v <;>
    simp [mkGalilean, act, actAll, mulV, point, velV, V3.add, V3.smul]

theorem foldl_orth (ms : List Mat3) (h : ∀ m ∈ ms, Orthogonal m ∧ m.det = 1) (A : Mat3) (hA : Orthogonal A ∧ A.det = 1) :
    (Orthogonal (ms.foldl (fun A B => A * B) A) ∧ (ms.foldl (fun A B => A * B) A).det = 1) ∧
    (Orthogonal (ms.foldl (fun A B => B * A) A) ∧ (ms.foldl (fun A B => B * A) A).det = 1) := by
  refine ⟨?_, ?_⟩ <;> induction ms generalizing A with
  | nil => exact hA
  | cons m ms ih =>
    obtain ⟨h1, h2⟩ := h m (by simp)
    refine ih (fun x hx => h x (by simp [hx])) _ ⟨?_, by rw [Matrix.det_mul, hA.2, h2, one_mul]⟩
    first | exact hA.1.mul h1 | exact h1.mul hA.1

theorem axis_orth (a : Axis) (t : ℝ) : Orthogonal (a.matrix t) ∧ (a.matrix t).det = 1 := by
  cases a
  · exact ⟨eulerX_orth t, by
      rw [Axis.matrix, eulerX, Matrix.det_fin_three]; simp; nlinarith [Real.sin_sq_add_cos_sq t]⟩
  · exact ⟨eulerY_orth t, by
      rw [Axis.matrix, eulerY, Matrix.det_fin_three]; simp; nlinarith [Real.sin_sq_add_cos_sq t]⟩
  · exact ⟨eulerZ_orth t, by
      rw [Axis.matrix, eulerZ, Matrix.det_fin_three]; simp; nlinarith [Real.sin_sq_add_cos_sq t]⟩

/-- **C56.** `from_euler` gives a proper rotation (orthogonal, determinant one) for every sequence and all angles. -/
theorem C56_euler_proper (intrinsic : Bool) (seq : List (Axis × ℝ)) :
    ∃ R, fromEuler intrinsic seq = .rotation R ∧ Orthogonal R ∧ R.det = 1 := by
  have h := foldl_orth (seq.map fun p => p.1.matrix p.2) (by
    intro m hm
    obtain ⟨p, _, rfl⟩ := mem_map.mp hm
    exact axis_orth p.1 p.2) 1 ⟨by simp [Orthogonal], Matrix.det_one⟩
  cases intrinsic
  · exact ⟨_, rfl, h.2⟩
  · exact ⟨_, rfl, h.1⟩

theorem foldl_left (ms : List Mat3) (A : Mat3) (v : V3) :
    mulV (ms.foldl (fun A B => B * A) A) v = ms.foldl (fun v B => mulV B v) (mulV A v) := by
  induction ms generalizing A with
  | nil => rfl
  | cons m ms ih => simp only [foldl_cons, ih, mulV_mul]

theorem foldl_right (ms : List Mat3) (A : Mat3) (v : V3) :
    mulV (ms.foldl (fun A B => A * B) A) v = mulV A (ms.foldr (fun B v => mulV B v) v) := by
  induction ms generalizing A with
  | nil => rfl
  | cons m ms ih => simp only [foldl_cons, foldr_cons, ih, mulV_mul]

namespace Spec

/-- the rotation of space by an angle about a coordinate axis (right-handed) -/
noncomputable def axisTurn : Axis → ℝ → V3 → V3
  | .x, a, v => ⟨v.x, Real.cos a * v.y - Real.sin a * v.z, Real.sin a * v.y + Real.cos a * v.z⟩
  | .y, a, v => ⟨Real.cos a * v.x + Real.sin a * v.z, v.y, -Real.sin a * v.x + Real.cos a * v.z⟩
  | .z, a, v => ⟨Real.cos a * v.x - Real.sin a * v.y, Real.sin a * v.x + Real.cos a * v.y, v.z⟩

end Spec

theorem mulV_axis (a : Axis) (t : ℝ) (v : V3) : mulV (a.matrix t) v = axisTurn a t v := by
  cases a <;> simp [mulV, Axis.matrix, eulerX, eulerY, eulerZ, axisTurn] <;> ring

/-- **C56.** `from_euler` with an extrinsic (lower-case) sequence turns about the fixed axes in the order given; with
an intrinsic (upper-case) one in the reverse order, which is turning about the moved axes in the order given. -/
theorem C56_euler_order (seq : List (Axis × ℝ)) (v : V3) (t : ℝ) :
    act (fromEuler false seq) (v, t) = (seq.foldl (fun v p => axisTurn p.1 p.2 v) v, t) ∧
    act (fromEuler true seq) (v, t) = (seq.foldr (fun p v => axisTurn p.1 p.2 v) v, t) := by
  simp only [fromEuler, act, Bool.false_eq_true, if_false, if_true]
  rw [foldl_left, foldl_right, mulV_one, mulV_one, foldl_map, foldr_map]
  simp only [mulV_axis, and_self]

/-- **C56.** `-op` of a spatial translation, a Galilean boost or a velocity boost is its inverse. -/
theorem C56_neg_is_inverse (d : Pos ℝ) (v : Vel ℝ) :
    (Op.spatial d).neg = (Op.spatial d).inverse ∧ (Op.boost v).neg = (Op.boost v).inverse ∧
      (Op.vboost v).neg = (Op.vboost v).inverse := by
  simp only [Op.neg, Op.inverse, and_self]

/-- **C56, exception.** For rotations, `-op` maps to the opposite point, and it is never the inverse, for any matrix. -/
theorem C56_neg_rotation (R : Mat3) : ∃ n, (Op.rotation R).neg = .ok n ∧
    (∀ v t, act n (v, t) = ((mulV R v).neg, t)) ∧ ∃ e, act n (act (.rotation R) e) ≠ e := by
  refine ⟨.rotation (-R), rfl, fun v t => by simp only [act, mulV_neg_mat], ?_⟩
  by_contra hc
  push Not at hc
  have h : ∀ v, mulV (-R * R) v = v := fun v => by
    have := congrArg Prod.fst (hc (v, 0))
    rw [mulV_mul]; exact this
  have hR : -R * R = 1 := by
    ext i j
    have h1 := h ⟨1, 0, 0⟩
    have h2 := h ⟨0, 1, 0⟩
    have h3 := h ⟨0, 0, 1⟩
    simp only [mulV, V3.mk.injEq, mul_one, mul_zero, add_zero, zero_add] at h1 h2 h3
    fin_cases i <;> fin_cases j <;> simp [-Matrix.neg_mul, h1, h2, h3]
  have hd := congrArg Matrix.det hR
  rw [Matrix.det_mul, Matrix.det_one, Matrix.det_neg] at hd
  simp only [Fintype.card_fin] at hd
  nlinarith [mul_self_nonneg R.det]

/-- **C56.** `a @ b` of two rotations acts as `b` first and then `a`; with anything else it raises. -/
theorem C56_matmul (R S : Mat3) (o : Op) :
    (∃ c, (Op.rotation R).matmul (.rotation S) = .ok c ∧
      ∀ e, act c e = act (.rotation R) (act (.rotation S) e)) ∧
    ((∀ T, o ≠ .rotation T) → (∃ e, (Op.rotation R).matmul o = .error e) ∧ ∃ e, o.matmul (.rotation R) = .error e) := by
  refine ⟨⟨_, rfl, fun e => by simp only [act, mulV_mul]⟩, fun h => ?_⟩
  cases o <;> first | exact absurd rfl (h _) | exact ⟨⟨_, rfl⟩, ⟨_, rfl⟩⟩

example : act (fromEuler false [(.x, Real.pi / 2), (.z, Real.pi / 2)]) (⟨0, 1, 0⟩, 3) = (⟨0, 0, 1⟩, 3) := by
  rw [(C56_euler_order _ _ _).1]
  simp [axisTurn]

end Verif
