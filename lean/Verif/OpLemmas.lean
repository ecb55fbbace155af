import Verif.SpecOp
import Verif.ArithLemmas

/-! # Helper lemmas for operators -/

namespace Verif

open Spec

theorem Op.ind {P : Op → Prop} (id : P .identity) (rot : ∀ R, P (.rotation R))
    (sp : ∀ d, P (.spatial d)) (tr : ∀ d, P (.translation d)) (bo : ∀ v, P (.boost v))
    (vb : ∀ v, P (.vboost v)) (ga : ∀ R d v, P (.galilean R d v))
    (pi : ∀ ops, (∀ o ∈ ops, P o) → P (.pipe ops)) (o : Op) : P o :=
  Op.rec (motive_1 := P) (motive_2 := fun ops => ∀ o ∈ ops, P o) id rot sp tr bo vb ga pi
    (fun _ h => absurd h (List.not_mem_nil)) (fun o os h1 h2 x hx => by
      rcases List.mem_cons.mp hx with rfl | h
      · exact h1
      · exact h2 _ h) o

theorem everyAll_iff {P : Op → Prop} (ops : List Op) : EveryAll P ops ↔ ∀ o ∈ ops, Every P o := by
  induction ops with
  | nil => simp [EveryAll]
  | cons o os ih => simp [EveryAll, ih]

theorem call_pipe {ops : List Op} {a : Arg} (h : a.isVel = false) :
    (Op.pipe ops).call a = callAll ops a := by
  simp only [Op.call]
  rw [if_neg (by rw [h]; simp)]

/-! ### Soundness on (position, time) -/

theorem canon_of_cart {p : Pos ℝ} (h : p.kind.isCart = true) : Canon p := by
  cases p <;> first | (cases h; done) | trivial

theorem binPos_canon {f : ℝ → ℝ → ℝ} {a b q : Pos ℝ} (f0 : f 0 0 = 0) (ha : Valid a) (hb : Valid b)
    (hd : a.kind.dim = b.kind.dim) (h : binPos f a b = .ok q) : Canon q := by
  cases hc : a.kind.isCart with
  | true =>
    rw [binPos_cart hc] at h
    obtain ⟨h1, _, h3⟩ := binCart_good f0 hb hd h
    exact canon_of_cart (by rw [h1, hc])
  | false =>
    rw [binPos_other hc] at h
    simp only [bind_ok_iff] at h
    obtain ⟨a', h1, b', h2, c, h3, h4⟩ := h
    have g1 := represent_good _ _ _ _ _ ha (dim_cartesian _).symm h1
    have g2 := represent_good _ _ _ _ _ hb (by rw [dim_cartesian, hd]) h2
    obtain ⟨k3, c3, p3⟩ := binCart_good f0 g2.valid (by rw [g1.kind, g2.kind]) h3
    have g4 := represent_good _ _ _ _ _ (valid_of_cart _ (by rw [k3, c3]))
      (by rw [k3, g1.kind, dim_cartesian]) h4
    exact g4.canon (canon_of_cart (by rw [k3, c3]))

theorem rotPos_good {R : Mat3} {q q' : Pos ℝ} (hv : Valid q) (h : rotPos R q = .ok q') :
    q'.kind = q.kind ∧ Valid q' ∧ Canon q' ∧ point q' = mulV R (point q) := by
  unfold rotPos at h
  split at h
  · cases h
  · rename_i hd
    have hd : q.kind.dim = 3 := by simpa using hd
    obtain ⟨c, h1, h2⟩ := (bind_ok_iff _ _ _).mp h
    have g := represent_good _ _ _ _ _ hv (by rw [hd]; rfl) h1
    have hk := g.kind
    have hp := g.point
    cases c <;> first | (cases hk; done) | skip
    rename_i x y z
    have hm : Valid (matApply R x y z) := trivial
    have g2 := represent_good _ _ _ _ _ hm (by rw [hd]; rfl) h2
    exact ⟨g2.kind, g2.valid, g2.canon trivial, by rw [g2.point, ← hp]; rfl⟩

theorem rotPos_total {R : Mat3} {q : Pos ℝ} (hv : Valid3 q) (hp : q.kind ≠ .prolate)
    (h0 : q.kind = .cart3 ∨ mulV R (point q) ≠ V3.zero) : ∃ q', rotPos R q = .ok q' := by
  have hs : q.kind ≠ .twoSphere := by intro e; have := hv.2; rw [e] at this; cases this
  have hk : q.kind.cartesian = .cart3 := by
    rw [cartesian_of_dim (k' := .cart3) hv.2]; rfl
  obtain ⟨c, h1, g⟩ := toCart_total q hv.1 hs
  rw [hk] at h1 g
  have hck := g.kind
  have hpt := g.point
  cases c <;> first | (cases hck; done) | skip
  rename_i x y z
  have hm : point (matApply R x y z) = mulV R (point q) := by rw [← hpt]; rfl
  rcases h0 with h0 | h0
  · refine ⟨matApply R x y z, ?_⟩
    unfold rotPos
    rw [if_neg (by rw [hv.2]; decide), h1, ok_bind, h0]
    exact representAs_self_cart _ (matApply R x y z) rfl
  · obtain ⟨q', h2⟩ := represent_total (kw := {}) (p := matApply R x y z) (k := q.kind) 197
      ⟨trivial, by rw [hv.2]; rfl, fun h => (by cases h), hs, fun _ => by rw [hm]; exact h0,
        fun e => by (have := hv.2; rw [e] at this; cases this), fun e => absurd e hp⟩
    refine ⟨q', ?_⟩
    unfold rotPos
    rw [if_neg (by rw [hv.2]; decide), h1, ok_bind]
    exact h2

theorem addPos_good {a b q : Pos ℝ} (ha : Valid a) (hb : Valid b) (hd : a.kind.dim = b.kind.dim)
    (h : addPos a b = .ok q) :
    q.kind = a.kind ∧ Valid q ∧ Canon q ∧ point q = (point a).add (point b) :=
  have g := binPos_good (f := (· + ·)) (by simp) ha hb hd h
  ⟨g.1, g.2.1, binPos_canon (f := (· + ·)) (by simp) ha hb hd h, g.2.2⟩

theorem addPos_total3 {a b : Pos ℝ} (ha : Valid3 a) (hb : Valid3 b) (hp : a.kind ≠ .prolate)
    (h0 : a.kind = .cart3 ∨ (point a).add (point b) ≠ V3.zero) : ∃ q, addPos a b = .ok q :=
  binPos_total (f := (· + ·)) (by simp) ha.1 hb.1 (by rw [ha.2, hb.2])
    (fun e => by have := ha.2; rw [e] at this; cases this)
    (fun e => by have := hb.2; rw [e] at this; cases this) hp
    (h0.imp_left fun e => by rw [e]; rfl)
    (fun e => by have := ha.2; rw [e] at this; cases this)

theorem velTimes_cart3 {v : Vel ℝ} (h : v.kind = .cart3) (t : ℝ) :
    ∃ d, velTimes v t = .ok d ∧ d.kind = .cart3 ∧ point d = V3.smul t (velV v) := by
  cases v <;> first | (cases h; done) | skip
  exact ⟨_, rfl, rfl, by simp [point, velV, V3.smul, mul_comm]⟩

/-- what a returned call on (position, time) is -/
structure Sound (op : Op) (q : Pos ℝ) (t : ℝ) (q' : Pos ℝ) (t' : ℝ) : Prop where
  kind : q'.kind = q.kind
  valid : Valid q'
  canon : Canon q → Canon q'
  act : (point q', t') = act op (point q, t)

theorem callRotation_sound {R : Mat3} {q : Pos ℝ} {t : ℝ} {a : Arg} (hv : Valid q)
    (h : callRotation R (.posTime q t) = .ok a) :
    ∃ q' t', a = .posTime q' t' ∧ Sound (.rotation R) q t q' t' := by
  obtain ⟨q', h1, h2⟩ := (bind_ok_iff _ _ _).mp h
  obtain rfl := Except.ok.inj h2
  obtain ⟨k, v, c, p⟩ := rotPos_good hv h1
  exact ⟨_, _, rfl, k, v, fun _ => c, by rw [p]; simp [act]⟩

theorem callTranslation_sound {d : Four} {q : Pos ℝ} {t : ℝ} {a : Arg} (hv : Valid3 q)
    (hd : Valid3 d.q) (h : callTranslation d (.posTime q t) = .ok a) :
    ∃ q' t', a = .posTime q' t' ∧ Sound (.translation d) q t q' t' := by
  simp only [callTranslation] at h
  rw [if_neg (by rw [hv.2]; decide)] at h
  obtain ⟨q', h1, h2⟩ := (bind_ok_iff _ _ _).mp h
  obtain rfl := Except.ok.inj h2
  obtain ⟨k, v, c, p⟩ := addPos_good hv.1 hd.1 (by rw [hv.2, hd.2]) h1
  exact ⟨_, _, rfl, k, v, fun _ => c, by rw [p]; simp [act]⟩

theorem callBoost_sound {w : Vel ℝ} {q : Pos ℝ} {t : ℝ} {a : Arg} (hv : Valid3 q)
    (hd : w.kind = .cart3) (h : callBoost w (.posTime q t) = .ok a) :
    ∃ q' t', a = .posTime q' t' ∧ Sound (.boost w) q t q' t' := by
  obtain ⟨d, h1, h2⟩ := (bind_ok_iff _ _ _).mp h
  obtain ⟨q', h3, h4⟩ := (bind_ok_iff _ _ _).mp h2
  obtain rfl := Except.ok.inj h4
  obtain ⟨d', e1, e2, e3⟩ := velTimes_cart3 hd t
  rw [e1] at h1; obtain rfl := Except.ok.inj h1
  obtain ⟨k, v, c, p⟩ := addPos_good hv.1 (valid_of_cart _ (by rw [e2]; rfl))
    (by rw [hv.2, e2]; rfl) h3
  exact ⟨_, _, rfl, k, v, fun _ => c, by rw [p, e3]; simp [act]⟩

theorem Sound.valid3 {op : Op} {q q' : Pos ℝ} {t t' : ℝ} (s : Sound op q t q' t')
    (h : q.kind.dim = 3) : Valid3 q' := ⟨s.valid, by rw [s.kind, h]⟩

theorem callAll_sound (ops : List Op)
    (ih : ∀ o ∈ ops, ∀ (q : Pos ℝ) (t : ℝ) (a : Arg), Valid3 q →
      o.call (.posTime q t) = .ok a → ∃ q' t', a = .posTime q' t' ∧ Sound o q t q' t')
    (q : Pos ℝ) (t : ℝ) (a : Arg) (hv : Valid3 q) (h : callAll ops (.posTime q t) = .ok a) :
    ∃ q' t', a = .posTime q' t' ∧ Sound (.pipe ops) q t q' t' := by
  induction ops generalizing q t with
  | nil =>
    simp only [callAll] at h
    obtain rfl := Except.ok.inj h
    exact ⟨q, t, rfl, rfl, hv.1, fun c => c, by simp [act, actAll]⟩
  | cons o os ihl =>
    simp only [callAll] at h
    obtain ⟨b, h1, h2⟩ := (bind_ok_iff _ _ _).mp h
    obtain ⟨q1, t1, rfl, s1⟩ := ih o (by simp) q t b hv h1
    obtain ⟨q2, t2, rfl, s2⟩ := ihl (fun x hx => ih x (by simp [hx])) q1 t1 (s1.valid3 hv.2) h2
    refine ⟨q2, t2, rfl, by rw [s2.kind, s1.kind], s2.valid, fun c => s2.canon (s1.canon c), ?_⟩
    rw [s2.act, s1.act]; simp [act, actAll]

/-- Every call on (3-D position, time) that returns, returns a valid position of the same class, and
the event moved as the specification says. -/
theorem call_sound (op : Op) : WellFormed op → ∀ (q : Pos ℝ) (t : ℝ) (a : Arg), Valid3 q →
    op.call (.posTime q t) = .ok a → ∃ q' t', a = .posTime q' t' ∧ Sound op q t q' t' := by
  induction op using Op.ind with
  | id =>
    intro _ q t a hv h
    simp only [Op.call] at h
    obtain rfl := Except.ok.inj h
    exact ⟨q, t, rfl, rfl, hv.1, fun c => c, by simp [act]⟩
  | rot R => intro _ q t a hv h; simp only [Op.call] at h; exact callRotation_sound hv.1 h
  | sp d =>
    intro w q t a hv h
    simp only [WellFormed, Every] at w
    simp only [Op.call] at h
    obtain ⟨q', h1, h2⟩ := (bind_ok_iff _ _ _).mp h
    obtain rfl := Except.ok.inj h2
    obtain ⟨k, v, c, p⟩ := addPos_good hv.1 w.1 (by rw [hv.2, w.2]) h1
    exact ⟨_, _, rfl, k, v, fun _ => c, by rw [p]; simp [act]⟩
  | tr d =>
    intro w q t a hv h; simp only [Op.call] at h
    simp only [WellFormed, Every] at w
    exact callTranslation_sound hv w h
  | bo v =>
    intro w q t a hv h; simp only [Op.call] at h
    simp only [WellFormed, Every] at w
    exact callBoost_sound hv w h
  | vb v =>
    intro _ q t a hv h
    simp only [Op.call, callVBoost] at h
    obtain rfl := Except.ok.inj h
    exact ⟨q, t, rfl, rfl, hv.1, fun c => c, by simp [act]⟩
  | ga R d v =>
    intro w q t a hv h
    simp only [WellFormed, Every] at w
    simp only [Op.call] at h
    obtain ⟨b, h3, h1⟩ := (bind_ok_iff _ _ _).mp h
    obtain ⟨c, h4, h2⟩ := (bind_ok_iff _ _ _).mp h1
    obtain ⟨q1, t1, rfl, s1⟩ := callRotation_sound hv.1 h3
    obtain ⟨q2, t2, rfl, s2⟩ := callTranslation_sound (s1.valid3 hv.2) w.1 h4
    have v2 := s2.valid3 (by rw [s1.kind]; exact hv.2)
    obtain ⟨q3, t3, rfl, s3⟩ := callBoost_sound v2 w.2 h2
    refine ⟨q3, t3, rfl, by rw [s3.kind, s2.kind, s1.kind], s3.valid,
      fun c => s3.canon (s2.canon (s1.canon c)), ?_⟩
    rw [s3.act, s2.act, s1.act]; simp [act]
  | pi ops ih =>
    intro w q t a hv h
    simp only [WellFormed, Every, everyAll_iff] at w
    rw [call_pipe rfl] at h
    exact callAll_sound ops (fun o ho => ih o ho (w o ho)) q t a hv h

/-! ### Calls on (position, time) return -/

theorem callRotation_total {R : Mat3} {q : Pos ℝ} {t : ℝ} (hv : Valid3 q) (hp : q.kind ≠ .prolate)
    (h0 : q.kind = .cart3 ∨ mulV R (point q) ≠ V3.zero) :
    ∃ a, callRotation R (.posTime q t) = .ok a := by
  obtain ⟨q', h⟩ := rotPos_total hv hp h0
  exact ⟨_, by simp only [callRotation, h, ok_bind]; rfl⟩

theorem callTranslation_total {d : Four} {q : Pos ℝ} {t : ℝ} (hv : Valid3 q) (hd : Valid3 d.q)
    (hp : q.kind ≠ .prolate) (h0 : q.kind = .cart3 ∨ (point q).add (point d.q) ≠ V3.zero) :
    ∃ a, callTranslation d (.posTime q t) = .ok a := by
  obtain ⟨q', h⟩ := addPos_total3 hv hd hp h0
  exact ⟨.posTime q' (t + d.t), by
    simp only [callTranslation, h, ok_bind]; rw [if_neg (by rw [hv.2]; decide)]; rfl⟩

theorem callBoost_total {w : Vel ℝ} {q : Pos ℝ} {t : ℝ} (hv : Valid3 q) (hw : w.kind = .cart3)
    (hp : q.kind ≠ .prolate)
    (h0 : q.kind = .cart3 ∨ (point q).add (V3.smul t (velV w)) ≠ V3.zero) :
    ∃ a, callBoost w (.posTime q t) = .ok a := by
  obtain ⟨d, e1, e2, e3⟩ := velTimes_cart3 hw t
  obtain ⟨q', h⟩ := addPos_total3 hv ⟨valid_of_cart _ (by rw [e2]; rfl), by rw [e2]; rfl⟩ hp
    (by rw [e3]; exact h0)
  exact ⟨.posTime q' t, by simp only [callBoost, e1, h, ok_bind]; rfl⟩

theorem reaches_not_prolate {op : Op} {k : Kind} {e : Event} (h : Reaches op k e) : k ≠ .prolate := by
  rcases h with h | h
  · rw [h]; decide
  · exact h.1

theorem callAll_total (ops : List Op)
    (ih : ∀ o ∈ ops, WellFormed o ∧ ∀ (q : Pos ℝ) (t : ℝ), Valid3 q →
      Reaches o q.kind (point q, t) → ∃ a, o.call (.posTime q t) = .ok a)
    (q : Pos ℝ) (t : ℝ) (hv : Valid3 q) (hr : Reaches (.pipe ops) q.kind (point q, t)) :
    ∃ a, callAll ops (.posTime q t) = .ok a := by
  induction ops generalizing q t with
  | nil => exact ⟨_, by simp only [callAll]; rfl⟩
  | cons o os ihl =>
    have r1 : Reaches o q.kind (point q, t) := hr.imp_right fun ⟨h1, h2⟩ =>
      ⟨h1, fun x hx => h2 x (by simp only [visited, visitedAll, List.mem_append]; exact Or.inl hx)⟩
    obtain ⟨w, f⟩ := ih o (by simp)
    obtain ⟨b, hb⟩ := f q t hv r1
    obtain ⟨q1, t1, rfl, s1⟩ := call_sound o w q t b hv hb
    have r2 : Reaches (.pipe os) q1.kind (point q1, t1) := by
      rw [s1.kind, s1.act]
      exact hr.imp_right fun ⟨h1, h2⟩ =>
        ⟨h1, fun x hx => h2 x (by
          simp only [visited, visitedAll, List.mem_append]
          simp only [visited] at hx
          exact Or.inr hx)⟩
    obtain ⟨a, ha⟩ := ihl (fun x hx => ih x (by simp [hx])) q1 t1 (s1.valid3 hv.2) r2
    exact ⟨a, by simp only [callAll, hb, ok_bind, ha]⟩

/-- Calls on (3-D position, time) return whenever every intermediate result can be represented in
the class of the argument. -/
theorem call_total (op : Op) : WellFormed op → ∀ (q : Pos ℝ) (t : ℝ), Valid3 q →
    Reaches op q.kind (point q, t) → ∃ a, op.call (.posTime q t) = .ok a := by
  induction op using Op.ind with
  | id => intro _ q t _ _; exact ⟨_, by simp only [Op.call]; rfl⟩
  | vb v => intro _ q t _ _; exact ⟨_, by simp only [Op.call, callVBoost]; rfl⟩
  | rot R =>
    intro _ q t hv hr
    simp only [Op.call]
    exact callRotation_total hv (reaches_not_prolate hr) (hr.imp_right fun h =>
      h.2 _ (by simp [visited, act]))
  | sp d =>
    intro w q t hv hr
    simp only [WellFormed, Every] at w
    obtain ⟨q', h⟩ := addPos_total3 hv w (reaches_not_prolate hr) (hr.imp_right fun h =>
      h.2 _ (by simp [visited, act]))
    exact ⟨_, by simp only [Op.call, callSpatial, h, ok_bind]; rfl⟩
  | tr d =>
    intro w q t hv hr
    simp only [WellFormed, Every] at w
    simp only [Op.call]
    exact callTranslation_total hv w (reaches_not_prolate hr) (hr.imp_right fun h =>
      h.2 _ (by simp [visited, act]))
  | bo v =>
    intro w q t hv hr
    simp only [WellFormed, Every] at w
    simp only [Op.call]
    exact callBoost_total hv w (reaches_not_prolate hr) (hr.imp_right fun h =>
      h.2 _ (by simp [visited, act]))
  | ga R d v =>
    intro w q t hv hr
    simp only [WellFormed, Every] at w
    have np := reaches_not_prolate hr
    obtain ⟨a, h1⟩ := callRotation_total (R := R) (t := t) hv np (hr.imp_right fun h =>
      h.2 _ (by simp [visited]))
    obtain ⟨q1, t1, rfl, s1⟩ := callRotation_sound hv.1 h1
    have e1 := Prod.mk.inj s1.act
    simp only [act] at e1
    obtain ⟨b, h2⟩ := callTranslation_total (d := d) (t := t1) (s1.valid3 hv.2) w.1
      (by rw [s1.kind]; exact np) (by
        rw [s1.kind, e1.1]; exact hr.imp_right fun h => h.2 _ (by simp [visited]))
    obtain ⟨q2, t2, rfl, s2⟩ := callTranslation_sound (s1.valid3 hv.2) w.1 h2
    have e2 := Prod.mk.inj s2.act
    simp only [act] at e2
    obtain ⟨c, h3⟩ := callBoost_total (w := v) (t := t2)
      (s2.valid3 (by rw [s1.kind]; exact hv.2)) w.2
      (by rw [s2.kind, s1.kind]; exact np) (by
        rw [s2.kind, s1.kind, e2.1, e2.2, e1.1, e1.2]
        exact hr.imp_right fun h => h.2 _ (by simp [visited]))
    exact ⟨c, by simp only [Op.call, h1, h2, h3, ok_bind]⟩
  | pi ops ih =>
    intro w q t hv hr
    simp only [WellFormed, Every, everyAll_iff] at w
    rw [call_pipe rfl]
    exact callAll_total ops (fun o ho => ⟨w o ho, ih o ho (w o ho)⟩) q t hv hr

end Verif
