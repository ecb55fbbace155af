import Verif.Props.Operators
import Verif.Props.Exact

/-!
# Operators exactly: when calls and inverses return, boosts of every class (C27, C31)

Properties C27 and C31 of `/verif/properties.jsonl`: positions of one, two and three dimensions of every
class, translations of every class, boosts by velocities of every class.
-/

namespace Verif

open Real Spec Props

/-! ## Specification -/

/-- What a boost by `v` adds to a position at time `t`: the point whose coordinates, in the class of
`v`, are the components of `v` times `t`. For a Cartesian velocity this is `t v`. -/
noncomputable def shift : Vel ℝ → ℝ → V3
  | .cart1 a, t | .radial a, t => ⟨a * t, 0, 0⟩
  | .cart2 a b, t => ⟨a * t, b * t, 0⟩
  | .polar a b, t => ⟨a * t * cos (b * t), a * t * sin (b * t), 0⟩
  | .cart3 a b c, t => ⟨a * t, b * t, c * t⟩
  | .cyl a b c, t => cylPoint (a * t) (b * t) (c * t)
  | .sph a b c, t => sphPoint (a * t) (b * t) (c * t)
  | .lonlat a b c, t => lonlatPoint (a * t) (b * t) (c * t)
  | .math a b c, t => sphPoint (a * t) (c * t) (b * t)
  | _, _ => V3.zero

/-- The components times `t` are in the ranges of the position class. -/
def ShiftOk : Vel ℝ → ℝ → Prop
  | .cart1 _, _ | .cart2 _ _, _ | .cart3 _ _ _, _ => True
  | .radial a, t | .polar a _, t | .cyl a _ _, t => 0 ≤ a * t
  | .sph a b _, t => 0 ≤ a * t ∧ 0 ≤ b * t ∧ b * t ≤ π
  | .lonlat _ b c, t => 0 ≤ c * t ∧ -(π / 2) ≤ b * t ∧ b * t ≤ π / 2
  | .math a _ c, t => 0 ≤ a * t ∧ 0 ≤ c * t ∧ c * t ≤ π
  | _, _ => False

mutual
/-- the textbook action on events, with boosts of any class -/
noncomputable def move : Op → Event → Event
  | .identity, e => e
  | .rotation R, e => (mulV R e.1, e.2)
  | .spatial d, e => (e.1.add (point d), e.2)
  | .translation d, e => (e.1.add (point d.q), e.2 + d.t)
  | .boost v, e => (e.1.add (shift v e.2), e.2)
  | .vboost _, e => e
  | .galilean R d v, e =>
    (((mulV R e.1).add (point d.q)).add (shift v (e.2 + d.t)), e.2 + d.t)
  | .pipe ops, e => moveAll ops e
/-- composition, first one first -/
noncomputable def moveAll : List Op → Event → Event
  | [], e => e
  | o :: os, e => moveAll os (move o e)
end

/-- The point `x` can be given back in the class `k`. -/
def Lands (k : Kind) (x : V3) : Prop :=
  k ≠ .twoSphere ∧ k ≠ .prolate ∧ (k = .sph ∨ k = .lonlat ∨ k = .math → x ≠ V3.zero) ∧
    (k = .radial → 0 ≤ x.x)

mutual
/-- Every step of the operator can be carried out on a position of class `k`. -/
def Runs : Op → Kind → Event → Prop
  | .identity, _, _ | .vboost _, _, _ => True
  | .rotation R, k, e => k.dim = 3 ∧ Lands k (mulV R e.1)
  | .spatial d, k, e => d.kind ≠ .twoSphere ∧ Lands k (e.1.add (point d))
  | .translation d, k, e => k.dim = 3 ∧ Lands k (e.1.add (point d.q))
  | .boost v, k, e => ShiftOk v e.2 ∧ Lands k (e.1.add (shift v e.2))
  | .galilean R d v, k, e => k.dim = 3 ∧ Lands k (mulV R e.1) ∧
      Lands k ((mulV R e.1).add (point d.q)) ∧ ShiftOk v (e.2 + d.t) ∧
      Lands k (((mulV R e.1).add (point d.q)).add (shift v (e.2 + d.t)))
  | .pipe ops, k, e => RunsAll ops k e
/-- `Runs` for lists -/
def RunsAll : List Op → Kind → Event → Prop
  | [], _, _ => True
  | o :: os, k, e => Runs o k e ∧ RunsAll os k (move o e)
end

/-- All translation vectors are valid positions of dimension `n` and all boost velocities have
dimension `n`. -/
def Sized (n : ℕ) : Op → Prop :=
  Every fun
    | .spatial d => Valid d ∧ d.kind.dim = n
    | .translation d => Valid d.q ∧ d.q.kind.dim = n
    | .boost v => v.kind.dim = n
    | .galilean _ d v => Valid d.q ∧ d.q.kind.dim = n ∧ v.kind.dim = n
    | _ => True

/-- The opposite vector exists in the class: not prolate spheroidal or `TwoSpherePos`; not the
origin in the spherical classes; only the origin in `RadialPos`. -/
def OppositeIn (d : Pos ℝ) : Prop :=
  d.kind ≠ .twoSphere ∧ d.kind ≠ .prolate ∧
    (d.kind = .sph ∨ d.kind = .lonlat ∨ d.kind = .math → point d ≠ V3.zero) ∧
    (d.kind = .radial → point d = V3.zero)

/-- Every translation vector inside has an opposite in its class. -/
def Invertible : Op → Prop :=
  Every fun
    | .spatial d => OppositeIn d
    | .translation d => OppositeIn d.q
    | .galilean _ d _ => OppositeIn d.q
    | _ => True

/-! ## Lemmas -/

theorem velTimes_iff {v : Vel ℝ} (t : ℝ) (h2 : v.kind ≠ .twoSphere) :
    ((∃ d, velTimes v t = .ok d) ↔ ShiftOk v t) ∧
    ∀ d, velTimes v t = .ok d → Valid d ∧ d.kind.dim = v.kind.dim ∧ d.kind ≠ .twoSphere ∧
      point d = shift v t := by
  cases v <;>
    simp only [velTimes, mkCart1, mkCart2, mkCart3, mkRadial_iff, mkPolar_iff, mkCyl_iff, mkSph_iff,
      mkLonLat_iff, mkMath_iff, ShiftOk, Dist.raw, reduceCtorEq, exists_false, false_imp_iff,
      forall_const, and_true, Except.ok.injEq, exists_eq', exists_and_left, exists_eq, true_and]
  all_goals first
    | exact absurd rfl h2
    | skip
  all_goals first
    | (intro d; trivial)
    | (rintro d rfl
       refine ⟨?_, rfl, (fun e => by cases e), ?_⟩
       · trivial
       · simp [point, shift])
    | (refine ⟨by tauto, ?_⟩
       rintro d ⟨h1, h2, rfl⟩
       exact ⟨by simp only [Valid, DistOk]; tauto, rfl, (fun e => by cases e), by
         simp [point, shift, distOf, cylPoint, sphPoint, lonlatPoint, AzArg.convert]⟩)
    | (rintro d ⟨h1, h3, rfl⟩
       exact ⟨by simp only [Valid, DistOk]; tauto, rfl, (fun e => by cases e), by
         simp [point, shift, distOf, cylPoint, sphPoint, lonlatPoint, AzArg.convert]⟩)
    | (rintro d ⟨h1, rfl⟩
       exact ⟨by simp only [Valid, DistOk]; tauto, rfl, (fun e => by cases e), by
         simp [point, shift, distOf, cylPoint, sphPoint, lonlatPoint, AzArg.convert]⟩)

theorem shift_neg {v : Vel ℝ} {t : ℝ} (h : ShiftOk v t) (h' : ShiftOk (negVel v) t) (x : V3) :
    (x.add (shift v t)).add (shift (negVel v) t) = x ∧
    (x.add (shift (negVel v) t)).add (shift v t) = x := by
  have key : (shift (negVel v) t) = (shift v t).neg := by
    cases v <;> simp only [negVel, Vel.map, ShiftOk, shift] at h h' ⊢
    all_goals first
      | (ext <;> simp [V3.neg]; done)
      | skip
    · rename_i a b
      have : a * t = 0 := by linarith
      ext <;> simp [V3.neg, this]
    · rename_i a b c
      have : a * t = 0 := by linarith
      ext <;> simp [V3.neg, this, cylPoint]
    · rename_i a b c
      have : a * t = 0 := by linarith [h.1, h'.1]
      ext <;> simp [V3.neg, this, sphPoint]
    · rename_i a b c
      have : c * t = 0 := by linarith [h.1, h'.1]
      ext <;> simp [V3.neg, this, lonlatPoint]
    · rename_i a b c
      have : a * t = 0 := by linarith [h.1, h'.1]
      ext <;> simp [V3.neg, this, sphPoint]
  rw [key]
  exact add_neg_cancel _ _

theorem addPos_iff {a b : Pos ℝ} (ha : Valid a) (hb : Valid b) (hd : a.kind.dim = b.kind.dim) :
    (∃ q, addPos a b = .ok q) ↔ b.kind ≠ .twoSphere ∧ Lands a.kind ((point a).add (point b)) := by
  rw [(C15_returns_iff a b ha hb hd).1]
  unfold Lands
  tauto

theorem rotPos_iff {R : Mat3} {q : Pos ℝ} (hv : Valid q) :
    (∃ q', rotPos R q = .ok q') ↔ q.kind.dim = 3 ∧ Lands q.kind (mulV R (point q)) := by
  by_cases hd : q.kind.dim = 3
  · have hs : q.kind ≠ .twoSphere := by intro e; rw [e] at hd; cases hd
    have hk : q.kind.cartesian = .cart3 := by rw [cartesian_of_dim (k' := .cart3) hd]; rfl
    obtain ⟨c, h1, g⟩ := toCart_total q hv hs
    rw [hk] at h1 g
    have hck := g.kind
    have hpt := g.point
    cases c <;> first | (cases hck; done) | skip
    rename_i x y z
    have hm : point (matApply R x y z) = mulV R (point q) := by rw [← hpt]; rfl
    unfold rotPos
    rw [if_neg (by rw [hd]; decide), h1, ok_bind]
    refine (back_iff (c := matApply R x y z) (k := q.kind) (by rw [hk]; rfl) hs).trans ?_
    rw [hm]
    unfold Lands
    tauto
  · refine iff_of_false ?_ (fun h => hd h.1)
    rintro ⟨q', h⟩
    unfold rotPos at h
    rw [if_pos hd] at h
    cases h

/-- what a returned call on (position, time) is -/
structure Moved (op : Op) (q : Pos ℝ) (t : ℝ) (q' : Pos ℝ) (t' : ℝ) : Prop where
  kind : q'.kind = q.kind
  valid : Valid q'
  canon : Canon q → Canon q'
  move : (point q', t') = move op (point q, t)

/-- A call on (position, time) returns iff every step can be carried out, and then moves the event as
specified. -/
def Exactly (op : Op) (q : Pos ℝ) (t : ℝ) (r : Res Arg) : Prop :=
  ((∃ a, r = .ok a) ↔ Runs op q.kind (point q, t)) ∧
    ∀ a, r = .ok a → ∃ q' t', a = .posTime q' t' ∧ Moved op q t q' t'

theorem exactly_of {op : Op} {q : Pos ℝ} {t t' : ℝ} {r : Res (Pos ℝ)}
    (h1 : (∃ q', r = .ok q') ↔ Runs op q.kind (point q, t))
    (h2 : ∀ q', r = .ok q' → q'.kind = q.kind ∧ Valid q' ∧ Canon q' ∧
      (point q', t') = move op (point q, t)) :
    Exactly op q t (do return .posTime (← r) t') := by
  constructor
  · rw [← h1]
    constructor
    · rintro ⟨a, h⟩
      obtain ⟨q', h, _⟩ := (bind_ok_iff _ _ _).mp h
      exact ⟨q', h⟩
    · rintro ⟨q', h⟩
      exact ⟨.posTime q' t', by rw [h]; rfl⟩
  · intro a h
    obtain ⟨q', h', e⟩ := (bind_ok_iff _ _ _).mp h
    obtain rfl := Except.ok.inj e
    obtain ⟨k, v, c, m⟩ := h2 q' h'
    exact ⟨q', t', rfl, k, v, fun _ => c, m⟩

theorem rotation_exactly (R : Mat3) (q : Pos ℝ) (t : ℝ) (hq : Valid q) :
    Exactly (.rotation R) q t (callRotation R (.posTime q t)) :=
  exactly_of (by simp only [Runs]; exact rotPos_iff hq) (fun q' h => by
    obtain ⟨k, v, c, p⟩ := rotPos_good hq h
    exact ⟨k, v, c, by rw [p]; simp [move]⟩)

theorem spatial_exactly (d q : Pos ℝ) (t : ℝ) (hq : Valid q) (hd : Valid d)
    (hn : d.kind.dim = q.kind.dim) :
    Exactly (.spatial d) q t (callSpatial d (.posTime q t)) :=
  exactly_of (by simp only [Runs]; exact addPos_iff hq hd hn.symm) (fun q' h => by
    obtain ⟨k, v, c, p⟩ := addPos_good hq hd hn.symm h
    exact ⟨k, v, c, by rw [p]; simp [move]⟩)

theorem translation_exactly (d : Four) (q : Pos ℝ) (t : ℝ) (hq : Valid q) (hd : Valid d.q)
    (hn : d.q.kind.dim = q.kind.dim) :
    Exactly (.translation d) q t (callTranslation d (.posTime q t)) := by
  by_cases h3 : q.kind.dim = 3
  · have : callTranslation d (.posTime q t) = (do return .posTime (← addPos q d.q) (t + d.t)) := by
      simp only [callTranslation]
      rw [if_neg (by rw [h3]; decide)]
    rw [this]
    refine exactly_of ?_ (fun q' h => ?_)
    · simp only [Runs, h3, true_and]
      rw [addPos_iff hq hd hn.symm]
      refine and_iff_right ?_
      intro e
      rw [e] at hn
      rw [← hn] at h3; cases h3
    · obtain ⟨k, v, c, p⟩ := addPos_good hq hd hn.symm h
      exact ⟨k, v, c, by rw [p]; simp [move]⟩
  · have : callTranslation d (.posTime q t) = .error .noDispatch := by
      simp only [callTranslation]
      rw [if_pos h3]
    rw [this]
    exact ⟨iff_of_false (fun ⟨_, h⟩ => by cases h) (fun h => h3 (by simp only [Runs] at h; exact h.1)),
      fun _ h => by cases h⟩

theorem boost_exactly (v : Vel ℝ) (q : Pos ℝ) (t : ℝ) (hq : Valid q) (hn : v.kind.dim = q.kind.dim) :
    Exactly (.boost v) q t (callBoost v (.posTime q t)) := by
  have hcall : callBoost v (.posTime q t) =
      (do return .posTime (← (do addPos q (← velTimes v t))) t) := by
    simp only [callBoost]
    cases velTimes v t <;> rfl
  rw [hcall]
  by_cases h2 : v.kind = .twoSphere
  · have hno : ∀ q', (do addPos q (← velTimes v t)) ≠ .ok q' := by
      intro q' h
      obtain ⟨d, h1, h2'⟩ := (bind_ok_iff _ _ _).mp h
      cases v <;> first | (cases h2; done) | skip
      simp only [velTimes, mkTwoSphere_iff] at h1
      obtain ⟨h1, rfl⟩ := h1
      exact ((addPos_iff hq (show Valid (.twoSphere _ _) from h1) hn.symm).mp ⟨_, h2'⟩).1 rfl
    refine exactly_of (iff_of_false (fun ⟨_, h⟩ => hno _ h) ?_) (fun q' h => absurd h (hno q'))
    simp only [Runs]
    cases v <;> first | (cases h2; done) | exact fun h => h.1
  · obtain ⟨h1, h3⟩ := velTimes_iff t h2
    refine exactly_of ?_ (fun q' h => ?_)
    · simp only [Runs, ← h1]
      constructor
      · rintro ⟨q', h⟩
        obtain ⟨d, e1, e2⟩ := (bind_ok_iff _ _ _).mp h
        obtain ⟨vd, kd, nd, pd⟩ := h3 d e1
        refine ⟨⟨d, e1⟩, ?_⟩
        rw [← pd]
        exact ((addPos_iff hq vd (by rw [kd, hn])).mp ⟨_, e2⟩).2
      · rintro ⟨⟨d, e1⟩, h⟩
        obtain ⟨vd, kd, nd, pd⟩ := h3 d e1
        rw [← pd] at h
        obtain ⟨q', e2⟩ := (addPos_iff hq vd (by rw [kd, hn])).mpr ⟨nd, h⟩
        exact ⟨q', by rw [e1]; exact e2⟩
    · obtain ⟨d, e1, e2⟩ := (bind_ok_iff _ _ _).mp h
      obtain ⟨vd, kd, nd, pd⟩ := h3 d e1
      obtain ⟨k, v', c, p⟩ := addPos_good hq vd (by rw [kd, hn]) e2
      exact ⟨k, v', c, by rw [p, pd]; simp [move]⟩

theorem callAll_exactly (n : ℕ) (ops : List Op)
    (ih : ∀ o ∈ ops, ∀ (q : Pos ℝ) (t : ℝ), Valid q → q.kind.dim = n →
      Exactly o q t (o.call (.posTime q t)))
    (q : Pos ℝ) (t : ℝ) (hq : Valid q) (hn : q.kind.dim = n) :
    Exactly (.pipe ops) q t (callAll ops (.posTime q t)) := by
  induction ops generalizing q t with
  | nil =>
    simp only [callAll]
    refine ⟨iff_of_true ⟨_, rfl⟩ (by simp [Runs, RunsAll]), fun a h => ?_⟩
    obtain rfl := Except.ok.inj h
    exact ⟨q, t, rfl, rfl, hq, fun c => c, by simp [move, moveAll]⟩
  | cons o os ihl =>
    obtain ⟨e1, e2⟩ := ih o (by simp) q t hq hn
    have e3 := ihl (fun x hx => ih x (by simp [hx]))
    simp only [callAll]
    constructor
    · simp only [Runs, RunsAll]
      rw [← e1]
      constructor
      · rintro ⟨a, h⟩
        obtain ⟨b, h1, h2⟩ := (bind_ok_iff _ _ _).mp h
        obtain ⟨q1, t1, rfl, m⟩ := e2 b h1
        have := ((e3 q1 t1 m.valid (by rw [m.kind, hn])).1).mp ⟨a, h2⟩
        simp only [Runs] at this
        rw [m.move, m.kind] at this
        exact ⟨⟨_, h1⟩, this⟩
      · rintro ⟨⟨b, h1⟩, h2⟩
        obtain ⟨q1, t1, rfl, m⟩ := e2 b h1
        rw [← m.move, ← m.kind] at h2
        obtain ⟨a, ha⟩ := ((e3 q1 t1 m.valid (by rw [m.kind, hn])).1).mpr (by simp only [Runs]; exact h2)
        exact ⟨a, by rw [h1]; exact ha⟩
    · intro a h
      obtain ⟨b, h1, h2⟩ := (bind_ok_iff _ _ _).mp h
      obtain ⟨q1, t1, rfl, m⟩ := e2 b h1
      obtain ⟨q2, t2, rfl, m2⟩ := (e3 q1 t1 m.valid (by rw [m.kind, hn])).2 a h2
      refine ⟨q2, t2, rfl, by rw [m2.kind, m.kind], m2.valid, fun c => m2.canon (m.canon c), ?_⟩
      have := m2.move
      rw [this, m.move]
      simp [move, moveAll]

/-- Calls on (position, time), for every operator and every class. -/
theorem call_exactly (n : ℕ) (op : Op) : Sized n op → ∀ (q : Pos ℝ) (t : ℝ), Valid q →
    q.kind.dim = n → Exactly op q t (op.call (.posTime q t)) := by
  induction op using Op.ind with
  | id =>
    intro _ q t hv _
    simp only [Op.call]
    refine ⟨iff_of_true ⟨_, rfl⟩ (by simp [Runs]), fun a h => ?_⟩
    obtain rfl := Except.ok.inj h
    exact ⟨q, t, rfl, rfl, hv, fun c => c, by simp [move]⟩
  | vb v =>
    intro _ q t hv _
    simp only [Op.call, callVBoost]
    refine ⟨iff_of_true ⟨_, rfl⟩ (by simp [Runs]), fun a h => ?_⟩
    obtain rfl := Except.ok.inj h
    exact ⟨q, t, rfl, rfl, hv, fun c => c, by simp [move]⟩
  | rot R => intro _ q t hv _; simp only [Op.call]; exact rotation_exactly R q t hv
  | sp d =>
    intro w q t hv hn
    simp only [Sized, Every] at w
    simp only [Op.call]
    exact spatial_exactly d q t hv w.1 (by rw [w.2, hn])
  | tr d =>
    intro w q t hv hn
    simp only [Sized, Every] at w
    simp only [Op.call]
    exact translation_exactly d q t hv w.1 (by rw [w.2, hn])
  | bo v =>
    intro w q t hv hn
    simp only [Sized, Every] at w
    simp only [Op.call]
    exact boost_exactly v q t hv (by rw [w, hn])
  | ga R d v =>
    intro w q t hv hn
    simp only [Sized, Every] at w
    simp only [Op.call]
    obtain ⟨a1, a2⟩ := rotation_exactly R q t hv
    simp only [Runs] at a1
    constructor
    · simp only [Runs]
      constructor
      · rintro ⟨a, h⟩
        obtain ⟨b, h3, h1⟩ := (bind_ok_iff _ _ _).mp h
        obtain ⟨c, h4, h2⟩ := (bind_ok_iff _ _ _).mp h1
        obtain ⟨q1, t1, rfl, m1⟩ := a2 b h3
        obtain ⟨b1, b2⟩ := translation_exactly d q1 t1 m1.valid w.1 (by rw [m1.kind, w.2.1, hn])
        obtain ⟨q2, t2, rfl, m2⟩ := b2 c h4
        obtain ⟨c1, _⟩ := boost_exactly v q2 t2 m2.valid (by rw [m2.kind, m1.kind, w.2.2, hn])
        have e1 := Prod.mk.inj m1.move
        have e2 := Prod.mk.inj m2.move
        have f1 := a1.mp ⟨_, h3⟩
        have f2 := b1.mp ⟨_, h4⟩
        have f3 := c1.mp ⟨_, h2⟩
        simp only [move] at e1 e2
        simp only [Runs] at f2 f3
        rw [m1.kind, e1.1] at f2
        rw [m2.kind, m1.kind, e2.1, e2.2, e1.1, e1.2] at f3
        exact ⟨f1.1, f1.2, f2.2, f3.1, f3.2⟩
      · rintro ⟨r1, r2, r3, r4, r5⟩
        obtain ⟨b, h3⟩ := a1.mpr ⟨r1, r2⟩
        obtain ⟨q1, t1, rfl, m1⟩ := a2 b h3
        obtain ⟨b1, b2⟩ := translation_exactly d q1 t1 m1.valid w.1 (by rw [m1.kind, w.2.1, hn])
        have e1 := Prod.mk.inj m1.move
        simp only [move] at e1
        obtain ⟨c, h4⟩ := b1.mpr (by simp only [Runs]; rw [m1.kind, e1.1]; exact ⟨r1, r3⟩)
        obtain ⟨q2, t2, rfl, m2⟩ := b2 c h4
        have e2 := Prod.mk.inj m2.move
        simp only [move] at e2
        obtain ⟨c1, _⟩ := boost_exactly v q2 t2 m2.valid (by rw [m2.kind, m1.kind, w.2.2, hn])
        obtain ⟨a, h2⟩ := c1.mpr (by
          simp only [Runs]; rw [m2.kind, m1.kind, e2.1, e2.2, e1.1, e1.2]; exact ⟨r4, r5⟩)
        exact ⟨a, by simp only [h3, h4, h2, ok_bind]⟩
    · intro a h
      obtain ⟨b, h3, h1⟩ := (bind_ok_iff _ _ _).mp h
      obtain ⟨c, h4, h2⟩ := (bind_ok_iff _ _ _).mp h1
      obtain ⟨q1, t1, rfl, m1⟩ := a2 b h3
      obtain ⟨_, b2⟩ := translation_exactly d q1 t1 m1.valid w.1 (by rw [m1.kind, w.2.1, hn])
      obtain ⟨q2, t2, rfl, m2⟩ := b2 c h4
      obtain ⟨_, c2⟩ := boost_exactly v q2 t2 m2.valid (by rw [m2.kind, m1.kind, w.2.2, hn])
      obtain ⟨q3, t3, rfl, m3⟩ := c2 a h2
      refine ⟨q3, t3, rfl, by rw [m3.kind, m2.kind, m1.kind], m3.valid,
        fun c => m3.canon (m2.canon (m1.canon c)), ?_⟩
      rw [m3.move, m2.move, m1.move]; simp [move]
  | pi ops ih =>
    intro w q t hv hn
    simp only [Sized, Every, everyAll_iff] at w
    rw [call_pipe rfl]
    exact callAll_exactly n ops (fun o ho => ih o ho (w o ho)) q t hv hn

/-! ### Inverses -/

theorem moveAll_append (as bs : List Op) (e : Event) :
    moveAll (as ++ bs) e = moveAll bs (moveAll as e) := by
  induction as generalizing e with
  | nil => simp [moveAll]
  | cons o os ih => simp [moveAll, ih]

theorem runsAll_append (as bs : List Op) (k : Kind) (e : Event) :
    RunsAll (as ++ bs) k e ↔ RunsAll as k e ∧ RunsAll bs k (moveAll as e) := by
  induction as generalizing e with
  | nil => simp [moveAll, RunsAll]
  | cons o os ih => simp [moveAll, RunsAll, ih, and_assoc]

/-- the inverse, where both can be carried out, acts inversely -/
structure Undoes (n : ℕ) (inv op : Op) : Prop where
  sized : Sized n inv
  left : ∀ k e, Runs op k e → Runs inv k (move op e) → move inv (move op e) = e
  right : ∀ k e, Runs inv k e → Runs op k (move inv e) → move op (move inv e) = e

theorem undoesAll (n : ℕ) (ops : List Op)
    (ih : ∀ o ∈ ops, ∀ inv, o.inverse = .ok inv → Undoes n inv o) (invs : List Op)
    (h : inverseAll ops = .ok invs) : Undoes n (.pipe invs) (.pipe ops) := by
  induction ops generalizing invs with
  | nil =>
    simp only [inverseAll] at h
    obtain rfl := Except.ok.inj h
    exact ⟨trivial, fun k e _ _ => by simp [move, moveAll], fun k e _ _ => by simp [move, moveAll]⟩
  | cons o os ihl =>
    simp only [inverseAll] at h
    obtain ⟨rest, h1, h2⟩ := (bind_ok_iff _ _ _).mp h
    obtain ⟨i, h3, h4⟩ := (bind_ok_iff _ _ _).mp h2
    obtain rfl := Except.ok.inj h4
    have g := ih o (by simp) i h3
    have gs := ihl (fun x hx => ih x (by simp [hx])) rest h1
    refine ⟨everyAll_append gs.sized ⟨g.sized, trivial⟩, ?_, ?_⟩
    · intro k e r1 r2
      have l := gs.left k (move o e)
      simp only [move, moveAll, moveAll_append, Runs, RunsAll, runsAll_append] at r1 r2 l ⊢
      have l' := l r1.2 r2.1
      rw [l'] at r2 ⊢
      exact g.left k e r1.1 r2.2.1
    · intro k e r1 r2
      have l := gs.right k e
      simp only [move, moveAll, moveAll_append, Runs, RunsAll, runsAll_append] at r1 r2 l ⊢
      have l' := g.right k _ r1.2.1 r2.1
      rw [l'] at r2 ⊢
      exact l r1.1 r2.2

theorem negFour' {d e : Four} (hd : Valid d.q) (h : d.neg = .ok e) :
    Valid e.q ∧ e.q.kind = d.q.kind ∧ e.t = -d.t ∧ point e.q = (point d.q).neg := by
  obtain ⟨q, h1, h2⟩ := (bind_ok_iff _ _ _).mp h
  obtain rfl := Except.ok.inj h2
  obtain ⟨k, v, _, p⟩ := C16_negation _ _ hd h1
  exact ⟨v, k, rfl, p⟩

theorem inverse_undoes (n : ℕ) (op : Op) : Sized n op → Rigid op → ∀ inv, op.inverse = .ok inv →
    Undoes n inv op := by
  induction op using Op.ind with
  | id =>
    intro _ _ inv h
    simp only [Op.inverse] at h; obtain rfl := Except.ok.inj h
    exact ⟨trivial, fun k e _ _ => by simp [move], fun k e _ _ => by simp [move]⟩
  | vb v =>
    intro _ _ inv h
    simp only [Op.inverse] at h; obtain rfl := Except.ok.inj h
    exact ⟨trivial, fun k e _ _ => by simp [move], fun k e _ _ => by simp [move]⟩
  | rot R =>
    intro _ r inv h
    simp only [Op.inverse] at h; obtain rfl := Except.ok.inj h
    simp only [Rigid, Every] at r
    exact ⟨trivial, fun k e _ _ => by simp [move, (r.cancel e.1).2],
      fun k e _ _ => by simp [move, (r.cancel e.1).1]⟩
  | sp d =>
    intro w _ inv h
    simp only [Sized, Every] at w
    simp only [Op.inverse] at h
    obtain ⟨d', h1, h2⟩ := (bind_ok_iff _ _ _).mp h
    obtain rfl := Except.ok.inj h2
    obtain ⟨k, v, _, p⟩ := C16_negation _ _ w.1 h1
    refine ⟨⟨v, by rw [k]; exact w.2⟩, fun k e _ _ => ?_, fun k e _ _ => ?_⟩
    · simp [move, p, (add_neg_cancel e.1 (point d)).1]
    · simp [move, p, (add_neg_cancel e.1 (point d)).2]
  | tr d =>
    intro w _ inv h
    simp only [Sized, Every] at w
    simp only [Op.inverse] at h
    obtain ⟨d', h1, h2⟩ := (bind_ok_iff _ _ _).mp h
    obtain rfl := Except.ok.inj h2
    obtain ⟨v, k, ht, p⟩ := negFour' w.1 h1
    refine ⟨⟨v, by rw [k]; exact w.2⟩, fun k e _ _ => ?_, fun k e _ _ => ?_⟩
    · simp [move, p, ht, (add_neg_cancel e.1 (point d.q)).1]
    · simp [move, p, ht, (add_neg_cancel e.1 (point d.q)).2]
  | bo v =>
    intro w _ inv h
    simp only [Sized, Every] at w
    simp only [Op.inverse] at h; obtain rfl := Except.ok.inj h
    refine ⟨by simp only [Sized, Every]; rw [negVel_kind, w], fun k e r1 r2 => ?_, fun k e r1 r2 => ?_⟩
    · simp only [Runs, move] at r1 r2 ⊢
      rw [(shift_neg r1.1 r2.1 e.1).1]
    · simp only [Runs, move] at r1 r2 ⊢
      rw [(shift_neg r2.1 r1.1 e.1).2]
  | ga R d v =>
    intro w r inv h
    simp only [Sized, Every] at w
    simp only [Rigid, Every] at r
    simp only [Op.inverse] at h
    obtain ⟨d', h1, h2⟩ := (bind_ok_iff _ _ _).mp h
    obtain rfl := Except.ok.inj h2
    obtain ⟨hv, k, ht, p⟩ := negFour' w.1 h1
    refine ⟨⟨by show (negVel v).kind.dim = n; rw [negVel_kind, w.2.2],
      ⟨hv, by rw [k]; exact w.2.1⟩, trivial, trivial⟩, fun k e r1 r2 => ?_, fun k e r1 r2 => ?_⟩
    · simp only [Runs, RunsAll, move, moveAll, p, ht] at r1 r2 ⊢
      rw [(shift_neg r1.2.2.2.1 r2.1.1 _).1, (add_neg_cancel _ (point d.q)).1, (r.cancel e.1).2]
      simp
    · simp only [Runs, RunsAll, move, moveAll, p, ht] at r1 r2 ⊢
      have : e.2 + -d.t + d.t = e.2 := by ring
      rw [this] at r2 ⊢
      rw [(r.cancel _).1, (add_neg_cancel _ (point d.q)).2, (shift_neg r2.2.2.2.1 r1.1.1 _).2]
  | pi ops ih =>
    intro w r inv h
    simp only [Sized, Every, everyAll_iff] at w
    simp only [Rigid, Every, everyAll_iff] at r
    simp only [Op.inverse] at h
    obtain ⟨invs, h1, h2⟩ := (bind_ok_iff _ _ _).mp h
    obtain rfl := Except.ok.inj h2
    exact undoesAll n ops (fun o ho => ih o ho (w o ho) (r o ho)) invs h1

theorem inverse_iff (n : ℕ) (op : Op) : Sized n op →
    ((∃ inv, op.inverse = .ok inv) ↔ Invertible op) := by
  have one : ∀ (d : Pos ℝ), Valid d → ((∃ e, negPos d = .ok e) ↔ OppositeIn d) :=
    fun d hd => C16_returns_iff d hd
  have four : ∀ (d : Four), Valid d.q → ((∃ e, d.neg = .ok e) ↔ OppositeIn d.q) := by
    intro d hd
    rw [← one d.q hd]
    constructor
    · rintro ⟨e, h⟩
      obtain ⟨q, h1, _⟩ := (bind_ok_iff _ _ _).mp h
      exact ⟨q, h1⟩
    · rintro ⟨q, h⟩
      exact ⟨_, by simp only [Four.neg, h, ok_bind]; rfl⟩
  induction op using Op.ind with
  | id => intro _; exact iff_of_true ⟨_, by simp only [Op.inverse]; rfl⟩ trivial
  | rot R => intro _; exact iff_of_true ⟨_, by simp only [Op.inverse]; rfl⟩ trivial
  | bo R => intro _; exact iff_of_true ⟨_, by simp only [Op.inverse]; rfl⟩ trivial
  | vb R => intro _; exact iff_of_true ⟨_, by simp only [Op.inverse]; rfl⟩ trivial
  | sp d =>
    intro w
    simp only [Invertible, Every]
    rw [← one d w.1]
    constructor
    · rintro ⟨i, h⟩
      simp only [Op.inverse] at h
      obtain ⟨q, h1, _⟩ := (bind_ok_iff _ _ _).mp h
      exact ⟨q, h1⟩
    · rintro ⟨q, h⟩
      exact ⟨_, by simp only [Op.inverse, h, ok_bind]; rfl⟩
  | tr d =>
    intro w
    simp only [Invertible, Every]
    rw [← four d w.1]
    constructor
    · rintro ⟨i, h⟩
      simp only [Op.inverse] at h
      obtain ⟨q, h1, _⟩ := (bind_ok_iff _ _ _).mp h
      exact ⟨q, h1⟩
    · rintro ⟨q, h⟩
      exact ⟨_, by simp only [Op.inverse, h, ok_bind]; rfl⟩
  | ga R d v =>
    intro w
    simp only [Invertible, Every]
    rw [← four d w.1]
    constructor
    · rintro ⟨i, h⟩
      simp only [Op.inverse] at h
      obtain ⟨q, h1, _⟩ := (bind_ok_iff _ _ _).mp h
      exact ⟨q, h1⟩
    · rintro ⟨q, h⟩
      exact ⟨_, by simp only [Op.inverse, h, ok_bind]; rfl⟩
  | pi ops ih =>
    intro w
    simp only [Sized, Every, everyAll_iff] at w
    simp only [Invertible, Every, everyAll_iff]
    have : (∃ invs, inverseAll ops = .ok invs) ↔ ∀ o ∈ ops, Invertible o := by
      clear * - ih w
      induction ops with
      | nil => exact iff_of_true ⟨[], by simp only [inverseAll]⟩ (by simp)
      | cons o os ihl =>
        have a := ihl (fun x hx => ih x (by simp [hx])) (fun x hx => w x (by simp [hx]))
        have b := ih o (by simp) (w o (by simp))
        simp only [List.mem_cons, forall_eq_or_imp]
        rw [← a, ← b]
        constructor
        · rintro ⟨invs, h⟩
          simp only [inverseAll] at h
          obtain ⟨rest, h1, h2⟩ := (bind_ok_iff _ _ _).mp h
          obtain ⟨i, h3, _⟩ := (bind_ok_iff _ _ _).mp h2
          exact ⟨⟨i, h3⟩, ⟨rest, h1⟩⟩
        · rintro ⟨⟨i, h3⟩, ⟨rest, h1⟩⟩
          exact ⟨rest ++ [i], by simp only [inverseAll, h1, h3, ok_bind]; rfl⟩
    refine Iff.trans ?_ this
    constructor
    · rintro ⟨i, h⟩
      simp only [Op.inverse] at h
      obtain ⟨q, h1, _⟩ := (bind_ok_iff _ _ _).mp h
      exact ⟨q, h1⟩
    · rintro ⟨q, h⟩
      exact ⟨_, by simp only [Op.inverse, h, ok_bind]; rfl⟩

theorem samePos_moved {op inv : Op} {q q1 q2 : Pos ℝ} {t t1 t2 : ℝ} (hq : Valid q)
    (s1 : Moved op q t q1 t1) (s2 : Moved inv q1 t1 q2 t2)
    (h : move inv (move op (point q, t)) = (point q, t)) : SamePos q2 q ∧ t2 = t := by
  have e := s2.move
  rw [s1.move, h] at e
  have e := Prod.mk.inj e
  have hk : q2.kind = q.kind := by rw [s2.kind, s1.kind]
  refine ⟨⟨hk, s2.valid, e.1, fun c o np => ?_⟩, e.2⟩
  refine plain_eq_of_point_eq s2.valid hq hk (s2.canon (s1.canon c)) c ?_ (by rw [e.1]; exact o) e.1
  have hr : q2.kind ≠ .prolate := by rw [hk]; exact np
  cases q <;> cases q2 <;> first | rfl | exact absurd rfl np | exact absurd rfl hr

/-! ## Theorems -/

/-- **C31, exactly.** Operators of any nesting, positions, translations and boosts of every class of
one, two or three dimensions: the call returns iff every step can be carried out in the class of the
position, and then gives the textbook image of the event, in the class of the input. -/
theorem C31_call_exact (n : ℕ) (op : Op) (w : Sized n op) (q : Pos ℝ) (t : ℝ) (hq : Valid q)
    (hn : q.kind.dim = n) :
    ((∃ a, op.call (.posTime q t) = .ok a) ↔ Runs op q.kind (point q, t)) ∧
    ∀ a, op.call (.posTime q t) = .ok a → ∃ q' t', a = .posTime q' t' ∧ q'.kind = q.kind ∧
      Valid q' ∧ (point q', t') = move op (point q, t) := by
  obtain ⟨h1, h2⟩ := call_exactly n op w q t hq hn
  refine ⟨h1, fun a h => ?_⟩
  obtain ⟨q', t', e, m⟩ := h2 a h
  exact ⟨q', t', e, m.kind, m.valid, m.move⟩

/-- With Cartesian boosts the action is the one of `Verif/SpecOp.lean`. -/
theorem C31_move_is_act (op : Op) (w : WellFormed op) (e : Event) : move op e = act op e := by
  have sh : ∀ (v : Vel ℝ) (t : ℝ), v.kind = .cart3 → shift v t = V3.smul t (velV v) := by
    intro v t h
    cases v <;> first | (cases h; done) | skip
    simp [shift, velV, V3.smul, mul_comm]
  revert w e
  induction op using Op.ind with
  | id | rot | sp | tr | vb => intro _ e; simp [move, act]
  | bo v =>
    intro w e
    simp only [WellFormed, Every] at w
    simp [move, act, sh v _ w]
  | ga R d v =>
    intro w e
    simp only [WellFormed, Every] at w
    simp [move, act, sh v _ w.2]
  | pi ops ih =>
    intro w e
    simp only [WellFormed, Every, everyAll_iff] at w
    simp only [move, act]
    clear * - ih w
    induction ops generalizing e with
    | nil => simp [moveAll, actAll]
    | cons o os ihl =>
      simp only [moveAll, actAll]
      rw [ih o (by simp) (w o (by simp))]
      exact ihl (fun x hx => ih x (by simp [hx])) _ (fun x hx => w x (by simp [hx]))

/-- **C31.** The same point, in whatever two classes: if both calls return they give the same event,
each in the class of its input; and the Cartesian form returns whenever another class does. -/
theorem C31_same_point (n : ℕ) (op : Op) (w : Sized n op) (q p : Pos ℝ) (t : ℝ) (a : Arg)
    (hq : Valid q) (hp : Valid p) (hn : q.kind.dim = n) (hd : p.kind.dim = n)
    (h : point q = point p) (h1 : op.call (.posTime q t) = .ok a) :
    (∀ b, op.call (.posTime p t) = .ok b → ∃ q' p' t', a = .posTime q' t' ∧ b = .posTime p' t' ∧
      q'.kind = q.kind ∧ p'.kind = p.kind ∧ Valid q' ∧ Valid p' ∧ point q' = point p') ∧
    (p.kind.isCart = true → ∃ b, op.call (.posTime p t) = .ok b) := by
  obtain ⟨e1, e2⟩ := call_exactly n op w q t hq hn
  obtain ⟨f1, f2⟩ := call_exactly n op w p t hp hd
  obtain ⟨q', t', rfl, m⟩ := e2 a h1
  constructor
  · intro b hb
    obtain ⟨p', t'', rfl, m'⟩ := f2 b hb
    have := m.move
    rw [h, ← m'.move] at this
    obtain ⟨g1, rfl⟩ := Prod.mk.inj this
    exact ⟨q', p', t', rfl, rfl, m.kind, m'.kind, m.valid, m'.valid, g1⟩
  · intro hc
    rw [f1, ← h]
    have r := e1.mp ⟨_, h1⟩
    have land : ∀ x, Lands q.kind x → Lands p.kind x := by
      intro x _
      refine ⟨?_, ?_, ?_, ?_⟩ <;> revert hc <;> cases p.kind <;> simp [Kind.isCart]
    have hdim : p.kind.dim = q.kind.dim := by rw [hn, hd]
    have key : ∀ (o : Op) (e : Event), Runs o q.kind e → Runs o p.kind e := by
      intro o
      induction o using Op.ind with
      | id | vb => intro e _; simp [Runs]
      | rot R => intro e; simp only [Runs, hdim]; exact fun h => ⟨h.1, land _ h.2⟩
      | sp R => intro e; simp only [Runs]; exact fun h => ⟨h.1, land _ h.2⟩
      | tr R => intro e; simp only [Runs, hdim]; exact fun h => ⟨h.1, land _ h.2⟩
      | bo R => intro e; simp only [Runs]; exact fun h => ⟨h.1, land _ h.2⟩
      | ga R d v =>
        intro e; simp only [Runs, hdim]
        exact fun h => ⟨h.1, land _ h.2.1, land _ h.2.2.1, h.2.2.2.1, land _ h.2.2.2.2⟩
      | pi ops ih =>
        intro e
        simp only [Runs]
        clear * - ih
        induction ops generalizing e with
        | nil => simp [RunsAll]
        | cons o os ihl =>
          simp only [RunsAll]
          exact fun h => ⟨ih o (by simp) e h.1, ihl (fun x hx => ih x (by simp [hx])) _ h.2⟩
    exact key op _ r

/-- **C27.** The inverse undoes the operator: for every operator with orthogonal rotations, of any
nesting, whose translations and boosts are of any classes of one, two or three dimensions, whenever
the two calls return, the position (its point, its class and, if canonical and off the z axis, its
components) and the time come back, in either order. -/
theorem C27_inverse_undoes (n : ℕ) (op inv : Op) (w : Sized n op) (r : Rigid op)
    (hi : op.inverse = .ok inv) (q : Pos ℝ) (t : ℝ) (hq : Valid q) (hn : q.kind.dim = n) (a b : Arg) :
    (op.call (.posTime q t) = .ok a → inv.call a = .ok b → ∃ q', b = .posTime q' t ∧ SamePos q' q) ∧
    (inv.call (.posTime q t) = .ok a → op.call a = .ok b → ∃ q', b = .posTime q' t ∧ SamePos q' q) := by
  have g := inverse_undoes n op w r inv hi
  have main : ∀ o o' : Op, Sized n o → Sized n o' →
      (∀ k e, Runs o k e → Runs o' k (move o e) → move o' (move o e) = e) →
      o.call (.posTime q t) = .ok a → o'.call a = .ok b → ∃ q', b = .posTime q' t ∧ SamePos q' q := by
    intro o o' w1 w2 hl h1 h2
    obtain ⟨e1, e2⟩ := call_exactly n o w1 q t hq hn
    obtain ⟨q1, t1, rfl, m1⟩ := e2 a h1
    obtain ⟨f1, f2⟩ := call_exactly n o' w2 q1 t1 m1.valid (by rw [m1.kind, hn])
    obtain ⟨q2, t2, rfl, m2⟩ := f2 b h2
    have r1 := e1.mp ⟨_, h1⟩
    have r2 := f1.mp ⟨_, h2⟩
    rw [m1.kind, m1.move] at r2
    obtain ⟨s, rfl⟩ := samePos_moved hq m1 m2 (hl _ _ r1 r2)
    exact ⟨q2, rfl, s⟩
  exact ⟨main op inv w g.sized g.left, main inv op g.sized w g.right⟩

/-- **C27, when.** The inverse exists iff every translation vector inside has an opposite in its
class; the operator followed by its inverse returns iff every step of both can be carried out. -/
theorem C27_inverse_returns_iff (n : ℕ) (op : Op) (w : Sized n op) (r : Rigid op) :
    ((∃ inv, op.inverse = .ok inv) ↔ Invertible op) ∧
    ∀ inv, op.inverse = .ok inv → ∀ (q : Pos ℝ) (t : ℝ), Valid q → q.kind.dim = n →
      ((∃ a b, op.call (.posTime q t) = .ok a ∧ inv.call a = .ok b) ↔
        Runs op q.kind (point q, t) ∧ Runs inv q.kind (move op (point q, t))) := by
  refine ⟨inverse_iff n op w, fun inv hi q t hq hn => ?_⟩
  have g := inverse_undoes n op w r inv hi
  obtain ⟨e1, e2⟩ := call_exactly n op w q t hq hn
  constructor
  · rintro ⟨a, b, h1, h2⟩
    obtain ⟨q1, t1, rfl, m1⟩ := e2 a h1
    obtain ⟨f1, _⟩ := call_exactly n inv g.sized q1 t1 m1.valid (by rw [m1.kind, hn])
    have r2 := f1.mp ⟨_, h2⟩
    rw [m1.kind, m1.move] at r2
    exact ⟨e1.mp ⟨_, h1⟩, r2⟩
  · rintro ⟨r1, r2⟩
    obtain ⟨a, h1⟩ := e1.mpr r1
    obtain ⟨q1, t1, rfl, m1⟩ := e2 a h1
    obtain ⟨f1, _⟩ := call_exactly n inv g.sized q1 t1 m1.valid (by rw [m1.kind, hn])
    rw [← m1.kind, ← m1.move] at r2
    obtain ⟨b, h2⟩ := f1.mpr r2
    exact ⟨_, b, h1, h2⟩

/-- **C30**, boosts of every class, one to three dimensions: distances between simultaneous events and
time intervals are preserved. -/
theorem C30_distances_preserved_any (n : ℕ) (op : Op) (w : Sized n op) (r : Rigid op) (q p : Pos ℝ)
    (t s : ℝ) (a b c : Arg) (hq : Valid q) (hp : Valid p) (hn : q.kind.dim = n) (hm : p.kind.dim = n)
    (h1 : op.call (.posTime q t) = .ok a) (h2 : op.call (.posTime p t) = .ok b)
    (h3 : op.call (.posTime p s) = .ok c) :
    ∃ q' p' p'' t' s', a = .posTime q' t' ∧ b = .posTime p' t' ∧ c = .posTime p'' s' ∧
      dist3 (point q') (point p') = dist3 (point q) (point p) ∧ t' - s' = t - s := by
  have iso : ∀ (o : Op), Rigid o → ∀ (x y : V3) (t s : ℝ),
      dist3 (move o (x, t)).1 (move o (y, t)).1 = dist3 x y ∧
      (move o (x, t)).2 - (move o (y, s)).2 = t - s := by
    intro o
    induction o using Op.ind with
    | id => intro _ x y t s; simp [move]
    | vb v => intro _ x y t s; simp [move]
    | rot R =>
      intro r x y t s
      exact ⟨by simp only [move, dist3, mulV_sub, norm_mulV R r], by simp [move]⟩
    | sp d => intro _ x y t s; simp [move, dist3, sub_add_right]
    | tr d => intro _ x y t s; simp [move, dist3, sub_add_right]
    | bo v => intro _ x y t s; simp [move, dist3, sub_add_right]
    | ga R d v =>
      intro r x y t s
      exact ⟨by simp only [move, dist3, sub_add_right, mulV_sub, norm_mulV R r], by simp [move]⟩
    | pi ops ih =>
      intro r x y t s
      simp only [Rigid, Every, everyAll_iff] at r
      simp only [move]
      clear * - ih r
      induction ops generalizing x y t s with
      | nil => simp [moveAll]
      | cons o os ihl =>
        simp only [moveAll]
        obtain ⟨h1, h2⟩ := ih o (by simp) (r o (by simp)) x y t s
        have h3 := (ih o (by simp) (r o (by simp)) x y t t).2
        have g := fun x y t s => ihl (fun p hp => ih p (by simp [hp])) x y t s
          (fun p hp => r p (by simp [hp]))
        have e : move o (y, t) = ((move o (y, t)).1, (move o (x, t)).2) := by
          ext1
          · rfl
          · simp only; linarith
        obtain ⟨g1, _⟩ := g (move o (x, t)).1 (move o (y, t)).1 (move o (x, t)).2 (move o (y, s)).2
        obtain ⟨_, g2⟩ := g (move o (x, t)).1 (move o (y, s)).1 (move o (x, t)).2 (move o (y, s)).2
        constructor
        · rw [e]; exact g1.trans h1
        · exact g2.trans h2
  obtain ⟨q', t', rfl, s1⟩ := (call_exactly n op w q t hq hn).2 a h1
  obtain ⟨p', t'', rfl, s2⟩ := (call_exactly n op w p t hp hm).2 b h2
  obtain ⟨p'', s', rfl, s3⟩ := (call_exactly n op w p s hp hm).2 c h3
  obtain ⟨i1, i2⟩ := iso op r (point q) (point p) t s
  have i3 := (iso op r (point q) (point p) t t).2
  rw [← s1.move, ← s2.move] at i1 i3
  rw [← s1.move, ← s3.move] at i2
  simp only at i1 i2 i3
  have : t'' = t' := by linarith
  subst this
  exact ⟨q', p', p'', t'', s', rfl, rfl, rfl, i1, i2⟩

/-! ## C28 exactly -/

/-- **C28, when.** `a | b` returns iff `a` is a Pipe or `b` is not, and gives a Pipe. So
`(a | b) | c` returns iff `a | b` does, and `a | (b | c)` iff `a` is a Pipe and `b | c` returns. -/
theorem C28_or_returns_iff (a b c : Op) :
    ((∃ r, a.or b = .ok r) ↔ (a.isPipe = true ∨ b.isPipe = false)) ∧
    (∀ r, a.or b = .ok r → r.isPipe = true) ∧
    ((∃ ab l, a.or b = .ok ab ∧ ab.or c = .ok l) ↔ ∃ ab, a.or b = .ok ab) ∧
    ((∃ bc r, b.or c = .ok bc ∧ a.or bc = .ok r) ↔ a.isPipe = true ∧ ∃ bc, b.or c = .ok bc) := by
  have one : ∀ a b : Op, (∃ r, a.or b = .ok r) ↔ (a.isPipe = true ∨ b.isPipe = false) := by
    intro a b
    cases a <;> cases b <;> simp [Op.or, Op.isPipe]
  have two : ∀ a b r : Op, a.or b = .ok r → r.isPipe = true := by
    intro a b r h
    cases a <;> cases b <;> simp only [Op.or, reduceCtorEq, Except.ok.injEq] at h <;> subst h <;> rfl
  refine ⟨one a b, two a b, ?_, ?_⟩
  · constructor
    · rintro ⟨ab, _, h, _⟩; exact ⟨ab, h⟩
    · rintro ⟨ab, h⟩
      obtain ⟨l, hl⟩ := (one ab c).mpr (Or.inl (two a b ab h))
      exact ⟨ab, l, h, hl⟩
  · constructor
    · rintro ⟨bc, r, h, h'⟩
      have := (one a bc).mp ⟨r, h'⟩
      rw [two b c bc h] at this
      exact ⟨this.resolve_right (by simp), bc, h⟩
    · rintro ⟨ha, bc, h⟩
      obtain ⟨r, hr⟩ := (one a bc).mpr (Or.inl ha)
      exact ⟨bc, r, h, hr⟩

/-- **C28, lone velocities.** A Pipe of exactly one operator hands a velocity to that operator; any
other Pipe raises `TypeError`. -/
theorem C28_velocity_exact (ops : List Op) (p : Vel ℝ) :
    (∀ o, ops = [o] → (Op.pipe ops).call (.vel p) = o.call (.vel p)) ∧
    (ops.length ≠ 1 → (Op.pipe ops).call (.vel p) = .error .typeError) := by
  constructor
  · rintro o rfl
    simp only [Op.call]
    rw [if_neg (by simp)]
    simp only [callAll]
    cases o.call (.vel p) <;> rfl
  · intro h
    simp only [Op.call]
    rw [if_pos ⟨rfl, h⟩]

/-- a boost by a cylindrical velocity along the z axis, and a polar translation in two dimensions:
both can be carried out and undone -/
example : (∃ inv a b, (Op.boost (.cyl 0 1 2)).inverse = .ok inv ∧
      (Op.boost (.cyl 0 1 2)).call (.posTime (.cart3 1 2 3) 5) = .ok a ∧ inv.call a = .ok b) ∧
    ∃ inv a b, (Op.spatial (.polar (.dist 1) 2)).inverse = .ok inv ∧
      (Op.spatial (.polar (.dist 1) 2)).call (.posTime (.cart2 1 2) 5) = .ok a ∧ inv.call a = .ok b := by
  constructor
  · have w : Sized 3 (.boost (.cyl 0 1 2)) := rfl
    have hi : (Op.boost (.cyl 0 1 2)).inverse = .ok (.boost (.cyl (-0) (-1) (-2))) := by
      simp only [Op.inverse]; rfl
    obtain ⟨a, b, h⟩ := ((C27_inverse_returns_iff 3 _ w trivial).2 _ hi (.cart3 1 2 3) 5 trivial rfl).mpr
      ⟨⟨by norm_num [ShiftOk], by simp [Lands, Pos.kind]⟩,
        ⟨by norm_num [ShiftOk], by simp [Lands, Pos.kind]⟩⟩
    exact ⟨_, a, b, hi, h⟩
  · have w : Sized 2 (.spatial (.polar (.dist 1) 2)) := ⟨by norm_num [Valid, DistOk], rfl⟩
    obtain ⟨inv, hi⟩ := (C27_inverse_returns_iff 2 _ w trivial).1.mpr
      ⟨(fun e => by cases e), (fun e => by cases e), (by rintro (e | e | e) <;> cases e),
        (fun e => by cases e)⟩
    have g := inverse_undoes 2 _ w trivial inv hi
    obtain ⟨d, h1, h2⟩ := (bind_ok_iff _ _ _).mp (show _ = _ from by simpa only [Op.inverse] using hi)
    obtain rfl := Except.ok.inj h2
    have hk := (C16_negation _ _ w.1 h1).1
    obtain ⟨a, b, h⟩ := ((C27_inverse_returns_iff 2 _ w trivial).2 _ hi (.cart2 1 2) 5 trivial rfl).mpr
      ⟨⟨(fun e => by cases e), by simp [Lands, Pos.kind]⟩,
        ⟨by rw [hk]; exact fun e => (by cases e), by simp [Lands, Pos.kind]⟩⟩
    exact ⟨_, a, b, hi, h⟩

end Verif
