import Verif.UnitOp
import Verif.UnitArithSim
import Verif.UnitVelMain
import Verif.Props.UnitArith
import Verif.Props.OpVelocity

/-!
# Operators with units: simulation by the operators in base units
-/

namespace Verif

open Num

/-- time -/ abbrev dT : RDim := { time := 1 }

/-- whenever the left side returns, the right side returns a related value -/
def Mirrors {A B : Type} (R : A → B → Prop) (m : Res A) (m' : Res B) : Prop := ∀ a, m = .ok a → ∃ a', m' = .ok a' ∧ R a a'

theorem RelRes.sound {A B : Type} {R : A → B → Prop} {m : Res A} {m' : Res B} (h : RelRes R m m') : Mirrors R m m' := by
  cases h with
  | ok h => intro a e; cases e; exact ⟨_, rfl, h⟩
  | err e => intro a h; cases h

theorem Mirrors.bind {A B C D : Type} {R : A → B → Prop} {S : C → D → Prop} {m : Res A} {m' : Res B}
    {f : A → Res C} {g : B → Res D} (h : Mirrors R m m') (k : ∀ a b, R a b → Mirrors S (f a) (g b)) :
    Mirrors S (m >>= f) (m' >>= g) := by
  intro c hc
  obtain ⟨a, ha, hf⟩ := (bind_ok_iff _ _ _).mp hc
  obtain ⟨a', ha', hr⟩ := h a ha
  obtain ⟨c', hc', hs⟩ := k a a' hr c hf
  exact ⟨c', by rw [ha', ok_bind]; exact hc', hs⟩

theorem Mirrors.mono {A B : Type} {R S : A → B → Prop} {m : Res A} {m' : Res B} (h : Mirrors R m m')
    (k : ∀ a b, R a b → S a b) : Mirrors S m m' := by
  intro a e
  obtain ⟨a', e', r⟩ := h a e
  exact ⟨a', e', k _ _ r⟩

theorem Mirrors.ok {A B : Type} {R : A → B → Prop} {a : A} {b : B} (h : R a b) : Mirrors R (.ok a) (.ok b) := by
  intro x e; cases e; exact ⟨_, rfl, h⟩

theorem Mirrors.err {A B : Type} {R : A → B → Prop} {m : Res B} (e : Err) : Mirrors R (.error e) m := fun _ h => by cases h

theorem RelRes.bindRet {A B C D : Type} {R : A → B → Prop} {S : C → D → Prop} {m : Res A} {m' : Res B}
    {f : A → C} {g : B → D} (h : RelRes R m m') (k : ∀ a b, R a b → S (f a) (g b)) :
    RelRes S (do return f (← m)) (do return g (← m')) := .bind h fun a b r => .ok (k a b r)

/-! ### rotations -/

theorem matApply_rel (R : Mat3) {x y z : UQ ℝ} (hx : x.unit.dim = dL) (hy : y.unit.dim = dL) (hz : z.unit.dim = dL) :
    ∃ w r, stackU [x, y, z] = .ok w ∧ matApplyU R w = .ok r ∧ r.kind = .cart3 ∧
      r.Rel (matApply R x.phys y.phys z.phys) := by
  obtain ⟨vy, ey, hy'⟩ := strip_ok (q := y) (un := x.unit) (hx.trans hy.symm)
  obtain ⟨vz, ez, hz'⟩ := strip_ok (q := z) (un := x.unit) (hx.trans hz.symm)
  have e : stackU [x, y, z] = .ok ⟨[x.value, vy, vz], x.unit⟩ := by
    simp only [stackU, List.mapM_cons, List.mapM_nil, ey, ez, ok_bind, pure_bind]
    rfl
  have hd : ∀ v : ℝ, ofDim RUnit.au.dim (⟨v, x.unit⟩ : UQ ℝ) = .ok ⟨v, x.unit⟩ := fun v => by
    unfold ofDim; rw [if_pos hx]
  refine ⟨_, .cart3 ⟨R 0 0 * x.value + R 0 1 * vy + R 0 2 * vz, x.unit⟩ ⟨R 1 0 * x.value + R 1 1 * vy + R 1 2 * vz, x.unit⟩
    ⟨R 2 0 * x.value + R 2 1 * vy + R 2 2 * vz, x.unit⟩, e, ?_, rfl, ?_⟩
  · show mkCart3U _ _ _ = _
    unfold mkCart3U
    rw [hd, hd, hd]
    rfl
  · refine ⟨⟨hx, hx, hx⟩, ?_⟩
    unfold matApply
    rw [← hy', ← hz']
    simp only [Pos.tr, UQ.phys, CNum.const]
    congr 1 <;> ring

theorem rot_rel (R : Mat3) {q : Pos (UQ ℝ)} {q' : Pos ℝ} (h : q.Rel q') :
    RelRes (fun r r' => r.Rel r' ∧ r.kind = q.kind) (rotPosU R q) (rotPos R q') := by
  unfold rotPosU rotPos
  rw [rel_kind h]
  split
  · exact .err _
  · refine .bind (repr_relk h .cart3 fun _ => by decide) fun c c' hc => ?_
    obtain ⟨⟨hc1, rfl⟩, hk⟩ := hc
    cases c <;> first | (cases hk; done) | skip
    rename_i x y z
    obtain ⟨w, r, e1, e2, hk, hr⟩ := matApply_rel R hc1.1 hc1.2.1 hc1.2.2
    show RelRes _ (do
      let w ← stackU [x, y, z]
      representAsU {} (← matApplyU R w) q.kind) (representAs {} (matApply R x.phys y.phys z.phys) q.kind)
    rw [e1, ok_bind, e2, ok_bind]
    exact repr_relk hr _ fun e => by rw [hk] at e; cases e

/-! ### velocity times time -/

theorem RDim.perTime_mul (d : RDim) : (perTime 1 d).mul dT = d := by
  cases d
  simp only [perTime, RDim.mul, RDim.pow, RDim.div, RDim.mk.injEq]
  refine ⟨?_, ?_, ?_, ?_, ?_⟩ <;> norm_num

theorem times_rel {a t : UQ ℝ} {t' : ℝ} {d : RDim} (ha : a.unit.dim = perTime 1 d) (ht : t.Rel dT t') :
    (a.mul t).Rel d (a.phys * t') := by
  have := mul_rel (UQ.rel_self ha) ht
  rwa [RDim.perTime_mul] at this

theorem radial_rel {q : UQ ℝ} {x : ℝ} (h : q.Rel dL x) : radialFrom q = .ok (.dist q) := radialFrom_len h

theorem velTimes_rel {v : Vel (UQ ℝ)} {t : UQ ℝ} {t' : ℝ} (hv : v.Has (perTime 1)) (ht : t.Rel dT t') :
    RelRes Pos.Rel (velTimesU v t) (velTimes (v.map UQ.phys) t') := by
  cases v <;> simp only [Vel.Has, Vel.comps, Vel.kind, VKind.fieldDims, List.map, List.cons.injEq, and_true] at hv
  case cart1 a =>
    have h := times_rel hv ht
    exact .leftOk (ofDim_rel h) (.ok ⟨h.1, congrArg Pos.cart1 h.2⟩)
  case radial a =>
    have h := times_rel hv ht
    exact .leftOk (radial_rel h) (mkRadial_rel (dist_dist h))
  case cart2 a b =>
    have h := times_rel hv.1 ht
    have k := times_rel hv.2 ht
    exact .leftOk (ofDim_rel h) (.leftOk (ofDim_rel k) (.ok ⟨⟨h.1, k.1⟩, by rw [Pos.tr, h.2, k.2]⟩))
  case polar a b =>
    have h := times_rel hv.1 ht
    have k := times_rel hv.2 ht
    exact .leftOk (radial_rel h) (mkPolar_rel (dist_dist h) (az_qty k))
  case twoSphere a b =>
    exact mkTwoSphere_rel (times_rel hv.1 ht) (az_qty (times_rel hv.2 ht))
  case cart3 a b c =>
    have h := times_rel hv.1 ht
    have k := times_rel hv.2.1 ht
    have l := times_rel hv.2.2 ht
    exact .leftOk (ofDim_rel h) (.leftOk (ofDim_rel k) (.leftOk (ofDim_rel l)
      (.ok ⟨⟨h.1, k.1, l.1⟩, by rw [Pos.tr, h.2, k.2, l.2]⟩)))
  case cyl a b c =>
    exact mkCyl_rel (times_rel hv.1 ht) (az_qty (times_rel hv.2.1 ht)) (times_rel hv.2.2 ht)
  case sph a b c =>
    have h := times_rel hv.1 ht
    exact .leftOk (radial_rel h) (mkSph_rel (dist_dist h) (times_rel hv.2.1 ht) (az_qty (times_rel hv.2.2 ht)))
  case lonlat a b c =>
    have h := times_rel hv.2.2 ht
    exact .leftOk (radial_rel h) (mkLonLat_rel (az_qty (times_rel hv.1 ht)) (times_rel hv.2.1 ht) (dist_dist h))
  case lonCosLat a b c => exact .err _
  case math a b c =>
    have h := times_rel hv.1 ht
    exact .leftOk (radial_rel h) (mkMath_rel (dist_dist h) (az_qty (times_rel hv.2.1 ht)) (times_rel hv.2.2 ht))
  case prolate a b c => exact .err _

/-! ### sums of positions -/

theorem binPos_kindU {g : ℝ → ℝ → ℝ} {p q r : Pos ℝ} (h : binPos g p q = .ok r) : r.kind = p.kind := by
  unfold binPos at h
  split at h
  all_goals first
    | (obtain ⟨b, _, h⟩ := (bind_ok_iff _ _ _).mp h
       cases b <;> first | (cases h; done) | (cases h; rfl))
    | (obtain ⟨a, _, h⟩ := (bind_ok_iff _ _ _).mp h
       obtain ⟨b, _, h⟩ := (bind_ok_iff _ _ _).mp h
       obtain ⟨c, _, h⟩ := (bind_ok_iff _ _ _).mp h
       exact representAs_kind h)

theorem add3_rel {p q : Pos (UQ ℝ)} {p' q' : Pos ℝ} (hp : p.Rel p') (hq : q.Rel q') (hd : p.kind.dim = 3) :
    RelRes (fun r r' => r.Rel r' ∧ r.kind = p.kind) (addPosU p q) (addPos p' q') := by
  have hk : p.kind.cartesian = .cart3 := by
    revert hd; cases p.kind <;> intro hd <;> first | rfl | cases hd
  have h : RelRes Pos.Rel (addPosU p q) (addPos p' q') := by
    obtain ⟨hp, rfl⟩ := hp
    obtain ⟨hq, rfl⟩ := hq
    refine bin_rel hp hq ?_
    intro a b a' b' _ _ ha hb hka hkb
    rw [hk] at hka hkb
    exact addCart3_rel ha hb hka hkb
  refine (h.with (P := fun r => r.kind = p'.kind) fun b hb => binPos_kindU hb).mono fun a b hab => ⟨hab.1, ?_⟩
  rw [← rel_kind hab.1, hab.2, rel_kind hp]


theorem SameOutcome.sound {A B : Type} {R : A → B → Prop} {m : Res A} {m' : Res B} (h : Spec.SameOutcome R m m') :
    Mirrors R m m' := by
  cases h with
  | returns h => intro a e; cases e; exact ⟨_, rfl, h⟩
  | raises e => intro a h; cases h

theorem bind_fails {A B : Type} {m : Res A} {f : A → Res B} {b : B} (h : ∀ a, m ≠ .ok a) : (m >>= f) ≠ .ok b := by
  intro e
  obtain ⟨a, ha, _⟩ := (bind_ok_iff _ _ _).mp e
  exact h a ha

/-- sums of positions that return: both operands can be converted to Cartesian components -/
theorem addPosU_operands {p q r : Pos (UQ ℝ)} (h : addPosU p q = .ok r) :
    ∃ a b, representAsU {} p p.kind.cartesian = .ok a ∧ representAsU {} q p.kind.cartesian = .ok b := by
  unfold addPosU binPosU at h
  split at h
  case h_4 =>
    obtain ⟨a, ha, h⟩ := (bind_ok_iff _ _ _).mp h
    obtain ⟨b, hb, h⟩ := (bind_ok_iff _ _ _).mp h
    exact ⟨a, b, ha, hb⟩
  all_goals
    obtain ⟨b, hb, h⟩ := (bind_ok_iff _ _ _).mp h
    exact ⟨_, b, repr_cart_self _ rfl, hb⟩

theorem addPos_sound {p q : Pos (UQ ℝ)} {p' q' : Pos ℝ} (hp : p.Rel p') (hq : q.Rel q') :
    Mirrors Pos.Rel (addPosU p q) (addPos p' q') := by
  by_cases hd : p.kind.dim = 3
  · exact (add3_rel hp hq hd).sound.mono fun _ _ h => h.1
  · intro r hr
    obtain ⟨a, b, ha, hb⟩ := addPosU_operands hr
    have h := tree_outcome (f := (· + ·)) (F := addCartU) (p := p) (q := q) leaf_add (fun a b hk => ?_) hp.1 hq.1
    · by_cases hu : a.cartUnits = b.cartUnits
      · have h1 := h.1 fun a' b' ha' hb' => by
          rw [ha] at ha'; rw [hb] at hb'
          cases ha'; cases hb'; exact hu
        obtain ⟨r', e', hr'⟩ := SameOutcome.sound h1 r hr
        rw [basePos_eq, basePos_eq] at e'
        exact ⟨r', by rw [← hp.2, ← hq.2]; exact e', rel_of hr'⟩
      · have := h.2 a b ha hb hu
        rw [show binPosU addCartU p q = .ok r from hr] at this
        cases this
    · cases a <;> first | rfl | (exfalso; revert hk hd; cases p.kind <;> intro hd hk <;> first | (cases hk; done) | exact hd rfl)

/-! ### velocities -/

theorem leafAdd_sound {a b : UQ ℝ} {d : RDim} (ha : a.unit.dim = d) :
    Mirrors (UQ.Rel d) (leafOp (· + ·) a b) (.ok (a.phys + b.phys)) := by
  intro r hr
  by_cases hu : a.unit = b.unit
  · obtain ⟨r', e, h⟩ := leaf_add hu ha
    rw [e] at hr
    cases hr
    exact ⟨_, rfl, h⟩
  · rw [leaf_fails hu] at hr; cases hr

theorem addVel_sound {v w : Vel (UQ ℝ)} (hv : v.Has (perTime 1)) :
    Mirrors (Vel.RelF (perTime 1)) (addVelU v w) (addVel (v.map UQ.phys) (w.map UQ.phys)) := by
  cases v with
  | cart1 a =>
    cases w <;> try exact .err _
    simp only [Vel.Has, Vel.comps, Vel.kind, VKind.fieldDims, List.map, List.cons.injEq, and_true] at hv
    intro r hr
    obtain ⟨a, ha, hr⟩ := (bind_ok_iff _ _ _).mp hr
    obtain ⟨a', ea, ha⟩ := leafAdd_sound hv a ha
    cases ea; cases hr
    exact ⟨_, rfl, by simp only [Vel.map, ha.2], by
      simp only [Vel.Has, Vel.comps, Vel.kind, VKind.fieldDims, List.map, ha.1]⟩
  | cart2 a b =>
    cases w <;> try exact .err _
    simp only [Vel.Has, Vel.comps, Vel.kind, VKind.fieldDims, List.map, List.cons.injEq, and_true] at hv
    intro r hr
    obtain ⟨a, ha, hr⟩ := (bind_ok_iff _ _ _).mp hr
    obtain ⟨b, hb, hr⟩ := (bind_ok_iff _ _ _).mp hr
    obtain ⟨a', ea, ha⟩ := leafAdd_sound hv.1 a ha
    obtain ⟨b', eb, hb⟩ := leafAdd_sound hv.2 b hb
    cases ea; cases eb; cases hr
    exact ⟨_, rfl, by simp only [Vel.map, ha.2, hb.2], by
      simp only [Vel.Has, Vel.comps, Vel.kind, VKind.fieldDims, List.map, ha.1, hb.1]⟩
  | cart3 a b c =>
    cases w <;> try exact .err _
    simp only [Vel.Has, Vel.comps, Vel.kind, VKind.fieldDims, List.map, List.cons.injEq, and_true] at hv
    intro r hr
    obtain ⟨a, ha, hr⟩ := (bind_ok_iff _ _ _).mp hr
    obtain ⟨b, hb, hr⟩ := (bind_ok_iff _ _ _).mp hr
    obtain ⟨c, hc, hr⟩ := (bind_ok_iff _ _ _).mp hr
    obtain ⟨a', ea, ha⟩ := leafAdd_sound hv.1 a ha
    obtain ⟨b', eb, hb⟩ := leafAdd_sound hv.2.1 b hb
    obtain ⟨c', ec, hc⟩ := leafAdd_sound hv.2.2 c hc
    cases ea; cases eb; cases ec; cases hr
    exact ⟨_, rfl, by simp only [Vel.map, ha.2, hb.2, hc.2], by
      simp only [Vel.Has, Vel.comps, Vel.kind, VKind.fieldDims, List.map, ha.1, hb.1, hc.1]⟩
  | _ => exact .err _

theorem negVel_rel {f : RDim → RDim} {v : Vel (UQ ℝ)} (hv : v.Has f) : Vel.RelF f (negVelU v) (negVel (v.map UQ.phys)) := by
  refine ⟨?_, ?_⟩
  · rw [negVelU, negVel, Vel.map_map', Vel.map_map']
    congr 1
    funext x
    exact (neg_rel (UQ.rel_self rfl)).2
  · unfold Vel.Has at hv ⊢
    rw [negVelU, Vel.comps_map, Vel.kind_map, List.map_map, ← hv]
    rfl


/-! ### the velocity part of a translation -/

theorem mapM_cols_sound {F : Vel ℝ → Res (Vel (UQ ℝ))} {G : Vel ℝ → Res (Vel ℝ)} {d : RDim} (L : List (Vel ℝ))
    (h : ∀ e ∈ L, Mirrors (Vel.RelF fun x => x.div d) (F e) (G e)) :
    Mirrors (ColsRel (L.map fun _ => d)) (L.mapM F) (L.mapM G) := by
  induction L with
  | nil => exact .ok .nil
  | cons e L ih =>
    simp only [List.map_cons, List.mapM_cons]
    exact .bind (h e (by simp)) fun a b hab => .bind (ih fun e' he' => h e' (by simp [he'])) fun as bs hs =>
      .ok (.cons hab hs)

theorem seed_phys (x u t) : ((⟨x, u⟩ : UQ ℝ).seed t).phys = Dual.scale u.scale ⟨(⟨x, u⟩ : UQ ℝ).phys, t⟩ :=
  UQ.phys_seed' _ _ _ rfl

theorem const_phys (y : UQ ℝ) (s : ℝ) : (y.seed 0).phys = Dual.scale s (Dual.const y.phys) := by
  rw [UQ.phys_seed0]; exact (Dual.scale_zero _ _).symm

/-- one component of the sum -/
theorem addD_rel {x : ℝ} {u : RUnit} {y : UQ ℝ} (t : ℝ) (hx : u.dim = dL) (hy : y.unit.dim = dL) :
    ∃ r, ((⟨x, u⟩ : UQ ℝ).seed t).add (y.seed 0) = .ok r ∧
      r.Rel dL (Dual.scale u.scale (⟨(⟨x, u⟩ : UQ ℝ).phys, t⟩ + Dual.const y.phys)) := by
  obtain ⟨r, e, h⟩ := add_rel (a := (⟨x, u⟩ : UQ ℝ).seed t) (b := y.seed 0) (UQ.rel_self hx) (UQ.rel_self hy)
  refine ⟨r, e, ?_⟩
  rw [seed_phys, const_phys y u.scale, ← (Dual.scale_hom u.scale).add] at h
  exact h

theorem leafD_sound {x : ℝ} {u : RUnit} {y : UQ ℝ} (t : ℝ) (hx : u.dim = dL) :
    Mirrors (UQ.Rel dL) (leafAddD ((⟨x, u⟩ : UQ ℝ).seed t) (y.seed 0))
      (.ok (Dual.scale u.scale (⟨(⟨x, u⟩ : UQ ℝ).phys, t⟩ + Dual.const y.phys))) := by
  intro r hr
  unfold leafAddD at hr
  split at hr
  · rename_i hu
    cases hr
    refine ⟨_, rfl, hx, ?_⟩
    rw [(Dual.scale_hom u.scale).add, ← seed_phys, ← const_phys]
    have hu : u = y.unit := hu
    subst hu
    exact LawfulCNum.c_mul_add ..
  · cases hr


/-- a Cartesian position whose components share one unit -/
def Pos.Uniform (u : RUnit) (p : Pos (UQ ℝ)) : Prop :=
  (∃ x, p = .cart1 ⟨x, u⟩) ∨ (∃ x y, p = .cart2 ⟨x, u⟩ ⟨y, u⟩) ∨ ∃ x y z, p = .cart3 ⟨x, u⟩ ⟨y, u⟩ ⟨z, u⟩

theorem flat_rel {c : Pos (UQ ℝ)} {c' : Pos ℝ} (h : c.Rel c') (hk : c.kind.cartesian = c.kind) :
    ∃ l w qr, c.cartFieldsU = .ok l ∧ stackU l = .ok w ∧ w.toCart = .ok qr ∧ qr.Rel c' ∧ qr.Uniform w.unit ∧
      w.unit.dim = dL ∧ qr.kind = c.kind := by
  obtain ⟨h, rfl⟩ := h
  cases c <;> first | (cases hk; done) | skip
  case cart1 x => exact ⟨_, _, _, rfl, rfl, rfl, ⟨h, rfl⟩, .inl ⟨_, rfl⟩, h, rfl⟩
  case cart2 x y =>
    obtain ⟨vy, ey, hy'⟩ := strip_ok (q := y) (un := x.unit) (h.1.trans h.2.symm)
    have e : stackU [x, y] = .ok ⟨[x.value, vy], x.unit⟩ := by
      simp only [stackU, List.mapM_cons, List.mapM_nil, ey, ok_bind, pure_bind]
      rfl
    exact ⟨_, _, _, rfl, e, rfl, ⟨⟨h.1, h.1⟩, by rw [Pos.tr, Pos.tr, ← hy']; rfl⟩, .inr (.inl ⟨_, _, rfl⟩), h.1, rfl⟩
  case cart3 x y z =>
    obtain ⟨vy, ey, hy'⟩ := strip_ok (q := y) (un := x.unit) (h.1.trans h.2.1.symm)
    obtain ⟨vz, ez, hz'⟩ := strip_ok (q := z) (un := x.unit) (h.1.trans h.2.2.symm)
    have e : stackU [x, y, z] = .ok ⟨[x.value, vy, vz], x.unit⟩ := by
      simp only [stackU, List.mapM_cons, List.mapM_nil, ey, ez, ok_bind, pure_bind]
      rfl
    exact ⟨_, _, _, rfl, e, rfl, ⟨⟨h.1, h.1, h.1⟩, by rw [Pos.tr, Pos.tr, ← hy', ← hz']; rfl⟩,
      .inr (.inr ⟨_, _, _, rfl⟩), h.1, rfl⟩

theorem stack_dims {d : RDim} {l : List (UQ ℝ)} (hn : l ≠ []) (hl : ∀ q ∈ l, q.unit.dim = d) :
    ∃ w, stackU l = .ok w ∧ w.unit.dim = d ∧ w.values.map (fun v => w.unit.scale * v) = l.map UQ.phys := by
  have key : ∀ (un : RUnit), un.dim = d → ∀ l : List (UQ ℝ), (∀ q ∈ l, q.unit.dim = d) →
      ∃ vs, (l.mapM fun r => r.strip un) = .ok vs ∧ vs.map (fun v => un.scale * v) = l.map UQ.phys := by
    intro un hun l
    induction l with
    | nil => exact fun _ => ⟨[], rfl, rfl⟩
    | cons q l ih =>
      intro hl
      obtain ⟨vs, e, hv⟩ := ih fun r hr => hl r (List.mem_cons_of_mem _ hr)
      obtain ⟨v, e', hv'⟩ := strip_ok (q := q) (un := un) (hun.trans (hl q (List.mem_cons_self ..)).symm)
      refine ⟨v :: vs, by rw [List.mapM_cons, e', ok_bind, e]; rfl, ?_⟩
      rw [List.map, List.map, hv, ← hv']; rfl
  cases l with
  | nil => exact absurd rfl hn
  | cons q l =>
    have hq := hl q (List.mem_cons_self ..)
    obtain ⟨vs, e, hv⟩ := key q.unit hq l fun r hr => hl r (List.mem_cons_of_mem _ hr)
    refine ⟨⟨q.value :: vs, q.unit⟩, ?_, hq, ?_⟩
    · show (do let vs ← l.mapM (fun r : UQ ℝ => r.strip q.unit); return (⟨q.value :: vs, q.unit⟩ : QRow)) = _
      rw [e]; rfl
    · rw [List.map, List.map, hv]; rfl

theorem spatialCols_sound {u : RUnit} {qr dc : Pos (UQ ℝ)} (hu : u.dim = dL) (hq : qr.Uniform u) (hd : dc.WD)
    (hk : dc.kind = qr.kind) :
    Mirrors (ColsRel (qr.kind.basis.map fun _ => dL)) (spatialJacobianU u qr dc)
      (spatialJacobian (qr.tr UQ.phys) (dc.tr UQ.phys)) := by
  unfold spatialJacobianU spatialJacobian
  rw [tr_kind]
  refine mapM_cols_sound _ fun e he => ?_
  rcases hq with ⟨x, rfl⟩ | ⟨x, y, rfl⟩ | ⟨x, y, z, rfl⟩
  · cases dc <;> first | (cases hk; done) | skip
    rename_i x'
    have hc : ∃ a, e = Vel.cart1 a := by
      simp only [Pos.kind, Kind.basis, List.mem_cons, List.not_mem_nil, or_false] at he
      exact ⟨_, he⟩
    obtain ⟨a, rfl⟩ := hc
    show Mirrors _ (do
      (← addCartD (.cart1 ((⟨x, u⟩ : UQ ℝ).seed a)) (.cart1 (x'.seed 0))).columnU u) _
    have h : Mirrors (fun q Q => q.WD ∧ q.tr UQ.phys = Q.tr (Dual.scale u.scale))
        (addCartD (.cart1 ((⟨x, u⟩ : UQ ℝ).seed a)) (.cart1 (x'.seed 0)))
        (.ok (Pos.cart1 (⟨(⟨x, u⟩ : UQ ℝ).phys, a⟩ + Dual.const x'.phys))) := by
      intro r hr
      obtain ⟨a1, ha, hr⟩ := (bind_ok_iff _ _ _).mp hr
      obtain ⟨_, ea, ha⟩ := leafD_sound a hu a1 ha
      cases ea; cases hr
      exact ⟨_, rfl, ha.1, by simp only [Pos.tr, ha.2]⟩
    refine (h.bind fun q Q hqQ => (columnU_rel hqQ.1 hqQ.2).sound).mono fun _ _ h => ?_
    rw [← hu]; exact h
  · cases dc <;> first | (cases hk; done) | skip
    rename_i x' y'
    have hc : ∃ a b, e = Vel.cart2 a b := by
      simp only [Pos.kind, Kind.basis, List.mem_cons, List.not_mem_nil, or_false] at he
      rcases he with h | h <;> exact ⟨_, _, h⟩
    obtain ⟨a, b, rfl⟩ := hc
    show Mirrors _ (do
      (← addCartD (.cart2 ((⟨x, u⟩ : UQ ℝ).seed a) ((⟨y, u⟩ : UQ ℝ).seed b)) (.cart2 (x'.seed 0) (y'.seed 0))).columnU u) _
    have h : Mirrors (fun q Q => q.WD ∧ q.tr UQ.phys = Q.tr (Dual.scale u.scale))
        (addCartD (.cart2 ((⟨x, u⟩ : UQ ℝ).seed a) ((⟨y, u⟩ : UQ ℝ).seed b)) (.cart2 (x'.seed 0) (y'.seed 0)))
        (.ok (Pos.cart2 (⟨(⟨x, u⟩ : UQ ℝ).phys, a⟩ + Dual.const x'.phys)
          (⟨(⟨y, u⟩ : UQ ℝ).phys, b⟩ + Dual.const y'.phys))) := by
      intro r hr
      obtain ⟨a1, ha, hr⟩ := (bind_ok_iff _ _ _).mp hr
      obtain ⟨b1, hb, hr⟩ := (bind_ok_iff _ _ _).mp hr
      obtain ⟨_, ea, ha⟩ := leafD_sound a hu a1 ha
      obtain ⟨_, eb, hb⟩ := leafD_sound b hu b1 hb
      cases ea; cases eb; cases hr
      exact ⟨_, rfl, ⟨ha.1, hb.1⟩, by simp only [Pos.tr, ha.2, hb.2]⟩
    refine (h.bind fun q Q hqQ => (columnU_rel hqQ.1 hqQ.2).sound).mono fun _ _ h => ?_
    rw [← hu]; exact h
  · cases dc <;> first | (cases hk; done) | skip
    rename_i x' y' z'
    have hc : ∃ a b c, e = Vel.cart3 a b c := by
      simp only [Pos.kind, Kind.basis, List.mem_cons, List.not_mem_nil, or_false] at he
      rcases he with h | h | h <;> exact ⟨_, _, _, h⟩
    obtain ⟨a, b, c, rfl⟩ := hc
    show Mirrors _ (do
      (← addCartD (.cart3 ((⟨x, u⟩ : UQ ℝ).seed a) ((⟨y, u⟩ : UQ ℝ).seed b) ((⟨z, u⟩ : UQ ℝ).seed c))
        (.cart3 (x'.seed 0) (y'.seed 0) (z'.seed 0))).columnU u) _
    obtain ⟨a1, ea, ha⟩ := addD_rel (x := x) (y := x') a hu hd.1
    obtain ⟨b1, eb, hb⟩ := addD_rel (x := y) (y := y') b hu hd.2.1
    obtain ⟨c1, ec, hc⟩ := addD_rel (x := z) (y := z') c hu hd.2.2
    have h : Mirrors (fun q Q => q.WD ∧ q.tr UQ.phys = Q.tr (Dual.scale u.scale))
        (addCartD (.cart3 ((⟨x, u⟩ : UQ ℝ).seed a) ((⟨y, u⟩ : UQ ℝ).seed b) ((⟨z, u⟩ : UQ ℝ).seed c))
          (.cart3 (x'.seed 0) (y'.seed 0) (z'.seed 0)))
        (.ok (Pos.cart3 (⟨(⟨x, u⟩ : UQ ℝ).phys, a⟩ + Dual.const x'.phys)
          (⟨(⟨y, u⟩ : UQ ℝ).phys, b⟩ + Dual.const y'.phys) (⟨(⟨z, u⟩ : UQ ℝ).phys, c⟩ + Dual.const z'.phys))) := by
      intro r hr
      simp only [addCartD, ea, eb, ec, ok_bind, mkCart3U, ofDim_rel ha, ofDim_rel hb, ofDim_rel hc] at hr
      cases hr
      exact ⟨_, rfl, ⟨ha.1, hb.1, hc.1⟩, by simp only [Pos.tr, ha.2, hb.2, hc.2]⟩
    refine (h.bind fun q Q hqQ => (columnU_rel hqQ.1 hqQ.2).sound).mono fun _ _ h => ?_
    rw [← hu]; exact h


theorem contractU_length {cs : List (Vel (UQ ℝ))} : ∀ {as : List (UQ ℝ)} {r}, contractU cs as = .ok r → cs.length = as.length := by
  induction cs with
  | nil => intro as r h; cases as <;> cases h
  | cons c cs ih =>
    intro as r h
    cases as with
    | nil => cases cs <;> cases h
    | cons a as =>
      cases cs with
      | nil =>
        cases as with
        | nil => rfl
        | cons b as =>
          obtain ⟨x, hx, _⟩ := (bind_ok_iff _ _ _).mp h
          cases hx
      | cons c' cs =>
        obtain ⟨x, hx, _⟩ := (bind_ok_iff _ _ _).mp h
        have := ih hx
        simp only [List.length_cons] at this ⊢
        omega

theorem ColsRel.length {ds cs cs'} (h : ColsRel ds cs cs') : cs.length = ds.length := by
  induction h with
  | nil => rfl
  | cons _ _ ih => rw [List.length_cons, List.length_cons, ih]

theorem cartComps_dims {v : Vel (UQ ℝ)} {f : RDim → RDim} (h : v.Has f) (hk : v.kind.cartesian = v.kind) :
    v.comps ≠ [] ∧ ∀ q ∈ v.comps, q.unit.dim = f dL := by
  have key : ∀ q ∈ v.comps, q.unit.dim ∈ v.kind.fieldDims.map f := by
    intro q hq
    rw [← show v.comps.map (fun q => q.unit.dim) = _ from h]
    exact List.mem_map_of_mem hq
  cases v <;> first
    | (cases hk; done)
    | (refine ⟨fun h => (by cases h), fun q hq => ?_⟩
       have := key q hq
       simp only [Vel.kind, VKind.fieldDims, List.map, List.mem_cons, List.not_mem_nil, or_false, or_self] at this
       exact this)

theorem spatialVel_sound {d q newq : Pos (UQ ℝ)} {d' q' newq' : Pos ℝ} {p : Vel (UQ ℝ)} (hd : d.Rel d') (hq : q.Rel q')
    (hn : newq.Rel newq') (hp : p.Has (perTime 1)) :
    Mirrors (Vel.RelF (perTime 1)) (spatialVelU d q newq p) (spatialVel d' q' newq' (p.map UQ.phys)) := by
  unfold spatialVelU spatialVel
  refine .bind (toCart_rel hq).sound fun c c' hc => ?_
  obtain ⟨l, w, qr, e1, e2, e3, hr, hun, hdim, hkr⟩ := flat_rel hc.1 (by rw [hc.2]; cases q.kind <;> rfl)
  rw [e1, ok_bind, e2, ok_bind, e3, ok_bind, Vel.kind_map]
  obtain ⟨hrw, rfl⟩ := hr
  have hnp : ProlateUnits {} qr := by
    rcases hun with ⟨x, rfl⟩ | ⟨x, y, rfl⟩ | ⟨x, y, z, rfl⟩ <;> trivial
  have h1 := representVel_rel kw_nil hrw hp p.kind.cartesian fun _ _ => ⟨hnp, hnp⟩
  refine .bind (h1.with (P := fun r => r.kind = p.kind.cartesian) fun b hb => representVel_kind hb).sound fun pc pc' hpc => ?_
  obtain ⟨⟨rfl, hpc⟩, hpk⟩ := hpc
  rw [Vel.kind_map] at hpk
  obtain ⟨hne, hdims⟩ := cartComps_dims hpc (by rw [hpk]; cases p.kind <;> rfl)
  obtain ⟨pw, epw, hpu, hpv⟩ := stack_dims hne hdims
  rw [epw, ok_bind, tr_kind]
  refine .bind (repr_relk hd qr.kind fun _ => by
    rcases hun with ⟨x, rfl⟩ | ⟨x, y, rfl⟩ | ⟨x, y, z, rfl⟩ <;> nofun).sound fun dc dc' hdc => ?_
  obtain ⟨⟨hdw, rfl⟩, hdk⟩ := hdc
  refine .bind (spatialCols_sound hdim hun hdw hdk) fun cols cols' hcols => ?_
  intro r hr
  obtain ⟨n1, hn1, hr⟩ := (bind_ok_iff _ _ _).mp hr
  have hlen := contractU_length hn1
  rw [hcols.length, List.length_map, List.length_map] at hlen
  have has : (pw.values.map fun v => (⟨v, pw.unit⟩ : UQ ℝ)).map (fun q => q.unit.dim) =
      (qr.kind.basis.map fun _ => dL).map (perTime 1) := by
    rw [List.map_map, List.map_map]
    refine List.ext_getElem (by rw [List.length_map, List.length_map, hlen]) fun i h1 h2 => ?_
    rw [List.getElem_map, List.getElem_map]
    exact hpu
  have hph : (pw.values.map fun v => (⟨v, pw.unit⟩ : UQ ℝ)).map UQ.phys = (pc.map UQ.phys).comps := by
    rw [List.map_map, Vel.comps_map, ← hpv]; rfl
  have h2 := contract_rel 1 hcols _ has
  rw [hph] at h2
  obtain ⟨n1', en1, hn1'⟩ := h2.sound n1 hn1
  rw [en1, ok_bind]
  obtain ⟨n2, hn2, hr⟩ := (bind_ok_iff _ _ _).mp hr
  obtain ⟨n2', en2, hn2'⟩ := (mkVel_rel hn1').sound n2 hn2
  obtain rfl := Except.ok.inj en2
  obtain ⟨rfl, hn2'⟩ := hn2'
  obtain ⟨hnw, rfl⟩ := hn
  have hnp2 : n2.kind = .prolate → p.kind ≠ .prolate → False := fun h1 h2 =>
    C61_prolate_velocity_raises {} n2 r p.kind newq ⟨nofun, nofun, nofun, nofun, nofun⟩ ((posTyped_iff _).mpr hnw) h1 h2 hr
  exact (representVel_rel kw_nil hnw hn2' p.kind fun h1 h2 => (hnp2 h1 h2).elim).sound r hr


/-! ### three dimensions: same outcome -/

theorem spatialCols3_rel {u : RUnit} {x y z : ℝ} {x' y' z' : UQ ℝ} (hu : u.dim = dL) (hd : (Pos.cart3 x' y' z').WD) :
    RelRes (ColsRel [dL, dL, dL]) (spatialJacobianU u (.cart3 ⟨x, u⟩ ⟨y, u⟩ ⟨z, u⟩) (.cart3 x' y' z'))
      (spatialJacobian ((Pos.cart3 (⟨x, u⟩ : UQ ℝ) ⟨y, u⟩ ⟨z, u⟩).tr UQ.phys) ((Pos.cart3 x' y' z').tr UQ.phys)) := by
  have key : ∀ a b c, RelRes (Vel.RelF fun x => x.div dL)
      (do (← addCartD (.cart3 ((⟨x, u⟩ : UQ ℝ).seed a) ((⟨y, u⟩ : UQ ℝ).seed b) ((⟨z, u⟩ : UQ ℝ).seed c))
        (.cart3 (x'.seed 0) (y'.seed 0) (z'.seed 0))).columnU u)
      (Pos.tangent (Pos.cart3 (⟨(⟨x, u⟩ : UQ ℝ).phys, a⟩ + Dual.const x'.phys)
          (⟨(⟨y, u⟩ : UQ ℝ).phys, b⟩ + Dual.const y'.phys) (⟨(⟨z, u⟩ : UQ ℝ).phys, c⟩ + Dual.const z'.phys))) := by
    intro a b c
    obtain ⟨a1, ea, ha⟩ := addD_rel (x := x) (y := x') a hu hd.1
    obtain ⟨b1, eb, hb⟩ := addD_rel (x := y) (y := y') b hu hd.2.1
    obtain ⟨c1, ec, hc⟩ := addD_rel (x := z) (y := z') c hu hd.2.2
    have e : addCartD (.cart3 ((⟨x, u⟩ : UQ ℝ).seed a) ((⟨y, u⟩ : UQ ℝ).seed b) ((⟨z, u⟩ : UQ ℝ).seed c))
        (.cart3 (x'.seed 0) (y'.seed 0) (z'.seed 0)) = .ok (.cart3 a1 b1 c1) := by
      simp only [addCartD, ea, eb, ec, ok_bind, mkCart3U, ofDim_rel ha, ofDim_rel hb, ofDim_rel hc]
      rfl
    rw [e, ok_bind, ← hu]
    exact columnU_rel ⟨ha.1, hb.1, hc.1⟩ (by simp only [Pos.tr, ha.2, hb.2, hc.2])
  unfold spatialJacobianU spatialJacobian
  show RelRes (ColsRel [dL, dL, dL]) (List.mapM _ [Vel.cart3 1 0 0, .cart3 0 1 0, .cart3 0 0 1])
    (List.mapM _ [Vel.cart3 1 0 0, .cart3 0 1 0, .cart3 0 0 1])
  simp only [List.mapM_cons, List.mapM_nil]
  exact .bind (key 1 0 0) fun a a' ha => .bind (.bind (key 0 1 0) fun b b' hb => .bind (.bind (key 0 0 1) fun c c' hc =>
    .ok (.cons hc .nil)) fun l l' hl => .ok (.cons hb hl)) fun l l' hl => .ok (.cons ha hl)

theorem contractU_mismatch {cs : List (Vel (UQ ℝ))} : ∀ {as : List (UQ ℝ)}, cs.length ≠ as.length →
    contractU cs as = .error .badField := by
  induction cs with
  | nil => intro as h; cases as <;> rfl
  | cons c cs ih =>
    intro as h
    cases as with
    | nil => cases cs <;> rfl
    | cons a as =>
      have := ih (as := as) fun e => h (by rw [List.length_cons, List.length_cons, e])
      cases cs with
      | nil =>
        cases as with
        | nil => exact absurd rfl h
        | cons b as => show (do Vel.map2M UQ.add _ (← contractU [] (b :: as))) = _; rw [this]; rfl
      | cons c' cs => show (do Vel.map2M UQ.add _ (← contractU (c' :: cs) as)) = _; rw [this]; rfl

theorem contract_mismatch {cs : List (Vel ℝ)} : ∀ {as : List ℝ}, cs.length ≠ as.length →
    contract cs as = .error .badField := by
  induction cs with
  | nil => intro as h; cases as <;> rfl
  | cons c cs ih =>
    intro as h
    cases as with
    | nil => cases cs <;> rfl
    | cons a as =>
      have := ih (as := as) fun e => h (by rw [List.length_cons, List.length_cons, e])
      cases cs with
      | nil =>
        cases as with
        | nil => exact absurd rfl h
        | cons b as => show (do Vel.map2 _ _ (← contract [] (b :: as))) = _; rw [this]; rfl
      | cons c' cs => show (do Vel.map2 _ _ (← contract (c' :: cs) as)) = _; rw [this]; rfl

theorem ColsRel.length' {ds cs cs'} (h : ColsRel ds cs cs') : cs'.length = ds.length := by
  induction h with
  | nil => rfl
  | cons _ _ ih => rw [List.length_cons, List.length_cons, ih]

theorem spatialVel3_rel {d q newq : Pos (UQ ℝ)} {d' q' newq' : Pos ℝ} {p : Vel (UQ ℝ)} (hd : d.Rel d') (hq : q.Rel q')
    (hn : newq.Rel newq') (hp : p.Has (perTime 1)) (h3 : q.kind.dim = 3) :
    RelRes (Vel.RelF (perTime 1)) (spatialVelU d q newq p) (spatialVel d' q' newq' (p.map UQ.phys)) := by
  unfold spatialVelU spatialVel
  refine .bind (toCart_rel hq) fun c c' hc => ?_
  obtain ⟨l, w, qr, e1, e2, e3, hr, hun, hdim, hkr⟩ := flat_rel hc.1 (by rw [hc.2]; cases q.kind <;> rfl)
  rw [e1, ok_bind, e2, ok_bind, e3, ok_bind, Vel.kind_map]
  obtain ⟨hrw, rfl⟩ := hr
  have hq3 : q.kind.cartesian = .cart3 := by
    revert h3; cases q.kind <;> intro h3 <;> first | rfl | cases h3
  have hk3 : qr.kind = .cart3 := by rw [hkr, hc.2, hq3]
  obtain ⟨x, y, z, rfl⟩ : ∃ x y z, qr = .cart3 ⟨x, w.unit⟩ ⟨y, w.unit⟩ ⟨z, w.unit⟩ := by
    rcases hun with ⟨x, rfl⟩ | ⟨x, y, rfl⟩ | h
    · cases hk3
    · cases hk3
    · exact h
  have h1 := representVel_rel kw_nil hrw hp p.kind.cartesian fun _ _ => ⟨trivial, trivial⟩
  refine .bind (h1.with (P := fun r => r.kind = p.kind.cartesian) fun b hb => representVel_kind hb) fun pc pc' hpc => ?_
  obtain ⟨⟨rfl, hpc⟩, hpk⟩ := hpc
  rw [Vel.kind_map] at hpk
  obtain ⟨hne, hdims⟩ := cartComps_dims hpc (by rw [hpk]; cases p.kind <;> rfl)
  obtain ⟨pw, epw, hpu, hpv⟩ := stack_dims hne hdims
  rw [epw, ok_bind, tr_kind]
  refine .bind (repr_relk hd .cart3 fun _ => nofun) fun dc dc' hdc => ?_
  obtain ⟨⟨hdw, rfl⟩, hdk⟩ := hdc
  cases dc <;> first | (cases hdk; done) | skip
  rename_i x' y' z'
  have hph : (pw.values.map fun v => (⟨v, pw.unit⟩ : UQ ℝ)).map UQ.phys = (pc.map UQ.phys).comps := by
    rw [List.map_map, Vel.comps_map, ← hpv]; rfl
  have hlen : pw.values.length = (pc.map UQ.phys).comps.length := by
    rw [← hph, List.length_map, List.length_map]
  refine .bind ((spatialCols3_rel (x := x) (y := y) (z := z) hdim hdw).with
    (P := fun cols => pc.kind = .cart3 → contract cols (pc.map UQ.phys).comps = .ok (pc.map UQ.phys)) ?_)
    fun cols cols' hcols => ?_
  · intro cols hcols hk
    obtain ⟨cols', y1, y2⟩ := spatialJacobian_contract
      (qc := (Pos.cart3 (⟨x, w.unit⟩ : UQ ℝ) ⟨y, w.unit⟩ ⟨z, w.unit⟩).tr UQ.phys)
      (dc := (Pos.cart3 x' y' z').tr UQ.phys) (pc := pc.map UQ.phys) rfl rfl (by rw [Vel.kind_map, hk]; rfl)
    rw [hcols] at y1
    cases y1
    exact y2
  obtain ⟨hcols, hid⟩ := hcols
  by_cases hk : pc.kind = .cart3
  · have hl3 : pw.values.length = 3 := by
      rw [hlen, Vel.comps_map, List.length_map]
      cases pc <;> first | (cases hk; done) | rfl
    have has : (pw.values.map fun v => (⟨v, pw.unit⟩ : UQ ℝ)).map (fun q => q.unit.dim) =
        [dL, dL, dL].map (perTime 1) := by
      rw [show [dL, dL, dL].map (perTime 1) = List.replicate 3 (perTime 1 dL) from rfl, List.eq_replicate_iff, List.map_map]
      refine ⟨by rw [List.length_map, hl3], fun b hb => ?_⟩
      obtain ⟨v, _, rfl⟩ := List.mem_map.mp hb
      exact hpu
    have h2 := contract_rel 1 hcols _ has
    rw [hph, hid hk] at h2
    rw [hid hk, ok_bind]
    generalize contractU cols _ = X at h2 ⊢
    cases h2 with
    | ok h2 =>
      rename_i n1
      rw [ok_bind]
      have h4 := mkVel_rel h2
      generalize mkVelU 1 n1 = Y at h4 ⊢
      cases h4 with
      | ok h4 =>
        rename_i n2
        rw [ok_bind, ← h4.1]
        obtain ⟨hnw, rfl⟩ := hn
        refine representVel_rel kw_nil hnw h4.2 p.kind fun h => ?_
        have := congrArg Vel.kind h4.1
        rw [Vel.kind_map, Vel.kind_map, hk, h] at this
        cases this
  · have hl : pw.values.length ≠ 3 := by
      rw [hlen, Vel.comps_map, List.length_map]
      intro e
      apply hk
      rw [hpk]
      rw [show pc.comps.length = pc.kind.dim from by cases pc <;> rfl, hpk] at e
      revert e
      cases p.kind <;> intro e <;> first | rfl | cases e
    rw [contractU_mismatch (by rw [hcols.length, List.length_map]; exact hl.symm),
      contract_mismatch (by rw [hcols.length', ← hlen]; exact hl.symm)]
    exact .err _

end Verif
