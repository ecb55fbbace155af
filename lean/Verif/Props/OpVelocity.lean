import Verif.Props.Operators
import Verif.Props.Velocity

/-!
# Operators on velocities: C32

Specification: `Verif/SpecOp.lean`, `Verif/SpecVel.lean`.
-/

namespace Verif

open Spec Props

/-- Cartesian velocity class -/
def Spec.CartesianVel (v : Vel ℝ) : Prop := v.kind = .cart1 ∨ v.kind = .cart2 ∨ v.kind = .cart3

/-- **C32.** `VelocityBoost` adds its velocity to every velocity (given alone or with a position), and
leaves positions, times and events alone; its inverse gives the velocity back. For Cartesian
velocities of the class of the boost; `C32_vboost_other_raises` shows that all other velocities are
rejected. -/
theorem C32_velocity_boost (v p : Vel ℝ) (hv : CartesianVel v) (hk : p.kind = v.kind)
    (q : Pos ℝ) (t : ℝ) (x : Four) :
    ∃ p', (Op.vboost v).call (.vel p) = .ok (.vel p') ∧
      (Op.vboost v).call (.posVel q p) = .ok (.posVel q p') ∧
      p'.kind = p.kind ∧ velV p' = (velV p).add (velV v) ∧
      (Op.vboost v).call (.pos q) = .ok (.pos q) ∧
      (Op.vboost v).call (.posTime q t) = .ok (.posTime q t) ∧
      (Op.vboost v).call (.four x) = .ok (.four x) ∧
      ∃ inv, (Op.vboost v).inverse = .ok inv ∧ inv.call (.vel p') = .ok (.vel p) ∧
        inv.call (.posVel q p') = .ok (.posVel q p) := by
  have hadd : ∃ p', addVel p v = .ok p' ∧ p'.kind = p.kind ∧ velV p' = (velV p).add (velV v) ∧
      addVel p' (negVel v) = .ok p := by
    rcases hv with h | h | h <;> rw [h] at hk <;> cases v <;> first | (cases h; done) | skip
    all_goals
      cases p <;> first | (cases hk; done) | skip
      refine ⟨_, rfl, rfl, by simp [velV, V3.add], by simp [addVel, negVel, Vel.map]⟩
  obtain ⟨p', h1, h2, h3, h4⟩ := hadd
  refine ⟨p', ?_, ?_, h2, h3, ?_, ?_, ?_, .vboost (negVel v), ?_, ?_, ?_⟩
  · simp only [Op.call, callVBoost, h1]; rfl
  · simp only [Op.call, callVBoost, h1]; rfl
  · simp only [Op.call, callVBoost]
  · simp only [Op.call, callVBoost]
  · simp only [Op.call, callVBoost]
  · simp only [Op.inverse]
  · simp only [Op.call, callVBoost, h4]; rfl
  · simp only [Op.call, callVBoost, h4]; rfl

example : ∃ p', (Op.vboost (.cart3 1 2 3)).call (.vel (.cart3 4 5 6)) = .ok (.vel p') ∧
    velV p' = ⟨5, 7, 9⟩ :=
  have ⟨p', h, _, _, e, _⟩ := C32_velocity_boost (.cart3 1 2 3) (.cart3 4 5 6)
    (Or.inr (Or.inr rfl)) rfl (.cart3 0 0 0) 0 ⟨0, .cart3 0 0 0, 1⟩
  ⟨p', h, by rw [e]; norm_num [velV, V3.add]⟩

/-- **C32, exception.** Curvilinear velocities: a velocity boost of a velocity that is not Cartesian of
the same class raises, even if it stands with a position. -/
theorem C32_vboost_other_raises (v p : Vel ℝ) (q : Pos ℝ)
    (h : p.kind ≠ v.kind ∨ ¬ CartesianVel p) :
    (Op.vboost v).call (.vel p) = .error .noDispatch ∧
    (Op.vboost v).call (.posVel q p) = .error .noDispatch := by
  have hadd : addVel p v = .error .noDispatch := by
    cases p <;> cases v <;> first
      | rfl
      | (exfalso; rcases h with h | h
         · exact h rfl
         · exact h (Or.inl rfl))
      | (exfalso; rcases h with h | h
         · exact h rfl
         · exact h (Or.inr (Or.inl rfl)))
      | (exfalso; rcases h with h | h
         · exact h rfl
         · exact h (Or.inr (Or.inr rfl)))
  constructor
  · simp only [Op.call, callVBoost, hadd]; rfl
  · simp only [Op.call, callVBoost, hadd]; rfl

example : (Op.vboost (.cart3 1 2 3)).call (.posVel (.cyl 1 0 0) (.cyl 1 1 1)) = .error .noDispatch :=
  (C32_vboost_other_raises _ _ _ (Or.inl (by decide))).2

/-! ### Spatial translations -/

/-- the Jacobian of a Cartesian translation is the identity -/
theorem spatialJacobian_contract {qc dc : Pos ℝ} {pc : Vel ℝ} (hq : qc.kind.isCart = true)
    (hd : dc.kind = qc.kind) (hp : pc.kind.integral = qc.kind) :
    ∃ cols, spatialJacobian qc dc = .ok cols ∧ contract cols pc.comps = .ok pc := by
  cases qc <;> first | (cases hq; done) | skip
  all_goals
    cases dc <;> first | (cases hd; done) | skip
    cases pc <;> first | (cases hp; done) | skip
  · exact ⟨[.cart1 (1 + 0)], rfl, by simp [contract, Vel.comps, Vel.map]⟩
  · exact ⟨[.cart2 (1 + 0) (0 + 0), .cart2 (0 + 0) (1 + 0)], rfl, by
      simp [contract, Vel.comps, Vel.map, Vel.map2, ok_bind]⟩
  · exact ⟨[.cart3 (1 + 0) (0 + 0) (0 + 0), .cart3 (0 + 0) (1 + 0) (0 + 0),
      .cart3 (0 + 0) (0 + 0) (1 + 0)], rfl, by
      simp [contract, Vel.comps, Vel.map, Vel.map2, ok_bind]⟩

theorem vcart_integral (k : VKind) : k.cartesian.integral = k.integral.cartesian := by
  cases k <;> rfl

theorem vcart_dim (k : VKind) : k.cartesian.dim = k.dim := by cases k <;> rfl

/-- the Cartesian velocity of a velocity of a Cartesian class -/
theorem cartVel_cart {c : Pos ℝ} {w : Vel ℝ} {k : VKind} (hk : w.kind = k.cartesian)
    (hc : c.kind = k.cartesian.integral) : cartVel c w = velV w := by
  cases w <;> first | (cases k <;> cases hk; done) | skip
  all_goals
    rw [← hk] at hc
    cases c <;> first | (cases hc; done) | rfl

/-- **C32.** A spatial translation applied to (position, velocity), whenever it returns for the
position: it moves the position as it does alone, and returns a velocity of the same class that is
the same Cartesian velocity (at the new place). All position classes, all velocity classes except
`TwoSphereVel` and the prolate spheroidal one (`C32_prolate_raises`), wherever the class of the
velocity is regular at the old and the new place. -/
theorem C32_translation_keeps_velocity (d q q' : Pos ℝ) (p : Vel ℝ) (hd : Valid d)
    (hq : Valid q) (hdd : d.kind.dim = q.kind.dim) (hpd : p.kind.dim = q.kind.dim)
    (hds : d.kind ≠ .twoSphere) (hqs : q.kind ≠ .twoSphere) (hps : p.kind ≠ .twoSphere)
    (hpp : p.kind ≠ .prolate) (hr : Regular p.kind.integral (point q))
    (hr' : Regular p.kind.integral ((point q).add (point d)))
    (h : (Op.spatial d).call (.pos q) = .ok (.pos q')) :
    point q' = (point q).add (point d) ∧ q'.kind = q.kind ∧
    ∃ p', (Op.spatial d).call (.posVel q p) = .ok (.posVel q' p') ∧ p'.kind = p.kind ∧
      ∀ s s', At {} p.kind (point q) s → At {} p.kind (point q') s' → cartVel s' p' = cartVel s p := by
  have hadd : addPos q d = .ok q' := by
    simp only [Op.call, callSpatial] at h
    obtain ⟨r, h1, h2⟩ := (bind_ok_iff _ _ _).mp h
    rw [h1]
    exact congrArg _ (Arg.pos.inj (Except.ok.inj h2))
  obtain ⟨k', v', _, e'⟩ := addPos_good hq hd hdd.symm hadd
  refine ⟨e', k', ?_⟩
  obtain ⟨qc, hc, gc⟩ := toCart_total q hq hqs
  obtain ⟨dc, hdc, gd⟩ := toCart_total d hd hds
  have hkc : qc.kind = p.kind.cartesian.integral := by
    rw [gc.kind, vcart_integral]
    exact cartesian_of_dim hpd.symm
  have hcart : qc.kind.isCart = true := by rw [gc.kind]; exact isCart_cartesian _
  have c1 : VelCase {} p p.kind.cartesian qc :=
    { valid := gc.valid
      dimp := by rw [gc.kind, dim_cartesian, hpd]
      dim := (vcart_dim _).symm
      pos_ts := by rw [gc.kind]; cases q.kind <;> decide
      src_ts := hps
      tgt_ts := by cases p.kind <;> decide
      reg := by rw [gc.point]; exact hr
      reg' := by cases p.kind <;> trivial
      delta := fun e => by (revert e; cases p.kind <;> intro e <;> cases e)
      src_pro := fun e => absurd e hpp
      src_loncoslat := fun e => by (revert e; cases p.kind <;> intro e <;> cases e) }
  obtain ⟨pc, b1, b2, b3⟩ := vel_ok c1
  obtain ⟨cols, j1, j2⟩ := spatialJacobian_contract (qc := qc) (dc := dc) (pc := pc) hcart
    (by rw [gd.kind, gc.kind]; exact cartesian_of_dim hdd) (by rw [b2, hkc])
  have c2 : VelCase {} pc p.kind q' :=
    { valid := v'
      dimp := by rw [k', b2, vcart_dim, hpd]
      dim := by rw [b2, vcart_dim]
      pos_ts := by rw [k']; exact hqs
      src_ts := by rw [b2]; cases p.kind <;> decide
      tgt_ts := hps
      reg := by rw [b2]; cases p.kind <;> trivial
      reg' := by rw [e']; exact hr'
      delta := fun e => absurd e hpp
      src_pro := fun e => by (rw [b2] at e; revert e; cases p.kind <;> intro e <;> cases e)
      src_loncoslat := fun e => absurd e hpp }
  obtain ⟨p', a1, a2, a3⟩ := vel_ok c2
  refine ⟨p', ?_, a2, fun s s' hs hs' => ?_⟩
  · have hdk : qc.kind = d.kind.cartesian := by rw [gc.kind]; exact (cartesian_of_dim hdd).symm
    have : spatialVel d q q' p = .ok p' := by
      unfold spatialVel toCartesian
      rw [hc, ok_bind, b1, ok_bind, hdk, hdc, ok_bind, j1, ok_bind, j2, ok_bind, a1]
    simp only [Op.call, callSpatial, hadd, ok_bind, this]
    rfl
  · obtain ⟨r1, hr1⟩ := exists_at c1
    have c3 : VelCase {} pc p.kind.cartesian q' :=
      { valid := v'
        dimp := by rw [k', b2, vcart_dim, hpd]
        dim := by rw [b2]
        pos_ts := by rw [k']; exact hqs
        src_ts := by rw [b2]; cases p.kind <;> decide
        tgt_ts := by cases p.kind <;> decide
        reg := by rw [b2]; cases p.kind <;> trivial
        reg' := by cases p.kind <;> trivial
        delta := fun e => by (revert e; cases p.kind <;> intro e <;> cases e)
        src_pro := fun e => by (rw [b2] at e; revert e; cases p.kind <;> intro e <;> cases e)
        src_loncoslat := fun e => by (revert e; cases p.kind <;> intro e <;> cases e) }
    obtain ⟨r2, hr2⟩ := exists_at c3
    have x1 := b3 s r1 (by rw [gc.point]; exact hs) hr1
    have x2 := a3 r2 s' (by rw [b2]; exact hr2) hs'
    rw [x2, ← x1, cartVel_cart b2 hr1.1, cartVel_cart b2 hr2.1]

/-- a concrete instance: a cylindrical velocity at a Cartesian position, translated by a Cartesian
vector -/
example (a b c : ℝ) : ∃ q' , (Op.spatial (.cart3 1 2 3)).call (.pos (.cart3 4 5 6)) = .ok (.pos q') ∧
    ∃ p', (Op.spatial (.cart3 1 2 3)).call (.posVel (.cart3 4 5 6) (.cyl a b c)) = .ok (.posVel q' p') ∧
      p'.kind = .cyl := by
  have v3 : ∀ x y z : ℝ, Valid3 (.cart3 x y z) := fun x y z => ⟨trivial, rfl⟩
  obtain ⟨q', h⟩ := addPos_total3 (v3 4 5 6) (v3 1 2 3) (fun h => by cases h) (Or.inl rfl)
  have hc : (Op.spatial (.cart3 1 2 3)).call (.pos (.cart3 4 5 6)) = .ok (.pos q') := by
    simp only [Op.call, callSpatial, h]; rfl
  obtain ⟨_, _, p', h1, h2, _⟩ := C32_translation_keeps_velocity (.cart3 1 2 3) (.cart3 4 5 6) q'
    (.cyl a b c) trivial trivial rfl rfl (fun h => by cases h) (fun h => by cases h)
    (fun h => by cases h) (fun h => by cases h) (by norm_num [Regular, OffAxis, point, Vel.kind, VKind.integral])
    (by norm_num [Regular, OffAxis, point, Vel.kind, VKind.integral, V3.add]) hc
  exact ⟨q', hc, p', h1, h2⟩

/-- **C32.** The inverse translation gives the velocity back exactly. -/
theorem C32_translation_inverse (d q q' q'' : Pos ℝ) (p p' : Vel ℝ) (inv : Op)
    (hd : Valid d) (hq : Valid q) (hdd : d.kind.dim = q.kind.dim) (hpd : p.kind.dim = q.kind.dim)
    (hds : d.kind ≠ .twoSphere) (hqs : q.kind ≠ .twoSphere) (hps : p.kind ≠ .twoSphere)
    (hpp : p.kind ≠ .prolate) (hr : Regular p.kind.integral (point q))
    (hr' : Regular p.kind.integral ((point q).add (point d)))
    (h : (Op.spatial d).call (.posVel q p) = .ok (.posVel q' p'))
    (hi : (Op.spatial d).inverse = .ok inv) (h' : inv.call (.pos q') = .ok (.pos q'')) :
    inv.call (.posVel q' p') = .ok (.posVel q'' p) ∧ point q'' = point q ∧ q''.kind = q.kind := by
  simp only [Op.inverse] at hi
  obtain ⟨d', g1, g2⟩ := (bind_ok_iff _ _ _).mp hi
  obtain rfl := Except.ok.inj g2
  obtain ⟨dk, dv, _, dp⟩ := C16_negation _ _ hd g1
  have hpos : (Op.spatial d).call (.pos q) = .ok (.pos q') := by
    simp only [Op.call, callSpatial] at h ⊢
    obtain ⟨r, h1, h2⟩ := (bind_ok_iff _ _ _).mp h
    obtain ⟨w, h3, h4⟩ := (bind_ok_iff _ _ _).mp h2
    obtain ⟨rfl, rfl⟩ := Arg.posVel.inj (Except.ok.inj h4)
    rw [h1]; rfl
  obtain ⟨e1, k1, w, h1, wk, f1⟩ := C32_translation_keeps_velocity d q q' p hd hq hdd hpd hds hqs
    hps hpp hr hr' hpos
  rw [h] at h1
  obtain ⟨_, rfl⟩ := Arg.posVel.inj (Except.ok.inj h1)
  have hadd : addPos q d = .ok q' := by
    simp only [Op.call, callSpatial] at hpos
    obtain ⟨r, h1, h2⟩ := (bind_ok_iff _ _ _).mp hpos
    rw [h1]
    exact congrArg _ (Arg.pos.inj (Except.ok.inj h2))
  obtain ⟨_, v', _, _⟩ := addPos_good hq hd hdd.symm hadd
  have back : (point q').add (point d') = point q := by rw [e1, dp]; exact (add_neg_cancel _ _).1
  obtain ⟨e2, k2, p'', h2, pk, f2⟩ := C32_translation_keeps_velocity d' q' q'' p' dv v'
    (by rw [dk, k1, hdd]) (by rw [wk, k1, hpd]) (by rw [dk]; exact hds) (by rw [k1]; exact hqs)
    (by rw [wk]; exact hps) (by rw [wk]; exact hpp) (by rw [wk, e1]; exact hr')
    (by rw [wk, back]; exact hr) h'
  rw [back] at e2
  refine ⟨?_, e2, by rw [k2, k1]⟩
  have cs : ∀ x : Pos ℝ, Valid x → x.kind.dim = p.kind.dim → x.kind ≠ .twoSphere →
      Regular p.kind.integral (point x) → VelCase {} p p.kind x := fun x hx hk hs hr =>
    { valid := hx, dimp := hk, dim := rfl, pos_ts := hs, src_ts := hps, tgt_ts := hps, reg := hr,
      reg' := hr, delta := fun e => absurd e hpp, src_pro := fun e => e,
      src_loncoslat := fun e => absurd e hpp }
  obtain ⟨s, hs⟩ := exists_at (cs q hq hpd.symm hqs hr)
  obtain ⟨s', hs'⟩ := exists_at (cs q' v' (by rw [k1, hpd]) (by rw [k1]; exact hqs) (by rw [e1]; exact hr'))
  have x1 := f1 s s' hs hs'
  have x2 := f2 s' s (by rw [wk]; exact hs') (by rw [wk, e2]; exact hs)
  have : p'' = p := by
    refine cartVel_inj hs.2.1 (by rw [pk, wk]) ?_ (by rw [hs.1, hs.2.2.1]; exact hr) ?_ (x2.trans x1)
    · rw [hs.1, pk, wk]
    · rw [hs.1]; revert hps; cases p.kind <;> intro h <;> first | exact absurd rfl h | decide
  rw [← this]; exact h2

/-- **C32, exception.** A translation raises on every `TwoSphereVel`, wherever it stands. -/
theorem C32_twoSphere_raises (d q : Pos ℝ) (a b : ℝ) (r : Arg) :
    (Op.spatial d).call (.posVel q (.twoSphere a b)) ≠ .ok r := by
  intro h
  simp only [Op.call, callSpatial] at h
  obtain ⟨q', _, h⟩ := (bind_ok_iff _ _ _).mp h
  obtain ⟨w, h, _⟩ := (bind_ok_iff _ _ _).mp h
  unfold spatialVel at h
  obtain ⟨qc, _, h⟩ := (bind_ok_iff _ _ _).mp h
  obtain ⟨pc, h, _⟩ := (bind_ok_iff _ _ _).mp h
  exact C19_twoSphere_raises {} (.twoSphere a b) pc .cart2 qc (Or.inl rfl) h

/-- **C32, exception.** Prolate spheroidal velocities: the translation raises on them, wherever they
stand. -/
theorem C32_prolate_raises (d q : Pos ℝ) (a b c : ℝ) (r : Arg) :
    (Op.spatial d).call (.posVel q (.prolate a b c)) ≠ .ok r := by
  intro h
  simp only [Op.call, callSpatial] at h
  obtain ⟨q', _, h⟩ := (bind_ok_iff _ _ _).mp h
  obtain ⟨w, h, _⟩ := (bind_ok_iff _ _ _).mp h
  unfold spatialVel at h
  obtain ⟨qc, _, h⟩ := (bind_ok_iff _ _ _).mp h
  obtain ⟨pc, h, _⟩ := (bind_ok_iff _ _ _).mp h
  exact C19_prolate_source_raises {} (.prolate a b c) pc .cart3 qc rfl (by decide) h

end Verif
