import Verif.AccLemmas
import Verif.Props.Velocity
import Mathlib.Analysis.SpecialFunctions.Trigonometric.Deriv

/-!
# Accelerations and time integrals: C24, C25

Specification: `Verif/SpecVel.lean` (`AccAt`, `AccCase`). Model: `Verif/Acc.lean`.
-/

namespace Verif

open Real Spec

theorem acc_pos_total {kw : Kw ℝ} {a v : Vel ℝ} {K : VKind} {p : Pos ℝ} (h : AccCase a K v p)
    (hne : ¬(a.kind = K ∧ K.dim = 1)) : ∃ q, representAs kw p a.kind.integral = .ok q := by
  have i1 : a.kind.integral ≠ .twoSphere := by
    have := h.src_ts; revert this; cases a.kind <;> decide
  have i2 : a.kind.integral ≠ .prolate := by
    have := h.src_pro; revert this; cases a.kind <;> decide
  by_cases hk : a.kind = K
  · have hd1 : K.dim ≠ 1 := fun e => hne ⟨hk, e⟩
    refine represent_total 197 ⟨h.valid, h.dimp, h.pos_ts, i1, fun _ => h.nz hk hd1, ?_, fun e => absurd e i2⟩
    intro e
    exfalso; apply hd1; rw [← hk]; show a.kind.integral.dim = 1; rw [e]; rfl
  · refine pos_total (k' := K.integral) h.valid h.dimp h.dim h.pos_ts i1 i2 ?_ h.reg h.reg'
    intro e; apply hk
    rw [← vel_of_integral h.src_lcl, ← vel_of_integral h.tgt_lcl, e]

theorem acc_ok {kw : Kw ℝ} {a v : Vel ℝ} {K : VKind} {p : Pos ℝ} (h : AccCase a K v p) :
    ∃ w, representAcc kw a K v p = .ok w ∧ w.kind = K ∧
      ∀ p' q, At kw a.kind (point p) p' → At kw K (point p) q → cartVel q w = cartVel p' a := by
  have i1 : a.kind.integral ≠ .twoSphere := by
    have := h.src_ts; revert this; cases a.kind <;> decide
  have i2 : a.kind.integral ≠ .prolate := by
    have := h.src_pro; revert this; cases a.kind <;> decide
  have i4 : K.integral ≠ .twoSphere := by
    have := h.tgt_ts; revert this; cases K <;> decide
  have i6 : K.integral ≠ .prolate := by
    have := h.tgt_pro; revert this; cases K <;> decide
  unfold representAcc
  rw [if_neg (by
    rintro (e | e | e)
    · exact e h.dim
    · exact h.src_lcl e
    · exact h.tgt_lcl e)]
  by_cases hne : a.kind = K ∧ K.dim = 1
  · rw [if_pos hne]
    refine ⟨a, rfl, hne.1, fun p' q hp hq => ?_⟩
    refine cartVel_congr hq.2.1 hp.2.1 (by rw [hq.1, hp.1, hne.1]) ?_ (by rw [hq.2.2.1, hp.2.2.1])
      (by rw [hq.1, hq.2.2.1]; exact h.reg') a
    rw [focal_none (by rw [hq.1]; exact i6), focal_none (by rw [hp.1]; exact i2)]
  rw [if_neg hne]
  obtain ⟨cp, hcp⟩ := acc_pos_total (kw := kw) h hne
  have g := represent_good _ _ _ _ _ h.valid h.dimp hcp
  have hpk : (plain cp).kind = a.kind.integral := by rw [kind_plain, g.kind]
  have hpp : point (plain cp) = point p := by rw [point_plain, g.point]
  obtain ⟨u, hu, _⟩ := vel_ok (kw := kw) (v := v) (K := a.kind) (p := plain cp)
    { valid := valid_plain g.valid
      dimp := by rw [hpk, h.dimv]; rfl
      dim := h.dimv
      pos_ts := by rw [hpk]; exact i1
      src_ts := h.vel_ts
      tgt_ts := h.src_ts
      reg := by rw [hpp]; exact h.regv
      reg' := by rw [hpp]; exact h.reg
      delta := fun e => absurd e h.src_pro
      src_pro := fun e => absurd e h.vel_pro
      src_loncoslat := fun e => absurd e h.src_pro }
  have hc : VConv {} (plain cp) K.integral :=
    ⟨valid_plain g.valid, plainDist_plain _, by rw [hpk]; exact h.dim,
     by rw [hpk]; exact i1, by rw [hpk]; exact i2, i4,
     by rw [hpp]; exact h.reg', fun e => absurd e i6⟩
  obtain ⟨w, hw, hk, hcol⟩ := jacobian_contract hc (v := a)
    (by rw [hpk, vel_of_integral h.src_lcl])
  refine ⟨w, ?_, by rw [hk, vel_of_integral h.tgt_lcl], ?_⟩
  · unfold representAccGeneric
    rw [hcp, ok_bind, castDistance_eq g.valid, ok_bind, hu, ok_bind, 
      if_neg (not_or.mpr ⟨by rw [hpk]; exact i2,
        fun e => absurd (leavesRank0_dim e) (by rw [h.dimp]; exact lt_irrefl _)⟩)]
    exact hw
  · intro p' q hp hq
    rw [hcol q hq.1 hq.2.1 (by rw [hq.2.2.1, hpp]) (fun e => absurd e i6), cartVel_plain]
    refine cartVel_congr g.valid hp.2.1 (by rw [g.kind, hp.1]) ?_ (by rw [g.point, hp.2.2.1]) ?_ a
    · rw [focal_none (by rw [g.kind]; exact i2), focal_none (by rw [hp.1]; exact i2)]
    · rw [g.kind, g.point]; exact h.reg

/-! ## C24: the physical acceleration -/

/-- **C24, what is computed.** In every case of `AccCase` the conversion returns, with the requested
class, and the result is `a` carried over by the first-order chain rule: it has the same
image under the coordinate basis vectors. The terms quadratic in the velocity are missing (next
theorems). -/
theorem C24_first_order (kw : Kw ℝ) (a v : Vel ℝ) (K : VKind) (p : Pos ℝ)
    (h : AccCase a K v p) :
    ∃ w, representAcc kw a K v p = .ok w ∧ w.kind = K ∧
      ∀ p' q, At kw a.kind (point p) p' → At kw K (point p) q → cartVel q w = cartVel p' a :=
  acc_ok h

/-- **C24** (instants of rest). If one moving point is described by coordinates `c`,
with first derivatives `V` and second derivatives `a` at time `t`, and by coordinates `c'`, with `V'`
and `a'`, and it is at rest at time `t`, then converting `a` to the class of `a'` returns exactly
`a'`. For points that move at time `t` see `C24_exact`; for prolate spheroidal classes and the 2-sphere
the conversion never returns. -/
theorem C24_at_rest (kw : Kw ℝ) (c c' : ℝ → Pos ℝ) (V V' : ℝ → Vel ℝ) (t : ℝ) (a a' v : Vel ℝ)
    (p : Pos ℝ) (hc : AccAt c V t a) (hc' : AccAt c' V' t a')
    (hsame : ∀ s, point (c s) = point (c' s)) (hval : ∀ s, Valid (c s)) (hval' : ∀ s, Valid (c' s))
    (hreg : ∀ s, Regular a.kind.integral (point (c s)))
    (hreg' : ∀ s, Regular a'.kind.integral (point (c s)))
    (hrest : ∀ i, (V t).comps.getD i 0 = 0) (hrest' : ∀ i, (V' t).comps.getD i 0 = 0)
    (hp : point p = point (c t)) (h : AccCase a a'.kind v p) :
    representAcc kw a a'.kind v p = .ok a' := by
  obtain ⟨w, h1, h2, h3⟩ := acc_ok (kw := kw) h
  have hfun : (fun s => cartVel (c s) (V s)) = fun s => cartVel (c' s) (V' s) := by
    funext s
    have d1 := cartVel_hasDeriv (hc.1 s) (by rw [hc.2.1 s]; exact h.src_ts) (hval s)
      (by rw [hc.2.1 s]; exact hreg s)
    have d2 := cartVel_hasDeriv (hc'.1 s) (by rw [hc'.2.1 s]; exact h.tgt_ts) (hval' s)
      (by rw [hc'.2.1 s, ← hsame]; exact hreg' s)
    rw [show (fun s => point (c s)) = fun s => point (c' s) from funext hsame] at d1
    exact hasDeriv3_unique d1 d2
  have d1 := cartVel_rest hc h.src_ts h.src_pro h.src_lcl hrest
  have d2 := cartVel_rest hc' h.tgt_ts h.tgt_pro h.tgt_lcl hrest'
  rw [hfun] at d1
  have hk : (c t).kind = a.kind.integral := by rw [ratesAt_kind (hc.1 t) t, hc.2.1 t]
  have hk' : (c' t).kind = a'.kind.integral := by rw [ratesAt_kind (hc'.1 t) t, hc'.2.1 t]
  have e := h3 (c t) (c' t) ⟨hk, hval t, hp.symm, fun e => absurd e h.src_pro⟩
    ⟨hk', hval' t, by rw [← hsame, hp], fun e => absurd e h.tgt_pro⟩
  rw [hasDeriv3_unique d1 d2] at e
  rw [h1, cartVel_inj (hval' t) h2 (by rw [h2, hk'])
    (by rw [hk', ← hsame]; exact hreg' t)
    (by rw [hk']; intro e; apply h.tgt_ts; revert e; cases a'.kind <;> decide) e]

/-- a point released from rest on the circle of radius 2: angle `s²`, at time 0 -/
example : representAcc {} (.polar 0 2) .cart2 (.polar 0 0) (.polar (.dist 2) 0)
    = .ok (.cart2 0 4) := by
  have k := C24_at_rest {} (fun s => .polar (.dist 2) (s ^ 2))
    (fun s => .cart2 (2 * cos (s ^ 2)) (2 * sin (s ^ 2))) (fun s => .polar 0 (2 * s))
    (fun s => .cart2 (2 * (-sin (s ^ 2) * (2 * s))) (2 * (cos (s ^ 2) * (2 * s)))) 0
    (.polar 0 2) (.cart2 0 4) (.polar 0 0) (.polar (.dist 2) 0)
    ⟨fun s => ⟨fun _ => 2, fun s => s ^ 2, fun _ => rfl, hasDerivAt_const _ _, by
        simpa using hasDerivAt_pow 2 s⟩, fun _ => rfl, fun i => by
        rcases i with _ | _ | i
        · exact hasDerivAt_const _ _
        · show HasDerivAt (fun s : ℝ => 2 * s) 2 0
          simpa using (hasDerivAt_id (0 : ℝ)).const_mul 2
        · exact hasDerivAt_const _ _⟩
    ⟨fun s => by
        have hp : HasDerivAt (fun s : ℝ => s ^ 2) (2 * s) s := by simpa using hasDerivAt_pow 2 s
        exact ⟨_, _, fun _ => rfl, hp.cos.const_mul 2, hp.sin.const_mul 2⟩, fun _ => rfl, fun i => by
        have hp : HasDerivAt (fun s : ℝ => s ^ 2) (2 * 0) 0 := by simpa using hasDerivAt_pow 2 (0 : ℝ)
        have hl : HasDerivAt (fun s : ℝ => 2 * s) 2 0 := by
          simpa using (hasDerivAt_id (0 : ℝ)).const_mul 2
        rcases i with _ | _ | i
        · have := ((hp.sin.fun_neg).fun_mul hl).const_mul 2
          simp only [List.getD_cons_zero, Vel.comps]
          exact this.congr_deriv (by simp)
        · have := ((hp.cos).fun_mul hl).const_mul 2
          simp only [List.getD_cons_zero, List.getD_cons_succ, Vel.comps]
          exact this.congr_deriv (by simp; norm_num)
        · exact hasDerivAt_const _ _⟩
    (fun s => rfl) (fun s => by norm_num [Valid, DistOk]) (fun s => trivial)
    (fun s => by
      simp only [Vel.kind, VKind.integral, Regular, OffAxis, point, distOf]
      rintro ⟨e1, e2⟩
      have := sin_sq_add_cos_sq (s ^ 2)
      have e1 : cos (s ^ 2) = 0 := by linarith
      have e2 : sin (s ^ 2) = 0 := by linarith
      rw [e1, e2] at this; norm_num at this)
    (fun s => trivial)
    (fun i => by rcases i with _ | _ | i <;> simp [Vel.comps])
    (fun i => by rcases i with _ | _ | i <;> simp [Vel.comps])
    (by simp)
    { valid := by norm_num [Valid, DistOk]
      dimp := rfl, dim := rfl, dimv := rfl, pos_ts := by decide
      src_ts := fun h => (by cases h), tgt_ts := fun h => (by cases h)
      vel_ts := fun h => (by cases h), src_pro := fun h => (by cases h)
      tgt_pro := fun h => (by cases h), vel_pro := fun h => (by cases h)
      src_lcl := fun h => (by cases h), tgt_lcl := fun h => (by cases h)
      reg := by simp [Vel.kind, VKind.integral, Regular, OffAxis, point, distOf]
      reg' := trivial
      regv := by simp [Vel.kind, VKind.integral, Regular, OffAxis, point, distOf]
      nz := fun e => (by cases e) }
  exact k

theorem acc_split {kw : Kw ℝ} {a v w : Vel ℝ} {K : VKind} {p : Pos ℝ}
    (h : representAccGeneric kw a K v p = .ok w) :
    a.kind ≠ .prolate ∧ ∃ cp P Q, ∃ q : Vel ℝ, representAs kw p a.kind.integral = .ok cp ∧
      representVel kw v a.kind P = .ok q ∧
      ∃ R : Pos Dual, R.kind = a.kind.integral ∧ representAs (Kw.dual {}) R K.integral = .ok Q := by
  unfold representAccGeneric at h
  simp only [bind_ok_iff] at h
  obtain ⟨c, h1, c', h2, q, hq, h⟩ := h
  have kc : c'.kind = a.kind.integral := by rw [castDistance_kind h2, representAs_kind h1]
  by_cases hp : c'.kind = .prolate ∨ p.kind.leavesRank0 a.kind.integral = true
  · rw [if_pos hp] at h; cases h
  rw [if_neg hp] at h
  obtain ⟨J, h3, h⟩ := (bind_ok_iff _ _ _).mp h
  obtain ⟨_, c0, _, P, Q, h6, h7, _⟩ := jacobian_col h3
  refine ⟨?_, c, c', Q, q, h1, hq, P, by rw [h6, kc], h7⟩
  intro e; rw [kc, e] at hp; exact hp (.inl rfl)

/-- **C24.** The result does not depend on the velocity: all velocities of one class
give the same answer. -/
theorem C24_ignores_velocity (kw : Kw ℝ) (a v v' w : Vel ℝ) (K : VKind) (p : Pos ℝ)
    (hv : v'.kind = v.kind) (h : representAcc kw a K v p = .ok w) :
    representAcc kw a K v' p = .ok w := by
  unfold representAcc at h ⊢
  split_ifs at h ⊢ with h1 h2
  · exact h
  · unfold representAccGeneric at h ⊢
    simp only [bind_ok_iff] at h
    obtain ⟨c, e1, c', e2, q, hq, h⟩ := h
    obtain ⟨q', hq'⟩ := representVel_same hv hq
    rw [e1, ok_bind, e2, ok_bind, hq', ok_bind]
    exact h

/-- **C24.** Uniform circular motion of radius `r > 0` at unit angular rate, seen at the
time the point is at `(r, 0)`: all second derivatives of the polar coordinates vanish, the Cartesian
acceleration is `(-r, 0)`, and the conversion returns `(0, 0)`. -/
theorem C24_circular_motion_wrong (r : ℝ) (hr : 0 < r) :
    AccAt (fun s => .polar (.dist r) s) (fun _ => .polar 0 1) 0 (.polar 0 0) ∧
    AccAt (fun s => .cart2 (r * cos s) (r * sin s)) (fun s => .cart2 (-(r * sin s)) (r * cos s)) 0
      (.cart2 (-r) 0) ∧
    (∀ s, point (.polar (.dist r) s) = point (.cart2 (r * cos s) (r * sin s))) ∧
    representAcc {} (.polar 0 0) .cart2 (.polar 0 1) (.polar (.dist r) 0) = .ok (.cart2 0 0) := by
  refine ⟨⟨fun s => ⟨fun _ => r, fun s => s, fun _ => rfl, hasDerivAt_const _ _, hasDerivAt_id _⟩,
    fun _ => rfl, fun i => ?_⟩, ⟨fun s => ⟨_, _, fun _ => rfl, ?_, ?_⟩, fun _ => rfl, fun i => ?_⟩,
    fun s => rfl, ?_⟩
  · rcases i with _ | _ | i <;> exact hasDerivAt_const _ _
  · exact ((Real.hasDerivAt_cos s).const_mul r).congr_deriv (by ring)
  · exact (Real.hasDerivAt_sin s).const_mul r
  · rcases i with _ | _ | i
    · exact (((Real.hasDerivAt_sin 0).const_mul r).fun_neg).congr_deriv (by simp [Vel.comps])
    · exact ((Real.hasDerivAt_cos 0).const_mul r).congr_deriv (by simp [Vel.comps])
    · exact hasDerivAt_const _ _
  · obtain ⟨w, h1, h2, h3⟩ := acc_ok (kw := {}) (a := .polar 0 0) (v := .polar 0 1) (K := .cart2)
      (p := .polar (.dist r) 0)
      { valid := hr.le
        dimp := rfl, dim := rfl, dimv := rfl, pos_ts := fun h => (by cases h)
        src_ts := fun h => (by cases h), tgt_ts := fun h => (by cases h)
        vel_ts := fun h => (by cases h), src_pro := fun h => (by cases h)
        tgt_pro := fun h => (by cases h), vel_pro := fun h => (by cases h)
        src_lcl := fun h => (by cases h), tgt_lcl := fun h => (by cases h)
        reg := by simp [Vel.kind, VKind.integral, Regular, OffAxis, point, distOf, hr.ne']
        reg' := trivial
        regv := by simp [Vel.kind, VKind.integral, Regular, OffAxis, point, distOf, hr.ne']
        nz := fun e => (by cases e) }
    have e := h3 (.polar (.dist r) 0) (.cart2 r 0) ⟨rfl, hr.le, rfl, fun e => (by cases e)⟩
      ⟨rfl, trivial, by simp [point, distOf], fun e => (by cases e)⟩
    rw [h1]
    cases w <;> first | (cases h2; done) | skip
    simp [cartVel] at e
    rw [e.1, e.2]

theorem prolate_missing {α : Type} [Num α] (n : ℕ) (p q : Pos α) (h3 : p.kind.dim = 3)
    (hp : p.kind ≠ .prolate) : represent n {} p .prolate ≠ .ok q := by
  cases n with
  | zero => intro h; cases h
  | succ n =>
    intro h
    cases p <;> first
      | (exfalso; revert h3; simp [Pos.kind, Kind.dim]; done)
      | exact hp rfl
      | (simp only [represent] at h; cases h)

/-- **C24, exception.** Prolate spheroidal accelerations, as source or as target: the conversion
never returns, whatever the keyword arguments (for the target because `Delta` is not passed on). -/
theorem C24_prolate_raises (kw : Kw ℝ) (a v w : Vel ℝ) (K : VKind) (p : Pos ℝ)
    (h : a.kind = .prolate ∨ K = .prolate) : representAcc kw a K v p ≠ .ok w := by
  intro hr
  unfold representAcc at hr
  split_ifs at hr with h1 h2
  · rcases h with h | h
    · rw [← h2.1, h] at h2; exact absurd h2.2 (by decide)
    · rw [h] at h2; exact absurd h2.2 (by decide)
  · obtain ⟨hs, cp, P, Q, q, _, _, R, hR, hQ⟩ := acc_split hr
    rcases h with h | h
    · exact hs h
    · push Not at h1
      subst h
      refine prolate_missing 200 R Q ?_ ?_ hQ
      · rw [hR]; exact h1.1
      · rw [hR]; intro e; apply hs; revert e; cases a.kind <;> decide

/-- **C24, exception.** `TwoSphereAcc`: no conversion from or to it (itself included) ever returns. -/
theorem C24_twoSphere_raises (kw : Kw ℝ) (a v w : Vel ℝ) (K : VKind) (p : Pos ℝ)
    (h : a.kind = .twoSphere ∨ K = .twoSphere) : representAcc kw a K v p ≠ .ok w := by
  intro hr
  unfold representAcc at hr
  split_ifs at hr with h1 h2
  · rcases h with h | h
    · rw [← h2.1, h] at h2; exact absurd h2.2 (by decide)
    · rw [h] at h2; exact absurd h2.2 (by decide)
  · obtain ⟨_, _, _, Q, _, _, _, R, hR, hQ⟩ := acc_split hr
    push Not at h1
    have hd2 : a.kind.dim = 2 ∧ K.dim = 2 := by
      rcases h with h | h
      · rw [← h1.1, h]; exact ⟨rfl, rfl⟩
      · rw [h1.1, h]; exact ⟨rfl, rfl⟩
    refine twoSphere_never 200 _ R Q _ (by rw [hR]; exact hd2.1) hd2.2 ?_ hQ
    rcases h with h | h
    · left; rw [hR, h]; rfl
    · right; rw [h]; rfl

/-- **C24 holds between Cartesian accelerations**: at any valid position other than the origin, and at
any velocity of a regular class, the components come back unchanged. -/
theorem C24_cartesian_self (kw : Kw ℝ) (a v : Vel ℝ) (p : Pos ℝ) (h : AccCase a a.kind v p)
    (hc : a.kind = .cart1 ∨ a.kind = .cart2 ∨ a.kind = .cart3) :
    representAcc kw a a.kind v p = .ok a := by
  obtain ⟨w, h1, h2, h3⟩ := acc_ok (kw := kw) h
  rw [h1]
  obtain ⟨l2, l1⟩ := point_low h.pos_ts
  have hdim := h.dimp
  cases a <;> first
    | (exfalso; rcases hc with e | e | e <;> cases e; done)
    | skip
  · cases w <;> first | (cases h2; done) | skip
    obtain ⟨e1, e2⟩ := l1 hdim
    have e := h3 (.cart1 (point p).x) (.cart1 (point p).x)
      ⟨rfl, trivial, by rcases hq : point p with ⟨x, y, z⟩; rw [hq] at e1 e2; simp only at e1 e2; subst e1; subst e2; rfl,
        fun e => by cases e⟩
      ⟨rfl, trivial, by rcases hq : point p with ⟨x, y, z⟩; rw [hq] at e1 e2; simp only at e1 e2; subst e1; subst e2; rfl,
        fun e => by cases e⟩
    simp [cartVel] at e; rw [e]
  · cases w <;> first | (cases h2; done) | skip
    have e1 := l2 hdim
    have e := h3 (.cart2 (point p).x (point p).y) (.cart2 (point p).x (point p).y)
      ⟨rfl, trivial, by rcases hq : point p with ⟨x, y, z⟩; rw [hq] at e1; simp only at e1; subst e1; rfl,
        fun e => by cases e⟩
      ⟨rfl, trivial, by rcases hq : point p with ⟨x, y, z⟩; rw [hq] at e1; simp only at e1; subst e1; rfl,
        fun e => by cases e⟩
    simp [cartVel] at e; rw [e.1, e.2]
  · cases w <;> first | (cases h2; done) | skip
    have e := h3 (.cart3 (point p).x (point p).y (point p).z) (.cart3 (point p).x (point p).y (point p).z)
      ⟨rfl, trivial, rfl, fun e => by cases e⟩ ⟨rfl, trivial, rfl, fun e => by cases e⟩
    simp [cartVel] at e; rw [e.1, e.2.1, e.2.2]

/-! ## C25: products with times -/

/-- **C25.** `v * t` for Cartesian velocities is the displacement: the position at which the
origin arrives after time `t` when moving at the constant velocity `v`. -/
theorem C25_vel_times_cartesian (v : Vel ℝ) (t : ℝ)
    (hc : v.kind = .cart1 ∨ v.kind = .cart2 ∨ v.kind = .cart3) :
    ∃ q, velTimes v t = .ok q ∧ q.kind = v.kind.integral ∧
      ∀ p : Pos ℝ, p.kind = v.kind.integral → point q = V3.smul t (cartVel p v) := by
  cases v <;> first
    | (exfalso; rcases hc with e | e | e <;> cases e; done)
    | skip
  all_goals
    refine ⟨_, rfl, rfl, fun p hp => ?_⟩
    cases p <;> first | (cases hp; done) | skip
    simp [point, cartVel, V3.smul, mul_comm]

/-- **C25.** `a * t`, in every acceleration class, multiplies each component by `t` and gives a
velocity of the corresponding class: `d2_k * t` goes to field `d_k`. -/
theorem C25_acc_times (a : Acc ℝ) (t : ℝ) :
    (accTimes a t).kind = a.kind ∧
      ∀ i, (accTimes a t).comps.getD i 0 = a.comps.getD i 0 * t := by
  refine ⟨map_kind a _, fun i => ?_⟩
  cases a <;> rcases i with _ | _ | _ | i <;> simp [accTimes, Vel.map, Vel.comps]

/-- **C25.** `a * t**2` for Cartesian accelerations is the displacement `t² a`. -/
theorem C25_acc_times_sq_cartesian (a : Acc ℝ) (t : ℝ)
    (hc : a.kind = .cart1 ∨ a.kind = .cart2 ∨ a.kind = .cart3) :
    ∃ q, accTimes2 a (t ^ 2) = .ok q ∧ q.kind = a.kind.integral ∧
      ∀ p : Pos ℝ, p.kind = a.kind.integral → point q = V3.smul (t ^ 2) (cartVel p a) :=
  C25_vel_times_cartesian a (t ^ 2) hc

/-- **C25.** The two ways to a displacement agree for Cartesian accelerations, and in every class
in which both return: `(a * t) * t = a * t²`. -/
theorem C25_acc_times_twice (a : Acc ℝ) (t : ℝ) : velTimes (accTimes a t) t = accTimes2 a (t ^ 2) := by
  cases a <;> simp only [velTimes, accTimes, accTimes2, Vel.map, mul_assoc, sq]

/-- The coordinate values of a position, in the order of the fields of the velocity class. -/
noncomputable def posComps : Pos ℝ → List ℝ
  | .cart1 x => [x]
  | .radial r => [Spec.distOf r]
  | .cart2 x y => [x, y]
  | .polar r φ => [Spec.distOf r, φ]
  | .twoSphere θ φ => [θ, φ]
  | .cart3 x y z => [x, y, z]
  | .cyl ρ φ z => [ρ, φ, z]
  | .sph r θ φ => [Spec.distOf r, θ, φ]
  | .lonlat lon lat d => [lon, lat, Spec.distOf d]
  | .math r θ φ => [Spec.distOf r, θ, φ]
  | .prolate μ ν φ _ => [μ, ν, φ]

/-- the index of the azimuth among the fields of a velocity class -/
def azimuthField : VKind → Option ℕ
  | .polar | .twoSphere | .cyl | .math => some 1
  | .sph | .prolate => some 2
  | .lonlat | .lonCosLat => some 0
  | _ => none

/-- `y` is the angle `x` normalised to `[0, 2π)` -/
def Normalised (x y : ℝ) : Prop := 0 ≤ y ∧ y < 2 * π ∧ ∃ n : ℤ, y = x - n * (2 * π)

theorem normalised_wrapR (x : ℝ) : Normalised x (wrapR x) :=
  ⟨wrapR_nonneg x, wrapR_lt x, wrapR_eq_sub x⟩

/-- **C25, field mapping for every class.** Whenever `v * t` returns, it is a position of the
corresponding class, in which every field `k` is the field `d_k` of the velocity times `t`; the azimuth is
normalised to `[0, 2π)`. -/
theorem C25_vel_times_fields (v : Vel ℝ) (t : ℝ) (q : Pos ℝ) (h : velTimes v t = .ok q) :
    q.kind = v.kind.integral ∧ (posComps q).length = v.comps.length ∧
      ∀ i, if azimuthField v.kind = some i then
          Normalised (v.comps.getD i 0 * t) ((posComps q).getD i 0)
        else (posComps q).getD i 0 = v.comps.getD i 0 * t := by
  cases v <;> simp only [velTimes, mkCart1, mkCart2, mkCart3, mkRadial, mkPolar, mkTwoSphere, mkCyl, mkSph,
    mkLonLat, mkMath, bind_ok_iff, pure_ok, Except.ok.injEq, reduceCtorEq] at h
  case lonlat =>
    obtain ⟨_, _, _, _, _, _, rfl⟩ := h
    refine ⟨rfl, rfl, fun i => ?_⟩
    rcases i with _ | _ | _ | i <;>
      simp [azimuthField, Vel.kind, posComps, Vel.comps, AzArg.convert, distOf, normalised_wrapR]
  all_goals
    first
    | (subst h)
    | (obtain ⟨_, _, rfl⟩ := h)
    | (obtain ⟨_, _, _, _, rfl⟩ := h)
  all_goals
    refine ⟨rfl, rfl, fun i => ?_⟩
    rcases i with _ | _ | _ | i <;>
      simp [azimuthField, Vel.kind, posComps, Vel.comps, AzArg.convert, distOf, normalised_wrapR]

/-- **C25, where it fails.** `LonCosLatSphericalVel * t` and `ProlateSpheroidalVel * t` never return
(unknown field `lon_coslat`, missing `Delta`), and a product with a negative radial component
raises. -/
theorem C25_vel_times_raises (v : Vel ℝ) (t : ℝ) :
    (v.kind = .lonCosLat → velTimes v t = .error .badField) ∧
    (v.kind = .prolate → velTimes v t = .error .missingDelta) ∧
    (∀ a b, v = .polar a b → a * t < 0 → velTimes v t = .error .check) ∧
    (∀ a b c, v = .cyl a b c → a * t < 0 → velTimes v t = .error .check) ∧
    (∀ a b c, v = .sph a b c → a * t < 0 → velTimes v t = .error .check) := by
  refine ⟨fun h => ?_, fun h => ?_, ?_, ?_, ?_⟩
  · cases v <;> first | (cases h; done) | rfl
  · cases v <;> first | (cases h; done) | rfl
  · rintro a b rfl h
    simp only [velTimes, mkPolar, Dist.raw]
    rw [checkNonNeg_err h]; rfl
  · rintro a b c rfl h
    simp only [velTimes, mkCyl]
    rw [checkNonNeg_err h]; rfl
  · rintro a b c rfl h
    simp only [velTimes, mkSph, Dist.raw]
    rw [checkNonNeg_err h]; rfl

example : velTimes (.sph 2 1 1 : Vel ℝ) 1 = .ok (.sph (.dist 2) 1 1) := by
  simp only [velTimes]
  rw [mkSph_ok _ (by norm_num [Dist.raw]) (by norm_num) (by linarith [Real.pi_gt_three])]
  norm_num [AzArg.convert]
  exact wrapR_of_mem (by norm_num) (by linarith [Real.pi_gt_three])

end Verif
