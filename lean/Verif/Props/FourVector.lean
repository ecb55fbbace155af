import Verif.Props.Operators

/-!
# Four-vectors: C42, and operators on four-vectors (C27, C31)
-/

namespace Verif

open Spec Props

/-! ## C42 -/

/-- **C42.** Sum, difference and negation act on time and space separately, keep the class of the
(left) spatial part and its speed of light. -/
theorem C42_arithmetic (x y z : Four) (hx : Valid3 x.q) (hy : Valid3 y.q) :
    (x.add y = .ok z → z.t = x.t + y.t ∧ point z.q = (point x.q).add (point y.q) ∧
      z.q.kind = x.q.kind ∧ Valid z.q ∧ z.c = x.c) ∧
    (x.sub y = .ok z → z.t = x.t - y.t ∧ point z.q = (point x.q).sub (point y.q) ∧
      z.q.kind = x.q.kind ∧ Valid z.q ∧ z.c = x.c) ∧
    (x.neg = .ok z → z.t = -x.t ∧ point z.q = (point x.q).neg ∧
      z.q.kind = x.q.kind ∧ Valid z.q ∧ z.c = x.c) := by
  have hd : x.q.kind.dim = y.q.kind.dim := by rw [hx.2, hy.2]
  refine ⟨fun h => ?_, fun h => ?_, fun h => ?_⟩
  · obtain ⟨q, h1, h2⟩ := (bind_ok_iff _ _ _).mp h
    obtain rfl := Except.ok.inj h2
    obtain ⟨a, b, c⟩ := (C15_add_sub _ _ q hx.1 hy.1 hd).1 h1
    exact ⟨rfl, c, a, b, rfl⟩
  · obtain ⟨q, h1, h2⟩ := (bind_ok_iff _ _ _).mp h
    obtain rfl := Except.ok.inj h2
    obtain ⟨a, b, c⟩ := (C15_add_sub _ _ q hx.1 hy.1 hd).2 h1
    exact ⟨rfl, c, a, b, rfl⟩
  · obtain ⟨q, h1, h2⟩ := (bind_ok_iff _ _ _).mp h
    obtain rfl := Except.ok.inj h2
    obtain ⟨a, b, _, c⟩ := C16_negation _ _ hx.1 h1
    exact ⟨rfl, c, a, b, rfl⟩

/-- **C42**, existence: they return for a Cartesian (left) spatial part. -/
theorem C42_arithmetic_returns (x y : Four) (hx : x.q.kind = .cart3) (hy : Valid3 y.q) :
    (∃ z, x.add y = .ok z) ∧ (∃ z, x.sub y = .ok z) ∧ ∃ z, x.neg = .ok z := by
  have v : Valid x.q := valid_of_cart _ (by rw [hx]; rfl)
  have v3 : Valid3 x.q := ⟨v, by rw [hx]; rfl⟩
  have ts : x.q.kind ≠ .twoSphere := by rw [hx]; decide
  have ts' : y.q.kind ≠ .twoSphere := fun e => by have := hy.2; rw [e] at this; cases this
  obtain ⟨f, g⟩ := C15_add_sub_return x.q y.q v hy.1 (by rw [v3.2, hy.2]) ts ts'
    (by rw [hx]; decide)
  obtain ⟨q1, h1⟩ := f (Or.inl (by rw [hx]; rfl)) (by rw [hx]; intro e; cases e)
  obtain ⟨q2, h2⟩ := g (Or.inl (by rw [hx]; rfl)) (by rw [hx]; intro e; cases e)
  obtain ⟨q3, h3⟩ := negPos_total3 v3 (Or.inl hx)
  exact ⟨⟨_, by simp only [Four.add, h1, ok_bind]; rfl⟩, ⟨_, by simp only [Four.sub, h2, ok_bind]; rfl⟩,
    ⟨_, by simp only [Four.neg, h3, ok_bind]; rfl⟩⟩

/-- the norm of a position is a plain length, except when it is a stored parallax or modulus -/
theorem norm_plain (p : Pos ℝ) (hv : Valid p) (hs : p.kind ≠ .twoSphere)
    (hp : p.kind = .lonlat ∨ p.kind = .math → PlainDist p) :
    norm p = .ok (.dist (V3.norm (point p))) := by
  obtain ⟨d, h1, h2⟩ := C14_norm_is_euclidean p hv hs
  obtain ⟨c, hc, g⟩ := toCart_total p hv hs
  have hk : c.kind.isCart = true := by rw [g.kind]; exact isCart_cartesian _
  have hd := norm_default p c hc hk
  rw [g.point] at hd
  cases p with
  | cyl rho phi z =>
    obtain ⟨e, he⟩ : ∃ e, norm (.cyl rho phi z) = .ok (.dist e) :=
      ⟨√(rho * rho + z * z), by simp [norm, sqrt_real_ok (sumsq2_nonneg rho z)]⟩
    rw [h1] at he; obtain rfl := Except.ok.inj he
    rw [h1, ← h2]; rfl
  | lonlat lon lat r =>
    obtain ⟨e, rfl⟩ := hp (Or.inl rfl)
    rw [h1, ← h2]
    obtain rfl := Except.ok.inj h1
    rfl
  | math r theta phi =>
    obtain ⟨e, rfl⟩ := hp (Or.inr rfl)
    rw [h1, ← h2]
    obtain rfl := Except.ok.inj h1
    rfl
  | twoSphere => exact absurd rfl hs
  | _ => exact hd

/-- **C42.** The squared norm is `(c t)² - |q|²` for every `c` and every valid spatial part of any
3-D class, except for a `LonLatSphericalPos` or `MathSphericalPos` whose distance is stored as a
parallax or distance modulus, where the call raises (next theorem). -/
theorem C42_norm2 (x : Four) (hx : Valid3 x.q)
    (hp : x.q.kind = .lonlat ∨ x.q.kind = .math → PlainDist x.q) :
    x.norm2 = .ok ((x.c * x.t) ^ 2 - (V3.norm (point x.q)) ^ 2) := by
  have hs : x.q.kind ≠ .twoSphere := fun e => by have := hx.2; rw [e] at this; cases this
  simp only [Four.norm2, norm_plain x.q hx.1 hs hp, ok_bind, Dist.asLength]
  refine congrArg Except.ok ?_
  ring

/-- **C42, exception.** Distances stored as a parallax or modulus. -/
theorem C42_norm2_units_fail (t c lon lat r : ℝ) :
    (Four.mk t (.lonlat lon lat (.par r)) c).norm2 = .error .units ∧
    (Four.mk t (.lonlat lon lat (.dm r)) c).norm2 = .error .units ∧
    (Four.mk t (.math (.par r) lon lat) c).norm2 = .error .units :=
  ⟨rfl, rfl, rfl⟩

/-- **C42.** The norm is the principal complex square root of the squared norm: `(re + i im)² = norm2`,
real and non-negative for time-like vectors, on the positive imaginary axis for space-like ones. -/
theorem C42_norm_is_root (x : Four) (n2 : ℝ) (h : x.norm2 = .ok n2) :
    ∃ re im, x.norm = .ok (re, im) ∧ re ^ 2 - im ^ 2 = n2 ∧ re * im = 0 ∧ 0 ≤ re ∧ 0 ≤ im := by
  simp only [Four.norm, h, ok_bind]
  by_cases hn : n2 < 0
  · rw [if_pos hn]
    exact ⟨0, √(-n2), rfl, by rw [Real.sq_sqrt (by linarith)]; ring, by ring, le_refl _,
      Real.sqrt_nonneg _⟩
  · rw [if_neg hn]
    exact ⟨√n2, 0, rfl, by rw [Real.sq_sqrt (by linarith)]; ring, by ring, Real.sqrt_nonneg _,
      le_refl _⟩

theorem lightSpeed_pos : 0 < lightSpeed := by unfold lightSpeed; norm_num

/-- **C42.** `from_` of `[ct, x, y, z]` gives the event with `c t = ct` at `(x, y, z)`, and converting back
gives the same four numbers. -/
theorem C42_from_to_quantity (ct x y z : ℝ) :
    ∃ v, Four.from_ [ct, x, y, z] = .ok v ∧ v.c = lightSpeed ∧ lightSpeed * v.t = ct ∧
      v.q = .cart3 x y z ∧ v.toQuantity = .ok [ct, x, y, z] := by
  have h := lightSpeed_pos.ne'
  have hr : representAs {} (.cart3 x y z : Pos ℝ) .cart3 = .ok (.cart3 x y z) :=
    representAs_self_cart {} (.cart3 x y z : Pos ℝ) rfl
  have hk : (Pos.cart3 x y z : Pos ℝ).kind.cartesian = .cart3 := rfl
  refine ⟨⟨ct / lightSpeed, .cart3 x y z, lightSpeed⟩, ?_, rfl, mul_div_cancel₀ _ h, rfl, ?_⟩
  · simp only [Four.from_, div_real_ok h, ok_bind]; rfl
  · simp only [Four.toQuantity, Verif.toQuantity, toCartesian, hk, hr, ok_bind, Pos.cartComponents]
    simp [mul_div_cancel₀ _ h]

/-- **C42.** Converting a four-vector with the default speed of light to a Quantity and back
gives the same time and the same point (in Cartesian form). For other values of `c` the
time changes (`C42_to_from_quantity_exact`). -/
theorem C42_to_from_quantity (v : Four) (hv : Valid3 v.q) (hc : v.c = lightSpeed) :
    ∃ l w, v.toQuantity = .ok l ∧ Four.from_ l = .ok w ∧ w.t = v.t ∧ w.c = v.c ∧
      point w.q = point v.q ∧ (v.q.kind = .cart3 → w = v) := by
  have hs : v.q.kind ≠ .twoSphere := fun e => by have := hv.2; rw [e] at this; cases this
  have hk : v.q.kind.cartesian = .cart3 := by rw [cartesian_of_dim (k' := .cart3) hv.2]; rfl
  obtain ⟨c, h1, g⟩ := toCart_total v.q hv.1 hs
  have gk := g.kind
  have gp := g.point
  rw [hk] at gk
  cases c <;> first | (cases gk; done) | skip
  rename_i x y z
  refine ⟨[v.c * v.t, x, y, z], ⟨v.t, .cart3 x y z, lightSpeed⟩, ?_, ?_, rfl, hc.symm, gp, ?_⟩
  · simp only [Four.toQuantity, Verif.toQuantity, toCartesian, h1, ok_bind, Pos.cartComponents]
    rfl
  · simp only [Four.from_, div_real_ok lightSpeed_pos.ne', ok_bind, hc,
      mul_div_cancel_left₀ _ lightSpeed_pos.ne', mkCart3]
    rfl
  · intro hcart
    have e := representAs_self_cart {} v.q (by rw [hcart]; rfl)
    rw [hcart] at e
    rw [hk] at h1
    rw [e] at h1
    have h2 := Except.ok.inj h1
    obtain ⟨t, q, c⟩ := v
    simp only at hc h2
    rw [h2, hc]

/-- **C42, exception.** For another speed of light the round trip multiplies the time by `c / c₀`. -/
theorem C42_other_c_changes_time (t x y z c : ℝ) (hc : c ≠ lightSpeed) (ht : t ≠ 0) :
    ∃ l w, (Four.mk t (.cart3 x y z) c).toQuantity = .ok l ∧ Four.from_ l = .ok w ∧
      w.t = c * t / lightSpeed ∧ w.t ≠ t := by
  have h := lightSpeed_pos.ne'
  have hr : representAs {} (.cart3 x y z : Pos ℝ) .cart3 = .ok (.cart3 x y z) :=
    representAs_self_cart {} (.cart3 x y z : Pos ℝ) rfl
  have hk : (Pos.cart3 x y z : Pos ℝ).kind.cartesian = .cart3 := rfl
  refine ⟨[c * t, x, y, z], ⟨c * t / lightSpeed, .cart3 x y z, lightSpeed⟩, ?_, ?_, rfl, ?_⟩
  · simp only [Four.toQuantity, Verif.toQuantity, toCartesian, hk, hr, ok_bind, Pos.cartComponents]
    rfl
  · simp only [Four.from_, div_real_ok h, ok_bind]; rfl
  · intro e
    apply hc
    rw [div_eq_iff h] at e
    have : (c - lightSpeed) * t = 0 := by linarith
    rcases mul_eq_zero.mp this with h | h
    · linarith
    · exact absurd h ht

example : ∃ z, (Four.mk 1 (.cart3 1 2 3) lightSpeed).add ⟨2, .cyl 1 2 3, lightSpeed⟩ = .ok z :=
  (C42_arithmetic_returns _ _ rfl ⟨by norm_num [Valid], rfl⟩).1

example : (Four.mk 2 (.cyl 3 1 4) 7).norm2 = .ok (14 ^ 2 - (V3.norm (cylPoint 3 1 4)) ^ 2) := by
  rw [C42_norm2 (Four.mk 2 (.cyl 3 1 4) 7) ⟨by norm_num [Valid], rfl⟩ (by rintro (h | h) <;> cases h)]
  norm_num [point]

/-! ## Operators on four-vectors -/

theorem callFour_aux (op : Op) : WellFormed op → ∀ x : Four, Valid3 x.q →
    (∀ a, op.call (.four x) = .ok a → ∃ y, a = .four y ∧ (y.c = x.c ∨ y.c = lightSpeed) ∧
      op.call (.posTime x.q x.t) = .ok (.posTime y.q y.t)) ∧
    (∀ q t, op.call (.posTime x.q x.t) = .ok (.posTime q t) →
      ∃ c, op.call (.four x) = .ok (.four ⟨t, q, c⟩)) := by
  have rot : ∀ (R : Mat3) (x : Four),
    (∀ a, callRotation R (.four x) = .ok a → ∃ y, a = .four y ∧ (y.c = x.c ∨ y.c = lightSpeed) ∧
      callRotation R (.posTime x.q x.t) = .ok (.posTime y.q y.t)) ∧
    (∀ q t, callRotation R (.posTime x.q x.t) = .ok (.posTime q t) →
      ∃ c, callRotation R (.four x) = .ok (.four ⟨t, q, c⟩)) := by
    intro R x
    simp only [callRotation, bind_ok_iff]
    constructor
    · rintro a ⟨q, h1, h2⟩
      obtain rfl := Except.ok.inj h2
      exact ⟨_, rfl, Or.inr rfl, q, h1, rfl⟩
    · rintro q t ⟨q', h1, h2⟩
      cases h2
      exact ⟨lightSpeed, q, h1, rfl⟩
  have tra : ∀ (d : Four) (x : Four), Valid3 x.q →
    (∀ a, callTranslation d (.four x) = .ok a → ∃ y, a = .four y ∧ (y.c = x.c ∨ y.c = lightSpeed) ∧
      callTranslation d (.posTime x.q x.t) = .ok (.posTime y.q y.t)) ∧
    (∀ q t, callTranslation d (.posTime x.q x.t) = .ok (.posTime q t) →
      ∃ c, callTranslation d (.four x) = .ok (.four ⟨t, q, c⟩)) := by
    intro d x hx
    simp only [callTranslation, Four.add]
    rw [if_neg (by rw [hx.2]; decide)]
    simp only [bind_ok_iff]
    constructor
    · rintro a ⟨z, ⟨q, h1, h2⟩, h3⟩
      obtain rfl := Except.ok.inj h2
      obtain rfl := Except.ok.inj h3
      exact ⟨_, rfl, Or.inl rfl, q, h1, rfl⟩
    · rintro q t ⟨q', h1, h2⟩
      cases h2
      exact ⟨x.c, _, ⟨q, h1, rfl⟩, rfl⟩
  have boo : ∀ (v : Vel ℝ) (x : Four),
    (∀ a, callBoost v (.four x) = .ok a → ∃ y, a = .four y ∧ (y.c = x.c ∨ y.c = lightSpeed) ∧
      callBoost v (.posTime x.q x.t) = .ok (.posTime y.q y.t)) ∧
    (∀ q t, callBoost v (.posTime x.q x.t) = .ok (.posTime q t) →
      ∃ c, callBoost v (.four x) = .ok (.four ⟨t, q, c⟩)) := by
    intro v x
    simp only [callBoost, bind_ok_iff]
    constructor
    · rintro a ⟨d, h0, q, h1, h2⟩
      obtain rfl := Except.ok.inj h2
      exact ⟨_, rfl, Or.inl rfl, d, h0, q, h1, rfl⟩
    · rintro q t ⟨d, h0, q', h1, h2⟩
      cases h2
      exact ⟨x.c, d, h0, q, h1, rfl⟩
  induction op using Op.ind with
  | id =>
    intro _ x hx
    simp only [Op.call]
    exact ⟨fun a h => ⟨x, (Except.ok.inj h).symm, Or.inl rfl, rfl⟩,
      fun q t h => ⟨x.c, by cases h; rfl⟩⟩
  | vb v =>
    intro _ x hx
    simp only [Op.call, callVBoost]
    exact ⟨fun a h => ⟨x, (Except.ok.inj h).symm, Or.inl rfl, rfl⟩,
      fun q t h => ⟨x.c, by cases h; rfl⟩⟩
  | rot R => intro _ x hx; simp only [Op.call]; exact rot R x
  | sp d =>
    intro _ x hx
    simp only [Op.call, callSpatial, bind_ok_iff]
    constructor
    · rintro a ⟨q, h1, h2⟩
      obtain rfl := Except.ok.inj h2
      exact ⟨_, rfl, Or.inl rfl, q, h1, rfl⟩
    · rintro q t ⟨q', h1, h2⟩
      cases h2
      exact ⟨x.c, q, h1, rfl⟩
  | tr d => intro _ x hx; simp only [Op.call]; exact tra d x hx
  | bo v => intro _ x hx; simp only [Op.call]; exact boo v x
  | ga R d v =>
    intro w x hx
    simp only [Op.call]
    constructor
    · intro a h
      obtain ⟨b, h1, h⟩ := (bind_ok_iff _ _ _).mp h
      obtain ⟨c, h2, h3⟩ := (bind_ok_iff _ _ _).mp h
      obtain ⟨y1, rfl, c1, e1⟩ := (rot R x).1 b h1
      obtain ⟨q1, t1, f1, s1⟩ := callRotation_sound hx.1 e1
      cases f1
      have v1 := s1.valid3 hx.2
      obtain ⟨y2, rfl, c2, e2⟩ := (tra d y1 v1).1 c h2
      obtain ⟨y3, rfl, c3, e3⟩ := (boo v y2).1 a h3
      refine ⟨y3, rfl, ?_, ?_⟩
      · rcases c3 with c3 | c3
        · rcases c2 with c2 | c2
          · rw [c3, c2]; exact c1
          · right; rw [c3, c2]
        · right; exact c3
      · rw [e1, ok_bind, e2, ok_bind, e3]
    · intro q t h
      obtain ⟨b, h1, h⟩ := (bind_ok_iff _ _ _).mp h
      obtain ⟨c, h2, h3⟩ := (bind_ok_iff _ _ _).mp h
      obtain ⟨q1, t1, rfl, s1⟩ := callRotation_sound hx.1 h1
      have v1 := s1.valid3 hx.2
      obtain ⟨q2, t2, rfl, s2⟩ := callTranslation_sound v1 w.1 h2
      obtain ⟨c1, e1⟩ := (rot R x).2 q1 t1 h1
      obtain ⟨c2, e2⟩ := (tra d ⟨t1, q1, c1⟩ v1).2 q2 t2 h2
      obtain ⟨c3, e3⟩ := (boo v ⟨t2, q2, c2⟩).2 q t h3
      exact ⟨c3, by rw [e1, ok_bind, e2, ok_bind, e3]⟩
  | pi ops ih =>
    intro w x hx
    simp only [WellFormed, Every, everyAll_iff] at w
    rw [call_pipe rfl, call_pipe rfl]
    induction ops generalizing x with
    | nil =>
      simp only [callAll]
      exact ⟨fun a h => ⟨x, (Except.ok.inj h).symm, Or.inl rfl, rfl⟩,
        fun q t h => ⟨x.c, by cases h; rfl⟩⟩
    | cons o os ihl =>
      simp only [callAll]
      have go := ih o (by simp) (w o (by simp)) x hx
      have gs := fun y hy => ihl (fun p hp => ih p (by simp [hp])) y hy
        (fun p hp => w p (by simp [hp]))
      constructor
      · intro a h
        obtain ⟨b, h1, h2⟩ := (bind_ok_iff _ _ _).mp h
        obtain ⟨y1, rfl, c1, e1⟩ := go.1 b h1
        obtain ⟨q1, t1, f1, s1⟩ := call_sound o (w o (by simp)) _ _ _ hx e1
        cases f1
        obtain ⟨y2, rfl, c2, e2⟩ := (gs y1 (s1.valid3 hx.2)).1 a h2
        refine ⟨y2, rfl, ?_, by rw [e1, ok_bind, e2]⟩
        rcases c2 with c2 | c2
        · rw [c2]; exact c1
        · right; exact c2
      · intro q t h
        obtain ⟨b, h1, h2⟩ := (bind_ok_iff _ _ _).mp h
        obtain ⟨q1, t1, rfl, s1⟩ := call_sound o (w o (by simp)) _ _ _ hx h1
        obtain ⟨c1, e1⟩ := go.2 q1 t1 h1
        obtain ⟨c2, e2⟩ := (gs ⟨t1, q1, c1⟩ (s1.valid3 hx.2)).2 q t h2
        exact ⟨c2, by rw [e1, ok_bind, e2]⟩

/-- **C31, four-vectors.** Every operator acts on a `FourVector` exactly as on its spatial part and
time; one call returns iff the other does. The default speed of light is kept. -/
theorem C31_four_vector (op : Op) (w : WellFormed op) (x : Four) (hx : Valid3 x.q) :
    (∀ a, op.call (.four x) = .ok a → ∃ y, a = .four y ∧ (x.c = lightSpeed → y.c = lightSpeed) ∧
      op.call (.posTime x.q x.t) = .ok (.posTime y.q y.t)) ∧
    (∀ q t, op.call (.posTime x.q x.t) = .ok (.posTime q t) →
      ∃ c, op.call (.four x) = .ok (.four ⟨t, q, c⟩)) := by
  obtain ⟨h1, h2⟩ := callFour_aux op w x hx
  refine ⟨fun a h => ?_, h2⟩
  obtain ⟨y, e, c, f⟩ := h1 a h
  exact ⟨y, e, fun hc => c.elim (fun c => c.trans hc) id, f⟩

/-- A rotation replaces a non-default speed of light by the default, so it changes the squared norm
although it preserves both `|q|` and `t`. -/
theorem C42_rotation_drops_c (R : Mat3) (x : Four) (a : Arg)
    (h : (Op.rotation R).call (.four x) = .ok a) :
    ∃ y, a = .four y ∧ y.t = x.t ∧ y.c = lightSpeed := by
  simp only [Op.call, callRotation, bind_ok_iff] at h
  obtain ⟨q, _, h2⟩ := h
  obtain rfl := Except.ok.inj h2
  exact ⟨_, rfl, rfl, rfl⟩

end Verif
