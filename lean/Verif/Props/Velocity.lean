import Verif.VelKind
import Verif.VelLemmas
import Mathlib.Analysis.Calculus.Deriv.Basic
import Mathlib.Analysis.Real.Pi.Bounds

/-!
# Velocities: C19 – C23

Specification: `Verif/SpecVel.lean`. Model: `Verif/Vel.lean`.
-/

namespace Verif

open Real Spec

/-! ## C19: the physical velocity is preserved -/

/-- **C19.** In every case of `VelCase` (all class pairs of one dimension, all valid
positions in any class at which both classes are regular) the conversion returns a velocity of the
requested class, and its Cartesian velocity is the one of the input. The cases outside:
prolate spheroidal velocities as source, `LonCosLatSphericalVel` to prolate spheroidal and
`TwoSphereVel`, where the conversion never returns (next theorems), and the self conversion of
prolate spheroidal velocities to another `Delta`, which is wrong
(`C19_prolate_self_ignores_delta`). -/
theorem C19_velocity_preserved (kw : Kw ℝ) (v : Vel ℝ) (K : VKind) (p : Pos ℝ)
    (h : VelCase kw v K p) :
    ∃ w, representVel kw v K p = .ok w ∧ w.kind = K ∧
      ∀ p' q, At kw v.kind (point p) p' → At kw K (point p) q → cartVel q w = cartVel p' v :=
  vel_ok h

/-- a concrete instance: a spherical velocity at a cylindrical position, to Cartesian -/
example : VelCase {} (.sph 1 2 3) .cart3 (.cyl 2 0 1) where
  valid := by norm_num [Valid]
  dimp := rfl
  dim := rfl
  pos_ts := by decide
  src_ts := fun h => by cases h
  tgt_ts := by decide
  reg := by simp [Vel.kind, VKind.integral, Regular, OffAxis, point, cylPoint]
  reg' := trivial
  delta := fun h => by cases h
  src_pro := fun h => by cases h
  src_loncoslat := fun h => by cases h

example : VelCase { delta := some 2 } (.lonlat 1 2 3) .prolate (.cart3 1 1 1) where
  valid := trivial
  dimp := rfl
  dim := rfl
  pos_ts := by decide
  src_ts := fun h => by cases h
  tgt_ts := by decide
  reg := by simp [Vel.kind, VKind.integral, Regular, OffAxis, point]
  reg' := by simp [VKind.integral, Regular, OffAxis, point]
  delta := fun _ => ⟨2, rfl, by norm_num⟩
  src_pro := fun h => by cases h
  src_loncoslat := fun _ h => by cases h

/-- The Cartesian velocity of the specification is the time derivative of the Cartesian
coordinates along any trajectory with these coordinate rates. -/
theorem C19_cartVel_is_derivative (c : ℝ → Pos ℝ) (t : ℝ) (v : Vel ℝ) (h : RatesAt c t v)
    (hs : v.kind ≠ .twoSphere) (hv : Valid (c t)) (hr : Regular v.kind.integral (point (c t))) :
    HasDeriv3 (fun s => point (c s)) (cartVel (c t) v) t :=
  cartVel_hasDeriv h hs hv hr

theorem hasDeriv3_unique {f : ℝ → V3} {a b : V3} {t : ℝ} (h : HasDeriv3 f a t)
    (h' : HasDeriv3 f b t) : a = b := by
  obtain ⟨a1, a2, a3⟩ := a
  obtain ⟨b1, b2, b3⟩ := b
  have e1 := h.1.unique h'.1
  have e2 := h.2.1.unique h'.2.1
  have e3 := h.2.2.unique h'.2.2
  simp only at e1 e2 e3
  rw [e1, e2, e3]

theorem ratesAt_kind {c : ℝ → Pos ℝ} {t : ℝ} {v : Vel ℝ} (h : RatesAt c t v) (s : ℝ) :
    (c s).kind = v.kind.integral := by
  cases v <;> simp only [RatesAt] at h
  case lonCosLat => obtain ⟨_, _, _, _, h, _⟩ := h; rw [h]; rfl
  case prolate => obtain ⟨_, _, _, _, h, _⟩ := h; rw [h]; rfl
  case cart1 => obtain ⟨_, h, _⟩ := h; rw [h]; rfl
  case radial => obtain ⟨_, h, _⟩ := h; rw [h]; rfl
  case cart2 => obtain ⟨_, _, h, _⟩ := h; rw [h]; rfl
  case polar => obtain ⟨_, _, h, _⟩ := h; rw [h]; rfl
  case twoSphere => obtain ⟨_, _, h, _⟩ := h; rw [h]; rfl
  all_goals (obtain ⟨_, _, _, h, _⟩ := h; rw [h]; rfl)

/-- **C19, by trajectories.** If one moving point is described by
coordinates `c` in the class of `v`, changing at the rates `v` at time `t`, and by coordinates `c'` in
the class of `u`, changing at the rates `u`, then converting `v` at that point to the class of `u`
returns exactly `u`. The position `p` handed to the conversion may be in any class. -/
theorem C19_trajectory (kw : Kw ℝ) (c c' : ℝ → Pos ℝ) (t : ℝ) (v u : Vel ℝ) (p : Pos ℝ)
    (hc : RatesAt c t v) (hc' : RatesAt c' t u) (hsame : ∀ s, point (c s) = point (c' s))
    (hp : point p = point (c t)) (hv : Valid (c t)) (hv' : Valid (c' t))
    (hf : v.kind = .prolate → focal (c t) = kw.delta)
    (hf' : u.kind = .prolate → focal (c' t) = kw.delta) (h : VelCase kw v u.kind p) :
    representVel kw v u.kind p = .ok u := by
  obtain ⟨w, h1, h2, h3⟩ := vel_ok h
  have d1 := cartVel_hasDeriv hc h.src_ts hv (by rw [← hp]; exact h.reg)
  have d2 := cartVel_hasDeriv hc' h.tgt_ts hv' (by rw [← hsame, ← hp]; exact h.reg')
  rw [show (fun s => point (c s)) = fun s => point (c' s) from funext hsame] at d1
  have e := h3 (c t) (c' t) ⟨ratesAt_kind hc t, hv, hp.symm, hf⟩
    ⟨ratesAt_kind hc' t, hv', by rw [← hsame, hp], hf'⟩
  rw [hasDeriv3_unique d1 d2] at e
  have hk' := ratesAt_kind hc' t
  rw [h1, cartVel_inj hv' h2 (by rw [h2, hk'])
    (by rw [hk', ← hsame, ← hp]; exact h.reg')
    (by rw [hk']; intro e; apply h.tgt_ts; revert e; cases u.kind <;> decide) e]

/-- a point on a circle of radius 2, in polar and Cartesian coordinates -/
example : representVel {} (.polar 0 1) .cart2 (.polar (.dist 2) 0) = .ok (.cart2 0 2) := by
  have := C19_trajectory {} (fun s => .polar (.dist 2) s)
    (fun s => .cart2 (2 * cos s) (2 * sin s)) 0 (.polar 0 1) (.cart2 0 2) (.polar (.dist 2) 0)
    ⟨fun _ => 2, fun s => s, fun _ => rfl, hasDerivAt_const _ _, hasDerivAt_id _⟩
    ⟨_, _, fun _ => rfl, by simpa using (Real.hasDerivAt_cos 0).const_mul 2,
      by simpa using (Real.hasDerivAt_sin 0).const_mul 2⟩
    (fun s => rfl) rfl (by norm_num [Valid, DistOk]) trivial (fun h => by cases h)
    (fun h => by cases h)
    { valid := by norm_num [Valid, DistOk]
      dimp := rfl
      dim := rfl
      pos_ts := by decide
      src_ts := fun h => by cases h
      tgt_ts := fun h => by cases h
      reg := by simp [Vel.kind, VKind.integral, Regular, OffAxis, point, distOf]
      reg' := trivial
      delta := fun h => by cases h
      src_pro := fun h => by cases h
      src_loncoslat := fun h => by cases h }
  exact this

/-- **C19, exception.** Prolate spheroidal source: no conversion to another class ever returns. -/
theorem C19_prolate_source_raises (kw : Kw ℝ) (v w : Vel ℝ) (K : VKind) (p : Pos ℝ)
    (hv : v.kind = .prolate) (hK : K ≠ .prolate) : representVel kw v K p ≠ .ok w := by
  intro h
  have hd : v.kind.dim = K.dim := by
    by_contra hd; unfold representVel at h; rw [if_pos hd] at h; cases h
  have h1 : v.kind ≠ .lonCosLat := by rw [hv]; decide
  by_cases h2 : K = .lonCosLat
  · subst h2
    rw [representVel_toLonCosLat hd h1] at h
    obtain ⟨x, y, z, l, e, _⟩ := toLonCosLat_split h
    unfold toLonLat at e
    rw [if_neg (by rw [hv]; decide)] at e
    exact (generic_inv e).1 hv
  · rw [representVel_generic hd (by rw [hv]; exact fun e => hK e.1.symm) h1 h2] at h
    exact (generic_inv h).1 hv

/-- **C19, exception.** From `LonCosLatSphericalVel` to prolate spheroidal: the keyword arguments are
dropped on the way, so `Delta` is always missing. -/
theorem C19_lonCosLat_to_prolate_raises (kw : Kw ℝ) (a b c : ℝ) (w : Vel ℝ) (p : Pos ℝ) :
    representVel kw (.lonCosLat a b c) .prolate p ≠ .ok w := by
  intro h
  rw [representVel_fromLonCosLat (k := .prolate) rfl (by decide) (by decide)] at h
  obtain ⟨u, h1, h2⟩ := (bind_ok_iff _ _ _).mp h
  obtain ⟨l, _, rfl, _⟩ := lonCosLat_split h1
  obtain ⟨_, _, _, _, P, Q, h3, h4⟩ := generic_inv h2
  cases P <;> first | (cases h3; done) | exact lonlat_prolate_missing _ _ _ _ _ h4

/-- **C19, exception.** `TwoSphereVel`: no conversion from or to it (itself included) ever returns,
whatever the position. -/
theorem C19_twoSphere_raises (kw : Kw ℝ) (v w : Vel ℝ) (K : VKind) (p : Pos ℝ)
    (h : v.kind = .twoSphere ∨ K = .twoSphere) : representVel kw v K p ≠ .ok w := by
  intro hr
  have hd : v.kind.dim = K.dim := by
    by_contra hd; unfold representVel at hr; rw [if_pos hd] at hr; cases hr
  have hd2 : v.kind.dim = 2 ∧ K.dim = 2 := by
    rcases h with h | h
    · rw [← hd, h]; exact ⟨rfl, rfl⟩
    · rw [hd, h]; exact ⟨rfl, rfl⟩
  rw [representVel_generic hd
    (by rintro ⟨e1, e2⟩
        have : K = .twoSphere := by rcases h with h | h <;> [rw [← e1, h]; exact h]
        rw [this] at e2; cases e2)
    (by intro e; rw [e] at hd2; cases hd2.1) (by intro e; rw [e] at hd2; cases hd2.2)] at hr
  obtain ⟨_, _, _, _, P, Q, h3, h4⟩ := generic_inv hr
  refine twoSphere_never _ _ P Q _ (by rw [h3]; exact hd2.1) hd2.2 ?_ h4
  rcases h with h | h
  · left; rw [h3, h]; rfl
  · right; rw [h]; rfl

/-- **C19, exception.** The self conversion of prolate spheroidal velocities does not look at
`Delta`: the components come back unchanged, although at the point (24, 0, 19) the coordinate systems with
focal lengths 26 and 51 give them different physical velocities. -/
theorem C19_prolate_self_ignores_delta :
    (∀ kw v p, v.kind = .prolate → representVel kw v .prolate p = .ok v) ∧
    ∃ q q' : Pos ℝ, ∃ v : Vel ℝ, Valid q ∧ Valid q' ∧ focal q = some 26 ∧ focal q' = some 51 ∧
      point q = ⟨24, 0, 19⟩ ∧ point q' = ⟨24, 0, 19⟩ ∧ cartVel q' v ≠ cartVel q v := by
  constructor
  · intro kw v p h
    cases v <;> first | (cases h; done) | rfl
  · have r1 : prolR 1444 169 26 = 24 := by
      unfold prolR
      rw [show ((1444 : ℝ) - 26 ^ 2) * (1 - |169| / 26 ^ 2) = 24 ^ 2 by
        rw [abs_of_pos (by norm_num)]; norm_num]
      exact Real.sqrt_sq (by norm_num)
    have r2 : prolR 3249 289 51 = 24 := by
      unfold prolR
      rw [show ((3249 : ℝ) - 51 ^ 2) * (1 - |289| / 51 ^ 2) = 24 ^ 2 by
        rw [abs_of_pos (by norm_num)]; norm_num]
      exact Real.sqrt_sq (by norm_num)
    have z1 : prolZ 1444 169 26 = 19 := by
      unfold prolZ
      rw [abs_of_pos (by norm_num), if_neg (by norm_num)]
      rw [show (1444 : ℝ) * (169 / 26 ^ 2) = 19 ^ 2 by norm_num, Real.sqrt_sq (by norm_num)]
    have z2 : prolZ 3249 289 51 = 19 := by
      unfold prolZ
      rw [abs_of_pos (by norm_num), if_neg (by norm_num)]
      rw [show (3249 : ℝ) * (289 / 51 ^ 2) = 19 ^ 2 by norm_num, Real.sqrt_sq (by norm_num)]
    refine ⟨.prolate 1444 169 0 26, .prolate 3249 289 0 51, .prolate 1 0 0, ?_, ?_, rfl, rfl, ?_, ?_, ?_⟩
    · refine ⟨by norm_num, by norm_num, ?_⟩
      rw [abs_of_pos (by norm_num)]; norm_num
    · refine ⟨by norm_num, by norm_num, ?_⟩
      rw [abs_of_pos (by norm_num)]; norm_num
    · simp [point, cylPoint, r1, z1]
    · simp [point, cylPoint, r2, z2]
    · intro h
      have := congrArg V3.z h
      simp only [cartVel, z1, z2] at this
      rw [abs_of_pos (by norm_num), abs_of_pos (by norm_num)] at this
      norm_num at this

/-! ## C20: round trips and path independence -/

theorem point_low {p : Pos ℝ} (h : p.kind ≠ .twoSphere) : (p.kind.dim = 2 → (point p).z = 0) ∧
    (p.kind.dim = 1 → (point p).y = 0 ∧ (point p).z = 0) := by
  cases p <;> first
    | exact absurd rfl h
    | exact ⟨fun _ => rfl, fun _ => ⟨rfl, rfl⟩⟩
    | exact ⟨fun _ => rfl, fun e => (by simp [Pos.kind, Kind.dim] at e)⟩
    | exact ⟨fun e => (by simp [Pos.kind, Kind.dim] at e), fun e => (by simp [Pos.kind, Kind.dim] at e)⟩

/-- every class has a position at a given regular point -/
theorem exists_at {kw : Kw ℝ} {v : Vel ℝ} {K : VKind} {p : Pos ℝ} (h : VelCase kw v K p) :
    ∃ q, At kw K (point p) q := by
  have hi : K.integral ≠ .twoSphere := by
    have := h.tgt_ts; revert this; cases K <;> decide
  have hd : p.kind.dim = K.integral.dim := by rw [h.dimp, h.dim]; rfl
  obtain ⟨l2, l1⟩ := point_low h.pos_ts
  have hr := h.reg'
  have key : (K.integral ≠ .cart1 ∧ K.integral ≠ .cart2 ∧ K.integral ≠ .cart3 ∧
      K.integral ≠ .radial) → ∃ q, At kw K (point p) q := by
    intro hc
    have hoff : K = .prolate → OffAxis (point p) := by rintro rfl; exact hr.1
    have hip : K.integral = .prolate → K = .prolate := by cases K <;> decide
    obtain ⟨q, hq⟩ := represent_total 197 (kw := kw) (p := p) (k := K.integral)
      ⟨h.valid, hd, h.pos_ts, hi, fun _ => regular_ne_zero hr hc, fun e => absurd e hc.2.2.2,
        fun e => Or.inr (by
          obtain ⟨d, h1, h2⟩ := h.delta (hip e)
          exact ⟨d, h1, h2, fun e' => hoff (hip e) ⟨e'.1, e'.2.1⟩⟩)⟩
    have g := represent_good _ _ _ _ _ h.valid hd hq
    refine ⟨q, g.kind, g.valid, g.point, fun e => ?_⟩
    subst e
    obtain ⟨d, h1, _⟩ := h.delta rfl
    have := represent_focal _ _ _ _ h.valid (by rw [hd]; rfl) hq
    rw [h1] at this
    rw [h1]; exact this
  cases K
  case cart1 =>
    refine ⟨.cart1 (point p).x, rfl, trivial, ?_, fun e => by cases e⟩
    obtain ⟨e1, e2⟩ := l1 hd
    rcases hq : point p with ⟨x, y, z⟩
    rw [hq] at e1 e2; simp only at e1 e2; subst e1; subst e2; rfl
  case radial =>
    refine ⟨.radial (.dist (point p).x), rfl, hr, ?_, fun e => by cases e⟩
    obtain ⟨e1, e2⟩ := l1 hd
    rcases hq : point p with ⟨x, y, z⟩
    rw [hq] at e1 e2; simp only at e1 e2; subst e1; subst e2; rfl
  case cart2 =>
    refine ⟨.cart2 (point p).x (point p).y, rfl, trivial, ?_, fun e => by cases e⟩
    have e2 := l2 hd
    rcases hq : point p with ⟨x, y, z⟩
    rw [hq] at e2; simp only at e2; subst e2; rfl
  case cart3 => exact ⟨.cart3 (point p).x (point p).y (point p).z, rfl, trivial, rfl, fun e => by cases e⟩
  case twoSphere => exact absurd rfl hi
  all_goals exact key (by decide)

/-- **C20** (path independence). Going through an intermediate class `K₁` gives exactly
the same components as the direct conversion to `K₂`, also when the positions handed over at each
step are in different classes. Excepted: a prolate spheroidal intermediate class, and prolate
spheroidal targets reached from `LonCosLatSphericalVel`, where the second conversion never returns
(`C19_prolate_source_raises`, `C19_lonCosLat_to_prolate_raises`), and `TwoSphereVel`. -/
theorem C20_path_independent (kw : Kw ℝ) (v : Vel ℝ) (K₁ K₂ : VKind) (p p₁ p₂ : Pos ℝ)
    (h₁ : VelCase kw v K₁ p) (h₂ : VelCase kw v K₂ p₂) (hv₁ : Valid p₁) (ht₁ : p₁.kind ≠ .twoSphere)
    (hd₁ : p₁.kind.dim = p.kind.dim) (hp₁ : point p₁ = point p) (hp₂ : point p₂ = point p)
    (hpro : K₁ = .prolate → K₂ = .prolate) (hlcl : K₂ = .prolate → K₁ ≠ .lonCosLat) :
    ∃ w, representVel kw v K₂ p₂ = .ok w ∧
      (do representVel kw (← representVel kw v K₁ p) K₂ p₁) = .ok w := by
  obtain ⟨w₁, a1, a2, a3⟩ := vel_ok h₁
  obtain ⟨w, b1, b2, b3⟩ := vel_ok h₂
  have h₃ : VelCase kw w₁ K₂ p₁ :=
    { valid := hv₁
      dimp := by rw [hd₁, h₁.dimp, a2, h₁.dim]
      dim := by rw [a2, ← h₁.dim, h₂.dim]
      pos_ts := ht₁
      src_ts := by rw [a2]; exact h₁.tgt_ts
      tgt_ts := h₂.tgt_ts
      reg := by rw [a2, hp₁]; exact h₁.reg'
      reg' := by rw [hp₁, ← hp₂]; exact h₂.reg'
      delta := h₂.delta
      src_pro := by rw [a2]; exact hpro
      src_loncoslat := by rw [a2]; exact hlcl }
  obtain ⟨w', c1, c2, c3⟩ := vel_ok h₃
  obtain ⟨q₁, hq₁⟩ := exists_at h₁
  obtain ⟨q₂, hq₂⟩ := exists_at h₂
  have hself : VelCase kw v v.kind p :=
    { valid := h₁.valid, dimp := h₁.dimp, dim := rfl, pos_ts := h₁.pos_ts, src_ts := h₁.src_ts,
      tgt_ts := h₁.src_ts, reg := h₁.reg, reg' := h₁.reg,
      delta := fun e => h₁.delta (h₁.src_pro e), src_pro := id,
      src_loncoslat := fun e => by rw [e]; decide }
  obtain ⟨q₀, hq₀⟩ := exists_at hself
  refine ⟨w, b1, ?_⟩
  rw [a1]
  show representVel kw w₁ K₂ p₁ = _
  rw [c1]
  congr 1
  refine cartVel_inj hq₂.2.1 (by rw [c2, b2]) (by rw [c2]; exact hq₂.1)
    (by rw [hq₂.1, hq₂.2.2.1]; exact h₂.reg')
    (by rw [hq₂.1]; intro e; apply h₂.tgt_ts; revert e; cases K₂ <;> decide) ?_
  rw [c3 q₁ q₂ (by rw [a2, hp₁]; exact hq₁) (by rw [hp₁, ← hp₂]; exact hq₂),
    b3 q₀ q₂ (by rw [hp₂]; exact hq₀) hq₂, a3 q₀ q₁ hq₀ hq₁]

/-- **C20** (round trip). Converting to another class and back at the same point returns
the original components. Excepted: prolate spheroidal velocities, whose conversion back never
returns, and `TwoSphereVel`. -/
theorem C20_round_trip (kw : Kw ℝ) (v : Vel ℝ) (K : VKind) (p p₁ : Pos ℝ)
    (h : VelCase kw v K p) (hK : K ≠ .prolate) (hv₁ : Valid p₁) (ht₁ : p₁.kind ≠ .twoSphere)
    (hd₁ : p₁.kind.dim = p.kind.dim) (hp₁ : point p₁ = point p) :
    (do representVel kw (← representVel kw v K p) v.kind p₁) = .ok v := by
  have hvp : v.kind ≠ .prolate := fun e => hK (h.src_pro e)
  have hself : VelCase kw v v.kind p :=
    { valid := h.valid, dimp := h.dimp, dim := rfl, pos_ts := h.pos_ts, src_ts := h.src_ts,
      tgt_ts := h.src_ts, reg := h.reg, reg' := h.reg,
      delta := fun e => absurd e hvp, src_pro := id,
      src_loncoslat := fun e => by rw [e]; decide }
  obtain ⟨w, h1, h2⟩ := C20_path_independent kw v K v.kind p p₁ p h hself hv₁ ht₁ hd₁ hp₁ rfl
    (fun e => absurd e hK) (fun e => absurd e hvp)
  have : representVel kw v v.kind p = .ok v := by
    unfold representVel
    rw [if_neg (by simp), if_pos ⟨rfl, by
      have := h.src_ts; revert this; cases v.kind <;> decide⟩]
  rw [this] at h1
  cases h1
  exact h2

/-- The round trip of a geographic velocity through Cartesian, at a Cartesian position. -/
example : (representVel {} (.lonCosLat 1 2 3) .cart3 (.cart3 1 1 1) >>=
    fun w => representVel {} w .lonCosLat (.cart3 1 1 1)) = .ok (.lonCosLat 1 2 3) :=
  C20_round_trip {} (.lonCosLat 1 2 3) .cart3 (.cart3 1 1 1) (.cart3 1 1 1)
    { valid := trivial, dimp := rfl, dim := rfl, pos_ts := by decide, src_ts := fun h => (by cases h),
      tgt_ts := by decide, reg := by simp [Vel.kind, VKind.integral, Regular, OffAxis, point],
      reg' := trivial, delta := fun h => (by cases h), src_pro := fun h => (by cases h),
      src_loncoslat := fun h => by cases h } (by decide) trivial (by decide) rfl rfl

/-! ## C21: linearity -/

/-- **C21.** Conversion at a fixed position is linear: if it returns for `v` and `v'`, it returns for
`a v + b v'`, with the same combination of the results. No regularity is assumed. -/
theorem C21_linear (kw : Kw ℝ) (K : VKind) (p : Pos ℝ) (v v' w w' : Vel ℝ) (a b : ℝ)
    (hk : v.kind = v'.kind) (h : representVel kw v K p = .ok w)
    (h' : representVel kw v' K p = .ok w') :
    representVel kw (comb a v b v') K p = .ok (comb a w b w') :=
  representVel_comb a b hk h h'

/-- **C21.** Whether the conversion returns depends on the class of the velocity and on the position,
not on the velocity's components. -/
theorem C21_domain (kw : Kw ℝ) (K : VKind) (p : Pos ℝ) (v v' w : Vel ℝ)
    (hk : v'.kind = v.kind) (h : representVel kw v K p = .ok w) :
    ∃ w', representVel kw v' K p = .ok w' ∧ w'.kind = K := by
  obtain ⟨w', h'⟩ := representVel_same hk h
  exact ⟨w', h', representVel_kind h'⟩

/-- **C21.** The zero velocity is converted to the zero velocity, at every position at which the
conversion returns at all. -/
theorem C21_zero (kw : Kw ℝ) (K : VKind) (p : Pos ℝ) (v w : Vel ℝ)
    (h : representVel kw v K p = .ok w) :
    representVel kw (v.map fun _ => 0) K p = .ok (w.map fun _ => 0) := by
  have e : ∀ u : Vel ℝ, comb 0 u 0 u = u.map fun _ => 0 := by
    intro u; cases u <;> simp [comb, Vel.map]
  rw [← e, ← e]
  exact representVel_comb 0 0 rfl h h

example (w w' : Vel ℝ) (h : representVel {} (.sph 1 2 3) .cart3 (.cyl 2 0 1) = .ok w)
    (h' : representVel {} (.sph 4 5 6) .cart3 (.cyl 2 0 1) = .ok w') :
    representVel {} (.sph 14 19 24) .cart3 (.cyl 2 0 1) = .ok (comb 2 w 3 w') := by
  have := C21_linear {} .cart3 (.cyl 2 0 1) (.sph 1 2 3) (.sph 4 5 6) w w' 2 3 rfl h h'
  norm_num [comb] at this ⊢; exact this

/-! ## C22: `LonCosLatSphericalVel` -/

theorem lonlat_self (kw : Kw ℝ) (lon lat : ℝ) (d : Dist ℝ) :
    representAs kw (.lonlat lon lat d) .lonlat = .ok (.lonlat lon lat d) := by
  have : ∀ n, represent (n + 1) kw (.lonlat lon lat d) .lonlat = .ok (.lonlat lon lat d) :=
    fun n => by simp only [represent]
  exact this 199

/-- **C22.** At a geographic position the factor `cos(lat)` is applied exactly once, in both
directions. -/
theorem C22_factor (kw : Kw ℝ) (lon lat : ℝ) (d : Dist ℝ) (a b c : ℝ) :
    representVel kw (.lonlat a b c) .lonCosLat (.lonlat lon lat d) = .ok (.lonCosLat (a * cos lat) b c) ∧
    (cos lat ≠ 0 → representVel kw (.lonCosLat a b c) .lonlat (.lonlat lon lat d)
      = .ok (.lonlat (a / cos lat) b c)) := by
  constructor
  · show toLonCosLat (.lonlat a b c) (.lonlat lon lat d) = _
    unfold toLonCosLat toLonLat
    rw [if_pos (show (Vel.lonlat a b c).kind = .lonlat from rfl), ok_bind]
    simp only [lonlat_self, ok_bind, Pos.lat]
    rfl
  · intro hc
    show lonCosLatToLonLat a b c (.lonlat lon lat d) = _
    unfold lonCosLatToLonLat
    rw [lonlat_self, ok_bind]
    simp only [Pos.lat, ok_bind]
    rw [show (Num.cos lat : ℝ) = cos lat from rfl, div_real_ok hc]; rfl

/-- **C22.** At any valid position other than the origin, dividing by `cos(lat)` is undefined
exactly on the polar axis. -/
theorem C22_defined_iff (kw : Kw ℝ) (p : Pos ℝ) (hv : Valid p) (hd : p.kind.dim = 3)
    (h0 : point p ≠ V3.zero) (a b c : ℝ) :
    (∃ w, representVel kw (.lonCosLat a b c) .lonlat p = .ok w) ↔ OffAxis (point p) := by
  constructor
  · rintro ⟨w, h⟩
    have h : lonCosLatToLonLat a b c p = .ok w := h
    unfold lonCosLatToLonLat at h
    simp only [bind_ok_iff] at h
    obtain ⟨q, h1, l, h2, x, h3, _⟩ := h
    have g := represent_good _ _ _ _ _ hv (by rw [hd]; rfl) h1
    have gk := g.kind
    cases q <;> first | (cases gk; done) | skip
    rename_i lon lat d
    obtain rfl : lat = l := Except.ok.inj h2
    rw [div_real] at h3
    by_cases hc : Num.cos lat = (0 : ℝ)
    · rw [if_pos hc] at h3; cases h3
    have hc' : cos lat ≠ 0 := hc
    rw [← g.point]
    rw [← g.point] at h0
    rintro ⟨e1, e2⟩
    simp only [point, lonlatPoint] at e1 e2
    have hdist : distOf d ≠ 0 := by
      intro e; apply h0; simp [point, lonlatPoint, e, V3.zero]
    have f1 : cos lon = 0 := by
      simpa [hc', hdist] using e1
    have f2 : sin lon = 0 := by
      simpa [hc', hdist] using e2
    have := Real.sin_sq_add_cos_sq lon
    rw [f1, f2] at this
    norm_num at this
  · intro h
    obtain ⟨w, h1, _⟩ := lonCosLat_ok hv hd h a b c
    exact ⟨w, h1⟩

/-- **C22.** Conversions from and to `LonCosLatSphericalVel` keep the Cartesian velocity, and round
trip, away from the polar axis, for every other class but the prolate spheroidal one. -/
theorem C22_round_trip (kw : Kw ℝ) (K : VKind) (p : Pos ℝ) (a b c : ℝ) (hv : Valid p)
    (hd : p.kind.dim = 3) (hr : OffAxis (point p)) (hK : K.dim = 3) (hKp : K ≠ .prolate) :
    ∃ w, representVel kw (.lonCosLat a b c) K p = .ok w ∧
      representVel kw w .lonCosLat p = .ok (.lonCosLat a b c) ∧
      ∀ p' q, At kw .lonCosLat (point p) p' → At kw K (point p) q →
        cartVel q w = cartVel p' (.lonCosLat a b c) := by
  have h : VelCase kw (.lonCosLat a b c) K p :=
    { valid := hv
      dimp := hd
      dim := hK.symm
      pos_ts := by intro e; rw [e] at hd; cases hd
      src_ts := fun e => by cases e
      tgt_ts := by rintro rfl; cases hK
      reg := hr
      reg' := by cases K <;> first | exact trivial | exact hr | (cases hK; done) | exact absurd rfl hKp
      delta := fun e => absurd e hKp
      src_pro := fun e => by cases e
      src_loncoslat := fun e => absurd e hKp }
  obtain ⟨w, h1, _, h3⟩ := vel_ok h
  have := C20_round_trip kw (.lonCosLat a b c) K p p h hKp hv h.pos_ts rfl rfl
  rw [h1] at this
  exact ⟨w, h1, this, h3⟩

example : ∃ w, representVel {} (.lonCosLat 1 2 3) .cyl (.sph (.dist 2) 1 0) = .ok w :=
  have hs : sin (1 : ℝ) ≠ 0 := (Real.sin_pos_of_pos_of_lt_pi one_pos (by linarith [Real.pi_gt_three])).ne'
  (C22_round_trip {} .cyl (.sph (.dist 2) 1 0) 1 2 3
    ⟨by norm_num [DistOk], by norm_num, by linarith [Real.pi_gt_three]⟩ rfl
    (by simp [OffAxis, point, sphPoint, distOf, hs]) rfl (by decide)).imp fun _ h => h.1

/-! ## C23: speed -/

/-- **C23.** In three dimensions and in one, `vel.norm(position)` returns the length of the
Cartesian velocity, for every class and regular position. Excepted: two dimensions, where it always
raises (`C23_two_dimensions_raise`), and prolate spheroidal velocities
(`C23_prolate_raises`). -/
theorem C23_speed (v : Vel ℝ) (p : Pos ℝ) (hv : Valid p) (hd : p.kind.dim = v.kind.dim)
    (h2 : v.kind.dim ≠ 2) (hpro : v.kind ≠ .prolate) (hr : Regular v.kind.integral (point p))
    (p' : Pos ℝ) (hp' : At {} v.kind (point p) p') :
    normVel v p = .ok (V3.norm (cartVel p' v)) := by
  have hcart : ∀ u : Vel ℝ, (u.kind = .cart1 ∨ u.kind = .cart3) → ∀ q : Pos ℝ,
      q.kind = u.kind.integral → normCartVel u = .ok (V3.norm (cartVel q u)) := by
    intro u hu q hq
    cases u <;> simp only [Vel.kind] at hu <;> first
      | (exfalso; revert hu; decide)
      | skip
    · cases q <;> first | (cases hq; done) | skip
      simp only [normCartVel, cartVel, V3.norm]
      rw [show (Num.abs _ : ℝ) = |_| from rfl, ← Real.sqrt_sq_eq_abs]
      congr 2; ring
    · cases q <;> first | (cases hq; done) | skip
      rename_i a b c _ _ _
      simp only [normCartVel, cartVel, V3.norm]
      rw [sqrt_real_ok (sumsq3_nonneg a b c)]
      congr 2; ring
  by_cases hc : v.kind = .cart1 ∨ v.kind = .cart3
  · have e := hcart v hc p' hp'.1
    rw [← e]
    cases v <;> first | rfl | (exfalso; revert hc; simp [Vel.kind])
  · have hpt : p.kind ≠ .twoSphere := by
      intro e; rw [e] at hd; exact h2 hd.symm
    have h : VelCase {} v v.kind.cartesian p :=
      { valid := hv
        dimp := hd
        dim := by revert h2; cases v.kind <;> decide
        pos_ts := hpt
        src_ts := by intro e; rw [e] at h2; exact h2 rfl
        tgt_ts := by cases v.kind <;> decide
        reg := hr
        reg' := by cases v.kind <;> exact trivial
        delta := by cases v.kind <;> exact fun e => by cases e
        src_pro := fun e => absurd e hpro
        src_loncoslat := by cases v.kind <;> exact fun e => by cases e }
    obtain ⟨w, a1, a2, a3⟩ := vel_ok h
    obtain ⟨q, hq⟩ := exists_at h
    have : normVel v p = (representVel {} v v.kind.cartesian p >>= normCartVel) := by
      cases v <;> first | rfl | (exfalso; revert hc; simp [Vel.kind])
    rw [this, a1, ← a3 p' q hp' hq]
    refine hcart w ?_ q (by rw [a2]; exact hq.1)
    rw [a2]
    revert h2; cases v.kind <;> decide

/-- **C23, exception.** In two dimensions: the speed is never returned. -/
theorem C23_two_dimensions_raise (v : Vel ℝ) (p : Pos ℝ) (h2 : v.kind.dim = 2) (s : ℝ) :
    normVel v p ≠ .ok s := by
  intro h
  have : normVel v p = (representVel {} v .cart2 p >>= normCartVel) := by
    cases v <;> first | rfl | (exfalso; revert h2; simp [Vel.kind, VKind.dim, VKind.integral, Kind.dim])
  rw [this] at h
  obtain ⟨w, h1, h3⟩ := (bind_ok_iff _ _ _).mp h
  have := representVel_kind h1
  cases w <;> first | (cases this; done) | cases h3

/-- **C23, exception.** Prolate spheroidal velocities: the speed is never returned. -/
theorem C23_prolate_raises (a b c : ℝ) (p : Pos ℝ) (s : ℝ) : normVel (.prolate a b c) p ≠ .ok s := by
  intro h
  have : normVel (.prolate a b c) p = (representVel {} (.prolate a b c) .cart3 p >>= normCartVel) := rfl
  rw [this] at h
  obtain ⟨w, h1, _⟩ := (bind_ok_iff _ _ _).mp h
  exact C19_prolate_source_raises _ _ _ _ _ rfl (by decide) h1

/-- circular motion with radius 2 and unit angular rate: speed 2 -/
example : normVel (.cyl 0 1 0) (.cyl 2 0 5) = .ok 2 := by
  rw [C23_speed (.cyl 0 1 0) (.cyl 2 0 5) (by norm_num [Valid]) rfl (by decide) (by decide)
    (by simp [Vel.kind, VKind.integral, Regular, OffAxis, point, cylPoint]) (.cyl 2 0 5)
    ⟨rfl, by norm_num [Valid], rfl, fun e => by cases e⟩]
  simp [cartVel, V3.norm]

end Verif
