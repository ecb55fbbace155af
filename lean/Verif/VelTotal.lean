import Verif.VelMain

/-! # All velocity conversions; injectivity (helper lemmas) -/

namespace Verif

open Real Spec

theorem cos_lat_ne {lon lat : ℝ} {d : Dist ℝ} (h : OffAxis (point (.lonlat lon lat d))) :
    cos lat ≠ 0 := by
  intro hc
  apply h
  simp [point, lonlatPoint, hc]

theorem cos_lat_ne' {lon lat : ℝ} {d : Dist ℝ} (h : OffAxis (point (.lonlat lon lat d))) :
    distOf d ≠ 0 := by
  intro hc
  apply h
  simp [point, lonlatPoint, hc]

theorem pos_lonlat {kw : Kw ℝ} {p : Pos ℝ} (hv : Valid p) (hd : p.kind.dim = 3)
    (hr : OffAxis (point p)) : ∃ lon lat d, representAs kw p .lonlat = .ok (.lonlat lon lat d) ∧
      Valid (.lonlat lon lat d) ∧ point (.lonlat lon lat d) = point p := by
  obtain ⟨q, hq⟩ := pos_total (kw := kw) (k := .lonlat) (k' := .cyl) hv (by rw [hd]; rfl) rfl
    (by rintro e; rw [e] at hd; cases hd) (by decide) (by decide) (by decide) hr hr
  have g := represent_good _ _ _ _ _ hv (by rw [hd]; rfl) hq
  have hk := g.kind
  cases q <;> first | (cases hk; done) | exact ⟨_, _, _, hq, g.valid, g.point⟩

theorem cartVel_lonCosLat {lon lat : ℝ} {d : Dist ℝ} (a b c : ℝ) :
    cartVel (.lonlat lon lat d) (.lonCosLat (a * cos lat) b c)
      = cartVel (.lonlat lon lat d) (.lonlat a b c) := by
  simp only [cartVel, V3.mk.injEq, and_true]
  constructor <;> ring

/-- LonCosLat -> LonLat -/
theorem lonCosLat_ok {p : Pos ℝ} (hv : Valid p) (hd : p.kind.dim = 3) (hr : OffAxis (point p))
    (a b c : ℝ) : ∃ w, lonCosLatToLonLat a b c p = .ok w ∧ w.kind = .lonlat ∧
      ∀ kw p' q, At kw .lonCosLat (point p) p' → At kw .lonlat (point p) q →
        cartVel q w = cartVel p' (.lonCosLat a b c) := by
  obtain ⟨lon, lat, d, h1, h2, h3⟩ := pos_lonlat (kw := {}) hv hd hr
  have hc : cos lat ≠ 0 := cos_lat_ne (by rw [h3]; exact hr)
  refine ⟨.lonlat (a / cos lat) b c, ?_, rfl, ?_⟩
  · unfold lonCosLatToLonLat
    rw [h1]
    show (do let q ← Num.div a (cos lat); return Vel.lonlat q b c : Res (Vel ℝ)) = _
    rw [show (Num.div a (cos lat) : Res ℝ) = .ok (a / cos lat) by simp [Num.div, hc]]
    rfl
  · intro kw p' q hp' hq
    rw [cartVel_congr hq.2.1 h2 hq.1 (by rw [focal_none (by rw [hq.1]; decide)]; rfl)
        (by rw [hq.2.2.1, h3]) (by rw [hq.1, hq.2.2.1]; exact hr),
      cartVel_congr hp'.2.1 h2 hp'.1 (by rw [focal_none (by rw [hp'.1]; decide)]; rfl)
        (by rw [hp'.2.2.1, h3]) (by rw [hp'.1, hp'.2.2.1]; exact hr),
      ← cartVel_lonCosLat, div_mul_cancel₀ _ hc]

theorem vel_lonlat_of {v : Vel ℝ} (h : v.kind = .lonlat) : ∃ a b c, v = .lonlat a b c := by
  cases v <;> first | (cases h; done) | exact ⟨_, _, _, rfl⟩

/-- a LonLat velocity -> LonCosLat -/
theorem toLonCosLat_aux {p : Pos ℝ} (hv : Valid p) (hd : p.kind.dim = 3) (hr : OffAxis (point p))
    (a b c : ℝ) : ∃ w, (do let pv ← representAs {} p .lonlat
                           return .lonCosLat (a * Num.cos (← pv.lat)) b c : Res (Vel ℝ)) = .ok w ∧
      w.kind = .lonCosLat ∧ ∀ kw p' q, At kw .lonlat (point p) p' → At kw .lonCosLat (point p) q →
        cartVel q w = cartVel p' (.lonlat a b c) := by
  obtain ⟨lon, lat, d, h1, h2, h3⟩ := pos_lonlat (kw := {}) hv hd hr
  refine ⟨.lonCosLat (a * cos lat) b c, by rw [h1]; rfl, rfl, ?_⟩
  intro kw p' q hp' hq
  rw [cartVel_congr hq.2.1 h2 hq.1 (by rw [focal_none (by rw [hq.1]; decide)]; rfl)
      (by rw [hq.2.2.1, h3]) (by rw [hq.1, hq.2.2.1]; exact hr),
    cartVel_congr hp'.2.1 h2 hp'.1 (by rw [focal_none (by rw [hp'.1]; decide)]; rfl)
      (by rw [hp'.2.2.1, h3]) (by rw [hp'.1, hp'.2.2.1]; exact hr),
    ← cartVel_lonCosLat]

theorem exists_lonlat {p : Pos ℝ} (hv : Valid p) (hd : p.kind.dim = 3) (hr : OffAxis (point p)) :
    ∃ m, ∀ kw, At kw .lonlat (point p) m ∧ At kw .lonCosLat (point p) m := by
  obtain ⟨lon, lat, d, h1, h2, h3⟩ := pos_lonlat (kw := {}) hv hd hr
  exact ⟨_, fun kw => ⟨⟨rfl, h2, h3, fun e => by cases e⟩, ⟨rfl, h2, h3, fun e => by cases e⟩⟩⟩

/-- every conversion of `VelCase` succeeds and transports the velocity -/
theorem vel_ok {kw : Kw ℝ} {v : Vel ℝ} {K : VKind} {p : Pos ℝ} (h : VelCase kw v K p) :
    ∃ w, representVel kw v K p = .ok w ∧ w.kind = K ∧
      ∀ p' q, At kw v.kind (point p) p' → At kw K (point p) q → cartVel q w = cartVel p' v := by
  unfold representVel
  rw [if_neg (not_not.mpr h.dim)]
  by_cases hk : v.kind = K
  · have hs : K.selfRule = true := by
      have := h.tgt_ts; revert this; cases K <;> decide
    rw [if_pos ⟨hk, hs⟩]
    refine ⟨v, rfl, hk, fun p' q hp' hq => ?_⟩
    refine cartVel_congr hq.2.1 hp'.2.1 (by rw [hq.1, hp'.1, hk]) ?_ (by rw [hq.2.2.1, hp'.2.2.1])
      (by rw [hq.1, hq.2.2.1]; exact h.reg') v
    by_cases hK : K = .prolate
    · rw [hq.2.2.2 hK, hp'.2.2.2 (by rw [hk, hK])]
    · have hi : K.integral ≠ .prolate := by revert hK; cases K <;> decide
      rw [focal_none (by rw [hq.1]; exact hi), focal_none (by rw [hp'.1, hk]; exact hi)]
  rw [if_neg (by tauto)]
  have gen : v.kind ≠ .lonCosLat → K ≠ .lonCosLat → ∃ w, representVelGeneric kw v K p = .ok w ∧
      w.kind = K ∧ ∀ p' q, At kw v.kind (point p) p' → At kw K (point p) q →
        cartVel q w = cartVel p' v := by
    intro h1 h2
    obtain ⟨w, a1, a2, a3⟩ := generic_ok (kw := kw) h.valid h.dimp h.dim h.pos_ts h.src_ts
      (fun e => hk (by rw [e, h.src_pro e])) h1 h.tgt_ts h2 hk h.reg h.reg' h.delta
    exact ⟨w, a1, a2, fun p' q hp' hq => a3 p' q hp'.1 hp'.2.1 hp'.2.2.1 hq.1 hq.2.1 hq.2.2.1
      hq.2.2.2⟩
  by_cases hv : v.kind = .lonCosLat
  · have hd3 : p.kind.dim = 3 := by rw [h.dimp, hv]; rfl
    have hr : OffAxis (point p) := by have := h.reg; rw [hv] at this; exact this
    obtain ⟨m, hm⟩ := exists_lonlat h.valid hd3 hr
    obtain ⟨a, b, c, rfl⟩ : ∃ a b c, v = .lonCosLat a b c := by
      cases v <;> first | (cases hv; done) | exact ⟨_, _, _, rfl⟩
    obtain ⟨w1, b1, b2, b3⟩ := lonCosLat_ok h.valid hd3 hr a b c
    by_cases hK : K = .lonlat
    · subst hK
      exact ⟨w1, b1, b2, fun p' q hp' hq => b3 kw p' q hp' hq⟩
    · have hKp : K ≠ .prolate := fun e => h.src_loncoslat e rfl
      obtain ⟨w, a1, a2, a3⟩ := generic_ok (kw := {}) (v := w1) (k := K) h.valid
        (by rw [b2, hd3]; rfl) (by rw [b2, ← h.dim]; rfl) h.pos_ts
        (by rw [b2]; decide) (by rw [b2]; decide) (by rw [b2]; decide) h.tgt_ts (fun e => hk e.symm)
        (by rw [b2]; exact fun e => hK e.symm) (by rw [b2]; exact hr) h.reg'
        (fun e => absurd e hKp)
      refine ⟨w, ?_, a2, ?_⟩
      · have e : (lonCosLatToLonLat a b c p >>= fun x => representVelGeneric {} x K p) = .ok w := by
          rw [b1]; exact a1
        cases K <;> first | exact absurd rfl hK | exact e
      · intro p' q hp' hq
        rw [a3 m q (by rw [b2]; exact (hm kw).1.1) (hm kw).1.2.1 (hm kw).1.2.2.1 hq.1 hq.2.1 hq.2.2.1
          (fun e => absurd e hKp)]
        exact b3 kw p' m hp' (hm kw).1
  by_cases hK : K = .lonCosLat
  · subst hK
    have hd3 : p.kind.dim = 3 := by rw [h.dimp, h.dim]; rfl
    have hr : OffAxis (point p) := h.reg'
    obtain ⟨m, hm⟩ := exists_lonlat h.valid hd3 hr
    have key : ∃ w, toLonCosLat v p = .ok w ∧ w.kind = .lonCosLat ∧
        ∀ p' q, At kw v.kind (point p) p' → At kw .lonCosLat (point p) q →
          cartVel q w = cartVel p' v := by
      unfold toLonCosLat toLonLat
      by_cases hv' : v.kind = .lonlat
      · rw [if_pos hv']
        obtain ⟨a, b, c, rfl⟩ := vel_lonlat_of hv'
        obtain ⟨w, a1, a2, a3⟩ := toLonCosLat_aux h.valid hd3 hr a b c
        exact ⟨w, a1, a2, fun p' q hp' hq => a3 kw p' q hp' hq⟩
      · rw [if_neg hv']
        obtain ⟨w1, b1, b2, b3⟩ := generic_ok (kw := {}) (v := v) (k := .lonlat) h.valid h.dimp h.dim
          h.pos_ts h.src_ts (fun e => by have := h.src_pro e; cases this) hv (by decide)
          (by decide) hv' h.reg hr (fun e => by cases e)
        rw [b1]
        obtain ⟨a, b, c, rfl⟩ := vel_lonlat_of b2
        obtain ⟨w, a1, a2, a3⟩ := toLonCosLat_aux h.valid hd3 hr a b c
        refine ⟨w, a1, a2, fun p' q hp' hq => ?_⟩
        rw [a3 kw m q (hm kw).1 hq]
        exact b3 p' m hp'.1 hp'.2.1 hp'.2.2.1 (hm kw).1.1 (hm kw).1.2.1 (hm kw).1.2.2.1
          (fun e => by cases e)
    cases v <;> first | exact absurd rfl hv | exact key
  · have := gen hv hK
    cases v <;> cases K <;> first | exact absurd rfl hv | exact absurd rfl hK | exact this

/-! ### injectivity -/

theorem rot_inj {c s x y x' y' : ℝ} (h : s ^ 2 + c ^ 2 = 1)
    (hx : x * c - y * s = x' * c - y' * s) (hy : x * s + y * c = x' * s + y' * c) :
    x = x' ∧ y = y' := by
  constructor
  · linear_combination c * hx + s * hy - (x - x') * h
  · linear_combination -s * hx + c * hy - (y - y') * h

theorem sphVel_inj {r θ φ a b c a' b' c' : ℝ} (hr : r ≠ 0) (hs : sin θ ≠ 0)
    (h1 : a * (sin θ * cos φ) + b * (r * cos θ * cos φ) - c * (r * sin θ * sin φ)
      = a' * (sin θ * cos φ) + b' * (r * cos θ * cos φ) - c' * (r * sin θ * sin φ))
    (h2 : a * (sin θ * sin φ) + b * (r * cos θ * sin φ) + c * (r * sin θ * cos φ)
      = a' * (sin θ * sin φ) + b' * (r * cos θ * sin φ) + c' * (r * sin θ * cos φ))
    (h3 : a * cos θ - b * (r * sin θ) = a' * cos θ - b' * (r * sin θ)) :
    a = a' ∧ b = b' ∧ c = c' := by
  obtain ⟨e1, e2⟩ := rot_inj (x := a * sin θ + b * (r * cos θ)) (x' := a' * sin θ + b' * (r * cos θ))
    (y := c * (r * sin θ)) (y' := c' * (r * sin θ)) (Real.sin_sq_add_cos_sq φ)
    (by linear_combination h1) (by linear_combination h2)
  obtain ⟨e3, e4⟩ := rot_inj (x := a) (x' := a') (y := b * r) (y' := b' * r)
    (Real.sin_sq_add_cos_sq θ) (by linear_combination h3) (by linear_combination e1)
  exact ⟨e3, mul_right_cancel₀ hr e4, mul_right_cancel₀ (mul_ne_zero hr hs) e2⟩

theorem offAxis_lonlat {lon lat : ℝ} {d : Dist ℝ} (h : OffAxis (point (.lonlat lon lat d))) :
    distOf d ≠ 0 ∧ cos lat ≠ 0 := ⟨cos_lat_ne' h, cos_lat_ne h⟩

theorem cartVel_inj {q : Pos ℝ} (hv : Valid q) {v w : Vel ℝ} (hk : v.kind = w.kind)
    (hq : q.kind = v.kind.integral) (hr : Regular q.kind (point q)) (hts : q.kind ≠ .twoSphere)
    (h : cartVel q v = cartVel q w) : v = w := by
  cases v <;> cases w <;> first | (cases hk; done) | skip
  all_goals cases q <;> first | (cases hq; done) | exact absurd rfl hts | skip
  all_goals simp only [cartVel, V3.mk.injEq] at h
  case cart1 => rw [h.1]
  case radial => rw [h.1]
  case cart2 => rw [h.1, h.2.1]
  case cart3 => rw [h.1, h.2.1, h.2.2]
  case polar a b a' b' r φ =>
    have ho : distOf r ≠ 0 := by
      intro h0; apply hr; simp [point, h0]
    obtain ⟨e1, e2⟩ := rot_inj (x := a) (x' := a') (y := distOf r * b) (y' := distOf r * b')
      (Real.sin_sq_add_cos_sq φ) (by linear_combination h.1) (by linear_combination h.2.1)
    rw [e1, mul_left_cancel₀ ho e2]
  case cyl a b c a' b' c' r φ z =>
    obtain ⟨e1, e2⟩ := rot_inj (x := a) (x' := a') (y := r * b) (y' := r * b')
      (Real.sin_sq_add_cos_sq φ) (by linear_combination h.1) (by linear_combination h.2.1)
    rw [e1, mul_left_cancel₀ (offAxis_cyl hr) e2, h.2.2]
  case sph a b c a' b' c' r θ φ =>
    have hp := offAxis_sph hr (distOf_nonneg hv.1) hv.2.1 hv.2.2
    obtain ⟨e1, e2, e3⟩ := sphVel_inj (r := distOf r) (θ := θ) (φ := φ) (a := a) (b := b) (c := c)
      (a' := a') (b' := b') (c' := c') (by intro e; rw [e] at hp; simp at hp)
      (by intro e; rw [e] at hp; simp at hp) h.1 h.2.1 h.2.2
    rw [e1, e2, e3]
  case math a b c a' b' c' r θ φ =>
    have hp := offAxis_sph hr (distOf_nonneg hv.1) hv.2.1 hv.2.2
    obtain ⟨e1, e2, e3⟩ := sphVel_inj (r := distOf r) (θ := φ) (φ := θ) (a := a) (b := c) (c := b)
      (a' := a') (b' := c') (c' := b') (by intro e; rw [e] at hp; simp at hp)
      (by intro e; rw [e] at hp; simp at hp) (by linear_combination h.1) (by linear_combination h.2.1)
      (by linear_combination h.2.2)
    rw [e1, e2, e3]
  case lonlat a b c a' b' c' lon lat d =>
    obtain ⟨o1, o2⟩ := offAxis_lonlat hr
    obtain ⟨e1, e2, e3⟩ := sphVel_inj (r := distOf d) (θ := π / 2 - lat) (φ := lon) (a := c) (b := -b)
      (c := a) (a' := c') (b' := -b') (c' := a') o1 (by rw [Real.sin_pi_div_two_sub]; exact o2)
      (by rw [Real.sin_pi_div_two_sub, Real.cos_pi_div_two_sub]; linear_combination h.1)
      (by rw [Real.sin_pi_div_two_sub, Real.cos_pi_div_two_sub]; linear_combination h.2.1)
      (by rw [Real.sin_pi_div_two_sub, Real.cos_pi_div_two_sub]; linear_combination h.2.2)
    rw [e1, neg_inj.mp e2, e3]
  case lonCosLat a b c a' b' c' lon lat d =>
    obtain ⟨o1, o2⟩ := offAxis_lonlat hr
    obtain ⟨e1, e2, e3⟩ := sphVel_inj (r := distOf d) (θ := π / 2 - lat) (φ := lon) (a := c) (b := -b)
      (c := a / cos lat) (a' := c') (b' := -b') (c' := a' / cos lat) o1
      (by rw [Real.sin_pi_div_two_sub]; exact o2)
      (by rw [Real.sin_pi_div_two_sub, Real.cos_pi_div_two_sub]; field_simp
          linear_combination h.1)
      (by rw [Real.sin_pi_div_two_sub, Real.cos_pi_div_two_sub]; field_simp
          linear_combination h.2.1)
      (by rw [Real.sin_pi_div_two_sub, Real.cos_pi_div_two_sub]; linear_combination h.2.2)
    rw [e1, neg_inj.mp e2, (div_left_inj' o2).mp e3]
  case prolate a b c a' b' c' μ ν φ Δ =>
    obtain ⟨o1, o2⟩ := hr
    have hρ : prolR μ ν Δ ≠ 0 := offAxis_cyl o1
    have hz : prolZ μ ν Δ ≠ 0 := o2
    have hΔ : Δ ≠ 0 := hv.1.ne'
    obtain ⟨h1, h2, h3⟩ := h
    obtain ⟨e1, e2⟩ := rot_inj (Real.sin_sq_add_cos_sq φ)
      (x := (a * (1 - |ν| / Δ ^ 2) - (μ - Δ ^ 2) * ((if ν < 0 then (-1 : ℝ) else 1) * b) / Δ ^ 2) /
        (2 * prolR μ ν Δ))
      (x' := (a' * (1 - |ν| / Δ ^ 2) - (μ - Δ ^ 2) * ((if ν < 0 then (-1 : ℝ) else 1) * b') / Δ ^ 2) /
        (2 * prolR μ ν Δ))
      (y := prolR μ ν Δ * c) (y' := prolR μ ν Δ * c')
      (by linear_combination h1) (by linear_combination h2)
    rw [div_left_inj' (mul_ne_zero two_ne_zero hρ)] at e1
    rw [div_left_inj' (mul_ne_zero two_ne_zero hz), div_left_inj' (pow_ne_zero 2 hΔ)] at h3
    have hlt : |ν| < μ := by
      rcases lt_or_eq_of_le hv.2.2 with h | h
      · exact lt_of_lt_of_le h hv.2.1
      · exfalso; apply hρ; simp [prolR, h, hΔ]
    have hs : (if ν < 0 then (-1 : ℝ) else 1) ≠ 0 := by split_ifs <;> norm_num
    generalize (if ν < 0 then (-1 : ℝ) else 1) = s at *
    have hd : (μ - |ν|) ≠ 0 := by linarith
    field_simp at e1
    have ea : a = a' := by
      apply mul_right_cancel₀ hd
      have hΔ2 : Δ ^ 2 ≠ 0 := pow_ne_zero 2 hΔ
      apply mul_right_cancel₀ hΔ2
      linear_combination μ * e1 + (μ - Δ ^ 2) * h3
    have hμ : μ ≠ 0 := by have := abs_nonneg ν; linarith
    have eb : b = b' := by
      apply mul_left_cancel₀ (mul_ne_zero hμ hs)
      rw [ea] at h3
      linear_combination h3
    rw [ea, eb, mul_left_cancel₀ hρ e2]

end Verif
