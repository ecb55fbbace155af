import Verif.Props.Space

/-!
# Poincaré polar coordinates: C41

Scope: scalar components; any 3-D position and velocity classes.
-/

namespace Verif

open Real Spec

namespace Spec

/-- z component of `x × v` -/
def angularZ (x v : V3) : ℝ := x.x * v.y - x.y * v.x

end Spec

theorem wrapR_atan2_polar {S φ : ℝ} (hS : 0 < S) : wrapR (atan2R (S * sin φ) (S * cos φ)) = wrapR φ := by
  have hsq : √(S * cos φ * (S * cos φ) + S * sin φ * (S * sin φ)) = S := by
    have : S * cos φ * (S * cos φ) + S * sin φ * (S * sin φ) = S ^ 2 := by
      linear_combination S ^ 2 * Real.sin_sq_add_cos_sq φ
    rw [this, Real.sqrt_sq hS.le]
  have hc := sqrt_mul_cos_atan2 (S * cos φ) (S * sin φ)
  have hs := sqrt_mul_sin_atan2 (S * cos φ) (S * sin φ)
  rw [hsq] at hc hs
  exact angle_unique (wrapR_nonneg _) (wrapR_lt _) (wrapR_nonneg _) (wrapR_lt _)
    (by rw [cos_wrapR, cos_wrapR]; exact mul_left_cancel₀ hS.ne' hc)
    (by rw [sin_wrapR, sin_wrapR]; exact mul_left_cancel₀ hS.ne' hs)

/-- what the round trip does in terms of cylindrical components -/
theorem poincare_core {names : DimNames} (hn : Standard names) {s : Space SVec} {p : Pos ℝ} {v : Vel ℝ}
    (hp : s.getStr "length" = .ok (.pos p)) (hv : s.getStr "speed" = .ok (.vel v)) {ρ φ z a b c : ℝ}
    (hq : representAs {} p .cyl = .ok (.cyl ρ φ z)) (hρ : 0 < ρ)
    (hw : representVel {} v .cyl (.cyl ρ φ z) = .ok (.cyl a b c)) :
    ∃ w, toPoincare s = .ok w ∧ ofPoincare names w =
      .ok ⟨[("length", .pos (.cyl ρ (if b = 0 then 0 else wrapR φ) z)), ("speed", .vel (.cyl a |b| c))]⟩ := by
  have hS : (0 : ℝ) ≤ |2 * (ρ * ρ) * b| := abs_nonneg _
  refine ⟨⟨ρ, √|2 * (ρ * ρ) * b| * cos φ, z, a, √|2 * (ρ * ρ) * b| * sin φ, c⟩, ?_, ?_⟩
  · unfold toPoincare
    rw [hp, ok_bind]
    show (do let q ← representAs {} p .cyl; _) = _
    rw [hq, ok_bind, hv, ok_bind]
    show (do let p ← representVel {} v .cyl (.cyl ρ φ z); _) = _
    rw [hw, ok_bind]
    simp only [Pos.cylFields, Vel.cylFields, ok_bind]
    have : (Num.abs (Num.nat 2 * (ρ * ρ) * b) : ℝ) = |2 * (ρ * ρ) * b| := by
      simp [Num.abs, Num.nat]
    rw [this, sqrt_real_ok hS, ok_bind]
    rfl
  · have hρ2 : ρ * ρ ≠ 0 := mul_ne_zero hρ.ne' hρ.ne'
    unfold ofPoincare
    simp only [atan2_real, ok_bind]
    have h2 : (Num.nat 2 : ℝ) = 2 := by simp [Num.nat]
    rw [h2, div_real_ok two_ne_zero, ok_bind, div_real_ok hρ2, ok_bind, mkCyl_ok _ hρ.le, ok_bind]
    have hphi : (AzArg.qty (atan2R (√|2 * (ρ * ρ) * b| * sin φ) (√|2 * (ρ * ρ) * b| * cos φ))).convert =
        if b = 0 then 0 else wrapR φ := by
      show wrapR _ = _
      split
      · rename_i hb
        subst hb
        simp only [mul_zero, abs_zero, Real.sqrt_zero, zero_mul]
        have : atan2R 0 0 = 0 := Complex.arg_zero
        rw [this]; exact wrapR_of_mem le_rfl (by positivity)
      · rename_i hb
        exact wrapR_atan2_polar (Real.sqrt_pos.mpr (abs_pos.mpr (mul_ne_zero (mul_ne_zero two_ne_zero hρ2) hb)))
    have hd : (√|2 * (ρ * ρ) * b| * cos φ * (√|2 * (ρ * ρ) * b| * cos φ) +
        √|2 * (ρ * ρ) * b| * sin φ * (√|2 * (ρ * ρ) * b| * sin φ)) / 2 / (ρ * ρ) = |b| := by
      have h3 := Real.mul_self_sqrt hS
      have h4 : |2 * (ρ * ρ) * b| = 2 * (ρ * ρ) * |b| := by
        rw [abs_mul, abs_of_pos (by positivity)]
      have h5 : √|2 * (ρ * ρ) * b| * cos φ * (√|2 * (ρ * ρ) * b| * cos φ) +
          √|2 * (ρ * ρ) * b| * sin φ * (√|2 * (ρ * ρ) * b| * sin φ) = 2 * (ρ * ρ) * |b| := by
        rw [← h4]
        linear_combination (√|2 * (ρ * ρ) * b| * √|2 * (ρ * ρ) * b|) * Real.sin_sq_add_cos_sq φ + h3
      rw [h5]; field_simp
    rw [hphi, hd]
    rw [mkSpace_iff (by simp)]
    refine ⟨["length", "speed"], [[], []], [], ?_, rfl, rfl, ?_⟩
    · rw [mapM_res_iff]; exact .cons hn.1 (.cons hn.2 .nil)
    · simp [dictOf, dictSet]

/-- the cylindrical form of a moving point off the axis, as the conversions compute it -/
theorem cyl_form {p : Pos ℝ} {v : Vel ℝ} (hc : VelCase {} v .cyl p) :
    ∃ ρ φ z a b c, representAs {} p .cyl = .ok (.cyl ρ φ z) ∧ 0 < ρ ∧
      representVel {} v .cyl (.cyl ρ φ z) = .ok (.cyl a b c) ∧ point (.cyl ρ φ z) = point p ∧
      (Canon p → InTurn φ) ∧
      ∀ p', At {} v.kind (point p) p' → cartVel (.cyl ρ φ z) (.cyl a b c) = cartVel p' v := by
  have hoff : OffAxis (point p) := hc.reg'
  have h0 : point p ≠ V3.zero := fun h => hoff (by rw [h]; exact ⟨rfl, rfl⟩)
  have hdim : p.kind.dim = Kind.cyl.dim := by rw [hc.dimp, hc.dim]; rfl
  obtain ⟨q, hq⟩ : ∃ q, representAs {} p .cyl = .ok q :=
    represent_total 197 ⟨hc.valid, hdim, hc.pos_ts, (by decide), fun _ => h0, (fun h => by cases h), fun h => by cases h⟩
  have g := represent_good _ _ _ _ _ hc.valid hdim hq
  obtain ⟨ρ, φ, z, rfl⟩ : ∃ ρ φ z, q = .cyl ρ φ z := by
    have := g.kind
    cases q <;> first | (cases this; done) | exact ⟨_, _, _, rfl⟩
  have hρ : 0 < ρ := by
    refine lt_of_le_of_ne g.valid fun h => hoff ?_
    rw [← g.point]
    simp [point, cylPoint, ← h]
  have hc' : VelCase {} v .cyl (.cyl ρ φ z) :=
    { valid := g.valid, dimp := by rw [hc.dim]; rfl, dim := hc.dim, pos_ts := (fun h => by cases h),
      src_ts := hc.src_ts, tgt_ts := hc.tgt_ts, reg := by rw [g.point]; exact hc.reg,
      reg' := by rw [g.point]; exact hc.reg', delta := hc.delta, src_pro := hc.src_pro,
      src_loncoslat := hc.src_loncoslat }
  obtain ⟨w, h1, h2, h3⟩ := vel_ok hc'
  obtain ⟨a, b, c, rfl⟩ : ∃ a b c, w = .cyl a b c := by
    cases w <;> first | (cases h2; done) | exact ⟨_, _, _, rfl⟩
  refine ⟨ρ, φ, z, a, b, c, hq, hρ, h1, g.point, g.canon, fun p' hp' => ?_⟩
  exact h3 p' _ (by rw [g.point]; exact hp') ⟨rfl, g.valid, rfl, fun h => by cases h⟩

theorem angularZ_cyl (ρ φ z a b c : ℝ) :
    angularZ (point (.cyl ρ φ z)) (cartVel (.cyl ρ φ z) (.cyl a b c)) = ρ ^ 2 * b := by
  simp only [angularZ, point, cylPoint, cartVel]
  linear_combination (ρ ^ 2 * b) * Real.sin_sq_add_cos_sq φ

/-- **C41.** A moving point off the z axis, given in any class, whose angular momentum about the
z axis is positive comes back from Poincaré polar coordinates at the same point and with the same
velocity, in cylindrical classes; and exactly as its conversion to cylindrical coordinates, unless its own
azimuth is out of range. Other angular momenta: `C41_round_trip_iff`. -/
theorem C41_round_trip (names : DimNames) (hn : Standard names) (p : Pos ℝ) (v : Vel ℝ)
    (s : Space SVec) (hp : s.getStr "length" = .ok (.pos p)) (hv : s.getStr "speed" = .ok (.vel v))
    (hc : VelCase {} v .cyl p) (p' : Pos ℝ) (hp' : At {} v.kind (point p) p')
    (hL : 0 < angularZ (point p) (cartVel p' v)) :
    ∃ w s' q u, toPoincare s = .ok w ∧ ofPoincare names w = .ok s' ∧
      s'.data = [("length", .pos q), ("speed", .vel u)] ∧ q.kind = .cyl ∧ u.kind = .cyl ∧
      point q = point p ∧ cartVel q u = cartVel p' v ∧
      (Canon p → representAs {} p .cyl = .ok q ∧ representVel {} v .cyl q = .ok u) := by
  obtain ⟨ρ, φ, z, a, b, c, h1, hρ, h2, h3, h4, h5⟩ := cyl_form hc
  obtain ⟨w, k1, k2⟩ := poincare_core hn hp hv h1 hρ h2
  have hL' := angularZ_cyl ρ φ z a b c
  rw [h3, h5 p' hp'] at hL'
  rw [hL'] at hL
  have hb : 0 < b := by
    by_contra h
    exact absurd hL (not_lt.mpr (mul_nonpos_of_nonneg_of_nonpos (by positivity) (not_lt.mp h)))
  rw [if_neg hb.ne', abs_of_pos hb] at k2
  refine ⟨w, _, _, _, k1, k2, rfl, rfl, rfl, ?_, ?_, fun hcan => ?_⟩
  · rw [← h3]; simp [point, cylPoint]
  · rw [← h5 p' hp']; simp [cartVel]
  · have hφ := h4 hcan
    rw [wrapR_of_mem hφ.1 hφ.2]
    exact ⟨h1, h2⟩

/-- **C41, exception.** When the angular momentum about the z axis is negative, the point comes back, but going
round the axis the other way. -/
theorem C41_negative_wrong (names : DimNames) (hn : Standard names) (p : Pos ℝ) (v : Vel ℝ)
    (s : Space SVec) (hp : s.getStr "length" = .ok (.pos p)) (hv : s.getStr "speed" = .ok (.vel v))
    (hc : VelCase {} v .cyl p) (p' : Pos ℝ) (hp' : At {} v.kind (point p) p')
    (hL : angularZ (point p) (cartVel p' v) < 0) :
    ∃ w s' q u, toPoincare s = .ok w ∧ ofPoincare names w = .ok s' ∧
      s'.data = [("length", .pos q), ("speed", .vel u)] ∧ point q = point p ∧
      angularZ (point q) (cartVel q u) = -angularZ (point p) (cartVel p' v) ∧ cartVel q u ≠ cartVel p' v := by
  obtain ⟨ρ, φ, z, a, b, c, h1, hρ, h2, h3, h4, h5⟩ := cyl_form hc
  obtain ⟨w, k1, k2⟩ := poincare_core hn hp hv h1 hρ h2
  have hL' := angularZ_cyl ρ φ z a b c
  rw [h3, h5 p' hp'] at hL'
  have hb : b < 0 := by
    by_contra h
    rw [hL'] at hL
    exact absurd hL (not_lt.mpr (mul_nonneg (by positivity) (not_lt.mp h)))
  rw [if_neg hb.ne, abs_of_neg hb] at k2
  have hpt : point (.cyl ρ (wrapR φ) z) = point p := by rw [← h3]; simp [point, cylPoint]
  have hA : angularZ (point (.cyl ρ (wrapR φ) z)) (cartVel (.cyl ρ (wrapR φ) z) (.cyl a (-b) c)) =
      -angularZ (point p) (cartVel p' v) := by rw [angularZ_cyl, hL']; ring
  refine ⟨w, _, _, _, k1, k2, rfl, hpt, hA, fun e => ?_⟩
  rw [e, hpt] at hA
  linarith

/-- **C41, exception.** When the angular momentum about the z axis is zero, the azimuth is lost, and the point
comes back in the half plane of azimuth 0, at the same distance from the axis. -/
theorem C41_zero_wrong (names : DimNames) (hn : Standard names) (p : Pos ℝ) (v : Vel ℝ)
    (s : Space SVec) (hp : s.getStr "length" = .ok (.pos p)) (hv : s.getStr "speed" = .ok (.vel v))
    (hc : VelCase {} v .cyl p) (p' : Pos ℝ) (hp' : At {} v.kind (point p) p')
    (hL : angularZ (point p) (cartVel p' v) = 0) :
    ∃ w s' q u, toPoincare s = .ok w ∧ ofPoincare names w = .ok s' ∧
      s'.data = [("length", .pos q), ("speed", .vel u)] ∧
      point q = ⟨√((point p).x ^ 2 + (point p).y ^ 2), 0, (point p).z⟩ := by
  obtain ⟨ρ, φ, z, a, b, c, h1, hρ, h2, h3, h4, h5⟩ := cyl_form hc
  obtain ⟨w, k1, k2⟩ := poincare_core hn hp hv h1 hρ h2
  have hL' := angularZ_cyl ρ φ z a b c
  rw [h3, h5 p' hp', hL] at hL'
  have hb : b = 0 := by
    rcases mul_eq_zero.mp hL'.symm with h | h
    · exact absurd h (by positivity)
    · exact h
  rw [if_pos hb] at k2
  refine ⟨w, _, _, _, k1, k2, rfl, ?_⟩
  rw [← h3]
  have : (ρ * cos φ) ^ 2 + (ρ * sin φ) ^ 2 = ρ ^ 2 := by
    linear_combination ρ ^ 2 * Real.sin_sq_add_cos_sq φ
  simp [point, cylPoint, this, Real.sqrt_sq hρ.le]

/-- the hypotheses are met: the same point with velocities of the three kinds -/
example : ∃ (p : Pos ℝ) (v₁ v₂ v₃ : Vel ℝ), (∀ v ∈ [v₁, v₂, v₃], VelCase {} v .cyl p ∧ At {} v.kind (point p) p) ∧
    0 < angularZ (point p) (cartVel p v₁) ∧ angularZ (point p) (cartVel p v₂) < 0 ∧
    angularZ (point p) (cartVel p v₃) = 0 ∧ (point p).y ≠ 0 := by
  have hc : ∀ a b c : ℝ, VelCase {} (.cart3 a b c) .cyl (.cart3 1 1 1) := fun a b c =>
    { valid := trivial, dimp := rfl, dim := rfl, pos_ts := by decide, src_ts := (fun h => by cases h),
      tgt_ts := by decide, reg := trivial,
      reg' := by simp [VKind.integral, Regular, OffAxis, point],
      delta := (fun h => by cases h), src_pro := (fun h => by cases h),
      src_loncoslat := (fun h => by cases h) }
  refine ⟨.cart3 1 1 1, .cart3 0 1 2, .cart3 1 0 2, .cart3 1 1 0, ?_, ?_, ?_, ?_, ?_⟩
  · intro v hv
    simp only [List.mem_cons, List.not_mem_nil, or_false] at hv
    rcases hv with rfl | rfl | rfl <;> exact ⟨hc _ _ _, rfl, trivial, rfl, fun h => by cases h⟩
  all_goals simp [angularZ, point, cartVel]

end Verif
