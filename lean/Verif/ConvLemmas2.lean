import Verif.ConvLemmas

/-! # Totality of conversion and injectivity of the textbook embedding (helper lemmas) -/

namespace Verif

open Real Spec

theorem rho_eq_of_cyl {a b φ ψ : ℝ} (ha : 0 ≤ a) (hb : 0 ≤ b) (hx : a * cos φ = b * cos ψ)
    (hy : a * sin φ = b * sin ψ) : a = b := by
  have h1 : a ^ 2 = b ^ 2 := by
    calc a ^ 2 = (a * cos φ) ^ 2 + (a * sin φ) ^ 2 := by
          linear_combination (-a ^ 2) * Real.sin_sq_add_cos_sq φ
      _ = (b * cos ψ) ^ 2 + (b * sin ψ) ^ 2 := by rw [hx, hy]
      _ = b ^ 2 := by linear_combination (b ^ 2) * Real.sin_sq_add_cos_sq ψ
  exact (sq_eq_sq₀ ha hb).mp h1

theorem cyl_inj {a b φ ψ : ℝ} (ha : 0 ≤ a) (hb : 0 ≤ b) (hφ : InTurn φ) (hψ : InTurn ψ)
    (hx : a * cos φ = b * cos ψ) (hy : a * sin φ = b * sin ψ)
    (hoff : ¬ (a * cos φ = 0 ∧ a * sin φ = 0)) : a = b ∧ φ = ψ := by
  have h := rho_eq_of_cyl ha hb hx hy
  refine ⟨h, ?_⟩
  subst h
  have h0 : a ≠ 0 := by rintro rfl; simp at hoff
  exact angle_unique hφ.1 hφ.2 hψ.1 hψ.2 (mul_left_cancel₀ h0 hx) (mul_left_cancel₀ h0 hy)

theorem sph_inj {r s θ ξ φ ψ : ℝ} (hr : 0 ≤ r) (hs : 0 ≤ s) (h0 : 0 ≤ θ) (h1 : θ ≤ π)
    (h0' : 0 ≤ ξ) (h1' : ξ ≤ π) (hφ : InTurn φ) (hψ : InTurn ψ)
    (h : sphPoint r θ φ = sphPoint s ξ ψ) (hoff : OffAxis (sphPoint r θ φ)) :
    r = s ∧ θ = ξ ∧ φ = ψ := by
  simp only [sphPoint, V3.mk.injEq] at h
  obtain ⟨hx, hy, hz⟩ := h
  have ha : 0 ≤ r * sin θ := mul_nonneg hr (sin_nonneg_of_nonneg_of_le_pi h0 h1)
  have hb : 0 ≤ s * sin ξ := mul_nonneg hs (sin_nonneg_of_nonneg_of_le_pi h0' h1')
  obtain ⟨h2, h3⟩ := cyl_inj ha hb hφ hψ hx hy hoff
  have h4 : r = s := by
    have : r ^ 2 = s ^ 2 := by
      calc r ^ 2 = (r * sin θ) ^ 2 + (r * cos θ) ^ 2 := by
            linear_combination (-r ^ 2) * Real.sin_sq_add_cos_sq θ
        _ = (s * sin ξ) ^ 2 + (s * cos ξ) ^ 2 := by rw [h2, hz]
        _ = s ^ 2 := by linear_combination (s ^ 2) * Real.sin_sq_add_cos_sq ξ
    exact (sq_eq_sq₀ hr hs).mp this
  subst h4
  have hr0 : r ≠ 0 := by
    rintro rfl; simp [OffAxis, sphPoint] at hoff
  exact ⟨rfl, Real.injOn_cos ⟨h0, h1⟩ ⟨h0', h1'⟩ (mul_left_cancel₀ hr0 hz), h3⟩

theorem lonlatPoint_eq (lon lat d : ℝ) : lonlatPoint lon lat d = sphPoint d (π / 2 - lat) lon := by
  simp [lonlatPoint, sphPoint, Real.cos_pi_div_two_sub, Real.sin_pi_div_two_sub]

theorem prolR_sq {μ ν Δ : ℝ} (hd : 0 < Δ) (hμ : Δ ^ 2 ≤ μ) (hν : |ν| ≤ Δ ^ 2) :
    prolR μ ν Δ ^ 2 * Δ ^ 2 = (μ - Δ ^ 2) * (Δ ^ 2 - |ν|) := by
  have hdd : 0 < Δ ^ 2 := by positivity
  have hq : |ν| / Δ ^ 2 ≤ 1 := by rw [div_le_one hdd]; exact hν
  unfold prolR
  rw [Real.sq_sqrt (mul_nonneg (by linarith) (by linarith))]
  field_simp

theorem prolZ_sq {μ ν Δ : ℝ} (hd : 0 < Δ) (hμ : Δ ^ 2 ≤ μ) :
    prolZ μ ν Δ ^ 2 * Δ ^ 2 = μ * |ν| := by
  have hdd : 0 < Δ ^ 2 := by positivity
  have h : 0 ≤ μ * (|ν| / Δ ^ 2) := mul_nonneg (by linarith) (by positivity)
  have : prolZ μ ν Δ ^ 2 = μ * (|ν| / Δ ^ 2) := by
    unfold prolZ; split
    · rw [neg_sq, Real.sq_sqrt h]
    · rw [Real.sq_sqrt h]
  rw [this]; field_simp

theorem prolZ_neg_iff {μ ν Δ : ℝ} (hd : 0 < Δ) (hμ : Δ ^ 2 ≤ μ) : prolZ μ ν Δ < 0 ↔ ν < 0 := by
  have hdd : 0 < Δ ^ 2 := by positivity
  unfold prolZ
  constructor
  · intro h
    by_contra hn
    rw [if_neg hn] at h
    exact absurd h (not_lt.mpr (Real.sqrt_nonneg _))
  · intro h
    rw [if_pos h]
    have : 0 < √(μ * (|ν| / Δ ^ 2)) := Real.sqrt_pos.mpr (by
      have : 0 < |ν| := abs_pos.mpr h.ne
      have h2 : 0 < μ := by linarith
      positivity)
    linarith

theorem prol_inj {μ ν μ' ν' Δ : ℝ} (hd : 0 < Δ) (hμ : Δ ^ 2 ≤ μ) (hν : |ν| ≤ Δ ^ 2)
    (hμ' : Δ ^ 2 ≤ μ') (hν' : |ν'| ≤ Δ ^ 2) (hR : prolR μ ν Δ = prolR μ' ν' Δ)
    (hZ : prolZ μ ν Δ = prolZ μ' ν' Δ) : μ = μ' ∧ ν = ν' := by
  have hdd : 0 < Δ ^ 2 := by positivity
  have r1 := prolR_sq hd hμ hν
  have r2 := prolR_sq hd hμ' hν'
  have z1 := prolZ_sq (ν := ν) hd hμ
  have z2 := prolZ_sq (ν := ν') hd hμ'
  rw [hR] at r1
  rw [hZ] at z1
  have hp : μ * |ν| = μ' * |ν'| := z1.symm.trans z2
  have hr : (μ - Δ ^ 2) * (Δ ^ 2 - |ν|) = (μ' - Δ ^ 2) * (Δ ^ 2 - |ν'|) := r1.symm.trans r2
  have hs : μ + |ν| = μ' + |ν'| := by
    have h2 : (μ + |ν|) * Δ ^ 2 = (μ' + |ν'|) * Δ ^ 2 := by linear_combination hr + hp
    exact mul_right_cancel₀ hdd.ne' h2
  have hm : μ = μ' := by
    have h3 : (μ - μ') * (μ - |ν'|) = 0 := by
      linear_combination μ * hs - hp
    rcases mul_eq_zero.mp h3 with h | h
    · linarith
    · have : μ = Δ ^ 2 := by linarith
      have : |ν'| = Δ ^ 2 := by linarith
      have : |ν| = μ' := by linarith
      linarith
  refine ⟨hm, ?_⟩
  have hn : |ν| = |ν'| := by linarith
  have hsgn : ν < 0 ↔ ν' < 0 := by
    rw [← prolZ_neg_iff (ν := ν) hd hμ, ← prolZ_neg_iff (ν := ν') hd hμ', hZ]
  by_cases h : ν < 0
  · rw [abs_of_neg h, abs_of_neg (hsgn.mp h)] at hn; linarith
  · have h' : ¬ ν' < 0 := fun c => h (hsgn.mpr c)
    rw [abs_of_nonneg (not_lt.mp h), abs_of_nonneg (not_lt.mp h')] at hn; exact hn

/-- Away from the z axis, a canonical vector is determined by its class, its focal length and
its point. -/
theorem point_inj {p q : Pos ℝ} (hp : Valid p) (hq : Valid q) (hk : p.kind = q.kind)
    (cp : Canon p) (cq : Canon q) (dp : PlainDist p) (dq : PlainDist q)
    (hf : focal p = focal q) (hoff : OffAxis (point p)) (h : point p = point q) : p = q := by
  cases p <;> cases q <;> simp only [Pos.kind] at hk <;> try (exfalso; revert hk; decide)
  case cart1 => simp only [point, V3.mk.injEq] at h; rw [h.1]
  case radial =>
    obtain ⟨d, rfl⟩ := dp
    obtain ⟨d', rfl⟩ := dq
    simp only [point, distOf, V3.mk.injEq] at h; rw [h.1]
  case cart2 => simp only [point, V3.mk.injEq] at h; rw [h.1, h.2.1]
  case polar =>
    obtain ⟨d, rfl⟩ := dp
    obtain ⟨d', rfl⟩ := dq
    simp only [point, distOf, V3.mk.injEq] at h
    obtain ⟨h1, h2⟩ := cyl_inj hp hq cp cq h.1 h.2.1 hoff
    rw [h1, h2]
  case twoSphere =>
    obtain ⟨_, h1, h2⟩ := sph_inj zero_le_one zero_le_one hp.1 hp.2 hq.1 hq.2 cp cq h hoff
    rw [h1, h2]
  case cart3 => simp only [point, V3.mk.injEq] at h; rw [h.1, h.2.1, h.2.2]
  case cyl =>
    simp only [point, cylPoint, V3.mk.injEq] at h
    obtain ⟨h1, h2⟩ := cyl_inj hp hq cp cq h.1 h.2.1 hoff
    rw [h1, h2, h.2.2]
  case sph =>
    obtain ⟨d, rfl⟩ := dp
    obtain ⟨d', rfl⟩ := dq
    obtain ⟨h0, h1, h2⟩ :=
      sph_inj hp.1 hq.1 hp.2.1 hp.2.2 hq.2.1 hq.2.2 cp cq h hoff
    have h0 : d = d' := h0
    rw [h0, h1, h2]
  case lonlat =>
    obtain ⟨d, rfl⟩ := dp
    obtain ⟨d', rfl⟩ := dq
    simp only [point, lonlatPoint_eq] at h hoff
    obtain ⟨h0, h1, h2⟩ := sph_inj hp.1 hq.1 (by linarith [hp.2.2]) (by linarith [hp.2.1])
      (by linarith [hq.2.2]) (by linarith [hq.2.1]) cp cq h hoff
    have h0 : d = d' := h0
    rw [h0, h2, sub_right_injective h1]
  case math =>
    obtain ⟨d, rfl⟩ := dp
    obtain ⟨d', rfl⟩ := dq
    obtain ⟨h0, h1, h2⟩ :=
      sph_inj hp.1 hq.1 hp.2.1 hp.2.2 hq.2.1 hq.2.2 cp cq h hoff
    have h0 : d = d' := h0
    rw [h0, h1, h2]
  case prolate =>
    simp only [focal, Option.some.injEq] at hf
    subst hf
    simp only [point, cylPoint, V3.mk.injEq] at h
    obtain ⟨h1, h2⟩ := cyl_inj (prolR_nonneg _ _ _) (prolR_nonneg _ _ _) cp cq h.1 h.2.1 hoff
    obtain ⟨h3, h4⟩ := prol_inj hp.1 hp.2.1 hp.2.2 hq.2.1 hq.2.2 h1 h.2.2
    rw [h2, h3, h4]

/-! ### plain distances and focal lengths of results -/

theorem mkSph_plain {d theta : ℝ} {phi : AzArg ℝ} {q : Pos ℝ}
    (h : mkSph (.dist d) theta phi = .ok q) : PlainDist q := by
  simp only [mkSph, bind_ok_iff] at h
  obtain ⟨_, _, _, _, h⟩ := h
  cases h; exact ⟨_, rfl⟩

/-- conversions of plain-distance vectors are plain-distance vectors -/
theorem represent_plain (n : ℕ) : ∀ (kw : Kw ℝ) (p : Pos ℝ) (k : Kind) (q : Pos ℝ),
    Valid p → PlainDist p → p.kind.dim = k.dim → represent n kw p k = .ok q → PlainDist q := by
  induction n with
  | zero => intro kw p k q _ _ _ h; simp [represent] at h
  | succ n ih =>
    intro kw p k q hv hpd hd h
    have step : ∀ {kw kw' : Kw ℝ} {m : Kind},
        (represent n kw p m >>= fun s => represent n kw' s k) = .ok q →
        p.kind.dim = m.dim → PlainDist q := by
      intro kw kw' m h hm
      obtain ⟨a, h1, h2⟩ := (bind_ok_iff _ _ _).mp h
      have g := represent_good n _ _ _ _ hv hm h1
      exact ih _ _ _ _ g.valid (ih _ _ _ _ hv hpd hm h1) (by rw [g.kind, ← hm, hd]) h2
    cases p <;> cases k <;> simp only [Pos.kind, Kind.dim] at hd <;>
      first
      | (exfalso; revert hd; decide)
      | (simp only [represent] at h
         first
         | (cases h; exact hpd)
         | exact step h rfl
         | (have g := good_cart3_cyl h; cases q <;> first | exact trivial | cases g.kind)
         | (have g := good_sph_cart3 hv h; cases q <;> first | exact trivial | cases g.kind)
         | (have g := good_sph_cyl hv h; cases q <;> first | exact trivial | cases g.kind)
         | (have g := good_prolate_cyl hv h; cases q <;> first | exact trivial | cases g.kind)
         | (have g := good_polar_cart2 hv h; cases q <;> first | exact trivial | cases g.kind)
         | (have g := good_radial_cart1 hv h; cases q <;> first | exact trivial | cases g.kind)
         | (simp only [cart3ToSph, bind_ok_iff] at h
            obtain ⟨_, _, _, _, _, _, _, _, h⟩ := h
            exact mkSph_plain h)
         | (simp only [cylToSph, bind_ok_iff] at h
            obtain ⟨_, _, _, _, _, _, h⟩ := h
            exact mkSph_plain h)
         | (obtain ⟨d, rfl⟩ := hpd
            rw [sphToLonLat_eq hv.1 _ hv.2.1 hv.2.2] at h; cases h; exact ⟨_, rfl⟩)
         | (obtain ⟨d, rfl⟩ := hpd
            rw [sphToMath_eq hv.1 _ hv.2.1 hv.2.2] at h; cases h; exact ⟨_, rfl⟩)
         | (obtain ⟨d, rfl⟩ := hpd
            rw [lonlatToSph_eq hv.1 _ hv.2.1 hv.2.2] at h; cases h; exact ⟨_, rfl⟩)
         | (obtain ⟨d, rfl⟩ := hpd
            rw [mathToSph_eq hv.1 _ hv.2.1 hv.2.2] at h; cases h; exact ⟨_, rfl⟩)
         | (rw [cart2ToPolar_eq] at h; cases h; exact ⟨_, rfl⟩)
         | (simp only [mkRadial, bind_ok_iff] at h
            obtain ⟨_, _, h⟩ := h
            cases h; exact ⟨_, rfl⟩)
         | (cases hk : kw.delta with
            | none => rw [hk] at h; first | (cases h; exact trivial) | cases h
            | some dl =>
              rw [hk] at h
              first
              | (have g := good_cyl_prolate hv h; cases q <;> first | exact trivial | cases g.kind)
              | exact step h rfl))

theorem mkProlate_focal {mu nu : ℝ} {phi : AzArg ℝ} {delta : ℝ} {q : Pos ℝ}
    (h : mkProlate mu nu phi delta = .ok q) : focal q = some delta := by
  unfold mkProlate checkPos at h
  split_ifs at h <;> first | (cases h; rfl) | simp at h

theorem cylToProlate_focal {rho phi z delta : ℝ} {q : Pos ℝ}
    (h : cylToProlate rho phi z delta = .ok q) : focal q = some delta := by
  simp only [cylToProlate, bind_ok_iff] at h
  obtain ⟨_, _, _, _, _, _, _, _, _, _, h⟩ := h
  exact mkProlate_focal h

/-- A prolate result has the requested focal length, or that of the source. -/
theorem represent_focal (n : ℕ) (kw : Kw ℝ) (p q : Pos ℝ) (hv : Valid p) (hd : p.kind.dim = 3)
    (h : represent n kw p .prolate = .ok q) :
    focal q = (match kw.delta with | some d => some d | none => focal p) := by
  induction n generalizing kw p q with
  | zero => simp [represent] at h
  | succ n ih =>
    have key : ∀ {dl : ℝ}, (represent n {} p .cyl >>= fun s =>
        represent n { delta := some dl } s .prolate) = .ok q → focal q = some dl := by
      intro dl h
      obtain ⟨a, h1, h2⟩ := (bind_ok_iff _ _ _).mp h
      have g := represent_good n _ _ .cyl _ hv hd h1
      exact ih _ _ _ g.valid (by rw [g.kind]; rfl) h2
    cases p <;> simp only [Pos.kind, Kind.dim] at hd <;>
      first
      | (exfalso; revert hd; decide)
      | (simp only [represent] at h
         cases hk : kw.delta with
         | none => rw [hk] at h; first | (cases h; rfl) | cases h
         | some dl => rw [hk] at h; first | exact cylToProlate_focal h | exact key h)

end Verif
