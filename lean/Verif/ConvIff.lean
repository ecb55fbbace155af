import Verif.CrossDim

/-! # Exactly which same-dimension conversions return (helper lemmas) -/

namespace Verif

open Real Spec

theorem cyl_axis {rho phi : ℝ} (h1 : rho * cos phi = 0) (h2 : rho * sin phi = 0) : rho = 0 := by
  have h := sin_sq_add_cos_sq phi
  have : rho ^ 2 = 0 := by
    linear_combination (-rho ^ 2) * h + (rho * cos phi) * h1 + (rho * sin phi) * h2
  exact pow_eq_zero_iff (two_ne_zero) |>.mp this

theorem origin_error (n : ℕ) (kw : Kw ℝ) {p : Pos ℝ} {k : Kind} (hp : p.kind = .cart3 ∨ p.kind = .cyl)
    (hk : k = .sph ∨ k = .lonlat ∨ k = .math) (h0 : point p = V3.zero) :
    represent (n + 2) kw p k = .error .nonFinite := by
  have h1 := cart3ToSph_zero
  have h2 := cylToSph_zero
  rcases hp with hp | hp <;> cases p <;> first | (cases hp; done) | skip
  · simp only [point, V3.zero, V3.mk.injEq] at h0
    obtain ⟨rfl, rfl, rfl⟩ := h0
    rcases hk with rfl | rfl | rfl <;> simp only [represent, h1, error_bind]
  · simp only [point, cylPoint, V3.zero, V3.mk.injEq] at h0
    obtain ⟨a, b, rfl⟩ := h0
    obtain rfl := cyl_axis a b
    rcases hk with rfl | rfl | rfl <;> simp only [represent, h2, error_bind]

theorem focus_error (n : ℕ) {kw : Kw ℝ} {p : Pos ℝ} {d : ℝ} (hp : p.kind = .cyl)
    (hd : kw.delta = some d) (h0 : 0 < d) (hf : IsFocus d (point p)) :
    represent (n + 1) kw p .prolate = .error .nonFinite := by
  cases p <;> first | (cases hp; done) | skip
  obtain ⟨a, b, c⟩ := hf
  obtain rfl := cyl_axis a b
  simp only [represent, hd]
  exact cylToProlate_focus h0 (by simpa [point, cylPoint, pow_two] using c)

theorem origin_error_all (n : ℕ) {kw : Kw ℝ} {p q : Pos ℝ} {k : Kind} (hv : Valid p)
    (hnd : NeedsDirection p.kind k) (h0 : point p = V3.zero) :
    represent (n + 3) kw p k ≠ .ok q := by
  intro h
  have two : ∀ (m : Kind) (c : Pos ℝ), (m = .cart3 ∨ m = .cyl) → p.kind.dim = 3 →
      (k = .sph ∨ k = .lonlat ∨ k = .math) →
      represent (n + 2) {} p m = .ok c → represent (n + 2) {} c k ≠ .ok q := by
    intro m c hm hd hk h1 h2
    have g := represent_good _ _ _ _ _ hv (hd.trans (by rcases hm with rfl | rfl <;> rfl)) h1
    rw [origin_error n {} (by rw [g.kind]; exact hm) hk (by rw [g.point, h0])] at h2
    cases h2
  rcases hnd with ⟨hs, ht⟩ | ⟨hs, rfl⟩ | ⟨hs, rfl⟩
  · have hk : k = .sph ∨ k = .lonlat ∨ k = .math := by simpa using ht
    simp only [List.mem_cons, List.not_mem_nil, or_false] at hs
    rcases hs with hs | hs | hs
    · rw [origin_error (n + 1) kw (Or.inl hs) hk h0] at h; cases h
    · rw [origin_error (n + 1) kw (Or.inr hs) hk h0] at h; cases h
    · cases p <;> first | (cases hs; done) | skip
      rename_i mu nu phi dl
      have : ∃ c, represent (n + 2) {} (.prolate mu nu phi dl) .cyl = .ok c ∧
          represent (n + 2) {} c k = .ok q := by
        rcases hk with rfl | rfl | rfl <;> (rw [represent] at h; exact (bind_ok_iff _ _ _).mp h)
      obtain ⟨c, h1, h2⟩ := this
      exact two .cyl c (Or.inr rfl) rfl hk h1 h2
  all_goals
    cases p <;> first | (cases hs; done) | skip
    rw [represent] at h
    obtain ⟨c, h1, h2⟩ := (bind_ok_iff _ _ _).mp h
    exact two .cart3 c (Or.inl rfl) rfl (by simp) h1 h2

theorem focus_error_all (n : ℕ) {kw : Kw ℝ} {p q : Pos ℝ} {d : ℝ} (hv : Valid p)
    (h3 : p.kind.dim = 3) (hd : kw.delta = some d) (h0 : 0 < d) (hf : IsFocus d (point p)) :
    represent (n + 2) kw p .prolate ≠ .ok q := by
  intro h
  by_cases hc : p.kind = .cyl
  · rw [focus_error (n + 1) hc hd h0 hf] at h; cases h
  have : ∃ c, represent (n + 1) {} p .cyl = .ok c ∧
      represent (n + 1) { delta := some d } c .prolate = .ok q := by
    cases p <;> first | (cases h3; done) | exact absurd rfl hc | skip
    all_goals (simp only [represent, hd] at h; exact (bind_ok_iff _ _ _).mp h)
  obtain ⟨c, h1, h2⟩ := this
  have g := represent_good _ _ p .cyl c hv h3 h1
  rw [focus_error n g.kind rfl h0 (by rw [g.point]; exact hf)] at h2
  cases h2

/-- the converse of `represent_total` -/
theorem represent_only (n : ℕ) {kw : Kw ℝ} {p q : Pos ℝ} {k : Kind} (hv : Valid p)
    (hdim : p.kind.dim = k.dim) (hs : p.kind ≠ .twoSphere) (ht : k ≠ .twoSphere)
    (h : represent (n + 3) kw p k = .ok q) : Convertible kw p k := by
  have g := represent_good _ _ _ _ _ hv hdim h
  refine ⟨hv, hdim, hs, ht, fun hn h0 => origin_error_all n hv hn h0 h, ?_, ?_⟩
  · rintro rfl
    have hk := g.kind
    have hv' := g.valid
    rw [← g.point]
    cases q <;> first | (cases hk; done) | skip
    exact distOf_nonneg hv'
  · rintro rfl
    have hf := represent_focal _ _ _ _ hv hdim h
    have hk := g.kind
    have hv' := g.valid
    cases hd : kw.delta with
    | none =>
      left
      refine ⟨?_, rfl⟩
      cases p <;> first | rfl | (cases hdim; done) | (simp only [represent, hd] at h; cases h)
    | some d =>
      right
      rw [hd] at hf
      have h0 : 0 < d := by
        cases q <;> first | (cases hk; done) | skip
        simp only [focal] at hf
        have := Option.some.inj hf
        subst this
        exact hv'.1
      exact ⟨d, rfl, h0, fun hfoc => focus_error_all (n + 1) hv hdim hd h0 hfoc h⟩

theorem represent_iff (n : ℕ) {kw : Kw ℝ} {p : Pos ℝ} {k : Kind} (hv : Valid p)
    (hdim : p.kind.dim = k.dim) (hs : p.kind ≠ .twoSphere) (ht : k ≠ .twoSphere) :
    (∃ q, represent (n + 3) kw p k = .ok q) ↔ Convertible kw p k :=
  ⟨fun ⟨_, h⟩ => represent_only n hv hdim hs ht h, represent_total n⟩

end Verif
