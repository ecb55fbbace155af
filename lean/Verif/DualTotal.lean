import Verif.DualProlate

/-! # `represent_as` on dual numbers: it returns, and the tangent is transported (helper lemmas) -/

namespace Verif

open Real Spec

/-- conditions under which the Jacobian exists -/
structure DConv (kw : Kw ℝ) (P : Pos Dual) (k : Kind) : Prop where
  valid : Valid P.re
  plain : PlainDist P.re
  dim : P.kind.dim = k.dim
  src : P.kind ≠ .twoSphere
  srcp : P.kind ≠ .prolate
  tgt : k ≠ .twoSphere
  reg : Regular k (point P.re)
  half : k = .radial → 0 ≤ (point P.re).x
  delta : k = .prolate → ∃ d, kw.delta = some d ∧ 0 < d

/-- what a dual conversion achieves -/
def DRes (kw : Kw ℝ) (P Q : Pos Dual) (k : Kind) : Prop :=
  DGood P Q k ∧ (k = .prolate → focal Q.re = kw.delta)

theorem DGood.trans {P Q S : Pos Dual} {k m : Kind} (h : DGood P Q m) (h' : DGood Q S k) :
    DGood P S k :=
  ⟨h'.kind, h.good.trans h'.good, h'.plain, fun v hv => by
    obtain ⟨w, hw, e⟩ := h.tan v hv
    obtain ⟨u, hu, e'⟩ := h'.tan w hw
    exact ⟨u, hu, e'.trans e⟩⟩

theorem plain_dist_dual {r : Dist Dual} (h : ∃ d, r.re = .dist d) : ∃ d : Dual, r = .dist d := by
  obtain ⟨d, hd⟩ := h
  cases r <;> first | exact ⟨_, rfl⟩ | cases hd

theorem sin_nonneg_of_incl {t : ℝ} (h0 : 0 ≤ t) (h1 : t ≤ π) : 0 ≤ sin t :=
  Real.sin_nonneg_of_nonneg_of_le_pi h0 h1

theorem offAxis_sph {r t p : ℝ} (h : OffAxis (sphPoint r t p)) (hr : 0 ≤ r) (h0 : 0 ≤ t)
    (h1 : t ≤ π) : 0 < r * sin t := by
  rcases (mul_nonneg hr (sin_nonneg_of_incl h0 h1)).eq_or_lt with h2 | h2
  · exfalso; apply h; simp [sphPoint, ← h2]
  · exact h2

theorem d_direct (n : ℕ) {kw : Kw ℝ} {P : Pos Dual} {k : Kind} (h : DConv kw P k)
    (hd : direct P.kind k = true) :
    ∃ Q, represent (n + 1) kw.dual P k = .ok Q ∧ DRes kw P Q k := by
  obtain ⟨hv, hpl, hdim, hs, hsp, ht, hr, hh, hdel⟩ := h
  have key : ∀ {x : Res (Pos Dual)}, k ≠ .prolate → (∃ Q, x = .ok Q ∧ DGood P Q k) →
      ∃ Q, x = .ok Q ∧ DRes kw P Q k := by
    rintro x hk ⟨Q, h1, h2⟩
    exact ⟨Q, h1, h2, fun e => absurd e hk⟩
  have hself : P.kind = k → ∃ Q, (Except.ok P : Res (Pos Dual)) = .ok Q ∧ DGood P Q k := by
    rintro rfl; exact ⟨P, rfl, DGood.refl hv hpl⟩
  cases P <;> cases k <;> simp only [Pos.kind, direct, Bool.false_eq_true] at hd <;>
    simp only [represent]
  all_goals first
    | (refine key (by intro hc; cases hc) ?_
       first
       | exact hself rfl
       | exact d_cart3_cyl _ _ _ (offAxis_sq hr)
       | exact d_cart3_sph _ _ _ (offAxis_sq hr)
       | exact d_cyl_cart3 _ _ _
       | exact d_cyl_sph _ _ _ (lt_of_le_of_ne hv (Ne.symm (offAxis_cyl hr)))
       | exact d_cart2_polar _ _ (offAxis_sq hr)
       | exact d_cart1_radial _ (hh rfl)
       | (obtain ⟨d, rfl⟩ := plain_dist_dual hpl
          first
          | exact d_sph_cart3 _ _ _ hv
          | exact d_sph_cyl _ _ _ hv (offAxis_sph hr hv.1 hv.2.1 hv.2.2)
          | exact d_sph_lonlat _ _ _ hv
          | exact d_sph_math _ _ _ hv
          | exact d_math_sph _ _ _ hv
          | exact d_lonlat_sph _ _ _ hv
          | exact d_math_cart3 _ _ _ hv
          | exact d_math_cyl _ _ _ hv (offAxis_sph hr hv.1 hv.2.1 hv.2.2)
          | exact d_polar_cart2 _ _ hv
          | exact d_radial_cart1 _ hv))
    | (obtain ⟨d, h1, h2⟩ := hdel rfl
       have e : kw.dual.delta = some (Dual.const d) := by simp [Kw.dual, h1]
       rw [e]
       obtain ⟨Q, g1, g2, g3⟩ := d_cyl_prolate _ _ _ d
         (lt_of_le_of_ne hv (Ne.symm (offAxis_cyl hr.1))) hr.2 h2
       exact ⟨Q, g1, g2, fun _ => g3.trans h1.symm⟩)
    | exact absurd rfl hsp

theorem DConv.step {kw kw' : Kw ℝ} {P Q : Pos Dual} {k m : Kind} (h : DConv kw P k)
    (g : DGood P Q m) (hm : m.dim = P.kind.dim) (hm' : m ≠ .twoSphere) (hm'' : m ≠ .prolate)
    (hd : k = .prolate → kw'.delta = kw.delta) : DConv kw' Q k where
  valid := g.good.valid
  plain := g.plain
  dim := by rw [g.kind, hm, h.dim]
  src := by rw [g.kind]; exact hm'
  srcp := by rw [g.kind]; exact hm''
  tgt := h.tgt
  reg := by rw [g.good.point]; exact h.reg
  half := by rw [g.good.point]; exact h.half
  delta := fun hk => by rw [hd hk]; exact h.delta hk


theorem dual_empty : ({} : Kw ℝ).dual = {} := rfl

theorem d_step {n : ℕ} {kw : Kw ℝ} {P : Pos Dual} {k : Kind} (h : DConv kw P k)
    (hd : direct P.kind k = false)
    (h1 : ∃ Q, represent n {} P (via P.kind k) = .ok Q ∧ DGood P Q (via P.kind k))
    (h2 : ∀ Q kw', Q.kind = via P.kind k → DConv kw' Q k →
      ∃ S, represent n kw'.dual Q k = .ok S ∧ DRes kw' Q S k) :
    ∃ S, represent (n + 1) kw.dual P k = .ok S ∧ DRes kw P S k := by
  obtain ⟨Q, hq, g⟩ := h1
  have hvia : (via P.kind k).dim = P.kind.dim ∧ via P.kind k ≠ .twoSphere ∧
      via P.kind k ≠ .prolate := by
    have hdim := h.dim
    cases P <;> cases k <;> simp only [Pos.kind, Kind.dim] at hdim <;>
      first
      | (exfalso; revert hdim; decide)
      | (exact absurd rfl h.src)
      | (exact absurd rfl h.tgt)
      | (exact absurd rfl h.srcp)
      | (refine ⟨?_, ?_, ?_⟩ <;> first | rfl | (intro hc; cases hc))
      | (simp only [Pos.kind, direct] at hd; cases hd)
  have hp0 : k ≠ .prolate → ∃ S, represent n {} Q k = .ok S ∧ DRes kw P S k := fun hk => by
    obtain ⟨S, s1, s2⟩ := h2 Q {} g.kind
      (h.step g hvia.1 hvia.2.1 hvia.2.2 (fun e => absurd e hk))
    exact ⟨S, s1, g.trans s2.1, fun e => absurd e hk⟩
  have hp1 : ∀ d, k = .prolate → kw.delta = some d →
      ∃ S, represent n { delta := some (Dual.const d) } Q k = .ok S ∧ DRes kw P S k := by
    intro d hk hd'
    obtain ⟨S, s1, s2⟩ := h2 Q { delta := some d } g.kind
      (h.step g hvia.1 hvia.2.1 hvia.2.2 (fun _ => hd'.symm))
    exact ⟨S, s1, g.trans s2.1, fun e => by rw [s2.2 e, hd']⟩
  have hdel := h.delta
  have hdim := h.dim
  cases P <;> cases k <;> simp only [Pos.kind, Kind.dim] at hdim <;>
    first
    | (exfalso; revert hdim; decide)
    | (exact absurd rfl h.src)
    | (exact absurd rfl h.srcp)
    | (exact absurd rfl h.tgt)
    | (simp only [Pos.kind, direct] at hd; cases hd; done)
    | (simp only [represent]
       simp only [via, Pos.kind] at hq
       rw [hq]
       exact hp0 (by intro hc; cases hc))
    | (simp only [represent]
       simp only [via, Pos.kind] at hq
       obtain ⟨d, e1, e2⟩ := hdel rfl
       have e : kw.dual.delta = some (Dual.const d) := by simp [Kw.dual, e1]
       rw [e]
       simp only [hq]
       exact hp1 d rfl e1)

theorem DConv.toVia {kw kw' : Kw ℝ} {P : Pos Dual} {k m : Kind} (h : DConv kw P k)
    (hm : P.kind.dim = m.dim) (h2 : m ≠ .twoSphere) (h3 : m ≠ .prolate) (h4 : m ≠ .radial)
    (h5 : Regular m (point P.re)) : DConv kw' P m where
  valid := h.valid
  plain := h.plain
  dim := hm
  src := h.src
  srcp := h.srcp
  tgt := h2
  reg := h5
  half := fun e => absurd e h4
  delta := fun e => absurd e h3

theorem d_cart3_via {kw : Kw ℝ} {P : Pos Dual} {k : Kind} (h : DConv kw P k) (hk : k ≠ .cart3)
    (h3 : k.dim = 3) {m : Kind} (hm : m ≠ .prolate) (hm' : m ≠ .radial) :
    Regular m (point P.re) := by
  have hr := h.reg
  have ho : OffAxis (point P.re) := by
    cases k <;> first | exact hr | exact hr.1 | exact absurd rfl hk | (exfalso; revert h3; decide)
  cases m <;> first | exact ho | exact trivial | exact absurd rfl hm | exact absurd rfl hm'

/-- lonlat -> Cartesian goes through spherical, whose rule `lonlat -> sph` needs no regularity -/
theorem d_lonlat_cart3 (n : ℕ) {kw : Kw ℝ} {lon lat : Dual} {r : Dist Dual}
    (h : DConv kw (.lonlat lon lat r) .cart3) :
    ∃ S, represent (n + 2) kw.dual (.lonlat lon lat r) .cart3 = .ok S ∧
      DRes kw (.lonlat lon lat r) S .cart3 := by
  obtain ⟨d, rfl⟩ := plain_dist_dual h.plain
  refine d_step h rfl (d_lonlat_sph _ _ _ h.valid) ?_
  intro Q kw' hq hc
  exact d_direct n hc (by rw [hq]; rfl)

theorem d_tot2 (n : ℕ) {kw : Kw ℝ} {P : Pos Dual} {k : Kind} (h : DConv kw P k)
    (hor : direct P.kind k = true ∨
      (direct P.kind (via P.kind k) = true ∧ direct (via P.kind k) k = true)) :
    ∃ Q, represent (n + 2) kw.dual P k = .ok Q ∧ DRes kw P Q k := by
  by_cases hd : direct P.kind k = true
  · exact d_direct (n + 1) h hd
  obtain ⟨h1, h2⟩ := hor.resolve_left hd
  by_cases hc3 : k = .cart3
  · subst hc3
    cases P <;> first
      | exact d_lonlat_cart3 n h
      | exact absurd rfl h.srcp
      | exact absurd rfl hd
      | (simp [direct, via, Pos.kind] at h1 h2)
  have hvia : P.kind.dim = (via P.kind k).dim ∧ via P.kind k ≠ .twoSphere ∧
      via P.kind k ≠ .prolate ∧ via P.kind k ≠ .radial ∧ k.dim = 3 := by
    clear hor
    revert h1 h2 hd
    have := h.srcp
    revert this
    generalize P.kind = a
    cases a <;> cases k <;> decide
  refine d_step h (by simpa using hd) ?_ ?_
  · obtain ⟨Q, q1, q2⟩ := d_direct (kw := {}) n (h.toVia hvia.1 hvia.2.1 hvia.2.2.1 hvia.2.2.2.1
      (d_cart3_via h hc3 hvia.2.2.2.2 hvia.2.2.1 hvia.2.2.2.1)) h1
    exact ⟨Q, q1, q2.1⟩
  · intro q kw' hq hc
    exact d_direct n hc (by rw [hq]; exact h2)

/-- Main lemma. -/
theorem d_total (n : ℕ) {kw : Kw ℝ} {P : Pos Dual} {k : Kind} (h : DConv kw P k) :
    ∃ Q, represent (n + 3) kw.dual P k = .ok Q ∧ DRes kw P Q k := by
  by_cases hd : direct P.kind k = true
  · exact d_direct (n + 2) h hd
  have hs := h.src
  have ht := h.tgt
  have hsp := h.srcp
  have hvia : P.kind.dim = (via P.kind k).dim ∧ via P.kind k ≠ .twoSphere ∧
      via P.kind k ≠ .prolate ∧ via P.kind k ≠ .radial ∧ k.dim = 3 ∧
      (direct P.kind (via P.kind k) = true ∨
        direct P.kind (via P.kind (via P.kind k)) = true ∧
        direct (via P.kind (via P.kind k)) (via P.kind k) = true) ∧
      (direct (via P.kind k) k = true ∨
        direct (via P.kind k) (via (via P.kind k) k) = true ∧
        direct (via (via P.kind k) k) k = true) := by
    have hdim := h.dim
    revert hs ht hd hdim hsp
    generalize P.kind = a
    cases a <;> cases k <;> decide
  obtain ⟨v1, v2, v3, v4, v0, v5, v6⟩ := hvia
  by_cases hc3 : k = .cart3
  · subst hc3
    cases P <;> first
      | exact d_lonlat_cart3 (n + 1) h
      | exact absurd rfl hsp
      | exact absurd rfl hd
      | (exfalso; have := h.dim; revert this; simp [Pos.kind, Kind.dim])
  refine d_step h (by simpa using hd) ?_ ?_
  · obtain ⟨Q, q1, q2⟩ := d_tot2 (kw := {}) n
      (h.toVia v1 v2 v3 v4 (d_cart3_via h hc3 v0 v3 v4)) v5
    exact ⟨Q, q1, q2.1⟩
  · intro q kw' hq hc
    exact d_tot2 n hc (by rw [hq]; exact v6)

theorem d_representAs {kw : Kw ℝ} {P : Pos Dual} {k : Kind} (h : DConv kw P k) :
    ∃ Q, representAs kw.dual P k = .ok Q ∧ DRes kw P Q k := d_total 197 h

end Verif
