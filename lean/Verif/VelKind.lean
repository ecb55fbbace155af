import Verif.VelLinear
import Verif.KindLemmas

/-! # Class of a converted velocity; conversions that never return (helper lemmas) -/

namespace Verif

open Real Spec

theorem mapM_ok_mem {β γ : Type} {f : β → Res γ} : ∀ {l : List β} {r : List γ}, l.mapM f = .ok r →
    (∀ c ∈ r, ∃ e ∈ l, f e = .ok c) ∧ r.length = l.length := by
  intro l
  induction l with
  | nil => intro r h; cases h; exact ⟨fun c h => (by cases h), rfl⟩
  | cons a l ih =>
    intro r h
    rw [List.mapM_cons] at h
    simp only [bind_ok_iff, pure_ok] at h
    obtain ⟨b, h1, bs, h2, h3⟩ := h
    cases h3
    obtain ⟨i1, i2⟩ := ih h2
    refine ⟨fun c hc => ?_, by simp [i2]⟩
    rcases List.mem_cons.mp hc with rfl | hc
    · exact ⟨a, List.mem_cons_self, h1⟩
    · obtain ⟨e, he, h4⟩ := i1 c hc
      exact ⟨e, List.mem_cons_of_mem _ he, h4⟩

theorem basis_ne_nil (k : Kind) : k.basis ≠ [] := by cases k <;> simp [Kind.basis]

theorem seed_kind {p : Pos ℝ} {v : Vel ℝ} {P : Pos Dual} (h : p.seed v = .ok P) : P.kind = p.kind := by
  cases p <;> cases v <;> first | (cases h; done) | (cases h; rfl)

/-- a Jacobian that exists has at least one column, obtained from a conversion that returned -/
theorem jacobian_col {kw : Kw ℝ} {p : Pos ℝ} {k : Kind} {J : List (Vel ℝ)}
    (h : jacobian kw p k = .ok J) : (∀ c ∈ J, c.kind = k.vel) ∧ ∃ c ∈ J, ∃ P Q : Pos Dual,
      P.kind = p.kind ∧ representAs kw.dual P k = .ok Q ∧ Q.tangent = .ok c := by
  unfold jacobian at h
  obtain ⟨h1, h2⟩ := mapM_ok_mem h
  have h3 : ∀ c ∈ J, ∃ P Q : Pos Dual, P.kind = p.kind ∧ representAs kw.dual P k = .ok Q ∧
      Q.tangent = .ok c := by
    intro c hc
    obtain ⟨e, _, he⟩ := h1 c hc
    simp only [bind_ok_iff] at he
    obtain ⟨P, e1, Q, e2, e3⟩ := he
    exact ⟨P, Q, seed_kind e1, e2, e3⟩
  refine ⟨fun c hc => ?_, ?_⟩
  · obtain ⟨P, Q, _, e2, e3⟩ := h3 c hc
    rw [tangent_kind e3, representAs_kind e2]
  · cases J with
    | nil => exact absurd (List.length_eq_zero_iff.mp (by simpa using h2.symm)) (basis_ne_nil _)
    | cons c J => exact ⟨c, List.mem_cons_self, h3 c List.mem_cons_self⟩

theorem castDistance_kind {p q : Pos ℝ} (h : p.castDistance = .ok q) : q.kind = p.kind := by
  cases p <;> simp only [Pos.castDistance, bind_ok_iff, mkRadial_iff, mkPolar_iff, mkSph_iff, mkMath_iff,
    mkLonLat_iff] at h <;>
    first
    | (cases h; rfl)
    | (obtain ⟨_, _, h⟩ := h
       first | obtain ⟨_, rfl⟩ := h | obtain ⟨_, _, rfl⟩ := h
       rfl)

/-- what a generic conversion that returns has gone through -/
theorem generic_inv {kw : Kw ℝ} {v w : Vel ℝ} {k : VKind} {p : Pos ℝ}
    (h : representVelGeneric kw v k p = .ok w) :
    v.kind ≠ .prolate ∧ w.kind = k.integral.vel ∧ ∃ cp, representAs kw p v.kind.integral = .ok cp ∧
      ∃ P Q : Pos Dual, P.kind = v.kind.integral ∧ representAs kw.dual P k.integral = .ok Q := by
  unfold representVelGeneric at h
  simp only [bind_ok_iff] at h
  obtain ⟨c, h1, c', h2, h⟩ := h
  have kc : c'.kind = v.kind.integral := by rw [castDistance_kind h2, representAs_kind h1]
  by_cases hp : c'.kind = .prolate ∨ p.kind.leavesRank0 v.kind.integral = true
  · rw [if_pos hp] at h; cases h
  rw [if_neg hp] at h
  obtain ⟨J, h3, h⟩ := (bind_ok_iff _ _ _).mp h
  obtain ⟨h4, c0, h5, P, Q, h6, h7, h8⟩ := jacobian_col h3
  refine ⟨?_, ?_, c, h1, P, Q, by rw [h6, kc], h7⟩
  · intro e; rw [kc, e] at hp; exact hp (.inl rfl)
  · rw [← contract_kind _ _ h c0 h5, h4 c0 h5]

theorem representVel_kind {kw : Kw ℝ} {v w : Vel ℝ} {k : VKind} {p : Pos ℝ}
    (h : representVel kw v k p = .ok w) : w.kind = k := by
  have hd : v.kind.dim = k.dim := by
    by_contra hd; unfold representVel at h; rw [if_pos hd] at h; cases h
  by_cases hs : v.kind = k ∧ k.selfRule = true
  · unfold representVel at h
    rw [if_neg (not_not.mpr hd), if_pos hs] at h
    cases h; exact hs.1
  by_cases h2 : k = .lonCosLat
  · subst h2
    by_cases h1 : v.kind = .lonCosLat
    · exact absurd ⟨h1, rfl⟩ hs
    · rw [representVel_toLonCosLat hd h1] at h
      obtain ⟨x, y, z, l, _, rfl, _⟩ := toLonCosLat_split h
      rfl
  by_cases h1 : v.kind = .lonCosLat
  · obtain ⟨x, y, z, rfl⟩ : ∃ a b c, v = .lonCosLat a b c := by
      cases v <;> first | (cases h1; done) | exact ⟨_, _, _, rfl⟩
    by_cases h3 : k = .lonlat
    · subst h3
      obtain ⟨l, _, rfl, _⟩ := lonCosLat_split (show lonCosLatToLonLat x y z p = .ok w from h)
      rfl
    · rw [representVel_fromLonCosLat hd.symm h2 h3] at h
      obtain ⟨u, _, i2⟩ := (bind_ok_iff _ _ _).mp h
      rw [(generic_inv i2).2.1, vel_of_integral h2]
  · rw [representVel_generic hd hs h1 h2] at h
    rw [(generic_inv h).2.1, vel_of_integral h2]

/-- conversion to prolate spheroidal needs `Delta`, over any number type -/
theorem lonlat_prolate_missing {α : Type} [Num α] (n : ℕ) (lon lat : α) (d : Dist α) (q : Pos α) :
    represent n {} (.lonlat lon lat d) .prolate ≠ .ok q := by
  cases n with
  | zero => intro h; cases h
  | succ n => intro h; simp only [represent] at h; cases h

/-- 2-sphere conversions never return, over any number type -/
theorem twoSphere_never {α : Type} [Num α] (n : ℕ) : ∀ (kw : Kw α) (p q : Pos α) (k : Kind),
    p.kind.dim = 2 → k.dim = 2 → p.kind = .twoSphere ∨ k = .twoSphere →
    represent n kw p k ≠ .ok q := by
  induction n with
  | zero => intro kw p q k _ _ _ h; cases h
  | succ n ih =>
    intro kw p q k hp hk hor h
    have step : (represent n {} p .cart2 >>= fun s => represent n {} s k) = .ok q → False := by
      intro h
      obtain ⟨s, h1, h2⟩ := (bind_ok_iff _ _ _).mp h
      rcases hor with hor | hor
      · exact ih _ _ _ _ hp rfl (Or.inl hor) h1
      · have := represent_kind _ _ _ _ _ h1
        exact ih _ _ _ _ (by rw [this]; rfl) hk (Or.inr hor) h2
    cases p <;> cases k <;> simp only [Pos.kind, Kind.dim] at hp hk <;>
      first
      | (exfalso; revert hp; decide)
      | (exfalso; revert hk; decide)
      | (exfalso; rcases hor with hor | hor <;> (cases hor; done))
      | exact step h

end Verif
