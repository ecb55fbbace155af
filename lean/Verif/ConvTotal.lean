import Verif.ConvLemmas2

/-! # Which conversions return (helper lemmas) -/

namespace Verif

open Real Spec

/-- The textbook conditions under which a same-dimension conversion has a finite answer. -/
structure Convertible (kw : Kw ℝ) (p : Pos ℝ) (k : Kind) : Prop where
  valid : Valid p
  dim : p.kind.dim = k.dim
  src : p.kind ≠ .twoSphere
  tgt : k ≠ .twoSphere
  origin : NeedsDirection p.kind k → point p ≠ V3.zero
  half : k = .radial → 0 ≤ (point p).x
  delta : k = .prolate → (p.kind = .prolate ∧ kw.delta = none) ∨
    ∃ d, kw.delta = some d ∧ 0 < d ∧ ¬ IsFocus d (point p)

theorem Convertible.step {kw kw' : Kw ℝ} {p q : Pos ℝ} {k m : Kind} (h : Convertible kw p k)
    (g : Good p q m) (hm : m.dim = p.kind.dim) (hm' : m ≠ .twoSphere)
    (hn : NeedsDirection m k → NeedsDirection p.kind k)
    (hd : k = .prolate → ∃ d, kw'.delta = some d ∧ 0 < d ∧ ¬ IsFocus d (point p)) :
    Convertible kw' q k where
  valid := g.valid
  dim := by rw [g.kind, hm, h.dim]
  src := by rw [g.kind]; exact hm'
  tgt := h.tgt
  origin := by rw [g.point, g.kind]; exact fun e => h.origin (hn e)
  half := by rw [g.point]; exact h.half
  delta := by rw [g.point]; exact fun hk => Or.inr (hd hk)

/-- rules that do not call `represent_as` again -/
def direct : Kind → Kind → Bool
  | .cart3, .cart3 | .cyl, .cyl | .sph, .sph | .lonlat, .lonlat | .math, .math
  | .cart3, .cyl | .cart3, .sph | .cyl, .cart3 | .cyl, .sph
  | .sph, .cart3 | .sph, .cyl | .sph, .lonlat | .sph, .math | .lonlat, .sph
  | .math, .cart3 | .math, .cyl | .math, .sph | .prolate, .cyl | .cyl, .prolate
  | .cart2, .cart2 | .polar, .polar | .cart2, .polar | .polar, .cart2
  | .cart1, .cart1 | .radial, .radial | .cart1, .radial | .radial, .cart1 => true
  | _, _ => false

theorem sumsq3_pos {x y z : ℝ} (h : (⟨x, y, z⟩ : V3) ≠ V3.zero) : 0 < x * x + y * y + z * z := by
  rcases (sumsq3_nonneg x y z).eq_or_lt with h0 | h0
  · exfalso; apply h
    have hx : x = 0 := by nlinarith [mul_self_nonneg x, mul_self_nonneg y, mul_self_nonneg z]
    have hy : y = 0 := by nlinarith [mul_self_nonneg x, mul_self_nonneg y, mul_self_nonneg z]
    have hz : z = 0 := by nlinarith [mul_self_nonneg x, mul_self_nonneg y, mul_self_nonneg z]
    subst hx hy hz; rfl
  · exact h0

theorem sumsq_cyl_pos {rho phi z : ℝ} (h : cylPoint rho phi z ≠ V3.zero) :
    0 < rho * rho + z * z := by
  rcases (sumsq2_nonneg rho z).eq_or_lt with h0 | h0
  · exfalso; apply h
    have hx : rho = 0 := by nlinarith [mul_self_nonneg rho, mul_self_nonneg z]
    have hz : z = 0 := by nlinarith [mul_self_nonneg rho, mul_self_nonneg z]
    subst hx hz; simp [cylPoint, V3.zero]
  · exact h0

theorem tot_direct (n : ℕ) {kw : Kw ℝ} {p : Pos ℝ} {k : Kind} (h : Convertible kw p k)
    (hd : direct p.kind k = true) : ∃ q, represent (n + 1) kw p k = .ok q := by
  obtain ⟨hv, hdim, hs, ht, ho, hh, hdel⟩ := h
  cases p <;> cases k <;> simp only [Pos.kind, direct, Bool.false_eq_true] at hd <;>
    simp only [represent]
  all_goals first
    | exact ⟨_, rfl⟩
    | exact ⟨_, cart3ToCyl_eq _ _ _⟩
    | exact ⟨_, cart3ToSph_eq (sumsq3_pos (ho (show NeedsDirection .cart3 .sph by decide)))⟩
    | exact ⟨_, cylToSph_eq (sumsq_cyl_pos (ho (show NeedsDirection .cyl .sph by decide)))⟩
    | exact ⟨_, sphToCart3_eq hv.1 _ _⟩
    | exact ⟨_, sphToCyl_eq hv.1 _ _⟩
    | exact ⟨_, sphToLonLat_eq hv.1 _ hv.2.1 hv.2.2⟩
    | exact ⟨_, sphToMath_eq hv.1 _ hv.2.1 hv.2.2⟩
    | exact ⟨_, lonlatToSph_eq hv.1 _ hv.2.1 hv.2.2⟩
    | exact ⟨_, mathToCart3_eq hv.1 _ _⟩
    | exact ⟨_, mathToCyl_eq hv.1 _ _⟩
    | exact ⟨_, mathToSph_eq hv.1 _ hv.2.1 hv.2.2⟩
    | exact ⟨_, prolateToCyl_eq hv.1 hv.2.1 hv.2.2⟩
    | exact ⟨_, cart2ToPolar_eq _ _⟩
    | exact ⟨_, polarToCart2_eq hv _⟩
    | exact ⟨_, mkRadial_ok (r := .dist _) (hh rfl)⟩
    | exact ⟨_, by rw [distance_ok hv]; rfl⟩
    | (rcases hdel rfl with h | ⟨d, h1, h2, h3⟩
       · cases h.1
       · rw [h1]
         refine ⟨_, cylToProlate_eq h2 (fun hf => h3 ?_)⟩
         obtain ⟨hr, hz⟩ := hf
         subst hr
         exact ⟨by simp [point, cylPoint], by simp [point, cylPoint], by
           simp only [point, cylPoint]; nlinarith⟩)

/-- the class a composite rule goes through -/
def via : Kind → Kind → Kind
  | .cart3, .prolate | .sph, .prolate | .lonlat, .prolate | .math, .prolate => .cyl
  | .prolate, _ => .cyl
  | .lonlat, .math | .math, .lonlat => .cart3
  | _, _ => .sph

theorem tot_step {n : ℕ} {kw : Kw ℝ} {p : Pos ℝ} {k : Kind} (h : Convertible kw p k)
    (hd : direct p.kind k = false) (hnp : ¬ (p.kind = .prolate ∧ k = .prolate ∧ kw.delta = none))
    (h1 : ∃ q, represent n {} p (via p.kind k) = .ok q)
    (h2 : ∀ q kw', q.kind = via p.kind k → Convertible kw' q k →
      ∃ s, represent n kw' q k = .ok s) :
    ∃ q, represent (n + 1) kw p k = .ok q := by
  obtain ⟨q, hq⟩ := h1
  have hvia : (via p.kind k).dim = p.kind.dim ∧ via p.kind k ≠ .twoSphere := by
    have hdim := h.dim
    cases p <;> cases k <;> simp only [Pos.kind, Kind.dim] at hdim <;>
      first
      | (exfalso; revert hdim; decide)
      | (exact absurd rfl h.src)
      | (exact absurd rfl h.tgt)
      | (constructor <;> first | rfl | (intro hc; cases hc))
      | (simp only [Pos.kind, direct] at hd; cases hd)
  have hn : NeedsDirection (via p.kind k) k → NeedsDirection p.kind k := by
    have hdim := h.dim
    have := h.src
    have := h.tgt
    clear h2 hq hnp
    revert hdim hd this
    generalize p.kind = a
    cases a <;> cases k <;> decide
  have g := represent_good n _ _ _ _ h.valid hvia.1.symm hq
  have hp0 : k ≠ .prolate → ∃ s, represent n {} q k = .ok s := fun hk =>
    h2 q {} g.kind (h.step g hvia.1 hvia.2 hn (fun e => absurd e hk))
  have hdel := h.delta
  have hp1 : ∀ d, k = .prolate → kw.delta = some d →
      ∃ s, represent n { delta := some d } q k = .ok s := fun d hk hd' => by
    refine h2 q _ g.kind (h.step g hvia.1 hvia.2 hn (fun _ => ⟨d, rfl, ?_⟩))
    rcases hdel hk with ⟨_, h0⟩ | ⟨d', h0, h1, h2⟩
    · rw [h0] at hd'; cases hd'
    · rw [h0] at hd'; cases hd'; exact ⟨h1, h2⟩
  have hdim := h.dim
  cases p <;> cases k <;> simp only [Pos.kind, Kind.dim] at hdim <;>
    first
    | (exfalso; revert hdim; decide)
    | (exact absurd rfl h.src)
    | (exact absurd rfl h.tgt)
    | (simp only [Pos.kind, direct] at hd; cases hd; done)
    | (simp only [represent]
       simp only [via, Pos.kind] at hq
       rw [hq]
       obtain ⟨s, hs⟩ := hp0 (by intro hc; cases hc)
       exact ⟨s, hs⟩)
    | (simp only [represent]
       simp only [via, Pos.kind] at hq
       cases hk : kw.delta with
       | none =>
         first
         | exact absurd ⟨rfl, rfl, hk⟩ hnp
         | (rcases hdel rfl with ⟨h0, _⟩ | ⟨d', h0, _⟩
            · cases h0
            · rw [hk] at h0; cases h0)
       | some d =>
         rw [hq]
         obtain ⟨s, hs⟩ := hp1 d rfl hk
         exact ⟨s, hs⟩)

theorem Convertible.toVia {kw kw' : Kw ℝ} {p : Pos ℝ} {k m : Kind} (h : Convertible kw p k)
    (hm : p.kind.dim = m.dim) (h2 : m ≠ .twoSphere) (h3 : m ≠ .prolate) (h4 : m ≠ .radial)
    (h5 : NeedsDirection p.kind m → NeedsDirection p.kind k) :
    Convertible kw' p m where
  valid := h.valid
  dim := hm
  src := h.src
  tgt := h2
  origin := fun e => h.origin (h5 e)
  half := fun e => absurd e h4
  delta := fun e => absurd e h3

/-- pairs that need exactly one intermediate vector, both halves being direct -/
theorem tot2 (n : ℕ) {kw : Kw ℝ} {p : Pos ℝ} {k : Kind} (h : Convertible kw p k)
    (hor : direct p.kind k = true ∨
      (direct p.kind (via p.kind k) = true ∧ direct (via p.kind k) k = true)) :
    ∃ q, represent (n + 2) kw p k = .ok q := by
  by_cases hd : direct p.kind k = true
  · exact tot_direct (n + 1) h hd
  obtain ⟨h1, h2⟩ := hor.resolve_left hd
  by_cases hnp : p.kind = .prolate ∧ k = .prolate ∧ kw.delta = none
  · obtain ⟨ha, hb, hc⟩ := hnp
    subst hb
    cases p <;> cases ha
    exact ⟨_, by simp only [represent, hc]; rfl⟩
  have hvia : p.kind.dim = (via p.kind k).dim ∧ via p.kind k ≠ .twoSphere ∧
      via p.kind k ≠ .prolate ∧ via p.kind k ≠ .radial ∧
      (NeedsDirection p.kind (via p.kind k) → NeedsDirection p.kind k) := by
    clear hor
    revert h1 h2 hd
    generalize p.kind = a
    cases a <;> cases k <;> decide
  refine tot_step h (by simpa using hd) hnp
    (tot_direct n (h.toVia hvia.1 hvia.2.1 hvia.2.2.1 hvia.2.2.2.1 hvia.2.2.2.2) h1) ?_
  intro q kw' hq hc
  exact tot_direct n hc (by rw [hq]; exact h2)

/-- Every conversion with a finite answer returns, within recursion depth 3. -/
theorem represent_total (n : ℕ) {kw : Kw ℝ} {p : Pos ℝ} {k : Kind} (h : Convertible kw p k) :
    ∃ q, represent (n + 3) kw p k = .ok q := by
  by_cases hd : direct p.kind k = true
  · exact tot_direct (n + 2) h hd
  by_cases hnp : p.kind = .prolate ∧ k = .prolate ∧ kw.delta = none
  · obtain ⟨ha, hb, hc⟩ := hnp
    subst hb
    cases p <;> cases ha
    exact ⟨_, by simp only [represent, hc]; rfl⟩
  have hs := h.src
  have ht := h.tgt
  have hvia : p.kind.dim = (via p.kind k).dim ∧ via p.kind k ≠ .twoSphere ∧
      via p.kind k ≠ .prolate ∧ via p.kind k ≠ .radial ∧
      (NeedsDirection p.kind (via p.kind k) → NeedsDirection p.kind k) ∧
      (direct p.kind (via p.kind k) = true ∨
        direct p.kind (via p.kind (via p.kind k)) = true ∧
        direct (via p.kind (via p.kind k)) (via p.kind k) = true) ∧
      (direct (via p.kind k) k = true ∨
        direct (via p.kind k) (via (via p.kind k) k) = true ∧
        direct (via (via p.kind k) k) k = true) := by
    have hdim := h.dim
    revert hs ht hd hdim
    generalize p.kind = a
    cases a <;> cases k <;> decide
  obtain ⟨v1, v2, v3, v4, v7, v5, v6⟩ := hvia
  refine tot_step h (by simpa using hd) hnp (tot2 n (h.toVia v1 v2 v3 v4 v7) v5) ?_
  intro q kw' hq hc
  exact tot2 n hc (by rw [hq]; exact v6)

end Verif
