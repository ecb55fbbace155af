import Verif.Props.Exact
import Verif.Props.Raising

/-!
# Exactly when dimension changes and comparisons return, and what they give (C12, C13, C44, C48)
-/

namespace Verif.Props

open Real Spec

/-! ## C12, C48: raising -/

theorem raised_returns_iff_aux (n : ℕ) (kw : Kw ℝ) (p : Pos ℝ) (k : Kind) (hv : Valid p)
    (hlt : p.kind.dim < k.dim) :
    (∃ q, represent (n + 4) kw p k = .ok q) ↔
      p.kind ≠ .twoSphere ∧ k ∉ [Kind.lonlat, .prolate, .twoSphere] ∧
      (p.kind = .cart1 → k ∈ [Kind.polar, .cyl] → 0 ≤ (point p).x) ∧
      (p.kind = .radial → k ∈ [Kind.cart2, .cart3, .cyl] → PlainDist p) ∧
      (p.kind = .polar → k ∈ [Kind.cart3, .cyl] → PlainDist p) ∧
      (p.kind = .cart2 → k ∈ [Kind.sph, .math] → ¬ (point p = V3.zero ∧ kw.z.getD 0 = 0)) := by
  have len : ∀ (r : Dist ℝ), (∃ d, r.asLength = .ok d) ↔ ∃ d, r = .dist d := fun r =>
    exists_congr fun d => asLength_iff
  cases p with
  | twoSphere a b =>
    refine iff_of_false ?_ (fun h => h.1 rfl)
    rintro ⟨q, h⟩
    cases k <;> first | (simp [Pos.kind, Kind.dim] at hlt; done) | cases h
  | cart1 x =>
    cases k <;> first | (simp [Pos.kind, Kind.dim] at hlt; done) | skip
    · exact iff_of_true ⟨_, rfl⟩ (by simp [Pos.kind])
    · simp only [Pos.kind]
      have : (∃ q, represent (n + 4) kw (.cart1 x) .polar = .ok q) ↔ 0 ≤ x :=
        ⟨fun ⟨q, h⟩ => (mkPolar_iff.mp h).1, fun h => ⟨_, mkPolar_iff.mpr ⟨h, rfl⟩⟩⟩
      rw [this]; simp [point]
    · exact iff_of_false (fun ⟨_, h⟩ => by cases h) (by simp)
    · exact iff_of_true ⟨_, rfl⟩ (by simp [Pos.kind])
    · have : (∃ q, represent (n + 4) kw (.cart1 x) .cyl = .ok q) ↔ 0 ≤ x :=
        ⟨fun ⟨q, h⟩ => (mkCyl_iff.mp h).1, fun h => ⟨_, mkCyl_iff.mpr ⟨h, rfl⟩⟩⟩
      rw [this]; simp [point, Pos.kind]
    · obtain ⟨r', t, p, h1, _⟩ := sphFrom_good (orZero kw.theta) (.qty (orZero kw.phi)) (Or.inr ⟨x, rfl⟩)
      exact iff_of_true ⟨_, h1⟩ (by simp [Pos.kind])
    · exact iff_of_false (fun ⟨_, h⟩ => by cases h) (by simp)
    · obtain ⟨r', t, p, h1, _⟩ := mathFrom_good (.qty (orZero kw.theta)) (orZero kw.phi) (Or.inr ⟨x, rfl⟩)
      exact iff_of_true ⟨_, h1⟩ (by simp [Pos.kind])
    · exact iff_of_false (fun ⟨_, h⟩ => by cases h) (by simp)
  | radial r =>
    cases k <;> first | (simp [Pos.kind, Kind.dim] at hlt; done) | skip
    · have : (∃ q, represent (n + 4) kw (.radial r) .cart2 = .ok q) ↔ ∃ d, r = .dist d := by
        rw [← len]
        exact ⟨fun ⟨q, h⟩ => by
            obtain ⟨a, ha, _⟩ := (bind_ok_iff _ _ _).mp h; exact ⟨a, ha⟩,
          fun ⟨d, h⟩ => ⟨_, (bind_ok_iff _ _ _).mpr ⟨d, h, rfl⟩⟩⟩
      rw [this]; simp [Pos.kind, PlainDist]
    · exact iff_of_true ⟨_, mkPolar_ok _ (distOk_raw hv)⟩ (by simp [Pos.kind])
    · exact iff_of_false (fun ⟨_, h⟩ => by cases h) (by simp)
    · have : (∃ q, represent (n + 4) kw (.radial r) .cart3 = .ok q) ↔ ∃ d, r = .dist d := by
        rw [← len]
        exact ⟨fun ⟨q, h⟩ => by
            obtain ⟨a, ha, _⟩ := (bind_ok_iff _ _ _).mp h; exact ⟨a, ha⟩,
          fun ⟨d, h⟩ => ⟨_, (bind_ok_iff _ _ _).mpr ⟨d, h, rfl⟩⟩⟩
      rw [this]; simp [Pos.kind, PlainDist]
    · have : (∃ q, represent (n + 4) kw (.radial r) .cyl = .ok q) ↔ ∃ d, r = .dist d := by
        rw [← len]
        refine ⟨fun ⟨q, h⟩ => by
            obtain ⟨a, ha, _⟩ := (bind_ok_iff _ _ _).mp h; exact ⟨a, ha⟩,
          fun ⟨d, h⟩ => ⟨_, (bind_ok_iff _ _ _).mpr ⟨d, h, mkCyl_ok _ ?_⟩⟩⟩
        rw [asLength_iff] at h; subst h; exact hv
      rw [this]; simp [Pos.kind, PlainDist]
    · obtain ⟨r', t, p, h1, _⟩ := sphFrom_good (orZero kw.theta) (.qty (orZero kw.phi)) (Or.inl hv)
      exact iff_of_true ⟨_, h1⟩ (by simp [Pos.kind])
    · exact iff_of_false (fun ⟨_, h⟩ => by cases h) (by simp)
    · obtain ⟨r', t, p, h1, _⟩ := mathFrom_good (.qty (orZero kw.theta)) (orZero kw.phi) (Or.inl hv)
      exact iff_of_true ⟨_, h1⟩ (by simp [Pos.kind])
    · exact iff_of_false (fun ⟨_, h⟩ => by cases h) (by simp)
  | cart2 x y =>
    have c : ∀ k : Kind, k.dim = 3 →
        ((∃ q, represent (n + 3) {} (.cart3 x y (orZero (some (orZero kw.z)))) k = .ok q) ↔
          Convertible {} (.cart3 x y (kw.z.getD 0)) k) := by
      intro k hk
      rw [orZero_some, orZero_getD]
      exact represent_iff n trivial hk.symm (by intro e; cases e) (by rintro rfl; cases hk)
    have d : ∀ k : Kind, k.dim = 3 → k ≠ .prolate → (k = .sph ∨ k = .math) →
        (Convertible {} (.cart3 x y (kw.z.getD 0)) k ↔
          ¬ ((⟨x, y, 0⟩ : V3) = V3.zero ∧ kw.z.getD 0 = 0)) := by
      intro k hk hp hm
      have hn : NeedsDirection (Pos.kind (.cart3 x y (kw.z.getD 0))) k := by
        show NeedsDirection .cart3 k
        rcases hm with rfl | rfl <;> decide
      constructor
      · intro h e
        apply h.origin hn
        have := e.1
        simp only [V3.zero, V3.mk.injEq, and_true] at this
        simp [point, V3.zero, this, e.2]
      · intro h
        refine ⟨trivial, hk.symm, (by intro e; cases e), (by rintro rfl; cases hk), fun _ e => h ?_,
          (by rintro rfl; cases hk), fun e => absurd e hp⟩
        simp only [point, V3.zero, V3.mk.injEq] at e
        exact ⟨by simp [V3.zero, e.1, e.2.1], e.2.2⟩
    cases k <;> first | (simp [Pos.kind, Kind.dim] at hlt; done) | skip
    · exact iff_of_true ⟨_, rfl⟩ (by simp [Pos.kind])
    · refine iff_of_true ((c .cyl rfl).mpr ⟨trivial, rfl, (by intro e; cases e), (by decide),
        fun h => absurd h (show ¬ NeedsDirection .cart3 .cyl by decide), nofun, nofun⟩)
        (by simp [Pos.kind])
    · refine ((c .sph rfl).trans (d .sph rfl (by decide) (Or.inl rfl))).trans ?_
      simp [Pos.kind, point]
    · exact iff_of_false (fun ⟨_, h⟩ => by cases h) (by simp)
    · refine ((c .math rfl).trans (d .math rfl (by decide) (Or.inr rfl))).trans ?_
      simp [Pos.kind, point]
    · exact iff_of_false (fun ⟨_, h⟩ => by cases h) (by simp)
  | polar r phi =>
    have cy : ∀ z, (∃ q, (do mkCyl (← r.asLength) (.angle phi) z : Res (Pos ℝ)) = .ok q) ↔
        ∃ d, r = .dist d := by
      intro z
      rw [← len]
      refine ⟨fun ⟨q, h⟩ => by
          obtain ⟨a, ha, _⟩ := (bind_ok_iff _ _ _).mp h; exact ⟨a, ha⟩,
        fun ⟨d, h⟩ => ⟨_, (bind_ok_iff _ _ _).mpr ⟨d, h, mkCyl_ok _ ?_⟩⟩⟩
      rw [asLength_iff] at h; subst h; exact hv
    cases k <;> first | (simp [Pos.kind, Kind.dim] at hlt; done) | skip
    · have : (∃ q, represent (n + 4) kw (.polar r phi) .cart3 = .ok q) ↔ ∃ d, r = .dist d := by
        rw [← cy (orZero (some (orZero kw.z)))]
        constructor
        · rintro ⟨q, h⟩
          obtain ⟨a, ha, _⟩ := (bind_ok_iff _ _ _).mp h
          exact ⟨a, ha⟩
        · rintro ⟨q, h⟩
          obtain ⟨a, ha, h'⟩ := (bind_ok_iff _ _ _).mp h
          have hq := (mkCyl_iff.mp h').2
          subst hq
          exact ⟨_, (bind_ok_iff _ _ _).mpr ⟨_, h, rfl⟩⟩
      rw [this]; simp [Pos.kind, PlainDist]
    · refine (cy (orZero kw.z)).trans ?_
      simp [Pos.kind, PlainDist]
    · obtain ⟨r', t, p, h1, _⟩ := sphFrom_good (orZero kw.theta) (.angle phi) (Or.inl hv)
      exact iff_of_true ⟨_, h1⟩ (by simp [Pos.kind])
    · exact iff_of_false (fun ⟨_, h⟩ => by cases h) (by simp)
    · obtain ⟨r', t, p, h1, _⟩ := mathFrom_good (.angle phi) (orZero kw.phi) (Or.inl hv)
      exact iff_of_true ⟨_, h1⟩ (by simp [Pos.kind])
    · exact iff_of_false (fun ⟨_, h⟩ => by cases h) (by simp)
  | _ => cases k <;> simp [Pos.kind, Kind.dim] at hlt

/-- **C12, C48.** Raising the dimension of a valid position returns, whatever the keyword arguments,
except exactly in these cases: the target is `LonLatSphericalPos`, `ProlateSpheroidalPos` or
`TwoSpherePos`, or the source `TwoSpherePos` (no rule); a negative `CartesianPos1D` to a class whose
first component is a radius (`PolarPos`, `CylindricalPos`); a parallax or distance modulus to a
class that needs a length; a `CartesianPos2D` to a spherical class if the raised point is the
origin. -/
theorem C12_raising_returns_iff (kw : Kw ℝ) (p : Pos ℝ) (k : Kind) (hv : Valid p)
    (hlt : p.kind.dim < k.dim) :
    (∃ q, representAs kw p k = .ok q) ↔
      p.kind ≠ .twoSphere ∧ k ∉ [Kind.lonlat, .prolate, .twoSphere] ∧
      (p.kind = .cart1 → k ∈ [Kind.polar, .cyl] → 0 ≤ (point p).x) ∧
      (p.kind = .radial → k ∈ [Kind.cart2, .cart3, .cyl] → PlainDist p) ∧
      (p.kind = .polar → k ∈ [Kind.cart3, .cyl] → PlainDist p) ∧
      (p.kind = .cart2 → k ∈ [Kind.sph, .math] → ¬ (point p = V3.zero ∧ kw.z.getD 0 = 0)) :=
  raised_returns_iff_aux 196 kw p k hv hlt

/-- The signed length of a 1-D or polar position. -/
noncomputable def signedLength : Pos ℝ → ℝ
  | .cart1 x => x
  | .radial r => distOf r
  | .polar r _ => distOf r
  | _ => 0

/-- **C12.** With default arguments a raising conversion that returns gives the same point (missing
Cartesian coordinates zero), except from 1-D and polar positions to `SphericalPos` and
`MathSphericalPos`: there the point goes to the z axis, which is wrong unless it is the origin. -/
theorem C12_raising_exact (p q : Pos ℝ) (k : Kind) (hv : Valid p) (hlt : p.kind.dim < k.dim)
    (h : representAs {} p k = .ok q) :
    q.kind = k ∧
    point q = (if p.kind ≠ .cart2 ∧ (k = .sph ∨ k = .math) then ⟨0, 0, signedLength p⟩ else point p) ∧
    (point q = point p ↔ ¬ (p.kind ≠ .cart2 ∧ (k = .sph ∨ k = .math)) ∨ point p = V3.zero) := by
  have hs : p.kind ≠ .twoSphere := ((C12_raising_returns_iff {} p k hv hlt).mp ⟨q, h⟩).1
  by_cases hk : p.kind ≠ .cart2 ∧ (k = .sph ∨ k = .math)
  · obtain ⟨h1, h2⟩ := C48_keywords_used {} p q k hv hs hlt h
    have e : point q = ⟨0, 0, signedLength p⟩ := by
      obtain ⟨hk1, hk2⟩ := hk
      symm
      apply Option.some.inj
      rw [← h2]
      rcases hk2 with rfl | rfl <;> cases p <;>
        first
        | exact absurd rfl hk1
        | exact absurd rfl hs
        | (simp [Pos.kind, Kind.dim] at hlt; done)
        | simp [raised, length1, sphPoint, signedLength]
    refine ⟨h1, by rw [if_pos hk, e], ?_⟩
    rw [e]
    constructor
    · intro hp
      right
      have hz : (point p).z = 0 := by
        cases p <;> first | rfl | exact absurd rfl hs | (cases k <;> simp [Pos.kind, Kind.dim] at hlt; done)
      rw [← hp] at hz ⊢
      simp only at hz
      rw [hz]; rfl
    · intro hp
      have hp := hp.resolve_left (fun h => h hk)
      have hl : signedLength p = 0 := by
        cases p <;>
          first
          | exact absurd rfl hs
          | exact absurd rfl hk.1
          | (simp only [point, V3.zero, V3.mk.injEq, and_true, true_and] at hp; exact hp)
          | (simp only [point, V3.zero, V3.mk.injEq, and_true, true_and] at hp
             exact cyl_axis hp.1 hp.2)
          | (cases k <;> simp [Pos.kind, Kind.dim] at hlt; done)
      rw [hp, hl]; rfl
  · have he : embeds p.kind k = true := by
      have h1 : ¬ (p.kind ≠ .cart2 ∧ (k = .sph ∨ k = .math)) := hk
      revert hlt h1
      generalize p.kind = a
      cases a <;> cases k <;> decide
    obtain ⟨h1, h2⟩ := C12_raising_embeds p q k hv hs he h
    exact ⟨h1, by rw [if_neg hk, h2], by simp only [h2, hk, not_false_eq_true, true_or]⟩

theorem sphFrom_plain {d th : ℝ} {az : AzArg ℝ} {q : Pos ℝ} (h : sphFrom (.dist d) th az = .ok q) :
    PlainDist q := by
  simp only [sphFrom] at h
  rw [(mkSph_iff.mp h).2.2]
  show ∃ e, _ = Dist.dist e
  split
  · exact ⟨_, rfl⟩
  · exact ⟨_, rfl⟩

theorem mathFrom_plain {d ph : ℝ} {az : AzArg ℝ} {q : Pos ℝ} (h : mathFrom (.dist d) az ph = .ok q) :
    PlainDist q := by
  simp only [mathFrom] at h
  rw [(mkMath_iff.mp h).2.2]
  show ∃ e, _ = Dist.dist e
  split
  · exact ⟨_, rfl⟩
  · exact ⟨_, rfl⟩

open Classical in
/-- **C12**, up and down again with default arguments (plain distance if the source is polar): the
way down always returns a vector of the original class. It is the original point from `RadialPos`,
and from the other classes whenever the way up kept the point (`C12_raising_exact`); otherwise it
is the origin. -/
theorem C12_up_and_down_exact (p q : Pos ℝ) (k : Kind) (hv : Valid p) (hlt : p.kind.dim < k.dim)
    (hpl : p.kind = .polar → PlainDist p) (h : representAs {} p k = .ok q) :
    ∃ p', representAs {} q p.kind = .ok p' ∧ p'.kind = p.kind ∧
      point p' = if p.kind = .radial ∨ point q = point p then point p else V3.zero := by
  obtain ⟨hts, htgt, hrest⟩ := (C12_raising_returns_iff {} p k hv hlt).mp ⟨q, h⟩
  obtain ⟨hqk, hqp, hqe⟩ := C12_raising_exact p q k hv hlt h
  have wf := represent_wf _ _ _ _ _ hv h
  simp only [List.mem_cons, List.not_mem_nil, or_false, not_or] at htgt
  by_cases hr : p.kind = .radial
  · -- `RadialPos`
    clear hrest
    cases p <;> first | (cases hr; done) | skip
    rename Dist ℝ => r
    have h0 := distOf_nonneg (show DistOk r from hv)
    have hnorm : (point q).norm = distOf r := by
      rw [hqp]
      split
      · simp only [V3.norm, signedLength]
        rw [show (0:ℝ) ^ 2 + 0 ^ 2 + distOf r ^ 2 = distOf r ^ 2 by ring, Real.sqrt_sq h0]
      · simp only [V3.norm, point]
        rw [show distOf r ^ 2 + (0:ℝ) ^ 2 + 0 ^ 2 = distOf r ^ 2 by ring, Real.sqrt_sq h0]
    simp only [Pos.kind, true_or, if_true]
    by_cases hc : k = .cyl
    · subst hc
      rw [if_neg (by simp)] at hqp
      cases q <;> first | (cases hqk; done) | skip
      rename_i rho phi z
      have hrho : rho = distOf r := by
        simp only [point, cylPoint, V3.mk.injEq] at hqp
        rw [← hnorm]
        simp only [V3.norm, point, cylPoint, hqp.2.2]
        rw [show (rho * cos phi) ^ 2 + (rho * sin phi) ^ 2 + (0:ℝ) ^ 2 = rho ^ 2 by
          linear_combination rho ^ 2 * sin_sq_add_cos_sq phi]
        rw [Real.sqrt_sq wf.valid]
      exact ⟨_, mkRadial_ok (r := .dist rho) wf.valid, rfl, by rw [hrho]; rfl⟩
    · obtain ⟨r', h1, h2⟩ := C13_radial_is_norm {} q wf.valid (by rw [hqk]; exact hlt)
        (by rw [hqk]; exact htgt.1) (by rw [hqk]; exact htgt.2.2) (by rw [hqk]; exact hc)
      exact ⟨_, h1, rfl, by simp only [point]; rw [h2, hnorm]⟩
  · have hp3 : p.kind = .cart1 ∨ p.kind = .cart2 ∨ p.kind = .polar := by
      clear hqp hqe hpl
      revert hr hts hlt
      generalize p.kind = a
      cases a <;> cases k <;> decide
    simp only [hr, false_or]
    by_cases hk : p.kind ≠ .cart2 ∧ (k = .sph ∨ k = .math)
    · -- to the z axis
      have hqpl : PlainDist q := by
        obtain ⟨hk1, hk2⟩ := hk
        rcases hk2 with rfl | rfl <;> cases p <;>
          first
          | (rcases hp3 with h | h | h <;> cases h; done)
          | exact absurd rfl hk1
          | exact sphFrom_plain h
          | exact mathFrom_plain h
          | (obtain ⟨d, rfl⟩ := hpl rfl; exact sphFrom_plain h)
          | (obtain ⟨d, rfl⟩ := hpl rfl; exact mathFrom_plain h)
      obtain ⟨p', h1, h2, h3⟩ := C13_lowering_projects {} q p.kind wf.valid hqpl hp3
        (by rw [hqk]; exact hlt) (by rw [hqk]; exact htgt.1) (by rw [hqk]; exact htgt.2.2)
      refine ⟨p', h1, h2, ?_⟩
      have : point p' = V3.zero := by
        rw [h3, hqp, if_pos hk]
        rcases hp3 with h | h | h <;> rw [h] <;> rfl
      rw [this]
      split
      · rename_i e
        exact ((hqe.mp e).resolve_left (fun h => h hk)).symm
      · rfl
    · have he : embeds p.kind k = true := by
        have h1 : ¬ (p.kind ≠ .cart2 ∧ (k = .sph ∨ k = .math)) := hk
        revert hlt h1
        generalize p.kind = a
        cases a <;> cases k <;> decide
      obtain ⟨p', h1, h2, h3⟩ := C12_up_and_down p q k hv hp3 he h
      refine ⟨p', h1, h2, ?_⟩
      rw [if_pos (hqe.mpr (Or.inl hk)), h3]

/-! ## C13: lowering -/

theorem lowering_returns_aux (n : ℕ) (kw : Kw ℝ) (p : Pos ℝ) (k : Kind) (hv : Valid p)
    (hlt : k.dim < p.kind.dim) :
    (∃ q, represent (n + 4) kw p k = .ok q) →
      p.kind ∉ [Kind.lonlat, .twoSphere] ∧ k ≠ .twoSphere ∧
      (p.kind ∈ [Kind.polar, .sph, .math] → k ∈ [Kind.cart1, .cart2] → PlainDist p) ∧
      (k = .polar → ∀ a θ φ, (p = .sph (.par a) θ φ ∨ p = .math (.par a) φ θ) → sin θ ≠ 0) := by
  rintro ⟨q, h⟩
  have par : ∀ {a s : ℝ} {r : Dist ℝ}, (Dist.par a).scaleThenFrom s = .ok r → s ≠ 0 := by
    rintro a s r h rfl
    simp only [Dist.scaleThenFrom, Dist.distance, mul_zero, tan_real, Real.cos_zero, one_ne_zero,
      if_false, ok_bind, Real.tan_zero, div_real, if_true, error_bind] at h
    cases h
  refine ⟨?_, ?_, ?_, ?_⟩
  · simp only [List.mem_cons, List.not_mem_nil, or_false, not_or]
    constructor <;> intro e <;> cases p <;> first | (cases e; done) | skip
    all_goals cases k <;> first | (simp [Pos.kind, Kind.dim] at hlt; done) | (cases h; done)
  · rintro rfl
    cases p <;> first | (simp [Pos.kind, Kind.dim] at hlt; done) | (cases h; done) | skip
    obtain ⟨c, h1, h2⟩ := (bind_ok_iff _ _ _).mp h
    have := (represent_good _ _ _ .cart3 _ hv rfl h1).kind
    cases c <;> first | (cases this; done) | (cases h2; done)
  · intro hp hk
    simp only [List.mem_cons, List.not_mem_nil, or_false] at hp hk
    cases p <;> first | (rcases hp with h | h | h <;> cases h; done) | skip
    all_goals
      rename Dist ℝ => r
      rcases hk with rfl | rfl <;> first | (simp [Pos.kind, Kind.dim] at hlt; done) | skip
      all_goals
        obtain ⟨d, hd, _⟩ := (bind_ok_iff _ _ _).mp h
        exact ⟨d, asLength_iff.mp hd⟩
  · rintro rfl a θ φ (rfl | rfl)
    all_goals
      obtain ⟨r, hr, _⟩ := (bind_ok_iff _ _ _).mp h
      exact par hr

theorem tan_mono_scale {a s : ℝ} (h0 : 0 < a) (h1 : a < π / 2) (s0 : 0 ≤ s) (s1 : s < 1) :
    tan (a * s) < tan a :=
  tan_lt_tan_of_nonneg_of_lt_pi_div_two (mul_nonneg h0.le s0) h1 (by nlinarith)

theorem scale_par {a s : ℝ} (h0 : 0 < a) (h1 : a < π / 2) (s0 : 0 < s) (s1 : s ≤ 1) :
    DistOk (.par (a * s)) ∧
    (Dist.par a).scaleThenFrom s = .ok (.dist (1 / tan (a * s))) := by
  have ok : DistOk (.par (a * s)) := ⟨mul_pos h0 s0, by nlinarith⟩
  exact ⟨ok, by simp only [Dist.scaleThenFrom, distance_ok ok, ok_bind, pure_ok]; rfl⟩

theorem scale_dm {m s : ℝ} (h0 : 0 ≤ m) (s0 : 0 ≤ s) :
    DistOk (.dm (m * s)) ∧
    (Dist.dm m).scaleThenFrom s = .ok (.dist ((10 : ℝ) ^ (m * s / 5 + 1) * (648000 / π))) := by
  have ok : DistOk (.dm (m * s)) := mul_nonneg h0 s0
  exact ⟨ok, by simp only [Dist.scaleThenFrom, distance_ok ok, ok_bind, pure_ok]; rfl⟩

/-- The polar position computed from a spherical one whose radial field is a parallax: the
*parallax* is multiplied by `sin θ`. -/
theorem lowering_par (n : ℕ) (kw : Kw ℝ) (p : Pos ℝ) (a θ φ : ℝ) (hv : Valid p)
    (hp : p = .sph (.par a) θ φ ∨ p = .math (.par a) φ θ) (hs : sin θ ≠ 0) :
    represent (n + 4) kw p .polar = .ok (.polar (.dist (1 / tan (a * sin θ))) φ) := by
  have hv' : (0 < a ∧ a < π / 2) ∧ 0 ≤ θ ∧ θ ≤ π := by
    rcases hp with rfl | rfl <;> exact hv
  have s0 : 0 < sin θ := lt_of_le_of_ne (sin_nonneg_of_nonneg_of_le_pi hv'.2.1 hv'.2.2) (Ne.symm hs)
  obtain ⟨ok, e⟩ := scale_par hv'.1.1 hv'.1.2 s0 (sin_le_one θ)
  have : sphToPolar (.par a) θ φ = .ok (.polar (.dist (1 / tan (a * sin θ))) φ) := by
    unfold sphToPolar
    rw [show (Num.sin θ : ℝ) = sin θ from rfl, e, ok_bind]
    exact mkPolar_ok (r := .dist _) _ (distOf_nonneg ok)
  rcases hp with rfl | rfl <;> exact this

theorem lowering_dm (n : ℕ) (kw : Kw ℝ) (p : Pos ℝ) (m θ φ : ℝ) (hv : Valid p)
    (hp : p = .sph (.dm m) θ φ ∨ p = .math (.dm m) φ θ) :
    represent (n + 4) kw p .polar =
      .ok (.polar (.dist ((10 : ℝ) ^ (m * sin θ / 5 + 1) * (648000 / π))) φ) := by
  have hv' : 0 ≤ m ∧ 0 ≤ θ ∧ θ ≤ π := by
    rcases hp with rfl | rfl <;> exact hv
  have s0 : 0 ≤ sin θ := sin_nonneg_of_nonneg_of_le_pi hv'.2.1 hv'.2.2
  obtain ⟨ok, e⟩ := scale_dm hv'.1 s0
  have : sphToPolar (.dm m) θ φ =
      .ok (.polar (.dist ((10 : ℝ) ^ (m * sin θ / 5 + 1) * (648000 / π))) φ) := by
    unfold sphToPolar
    rw [show (Num.sin θ : ℝ) = sin θ from rfl, e, ok_bind]
    exact mkPolar_ok (r := .dist _) _ (distOf_nonneg ok)
  rcases hp with rfl | rfl <;> exact this

/-- lowering without the defects keeps returning (helper) -/
theorem lowering_total (kw : Kw ℝ) (p : Pos ℝ) (k : Kind) (hv : Valid p)
    (hlt : k.dim < p.kind.dim) (h1 : p.kind ∉ [Kind.lonlat, .twoSphere]) (h2 : k ≠ .twoSphere)
    (h3 : p.kind ∈ [Kind.polar, .sph, .math] → k ∈ [Kind.cart1, .cart2] → PlainDist p)
    (h4 : k = .polar → ∀ a θ φ, (p = .sph (.par a) θ φ ∨ p = .math (.par a) φ θ) → sin θ ≠ 0) :
    ∃ q, representAs kw p k = .ok q := by
  simp only [List.mem_cons, List.not_mem_nil, or_false, not_or] at h1
  by_cases hr : k = .radial
  · subst hr
    by_cases hc : p.kind = .cyl
    · cases p <;> first | (cases hc; done) | skip
      exact ⟨_, mkRadial_ok (r := .dist _) hv⟩
    · obtain ⟨r, h, _⟩ := C13_radial_is_norm kw p hv hlt h1.1 h1.2 hc
      exact ⟨_, h⟩
  have hk : k = .cart1 ∨ k = .cart2 ∨ k = .polar := by
    revert hlt hr h2
    generalize p.kind = a
    cases a <;> cases k <;> decide
  by_cases hpl : PlainDist p
  · obtain ⟨q, h, _⟩ := C13_lowering_projects kw p k hv hpl hk hlt h1.1 h1.2
    exact ⟨q, h⟩
  · have hk : k = .polar := by
      rcases hk with rfl | rfl | rfl
      · exfalso; apply hpl
        cases p <;>
          first
          | trivial
          | exact absurd rfl h1.1
          | exact h3 (by simp [Pos.kind]) (by simp)
          | (simp [Pos.kind, Kind.dim] at hlt; done)
      · exfalso; apply hpl
        cases p <;>
          first
          | trivial
          | exact absurd rfl h1.1
          | exact h3 (by simp [Pos.kind]) (by simp)
          | (simp [Pos.kind, Kind.dim] at hlt; done)
      · rfl
    subst hk
    have h4 := h4 rfl
    cases p <;>
      first
      | exact absurd trivial hpl
      | (simp [Pos.kind, Kind.dim] at hlt; done)
      | exact absurd rfl h1.1
      | skip
    · rename Dist ℝ => r
      rename_i θ φ _
      cases r with
      | dist d => exact absurd ⟨d, rfl⟩ hpl
      | par a => exact ⟨_, lowering_par 196 kw _ a θ φ hv (Or.inl rfl) (h4 a θ φ (Or.inl rfl))⟩
      | dm m => exact ⟨_, lowering_dm 196 kw _ m θ φ hv (Or.inl rfl)⟩
    · rename Dist ℝ => r
      rename_i φ θ _
      cases r with
      | dist d => exact absurd ⟨d, rfl⟩ hpl
      | par a => exact ⟨_, lowering_par 196 kw _ a θ φ hv (Or.inr rfl) (h4 a θ φ (Or.inr rfl))⟩
      | dm m => exact ⟨_, lowering_dm 196 kw _ m θ φ hv (Or.inr rfl)⟩

/-- **C13.** Lowering the dimension of a valid position returns except exactly in these cases: no
rule (`LonLatSphericalPos` or `TwoSpherePos` sources, `TwoSpherePos` target); a parallax or
distance modulus to a Cartesian class; a parallax to `PolarPos` on the z axis. -/
theorem C13_returns_iff (kw : Kw ℝ) (p : Pos ℝ) (k : Kind) (hv : Valid p)
    (hlt : k.dim < p.kind.dim) :
    (∃ q, representAs kw p k = .ok q) ↔
      p.kind ∉ [Kind.lonlat, .twoSphere] ∧ k ≠ .twoSphere ∧
      (p.kind ∈ [Kind.polar, .sph, .math] → k ∈ [Kind.cart1, .cart2] → PlainDist p) ∧
      (k = .polar → ∀ a θ φ, (p = .sph (.par a) θ φ ∨ p = .math (.par a) φ θ) → sin θ ≠ 0) :=
  ⟨lowering_returns_aux 196 kw p k hv hlt,
    fun ⟨a, b, c, d⟩ => lowering_total kw p k hv hlt a b c d⟩

/-- **C13.** What lowering returns: the orthogonal projection for the Cartesian classes and for
`PolarPos`, the Euclidean length for `RadialPos`; except that a parallax (distance modulus) is itself
multiplied by the sine of the inclination when the target is `PolarPos`, which for a parallax is
right only in the x-y plane, and that a cylindrical position gives its `rho` for `RadialPos`, which is
right only in the x-y plane. -/
theorem C13_lowering_exact (kw : Kw ℝ) (p q : Pos ℝ) (k : Kind) (hv : Valid p)
    (hlt : k.dim < p.kind.dim) (h : representAs kw p k = .ok q) :
    q.kind = k ∧
    (k ≠ .radial → (k = .polar → PlainDist p) → point q = proj k.dim (point p)) ∧
    (k = .radial → p.kind ≠ .cyl → point q = ⟨(point p).norm, 0, 0⟩) ∧
    (∀ rho φ z, p = .cyl rho φ z → k = .radial → q = .radial (.dist rho) ∧
      (point q = ⟨(point p).norm, 0, 0⟩ ↔ z = 0)) ∧
    (∀ a θ φ, (p = .sph (.par a) θ φ ∨ p = .math (.par a) φ θ) → k = .polar →
      q = .polar (.dist (1 / tan (a * sin θ))) φ ∧
      (point q = proj 2 (point p) ↔ θ = π / 2)) ∧
    (∀ m θ φ, (p = .sph (.dm m) θ φ ∨ p = .math (.dm m) φ θ) → k = .polar →
      q = .polar (.dist ((10 : ℝ) ^ (m * sin θ / 5 + 1) * (648000 / π))) φ) := by
  obtain ⟨h1, h2, h3, h4⟩ := (C13_returns_iff kw p k hv hlt).mp ⟨q, h⟩
  simp only [List.mem_cons, List.not_mem_nil, or_false, not_or] at h1
  refine ⟨(represent_wf _ _ _ _ _ hv h).kind, ?_, ?_, ?_, ?_, ?_⟩
  · intro hr hpl
    have hk : k = .cart1 ∨ k = .cart2 ∨ k = .polar := by
      clear h3 hpl
      revert hlt hr h2
      generalize p.kind = a
      cases a <;> cases k <;> decide
    have hpl' : PlainDist p := by
      rcases hk with rfl | rfl | rfl
      · cases p <;>
          first
          | trivial
          | exact absurd rfl h1.1
          | exact h3 (by simp [Pos.kind]) (by simp)
          | (simp [Pos.kind, Kind.dim] at hlt; done)
      · cases p <;>
          first
          | trivial
          | exact absurd rfl h1.1
          | exact h3 (by simp [Pos.kind]) (by simp)
          | (simp [Pos.kind, Kind.dim] at hlt; done)
      · exact hpl rfl
    obtain ⟨q', e, _, e2⟩ := C13_lowering_projects kw p k hv hpl' hk hlt h1.1 h1.2
    rw [h] at e; obtain rfl := Except.ok.inj e
    exact e2
  · rintro rfl hc
    obtain ⟨r, e, e2⟩ := C13_radial_is_norm kw p hv hlt h1.1 h1.2 hc
    rw [h] at e; obtain rfl := Except.ok.inj e
    rw [← e2]; rfl
  · rintro rho φ z rfl rfl
    have e : representAs kw (.cyl rho φ z) .radial = .ok (.radial (.dist rho)) :=
      mkRadial_ok (r := .dist rho) hv
    rw [h] at e; obtain rfl := Except.ok.inj e
    refine ⟨rfl, ?_⟩
    have hr : 0 ≤ rho := hv
    simp only [point, cylPoint, V3.norm, V3.mk.injEq, and_true, distOf]
    rw [show (rho * cos φ) ^ 2 + (rho * sin φ) ^ 2 + z ^ 2 = rho ^ 2 + z ^ 2 by
      linear_combination rho ^ 2 * sin_sq_add_cos_sq φ]
    constructor
    · intro e
      have := Real.sq_sqrt (add_nonneg (sq_nonneg rho) (sq_nonneg z))
      rw [← e] at this
      nlinarith [sq_nonneg z]
    · rintro rfl
      rw [show rho ^ 2 + (0:ℝ) ^ 2 = rho ^ 2 by ring, Real.sqrt_sq hr]
  · rintro a θ φ hp rfl
    have hs := h4 rfl a θ φ hp
    have e : representAs kw p .polar = _ := lowering_par 196 kw p a θ φ hv hp hs
    rw [h] at e; obtain rfl := Except.ok.inj e
    refine ⟨rfl, ?_⟩
    have hv' : (0 < a ∧ a < π / 2) ∧ 0 ≤ θ ∧ θ ≤ π := by
      rcases hp with rfl | rfl <;> exact hv
    have s0 : 0 < sin θ := lt_of_le_of_ne (sin_nonneg_of_nonneg_of_le_pi hv'.2.1 hv'.2.2) (Ne.symm hs)
    have hpt : point p = sphPoint (1 / tan a) θ φ := by rcases hp with rfl | rfl <;> rfl
    rw [hpt]
    have t0 : 0 < tan a := tan_pos_of_pos_of_lt_pi_div_two hv'.1.1 hv'.1.2
    have t1 : 0 < tan (a * sin θ) :=
      tan_pos_of_pos_of_lt_pi_div_two (mul_pos hv'.1.1 s0) (by nlinarith [sin_le_one θ, hv'.1.1, hv'.1.2])
    have hone : sin θ = 1 ↔ θ = π / 2 := by
      constructor
      · intro e
        have hc : cos θ = 0 := by
          have := sin_sq_add_cos_sq θ
          rw [e] at this
          have : cos θ ^ 2 = 0 := by linarith
          exact pow_eq_zero_iff two_ne_zero |>.mp this
        apply Real.injOn_cos ⟨hv'.2.1, hv'.2.2⟩ ⟨by positivity, by linarith [pi_pos]⟩
        rw [hc, cos_pi_div_two]
      · rintro rfl; exact sin_pi_div_two
    rw [← hone]
    simp only [point, proj, sphPoint, distOf, V3.mk.injEq, and_true]
    constructor
    · rintro ⟨e1, e2⟩
      have c := sin_sq_add_cos_sq φ
      have e3 : 1 / tan (a * sin θ) = 1 / tan a * sin θ := by
        linear_combination cos φ * e1 + sin φ * e2 - (1 / tan (a * sin θ) - 1 / tan a * sin θ) * c
      by_contra hne
      have s1 : sin θ < 1 := lt_of_le_of_ne (sin_le_one θ) hne
      have := tan_mono_scale hv'.1.1 hv'.1.2 s0.le s1
      have : 1 / tan a < 1 / tan (a * sin θ) := one_div_lt_one_div_of_lt t1 this
      have : 1 / tan a * sin θ < 1 / tan a := by
        have : 0 < 1 / tan a := by positivity
        nlinarith
      linarith
    · intro e
      rw [e]; simp
  · rintro m θ φ hp rfl
    have e : representAs kw p .polar = _ := lowering_dm 196 kw p m θ φ hv hp
    rw [h] at e; obtain rfl := Except.ok.inj e
    rfl

/-- a case with both outcomes of `C12_raising_returns_iff`: a negative 1-D coordinate becomes a
spherical position but not a cylindrical one -/
example : (∃ q, representAs {} (.cart1 (-1) : Pos ℝ) .sph = .ok q) ∧
    ¬ ∃ q, representAs {} (.cart1 (-1) : Pos ℝ) .cyl = .ok q := by
  constructor
  · refine (C12_raising_returns_iff {} (.cart1 (-1)) .sph trivial (by decide)).mpr ?_
    simp [Pos.kind]
  · intro h
    have := ((C12_raising_returns_iff {} (.cart1 (-1)) .cyl trivial (by decide)).mp h).2.2.1 rfl
      (by decide)
    norm_num [point] at this

/-- a case with both outcomes of `C13_returns_iff`: a parallax goes to `PolarPos` off the z axis, not
on it -/
example : (∃ q, representAs {} (.sph (.par 1) (π / 2) 0 : Pos ℝ) .polar = .ok q) ∧
    ¬ ∃ q, representAs {} (.sph (.par 1) 0 0 : Pos ℝ) .polar = .ok q := by
  have h1 : (1 : ℝ) < π / 2 := by linarith [pi_gt_three]
  constructor
  · refine (C13_returns_iff {} _ .polar
      (show Valid (.sph (.par 1) (π / 2) 0) from ⟨⟨one_pos, h1⟩, by positivity, by linarith [pi_pos]⟩)
      (by decide)).mpr ⟨by decide, by decide, fun _ h => by simp at h, fun _ a θ φ h => ?_⟩
    simp only [Pos.sph.injEq, reduceCtorEq, or_false] at h
    rw [← h.2.1, sin_pi_div_two]; exact one_ne_zero
  · intro h
    have := ((C13_returns_iff {} _ .polar
      (show Valid (.sph (.par 1) 0 0) from ⟨⟨one_pos, h1⟩, le_refl _, pi_pos.le⟩)
      (by decide)).mp h).2.2.2 rfl 1 0 0 (Or.inl rfl)
    exact this sin_zero

end Verif.Props
