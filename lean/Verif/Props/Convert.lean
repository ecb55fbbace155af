import Verif.CrossDim

/-!
# Properties of position conversion (C01-C06, C07-C11)

`representAs kw p k` models `p.represent_as(k, **kw)`; `.ok q` means the call returned `q` with
finite components.
-/

namespace Verif.Props

open Real Spec

/-! ## C01, C02 -/

/-- **C01.** A 3-D conversion that returns, returns a vector of the requested class denoting the
same point of Euclidean space. -/
theorem C01_conversion_preserves_point (kw : Kw ℝ) (p q : Pos ℝ) (k : Kind) (hv : Valid p)
    (hp : p.kind.dim = 3) (hk : k.dim = 3) (h : representAs kw p k = .ok q) :
    q.kind = k ∧ point q = point p :=
  have g := represent_good _ _ _ _ _ hv (hp.trans hk.symm) h
  ⟨g.kind, g.point⟩

/-- **C02.** The same in two dimensions (Cartesian, polar, two-sphere) and in one (Cartesian,
radial). -/
theorem C02_conversion_preserves_point (kw : Kw ℝ) (p q : Pos ℝ) (k : Kind) (hv : Valid p)
    (hp : p.kind.dim = 2 ∧ k.dim = 2 ∨ p.kind.dim = 1 ∧ k.dim = 1)
    (h : representAs kw p k = .ok q) : q.kind = k ∧ point q = point p :=
  have g := represent_good _ _ _ _ _ hv (by rcases hp with h | h <;> rw [h.1, h.2]) h
  ⟨g.kind, g.point⟩

/-! ## C09: totality -/

/-- **C09.** (The exact condition is `C09_returns_iff` in `Props/Exact.lean`.) Outside the origin, and
outside the foci for a prolate target, every same-dimension conversion not involving `TwoSpherePos`
returns a finite vector. Not covered: the origin, the foci, `TwoSpherePos` and negative `CartesianPos1D` to `RadialPos`,
where it is false (next theorems). -/
theorem C09_conversion_total (kw : Kw ℝ) (p : Pos ℝ) (k : Kind) (hv : Valid p)
    (hdim : p.kind.dim = k.dim) (hs : p.kind ≠ .twoSphere) (ht : k ≠ .twoSphere)
    (h0 : point p ≠ V3.zero) (hx : k = .radial → 0 ≤ (point p).x)
    (hk : k = .prolate → (p.kind = .prolate ∧ kw.delta = none) ∨
      ∃ d, kw.delta = some d ∧ 0 < d ∧ ¬ IsFocus d (point p)) :
    ∃ q, representAs kw p k = .ok q :=
  represent_total 197 ⟨hv, hdim, hs, ht, fun _ => h0, hx, hk⟩

example : ∃ q, representAs {} (.cart3 1 2 3 : Pos ℝ) .lonlat = .ok q :=
  C09_conversion_total _ _ _ trivial rfl (by decide) (by decide)
    (by simp [point, V3.zero]) (by decide) (fun h => by cases h)

/-- C09 is false at the origin: the inclination is `acos(0/0)`. -/
theorem C09_origin_is_nan (kw : Kw ℝ) (k : Kind) (hk : k = .sph ∨ k = .lonlat ∨ k = .math) :
    representAs kw (.cart3 0 0 0) k = .error .nonFinite ∧
    ∀ phi, representAs kw (.cyl 0 phi 0) k = .error .nonFinite := by
  have h1 := cart3ToSph_zero
  have h2 := cylToSph_zero
  have key : ∀ n, represent (n + 2) kw (.cart3 0 0 0) k = .error .nonFinite ∧
      ∀ phi, represent (n + 2) kw (.cyl 0 phi 0) k = .error .nonFinite := by
    intro n
    rcases hk with rfl | rfl | rfl <;>
      exact ⟨by simp only [represent, h1, error_bind],
        fun phi => by simp only [represent, h2, error_bind]⟩
  exact key 198

/-- C09 is false for `TwoSpherePos`: with any recursion limit whatever, no conversion of a
`TwoSpherePos` to a 2-D class (itself included) and none of a 2-D vector to `TwoSpherePos`
returns. -/
theorem C09_twoSphere_never_returns (n : ℕ) (kw : Kw ℝ) (p q : Pos ℝ) (k : Kind)
    (hp : p.kind.dim = 2) (hk : k.dim = 2) (h : p.kind = .twoSphere ∨ k = .twoSphere) :
    represent n kw p k ≠ .ok q := by
  have key : ∀ (n : ℕ) (kw : Kw ℝ) (p : Pos ℝ), p.kind = .cart2 → ∀ q : Pos ℝ,
      represent n kw p .twoSphere ≠ .ok q := by
    intro n
    induction n with
    | zero => intro kw p _ q; simp [represent]
    | succ n ih =>
      intro kw p hp q hr
      cases p <;> cases hp
      simp only [represent, bind_ok_iff] at hr
      obtain ⟨a, h1, h2⟩ := hr
      have ha : a.kind = .cart2 := by
        cases n with
        | zero => simp [represent] at h1
        | succ n => simp only [represent] at h1; cases h1; rfl
      exact ih _ _ ha _ h2
  cases n with
  | zero => simp [represent]
  | succ n =>
    intro hr
    cases p with
    | twoSphere t f =>
      cases k <;> simp only [Kind.dim] at hk <;> try (exfalso; revert hk; decide)
      all_goals
        simp only [represent, bind_ok_iff] at hr
        obtain ⟨a, h1, _⟩ := hr
        exact twoSphere_cart2 _ _ _ _ _ h1
    | cart2 x y =>
      obtain rfl : k = .twoSphere := h.resolve_left (by intro c; cases c)
      exact key _ _ _ rfl _ hr
    | polar r f =>
      obtain rfl : k = .twoSphere := h.resolve_left (by intro c; cases c)
      simp only [represent, bind_ok_iff] at hr
      obtain ⟨a, h1, h2⟩ := hr
      refine key _ _ a ?_ _ h2
      cases n with
      | zero => simp [represent] at h1
      | succ n =>
        simp only [represent, polarToCart2, bind_ok_iff] at h1
        obtain ⟨b, _, h1⟩ := h1
        cases h1; rfl
    | _ => cases hp

/-- C09 is false for negative one-dimensional positions: `RadialPos` rejects them. -/
theorem C09_negative_cart1_rejected (kw : Kw ℝ) (x : ℝ) (hx : x < 0) :
    representAs kw (.cart1 x) .radial = .error .check := by
  show mkRadial (.dist x) = .error .check
  simp [mkRadial, Dist.raw, checkNonNeg_err hx]

/-! ## C03, C04: round trips and paths -/

theorem plain_kind (p : Pos ℝ) : (plain p).kind = p.kind := by cases p <;> rfl
theorem plain_valid {p : Pos ℝ} (h : Valid p) : Valid (plain p) := by
  cases p <;> simp only [plain] <;> try exact h
  · exact distOf_nonneg h
  · exact distOf_nonneg h
  · exact ⟨distOf_nonneg h.1, h.2⟩
  · exact ⟨distOf_nonneg h.1, h.2⟩
  · exact ⟨distOf_nonneg h.1, h.2⟩
theorem plain_canon {p : Pos ℝ} (h : Canon p) : Canon (plain p) := by
  cases p <;> exact h
theorem plain_plain (p : Pos ℝ) : PlainDist (plain p) := by
  cases p <;> first | exact trivial | exact ⟨_, rfl⟩
theorem plain_point (p : Pos ℝ) : point (plain p) = point p := by cases p <;> rfl
theorem plain_focal (p : Pos ℝ) : focal (plain p) = focal p := by cases p <;> rfl
theorem plain_of_plainDist {p : Pos ℝ} (h : PlainDist p) : plain p = p := by
  cases p <;> first | rfl | (obtain ⟨d, rfl⟩ := h; rfl)

theorem offAxis_ne_zero {v : V3} (h : OffAxis v) : v ≠ V3.zero := by
  rintro rfl; exact h ⟨rfl, rfl⟩

theorem offAxis_not_focus {v : V3} (h : OffAxis v) (d : ℝ) : ¬ IsFocus d v :=
  fun f => h ⟨f.1, f.2.1⟩

/-- Two canonical vectors of one class and point, off the z axis, are equal once the radial field
is expressed as a `Distance`. -/
theorem plain_eq_of_point_eq {p q : Pos ℝ} (hp : Valid p) (hq : Valid q) (hk : p.kind = q.kind)
    (cp : Canon p) (cq : Canon q) (hf : focal p = focal q) (hoff : OffAxis (point p))
    (h : point p = point q) : plain p = plain q :=
  point_inj (plain_valid hp) (plain_valid hq) (by rw [plain_kind, plain_kind, hk])
    (plain_canon cp) (plain_canon cq) (plain_plain p) (plain_plain q)
    (by rw [plain_focal, plain_focal, hf]) (by rw [plain_point]; exact hoff)
    (by rw [plain_point, plain_point, h])

/-- **C03.** Round trip. A canonical position off the z axis, converted to any class of its
dimension (with any focal length if that class is prolate) and back (with its own focal length if
it is prolate), comes back with exactly its original components; a `Parallax` or
`DistanceModulus` radial field may come back as the `Distance` it stands for. -/
theorem C03_round_trip (kw kw' : Kw ℝ) (p : Pos ℝ) (k : Kind) (hv : Valid p) (hc : Canon p)
    (hoff : OffAxis (point p)) (hdim : p.kind.dim = k.dim) (hs : p.kind ≠ .twoSphere)
    (ht : k ≠ .twoSphere) (hx : k = .radial → 0 ≤ (point p).x)
    (hkw : k = .prolate → ∃ d, kw.delta = some d ∧ 0 < d)
    (hkw' : p.kind = .prolate → kw'.delta = focal p) :
    ∃ q p', representAs kw p k = .ok q ∧ q.kind = k ∧ representAs kw' q p.kind = .ok p' ∧
      plain p' = plain p ∧ (PlainDist p → p' = p) := by
  obtain ⟨q, hq⟩ := C09_conversion_total kw p k hv hdim hs ht (offAxis_ne_zero hoff) hx
    (fun e => Or.inr (by
      obtain ⟨d, h1, h2⟩ := hkw e
      exact ⟨d, h1, h2, offAxis_not_focus hoff d⟩))
  have g := represent_good _ _ _ _ _ hv hdim hq
  have hfoc : p.kind = .prolate → ∃ d, kw'.delta = some d ∧ 0 < d ∧ focal p = some d := by
    intro e
    have := hkw' e
    cases p <;> cases e
    exact ⟨_, this, hv.1, rfl⟩
  obtain ⟨p', hp'⟩ := C09_conversion_total kw' q p.kind g.valid
    (by rw [g.kind, hdim]) (by rw [g.kind]; exact ht) hs
    (by rw [g.point]; exact offAxis_ne_zero hoff)
    (by
      intro e; rw [g.point]
      cases p <;> cases e
      exact distOf_nonneg hv)
    (by
      intro e; rw [g.point]
      obtain ⟨d, h1, h2, _⟩ := hfoc e
      exact Or.inr ⟨d, h1, h2, offAxis_not_focus hoff d⟩)
  have g' := represent_good _ _ _ _ _ g.valid (by rw [g.kind, hdim]) hp'
  have hf : focal p' = focal p := by
    by_cases e : p.kind = .prolate
    · have e' : q.kind.dim = 3 := by rw [g.kind, ← hdim, e]; rfl
      rw [e] at hp'
      rw [represent_focal _ _ _ _ g.valid e' hp']
      obtain ⟨d, h1, _, h2⟩ := hfoc e
      rw [h1, h2]
    · have e' : p'.kind ≠ .prolate := by rw [g'.kind]; exact e
      cases p <;> cases p' <;> first | rfl | exact absurd rfl e | exact absurd rfl e'
  have hpl := plain_eq_of_point_eq g'.valid hv g'.kind (g'.canon (g.canon hc)) hc hf
    (by rw [g'.point, g.point]; exact hoff) (g'.point.trans g.point)
  refine ⟨q, p', hq, g.kind, hp', hpl, fun hpd => ?_⟩
  have hq' := represent_plain _ _ _ _ _ hv hpd hdim hq
  have hp2 := represent_plain _ _ _ _ _ g.valid hq' (by rw [g.kind, hdim]) hp'
  rw [plain_of_plainDist hp2, plain_of_plainDist hpd] at hpl
  exact hpl

/-- the hypotheses are met by an ordinary position -/
example : ∃ q p', representAs { delta := some (2 : ℝ) } (.sph (.dist 3) (π / 2) 0 : Pos ℝ) .prolate = .ok q ∧
    q.kind = .prolate ∧ representAs {} q .sph = .ok p' ∧ plain p' = plain (.sph (.dist 3) (π / 2) 0) ∧
    (PlainDist (.sph (.dist 3) (π / 2) 0) → p' = .sph (.dist 3) (π / 2) 0) :=
  C03_round_trip { delta := some (2 : ℝ) } {} (.sph (.dist 3) (π / 2) 0) .prolate
    ⟨by norm_num [DistOk], by positivity, by linarith [pi_pos]⟩ ⟨le_refl _, by positivity⟩
    (by simp [OffAxis, point, sphPoint, distOf]) rfl (by decide) (by decide) (by decide)
    (fun _ => ⟨2, rfl, by norm_num⟩) (by decide)

theorem prolate_needs_delta (n : ℕ) (kw : Kw ℝ) (p q : Pos ℝ) (hd : p.kind.dim = 3)
    (hk : kw.delta = none) (h : represent n kw p .prolate = .ok q) : p.kind = .prolate := by
  cases n with
  | zero => simp [represent] at h
  | succ n =>
    cases p <;> simp only [Pos.kind, Kind.dim] at hd <;>
      first
      | (exfalso; revert hd; decide)
      | rfl
      | (simp only [represent, hk] at h; cases h)

/-- **C04.** Path independence: converting through any intermediate class `m` gives the same point
as converting directly, and, for a canonical position off the z axis, exactly the same components
(up to a `Parallax`/`DistanceModulus` radial field being expressed as a `Distance`). -/
theorem C04_path_independent (kw : Kw ℝ) (p b q q' : Pos ℝ) (m k : Kind) (hv : Valid p)
    (hm : p.kind.dim = m.dim) (hk : p.kind.dim = k.dim) (h1 : representAs kw p m = .ok b)
    (h2 : representAs kw b k = .ok q') (h : representAs kw p k = .ok q) :
    q'.kind = q.kind ∧ point q' = point q ∧
      (Canon p → OffAxis (point p) → plain q' = plain q ∧ (PlainDist p → q' = q)) := by
  have g := represent_good _ _ _ _ _ hv hk h
  have g1 := represent_good _ _ _ _ _ hv hm h1
  have hmk : b.kind.dim = k.dim := by rw [g1.kind, ← hm, hk]
  have g2 := represent_good _ _ _ _ _ g1.valid hmk h2
  have hkind : q'.kind = q.kind := g2.kind.trans g.kind.symm
  refine ⟨hkind, g2.point.trans (g1.point.trans g.point.symm), fun hc hoff => ?_⟩
  have hf : focal q' = focal q := by
    by_cases e : k = .prolate
    · subst e
      have d3 : p.kind.dim = 3 := hk
      have e3 : b.kind.dim = 3 := hmk
      rw [represent_focal _ _ _ _ hv d3 h, represent_focal _ _ _ _ g1.valid e3 h2]
      cases hkd : kw.delta with
      | some d => rfl
      | none =>
        have hb := prolate_needs_delta _ _ _ _ e3 hkd h2
        have hm' : m = .prolate := g1.kind.symm.trans hb
        subst hm'
        have := represent_focal _ _ _ _ hv d3 h1
        rw [hkd] at this
        exact this
    · have e1 : q.kind ≠ .prolate := by rw [g.kind]; exact e
      have e2 : q'.kind ≠ .prolate := by rw [g2.kind]; exact e
      cases q <;> cases q' <;> first | rfl | exact absurd rfl e1 | exact absurd rfl e2
  have hpl := plain_eq_of_point_eq g2.valid g.valid hkind (g2.canon (g1.canon hc)) (g.canon hc) hf
    (by rw [g2.point, g1.point]; exact hoff) (g2.point.trans (g1.point.trans g.point.symm))
  refine ⟨hpl, fun hpd => ?_⟩
  have a1 := represent_plain _ _ _ _ _ hv hpd hk h
  have a2 := represent_plain _ _ _ _ _ hv hpd hm h1
  have a3 := represent_plain _ _ _ _ _ g1.valid a2 hmk h2
  rwa [plain_of_plainDist a1, plain_of_plainDist a3] at hpl

/-- C04's three calls all return for every position off the axis. -/
theorem C04_path_exists (kw : Kw ℝ) (p : Pos ℝ) (m k : Kind) (hv : Valid p)
    (hp : p.kind.dim = 3) (hm : m.dim = 3) (hk : k.dim = 3) (hoff : OffAxis (point p))
    (hkw : ∃ d, kw.delta = some d ∧ 0 < d) :
    ∃ b q q', representAs kw p m = .ok b ∧ representAs kw b k = .ok q' ∧
      representAs kw p k = .ok q := by
  obtain ⟨d, h1, h2⟩ := hkw
  have conv : ∀ (p : Pos ℝ) (k : Kind), Valid p → p.kind.dim = 3 → k.dim = 3 →
      OffAxis (point p) → ∃ q, representAs kw p k = .ok q := by
    intro p k hv hp hk hoff
    refine C09_conversion_total kw p k hv (hp.trans hk.symm) ?_ ?_ (offAxis_ne_zero hoff)
      ?_ (fun _ => Or.inr ⟨d, h1, h2, offAxis_not_focus hoff d⟩)
    · intro e; rw [e] at hp; cases hp
    · intro e; rw [e] at hk; cases hk
    · intro e; rw [e] at hk; cases hk
  obtain ⟨b, hb⟩ := conv p m hv hp hm hoff
  have g := represent_good _ _ _ _ _ hv (hp.trans hm.symm) hb
  obtain ⟨q', hq'⟩ := conv b k g.valid (by rw [g.kind, hm]) hk (by rw [g.point]; exact hoff)
  obtain ⟨q, hq⟩ := conv p k hv hp hk hoff
  exact ⟨b, q, q', hb, hq', hq⟩

/-! ## C05 -/

/-- **C05.** Whatever the source and target classes (across dimensions too) and the keyword
arguments, a returned vector is of the target class, within its documented ranges, and has its
azimuth in `[0, 360)` deg if the source has no azimuth or a canonical one. -/
theorem C05_result_in_range (kw : Kw ℝ) (p q : Pos ℝ) (k : Kind) (hv : Valid p)
    (h : representAs kw p k = .ok q) : q.kind = k ∧ Valid q ∧ (Canon p → Canon q) :=
  have g := represent_wf _ _ _ _ _ hv h
  ⟨g.kind, g.valid, g.canon⟩

/-! ## C06: constructors -/

/-- The unique equivalent angle in one turn. -/
def IsReduction (x y : ℝ) : Prop := InTurn y ∧ ∃ n : ℤ, y = x - n * (2 * π)

theorem isReduction_unique {x y y' : ℝ} (h : IsReduction x y) (h' : IsReduction x y') : y = y' := by
  obtain ⟨⟨a0, a1⟩, n, hn⟩ := h
  obtain ⟨⟨b0, b1⟩, m, hm⟩ := h'
  rw [← wrapR_unique n hn a0 a1, ← wrapR_unique m hm b0 b1]

theorem isReduction_wrapR (x : ℝ) : IsReduction x (wrapR x) := ⟨inTurn_wrapR x, wrapR_eq_sub x⟩

/-- **C06.** Each constructor returns iff its components are in the documented range, keeps the
other components and stores the reduction of a plain angular quantity given for an azimuth. -/
theorem C06_constructors :
    (∀ (rho phi z : ℝ) (q : Pos ℝ), mkCyl rho (.qty phi) z = .ok q ↔
      0 ≤ rho ∧ ∃ phi', IsReduction phi phi' ∧ q = .cyl rho phi' z) ∧
    (∀ (r theta phi : ℝ) (q : Pos ℝ), mkSph (.dist r) theta (.qty phi) = .ok q ↔
      (0 ≤ r ∧ 0 ≤ theta ∧ theta ≤ π) ∧ ∃ phi', IsReduction phi phi' ∧
        q = .sph (.dist r) theta phi') ∧
    (∀ (r theta phi : ℝ) (q : Pos ℝ), mkMath (.dist r) (.qty theta) phi = .ok q ↔
      (0 ≤ r ∧ 0 ≤ phi ∧ phi ≤ π) ∧ ∃ theta', IsReduction theta theta' ∧
        q = .math (.dist r) theta' phi) ∧
    (∀ (lon lat d : ℝ) (q : Pos ℝ), mkLonLat (.qty lon) lat (.dist d) = .ok q ↔
      (0 ≤ d ∧ -(π / 2) ≤ lat ∧ lat ≤ π / 2) ∧ ∃ lon', IsReduction lon lon' ∧
        q = .lonlat lon' lat (.dist d)) ∧
    (∀ (r phi : ℝ) (q : Pos ℝ), mkPolar (.dist r) (.qty phi) = .ok q ↔
      0 ≤ r ∧ ∃ phi', IsReduction phi phi' ∧ q = .polar (.dist r) phi') ∧
    (∀ (theta phi : ℝ) (q : Pos ℝ), mkTwoSphere theta (.qty phi) = .ok q ↔
      (0 ≤ theta ∧ theta ≤ π) ∧ ∃ phi', IsReduction phi phi' ∧ q = .twoSphere theta phi') ∧
    (∀ (mu nu phi delta : ℝ) (q : Pos ℝ), mkProlate mu nu (.qty phi) delta = .ok q ↔
      (0 < delta ∧ delta ^ 2 ≤ mu ∧ |nu| ≤ delta ^ 2) ∧ ∃ phi', IsReduction phi phi' ∧
        q = .prolate mu nu phi' delta) ∧
    (∀ (r : ℝ) (q : Pos ℝ), mkRadial (.dist r) = .ok q ↔ 0 ≤ r ∧ q = .radial (.dist r)) ∧
    (∀ (x y z : ℝ), mkCart1 x = .ok (.cart1 x) ∧ mkCart2 x y = .ok (.cart2 x y) ∧
      mkCart3 x y z = .ok (.cart3 x y z)) := by
  have red : ∀ {x : ℝ} {P : ℝ → Prop}, P (wrapR x) ↔ ∃ y, IsReduction x y ∧ P y := by
    intro x P
    constructor
    · intro h; exact ⟨_, isReduction_wrapR x, h⟩
    · rintro ⟨y, hy, h⟩; rwa [isReduction_unique (isReduction_wrapR x) hy]
  refine ⟨?_, ?_, ?_, ?_, ?_, ?_, ?_, ?_, fun _ _ _ => ⟨rfl, rfl, rfl⟩⟩
  · intro rho phi z q
    rw [mkCyl_iff]
    exact and_congr_right fun _ => red (P := fun y => q = .cyl rho y z)
  · intro r theta phi q
    rw [mkSph_iff, ← and_assoc]
    exact and_congr Iff.rfl (red (P := fun y => q = .sph (.dist r) theta y))
  · intro r theta phi q
    rw [mkMath_iff, ← and_assoc]
    exact and_congr Iff.rfl (red (P := fun y => q = .math (.dist r) y phi))
  · intro lon lat d q
    rw [mkLonLat_iff, ← and_assoc]
    exact and_congr and_comm (red (P := fun y => q = .lonlat y lat (.dist d)))
  · intro r phi q
    rw [mkPolar_iff]
    exact and_congr Iff.rfl (red (P := fun y => q = .polar (.dist r) y))
  · intro theta phi q
    rw [mkTwoSphere_iff]
    exact and_congr Iff.rfl (red (P := fun y => q = .twoSphere theta y))
  · intro mu nu phi delta q
    rw [mkProlate_iff]
    exact and_congr Iff.rfl (red (P := fun y => q = .prolate mu nu y delta))
  · intro r q
    rw [mkRadial_iff]; rfl

/-- Beside C06: an azimuth given as an `Angle` is stored unreduced, for every class with an
azimuth, so such a vector need not be canonical. -/
theorem C06_angle_not_wrapped (rho phi z : ℝ) (hr : 0 ≤ rho) :
    mkCyl rho (.angle phi) z = .ok (.cyl rho phi z) := mkCyl_iff.mpr ⟨hr, rfl⟩

example : ∃ q, mkCyl (1 : ℝ) (.angle (3 * π)) 0 = .ok q ∧ ¬ Canon q :=
  ⟨_, C06_angle_not_wrapped 1 (3 * π) 0 zero_le_one, fun h => by
    have := h.2; linarith [pi_pos]⟩

/-! ## C07, C08: `from_` -/

/-- **C07.** `SphericalPos.from_` and `MathSphericalPos.from_` accept every real input (the azimuth
a quantity or an `Angle`) and return an in-range canonical vector denoting the point of the raw
inputs. -/
theorem C07_from_normalises (r theta phi : ℝ) (az : AzArg ℝ) :
    (∃ q, sphFrom (.dist r) theta az = .ok q ∧ q.kind = .sph ∧ Valid q ∧ Canon q ∧
      point q = sphPoint r theta az.val) ∧
    (∃ q, mathFrom (.dist r) az phi = .ok q ∧ q.kind = .math ∧ Valid q ∧ Canon q ∧
      point q = sphPoint r phi az.val) := by
  constructor
  · obtain ⟨r', t, p, h1, h2, h3, h4, h5⟩ := sphFrom_good theta az (Or.inr ⟨r, rfl⟩)
    exact ⟨_, h1, rfl, ⟨h2, h3⟩, h4, h5⟩
  · obtain ⟨r', t, p, h1, h2, h3, h4, h5⟩ := mathFrom_good az phi (Or.inr ⟨r, rfl⟩)
    exact ⟨_, h1, rfl, ⟨h2, h3⟩, h4, h5⟩

/-- The latitude after the sign of the distance has been absorbed. -/
noncomputable def effLat (lat d : ℝ) : ℝ := if d < 0 then -lat else lat

/-- **C08.** `LonLatSphericalPos.from_` accepts exactly the latitudes within `[-450, 270]`
deg (after reflection for a negative distance); for those it returns an in-range canonical vector
denoting the point of the raw inputs. Not covered: all other latitudes, which are
rejected (`C08_rejects`). -/
theorem C08_lonlat_from_in_range (lon : AzArg ℝ) (lat d : ℝ)
    (h0 : -(5 * π / 2) ≤ effLat lat d) (h1 : effLat lat d ≤ 3 * π / 2) :
    ∃ q, lonlatFrom lon lat (.dist d) = .ok q ∧ q.kind = .lonlat ∧ Valid q ∧ Canon q ∧
      point q = lonlatPoint lon.val lat d := by
  have hlon : cos lon.convert = cos lon.val ∧ sin lon.convert = sin lon.val := by
    cases lon <;> simp [AzArg.convert, AzArg.val]
  have hpi := pi_pos
  have key : ∀ (l φ e : ℝ), 0 ≤ e → -(5 * π / 2) ≤ l → l ≤ 3 * π / 2 →
      ∃ q, mkLonLat (.qty (if π / 2 < (if l < -(π / 2) then -π - l else l) then
          (if l < -(π / 2) then φ + π else φ) + π else (if l < -(π / 2) then φ + π else φ)))
        (if π / 2 < (if l < -(π / 2) then -π - l else l) then
          π - (if l < -(π / 2) then -π - l else l) else (if l < -(π / 2) then -π - l else l))
        (.dist e) = .ok q ∧ q.kind = .lonlat ∧ Valid q ∧ Canon q ∧
        point q = lonlatPoint φ l e := by
    intro l φ e he hl hl'
    have c1 : cos (-π - l) = -cos l := by
      rw [show -π - l = -(l + π) by ring, cos_neg, cos_add_pi]
    have s1 : sin (-π - l) = sin l := by
      rw [show -π - l = -(l + π) by ring, sin_neg, sin_add_pi, neg_neg]
    by_cases a : l < -(π / 2)
    · simp only [if_pos a]
      by_cases b : π / 2 < -π - l
      · simp only [if_pos b]
        refine ⟨_, mkLonLat_iff.mpr ⟨⟨by linarith, by linarith⟩, he, rfl⟩, rfl,
          ⟨he, by linarith, by linarith⟩, inTurn_wrapR _, ?_⟩
        simp [point, lonlatPoint, AzArg.convert, distOf, cos_pi_sub, sin_pi_sub, c1, s1,
          cos_add_pi, sin_add_pi]
      · simp only [if_neg b]
        refine ⟨_, mkLonLat_iff.mpr ⟨⟨by linarith, by linarith⟩, he, rfl⟩, rfl,
          ⟨he, by linarith, by linarith⟩, inTurn_wrapR _, ?_⟩
        simp [point, lonlatPoint, AzArg.convert, distOf, c1, s1, cos_add_pi, sin_add_pi]
    · simp only [if_neg a]
      by_cases b : π / 2 < l
      · simp only [if_pos b]
        refine ⟨_, mkLonLat_iff.mpr ⟨⟨by linarith, by linarith⟩, he, rfl⟩, rfl,
          ⟨he, by linarith, by linarith⟩, inTurn_wrapR _, ?_⟩
        simp [point, lonlatPoint, AzArg.convert, distOf, cos_pi_sub, sin_pi_sub,
          cos_add_pi, sin_add_pi]
      · simp only [if_neg b]
        refine ⟨_, mkLonLat_iff.mpr ⟨⟨by linarith, by linarith⟩, he, rfl⟩, rfl,
          ⟨he, by linarith, by linarith⟩, inTurn_wrapR _, ?_⟩
        simp [point, lonlatPoint, AzArg.convert, distOf]
  simp only [lonlatFrom, halfPi_real, ok_bind, lt_real, nat_real, Nat.cast_zero, pi_real,
    decide_eq_true_eq, Dist.raw, Dist.mapRaw]
  by_cases hd : d < 0
  · simp only [if_pos hd]
    simp only [effLat, if_pos hd] at h0 h1
    obtain ⟨q, a, b, c, e, f⟩ := key (-lat) (lon.convert + π) (-d) (by linarith) h0 h1
    refine ⟨q, a, b, c, e, ?_⟩
    rw [f]; simp [lonlatPoint, cos_add_pi, sin_add_pi, hlon.1, hlon.2]
  · simp only [if_neg hd]
    simp only [effLat, if_neg hd] at h0 h1
    obtain ⟨q, a, b, c, e, f⟩ := key lat lon.convert d (not_lt.mp hd) h0 h1
    refine ⟨q, a, b, c, e, ?_⟩
    rw [f]; simp [lonlatPoint, hlon.1, hlon.2]

/-- the hypotheses are met by a latitude beyond the pole and a negative distance -/
example : -(5 * π / 2) ≤ effLat (2 * π / 3) (-1) ∧ effLat (2 * π / 3) (-1) ≤ 3 * π / 2 := by
  have := pi_pos
  norm_num [effLat]; constructor <;> linarith

/-- C08 is false as stated: every other latitude is rejected. -/
theorem C08_rejects (lon : AzArg ℝ) (lat d : ℝ)
    (h : effLat lat d < -(5 * π / 2) ∨ 3 * π / 2 < effLat lat d) :
    lonlatFrom lon lat (.dist d) = .error .check := by
  have hpi := pi_pos
  have key : ∀ (az : AzArg ℝ) (l : ℝ) (r : Dist ℝ), l < -(π / 2) → mkLonLat az l r = .error .check := by
    intro az l r hl
    simp [mkLonLat, checkRange, hl]
  simp only [lonlatFrom, halfPi_real, ok_bind, lt_real, nat_real, Nat.cast_zero, pi_real,
    decide_eq_true_eq, Dist.raw, Dist.mapRaw]
  have main : ∀ (l : ℝ), (l < -(5 * π / 2) ∨ 3 * π / 2 < l) →
      (if π / 2 < (if l < -(π / 2) then -π - l else l) then
          π - (if l < -(π / 2) then -π - l else l) else (if l < -(π / 2) then -π - l else l))
        < -(π / 2) := by
    intro l hl
    rcases hl with hl | hl
    · rw [if_pos (show l < -(π / 2) by linarith), if_pos (by linarith)]; linarith
    · rw [if_neg (show ¬ l < -(π / 2) by linarith), if_pos (by linarith)]; linarith
  by_cases hd : d < 0
  · simp only [if_pos hd]
    simp only [effLat, if_pos hd] at h
    exact key _ _ _ (main _ h)
  · simp only [if_neg hd]
    simp only [effLat, if_neg hd] at h
    exact key _ _ _ (main _ h)

/-! ## C10, C11: prolate spheroidal coordinates -/

/-- **C10.** Cylindrical to prolate with any focal length and back, prolate to cylindrical and back
with its own focal length, and prolate to prolate with another focal length: all return; the first
two restore every component (even a non-canonical azimuth), the third keeps the point and has
the requested focal length. The foci, where the result is NaN, are excluded. -/
theorem C10_prolate_inverts :
    (∀ rho phi z delta : ℝ, 0 ≤ rho → 0 < delta → ¬ (rho = 0 ∧ z ^ 2 = delta ^ 2) →
      ∃ q, representAs { delta := some delta } (.cyl rho phi z) .prolate = .ok q ∧
        representAs {} q .cyl = .ok (.cyl rho phi z)) ∧
    (∀ mu nu phi delta : ℝ, Valid (.prolate mu nu phi delta) → ¬ (mu = delta ^ 2 ∧ |nu| = delta ^ 2) →
      ∃ q, representAs {} (.prolate mu nu phi delta) .cyl = .ok q ∧
        representAs { delta := some delta } q .prolate = .ok (.prolate mu nu phi delta)) ∧
    (∀ (p : Pos ℝ) (delta : ℝ), p.kind = .prolate → Valid p → 0 < delta →
      ¬ IsFocus delta (point p) →
      ∃ q, representAs { delta := some delta } p .prolate = .ok q ∧ q.kind = .prolate ∧
        focal q = some delta ∧ point q = point p) := by
  refine ⟨?_, ?_, ?_⟩
  · intro rho phi z delta hr hd hf
    have hf' : ¬ (rho = 0 ∧ z * z = delta * delta) := by simpa [pow_two] using hf
    refine ⟨_, cylToProlate_eq hd hf', ?_⟩
    show prolateToCyl _ _ _ _ = _
    rw [prolateToCyl_eq hd (by nlinarith [pMu_ge rho z delta])
      (by rw [abs_pNu hd]; nlinarith [pAbsNu_le rho z delta]), prolR_pMu hr hd, prolZ_pMu hd]
  · intro mu nu phi delta hv hf
    have hd : 0 < delta := hv.1
    have hdd : 0 < delta ^ 2 := by positivity
    have e1 : representAs {} (.prolate mu nu phi delta) .cyl =
        .ok (.cyl (prolR mu nu delta) phi (prolZ mu nu delta)) :=
      prolateToCyl_eq hv.1 hv.2.1 hv.2.2
    refine ⟨_, e1, ?_⟩
    have r1 := prolR_sq hd hv.2.1 hv.2.2
    have z1 := prolZ_sq (ν := nu) hd hv.2.1
    have hnf : ¬ (prolR mu nu delta = 0 ∧
        prolZ mu nu delta * prolZ mu nu delta = delta * delta) := by
      rintro ⟨h1, h2⟩
      apply hf
      rw [h1] at r1
      have z2 : mu * |nu| = delta ^ 2 * delta ^ 2 := by
        rw [← z1]; nlinarith
      rcases mul_eq_zero.mp (show (mu - delta ^ 2) * (delta ^ 2 - |nu|) = 0 by linarith) with h | h
      · have hm : mu = delta ^ 2 := by linarith
        rw [hm] at z2
        exact ⟨hm, mul_left_cancel₀ hdd.ne' z2⟩
      · have hn : |nu| = delta ^ 2 := by linarith
        rw [hn] at z2
        exact ⟨mul_right_cancel₀ hdd.ne' z2, hn⟩
    show cylToProlate _ _ _ _ = _
    rw [cylToProlate_eq hd hnf]
    obtain ⟨h3, h4⟩ := prol_inj (μ := pMu (prolR mu nu delta) (prolZ mu nu delta) delta)
      (ν := pAbsNu (prolR mu nu delta) (prolZ mu nu delta) delta * signR (prolZ mu nu delta))
      hd (by nlinarith [pMu_ge (prolR mu nu delta) (prolZ mu nu delta) delta])
      (by rw [abs_pNu hd]; nlinarith [pAbsNu_le (prolR mu nu delta) (prolZ mu nu delta) delta])
      hv.2.1 hv.2.2 (prolR_pMu (prolR_nonneg _ _ _) hd) (prolZ_pMu hd)
    rw [h3, h4]
  · intro p delta hk hv hd hf
    have h0 : p.kind.dim = 3 := by rw [hk]; rfl
    cases p <;> cases hk
    next mu nu phi dl =>
    have e1 := prolateToCyl_eq (phi := phi) hv.1 hv.2.1 hv.2.2
    have e2 := cylToProlate_eq (phi := phi) (z := prolZ mu nu dl) hd
      (rho := prolR mu nu dl) (fun h => hf ⟨by simp [point, cylPoint, h.1],
        by simp [point, cylPoint, h.1], by simpa [point, cylPoint, pow_two] using h.2⟩)
    have e3 := e2
    rw [show cylToProlate (prolR mu nu dl) phi (prolZ mu nu dl) delta =
      representAs { delta := some delta } (.prolate mu nu phi dl) .prolate from by
        show _ = (prolateToCyl mu nu phi dl >>= fun s =>
          represent 199 { delta := some delta } s .prolate)
        rw [e1]; rfl] at e3
    have g := represent_good _ _ _ _ _ hv rfl e3
    exact ⟨_, e3, g.kind, represent_focal _ _ _ _ hv rfl e3, g.point⟩

/-- at the foci (excluded in C10) the conversion gives NaN -/
theorem C10_focus_is_nan (phi z delta : ℝ) (hd : 0 < delta) (hz : z ^ 2 = delta ^ 2) :
    representAs { delta := some delta } (.cyl 0 phi z) .prolate = .error .nonFinite := by
  show cylToProlate _ _ _ _ = _
  exact cylToProlate_focus hd (by nlinarith)

/-- **C11.** Without `Delta` no 3-D position of another class converts to prolate spheroidal
coordinates, and a prolate position is returned unchanged. -/
theorem C11_prolate_needs_delta (kw : Kw ℝ) (hk : kw.delta = none) (p : Pos ℝ)
    (hd : p.kind.dim = 3) :
    (p.kind ≠ .prolate → representAs kw p .prolate = .error .missingDelta) ∧
    (p.kind = .prolate → representAs kw p .prolate = .ok p) := by
  obtain ⟨_, _, _, _, d⟩ := kw
  obtain rfl : d = none := hk
  constructor
  · intro h
    cases p <;> simp only [Pos.kind, Kind.dim] at hd <;>
      first
      | (exfalso; revert hd; decide)
      | exact absurd rfl h
      | rfl
  · intro h
    cases p <;> cases h
    rfl

/-- ... and from a lower dimension there is no rule to prolate coordinates at all. -/
theorem C11_lower_dimension (kw : Kw ℝ) (p : Pos ℝ) (hd : p.kind.dim ≠ 3) :
    representAs kw p .prolate = .error .noDispatch := by
  cases p <;> simp only [Pos.kind, Kind.dim] at hd <;>
    first
    | exact absurd rfl hd
    | rfl

/-- A finding beside C01: `SphericalPos` also accepts parallaxes above 90 deg, which stand for
negative distances; there the conversion to cylindrical coordinates does not keep the point
(`rho` is `|d sin(theta)|` but `phi` is kept). -/
theorem C01_obtuse_parallax_changes_point :
    ∃ q, representAs {} (.sph (.par (3 * π / 4)) (π / 2) 0 : Pos ℝ) .cyl = .ok q ∧
      mkSph (.par (3 * π / 4)) (π / 2) (.qty 0) = .ok (.sph (.par (3 * π / 4)) (π / 2) 0) ∧
      point q ≠ point (.sph (.par (3 * π / 4)) (π / 2) 0) := by
  have hpi := pi_pos
  have hc : cos (3 * π / 4) ≠ 0 := by
    have : 3 * π / 4 = π - π / 4 := by ring
    rw [this, cos_pi_sub, cos_pi_div_four]; simp
  have ht : tan (3 * π / 4) = -1 := by
    have : 3 * π / 4 = π - π / 4 := by ring
    rw [this, tan_pi_sub, tan_pi_div_four]
  refine ⟨.cyl 1 0 (-cos (π / 2)), ?_, ?_, ?_⟩
  · show sphToCyl (.par (3 * π / 4)) (π / 2) (0 : ℝ) = _
    simp only [sphToCyl, Dist.distance, tan_real, hc, ht, div_real, if_false, ok_bind,
      abs_real, sin_real, cos_real]
    norm_num
    rw [mkCyl_ok _ (by norm_num)]
    rfl
  · rw [mkSph_iff]
    refine ⟨by show 0 ≤ 3 * π / 4; linarith, ⟨by linarith, by linarith⟩, ?_⟩
    simp [AzArg.convert, wrapR]
  · simp only [point, cylPoint, sphPoint, distOf, ht]
    intro h
    have := congrArg V3.x h
    norm_num at this

end Verif.Props
