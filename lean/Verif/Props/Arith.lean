import Verif.ArithLemmas
import Verif.Props.Convert
import Mathlib.Analysis.Real.Pi.Bounds

/-!
# Properties of position arithmetic (C14-C18, C44, C46)
-/

namespace Verif.Props

open Real Spec

/-! ## C14: norm -/

theorem norm_sphPoint {r : ℝ} (hr : 0 ≤ r) (θ φ : ℝ) : V3.norm (sphPoint r θ φ) = r := by
  unfold V3.norm sphPoint
  rw [show (r * sin θ * cos φ) ^ 2 + (r * sin θ * sin φ) ^ 2 + (r * cos θ) ^ 2 = r ^ 2 by
    linear_combination (r ^ 2 * sin θ ^ 2) * sin_sq_add_cos_sq φ + r ^ 2 * sin_sq_add_cos_sq θ]
  exact Real.sqrt_sq hr

theorem norm_default (p c : Pos ℝ) (hc : toCartesian p = .ok c) (hk : c.kind.isCart = true) :
    (do return Dist.dist (← Num.sqrt (sumList (← mulPosPos p p))) : Res (Dist ℝ)) =
      .ok (.dist (V3.norm (point c))) := by
  cases c <;> first | (cases hk; done) | skip
  all_goals
    simp only [mulPosPos, mulRank1, toQuantity, hc, ok_bind, Pos.cartComponents, List.length, if_true,
      pure_ok, List.zipWith, sumList, point, V3.norm]
  · rw [sqrt_real_ok (mul_self_nonneg _)]; simp [sq]
  · rw [sqrt_real_ok (sumsq2_nonneg _ _)]; simp [sq]
  · rw [sqrt_real_ok (add_nonneg (mul_self_nonneg _) (sumsq2_nonneg _ _))]; simp [sq, add_assoc]

/-- **C14.** The norm of every valid position of every class (origin included) is a length-like
value that stands for the Euclidean length of the point. (`TwoSpherePos` has no conversion to a
Cartesian class at all, see C09.) -/
theorem C14_norm_is_euclidean (p : Pos ℝ) (hv : Valid p) (hs : p.kind ≠ .twoSphere) :
    ∃ d, norm p = .ok d ∧ distOf d = V3.norm (point p) := by
  obtain ⟨c, hc, g⟩ := toCart_total p hv hs
  have hk : c.kind.isCart = true := by rw [g.kind]; exact isCart_cartesian _
  have hd := norm_default p c hc hk
  rw [g.point] at hd
  cases p with
  | cyl rho phi z =>
    refine ⟨.dist (√(rho * rho + z * z)), ?_, ?_⟩
    · simp [norm, sqrt_real_ok (sumsq2_nonneg rho z)]
    · simp only [distOf, V3.norm, point, cylPoint]
      congr 1
      linear_combination (-rho ^ 2) * sin_sq_add_cos_sq phi
  | lonlat lon lat r =>
    refine ⟨r, rfl, ?_⟩
    rw [point, lonlatPoint_eq, norm_sphPoint (distOf_nonneg hv.1)]
  | math r theta phi =>
    exact ⟨r, rfl, by rw [point, norm_sphPoint (distOf_nonneg hv.1)]⟩
  | twoSphere => exact absurd rfl hs
  | _ => exact ⟨_, hd, rfl⟩

/-- **C14**, representation independence: two positions denoting the same point, of whatever
classes, have norms standing for the same length. -/
theorem C14_norm_class_independent (p q : Pos ℝ) (hp : Valid p) (hq : Valid q)
    (hsp : p.kind ≠ .twoSphere) (hsq : q.kind ≠ .twoSphere) (h : point p = point q) :
    ∃ d e, norm p = .ok d ∧ norm q = .ok e ∧ distOf d = distOf e := by
  obtain ⟨d, h1, h2⟩ := C14_norm_is_euclidean p hp hsp
  obtain ⟨e, h3, h4⟩ := C14_norm_is_euclidean q hq hsq
  exact ⟨d, e, h1, h3, by rw [h2, h4, h]⟩

example : ∃ d, norm (.cyl 3 1 4 : Pos ℝ) = .ok d ∧ distOf d = 5 := by
  obtain ⟨d, h1, h2⟩ := C14_norm_is_euclidean (.cyl 3 1 4) (by norm_num [Valid]) (by decide)
  refine ⟨d, h1, h2.trans ?_⟩
  simp only [V3.norm, point, cylPoint]
  rw [show (3 * cos 1) ^ 2 + (3 * sin 1) ^ 2 + (4:ℝ) ^ 2 = 5 ^ 2 by
    linear_combination 9 * sin_sq_add_cos_sq 1]
  exact Real.sqrt_sq (by norm_num)

/-! ## C15: sums and differences -/

/-- **C15.** A sum or difference of two positions of one dimension (of possibly different classes)
that returns, returns a valid vector of the class of the left operand denoting the vector sum or
difference. -/
theorem C15_add_sub (a b q : Pos ℝ) (ha : Valid a) (hb : Valid b) (hd : a.kind.dim = b.kind.dim) :
    (addPos a b = .ok q → q.kind = a.kind ∧ Valid q ∧ point q = (point a).add (point b)) ∧
    (subPos a b = .ok q → q.kind = a.kind ∧ Valid q ∧ point q = (point a).sub (point b)) :=
  ⟨fun h => binPos_good (f := (· + ·)) (by simp) ha hb hd h,
   fun h => binPos_good (f := (· - ·)) (by simp) ha hb hd h⟩

/-- **C15**, existence: the sum and the difference return whenever the result is representable in
the class of the left operand: any result for a Cartesian left operand, a non-zero one (and a
non-negative one for `RadialPos`) otherwise. Partial: `ProlateSpheroidalPos` on the left is
excluded, there the operation always fails (next theorem). -/
theorem C15_add_sub_return (a b : Pos ℝ) (ha : Valid a) (hb : Valid b)
    (hd : a.kind.dim = b.kind.dim) (hsa : a.kind ≠ .twoSphere) (hsb : b.kind ≠ .twoSphere)
    (hp : a.kind ≠ .prolate) :
    ((a.kind.isCart = true ∨ (point a).add (point b) ≠ V3.zero) →
      (a.kind = .radial → 0 ≤ (point a).x + (point b).x) → ∃ q, addPos a b = .ok q) ∧
    ((a.kind.isCart = true ∨ (point a).sub (point b) ≠ V3.zero) →
      (a.kind = .radial → 0 ≤ (point a).x - (point b).x) → ∃ q, subPos a b = .ok q) :=
  ⟨fun h hr => binPos_total (f := (· + ·)) (by simp) ha hb hd hsa hsb hp h hr,
   fun h hr => binPos_total (f := (· - ·)) (by simp) ha hb hd hsa hsb hp h hr⟩

theorem cart_to_prolate_fails (n : ℕ) (c : Pos ℝ) (hc : c.kind = .cart3) :
    represent (n + 1) {} c .prolate = .error .missingDelta := by
  cases c <;> first | (cases hc; done) | rfl

/-- C15 and C16 are false for prolate spheroidal left operands: the result cannot be converted
back because no focal length is passed on, so every such call is an error. -/
theorem C15_prolate_fails (mu nu phi delta : ℝ) (b : Pos ℝ) (hv : Valid (.prolate mu nu phi delta))
    (hb : Valid b) (hd : b.kind.dim = 3) :
    addPos (.prolate mu nu phi delta) b = .error .missingDelta ∧
    subPos (.prolate mu nu phi delta) b = .error .missingDelta ∧
    negPos (.prolate mu nu phi delta) = .error .missingDelta ∧
    (∀ s, scalePos s (.prolate mu nu phi delta) = .error .missingDelta) := by
  obtain ⟨a', h1, g1⟩ := toCart_total _ hv (by intro h; cases h)
  have hsb : b.kind ≠ .twoSphere := by intro e; rw [e] at hd; cases hd
  obtain ⟨b', h2, g2⟩ := toCart_total b hb hsb
  have ea : (Pos.prolate mu nu phi delta : Pos ℝ).kind.cartesian = .cart3 := rfl
  have eb : b.kind.cartesian = .cart3 := by
    rw [cartesian_of_dim (k' := .cart3) hd]; rfl
  rw [eb] at h2 g2
  rw [ea] at h1 g1
  have bin : ∀ f : ℝ → ℝ → ℝ, f 0 0 = 0 →
      binPos f (.prolate mu nu phi delta) b = .error .missingDelta := by
    intro f f0
    obtain ⟨c, h3⟩ := binCart_total (a := a') (b := b') f0 g2.valid (by rw [g1.kind]; rfl)
      (by rw [g2.kind]; decide) (by rw [g1.kind, g2.kind])
    have k3 := (binCart_good f0 g2.valid (by rw [g1.kind, g2.kind]) h3).1
    rw [binPos_other rfl, ea, h1, ok_bind, h2, ok_bind, h3, ok_bind]
    exact cart_to_prolate_fails 199 c (by rw [k3, g1.kind])
  have un : ∀ f : ℝ → ℝ, f 0 = 0 → viaCart f (.prolate mu nu phi delta) = .error .missingDelta := by
    intro f f0
    obtain ⟨c, h3, k3, _⟩ := mapCart_total f a' (by rw [g1.kind]; rfl) f0
    rw [viaCart, toCartesian, ea, h1, ok_bind, h3, ok_bind]
    exact cart_to_prolate_fails 199 c (by rw [k3, g1.kind])
  exact ⟨bin _ (by simp), bin _ (by simp), un _ (by simp), fun s => un _ (by simp)⟩

/-- the hypotheses are met: `SphericalPos + CylindricalPos` -/
example : ∃ q, addPos (.sph (.dist 3) 1 2 : Pos ℝ) (.cyl 1 2 5) = .ok q ∧ q.kind = .sph ∧
    point q = (sphPoint 3 1 2).add (cylPoint 1 2 5) := by
  have hv : Valid (.sph (.dist 3) 1 2) :=
    ⟨by norm_num [DistOk], by norm_num, by linarith [Real.pi_gt_three]⟩
  have hb : Valid (.cyl 1 2 5) := by norm_num [Valid]
  obtain ⟨q, hq⟩ := (C15_add_sub_return (.sph (.dist 3) 1 2) (.cyl 1 2 5) hv hb rfl
    (by decide) (by decide) (by decide)).1 (Or.inr (by
      intro h
      have hz := congrArg V3.z h
      simp only [V3.add, point, sphPoint, cylPoint, V3.zero, distOf] at hz
      nlinarith [Real.neg_one_le_cos 1])) (by intro h; cases h)
  obtain ⟨h1, _, h3⟩ := (C15_add_sub _ _ q hv hb rfl).1 hq
  exact ⟨q, hq, h1, h3⟩

/-! ## C16: negation -/

theorem negPos_other {p : Pos ℝ} (h : p.kind.isCart = false) :
    negPos p = viaCart (fun x => -x) p := by
  cases p <;> first | (cases h; done) | rfl
theorem negPos_cart {p : Pos ℝ} (h : p.kind.isCart = true) :
    negPos p = mapCart (fun x => -x) p := by
  cases p <;> first | (cases h; done) | rfl

/-- **C16.** A negation that returns, returns a valid vector of the same class denoting the
reflected point. -/
theorem C16_negation (p q : Pos ℝ) (hv : Valid p) (h : negPos p = .ok q) :
    q.kind = p.kind ∧ Valid q ∧ (Canon p → Canon q) ∧ point q = (point p).neg := by
  cases hc : p.kind.isCart with
  | true =>
    rw [negPos_cart hc] at h
    obtain ⟨q', h1, h2, h3⟩ := mapCart_total (fun x => -x) p hc (by simp)
    rw [h1] at h; obtain rfl := Except.ok.inj h
    have hk : q'.kind.isCart = true := by rw [h2, hc]
    refine ⟨h2, valid_of_cart _ hk, fun _ => ?_, h3⟩
    cases q' <;> first | (cases hk; done) | trivial
  | false =>
    rw [negPos_other hc] at h
    exact viaCart_good (by simp) hv h

/-- **C16**, existence (the exact condition is `C16_returns_iff` in `Props/Exact.lean`): it returns for Cartesian classes and, off the origin, for the
curvilinear ones except `ProlateSpheroidalPos` (always an error, `C15_prolate_fails`),
`RadialPos` (always an error, next theorem) and `TwoSpherePos` (C09). -/
theorem C16_negation_returns (p : Pos ℝ) (hv : Valid p) (hs : p.kind ≠ .twoSphere)
    (hp : p.kind ≠ .prolate) (hr : p.kind ≠ .radial)
    (h0 : p.kind.isCart = true ∨ point p ≠ V3.zero) : ∃ q, negPos p = .ok q := by
  cases hc : p.kind.isCart with
  | true =>
    rw [negPos_cart hc]
    obtain ⟨q, h, _⟩ := mapCart_total (fun x => -x) p hc (by simp)
    exact ⟨q, h⟩
  | false =>
    rw [negPos_other hc]
    refine viaCart_total (by simp) hv hs hp ?_ (fun e => absurd e hr)
    intro h
    apply h0.resolve_left (by rw [hc]; decide)
    have h' := h
    simp only [V3.zero, V3.mk.injEq, neg_eq_zero] at h'
    exact V3.ext h'.1 h'.2.1 h'.2.2

/-- C16 is false for `RadialPos`: the reflected point has a negative radius. -/
theorem C16_radial_fails (r : Dist ℝ) (hv : DistOk r) (h0 : distOf r ≠ 0) :
    negPos (.radial r) = .error .check := by
  have h1 : distOf r > 0 := lt_of_le_of_ne (distOf_nonneg hv) (Ne.symm h0)
  have hr : representAs {} (.radial r) .cart1 = .ok (.cart1 (distOf r)) := by
    show (r.distance >>= fun a => mkCart1 a) = _
    rw [distance_ok hv]; rfl
  have hk : (Pos.radial r : Pos ℝ).kind.cartesian = .cart1 := rfl
  rw [negPos_other rfl, viaCart, toCartesian, hk, hr]
  show mkRadial (.dist (-distOf r)) = _
  simp [mkRadial, Dist.raw, checkNonNeg_err (show -distOf r < 0 by linarith)]

/-- **C16**, involution: negating twice gives back the point; for a canonical vector off the z axis
it gives back the vector itself (a parallax or modulus as the distance it stands for). -/
theorem C16_involution (p q r : Pos ℝ) (hv : Valid p) (h1 : negPos p = .ok q)
    (h2 : negPos q = .ok r) : r.kind = p.kind ∧ point r = point p ∧
      (Canon p → OffAxis (point p) → p.kind ≠ .prolate → plain r = plain p) := by
  obtain ⟨k1, v1, c1, p1⟩ := C16_negation p q hv h1
  obtain ⟨k2, v2, c2, p2⟩ := C16_negation q r v1 h2
  have hp : point r = point p := by
    rw [p2, p1]; simp [V3.neg]
  refine ⟨k2.trans k1, hp, fun hc hoff hnp => ?_⟩
  have hk := k2.trans k1
  refine plain_eq_of_point_eq v2 hv hk (c2 (c1 hc)) hc ?_ (by rw [hp]; exact hoff) hp
  have hr : r.kind ≠ .prolate := by rw [hk]; exact hnp
  cases p <;> cases r <;> first | rfl | exact absurd rfl hnp | exact absurd rfl hr

example : ∃ q, negPos (.lonlat 1 (1 / 2) (.dist 3) : Pos ℝ) = .ok q :=
  C16_negation_returns _ ⟨by norm_num [DistOk], by linarith [Real.pi_gt_three],
    by linarith [Real.pi_gt_three]⟩ (by decide) (by decide) (by decide) (Or.inr (by
      intro h
      have := congrArg V3.z h
      simp only [point, lonlatPoint, distOf, V3.zero] at this
      have h2 := Real.sin_pos_of_pos_of_lt_pi (x := 1/2) (by norm_num) (by linarith [Real.pi_gt_three])
      linarith))

/-! ## C17: scaling -/

theorem scalePos_other {s : ℝ} {p : Pos ℝ} (h : p.kind.isCart = false) (h1 : p.kind ≠ .polar)
    (h2 : p.kind ≠ .math) : scalePos s p = viaCart (fun x => s * x) p := by
  cases p <;> first | (cases h; done) | exact absurd rfl h1 | exact absurd rfl h2 | rfl
theorem scalePos_cart {s : ℝ} {p : Pos ℝ} (h : p.kind.isCart = true) :
    scalePos s p = mapCart (fun x => s * x) p := by
  cases p <;> first | (cases h; done) | rfl

/-- **C17.** (`C17_scaling_exact` in `Props/Exact.lean` covers every case.) `s * p` (equivalently `p * s`), if it returns, is a valid vector of the class
of `p` denoting the scaled point. Not covered here: `PolarPos`/`MathSphericalPos` with a `Parallax` or
`DistanceModulus` radial field, for which it is false (`C17_parallax_wrong`). -/
theorem C17_scaling (s : ℝ) (p q : Pos ℝ) (hv : Valid p)
    (hpl : p.kind = .polar ∨ p.kind = .math → PlainDist p) (h : scalePos s p = .ok q) :
    q.kind = p.kind ∧ Valid q ∧ point q = V3.smul s (point p) := by
  cases hc : p.kind.isCart with
  | true =>
    rw [scalePos_cart hc] at h
    obtain ⟨q', h1, h2, h3⟩ := mapCart_total (fun x => s * x) p hc (by simp)
    rw [h1] at h; obtain rfl := Except.ok.inj h
    exact ⟨h2, valid_of_cart _ (by rw [h2, hc]), h3⟩
  | false =>
    by_cases e1 : p.kind = .polar
    · obtain hpd := hpl (Or.inl e1)
      cases p <;> first | (cases e1; done) | skip
      obtain ⟨d, rfl⟩ := hpd
      obtain ⟨h1, rfl⟩ := mkPolar_iff.mp h
      exact ⟨rfl, h1, by simp [point, V3.smul, Dist.mapRaw, distOf, AzArg.convert, mul_assoc]⟩
    · by_cases e2 : p.kind = .math
      · obtain hpd := hpl (Or.inr e2)
        cases p <;> first | (cases e2; done) | skip
        obtain ⟨d, rfl⟩ := hpd
        obtain ⟨h1, ⟨h2, h3⟩, rfl⟩ := mkMath_iff.mp h
        exact ⟨rfl, ⟨h1, h2, h3⟩,
          by simp [point, sphPoint, V3.smul, Dist.mapRaw, distOf, AzArg.convert, mul_assoc]⟩
      · rw [scalePos_other hc e1 e2] at h
        obtain ⟨k, v, _, hp⟩ := viaCart_good (by simp) hv h
        exact ⟨k, v, hp⟩

/-- **C17**, left and right scaling agree. -/
theorem C17_left_right (s : ℝ) (p : Pos ℝ) : scalePosRight p s = scalePos s p := rfl

/-- **C17**, existence (the exact condition is `C17_returns_iff` in `Props/Exact.lean`): Cartesian classes for every scalar; spherical, lon-lat and
cylindrical vectors off the origin for every non-zero scalar of either sign; polar, math-spherical
and radial ones for every non-negative (radial: positive) scalar. -/
theorem C17_scaling_returns (s : ℝ) (p : Pos ℝ) (hv : Valid p) (hs : p.kind ≠ .twoSphere)
    (hp : p.kind ≠ .prolate) (hn : p.kind = .polar ∨ p.kind = .math ∨ p.kind = .radial → 0 ≤ s)
    (h0 : p.kind.isCart = true ∨ p.kind = .polar ∨ p.kind = .math ∨
      (s ≠ 0 ∧ point p ≠ V3.zero)) : ∃ q, scalePos s p = .ok q := by
  cases hc : p.kind.isCart with
  | true =>
    rw [scalePos_cart hc]
    obtain ⟨q, h, _⟩ := mapCart_total (fun x => s * x) p hc (by simp)
    exact ⟨q, h⟩
  | false =>
    by_cases e1 : p.kind = .polar
    · have hs0 := hn (Or.inl e1)
      cases p <;> first | (cases e1; done) | skip
      rename_i r f
      have hr : 0 ≤ r.raw := distOk_raw hv
      exact ⟨_, mkPolar_ok _ (by cases r <;> exact mul_nonneg hs0 hr)⟩
    · by_cases e2 : p.kind = .math
      · have hs0 := hn (Or.inr (Or.inl e2))
        cases p <;> first | (cases e2; done) | skip
        rename_i r f g
        have hr : 0 ≤ r.raw := distOk_raw hv.1
        exact ⟨_, mkMath_ok _ (by cases r <;> exact mul_nonneg hs0 hr) hv.2.1 hv.2.2⟩
      · rw [scalePos_other hc e1 e2]
        obtain ⟨hs0, hp0⟩ : s ≠ 0 ∧ point p ≠ V3.zero := by
          rcases h0 with h | h | h | h
          · rw [hc] at h; cases h
          · exact absurd h e1
          · exact absurd h e2
          · exact h
        refine viaCart_total (by simp) hv hs hp ?_ ?_
        · intro h
          apply hp0
          have h' := h
          simp only [V3.zero, V3.mk.injEq, mul_eq_zero, hs0, false_or] at h'
          exact V3.ext h'.1 h'.2.1 h'.2.2
        · intro e
          have := hn (Or.inr (Or.inr e))
          cases p <;> first | (cases e; done) | skip
          exact mul_nonneg this (distOf_nonneg hv)

/-- C17 is false for negative scalars on `PolarPos` and `MathSphericalPos`: the radius is scaled
as it is and the constructor rejects it, although the point `s * p` exists. -/
theorem C17_negative_rejected (s d : ℝ) (hs : s < 0) (hd : 0 < d) (a b : ℝ) :
    scalePos s (.polar (.dist d) a) = .error .check ∧
    scalePos s (.math (.dist d) a b) = .error .check := by
  have : s * d < 0 := mul_neg_of_neg_of_pos hs hd
  exact ⟨by simp [scalePos, mkPolar, Dist.mapRaw, Dist.raw, checkNonNeg_err this],
    by simp [scalePos, mkMath, Dist.mapRaw, Dist.raw, checkNonNeg_err this]⟩

/-- C17 is false for a `PolarPos` with a `Parallax`: doubling `(1 rad / 4 ..)` doubles the
parallax, which moves the point closer instead of farther. -/
theorem C17_parallax_wrong :
    ∃ q, scalePos 2 (.polar (.par (π / 6)) 0 : Pos ℝ) = .ok q ∧ Valid (.polar (.par (π / 6)) 0) ∧
      (point q).x < (point (.polar (.par (π / 6)) 0)).x ∧ 0 < (point q).x := by
  have hpi := Real.pi_pos
  have h6 : (0:ℝ) ≤ π / 6 := by positivity
  refine ⟨.polar (.par (2 * (π / 6))) 0, mkPolar_ok _ (by simp [Dist.raw, Dist.mapRaw]; positivity),
    ⟨by positivity, by linarith⟩, ?_, ?_⟩
  · simp only [point, distOf, cos_zero, mul_one]
    rw [show 2 * (π / 6) = π / 3 by ring, tan_pi_div_three, tan_pi_div_six]
    have h3 : (1:ℝ) < √3 := by
      rw [show (1:ℝ) = √1 by simp]; exact Real.sqrt_lt_sqrt (by norm_num) (by norm_num)
    have h3' : (0:ℝ) < √3 := by linarith
    rw [one_div_one_div]
    rw [div_lt_iff₀ h3']
    nlinarith
  · simp only [point, distOf, cos_zero, mul_one]
    rw [show 2 * (π / 6) = π / 3 by ring, tan_pi_div_three]
    positivity

example : ∃ q, scalePos (-2) (.sph (.dist 3) (π / 2) 0 : Pos ℝ) = .ok q :=
  C17_scaling_returns (-2) _ ⟨by norm_num [DistOk], by positivity, by linarith [pi_pos]⟩
    (by decide) (by decide) (by intro h; rcases h with h | h | h <;> cases h)
    (Or.inr (Or.inr (Or.inr ⟨by norm_num, by
      intro h
      have := congrArg V3.x h
      simp [point, sphPoint, distOf, V3.zero] at this⟩)))

/-! ## C18: division -/

/-- **C18.** (`C18_division_iff` in `Props/Exact.lean` covers every case.) Division by a non-zero scalar of a Cartesian vector (any dimension), and by a
positive one of a `RadialPos` with a `Distance`, is the vector divided by the scalar. For every
class with an angle it is false, see the next theorem. -/
theorem C18_division (s : ℝ) (hs : s ≠ 0) (p : Pos ℝ) (hv : Valid p)
    (hc : p.kind.isCart = true ∨ (p.kind = .radial ∧ PlainDist p ∧ 0 < s)) :
    ∃ q, divPos p s = .ok q ∧ q.kind = p.kind ∧ point q = V3.smul s⁻¹ (point p) := by
  cases p with
  | cart1 x => exact ⟨.cart1 (x / s), by simp [divPos, div_real_ok hs, mkCart1], rfl,
      by simp [point, V3.smul, div_eq_inv_mul]⟩
  | cart2 x y => exact ⟨.cart2 (x / s) (y / s), by simp [divPos, div_real_ok hs, mkCart2], rfl,
      by simp [point, V3.smul, div_eq_inv_mul]⟩
  | cart3 x y z => exact ⟨.cart3 (x / s) (y / s) (z / s), by simp [divPos, div_real_ok hs, mkCart3],
      rfl, by simp [point, V3.smul, div_eq_inv_mul]⟩
  | radial r =>
    obtain ⟨_, ⟨d, rfl⟩, hs0⟩ := hc.resolve_left (by intro h; cases h)
    refine ⟨.radial (.dist (d / s)), ?_, rfl, by simp [point, V3.smul, distOf, div_eq_inv_mul]⟩
    simp only [divPos, Dist.divRaw, Dist.raw, div_real_ok hs, ok_bind, pure_ok, Dist.mapRaw]
    exact mkRadial_ok (div_nonneg hv hs0.le)
  | _ => rcases hc with h | h
         · cases h
         · cases h.1

/-- C18 is false for curvilinear classes: the angles are divided as well. Halving a point on the
y axis of a `CylindricalPos`, `SphericalPos` or `PolarPos` turns it by 45 degrees. -/
theorem C18_angles_divided :
    (∃ q, divPos (.cyl 2 (π / 2) 0 : Pos ℝ) 2 = .ok q ∧ (point (.cyl 2 (π / 2) 0)).x = 0 ∧
      0 < (point q).x) ∧
    (∃ q, divPos (.polar (.dist 2) (π / 2) : Pos ℝ) 2 = .ok q ∧
      (point (.polar (.dist 2) (π / 2))).x = 0 ∧ 0 < (point q).x) ∧
    (∃ q, divPos (.sph (.dist 2) (π / 2) (π / 2) : Pos ℝ) 2 = .ok q ∧
      (point (.sph (.dist 2) (π / 2) (π / 2))).x = 0 ∧ 0 < (point q).x) := by
  have h2 : (2:ℝ) ≠ 0 := by norm_num
  have hpi := Real.pi_pos
  have e4 : π / 2 / 2 = π / 4 := by ring
  refine ⟨⟨.cyl 1 (π / 4) 0, ?_, by simp [point, cylPoint], ?_⟩,
    ⟨.polar (.dist 1) (π / 4), ?_, by simp [point], ?_⟩,
    ⟨.sph (.dist 1) (π / 4) (π / 4), ?_, by simp [point, sphPoint], ?_⟩⟩
  · simp only [divPos, div_real_ok h2, ok_bind, e4]
    rw [mkCyl_ok _ (by norm_num)]; simp [AzArg.convert]
  · simp [point, cylPoint]
  · simp only [divPos, Dist.divRaw, Dist.raw, div_real_ok h2, ok_bind, e4, pure_ok, Dist.mapRaw]
    rw [mkPolar_ok _ (by norm_num [Dist.raw])]; simp [AzArg.convert]
  · simp [point, distOf]
  · simp only [divPos, Dist.divRaw, Dist.raw, div_real_ok h2, ok_bind, e4, pure_ok, Dist.mapRaw]
    rw [mkSph_ok _ (by norm_num [Dist.raw]) (by positivity) (by linarith)]; simp [AzArg.convert]
  · simp [point, sphPoint, distOf]

example : ∃ q, divPos (.cart3 1 2 3 : Pos ℝ) (-2) = .ok q ∧ q.kind = .cart3 ∧
    point q = V3.smul (-2)⁻¹ ⟨1, 2, 3⟩ :=
  C18_division (-2) (by norm_num) (.cart3 1 2 3) trivial (Or.inl rfl)

/-! ## C44: equality -/

theorem Dist.eqv_dist (a b : ℝ) : (Dist.dist a).eqv (.dist b) = .ok (decide (a = b)) := rfl

theorem eqSame_iff (p q : Pos ℝ) (hk : q.kind = p.kind) (hp : PlainDist p) (hq : PlainDist q) :
    ∃ b, eqSame p q = .ok b ∧ (b = true ↔ p = q) := by
  cases p <;> cases q <;> first
    | (cases hk; done)
    | (obtain ⟨d, rfl⟩ := hp; obtain ⟨e, rfl⟩ := hq
       exact ⟨_, rfl, by simp [and_assoc]⟩)

/-- **C44.** (`Props/EqExact.lean` covers every case.) For canonical positions off the z axis with `Distance` radial fields, of any
two classes of one dimension, `p == q` returns, and it is true iff the two denote the same point.
Not covered here: prolate spheroidal `p` (see the next two theorems), vectors on the
axis, where components such as the azimuth are not determined by the point, and mixed
`Distance`/`Parallax` fields (`C44_mixed_distance_error`). -/
theorem C44_equality (p q : Pos ℝ) (hp : Valid p) (hq : Valid q) (cp : Canon p)
    (cq : Canon q) (pp : PlainDist p) (pq : PlainDist q) (hd : p.kind.dim = q.kind.dim)
    (hsp : p.kind ≠ .twoSphere) (hsq : q.kind ≠ .twoSphere) (hpr : p.kind ≠ .prolate)
    (op : OffAxis (point p)) (oq : OffAxis (point q))
    (hr : p.kind = .radial → 0 ≤ (point q).x) :
    ∃ b, eqPos p q = .ok b ∧ (b = true ↔ point p = point q) := by
  obtain ⟨q', hq'⟩ := C09_conversion_total {} q p.kind hq hd.symm hsq hsp
    (offAxis_ne_zero oq) hr (fun e => absurd e hpr)
  have g := represent_good _ _ _ _ _ hq hd.symm hq'
  have pl := represent_plain _ _ _ _ _ hq pq hd.symm hq'
  obtain ⟨b, h1, h2⟩ := eqSame_iff p q' g.kind pp pl
  refine ⟨b, by rw [eqPos, hq', ok_bind, h1], h2.trans ⟨fun e => ?_, fun e => ?_⟩⟩
  · rw [e, g.point]
  · have hf : focal p = focal q' := by
      have hq'' : q'.kind ≠ .prolate := by rw [g.kind]; exact hpr
      cases p <;> cases q' <;> first | rfl | exact absurd rfl hpr | exact absurd rfl hq''
    have := plain_eq_of_point_eq hp g.valid g.kind.symm cp (g.canon cq) hf op (by rw [e, g.point])
    rwa [plain_of_plainDist pp, plain_of_plainDist pl] at this

theorem eqSame_self (p : Pos ℝ) : eqSame p p = .ok true := by
  cases p <;> first
    | (simp [eqSame]; done)
    | (rename_i r; cases r <;> simp [eqSame, Dist.eqv]; done)
    | (rename_i r a; cases r <;> simp [eqSame, Dist.eqv]; done)
    | (rename_i r a b; cases r <;> simp [eqSame, Dist.eqv])

theorem represent_self (n : ℕ) (kw : Kw ℝ) (p : Pos ℝ) (hs : p.kind ≠ .twoSphere)
    (hk : kw.delta = none) : represent (n + 1) kw p p.kind = .ok p := by
  obtain ⟨_, _, _, _, d⟩ := kw
  obtain rfl : d = none := hk
  cases p <;> first | exact absurd rfl hs | rfl

/-- **C44**, reflexivity: every vector of every class except `TwoSpherePos` equals itself. -/
theorem C44_refl (p : Pos ℝ) (hs : p.kind ≠ .twoSphere) : eqPos p p = .ok true := by
  have h : representAs {} p p.kind = .ok p := represent_self 199 {} p hs rfl
  rw [eqPos, h, ok_bind, eqSame_self]

/-- C44 is false for two prolate vectors of one point with different focal lengths: they are
compared component by component and found different. -/
theorem C44_prolate_focal (mu nu phi delta mu' nu' phi' delta' : ℝ) (h : delta ≠ delta') :
    eqPos (.prolate mu nu phi delta) (.prolate mu' nu' phi' delta') = .ok false := by
  have h1 : representAs {} (.prolate mu' nu' phi' delta' : Pos ℝ) .prolate =
      .ok (.prolate mu' nu' phi' delta') := represent_self 199 {} _ (by intro h; cases h) rfl
  have hk : (Pos.prolate mu nu phi delta : Pos ℝ).kind = .prolate := rfl
  rw [eqPos, hk, h1, ok_bind]
  simp [eqSame, h]

/-- and such vectors exist: two focal lengths for one point -/
example : point (.prolate 4 0 0 1) = point (.prolate 7 0 0 2) ∧ Valid (.prolate 4 0 0 1) ∧
    Valid (.prolate 7 0 0 2) := by
  refine ⟨?_, by norm_num [Valid], by norm_num [Valid]⟩
  simp [point, cylPoint, prolR, prolZ]
  norm_num

/-- C44 is false for a prolate left operand and any other class on the right: the call is an
error, whatever the points are. -/
theorem C44_prolate_error (mu nu phi delta : ℝ) (q : Pos ℝ) (hq : q.kind.dim = 3)
    (hk : q.kind ≠ .prolate) : eqPos (.prolate mu nu phi delta) q = .error .missingDelta := by
  have h1 : ∀ n, represent (n + 1) {} q .prolate = .error .missingDelta := by
    intro n
    cases q <;> first | (cases hq; done) | exact absurd rfl hk | rfl
  have h2 : representAs {} q .prolate = .error .missingDelta := h1 199
  have hk : (Pos.prolate mu nu phi delta : Pos ℝ).kind = .prolate := rfl
  rw [eqPos, hk, h2]; rfl

/-- C44 is false for mixed radial classes: comparing a `SphericalPos` with a `Distance` to one with
a `Parallax` is an error, whatever the points are. -/
theorem C44_mixed_distance_error (d p a b c e : ℝ) :
    eqPos (.sph (.dist d) a b : Pos ℝ) (.sph (.par p) c e) = .error .mismatch := by
  have h : representAs {} (.sph (.par p) c e : Pos ℝ) .sph = .ok (.sph (.par p) c e) :=
    represent_self 199 {} _ (by intro h; cases h) rfl
  have hk : (Pos.sph (.dist d) a b : Pos ℝ).kind = .sph := rfl
  rw [eqPos, hk, h, ok_bind]
  rfl

/-- the hypotheses of `C44_equality` are met, in both directions -/
example : ∃ b, eqPos (.cyl 3 0 4 : Pos ℝ) (.cart3 3 0 4) = .ok b ∧ b = true := by
  have h2 : OffAxis (point (.cyl 3 0 4)) := by simp [OffAxis, point, cylPoint]
  have h3 : OffAxis (point (.cart3 3 0 4)) := by simp [OffAxis, point]
  obtain ⟨b, h, hb⟩ := C44_equality (.cyl 3 0 4) (.cart3 3 0 4) (by norm_num [Valid]) trivial
    ⟨le_refl _, by positivity⟩ trivial trivial trivial rfl (by decide) (by decide) (by decide) h2 h3
    (by intro h; cases h)
  exact ⟨b, h, hb.mpr (by simp [point, cylPoint])⟩

/-! ## C46: normalisation -/

/-- **C46.** `normalize_vector` of a 3-D Cartesian position returns iff it is not the origin, and
then returns the positive multiple of it that has length one. -/
theorem C46_normalize (x y z : ℝ) :
    ((⟨x, y, z⟩ : V3) ≠ V3.zero → ∃ a b c, normalizeCart3 x y z = .ok (a, b, c) ∧
      V3.norm ⟨a, b, c⟩ = 1 ∧ ∃ s > 0, (⟨x, y, z⟩ : V3) = V3.smul s ⟨a, b, c⟩) ∧
    ((⟨x, y, z⟩ : V3) = V3.zero → normalizeCart3 x y z = .error .nonFinite) := by
  constructor
  · intro h
    have h0 := sumsq3_pos h
    have hs := Real.sqrt_pos.mpr h0
    set n := √(x * x + y * y + z * z) with hn
    have hnn : n * n = x * x + y * y + z * z := Real.mul_self_sqrt h0.le
    refine ⟨x / n, y / n, z / n, ?_, ?_, n, hs, ?_⟩
    · simp only [normalizeCart3, sqrt_real_ok h0.le, ok_bind, ← hn, div_real_ok hs.ne', pure_ok]
    · simp only [V3.norm]
      rw [show (x / n) ^ 2 + (y / n) ^ 2 + (z / n) ^ 2 = 1 by
        field_simp
        linear_combination -hnn]
      exact Real.sqrt_one
    · simp only [V3.smul, V3.mk.injEq]
      refine ⟨?_, ?_, ?_⟩ <;> field_simp
  · intro h
    simp only [V3.zero, V3.mk.injEq] at h
    obtain ⟨rfl, rfl, rfl⟩ := h
    simp [normalizeCart3, sqrt_real, div_real]

example : (⟨0, 3, 4⟩ : V3) ≠ V3.zero := by simp [V3.zero]

end Verif.Props
