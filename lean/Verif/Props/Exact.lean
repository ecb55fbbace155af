import Verif.ConvIff
import Verif.Props.Arith
import Mathlib.Analysis.SpecialFunctions.Trigonometric.Angle

/-!
# Exactly when position operations return (C08, C09, C15-C18)

The theorems here are equivalences: they list all cases in which a call raises or gives NaN.
-/

namespace Verif.Props

open Real Spec

/-! ## C08 -/

/-- **C08**, exact domain: `LonLatSphericalPos.from_` returns iff the latitude (reflected when the
distance is negative) is within `[-450, 270]` deg, and then denotes the point of the raw inputs, in
range and canonical. -/
theorem C08_lonlat_from_iff (lon : AzArg ℝ) (lat d : ℝ) :
    ((∃ q, lonlatFrom lon lat (.dist d) = .ok q) ↔
      if d < 0 then -(3 * π / 2) ≤ lat ∧ lat ≤ 5 * π / 2
      else -(5 * π / 2) ≤ lat ∧ lat ≤ 3 * π / 2) ∧
    ∀ q, lonlatFrom lon lat (.dist d) = .ok q →
      q.kind = .lonlat ∧ Valid q ∧ Canon q ∧ point q = lonlatPoint lon.val lat d := by
  have e : (if d < 0 then -(3 * π / 2) ≤ lat ∧ lat ≤ 5 * π / 2
      else -(5 * π / 2) ≤ lat ∧ lat ≤ 3 * π / 2) ↔
      -(5 * π / 2) ≤ effLat lat d ∧ effLat lat d ≤ 3 * π / 2 := by
    unfold effLat
    split
    · constructor <;> rintro ⟨a, b⟩ <;> constructor <;> linarith
    · exact Iff.rfl
  have ok : -(5 * π / 2) ≤ effLat lat d ∧ effLat lat d ≤ 3 * π / 2 ∨
      lonlatFrom lon lat (.dist d) = .error .check := by
    by_cases h0 : -(5 * π / 2) ≤ effLat lat d
    · by_cases h1 : effLat lat d ≤ 3 * π / 2
      · exact Or.inl ⟨h0, h1⟩
      · exact Or.inr (C08_rejects lon lat d (Or.inr (not_le.mp h1)))
    · exact Or.inr (C08_rejects lon lat d (Or.inl (not_le.mp h0)))
  rw [e]
  rcases ok with ⟨h0, h1⟩ | hr
  · obtain ⟨q, h, g⟩ := C08_lonlat_from_in_range lon lat d h0 h1
    refine ⟨⟨fun _ => ⟨h0, h1⟩, fun _ => ⟨q, h⟩⟩, fun q' h' => ?_⟩
    rw [h] at h'; obtain rfl := Except.ok.inj h'
    exact g
  · refine ⟨⟨fun ⟨q, h⟩ => by (rw [hr] at h; cases h), fun ⟨h0, h1⟩ => ?_⟩,
      fun q h => by (rw [hr] at h; cases h)⟩
    obtain ⟨q, h, _⟩ := C08_lonlat_from_in_range lon lat d h0 h1
    exact ⟨q, h⟩

/-! ## C09 -/

/-- **C09.** A same-dimension conversion of a valid position returns a finite vector, except
exactly in these cases: a `TwoSpherePos` is involved; the point is the origin and the conversion
has to compute a direction; a negative 1-D coordinate is converted to `RadialPos`; the target is
prolate and the focal length is missing (unless the source is prolate too), not positive, or
puts a focus at the point. -/
theorem C09_returns_iff (kw : Kw ℝ) (p : Pos ℝ) (k : Kind) (hv : Valid p)
    (hdim : p.kind.dim = k.dim) :
    (∃ q, representAs kw p k = .ok q) ↔
      p.kind ≠ .twoSphere ∧ k ≠ .twoSphere ∧
      (NeedsDirection p.kind k → point p ≠ V3.zero) ∧
      (k = .radial → 0 ≤ (point p).x) ∧
      (k = .prolate → (p.kind = .prolate ∧ kw.delta = none) ∨
        ∃ d, kw.delta = some d ∧ 0 < d ∧ ¬ IsFocus d (point p)) := by
  by_cases ht : p.kind = .twoSphere ∨ k = .twoSphere
  · constructor
    · rintro ⟨q, h⟩
      exfalso
      have h2 : p.kind.dim = 2 := by
        rcases ht with h | h
        · rw [h]; rfl
        · rw [hdim, h]; rfl
      exact C09_twoSphere_never_returns pyDepth kw p q k h2 (hdim ▸ h2) ht h
    · rintro ⟨h1, h2, _⟩
      rcases ht with h | h
      · exact absurd h h1
      · exact absurd h h2
  · push Not at ht
    exact (represent_iff 197 hv hdim ht.1 ht.2).trans
      ⟨fun h => ⟨h.src, h.tgt, h.origin, h.half, h.delta⟩,
        fun ⟨a, b, c, d, e⟩ => ⟨hv, hdim, a, b, c, d, e⟩⟩

/-- both sides occur: the origin converts to cylindrical but not to spherical coordinates -/
example : (∃ q, representAs {} (.cart3 0 0 0 : Pos ℝ) .cyl = .ok q) ∧
    ¬ ∃ q, representAs {} (.cart3 0 0 0 : Pos ℝ) .sph = .ok q := by
  rw [C09_returns_iff {} (.cart3 0 0 0) .cyl trivial rfl,
    C09_returns_iff {} (.cart3 0 0 0) .sph trivial rfl]
  refine ⟨⟨by decide, by decide, fun h => absurd h (show ¬ NeedsDirection .cart3 .cyl by decide),
    by decide, nofun⟩, fun h => h.2.2.1 (show NeedsDirection .cart3 .sph by decide) rfl⟩

/-! ## C15, C16, C17 -/

/-- a Cartesian vector converts back to the class `k` -/
theorem back_iff {c : Pos ℝ} {k : Kind} (hc : c.kind = k.cartesian) (hk : k ≠ .twoSphere) :
    (∃ q, representAs {} c k = .ok q) ↔ k ≠ .prolate ∧
      (k = .sph ∨ k = .lonlat ∨ k = .math → point c ≠ V3.zero) ∧
      (k = .radial → 0 ≤ (point c).x) := by
  have hcc : c.kind.isCart = true := by rw [hc]; exact isCart_cartesian _
  rw [C09_returns_iff {} c k (valid_of_cart _ hcc) (by rw [hc, dim_cartesian])]
  have hn : NeedsDirection c.kind k ↔ k = .sph ∨ k = .lonlat ∨ k = .math := by
    rw [hc]; revert hk; cases k <;> decide
  have hs : c.kind ≠ .twoSphere := by rw [hc]; cases k <;> decide
  have hp : c.kind ≠ .prolate := by rw [hc]; cases k <;> decide
  rw [hn]
  constructor
  · rintro ⟨_, _, h1, h2, h3⟩
    refine ⟨fun e => ?_, h1, h2⟩
    rcases h3 e with h | ⟨d, h, _⟩
    · exact hp h.1
    · cases h
  · rintro ⟨h1, h2, h3⟩
    exact ⟨hs, hk, h2, h3, fun e => absurd e h1⟩

theorem toCart_twoSphere {p : Pos ℝ} (h : p.kind = .twoSphere) (q : Pos ℝ) :
    representAs {} p .cart2 ≠ .ok q :=
  C09_twoSphere_never_returns pyDepth _ p q .cart2 (by rw [h]; rfl) rfl (Or.inl h)

theorem binPos_iff {f : ℝ → ℝ → ℝ} (f0 : f 0 0 = 0) {a b : Pos ℝ} (ha : Valid a) (hb : Valid b)
    (hd : a.kind.dim = b.kind.dim) :
    (∃ q, binPos f a b = .ok q) ↔
      a.kind ≠ .twoSphere ∧ b.kind ≠ .twoSphere ∧ a.kind ≠ .prolate ∧
      (a.kind = .sph ∨ a.kind = .lonlat ∨ a.kind = .math →
        (⟨f (point a).x (point b).x, f (point a).y (point b).y,
          f (point a).z (point b).z⟩ : V3) ≠ V3.zero) ∧
      (a.kind = .radial → 0 ≤ f (point a).x (point b).x) := by
  have hcd : a.kind.cartesian = b.kind.cartesian := cartesian_of_dim hd
  by_cases hsb : b.kind = .twoSphere
  · refine iff_of_false ?_ (fun h => h.2.1 hsb)
    rintro ⟨q, h⟩
    have hb2 := toCart_twoSphere hsb
    cases hc : a.kind.isCart with
    | true =>
      have : a.kind = .cart2 := by
        rw [hsb] at hd; revert hd hc; cases a.kind <;> decide
      rw [binPos_cart hc, binCart, this] at h
      obtain ⟨c, h1, _⟩ := (bind_ok_iff _ _ _).mp h
      exact hb2 c h1
    | false =>
      rw [binPos_other hc] at h
      obtain ⟨c, _, h⟩ := (bind_ok_iff _ _ _).mp h
      obtain ⟨c', h1, _⟩ := (bind_ok_iff _ _ _).mp h
      rw [hcd, hsb] at h1
      exact hb2 c' h1
  by_cases hsa : a.kind = .twoSphere
  · refine iff_of_false ?_ (fun h => h.1 hsa)
    rintro ⟨q, h⟩
    rw [binPos_other (by rw [hsa]; rfl), hsa] at h
    obtain ⟨c, h1, _⟩ := (bind_ok_iff _ _ _).mp h
    exact toCart_twoSphere hsa c h1
  cases hc : a.kind.isCart with
  | true =>
    refine iff_of_true ?_ ?_
    · rw [binPos_cart hc]; exact binCart_total f0 hb hc hsb hd
    · revert hc; cases a.kind <;> simp [Kind.isCart, hsb]
  | false =>
    obtain ⟨a', h1, g1⟩ := toCart_total a ha hsa
    obtain ⟨b', h2, g2⟩ := toCart_total b hb hsb
    rw [← hcd] at h2 g2
    have ca : a'.kind.isCart = true := by rw [g1.kind]; exact isCart_cartesian _
    obtain ⟨c, h3⟩ := binCart_total (a := a') (b := b') f0 g2.valid ca
      (by rw [g2.kind]; cases a.kind <;> decide) (by rw [g1.kind, g2.kind])
    obtain ⟨k3, c3, p3⟩ := binCart_good f0 g2.valid (by rw [g1.kind, g2.kind]) h3
    rw [g1.point, g2.point] at p3
    have e : binPos f a b = representAs {} c a.kind := by
      rw [binPos_other hc, h1, ok_bind, h2, ok_bind, h3, ok_bind]
    rw [e, back_iff (by rw [k3, g1.kind]) hsa, p3]
    simp only [hsa, hsb, ne_eq, not_false_eq_true, true_and]

/-- **C15.** The sum (difference) of two valid positions of one dimension is returned except
exactly in these cases: a `TwoSpherePos` is involved; the left operand is prolate; it is of a
spherical class and the result is the origin; it is a `RadialPos` and the result is negative. -/
theorem C15_returns_iff (a b : Pos ℝ) (ha : Valid a) (hb : Valid b)
    (hd : a.kind.dim = b.kind.dim) :
    ((∃ q, addPos a b = .ok q) ↔
      a.kind ≠ .twoSphere ∧ b.kind ≠ .twoSphere ∧ a.kind ≠ .prolate ∧
      (a.kind = .sph ∨ a.kind = .lonlat ∨ a.kind = .math →
        (point a).add (point b) ≠ V3.zero) ∧
      (a.kind = .radial → 0 ≤ ((point a).add (point b)).x)) ∧
    ((∃ q, subPos a b = .ok q) ↔
      a.kind ≠ .twoSphere ∧ b.kind ≠ .twoSphere ∧ a.kind ≠ .prolate ∧
      (a.kind = .sph ∨ a.kind = .lonlat ∨ a.kind = .math →
        (point a).sub (point b) ≠ V3.zero) ∧
      (a.kind = .radial → 0 ≤ ((point a).sub (point b)).x)) :=
  ⟨binPos_iff (f := (· + ·)) (by simp) ha hb hd, binPos_iff (f := (· - ·)) (by simp) ha hb hd⟩

/-- both sides occur: a spherical vector minus itself does not return, a cylindrical one does -/
example : (∃ q, subPos (.cyl 1 0 0 : Pos ℝ) (.cyl 1 0 0) = .ok q) ∧
    ¬ ∃ q, subPos (.sph (.dist 1) 0 0 : Pos ℝ) (.sph (.dist 1) 0 0) = .ok q := by
  have hv : Valid (.sph (.dist 1) 0 0) := ⟨zero_le_one, le_refl _, pi_pos.le⟩
  rw [(C15_returns_iff _ _ (show Valid (.cyl 1 0 0) from zero_le_one) zero_le_one rfl).2,
    (C15_returns_iff _ _ hv hv rfl).2]
  refine ⟨by simp [Pos.kind], fun h => h.2.2.2.1 (Or.inl rfl) ?_⟩
  simp [V3.sub, V3.zero]

theorem viaCart_iff {f : ℝ → ℝ} {p : Pos ℝ} (f0 : f 0 = 0) (hv : Valid p) :
    (∃ q, viaCart f p = .ok q) ↔ p.kind ≠ .twoSphere ∧ p.kind ≠ .prolate ∧
      (p.kind = .sph ∨ p.kind = .lonlat ∨ p.kind = .math →
        (⟨f (point p).x, f (point p).y, f (point p).z⟩ : V3) ≠ V3.zero) ∧
      (p.kind = .radial → 0 ≤ f (point p).x) := by
  by_cases hs : p.kind = .twoSphere
  · refine iff_of_false ?_ (fun h => h.1 hs)
    rintro ⟨q, h⟩
    rw [viaCart, toCartesian, hs] at h
    obtain ⟨c, h1, _⟩ := (bind_ok_iff _ _ _).mp h
    exact toCart_twoSphere hs c h1
  obtain ⟨c, h1, g1⟩ := toCart_total p hv hs
  have hc : c.kind.isCart = true := by rw [g1.kind]; exact isCart_cartesian _
  obtain ⟨d, h4, h5, h6⟩ := mapCart_total f c hc f0
  rw [g1.point] at h6
  have e : viaCart f p = representAs {} d p.kind := by
    rw [viaCart, toCartesian, h1, ok_bind, h4, ok_bind]
  rw [e, back_iff (by rw [h5, g1.kind]) hs, h6]
  simp only [hs, ne_eq, not_false_eq_true, true_and]

/-- **C16.** The negation of a valid position is returned except exactly for `TwoSpherePos`,
prolate positions, the spherical classes at the origin, and `RadialPos` away from it. -/
theorem C16_returns_iff (p : Pos ℝ) (hv : Valid p) :
    (∃ q, negPos p = .ok q) ↔ p.kind ≠ .twoSphere ∧ p.kind ≠ .prolate ∧
      (p.kind = .sph ∨ p.kind = .lonlat ∨ p.kind = .math → point p ≠ V3.zero) ∧
      (p.kind = .radial → point p = V3.zero) := by
  cases hc : p.kind.isCart with
  | true =>
    refine iff_of_true ?_ ?_
    · rw [negPos_cart hc]
      obtain ⟨q, h, _⟩ := mapCart_total (fun x => -x) p hc (by simp)
      exact ⟨q, h⟩
    · revert hc; cases p.kind <;> simp [Kind.isCart]
  | false =>
    rw [negPos_other hc, viaCart_iff (by simp) hv]
    have e : (⟨-(point p).x, -(point p).y, -(point p).z⟩ : V3) = V3.zero ↔ point p = V3.zero := by
      rw [V3.ext_iff, V3.ext_iff]; simp [V3.zero]
    have e2 : (p.kind = .radial → 0 ≤ -(point p).x) ↔ (p.kind = .radial → point p = V3.zero) := by
      refine forall_congr' fun hk => ?_
      cases p <;> first | (cases hk; done) | skip
      rename_i r
      have h0 := distOf_nonneg (show DistOk r from hv)
      simp only [point, V3.zero, V3.mk.injEq, and_true, Left.nonneg_neg_iff]
      exact ⟨fun h => le_antisymm h h0, fun h => h.le⟩
    rw [e2]
    simp only [ne_eq, e]

/-- The stored value of the radial field (a length, a parallax or a distance modulus). -/
def storedRadial : Pos ℝ → ℝ
  | .radial r | .polar r _ | .sph r _ _ | .lonlat _ _ r | .math r _ _ =>
    match r with
    | .dist d => d
    | .par p => p
    | .dm m => m
  | _ => 0

/-- **C17.** `s * p` is returned except exactly for `TwoSpherePos`, prolate positions,
`SphericalPos` and `LonLatSphericalPos` when the result is the origin, `RadialPos` when the result
is negative, `PolarPos` and `MathSphericalPos` when `s` times the stored radial value is
negative. -/
theorem C17_returns_iff (s : ℝ) (p : Pos ℝ) (hv : Valid p) :
    (∃ q, scalePos s p = .ok q) ↔ p.kind ≠ .twoSphere ∧ p.kind ≠ .prolate ∧
      (p.kind = .sph ∨ p.kind = .lonlat → V3.smul s (point p) ≠ V3.zero) ∧
      (p.kind = .radial → 0 ≤ (V3.smul s (point p)).x) ∧
      (p.kind = .polar ∨ p.kind = .math → 0 ≤ s * storedRadial p) := by
  have raw : ∀ r : Dist ℝ, (r.mapRaw (fun x => s * x)).raw = s * r.raw := by
    intro r; cases r <;> rfl
  cases hc : p.kind.isCart with
  | true =>
    refine iff_of_true ?_ ?_
    · rw [scalePos_cart hc]
      obtain ⟨q, h, _⟩ := mapCart_total (fun x => s * x) p hc (by simp)
      exact ⟨q, h⟩
    · revert hc; cases p.kind <;> simp [Kind.isCart]
  | false =>
    by_cases e1 : p.kind = .polar
    · cases p <;> first | (cases e1; done) | skip
      rename_i r f
      have : (∃ q, scalePos s (.polar r f) = .ok q) ↔ 0 ≤ s * r.raw := by
        rw [← raw]
        exact ⟨fun ⟨q, h⟩ => (mkPolar_iff.mp h).1, fun h => ⟨_, mkPolar_iff.mpr ⟨h, rfl⟩⟩⟩
      rw [this]
      cases r <;> simp [Pos.kind, storedRadial, Dist.raw]
    · by_cases e2 : p.kind = .math
      · cases p <;> first | (cases e2; done) | skip
        rename_i r f g
        have : (∃ q, scalePos s (.math r f g) = .ok q) ↔ 0 ≤ s * r.raw := by
          rw [← raw]
          exact ⟨fun ⟨q, h⟩ => (mkMath_iff.mp h).1, fun h => ⟨_, mkMath_iff.mpr ⟨h, hv.2, rfl⟩⟩⟩
        rw [this]
        cases r <;> simp [Pos.kind, storedRadial, Dist.raw]
      · rw [scalePos_other hc e1 e2, viaCart_iff (by simp) hv]
        simp only [e1, e2, or_false, false_imp_iff, and_true]
        exact Iff.rfl

/-- The stored radial value multiplied by `s`, the class of the radial field being kept. -/
def scaleStored (s : ℝ) : Pos ℝ → Pos ℝ
  | .polar (.dist d) a => .polar (.dist (s * d)) a
  | .polar (.par d) a => .polar (.par (s * d)) a
  | .polar (.dm d) a => .polar (.dm (s * d)) a
  | .math (.dist d) a b => .math (.dist (s * d)) a b
  | .math (.par d) a b => .math (.par (s * d)) a b
  | .math (.dm d) a b => .math (.dm (s * d)) a b
  | p => p

/-- **C17.** `s * p`, when it returns, has the class of `p` and denotes the scaled point, except
for a `PolarPos` or `MathSphericalPos` whose radial field is a parallax or distance modulus: there
exactly the stored parallax (modulus) is multiplied. -/
theorem C17_scaling_exact (s : ℝ) (p q : Pos ℝ) (hv : Valid p) (h : scalePos s p = .ok q) :
    q.kind = p.kind ∧
    ((p.kind = .polar ∨ p.kind = .math → PlainDist p) → Valid q ∧ point q = V3.smul s (point p)) ∧
    (p.kind = .polar ∨ p.kind = .math → q = scaleStored s p) := by
  have two : p.kind = .polar ∨ p.kind = .math → q = scaleStored s p := by
    rintro (e | e) <;> cases p <;> first | (cases e; done) | skip
    · rename_i r a
      have := (mkPolar_iff.mp h).2
      rw [this]; cases r <;> rfl
    · rename_i r a b
      have := (mkMath_iff.mp h).2.2
      rw [this]; cases r <;> rfl
  refine ⟨?_, fun hpl => (C17_scaling s p q hv hpl h).2, two⟩
  by_cases hk : p.kind = .polar ∨ p.kind = .math
  · rw [two hk]
    rcases hk with e | e <;> cases p <;> first | (cases e; done) | skip
    all_goals (rename Dist ℝ => r; cases r <;> rfl)
  · exact (C17_scaling s p q hv (fun e => absurd e hk) h).1

/-! ## C18 -/

/-- every component except the focal length divided by `s`; a radial field keeps its class -/
noncomputable def divComponents (s : ℝ) : Pos ℝ → Pos ℝ
  | .cart1 x => .cart1 (x / s)
  | .radial r => .radial (divD r)
  | .cart2 x y => .cart2 (x / s) (y / s)
  | .polar r a => .polar (divD r) (a / s)
  | .twoSphere a b => .twoSphere (a / s) (b / s)
  | .cart3 x y z => .cart3 (x / s) (y / s) (z / s)
  | .cyl a b c => .cyl (a / s) (b / s) (c / s)
  | .sph r a b => .sph (divD r) (a / s) (b / s)
  | .lonlat a b r => .lonlat (a / s) (b / s) (divD r)
  | .math r a b => .math (divD r) (a / s) (b / s)
  | .prolate a b c d => .prolate (a / s) (b / s) (c / s) d
where
  /-- the stored radial value divided -/
  divD : Dist ℝ → Dist ℝ
    | .dist d => .dist (d / s)
    | .par d => .par (d / s)
    | .dm d => .dm (d / s)

/-- The ranges the constructors check (on the stored values). -/
def Accepted : Pos ℝ → Prop
  | .cart1 _ | .cart2 _ _ | .cart3 _ _ _ => True
  | .radial r => 0 ≤ storedRadial (.radial r)
  | .polar r _ => 0 ≤ storedRadial (.radial r)
  | .twoSphere a _ => 0 ≤ a ∧ a ≤ π
  | .cyl a _ _ => 0 ≤ a
  | .sph r a _ => 0 ≤ storedRadial (.radial r) ∧ 0 ≤ a ∧ a ≤ π
  | .lonlat _ a r => 0 ≤ storedRadial (.radial r) ∧ -(π / 2) ≤ a ∧ a ≤ π / 2
  | .math r _ a => 0 ≤ storedRadial (.radial r) ∧ 0 ≤ a ∧ a ≤ π
  | .prolate a b _ d => 0 < d ∧ d ^ 2 ≤ a ∧ |b| ≤ d ^ 2

/-- **C18.** `p / s` divides every component, angles included, and is returned iff `s` is not zero
and the quotients are in the ranges of the class. -/
theorem C18_division_iff (s : ℝ) (p q : Pos ℝ) :
    divPos p s = .ok q ↔ s ≠ 0 ∧ q = divComponents s p ∧ Accepted q := by
  by_cases hs : s = 0
  · subst hs
    refine iff_of_false ?_ (fun h => h.1 rfl)
    cases p <;> simp [divPos, Dist.divRaw, div_real]
  have rr : ∀ r : Dist ℝ, r.divRaw s = .ok (divComponents.divD s r) := by
    intro r; cases r <;> simp [Dist.divRaw, Dist.raw, div_real_ok hs, Dist.mapRaw, divComponents.divD]
  have raw : ∀ r : Dist ℝ, r.raw = storedRadial (.radial r) := by intro r; cases r <;> rfl
  simp only [ne_eq, hs, not_false_eq_true, true_and]
  cases p <;> simp only [divPos, div_real_ok hs, ok_bind, rr, mkCyl_iff, mkSph_iff, mkMath_iff,
    mkLonLat_iff, mkPolar_iff, mkRadial_iff, mkTwoSphere_iff, mkProlate_iff, mkCart1, mkCart2,
    mkCart3, Except.ok.injEq, divComponents, AzArg.convert, raw]
  all_goals
    constructor
    · intro h
      first
      | (subst h; exact ⟨rfl, trivial⟩)
      | (obtain ⟨a, rfl⟩ := h; exact ⟨rfl, a⟩)
      | (obtain ⟨a, b, rfl⟩ := h
         first | exact ⟨rfl, a, b⟩ | exact ⟨rfl, b, a⟩)
    · rintro ⟨rfl, h⟩
      first
      | rfl
      | exact ⟨h, rfl⟩
      | exact ⟨h.1, h.2, rfl⟩
      | exact ⟨h.2, h.1, rfl⟩

theorem angle_iff (a b : ℝ) :
    (cos a = cos b ∧ sin a = sin b) ↔ ∃ n : ℤ, a = b + 2 * π * n := by
  constructor
  · rintro ⟨h1, h2⟩
    obtain ⟨k, hk⟩ := Real.Angle.angle_eq_iff_two_pi_dvd_sub.mp (Real.Angle.cos_sin_inj h1 h2)
    exact ⟨k, by linarith⟩
  · rintro ⟨n, rfl⟩
    have := Real.cos_add_int_mul_two_pi b n
    have := Real.sin_add_int_mul_two_pi b n
    rw [show b + 2 * π * n = b + n * (2 * π) by ring]
    exact ⟨‹_›, ‹_›⟩

theorem planar_iff {s a b a' b' : ℝ} (hs : 0 < s) (ha : 0 ≤ a) (ha' : 0 ≤ a') :
    (a' * cos b' = s⁻¹ * (a * cos b) ∧ a' * sin b' = s⁻¹ * (a * sin b)) ↔
      a' = a / s ∧ (a = 0 ∨ ∃ n : ℤ, b' = b + 2 * π * n) := by
  rw [← angle_iff]
  have hs' := inv_pos.mpr hs
  constructor
  · rintro ⟨h1, h2⟩
    have e : a' ^ 2 = (a / s) ^ 2 := by
      have c := sin_sq_add_cos_sq b
      have c' := sin_sq_add_cos_sq b'
      rw [div_eq_inv_mul]
      linear_combination (-a' ^ 2) * c' + (s⁻¹ * a) ^ 2 * c +
        (a' * cos b' + s⁻¹ * (a * cos b)) * h1 + (a' * sin b' + s⁻¹ * (a * sin b)) * h2
    have e' : a' = a / s := by
      rwa [sq_eq_sq₀ ha' (div_nonneg ha hs.le)] at e
    refine ⟨e', ?_⟩
    by_cases h0 : a = 0
    · exact Or.inl h0
    · right
      have hne : s⁻¹ * a ≠ 0 := mul_ne_zero hs'.ne' h0
      rw [e', div_eq_inv_mul] at h1 h2
      constructor
      · apply mul_left_cancel₀ hne; linarith
      · apply mul_left_cancel₀ hne; linarith
  · rintro ⟨rfl, h | ⟨h1, h2⟩⟩
    · subst h; simp
    · rw [h1, h2, div_eq_inv_mul]; constructor <;> ring

/-- **C18**, when the quotient is right: for a valid position with a plain distance, `p / s` denotes
the point divided by `s` iff
- Cartesian classes, `RadialPos`: always;
- `PolarPos`, `CylindricalPos`: on the axis, or if dividing the azimuth changes it by full turns
  only (as for azimuth zero, or `s = 1`);
- `SphericalPos`, `MathSphericalPos`: at the origin, on the positive z axis, or if `s = 1`;
- `LonLatSphericalPos`: at the origin, if `s = 1`, or on the equator if dividing the longitude
  changes it by full turns only;
- `ProlateSpheroidalPos`: if `s = 1` or `mu + |nu| = Delta^2 (1 + s)`, and moreover on the axis or
  dividing the azimuth changes it by full turns only. -/
theorem C18_right_iff (s : ℝ) (p q : Pos ℝ) (hv : Valid p) (hpl : PlainDist p)
    (ht : p.kind ≠ .twoSphere) (h : divPos p s = .ok q) :
    point q = V3.smul s⁻¹ (point p) ↔
      match p with
      | .polar r a => storedRadial (.radial r) = 0 ∨ ∃ n : ℤ, a / s = a + 2 * π * n
      | .cyl r a _ => r = 0 ∨ ∃ n : ℤ, a / s = a + 2 * π * n
      | .sph r a _ => storedRadial (.radial r) = 0 ∨ a = 0 ∨ s = 1
      | .math r _ a => storedRadial (.radial r) = 0 ∨ a = 0 ∨ s = 1
      | .lonlat a b r => storedRadial (.radial r) = 0 ∨ s = 1 ∨
          (b = 0 ∧ ∃ n : ℤ, a / s = a + 2 * π * n)
      | .prolate mu nu a d => (s = 1 ∨ mu + |nu| = d ^ 2 * (1 + s)) ∧
          (mu = d ^ 2 ∨ |nu| = d ^ 2 ∨ ∃ n : ℤ, a / s = a + 2 * π * n)
      | _ => True := by
  obtain ⟨hs, rfl, hacc⟩ := (C18_division_iff s p q).mp h
  have div_fix : ∀ a : ℝ, a / s = a ↔ a = 0 ∨ s = 1 := by
    intro a
    rw [div_eq_iff hs]
    constructor
    · intro e
      by_cases h0 : a = 0
      · exact Or.inl h0
      · right
        have : a * 1 = a * s := by linarith
        exact (mul_left_cancel₀ h0 this).symm
    · rintro (rfl | rfl) <;> simp
  -- polar-like: radius `d`, azimuth `a`, height `c`
  have pos : ∀ d : ℝ, 0 ≤ d → 0 ≤ d / s → d ≠ 0 → 0 < s := by
    intro d h0 h1 h2
    have hd : 0 < d := lt_of_le_of_ne h0 (Ne.symm h2)
    rcases lt_or_gt_of_ne hs with h3 | h3
    · exact absurd h1 (not_le.mpr (div_neg_of_pos_of_neg hd h3))
    · exact h3
  have sph : ∀ d a b : ℝ, 0 ≤ d → 0 ≤ d / s → 0 ≤ a → a ≤ π → 0 ≤ a / s → a / s ≤ π →
      (sphPoint (d / s) (a / s) (b / s) = V3.smul s⁻¹ (sphPoint d a b) ↔ d = 0 ∨ a = 0 ∨ s = 1) := by
    intro d a b h0 h1 h2 h3 h4 h5
    by_cases hd : d = 0
    · subst hd; simp [sphPoint, V3.smul]
    simp only [hd, false_or]
    have hs0 := pos d h0 h1 hd
    rw [← div_fix a]
    constructor
    · intro e
      have ez := congrArg V3.z e
      simp only [sphPoint, V3.smul] at ez
      apply Real.injOn_cos ⟨h4, h5⟩ ⟨h2, h3⟩
      have : s⁻¹ * d ≠ 0 := mul_ne_zero (inv_ne_zero hs) hd
      apply mul_left_cancel₀ this
      rw [div_eq_inv_mul] at ez
      linarith
    · intro e
      rcases (div_fix a).mp e with rfl | rfl
      · simp [sphPoint, V3.smul, div_eq_inv_mul]
      · simp [sphPoint, V3.smul]
  cases p with
  | cart1 x => simp [divComponents, point, V3.smul, div_eq_inv_mul]
  | cart2 x y => simp [divComponents, point, V3.smul, div_eq_inv_mul]
  | cart3 x y z => simp [divComponents, point, V3.smul, div_eq_inv_mul]
  | radial r =>
    obtain ⟨d, rfl⟩ := hpl
    simp [divComponents, divComponents.divD, point, V3.smul, div_eq_inv_mul, distOf]
  | twoSphere => exact absurd rfl ht
  | polar r a =>
    obtain ⟨d, rfl⟩ := hpl
    simp only [divComponents, divComponents.divD, point, V3.smul, distOf, storedRadial,
      V3.mk.injEq, mul_zero, and_true]
    by_cases hd : d = 0
    · subst hd; simp
    · rw [planar_iff (a' := d / s) (pos d hv hacc hd) hv hacc]; simp
  | cyl r a z =>
    simp only [divComponents, point, cylPoint, V3.smul, V3.mk.injEq]
    rw [← and_assoc]
    by_cases hd : r = 0
    · subst hd; simp [div_eq_inv_mul]
    · rw [planar_iff (pos r hv hacc hd) hv hacc]; simp [div_eq_inv_mul]
  | sph r a b =>
    obtain ⟨d, rfl⟩ := hpl
    exact sph d a b hv.1 hacc.1 hv.2.1 hv.2.2 hacc.2.1 hacc.2.2
  | math r b a =>
    obtain ⟨d, rfl⟩ := hpl
    exact sph d a b hv.1 hacc.1 hv.2.1 hv.2.2 hacc.2.1 hacc.2.2
  | lonlat a b r =>
    obtain ⟨d, rfl⟩ := hpl
    simp only [divComponents, divComponents.divD, point, lonlatPoint, V3.smul, distOf, storedRadial,
      V3.mk.injEq]
    by_cases hd : d = 0
    · subst hd; simp
    have hs0 := pos d hv.1 hacc.1 hd
    simp only [hd, false_or]
    have hne : s⁻¹ * d ≠ 0 := mul_ne_zero (inv_ne_zero hs) hd
    constructor
    · rintro ⟨e1, e2, e3⟩
      have eb : b / s = b := by
        apply Real.injOn_sin ⟨hacc.2.1, hacc.2.2⟩ ⟨hv.2.1, hv.2.2⟩
        apply mul_left_cancel₀ hne
        rw [div_eq_inv_mul] at e3
        linarith
      rcases (div_fix b).mp eb with rfl | h1
      · right
        refine ⟨rfl, ?_⟩
        simp only [zero_div, cos_zero, mul_one] at e1 e2
        exact (((planar_iff hs0 hv.1 hacc.1).mp ⟨e1, e2⟩).2).resolve_left hd
      · exact Or.inl h1
    · rintro (rfl | ⟨rfl, h1⟩)
      · simp
      · have := (planar_iff (b := a) (b' := a / s) hs0 hv.1 hacc.1).mpr ⟨rfl, Or.inr h1⟩
        simp only [zero_div, cos_zero, mul_one, sin_zero, mul_zero]
        exact ⟨this.1, this.2, trivial⟩
  | prolate mu nu a d =>
    obtain ⟨d0, m0, n0⟩ := hv
    obtain ⟨_, m1, n1⟩ := hacc
    have dd : 0 < d ^ 2 := by positivity
    have mu0 : 0 < mu := by linarith
    have hs0 : 0 < s := by
      rcases lt_or_gt_of_ne hs with h3 | h3
      · exact absurd (m1.trans' dd.le) (not_le.mpr (div_neg_of_pos_of_neg mu0 h3))
      · exact h3
    have en : |nu / s| = |nu| / s := by rw [abs_div, abs_of_pos hs0]
    rw [en] at n1
    have ez : prolZ (mu / s) (nu / s) d = s⁻¹ * prolZ mu nu d := by
      have hsq : √(mu / s * (|nu / s| / d ^ 2)) = s⁻¹ * √(mu * (|nu| / d ^ 2)) := by
        rw [en, show mu / s * (|nu| / s / d ^ 2) = (s⁻¹) ^ 2 * (mu * (|nu| / d ^ 2)) by
          field_simp, Real.sqrt_mul (by positivity), Real.sqrt_sq (inv_pos.mpr hs0).le]
      unfold prolZ
      rw [hsq]
      by_cases hn : nu < 0
      · rw [if_pos hn, if_pos (div_neg_of_neg_of_pos hn hs0)]; ring
      · rw [if_neg hn, if_neg (not_lt.mpr (div_nonneg (not_lt.mp hn) hs0.le))]
    have hA : 0 ≤ (mu - d ^ 2) * (1 - |nu| / d ^ 2) :=
      mul_nonneg (by linarith) (by rw [sub_nonneg, div_le_one dd]; exact n0)
    have hB : 0 ≤ (mu / s - d ^ 2) * (1 - |nu| / s / d ^ 2) :=
      mul_nonneg (by linarith) (by rw [sub_nonneg, div_le_one dd]; exact n1)
    have hr0 : prolR mu nu d = 0 ↔ mu = d ^ 2 ∨ |nu| = d ^ 2 := by
      unfold prolR
      rw [Real.sqrt_eq_zero hA, mul_eq_zero, sub_eq_zero, sub_eq_zero, eq_comm (a := (1:ℝ)),
        div_eq_one_iff_eq dd.ne']
    have hr : prolR (mu / s) (nu / s) d = prolR mu nu d / s ↔
        s = 1 ∨ mu + |nu| = d ^ 2 * (1 + s) := by
      have e : prolR mu nu d / s = √((s⁻¹) ^ 2 * ((mu - d ^ 2) * (1 - |nu| / d ^ 2))) := by
        rw [Real.sqrt_mul (by positivity), Real.sqrt_sq (inv_pos.mpr hs0).le, prolR, div_eq_inv_mul]
      rw [e, prolR, en, Real.sqrt_inj hB (mul_nonneg (by positivity) hA)]
      have key : (mu / s - d ^ 2) * (1 - |nu| / s / d ^ 2) -
          (s⁻¹) ^ 2 * ((mu - d ^ 2) * (1 - |nu| / d ^ 2)) =
          (s⁻¹) ^ 2 * ((s - 1) * (mu + |nu| - d ^ 2 * (1 + s))) := by
        field_simp
        ring
      rw [← sub_eq_zero, key, mul_eq_zero, mul_eq_zero, sub_eq_zero, sub_eq_zero]
      simp [hs]
    simp only [divComponents, point, cylPoint, V3.smul, V3.mk.injEq, ez, and_true]
    rw [planar_iff (a := prolR mu nu d) (a' := prolR (mu / s) (nu / s) d) hs0 (Real.sqrt_nonneg _)
      (Real.sqrt_nonneg _), hr, hr0, or_assoc]

/-- dividing a point off the axis with azimuth 90 deg by 2 is wrong; dividing one with azimuth 0
is right -/
example : (∃ q, divPos (.cyl 2 0 6 : Pos ℝ) 2 = .ok q ∧ point q = ⟨1, 0, 3⟩) ∧
    ∃ q, divPos (.cyl 2 (π / 2) 6 : Pos ℝ) 2 = .ok q ∧
      point q ≠ V3.smul 2⁻¹ (point (.cyl 2 (π / 2) 6)) := by
  have h1 : divPos (.cyl 2 0 6 : Pos ℝ) 2 = .ok (divComponents 2 (.cyl 2 0 6)) :=
    (C18_division_iff _ _ _).mpr ⟨by norm_num, rfl, by norm_num [Accepted, divComponents]⟩
  have h2 : divPos (.cyl 2 (π / 2) 6 : Pos ℝ) 2 = .ok (divComponents 2 (.cyl 2 (π / 2) 6)) :=
    (C18_division_iff _ _ _).mpr ⟨by norm_num, rfl, by norm_num [Accepted, divComponents]⟩
  refine ⟨⟨_, h1, ?_⟩, ⟨_, h2, fun e => ?_⟩⟩
  · rw [(C18_right_iff 2 (.cyl 2 0 6) _ (by norm_num [Valid]) trivial (by decide) h1).mpr
      (Or.inr ⟨0, by norm_num⟩)]
    simp [point, cylPoint, V3.smul]; norm_num
  · rcases (C18_right_iff 2 (.cyl 2 (π / 2) 6) _ (by norm_num [Valid]) trivial
      (fun e => by cases e) h2).mp e with h | ⟨n, h⟩
    · norm_num at h
    · have hpi := pi_pos
      have : (n : ℝ) = -1 / 8 := by
        have : π * (1 / 4 - 1 / 2 - 2 * n) = 0 := by linarith
        rcases mul_eq_zero.mp this with h | h
        · exact absurd h hpi.ne'
        · linarith
      have h8 : (8 : ℤ) * n = -1 := by
        have : (8 : ℝ) * n = -1 := by rw [this]; norm_num
        exact_mod_cast this
      omega

end Verif.Props
