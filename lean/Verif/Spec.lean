import Verif.Vec

/-!
# Specification

Textbook meaning of the vectors. This file uses the *types* of the model (`Pos`, `Dist`, `Kind`)
but none of its functions.
-/

namespace Verif.Spec

open Real

/-- A point (or vector) of Euclidean 3-space. -/
@[ext] structure V3 where
  x : ℝ
  y : ℝ
  z : ℝ

namespace V3
/-- vector sum -/
def add (a b : V3) : V3 := ⟨a.x + b.x, a.y + b.y, a.z + b.z⟩
/-- vector difference -/
def sub (a b : V3) : V3 := ⟨a.x - b.x, a.y - b.y, a.z - b.z⟩
/-- point reflection -/
def neg (a : V3) : V3 := ⟨-a.x, -a.y, -a.z⟩
/-- scaling -/
def smul (s : ℝ) (a : V3) : V3 := ⟨s * a.x, s * a.y, s * a.z⟩
/-- scalar product -/
def dot (a b : V3) : ℝ := a.x * b.x + a.y * b.y + a.z * b.z
/-- Euclidean length -/
noncomputable def norm (a : V3) : ℝ := Real.sqrt (a.x ^ 2 + a.y ^ 2 + a.z ^ 2)
/-- the origin -/
def zero : V3 := ⟨0, 0, 0⟩
end V3

/-- The length in AU that a distance-like value stands for:
`d = 1 AU / tan p`, `d = 10^(m/5 + 1) pc`, `1 pc = 648000/π AU`. -/
noncomputable def distOf : Dist ℝ → ℝ
  | .dist d => d
  | .par p => 1 / tan p
  | .dm m => (10 : ℝ) ^ (m / 5 + 1) * (648000 / π)

/-- Physically meaningful values: non-negative lengths, acute non-zero parallaxes, non-negative
distance moduli (the constructors reject negative stored values of any distance class). -/
def DistOk : Dist ℝ → Prop
  | .dist d => 0 ≤ d
  | .par p => 0 < p ∧ p < π / 2
  | .dm m => 0 ≤ m

/-- Spherical polar to Cartesian: inclination `θ` from the z axis, azimuth `φ` from the x axis. -/
noncomputable def sphPoint (r θ φ : ℝ) : V3 := ⟨r * sin θ * cos φ, r * sin θ * sin φ, r * cos θ⟩

/-- Cylindrical to Cartesian. -/
noncomputable def cylPoint (ρ φ z : ℝ) : V3 := ⟨ρ * cos φ, ρ * sin φ, z⟩

/-- Geographic to Cartesian. -/
noncomputable def lonlatPoint (lon lat d : ℝ) : V3 :=
  ⟨d * cos lat * cos lon, d * cos lat * sin lon, d * sin lat⟩

/-- Cylindrical radius of prolate spheroidal coordinates (documentation of
`ProlateSpheroidalPos`): `R² = (μ - Δ²)(1 - |ν|/Δ²)`. -/
noncomputable def prolR (μ ν Δ : ℝ) : ℝ := sqrt ((μ - Δ ^ 2) * (1 - |ν| / Δ ^ 2))

/-- Height of prolate spheroidal coordinates: `z = ± sqrt(μ |ν|) / Δ`, the sign being that
of `ν`. -/
noncomputable def prolZ (μ ν Δ : ℝ) : ℝ :=
  if ν < 0 then -sqrt (μ * (|ν| / Δ ^ 2)) else sqrt (μ * (|ν| / Δ ^ 2))

/-- The point a position stands for. One- and two-dimensional positions lie on the x axis and in
the x-y plane; a two-sphere position lies on the unit sphere. -/
noncomputable def point : Pos ℝ → V3
  | .cart1 x => ⟨x, 0, 0⟩
  | .radial r => ⟨distOf r, 0, 0⟩
  | .cart2 x y => ⟨x, y, 0⟩
  | .polar r φ => ⟨distOf r * cos φ, distOf r * sin φ, 0⟩
  | .twoSphere θ φ => sphPoint 1 θ φ
  | .cart3 x y z => ⟨x, y, z⟩
  | .cyl ρ φ z => cylPoint ρ φ z
  | .sph r θ φ => sphPoint (distOf r) θ φ
  | .lonlat lon lat d => lonlatPoint lon lat (distOf d)
  | .math r θ φ => sphPoint (distOf r) φ θ
  | .prolate μ ν φ Δ => cylPoint (prolR μ ν Δ) φ (prolZ μ ν Δ)

/-- Documented component ranges of each class. -/
def Valid : Pos ℝ → Prop
  | .cart1 _ => True
  | .radial r => DistOk r
  | .cart2 _ _ => True
  | .polar r _ => DistOk r
  | .twoSphere θ _ => 0 ≤ θ ∧ θ ≤ π
  | .cart3 _ _ _ => True
  | .cyl ρ _ _ => 0 ≤ ρ
  | .sph r θ _ => DistOk r ∧ 0 ≤ θ ∧ θ ≤ π
  | .lonlat _ lat d => DistOk d ∧ -(π / 2) ≤ lat ∧ lat ≤ π / 2
  | .math r _ φ => DistOk r ∧ 0 ≤ φ ∧ φ ≤ π
  | .prolate μ ν _ Δ => 0 < Δ ∧ Δ ^ 2 ≤ μ ∧ |ν| ≤ Δ ^ 2

/-- `[0, 360)` deg -/
def InTurn (φ : ℝ) : Prop := 0 ≤ φ ∧ φ < 2 * π

/-- The azimuth, if the class has one, is in `[0, 360)` deg. -/
def Canon : Pos ℝ → Prop
  | .cart1 _ | .radial _ | .cart2 _ _ | .cart3 _ _ _ => True
  | .polar _ φ | .twoSphere _ φ | .cyl _ φ _ | .sph _ _ φ | .prolate _ _ φ _ => InTurn φ
  | .lonlat lon _ _ => InTurn lon
  | .math _ θ _ => InTurn θ

/-- The radial field, if any, is a plain `Distance` (not a `Parallax` or `DistanceModulus`). -/
def PlainDist : Pos ℝ → Prop
  | .radial r | .polar r _ | .sph r _ _ | .lonlat _ _ r | .math r _ _ => ∃ d, r = .dist d
  | _ => True

/-- The point is not on the z axis. -/
def OffAxis (v : V3) : Prop := ¬ (v.x = 0 ∧ v.y = 0)

/-- The same vector with its radial field expressed as a plain `Distance`. -/
noncomputable def plain : Pos ℝ → Pos ℝ
  | .radial r => .radial (.dist (distOf r))
  | .polar r φ => .polar (.dist (distOf r)) φ
  | .sph r θ φ => .sph (.dist (distOf r)) θ φ
  | .lonlat lon lat r => .lonlat lon lat (.dist (distOf r))
  | .math r θ φ => .math (.dist (distOf r)) θ φ
  | p => p

/-- The focal length, for prolate spheroidal positions. -/
def focal : Pos ℝ → Option ℝ
  | .prolate _ _ _ Δ => some Δ
  | _ => none

/-- One of the two foci `(0, 0, ±Δ)` of the prolate spheroidal coordinates with focal length `Δ`. -/
def IsFocus (Δ : ℝ) (v : V3) : Prop := v.x = 0 ∧ v.y = 0 ∧ v.z ^ 2 = Δ ^ 2

/-- The conversions whose code computes the direction of the point from a vector without one: from
Cartesian, cylindrical or prolate spheroidal to a spherical class, and between the lon-lat and the
mathematics convention (which goes through Cartesian coordinates). At the origin there is no
direction. -/
def NeedsDirection (source target : Kind) : Prop :=
  (source ∈ [Kind.cart3, .cyl, .prolate] ∧ target ∈ [Kind.sph, .lonlat, .math]) ∨
    (source = .lonlat ∧ target = .math) ∨ (source = .math ∧ target = .lonlat)

instance (a b : Kind) : Decidable (NeedsDirection a b) :=
  inferInstanceAs (Decidable (_ ∨ _))

/-- Orthogonal projection on the first `n` Cartesian axes (`n = 1, 2`; all of space for `n ≥ 3`). -/
def proj : ℕ → V3 → V3
  | 0, _ => V3.zero
  | 1, v => ⟨v.x, 0, 0⟩
  | 2, v => ⟨v.x, v.y, 0⟩
  | _, v => v

end Verif.Spec
