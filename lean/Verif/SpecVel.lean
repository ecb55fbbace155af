import Verif.Spec
import Verif.Vel
import Mathlib.Analysis.Calculus.Deriv.Basic

/-!
# Specification of velocities

Uses the types `Pos`, `Vel`, `VKind`, `Kind` of the model (and `Vel.kind`, `VKind.integral`), none of
its conversion functions.
-/

namespace Verif.Spec

open Real

/-- The Cartesian velocity `Σ (∂X/∂q_i) q̇_i` of a point at position `p` whose coordinates in
the class of `p` change at the rates `v` (textbook coordinate basis vectors). For
`LonCosLatSphericalVel` the first component is `cos(lat)` times the longitude rate.
Zero if `v` does not belong to the class of `p`. -/
noncomputable def cartVel : Pos ℝ → Vel ℝ → V3
  | .cart1 _, .cart1 a => ⟨a, 0, 0⟩
  | .radial _, .radial a => ⟨a, 0, 0⟩
  | .cart2 _ _, .cart2 a b => ⟨a, b, 0⟩
  | .polar r φ, .polar a b =>
    ⟨a * cos φ - distOf r * sin φ * b, a * sin φ + distOf r * cos φ * b, 0⟩
  | .cart3 _ _ _, .cart3 a b c => ⟨a, b, c⟩
  | .cyl ρ φ _, .cyl a b c => ⟨a * cos φ - ρ * sin φ * b, a * sin φ + ρ * cos φ * b, c⟩
  | .sph r θ φ, .sph a b c =>
    ⟨a * (sin θ * cos φ) + b * (distOf r * cos θ * cos φ) - c * (distOf r * sin θ * sin φ),
     a * (sin θ * sin φ) + b * (distOf r * cos θ * sin φ) + c * (distOf r * sin θ * cos φ),
     a * cos θ - b * (distOf r * sin θ)⟩
  | .math r θ φ, .math a b c =>
    ⟨a * (sin φ * cos θ) - b * (distOf r * sin φ * sin θ) + c * (distOf r * cos φ * cos θ),
     a * (sin φ * sin θ) + b * (distOf r * sin φ * cos θ) + c * (distOf r * cos φ * sin θ),
     a * cos φ - c * (distOf r * sin φ)⟩
  | .lonlat lon lat d, .lonlat a b c =>
    ⟨-(a * (distOf d * cos lat * sin lon)) - b * (distOf d * sin lat * cos lon)
        + c * (cos lat * cos lon),
     a * (distOf d * cos lat * cos lon) - b * (distOf d * sin lat * sin lon)
        + c * (cos lat * sin lon),
     b * (distOf d * cos lat) + c * sin lat⟩
  | .lonlat lon lat d, .lonCosLat a b c =>
    ⟨-(a * (distOf d * sin lon)) - b * (distOf d * sin lat * cos lon) + c * (cos lat * cos lon),
     a * (distOf d * cos lon) - b * (distOf d * sin lat * sin lon) + c * (cos lat * sin lon),
     b * (distOf d * cos lat) + c * sin lat⟩
  | .prolate μ ν φ Δ, .prolate a b c =>
    let s := if ν < 0 then (-1 : ℝ) else 1
    let ρ := prolR μ ν Δ
    let ρ' := (a * (1 - |ν| / Δ ^ 2) - (μ - Δ ^ 2) * (s * b) / Δ ^ 2) / (2 * ρ)
    let z' := (a * |ν| + μ * (s * b)) / Δ ^ 2 / (2 * prolZ μ ν Δ)
    ⟨ρ' * cos φ - ρ * sin φ * c, ρ' * sin φ + ρ * cos φ * c, z'⟩
  | _, _ => V3.zero

/-- Derivative of a curve in space. -/
def HasDeriv3 (f : ℝ → V3) (f' : V3) (t : ℝ) : Prop :=
  HasDerivAt (fun s => (f s).x) f'.x t ∧ HasDerivAt (fun s => (f s).y) f'.y t ∧
    HasDerivAt (fun s => (f s).z) f'.z t

/-- At time `t` the coordinates of the moving position `c`, in the class to which `v` belongs,
change at the rates `v`. -/
def RatesAt (c : ℝ → Pos ℝ) (t : ℝ) : Vel ℝ → Prop
  | .cart1 a => ∃ x : ℝ → ℝ, (∀ s, c s = .cart1 (x s)) ∧ HasDerivAt x a t
  | .radial a => ∃ r : ℝ → ℝ, (∀ s, c s = .radial (.dist (r s))) ∧ HasDerivAt r a t
  | .cart2 a b => ∃ x y : ℝ → ℝ, (∀ s, c s = .cart2 (x s) (y s)) ∧
      HasDerivAt x a t ∧ HasDerivAt y b t
  | .polar a b => ∃ r φ : ℝ → ℝ, (∀ s, c s = .polar (.dist (r s)) (φ s)) ∧
      HasDerivAt r a t ∧ HasDerivAt φ b t
  | .twoSphere a b => ∃ θ φ : ℝ → ℝ, (∀ s, c s = .twoSphere (θ s) (φ s)) ∧
      HasDerivAt θ a t ∧ HasDerivAt φ b t
  | .cart3 a b e => ∃ x y z : ℝ → ℝ, (∀ s, c s = .cart3 (x s) (y s) (z s)) ∧
      HasDerivAt x a t ∧ HasDerivAt y b t ∧ HasDerivAt z e t
  | .cyl a b e => ∃ ρ φ z : ℝ → ℝ, (∀ s, c s = .cyl (ρ s) (φ s) (z s)) ∧
      HasDerivAt ρ a t ∧ HasDerivAt φ b t ∧ HasDerivAt z e t
  | .sph a b e => ∃ r θ φ : ℝ → ℝ, (∀ s, c s = .sph (.dist (r s)) (θ s) (φ s)) ∧
      HasDerivAt r a t ∧ HasDerivAt θ b t ∧ HasDerivAt φ e t
  | .math a b e => ∃ r θ φ : ℝ → ℝ, (∀ s, c s = .math (.dist (r s)) (θ s) (φ s)) ∧
      HasDerivAt r a t ∧ HasDerivAt θ b t ∧ HasDerivAt φ e t
  | .lonlat a b e => ∃ lon lat d : ℝ → ℝ, (∀ s, c s = .lonlat (lon s) (lat s) (.dist (d s))) ∧
      HasDerivAt lon a t ∧ HasDerivAt lat b t ∧ HasDerivAt d e t
  | .lonCosLat a b e => ∃ lon lat d : ℝ → ℝ, ∃ a' : ℝ,
      (∀ s, c s = .lonlat (lon s) (lat s) (.dist (d s))) ∧
      HasDerivAt lon a' t ∧ a = a' * cos (lat t) ∧ HasDerivAt lat b t ∧ HasDerivAt d e t
  | .prolate a b e => ∃ μ ν φ : ℝ → ℝ, ∃ Δ : ℝ, (∀ s, c s = .prolate (μ s) (ν s) (φ s) Δ) ∧
      HasDerivAt μ a t ∧ HasDerivAt ν b t ∧ HasDerivAt φ e t

/-- The coordinates of the class exist and are smooth functions of the point there: the
half-line for `RadialPos`; off the z axis for classes with an azimuth; also off the plane `z = 0`
for prolate spheroidal coordinates. -/
def Regular (k : Kind) (v : V3) : Prop :=
  match k with
  | .cart1 | .cart2 | .cart3 => True
  | .radial => 0 ≤ v.x
  | .polar | .twoSphere | .cyl | .sph | .lonlat | .math => OffAxis v
  | .prolate => OffAxis v ∧ v.z ≠ 0

/-- The conversions of a velocity `v`, at a position `p`, to the class `K` with keyword arguments
`kw` that are expected to work: one dimension, a valid position at which both classes are
regular, no 2-sphere class, a positive `Delta` when the target is prolate spheroidal. Excluded
(see the theorems `C19_*_raises`): from a prolate spheroidal velocity to another class, and from
`LonCosLatSphericalVel` to prolate spheroidal. -/
structure VelCase (kw : Kw ℝ) (v : Vel ℝ) (K : VKind) (p : Pos ℝ) : Prop where
  valid : Valid p
  dimp : p.kind.dim = v.kind.dim
  dim : v.kind.dim = K.dim
  pos_ts : p.kind ≠ .twoSphere
  src_ts : v.kind ≠ .twoSphere
  tgt_ts : K ≠ .twoSphere
  reg : Regular v.kind.integral (point p)
  reg' : Regular K.integral (point p)
  delta : K = .prolate → ∃ d, kw.delta = some d ∧ 0 < d
  src_pro : v.kind = .prolate → K = .prolate
  src_loncoslat : K = .prolate → v.kind ≠ .lonCosLat

/-- `q` is a position of the class to which velocities of class `k` belong, and lies at the
point `x`; a prolate spheroidal one has the focal length given by the keyword `Delta`. -/
def At (kw : Kw ℝ) (k : VKind) (x : V3) (q : Pos ℝ) : Prop :=
  q.kind = k.integral ∧ Valid q ∧ point q = x ∧ (k = .prolate → focal q = kw.delta)

/-- `a v + b v'`, component by component, for two velocities of the same class. -/
def comb (a : ℝ) (v : Vel ℝ) (b : ℝ) (v' : Vel ℝ) : Vel ℝ :=
  match v, v' with
  | .cart1 x, .cart1 x' => .cart1 (a * x + b * x')
  | .radial x, .radial x' => .radial (a * x + b * x')
  | .cart2 x y, .cart2 x' y' => .cart2 (a * x + b * x') (a * y + b * y')
  | .polar x y, .polar x' y' => .polar (a * x + b * x') (a * y + b * y')
  | .twoSphere x y, .twoSphere x' y' => .twoSphere (a * x + b * x') (a * y + b * y')
  | .cart3 x y z, .cart3 x' y' z' => .cart3 (a * x + b * x') (a * y + b * y') (a * z + b * z')
  | .cyl x y z, .cyl x' y' z' => .cyl (a * x + b * x') (a * y + b * y') (a * z + b * z')
  | .sph x y z, .sph x' y' z' => .sph (a * x + b * x') (a * y + b * y') (a * z + b * z')
  | .lonlat x y z, .lonlat x' y' z' => .lonlat (a * x + b * x') (a * y + b * y') (a * z + b * z')
  | .lonCosLat x y z, .lonCosLat x' y' z' => .lonCosLat (a * x + b * x') (a * y + b * y') (a * z + b * z')
  | .math x y z, .math x' y' z' => .math (a * x + b * x') (a * y + b * y') (a * z + b * z')
  | .prolate x y z, .prolate x' y' z' => .prolate (a * x + b * x') (a * y + b * y') (a * z + b * z')
  | _, _ => v

/-- The components of the moving velocity `V`, always of the class of `a`, change at the rates `a`
at time `t`. -/
def VelDeriv (V : ℝ → Vel ℝ) (a : Vel ℝ) (t : ℝ) : Prop :=
  (∀ s, (V s).kind = a.kind) ∧
    ∀ i, HasDerivAt (fun s => (V s).comps.getD i 0) (a.comps.getD i 0) t

/-- The coordinates of the moving position `c` have at time `t` the first derivatives `v` and the
second derivatives `a` (`V` gives the first derivatives at all times). -/
def AccAt (c : ℝ → Pos ℝ) (V : ℝ → Vel ℝ) (t : ℝ) (a : Vel ℝ) : Prop :=
  (∀ s, RatesAt c s (V s)) ∧ VelDeriv V a t

/-- The conversions of an acceleration `a` to the class `K`, at velocity `v` and position `p`, that
are expected to work: one dimension, a valid position at which the three classes are regular, no
2-sphere class, no prolate spheroidal class, and not at the origin if the class stays the same. -/
structure AccCase (a : Vel ℝ) (K : VKind) (v : Vel ℝ) (p : Pos ℝ) : Prop where
  valid : Valid p
  dimp : p.kind.dim = a.kind.dim
  dim : a.kind.dim = K.dim
  dimv : v.kind.dim = a.kind.dim
  pos_ts : p.kind ≠ .twoSphere
  src_ts : a.kind ≠ .twoSphere
  tgt_ts : K ≠ .twoSphere
  vel_ts : v.kind ≠ .twoSphere
  src_pro : a.kind ≠ .prolate
  tgt_pro : K ≠ .prolate
  vel_pro : v.kind ≠ .prolate
  src_lcl : a.kind ≠ .lonCosLat
  tgt_lcl : K ≠ .lonCosLat
  reg : Regular a.kind.integral (point p)
  reg' : Regular K.integral (point p)
  regv : Regular v.kind.integral (point p)
  nz : a.kind = K → K.dim ≠ 1 → point p ≠ V3.zero

end Verif.Spec
