import Verif.Represent

/-!
# Velocities: `coordinax.represent_as(vel, target, position)`

Angular rates in rad/s, lengths in AU.
-/

namespace Verif

open Num

/-- Concrete velocity classes in 1, 2 and 3 dimensions. -/
inductive VKind where
  | cart1 | radial
  | cart2 | polar | twoSphere
  | cart3 | cyl | sph | lonlat | lonCosLat | math | prolate
  deriving DecidableEq, Repr

/-- Velocity vectors, fields in declaration order.
* `CartesianVel1D` `_src/vectors/d1/cartesian.py`; `RadialVel` `_src/vectors/d1/radial.py`
* `CartesianVel2D` `_src/vectors/d2/cartesian.py`; `PolarVel` `d2/polar.py`; `TwoSphereVel`
  `d2/spherical.py`
* `CartesianVel3D` `d3/cartesian.py` 193-240; `CylindricalVel` `d3/cylindrical.py`; `SphericalVel`
  `d3/spherical.py`; `LonLatSphericalVel`, `LonCosLatSphericalVel` `d3/lonlatspherical.py`;
  `MathSphericalVel` `d3/mathspherical.py`; `ProlateSpheroidalVel` `d3/spheroidal.py` 128-155.

The constructors check units only. -/
inductive Vel (α : Type) where
  | cart1 (d_x : α)
  | radial (d_r : α)
  | cart2 (d_x d_y : α)
  | polar (d_r d_phi : α)
  | twoSphere (d_theta d_phi : α)
  | cart3 (d_x d_y d_z : α)
  | cyl (d_rho d_phi d_z : α)
  | sph (d_r d_theta d_phi : α)
  | lonlat (d_lon d_lat d_distance : α)
  | lonCosLat (d_lon_coslat d_lat d_distance : α)
  | math (d_r d_theta d_phi : α)
  | prolate (d_mu d_nu d_phi : α)

/-- `type(vel)` -/
def Vel.kind {α : Type} : Vel α → VKind
  | .cart1 .. => .cart1
  | .radial .. => .radial
  | .cart2 .. => .cart2
  | .polar .. => .polar
  | .twoSphere .. => .twoSphere
  | .cart3 .. => .cart3
  | .cyl .. => .cyl
  | .sph .. => .sph
  | .lonlat .. => .lonlat
  | .lonCosLat .. => .lonCosLat
  | .math .. => .math
  | .prolate .. => .prolate

/-- `integral_cls` of each velocity class (`LonCosLatSphericalVel.integral_cls` is
`LonLatSphericalPos`, `_src/vectors/d3/lonlatspherical.py`). -/
def VKind.integral : VKind → Kind
  | .cart1 => .cart1
  | .radial => .radial
  | .cart2 => .cart2
  | .polar => .polar
  | .twoSphere => .twoSphere
  | .cart3 => .cart3
  | .cyl => .cyl
  | .sph => .sph
  | .lonlat => .lonlat
  | .lonCosLat => .lonlat
  | .math => .math
  | .prolate => .prolate

/-- dimension of a velocity class -/
def VKind.dim (k : VKind) : ℕ := k.integral.dim

/-- `_cartesian_cls` of a velocity class -/
def VKind.cartesian : VKind → VKind
  | .cart1 | .radial => .cart1
  | .cart2 | .polar | .twoSphere => .cart2
  | _ => .cart3

/-- field values in declaration order -/
def Vel.comps {α : Type} : Vel α → List α
  | .cart1 a | .radial a => [a]
  | .cart2 a b | .polar a b | .twoSphere a b => [a, b]
  | .cart3 a b c | .cyl a b c | .sph a b c | .lonlat a b c | .lonCosLat a b c | .math a b c
  | .prolate a b c => [a, b, c]

/-- componentwise unary map (`jax.tree.map` over a velocity) -/
def Vel.map {α β : Type} (f : α → β) : Vel α → Vel β
  | .cart1 a => .cart1 (f a)
  | .radial a => .radial (f a)
  | .cart2 a b => .cart2 (f a) (f b)
  | .polar a b => .polar (f a) (f b)
  | .twoSphere a b => .twoSphere (f a) (f b)
  | .cart3 a b c => .cart3 (f a) (f b) (f c)
  | .cyl a b c => .cyl (f a) (f b) (f c)
  | .sph a b c => .sph (f a) (f b) (f c)
  | .lonlat a b c => .lonlat (f a) (f b) (f c)
  | .lonCosLat a b c => .lonCosLat (f a) (f b) (f c)
  | .math a b c => .math (f a) (f b) (f c)
  | .prolate a b c => .prolate (f a) (f b) (f c)

/-- componentwise binary map of two velocities of the same class -/
def Vel.map2 {α : Type} (f : α → α → α) : Vel α → Vel α → Res (Vel α)
  | .cart1 a, .cart1 a' => .ok (.cart1 (f a a'))
  | .radial a, .radial a' => .ok (.radial (f a a'))
  | .cart2 a b, .cart2 a' b' => .ok (.cart2 (f a a') (f b b'))
  | .polar a b, .polar a' b' => .ok (.polar (f a a') (f b b'))
  | .twoSphere a b, .twoSphere a' b' => .ok (.twoSphere (f a a') (f b b'))
  | .cart3 a b c, .cart3 a' b' c' => .ok (.cart3 (f a a') (f b b') (f c c'))
  | .cyl a b c, .cyl a' b' c' => .ok (.cyl (f a a') (f b b') (f c c'))
  | .sph a b c, .sph a' b' c' => .ok (.sph (f a a') (f b b') (f c c'))
  | .lonlat a b c, .lonlat a' b' c' => .ok (.lonlat (f a a') (f b b') (f c c'))
  | .lonCosLat a b c, .lonCosLat a' b' c' => .ok (.lonCosLat (f a a') (f b b') (f c c'))
  | .math a b c, .math a' b' c' => .ok (.math (f a a') (f b b') (f c c'))
  | .prolate a b c, .prolate a' b' c' => .ok (.prolate (f a a') (f b b') (f c c'))
  | _, _ => .error .mismatch

/-- the unit tangents of a position class, in field order: the standard basis that
`jax.jacfwd` pushes forward (`Delta` is also a leaf; its column is dropped by `AttrFilter`,
`_src/vectors/transform/velocities.py` 143) -/
noncomputable def Kind.basis : Kind → List (Vel ℝ)
  | .cart1 => [.cart1 1]
  | .radial => [.radial 1]
  | .cart2 => [.cart2 1 0, .cart2 0 1]
  | .polar => [.polar 1 0, .polar 0 1]
  | .twoSphere => [.twoSphere 1 0, .twoSphere 0 1]
  | .cart3 => [.cart3 1 0 0, .cart3 0 1 0, .cart3 0 0 1]
  | .cyl => [.cyl 1 0 0, .cyl 0 1 0, .cyl 0 0 1]
  | .sph => [.sph 1 0 0, .sph 0 1 0, .sph 0 0 1]
  | .lonlat => [.lonlat 1 0 0, .lonlat 0 1 0, .lonlat 0 0 1]
  | .math => [.math 1 0 0, .math 0 1 0, .math 0 0 1]
  | .prolate => [.prolate 1 0 0, .prolate 0 1 0, .prolate 0 0 1]

/-- a constant (zero tangent) -/
def Dual.const (x : ℝ) : Dual := ⟨x, 0⟩

/-- stored distance with a tangent -/
def Dist.seed : Dist ℝ → ℝ → Dist Dual
  | .dist d, t => .dist ⟨d, t⟩
  | .par d, t => .par ⟨d, t⟩
  | .dm d, t => .dm ⟨d, t⟩

/-- Attach a tangent to every coordinate field of a position (`jax.jvp` argument); `Delta` gets
the zero tangent. -/
def Pos.seed : Pos ℝ → Vel ℝ → Res (Pos Dual)
  | .cart1 x, .cart1 a => .ok (.cart1 ⟨x, a⟩)
  | .radial r, .radial a => .ok (.radial (r.seed a))
  | .cart2 x y, .cart2 a b => .ok (.cart2 ⟨x, a⟩ ⟨y, b⟩)
  | .polar r phi, .polar a b => .ok (.polar (r.seed a) ⟨phi, b⟩)
  | .twoSphere theta phi, .twoSphere a b => .ok (.twoSphere ⟨theta, a⟩ ⟨phi, b⟩)
  | .cart3 x y z, .cart3 a b c => .ok (.cart3 ⟨x, a⟩ ⟨y, b⟩ ⟨z, c⟩)
  | .cyl rho phi z, .cyl a b c => .ok (.cyl ⟨rho, a⟩ ⟨phi, b⟩ ⟨z, c⟩)
  | .sph r theta phi, .sph a b c => .ok (.sph (r.seed a) ⟨theta, b⟩ ⟨phi, c⟩)
  | .lonlat lon lat d, .lonlat a b c => .ok (.lonlat ⟨lon, a⟩ ⟨lat, b⟩ (d.seed c))
  | .math r theta phi, .math a b c => .ok (.math (r.seed a) ⟨theta, b⟩ ⟨phi, c⟩)
  | .prolate mu nu phi delta, .prolate a b c =>
    .ok (.prolate ⟨mu, a⟩ ⟨nu, b⟩ ⟨phi, c⟩ (Dual.const delta))
  | _, _ => .error .mismatch

/-- tangent of a distance field whose target unit is a length; a `Parallax` or `DistanceModulus`
row has the wrong unit for the velocity's field -/
def Dist.tangent : Dist Dual → Res ℝ
  | .dist d => .ok d.du
  | _ => .error .units

/-- One column of the Jacobian: the tangents of the coordinate fields, as fields `d_k` of the
target velocity class (`_src/vectors/transform/velocities.py` 140-146; `Delta` dropped). -/
def Pos.tangent : Pos Dual → Res (Vel ℝ)
  | .cart1 x => .ok (.cart1 x.du)
  | .radial r => do return .radial (← r.tangent)
  | .cart2 x y => .ok (.cart2 x.du y.du)
  | .polar r phi => do return .polar (← r.tangent) phi.du
  | .twoSphere theta phi => .ok (.twoSphere theta.du phi.du)
  | .cart3 x y z => .ok (.cart3 x.du y.du z.du)
  | .cyl rho phi z => .ok (.cyl rho.du phi.du z.du)
  | .sph r theta phi => do return .sph (← r.tangent) theta.du phi.du
  | .lonlat lon lat d => do return .lonlat lon.du lat.du (← d.tangent)
  | .math r theta phi => do return .math (← r.tangent) theta.du phi.du
  | .prolate mu nu phi _ => .ok (.prolate mu.du nu.du phi.du)

/-- keyword arguments are constants for the Jacobian (`partial(represent_as, **kwargs)`,
`velocities.py` 133) -/
def Kw.dual (kw : Kw ℝ) : Kw Dual where
  y := kw.y.map Dual.const
  z := kw.z.map Dual.const
  theta := kw.theta.map Dual.const
  phi := kw.phi.map Dual.const
  delta := kw.delta.map Dual.const

/-- `jac_rep_as(current_pos, target.integral_cls)` column by column (`velocities.py` 133-146) -/
noncomputable def jacobian (kw : Kw ℝ) (p : Pos ℝ) (k : Kind) : Res (List (Vel ℝ)) :=
  p.kind.basis.mapM fun e => do (← representAs kw.dual (← p.seed e) k).tangent

/-- `sum_j J_kj * v_j` for every row `k` (`velocities.py` 149-163): the velocity-valued columns
weighted with the components of the current velocity. -/
noncomputable def contract : List (Vel ℝ) → List ℝ → Res (Vel ℝ)
  | [c], [a] => .ok (c.map fun x => x * a)
  | c :: cs, a :: as => do Vel.map2 (fun x y => x + y) (c.map fun x => x * a) (← contract cs as)
  | _, _ => .error .badField

/-- `replace(current_pos, **{k: v.distance ...})` (`velocities.py` 118-125), which runs the constructor and its
checks again (an angle stays as it is). Without distance fields nothing changes. -/
def Pos.castDistance {α : Type} [Num α] : Pos α → Res (Pos α)
  | .radial r => do mkRadial (.dist (← r.distance))
  | .polar r phi => do mkPolar (.dist (← r.distance)) (.angle phi)
  | .sph r theta phi => do mkSph (.dist (← r.distance)) theta (.angle phi)
  | .lonlat lon lat d => do mkLonLat (.angle lon) lat (.dist (← d.distance))
  | .math r theta phi => do mkMath (.dist (← r.distance)) (.angle theta) phi
  | p => .ok p

/-- Conversions of a position of shape `(n,)` to a class of more dimensions that do not return arrays of shape
`(n,)` only: the added components are the rank-0 default or keyword argument (`transform/d1.py`, `transform/d2.py`;
the conversions to spherical classes are the exceptions: from one dimension they broadcast, from Cartesian 2-D they
go through `CartesianPos3D`), or `lax.select` rejects the shapes (`PolarPos` to spherical classes). Proved of the
array version in `Verif/BatchVel*.lean`. -/
def Kind.leavesRank0 : Kind → Kind → Bool
  | .cart1, .cart2 | .cart1, .polar | .cart1, .cart3 | .cart1, .cyl => true
  | .radial, .cart2 | .radial, .polar | .radial, .cart3 | .radial, .cyl => true
  | .cart2, .cart3 | .cart2, .cyl => true
  | .polar, .cart3 | .polar, .cyl | .polar, .sph | .polar, .math => true
  | _, _ => false

theorem leavesRank0_dim {a b : Kind} (h : a.leavesRank0 b = true) : a.dim < b.dim := by
  revert h; cases a <;> cases b <;> decide

/-- Generic same-dimension rule (`_src/vectors/transform/velocities.py` 27-167), after the dispatch.
The position is flattened to shape `(1,)` first (112), which matters for positions of fewer dimensions than the
velocity (`leavesRank0`).
`jax.vmap` maps axis 0 of every leaf of `current_pos` (134-135), but the `Delta` of a
`ProlateSpheroidalPos` is a rank-0 leaf that `reshape` does not touch (112-125,
`_src/vectors/base/base.py` 802-811), so a prolate spheroidal velocity as source always raises. -/
noncomputable def representVelGeneric (kw : Kw ℝ) (v : Vel ℝ) (k : VKind) (p : Pos ℝ) :
    Res (Vel ℝ) := do
  let cp ← representAs kw p v.kind.integral
  let cp ← cp.castDistance
  if cp.kind = .prolate ∨ p.kind.leavesRank0 v.kind.integral = true then throw .vmapRank
  let cols ← jacobian kw cp k.integral
  contract cols v.comps

/-- the classes with a rule "`current` is returned unchanged, the position does not matter":
`d3/transform.py` 100-180, `d2/transform.py` 39-52, `d1/transform.py` 48-60 -/
def VKind.selfRule : VKind → Bool
  | .twoSphere => false
  | _ => true

/-- latitude of a geographic position -/
def Pos.lat {α : Type} : Pos α → Res α
  | .lonlat _ lat _ => .ok lat
  | _ => .error .badField

/-- LonCosLatSphericalVel -> LonLatSphericalVel (`_src/vectors/d3/transform.py` 884-909) -/
noncomputable def lonCosLatToLonLat (a b c : ℝ) (p : Pos ℝ) : Res (Vel ℝ) := do
  let pv ← representAs {} p .lonlat
  let q ← Num.div a (Num.cos (← pv.lat))
  return .lonlat q b c

/-- `represent_as(current, LonLatSphericalVel, posvec)` for a current velocity that is not
`LonCosLatSphericalVel` (`_src/vectors/d3/transform.py` 870-871) -/
noncomputable def toLonLat (v : Vel ℝ) (p : Pos ℝ) : Res (Vel ℝ) :=
  if v.kind = .lonlat then .ok v else representVelGeneric {} v .lonlat p

/-- any other 3-D velocity -> LonCosLatSphericalVel (`_src/vectors/d3/transform.py` 828-881);
`represent_as(current, LonLatSphericalVel, posvec)` is called without keyword arguments. -/
noncomputable def toLonCosLat (v : Vel ℝ) (p : Pos ℝ) : Res (Vel ℝ) := do
  let w ← toLonLat v p
  match w with
  | .lonlat a b c =>
    let pv ← representAs {} p .lonlat
    return .lonCosLat (a * Num.cos (← pv.lat)) b c
  | _ => .error .badField

/-- `coordinax.represent_as(vel, target, position, **kw)` with `position` a vector. A length
`Quantity` as position is first read as a Cartesian vector (`velocities.py` 105-110) and is
not modelled separately. -/
noncomputable def representVel (kw : Kw ℝ) (v : Vel ℝ) (k : VKind) (p : Pos ℝ) : Res (Vel ℝ) :=
  if v.kind.dim ≠ k.dim then .error .noDispatch
  else if v.kind = k ∧ k.selfRule = true then .ok v
  else
    match v, k with
    -- `d3/transform.py` 884-909
    | .lonCosLat a b c, .lonlat => lonCosLatToLonLat a b c p
    -- `d3/transform.py` 912-931: through LonLatSphericalVel, keyword arguments dropped
    | .lonCosLat a b c, _ => do
      representVelGeneric {} (← lonCosLatToLonLat a b c p) k p
    -- `d3/transform.py` 828-881
    | _, .lonCosLat => toLonCosLat v p
    | _, _ => representVelGeneric kw v k p

/-- `CartesianVel1D.norm` (`_src/vectors/d1/cartesian.py` 188-200: `xp.abs(d_x)`),
`CartesianVel3D.norm` (`_src/vectors/d3/cartesian.py` 228-240). `CartesianVel2D` does not override
`AbstractVel.norm(position)` (`_src/vectors/base/base_vel.py` 132-135), so the inner call `.norm()`
without a position is a `TypeError`. -/
noncomputable def normCartVel : Vel ℝ → Res ℝ
  | .cart1 a => .ok (Num.abs a)
  | .cart3 a b c => Num.sqrt (a * a + b * b + c * c)
  | _ => .error .typeError

/-- `vel.norm(position)`: `CartesianVel1D` and `CartesianVel3D` ignore the position, all others
convert to the Cartesian class first (`_src/vectors/base/base_vel.py` 132-135). -/
noncomputable def normVel (v : Vel ℝ) (p : Pos ℝ) : Res ℝ :=
  match v with
  | .cart1 .. | .cart3 .. => normCartVel v
  | _ => do normCartVel (← representVel {} v v.kind.cartesian p)

end Verif
