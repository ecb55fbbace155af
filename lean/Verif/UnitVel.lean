import Verif.UnitRep

/-!
# Velocities and accelerations whose components carry units

`coordinax.represent_as(vel, target, position)` and `coordinax.represent_as(acc, target, velocity, position)` on
quantities with units: `_src/vectors/transform/{velocities,accelerations}.py`, `_src/vectors/d3/transform.py` 828-931.
`jax.jacfwd` differentiates the stored values, whatever their units; the code then attaches the unit of the row over
the unit of the column.
-/

namespace Verif

open Num

noncomputable section

/-- the physical type after `n` time derivatives -/
def perTime (n : ℕ) (d : RDim) : RDim := d.div { time := n }

/-- Physical types of the fields of the positions that a velocity class differentiates. -/
def VKind.fieldDims : VKind → List RDim
  | .cart1 => [RUnit.au.dim]
  | .radial => [RUnit.au.dim]
  | .cart2 => [RUnit.au.dim, RUnit.au.dim]
  | .polar => [RUnit.au.dim, RUnit.rad.dim]
  | .twoSphere => [RUnit.rad.dim, RUnit.rad.dim]
  | .cart3 => [RUnit.au.dim, RUnit.au.dim, RUnit.au.dim]
  | .cyl => [RUnit.au.dim, RUnit.rad.dim, RUnit.au.dim]
  | .sph => [RUnit.au.dim, RUnit.rad.dim, RUnit.rad.dim]
  | .lonlat => [RUnit.rad.dim, RUnit.rad.dim, RUnit.au.dim]
  | .lonCosLat => [RUnit.rad.dim, RUnit.rad.dim, RUnit.au.dim]
  | .math => [RUnit.au.dim, RUnit.rad.dim, RUnit.rad.dim]
  | .prolate => [RUnit.au.dim.mul RUnit.au.dim, RUnit.au.dim.mul RUnit.au.dim, RUnit.rad.dim]

/-- Constructor of a velocity (`n = 1`) or acceleration (`n = 2`) class: the field converters
`Quantity["speed"].from_`, `["angular speed"]`, `["diffusivity"]`; `["acceleration"]`, `["angular acceleration"]`,
`["specific energy"]` raise for another physical type (`d1/cartesian.py` 171, 270, `d1/radial.py` 45, 68,
`d2/cartesian.py` 168-176, 271-279, `d2/polar.py` 102-135, `d2/spherical.py` 138-146, 205-213, `d3/cartesian.py`
201-214, 316-329, `d3/cylindrical.py` 86-99, 116-129, `d3/spherical.py`, `d3/lonlatspherical.py` 252-, `d3/mathspherical.py`,
`d3/spheroidal.py` 132-145, 162-175). -/
def mkVelU (n : ℕ) (v : Vel (UQ ℝ)) : Res (Vel (UQ ℝ)) :=
  if v.comps.map (fun q => q.unit.dim) = v.kind.fieldDims.map (perTime n) then .ok v else .error .units

/-- the stored value with a tangent -/
def UQ.seed (q : UQ ℝ) (t : ℝ) : UQ Dual := ⟨⟨q.value, t⟩, q.unit⟩

/-- a distance with a tangent -/
def Dist.seedU : Dist (UQ ℝ) → ℝ → Dist (UQ Dual)
  | .dist d, t => .dist (d.seed t)
  | .par d, t => .par (d.seed t)
  | .dm d, t => .dm (d.seed t)

/-- `jax.jvp` argument: a tangent for every stored value (`velocities.py` 134-135) -/
def Pos.seedU : Pos (UQ ℝ) → Vel ℝ → Res (Pos (UQ Dual))
  | .cart1 x, .cart1 a => .ok (.cart1 (x.seed a))
  | .radial r, .radial a => .ok (.radial (r.seedU a))
  | .cart2 x y, .cart2 a b => .ok (.cart2 (x.seed a) (y.seed b))
  | .polar r phi, .polar a b => .ok (.polar (r.seedU a) (phi.seed b))
  | .twoSphere theta phi, .twoSphere a b => .ok (.twoSphere (theta.seed a) (phi.seed b))
  | .cart3 x y z, .cart3 a b c => .ok (.cart3 (x.seed a) (y.seed b) (z.seed c))
  | .cyl rho phi z, .cyl a b c => .ok (.cyl (rho.seed a) (phi.seed b) (z.seed c))
  | .sph r theta phi, .sph a b c => .ok (.sph (r.seedU a) (theta.seed b) (phi.seed c))
  | .lonlat lon lat d, .lonlat a b c => .ok (.lonlat (lon.seed a) (lat.seed b) (d.seedU c))
  | .math r theta phi, .math a b c => .ok (.math (r.seedU a) (theta.seed b) (phi.seed c))
  | .prolate mu nu phi delta, .prolate a b c =>
    .ok (.prolate (mu.seed a) (nu.seed b) (phi.seed c) (delta.seed 0))
  | _, _ => .error .mismatch

/-- units of the coordinate fields: the columns of the Jacobian -/
def Pos.columnUnits : Pos (UQ ℝ) → List RUnit
  | .cart1 x => [x.unit]
  | .radial r => [r.raw.unit]
  | .cart2 x y => [x.unit, y.unit]
  | .polar r phi => [r.raw.unit, phi.unit]
  | .twoSphere theta phi => [theta.unit, phi.unit]
  | .cart3 x y z => [x.unit, y.unit, z.unit]
  | .cyl rho phi z => [rho.unit, phi.unit, z.unit]
  | .sph r theta phi => [r.raw.unit, theta.unit, phi.unit]
  | .lonlat lon lat d => [lon.unit, lat.unit, d.raw.unit]
  | .math r theta phi => [r.raw.unit, theta.unit, phi.unit]
  | .prolate mu nu phi _ => [mu.unit, nu.unit, phi.unit]

/-- `u.Quantity(vv.value, unit=v.unit / vv.unit)` (`velocities.py` 142) -/
def UQ.row (col : RUnit) (q : UQ Dual) : UQ ℝ := ⟨q.value.du, q.unit.div col⟩

/-- the row of a distance field; one that is no length makes the constructor of the target raise
(simplification: here, not after the contraction) -/
def Dist.rowU (col : RUnit) : Dist (UQ Dual) → Res (UQ ℝ)
  | .dist d => .ok (d.row col)
  | _ => .error .units

/-- one column of the Jacobian, as fields of the target class (`velocities.py` 140-146) -/
def Pos.columnU (col : RUnit) : Pos (UQ Dual) → Res (Vel (UQ ℝ))
  | .cart1 x => .ok (.cart1 (x.row col))
  | .radial r => do return .radial (← r.rowU col)
  | .cart2 x y => .ok (.cart2 (x.row col) (y.row col))
  | .polar r phi => do return .polar (← r.rowU col) (phi.row col)
  | .twoSphere theta phi => .ok (.twoSphere (theta.row col) (phi.row col))
  | .cart3 x y z => .ok (.cart3 (x.row col) (y.row col) (z.row col))
  | .cyl rho phi z => .ok (.cyl (rho.row col) (phi.row col) (z.row col))
  | .sph r theta phi => do return .sph (← r.rowU col) (theta.row col) (phi.row col)
  | .lonlat lon lat d => do return .lonlat (lon.row col) (lat.row col) (← d.rowU col)
  | .math r theta phi => do return .math (← r.rowU col) (theta.row col) (phi.row col)
  | .prolate mu nu phi _ => .ok (.prolate (mu.row col) (nu.row col) (phi.row col))

/-- keyword arguments are constants (`velocities.py` 133) -/
def Kw.dualU (kw : Kw (UQ ℝ)) : Kw (UQ Dual) where
  y := kw.y.map fun q => q.seed 0
  z := kw.z.map fun q => q.seed 0
  theta := kw.theta.map fun q => q.seed 0
  phi := kw.phi.map fun q => q.seed 0
  delta := kw.delta.map fun q => q.seed 0

/-- `jac_rows`, column by column (`velocities.py` 133-146) -/
def jacobianU (kw : Kw (UQ ℝ)) (p : Pos (UQ ℝ)) (k : Kind) : Res (List (Vel (UQ ℝ))) :=
  (p.kind.basis.zip p.columnUnits).mapM fun e => do
    (← representAsU kw.dualU (← p.seedU e.1) k).columnU e.2

/-- fieldwise operation that may raise, on two vectors of the same class -/
def Vel.map2M {α : Type} (f : α → α → Res α) : Vel α → Vel α → Res (Vel α)
  | .cart1 a, .cart1 a' => do return .cart1 (← f a a')
  | .radial a, .radial a' => do return .radial (← f a a')
  | .cart2 a b, .cart2 a' b' => do return .cart2 (← f a a') (← f b b')
  | .polar a b, .polar a' b' => do return .polar (← f a a') (← f b b')
  | .twoSphere a b, .twoSphere a' b' => do return .twoSphere (← f a a') (← f b b')
  | .cart3 a b c, .cart3 a' b' c' => do return .cart3 (← f a a') (← f b b') (← f c c')
  | .cyl a b c, .cyl a' b' c' => do return .cyl (← f a a') (← f b b') (← f c c')
  | .sph a b c, .sph a' b' c' => do return .sph (← f a a') (← f b b') (← f c c')
  | .lonlat a b c, .lonlat a' b' c' => do return .lonlat (← f a a') (← f b b') (← f c c')
  | .lonCosLat a b c, .lonCosLat a' b' c' => do return .lonCosLat (← f a a') (← f b b') (← f c c')
  | .math a b c, .math a' b' c' => do return .math (← f a a') (← f b b') (← f c c')
  | .prolate a b c, .prolate a' b' c' => do return .prolate (← f a a') (← f b b') (← f c c')
  | _, _ => .error .mismatch

/-- `jnp.sum(jnp.stack((j_c * d_c, ...)))` for every row (`velocities.py` 149-163): `stack` converts to the unit of
the first term. The sum is taken from the right, as in `contract`. -/
def contractU : List (Vel (UQ ℝ)) → List (UQ ℝ) → Res (Vel (UQ ℝ))
  | [c], [a] => .ok (c.map fun x => x.mul a)
  | c :: cs, a :: as => do Vel.map2M UQ.add (c.map fun x => x.mul a) (← contractU cs as)
  | _, _ => .error .badField

/-- `replace(current_pos, **{k: v.distance ...})` (`velocities.py` 118-125) -/
def Pos.castDistanceU {α : Type} [CNum α] : Pos (UQ α) → Res (Pos (UQ α))
  | .radial r => do mkRadialU (.dist (← r.distanceU))
  | .polar r phi => do mkPolarU (.dist (← r.distanceU)) (.angle phi)
  | .sph r theta phi => do mkSphU (.dist (← r.distanceU)) theta (.angle phi)
  | .lonlat lon lat d => do mkLonLatU (.angle lon) lat (.dist (← d.distanceU))
  | .math r theta phi => do mkMathU (.dist (← r.distanceU)) (.angle theta) phi
  | p => .ok p

/-- generic rule for velocities (`velocities.py` 27-167; see `representVelGeneric` for the rank-0 failures) -/
def representVelGenericU (kw : Kw (UQ ℝ)) (v : Vel (UQ ℝ)) (k : VKind) (p : Pos (UQ ℝ)) : Res (Vel (UQ ℝ)) := do
  let cp ← representAsU kw p v.kind.integral
  let cp ← cp.castDistanceU
  if cp.kind = .prolate ∨ p.kind.leavesRank0 v.kind.integral = true then .error .vmapRank else
  let cols ← jacobianU kw cp k.integral
  mkVelU 1 (← contractU cols v.comps)

/-- LonCosLatSphericalVel -> LonLatSphericalVel (`d3/transform.py` 884-909) -/
def lonCosLatToLonLatU (a b c : UQ ℝ) (p : Pos (UQ ℝ)) : Res (Vel (UQ ℝ)) := do
  let pv ← representAsU {} p .lonlat
  let co ← (← pv.lat).cos
  let q ← a.div co
  mkVelU 1 (.lonlat q b c)

/-- `represent_as(current, LonLatSphericalVel, posvec)` (`d3/transform.py` 870-871) -/
def toLonLatU (v : Vel (UQ ℝ)) (p : Pos (UQ ℝ)) : Res (Vel (UQ ℝ)) :=
  if v.kind = .lonlat then .ok v else representVelGenericU {} v .lonlat p

/-- any other 3-D velocity -> LonCosLatSphericalVel (`d3/transform.py` 828-881) -/
def toLonCosLatU (v : Vel (UQ ℝ)) (p : Pos (UQ ℝ)) : Res (Vel (UQ ℝ)) := do
  let w ← toLonLatU v p
  match w with
  | .lonlat a b c => do
    let pv ← representAsU {} p .lonlat
    let co ← (← pv.lat).cos
    mkVelU 1 (.lonCosLat (a.mul co) b c)
  | _ => .error .badField

/-- `coordinax.represent_as(vel, target, position, **kw)`: rules and line numbers of `representVel`
(`Verif/Vel.lean`) -/
def representVelU (kw : Kw (UQ ℝ)) (v : Vel (UQ ℝ)) (k : VKind) (p : Pos (UQ ℝ)) : Res (Vel (UQ ℝ)) :=
  if v.kind.dim ≠ k.dim then .error .noDispatch
  else if v.kind = k ∧ k.selfRule = true then .ok v
  else
    match v, k with
    | .lonCosLat a b c, .lonlat => lonCosLatToLonLatU a b c p
    | .lonCosLat a b c, _ => do representVelGenericU {} (← lonCosLatToLonLatU a b c p) k p
    | _, .lonCosLat => toLonCosLatU v p
    | _, _ => representVelGenericU kw v k p

/-- generic rule for accelerations (`accelerations.py` 25-203) -/
def representAccGenericU (kw : Kw (UQ ℝ)) (a : Acc (UQ ℝ)) (k : VKind) (v : Vel (UQ ℝ)) (p : Pos (UQ ℝ)) :
    Res (Acc (UQ ℝ)) := do
  let cp ← representAsU kw p a.kind.integral
  let cp ← cp.castDistanceU
  let _ ← representVelU kw v a.kind cp
  if cp.kind = .prolate ∨ p.kind.leavesRank0 a.kind.integral = true then .error .vmapRank else
  let cols ← jacobianU {} cp k.integral
  mkVelU 2 (← contractU cols a.comps)

/-- `coordinax.represent_as(acc, target, velocity, position, **kw)`: rules of `representAcc` (`Verif/Acc.lean`) -/
def representAccU (kw : Kw (UQ ℝ)) (a : Acc (UQ ℝ)) (k : VKind) (v : Vel (UQ ℝ)) (p : Pos (UQ ℝ)) :
    Res (Acc (UQ ℝ)) :=
  if a.kind.dim ≠ k.dim ∨ a.kind = .lonCosLat ∨ k = .lonCosLat then .error .noDispatch
  else if a.kind = k ∧ k.dim = 1 then .ok a
  else representAccGenericU kw a k v p

end

end Verif
