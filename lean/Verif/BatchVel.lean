import Verif.Batch
import Verif.Acc

/-!
# Velocities and accelerations whose components are arrays

`represent_as(vel, target, position)` on arrays: `_src/vectors/transform/velocities.py` 100-167 flattens both
vectors, applies `jax.vmap` and reshapes; the rules for `LonCosLatSphericalVel` (`_src/vectors/d3/transform.py`
828-931) broadcast instead.

`jax.vmap(jax.jacfwd(represent_as))` runs the scalar conversion on each element, so here the scalar `jacobian` of
`Verif/Vel.lean` is applied to each element. Simplifications: an element whose computation meets NaN or infinity
becomes NaN in all components; an error raised while tracing (no such conversion, missing `Delta`) is raised by
the first element, so an empty batch, or one with NaN positions only, hides it; keyword arguments are scalars; a
`Delta` of two or more dimensions is rejected.
-/

namespace Verif

open Num

/-- scalar keyword arguments, as rank-0 arrays -/
def Kw.rank0 (kw : Kw ℝ) : Kw BArr where
  y := kw.y.map fun x => .scalar (some x)
  z := kw.z.map fun x => .scalar (some x)
  theta := kw.theta.map fun x => .scalar (some x)
  phi := kw.phi.map fun x => .scalar (some x)
  delta := kw.delta.map fun x => .scalar (some x)

/-- the coordinate fields, without the attribute `Delta` (`field_values(AttrFilter, vec)`) -/
def Pos.coords {α : Type} : Pos (Arr α) → List (Arr α)
  | .cart1 x => [x]
  | .radial r => [r.raw]
  | .cart2 x y => [x, y]
  | .polar r phi => [r.raw, phi]
  | .twoSphere theta phi => [theta, phi]
  | .cart3 x y z => [x, y, z]
  | .cyl rho phi z => [rho, phi, z]
  | .sph r theta phi => [r.raw, theta, phi]
  | .lonlat lon lat distance => [lon, lat, distance.raw]
  | .math r theta phi => [r.raw, theta, phi]
  | .prolate mu nu phi _ => [mu, nu, phi]

/-- all leaves of the pytree: the coordinate fields and `Delta` -/
def Pos.leaves {α : Type} : Pos (Arr α) → List (Arr α)
  | .prolate mu nu phi delta => [mu, nu, phi, delta]
  | p => p.coords

/-- `vec.shape` (`_src/vectors/base/base.py` 246-279) -/
def Pos.shapeB {α : Type} (P : Pos (Arr α)) : Res (List ℕ) := broadcastShapes (P.coords.map Arr.shape)

/-- a function of every coordinate field that may raise; `Delta` stays -/
def Pos.mapCoordsM (f : BArr → Res BArr) : Pos BArr → Res (Pos BArr)
  | .cart1 x => do return .cart1 (← f x)
  | .radial r => do return .radial (← r.mapRawM f)
  | .cart2 x y => do return .cart2 (← f x) (← f y)
  | .polar r phi => do return .polar (← r.mapRawM f) (← f phi)
  | .twoSphere theta phi => do return .twoSphere (← f theta) (← f phi)
  | .cart3 x y z => do return .cart3 (← f x) (← f y) (← f z)
  | .cyl rho phi z => do return .cyl (← f rho) (← f phi) (← f z)
  | .sph r theta phi => do return .sph (← r.mapRawM f) (← f theta) (← f phi)
  | .lonlat lon lat distance => do return .lonlat (← f lon) (← f lat) (← distance.mapRawM f)
  | .math r theta phi => do return .math (← r.mapRawM f) (← f theta) (← f phi)
  | .prolate mu nu phi delta => do return .prolate (← f mu) (← f nu) (← f phi) delta

/-- construct again: runs the checks (azimuths are `Angle`s by now and are not wrapped again) -/
noncomputable def Pos.rebuildB : Pos BArr → Res (Pos BArr)
  | .radial r => mkRadialB r
  | .polar r phi => mkPolarB r (.angle phi)
  | .twoSphere theta phi => do
    checkRangeB theta (bnat 0) bpi
    return .twoSphere theta phi
  | .cyl rho phi z => mkCylB rho (.angle phi) z
  | .sph r theta phi => mkSphB r theta (.angle phi)
  | .lonlat lon lat distance => mkLonLatB (.angle lon) lat distance
  | .math r theta phi => mkMathB r (.angle theta) phi
  | .prolate mu nu phi delta => mkProlateB mu nu (.angle phi) delta
  | p => .ok p

/-- `vec.reshape(*t)` (`_src/vectors/base/base.py` 768-810): `full_shaped`, then componentwise, each time
`replace(vec, **{k: f(v) for k, v in field_items(AttrFilter, vec)})`. `Delta` stays. -/
noncomputable def Pos.reshapeB (t : List ℕ) (P : Pos BArr) : Res (Pos BArr) := do
  let s ← P.shapeB
  let F ← P.mapCoordsM fun a => .ok (a.broadcastTo s)
  let F ← F.rebuildB
  let G ← F.mapCoordsM fun a => a.gather (planReshape (t.map some))
  G.rebuildB

/-- a function of every field that may raise -/
def Vel.mapM {m : Type → Type} [Monad m] {α β : Type} (f : α → m β) : Vel α → m (Vel β)
  | .cart1 a => do return .cart1 (← f a)
  | .radial a => do return .radial (← f a)
  | .cart2 a b => do return .cart2 (← f a) (← f b)
  | .polar a b => do return .polar (← f a) (← f b)
  | .twoSphere a b => do return .twoSphere (← f a) (← f b)
  | .cart3 a b c => do return .cart3 (← f a) (← f b) (← f c)
  | .cyl a b c => do return .cyl (← f a) (← f b) (← f c)
  | .sph a b c => do return .sph (← f a) (← f b) (← f c)
  | .lonlat a b c => do return .lonlat (← f a) (← f b) (← f c)
  | .lonCosLat a b c => do return .lonCosLat (← f a) (← f b) (← f c)
  | .math a b c => do return .math (← f a) (← f b) (← f c)
  | .prolate a b c => do return .prolate (← f a) (← f b) (← f c)

/-- `vel.shape` -/
def Vel.shapeB {α : Type} (V : Vel (Arr α)) : Res (List ℕ) := broadcastShapes (V.comps.map Arr.shape)

/-- `vel.reshape(*t)` (768-810); the constructors of velocities check units only -/
def Vel.reshapeB {α : Type} (t : List ℕ) (V : Vel (Arr α)) : Res (Vel (Arr α)) := do
  let s ← V.shapeB
  (V.map fun a => a.broadcastTo s).mapM fun a => a.gather (planReshape (t.map some))

/-- one element of a velocity; `none` if one of its components is NaN -/
def Vel.elem (i : List ℕ) (V : Vel BArr) : Option (Vel ℝ) := V.mapM fun a => a.elem i

/-- one element of a distance -/
def Dist.elemO (i : List ℕ) : Dist BArr → Option (Dist ℝ)
  | .dist a => (a.elem i).map .dist
  | .par a => (a.elem i).map .par
  | .dm a => (a.elem i).map .dm

/-- one element of a position; `none` if one of its leaves is NaN -/
def Pos.elemO (i : List ℕ) : Pos BArr → Option (Pos ℝ)
  | .cart1 x => do return .cart1 (← x.elem i)
  | .radial r => do return .radial (← r.elemO i)
  | .cart2 x y => do return .cart2 (← x.elem i) (← y.elem i)
  | .polar r phi => do return .polar (← r.elemO i) (← phi.elem i)
  | .twoSphere theta phi => do return .twoSphere (← theta.elem i) (← phi.elem i)
  | .cart3 x y z => do return .cart3 (← x.elem i) (← y.elem i) (← z.elem i)
  | .cyl rho phi z => do return .cyl (← rho.elem i) (← phi.elem i) (← z.elem i)
  | .sph r theta phi => do return .sph (← r.elemO i) (← theta.elem i) (← phi.elem i)
  | .lonlat lon lat distance => do return .lonlat (← lon.elem i) (← lat.elem i) (← distance.elemO i)
  | .math r theta phi => do return .math (← r.elemO i) (← theta.elem i) (← phi.elem i)
  | .prolate mu nu phi delta =>
    do return .prolate (← mu.elem i) (← nu.elem i) (← phi.elem i) (← delta.elem i)

/-- as `Pos.castDistance`, on arrays (`velocities.py` 118-125) -/
noncomputable def Pos.castDistanceB : Pos BArr → Res (Pos BArr)
  | .radial r => do mkRadialB (.dist (← r.distanceB))
  | .polar r phi => do mkPolarB (.dist (← r.distanceB)) (.angle phi)
  | .sph r theta phi => do mkSphB (.dist (← r.distanceB)) theta (.angle phi)
  | .lonlat lon lat d => do mkLonLatB (.angle lon) lat (.dist (← d.distanceB))
  | .math r theta phi => do mkMathB (.dist (← r.distanceB)) (.angle theta) phi
  | p => .ok p

/-- One element of the flat batch (133-163): Jacobian at the position, applied to the velocity. -/
noncomputable def velElem (kw : Kw ℝ) (k : Kind) (p : Option (Pos ℝ)) (v : Option (Vel ℝ)) :
    Res (Option (Vel ℝ)) :=
  match p with
  | none => .ok none
  | some p =>
    match jacobian kw p k with
    | .error .nonFinite => .ok none
    | .error e => .error e
    | .ok J =>
      match v with
      | none => .ok none
      | some v => do return some (← contract J v.comps)

/-- a velocity of class `k` from its fields -/
def VKind.build {α : Type} (k : VKind) (g : ℕ → α) : Vel α :=
  match k with
  | .cart1 => .cart1 (g 0)
  | .radial => .radial (g 0)
  | .cart2 => .cart2 (g 0) (g 1)
  | .polar => .polar (g 0) (g 1)
  | .twoSphere => .twoSphere (g 0) (g 1)
  | .cart3 => .cart3 (g 0) (g 1) (g 2)
  | .cyl => .cyl (g 0) (g 1) (g 2)
  | .sph => .sph (g 0) (g 1) (g 2)
  | .lonlat => .lonlat (g 0) (g 1) (g 2)
  | .lonCosLat => .lonCosLat (g 0) (g 1) (g 2)
  | .math => .math (g 0) (g 1) (g 2)
  | .prolate => .prolate (g 0) (g 1) (g 2)

/-- `target(**{...})` (150-163): fields of shape `(n,)` -/
def velOfElems (k : VKind) (l : List (Option (Vel ℝ))) : Vel BArr :=
  k.build fun j => ⟨[l.length], fun idx => (l[ravelIdx [l.length] idx]?.join).bind fun w => w.comps[j]?⟩

/-- `jax.vmap(..., in_axes=(0, None))`: axis 0 of every leaf of the position, `Delta` included -/
def vmapOk (n : ℕ) (P : Pos BArr) : Res Unit :=
  if P.leaves.all (fun a => decide (a.shape = [n])) then .ok () else .error .vmapRank

/-- the generic rule (`velocities.py` 100-167) on arrays -/
noncomputable def representVelGenericB (kw : Kw ℝ) (V : Vel BArr) (k : VKind) (P : Pos BArr) :
    Res (Vel BArr) := do
  let s ← V.shapeB
  let P1 ← P.reshapeB [s.prod]
  let cp ← representAsB kw.rank0 P1 V.kind.integral
  let cp ← cp.castDistanceB
  vmapOk s.prod cp
  let F ← V.reshapeB [s.prod]
  let l ← (List.range s.prod).mapM fun i => velElem kw k.integral (cp.elemO [i]) (F.elem [i])
  (velOfElems k l).reshapeB s

/-- LonCosLatSphericalVel -> LonLatSphericalVel (`_src/vectors/d3/transform.py` 884-909) on arrays -/
noncomputable def lonCosLatToLonLatB (a b c : BArr) (P : Pos BArr) : Res (Vel BArr) := do
  let pv ← representAsB {} P .lonlat
  let lat ← pv.lat
  let q ← bdiv a (bcos lat)
  return .lonlat q b c

/-- as `toLonLat`, on arrays -/
noncomputable def toLonLatB (V : Vel BArr) (P : Pos BArr) : Res (Vel BArr) :=
  if V.kind = .lonlat then .ok V else representVelGenericB {} V .lonlat P

/-- any other 3-D velocity -> LonCosLatSphericalVel (828-881) on arrays -/
noncomputable def toLonCosLatB (V : Vel BArr) (P : Pos BArr) : Res (Vel BArr) := do
  let W ← toLonLatB V P
  match W with
  | .lonlat a b c => do
    let pv ← representAsB {} P .lonlat
    let lat ← pv.lat
    let q ← bmul a (bcos lat)
    return .lonCosLat q b c
  | _ => .error .badField

/-- `coordinax.represent_as(vel, target, position, **kw)` on arrays; same rules as `representVel` -/
noncomputable def representVelB (kw : Kw ℝ) (V : Vel BArr) (k : VKind) (P : Pos BArr) : Res (Vel BArr) :=
  if V.kind.dim ≠ k.dim then .error .noDispatch
  else if V.kind = k ∧ k.selfRule = true then .ok V
  else
    match V, k with
    | .lonCosLat a b c, .lonlat => lonCosLatToLonLatB a b c P
    | .lonCosLat a b c, _ => do
      let W ← lonCosLatToLonLatB a b c P
      representVelGenericB {} W k P
    | _, .lonCosLat => toLonCosLatB V P
    | _, _ => representVelGenericB kw V k P

/-- the generic rule for accelerations on arrays (`_src/vectors/transform/accelerations.py` 120-199): as for
velocities, with the velocity flattened and converted as well, and the Jacobian without keyword arguments. The rows
and columns of the Jacobian include `Delta` (171-177), which an acceleration does not have: a prolate source or
target raises. -/
noncomputable def representAccGenericB (kw : Kw ℝ) (A : Acc BArr) (k : VKind) (V : Vel BArr) (P : Pos BArr) :
    Res (Acc BArr) := do
  let s ← A.shapeB
  let P1 ← P.reshapeB [s.prod]
  let V1 ← V.reshapeB [s.prod]
  let cp ← representAsB kw.rank0 P1 A.kind.integral
  let cp ← cp.castDistanceB
  let _ ← representVelB kw V1 A.kind cp
  vmapOk s.prod cp
  if A.kind = .prolate ∨ k = .prolate then .error .attribute
  else do
    let F ← A.reshapeB [s.prod]
    let l ← (List.range s.prod).mapM fun i => velElem {} k.integral (cp.elemO [i]) (F.elem [i])
    (velOfElems k l).reshapeB s

/-- `coordinax.represent_as(acc, target, velocity, position, **kw)` on arrays -/
noncomputable def representAccB (kw : Kw ℝ) (A : Acc BArr) (k : VKind) (V : Vel BArr) (P : Pos BArr) :
    Res (Acc BArr) :=
  if A.kind.dim ≠ k.dim ∨ A.kind = .lonCosLat ∨ k = .lonCosLat then .error .noDispatch
  else if A.kind = k ∧ k.dim = 1 then .ok A
  else representAccGenericB kw A k V P

end Verif
