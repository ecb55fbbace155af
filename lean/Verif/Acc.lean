import Verif.Vel

/-!
# Accelerations and time integrals

`coordinax.represent_as(acc, target, velocity, position)`, `vel * time`, `acc * time`, `acc * time**2`.
-/

namespace Verif

open Num

/-- Acceleration vectors have the same shape as velocity vectors, with fields `d2_k` in place of
`d_k` (`CartesianAcc1D`, `RadialAcc`, `CartesianAcc2D`, `PolarAcc`, `TwoSphereAcc`, `CartesianAcc3D`,
`CylindricalAcc`, `SphericalAcc`, `LonLatSphericalAcc`, `MathSphericalAcc`, `ProlateSpheroidalAcc`;
`_src/vectors/d{1,2,3}/*.py`). There is no acceleration class for `lonCosLat`. -/
abbrev Acc := Vel

/-- Generic rule, `_src/vectors/transform/accelerations.py` 25-203. The velocity is converted
(158), which may raise, and not used. The Jacobian is taken of `represent_as` without the keyword
arguments (166, 203). `jax.vmap` over the rank-0 `Delta` of a prolate position raises, as for
velocities. -/
noncomputable def representAccGeneric (kw : Kw ℝ) (a : Acc ℝ) (k : VKind) (v : Vel ℝ) (p : Pos ℝ) :
    Res (Acc ℝ) := do
  let cp ← representAs kw p a.kind.integral
  let cp ← cp.castDistance
  let _ ← representVel kw v a.kind cp
  if cp.kind = .prolate ∨ p.kind.leavesRank0 a.kind.integral = true then throw .vmapRank
  let cols ← jacobian {} cp k.integral
  contract cols a.comps

/-- `coordinax.represent_as(acc, target, velocity, position, **kw)`. One-dimensional self
conversions have their own rule (`_src/vectors/d1/transform.py` 75-94), everything else goes
through the generic rule. -/
noncomputable def representAcc (kw : Kw ℝ) (a : Acc ℝ) (k : VKind) (v : Vel ℝ) (p : Pos ℝ) :
    Res (Acc ℝ) :=
  if a.kind.dim ≠ k.dim ∨ a.kind = .lonCosLat ∨ k = .lonCosLat then .error .noDispatch
  else if a.kind = k ∧ k.dim = 1 then .ok a
  else representAccGeneric kw a k v p

section
variable {α : Type} [Num α]

/-- `vel * time` (`_src/vectors/base/base_vel.py` 141-162):
`integral_cls.from_({k[2:]: v * time})`, i.e. the constructor with field `k` from field `d_k`.
`LonCosLatSphericalVel` gives an unknown field `lon_coslat`, `ProlateSpheroidalVel` lacks the
argument `Delta`. -/
def velTimes : Vel α → α → Res (Pos α)
  | .cart1 a, t => mkCart1 (a * t)
  | .radial a, t => mkRadial (.dist (a * t))
  | .cart2 a b, t => mkCart2 (a * t) (b * t)
  | .polar a b, t => mkPolar (.dist (a * t)) (.qty (b * t))
  | .twoSphere a b, t => mkTwoSphere (a * t) (.qty (b * t))
  | .cart3 a b c, t => mkCart3 (a * t) (b * t) (c * t)
  | .cyl a b c, t => mkCyl (a * t) (.qty (b * t)) (c * t)
  | .sph a b c, t => mkSph (.dist (a * t)) (b * t) (.qty (c * t))
  | .lonlat a b c, t => mkLonLat (.qty (a * t)) (b * t) (.dist (c * t))
  | .lonCosLat _ _ _, _ => .error .badField
  | .math a b c, t => mkMath (.dist (a * t)) (.qty (b * t)) (c * t)
  | .prolate _ _ _, _ => .error .missingDelta

/-- `acc * time` (`_src/vectors/base/base_acc.py` 126-150): field `d_k` from field `d2_k`. -/
def accTimes (a : Acc α) (t : α) : Vel α := a.map fun x => x * t

/-- `acc * time**2` (`_src/vectors/base/base_acc.py` 174-198): field `k` from field `d2_k`. -/
def accTimes2 (a : Acc α) (t2 : α) : Res (Pos α) := velTimes a t2

end

end Verif
