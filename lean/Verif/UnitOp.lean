import Verif.UnitVel
import Verif.UnitArith
import Verif.Op

/-!
# Operators on vectors whose components carry units

The rules of `Verif/Op.lean` (`_src/operators`) once more, with a unit per component: `GalileanRotation` works on one Quantity
in the unit of `x`, `+` of 3-D positions converts, `+` of velocities and of positions of fewer dimensions maps over the stored
values and raises when the units of the two operands differ (see `Verif/UnitArith.lean`).
-/

namespace Verif

open Num

noncomputable section

/-- `FourVector` with units (`_src/vectors/d4/spacetime.py` 81-93) -/
structure FourU where
  t : UQ ℝ
  q : Pos (UQ ℝ)
  c : UQ ℝ

/-- `u.unit("km / s")`, in astronomical units per second -/
def RUnit.kms : RUnit := ⟨{ len := 1, time := -1 }, 1 / 149597870.7, by positivity⟩

/-- default of the field `c`: `Quantity(299_792.458, "km/s")` (`d4/spacetime.py` 90-92) -/
def lightSpeedU : UQ ℝ := ⟨299792.458, .kms⟩

/-- Operators; see `Op` (`Verif/Op.lean`) for the classes. -/
inductive OpU where
  | identity
  | rotation (R : Mat3)
  | spatial (d : Pos (UQ ℝ))
  | translation (d : FourU)
  | boost (v : Vel (UQ ℝ))
  | vboost (v : Vel (UQ ℝ))
  | galilean (R : Mat3) (d : FourU) (v : Vel (UQ ℝ))
  | pipe (ops : List OpU)

/-- Argument tuples of `op(...)`. -/
inductive ArgU where
  | pos (q : Pos (UQ ℝ))
  | posTime (q : Pos (UQ ℝ)) (t : UQ ℝ)
  | four (x : FourU)
  | posVel (q : Pos (UQ ℝ)) (p : Vel (UQ ℝ))
  | vel (p : Vel (UQ ℝ))

/-- `CartesianPos3D.from_(vec_matmul(R, vec))` for a Quantity of three values (`galilean/rotation.py` 28, 288) -/
def matApplyU (R : Mat3) (w : QRow) : Res (Pos (UQ ℝ)) :=
  match w.values with
  | [x, y, z] => mkCart3U ⟨R 0 0 * x + R 0 1 * y + R 0 2 * z, w.unit⟩ ⟨R 1 0 * x + R 1 1 * y + R 1 2 * z, w.unit⟩
      ⟨R 2 0 * x + R 2 1 * y + R 2 2 * z, w.unit⟩
  | _ => .error .noDispatch

/-- rotation of a position (`galilean/rotation.py` 263-289); `uconvert(consistent)` puts all components in the unit of `x`, as
`convert` to a Quantity does -/
def rotPosU (R : Mat3) (q : Pos (UQ ℝ)) : Res (Pos (UQ ℝ)) :=
  if q.kind.dim ≠ 3 then .error .noDispatch
  else do
    let c ← representAsU {} q .cart3
    let w ← stackU (← c.cartFieldsU)
    representAsU {} (← matApplyU R w) q.kind

/-- `p + p'` for velocities: `jax.tree.map(qlax.add, lhs, rhs)` (`d1/cartesian.py` 206-232, `d2/cartesian.py` 218-237,
`d3/cartesian.py` 276-288) -/
def addVelU : Vel (UQ ℝ) → Vel (UQ ℝ) → Res (Vel (UQ ℝ))
  | .cart1 a, .cart1 a' => do return .cart1 (← leafOp (· + ·) a a')
  | .cart2 a b, .cart2 a' b' => do return .cart2 (← leafOp (· + ·) a a') (← leafOp (· + ·) b b')
  | .cart3 a b c, .cart3 a' b' c' => do
    return .cart3 (← leafOp (· + ·) a a') (← leafOp (· + ·) b b') (← leafOp (· + ·) c c')
  | _, _ => .error .noDispatch

/-- `-p` (`base/base_vel.py` 107-127) -/
def negVelU (v : Vel (UQ ℝ)) : Vel (UQ ℝ) := v.map UQ.neg

/-- `vel * time` (`base/base_vel.py` 141-162), see `velTimes` -/
def velTimesU (v : Vel (UQ ℝ)) (t : UQ ℝ) : Res (Pos (UQ ℝ)) :=
  match v with
  | .cart1 a => mkCart1U (a.mul t)
  | .radial a => do mkRadialU (← radialFrom (a.mul t))
  | .cart2 a b => mkCart2U (a.mul t) (b.mul t)
  | .polar a b => do mkPolarU (← radialFrom (a.mul t)) (.qty (b.mul t))
  | .twoSphere a b => mkTwoSphereU (a.mul t) (.qty (b.mul t))
  | .cart3 a b c => mkCart3U (a.mul t) (b.mul t) (c.mul t)
  | .cyl a b c => mkCylU (a.mul t) (.qty (b.mul t)) (c.mul t)
  | .sph a b c => do mkSphU (← radialFrom (a.mul t)) (b.mul t) (.qty (c.mul t))
  | .lonlat a b c => do mkLonLatU (.qty (a.mul t)) (b.mul t) (← radialFrom (c.mul t))
  | .lonCosLat _ _ _ => .error .badField
  | .math a b c => do mkMathU (← radialFrom (a.mul t)) (.qty (b.mul t)) (c.mul t)
  | .prolate _ _ _ => .error .missingDelta

/-- `v4 + v4'` (`d4/spacetime.py` 311-336) -/
def FourU.add (x y : FourU) : Res FourU := do
  let q ← addPosU x.q y.q
  let t ← x.t.add y.t
  return { x with t := t, q := q }

/-- `-v4` (`d4/spacetime.py` 208) -/
def FourU.neg (x : FourU) : Res FourU := do
  let q ← negPosU x.q
  return { x with t := x.t.neg, q := q }

/-- `GalileanRotation.__call__` (`galilean/rotation.py` 263-316, `compat.py` 190-218) -/
def callRotationU (R : Mat3) : ArgU → Res ArgU
  | .pos q => do return .pos (← rotPosU R q)
  | .posTime q t => do return .posTime (← rotPosU R q) t
  | .four x => do return .four ⟨x.t, ← rotPosU R x.q, lightSpeedU⟩
  | _ => .error .noDispatch

/-- a Quantity as a Cartesian position: `CartesianPosND.from_(q)` -/
def QRow.toCart (w : QRow) : Res (Pos (UQ ℝ)) :=
  match w.values with
  | [x] => .ok (.cart1 ⟨x, w.unit⟩)
  | [x, y] => .ok (.cart2 ⟨x, w.unit⟩ ⟨y, w.unit⟩)
  | [x, y, z] => .ok (.cart3 ⟨x, w.unit⟩ ⟨y, w.unit⟩ ⟨z, w.unit⟩)
  | _ => .error .noDispatch

open Classical in
/-- one leaf of `jax.tree.map(qlax.add, v, w)` under differentiation -/
def leafAddD (a b : UQ Dual) : Res (UQ Dual) :=
  if a.unit = b.unit then .ok ⟨a.value + b.value, a.unit⟩ else .error .mismatch

/-- Cartesian `+` under differentiation, see `addCartU` -/
def addCartD : Pos (UQ Dual) → Pos (UQ Dual) → Res (Pos (UQ Dual))
  | .cart1 x, .cart1 x' => do return .cart1 (← leafAddD x x')
  | .cart2 x y, .cart2 x' y' => do return .cart2 (← leafAddD x x') (← leafAddD y y')
  | .cart3 x y z, .cart3 x' y' z' => do mkCart3U (← x.add x') (← y.add y') (← z.add z')
  | _, _ => .error .noDispatch

/-- the velocity with all components zero, in the class of the position: no tangent -/
def Pos.noTangent : Pos (UQ ℝ) → Vel ℝ
  | .cart1 _ => .cart1 0
  | .cart2 _ _ => .cart2 0 0
  | _ => .cart3 0 0 0

/-- `u.experimental.jacfwd(self.__call__, argnums=0, units=(q.unit,))(q)` (`spatial_translation.py` 352), column by column:
derivatives of the stored values, in the unit of the result over that of `q`. All components of the result of `+` have the unit
of `q` here, so the final `convert` to a Quantity changes nothing. -/
def spatialJacobianU (u : RUnit) (qr dc : Pos (UQ ℝ)) : Res (List (Vel (UQ ℝ))) :=
  qr.kind.basis.mapM fun e => do
    (← addCartD (← qr.seedU e) (← dc.seedU dc.noTangent)).columnU u

/-- velocity part of `GalileanSpatialTranslation` on `(q, p)` (`galilean/spatial_translation.py` 349-358) -/
def spatialVelU (d q newq : Pos (UQ ℝ)) (p : Vel (UQ ℝ)) : Res (Vel (UQ ℝ)) := do
  let w ← stackU (← (← toCartesianU q).cartFieldsU)
  let qr ← w.toCart
  let pc ← representVelU {} p p.kind.cartesian qr
  let pw ← stackU pc.comps
  let dc ← representAsU {} d qr.kind
  let cols ← spatialJacobianU w.unit qr dc
  let newp ← mkVelU 1 (← contractU cols (pw.values.map fun v => ⟨v, pw.unit⟩))
  representVelU {} newp p.kind newq

/-- `GalileanSpatialTranslation.__call__` (`galilean/spatial_translation.py` 210-231, 263-360) -/
def callSpatialU (d : Pos (UQ ℝ)) : ArgU → Res ArgU
  | .pos q => do return .pos (← addPosU q d)
  | .posTime q t => do return .posTime (← addPosU q d) t
  | .four x => do return .four { x with q := ← addPosU x.q d }
  | .posVel q p => do
    let newq ← addPosU q d
    return .posVel newq (← spatialVelU d q newq p)
  | .vel _ => .error .noDispatch

/-- `GalileanTranslation.__call__` (`galilean/translation.py` 145-218) -/
def callTranslationU (d : FourU) : ArgU → Res ArgU
  | .posTime q t =>
    if q.kind.dim ≠ 3 then .error .noDispatch
    else do
      let q' ← addPosU q d.q
      let t' ← t.add d.t
      return .posTime q' t'
  | .four x => do return .four (← x.add d)
  | _ => .error .noDispatch

/-- `GalileanBoost.__call__` (`galilean/boost.py` 127-176) -/
def callBoostU (v : Vel (UQ ℝ)) : ArgU → Res ArgU
  | .posTime q t => do return .posTime (← addPosU q (← velTimesU v t)) t
  | .four x => do return .four { x with q := ← addPosU x.q (← velTimesU v x.t) }
  | _ => .error .noDispatch

/-- `VelocityBoost.__call__` (`boost.py` 109-127, 159-259) -/
def callVBoostU (v : Vel (UQ ℝ)) : ArgU → Res ArgU
  | .vel p => do return .vel (← addVelU p v)
  | .posVel q p => do return .posVel q (← addVelU p v)
  | a => .ok a

/-- is the argument a single velocity? -/
def ArgU.isVel : ArgU → Bool
  | .vel _ => true
  | _ => false

mutual
/-- `op(*args)`: rules and line numbers of `Op.call` -/
def OpU.call : OpU → ArgU → Res ArgU
  | .identity, a => .ok a
  | .rotation R, a => callRotationU R a
  | .spatial d, a => callSpatialU d a
  | .translation d, a => callTranslationU d a
  | .boost v, a => callBoostU v a
  | .vboost v, a => callVBoostU v a
  | .galilean R d v, a => do callBoostU v (← callTranslationU d (← callRotationU R a))
  | .pipe ops, a =>
    if a.isVel = true ∧ ops.length ≠ 1 then .error .typeError else callAllU ops a

/-- the loop of `Pipe.__call__` (`pipe.py` 107-109, 131-133) -/
def callAllU : List OpU → ArgU → Res ArgU
  | [], a => .ok a
  | op :: ops, a => do callAllU ops (← op.call a)
end

mutual
/-- `op.inverse`: rules and line numbers of `Op.inverse` -/
def OpU.inverse : OpU → Res OpU
  | .identity => .ok .identity
  | .rotation R => .ok (.rotation R.transpose)
  | .spatial d => do return .spatial (← negPosU d)
  | .translation d => do return .translation (← d.neg)
  | .boost v => .ok (.boost (negVelU v))
  | .vboost v => .ok (.vboost (negVelU v))
  | .galilean R d v => do
    return .pipe [.boost (negVelU v), .translation (← d.neg), .rotation R.transpose]
  | .pipe ops => do return .pipe (← inverseAllU ops)

/-- `tuple(op.inverse for op in reversed(operators))` (`composite.py` 63) -/
def inverseAllU : List OpU → Res (List OpU)
  | [] => .ok []
  | op :: ops => do
    let rest ← inverseAllU ops
    return rest ++ [← op.inverse]
end

end

end Verif
