import Verif.UnitOp

/-!
# `simplify` for operators whose components carry units

`simplify_op` compares *stored numbers* with zero: `convert(op.translation, Quantity).value` is in the unit of the first Cartesian
component, and for a 4-vector in the unit of `c t`.
-/

namespace Verif

open Num

noncomputable section

/-- `convert(vel, Quantity)` (`_src/vectors/compat.py` 30-32, 76-210): Cartesian classes and `RadialVel`, stacked in the unit of the
first component -/
def velToQuantityU : Vel (UQ ℝ) → Res QRow
  | .cart1 a | .radial a => stackU [a]
  | .cart2 a b => stackU [a, b]
  | .cart3 a b c => stackU [a, b, c]
  | _ => .error .noDispatch

/-- `convert(v4, Quantity)` (`d4/compat.py` 16-19): `concat([c * t, q])`, in the unit of `c * t` -/
def FourU.toQuantityU (x : FourU) : Res QRow := do
  let cart ← Verif.toQuantityU x.q
  let ct := x.c.mul x.t
  let vs ← cart.values.mapM fun v => (⟨v, cart.unit⟩ : UQ ℝ).strip ct.unit
  return ⟨ct.value :: vs, ct.unit⟩

/-- `simplify_op(GalileanRotation)` (`galilean/rotation.py` 343-369) -/
def simplifyRotationU (R : Mat3) : OpU :=
  if (List.finRange 3).all fun i => (List.finRange 3).all fun j =>
    isClose (R i j) (if i = j then 1 else 0)
  then .identity else .rotation R

/-- `simplify_op(GalileanSpatialTranslation)` (`galilean/spatial_translation.py` 367-395) -/
def simplifySpatialU (d : Pos (UQ ℝ)) : Res OpU := do
  let w ← toQuantityU d
  return if ← closeToZeros 3 w.values then .identity else .spatial d

/-- `simplify_op(GalileanTranslation)` (`galilean/translation.py` 227-257) -/
def simplifyTranslationU (d : FourU) : Res OpU := do
  let w ← d.toQuantityU
  return if ← closeToZeros 4 w.values then .identity else .translation d

/-- the common test of `simplify_op(GalileanBoost)` (`galilean/boost.py` 207-232) and `simplify_op(VelocityBoost)`
(`boost.py` 266-291) -/
def velNegligibleU (v : Vel (UQ ℝ)) : Res Bool := do closeToZeros 3 (← velToQuantityU v).values

/-- `simplify_op(op1, op2)`: rules and line numbers of `simplify2` -/
def simplify2U : OpU → OpU → Res OpU
  | a, .identity => .ok a
  | .identity, b => .ok b
  | .pipe as, .pipe bs => .ok (.pipe (as ++ bs))
  | .pipe as, b => .ok (.pipe (as ++ [b]))
  | .rotation R, .rotation S => .ok (.rotation (R * S))
  | .spatial d, .spatial e => do return .spatial (← addPosU d e)
  | .translation d, .translation e => do return .translation (← d.add e)
  | .boost v, .boost w => do return .boost (← addVelU v w)
  | .vboost v, .vboost w => do return .vboost (← addVelU v w)
  | a, b => .ok (.pipe [a, b])

/-- `functools.reduce(simplify_op, operators, acc)` (`register_simplify.py` 73) -/
def simplifyFoldU (acc : OpU) : List OpU → Res OpU
  | [] => .ok acc
  | op :: ops => do simplifyFoldU (← simplify2U acc op) ops

/-- is this the operator `Identity`? -/
def OpU.isIdentity : OpU → Bool
  | .identity => true
  | _ => false

/-- `op.simplify()` (`base.py` 146-170, `register_simplify.py` 14-73, `galilean/composite.py` 197-253) -/
def OpU.simplify : OpU → Res OpU
  | .identity => .ok .identity
  | .rotation R => .ok (simplifyRotationU R)
  | .spatial d => simplifySpatialU d
  | .translation d => simplifyTranslationU d
  | .boost v => do return if ← velNegligibleU v then .identity else .boost v
  | .vboost v => do return if ← velNegligibleU v then .identity else .vboost v
  | .galilean R d v => do
    let a := simplifyRotationU R
    let b ← simplifyTranslationU d
    let c := if ← velNegligibleU v then .identity else .boost v
    if a.isIdentity || b.isIdentity || c.isIdentity then simplifyFoldU .identity [a, b, c]
    else return .galilean R d v
  | .pipe ops => simplifyFoldU .identity ops

end

end Verif
