import Verif.Four
import Verif.Acc
import Mathlib.Data.Matrix.Mul

/-!
# Operators (`_src/operators`)

Times in seconds, lengths in AU, velocities in AU/s. `Quantity` arguments are wrapped by
`operators/compat.py`; the single-argument 3-D wrapper is `callQty`.
-/

namespace Verif

open Num

/-- a 3x3 matrix -/
abbrev Mat3 := Matrix (Fin 3) (Fin 3) ℝ

/-- Operators. `Identity` (`identity.py`), `GalileanRotation` (`galilean/rotation.py` 121;
orthogonality is not checked, 128-137), `GalileanSpatialTranslation`
(`galilean/spatial_translation.py` 160), `GalileanTranslation` (`galilean/translation.py` 94),
`GalileanBoost` (`galilean/boost.py` 79), `VelocityBoost` (`boost.py` 61), `GalileanOperator`
(`galilean/composite.py` 129-151), `Pipe` (`pipe.py` 85). -/
inductive Op where
  | identity
  | rotation (R : Mat3)
  | spatial (d : Pos ℝ)
  | translation (d : Four)
  | boost (v : Vel ℝ)
  | vboost (v : Vel ℝ)
  | galilean (R : Mat3) (d : Four) (v : Vel ℝ)
  | pipe (ops : List Op)

/-- Argument tuples of `op(...)`. -/
inductive Arg where
  | pos (q : Pos ℝ)
  | posTime (q : Pos ℝ) (t : ℝ)
  | four (x : Four)
  | posVel (q : Pos ℝ) (p : Vel ℝ)
  | vel (p : Vel ℝ)

/-- `R @ (x, y, z)` (`galilean/rotation.py` 28, 288) -/
noncomputable def matApply (R : Mat3) (x y z : ℝ) : Pos ℝ :=
  .cart3 (R 0 0 * x + R 0 1 * y + R 0 2 * z) (R 1 0 * x + R 1 1 * y + R 1 2 * z)
    (R 2 0 * x + R 2 1 * y + R 2 2 * z)

/-- rotation of a position (`galilean/rotation.py` 263-289); 3-D positions only -/
noncomputable def rotPos (R : Mat3) (q : Pos ℝ) : Res (Pos ℝ) :=
  if q.kind.dim ≠ 3 then .error .noDispatch
  else do
    match ← representAs {} q .cart3 with
    | .cart3 x y z => representAs {} (matApply R x y z) q.kind
    | _ => .error .noDispatch

/-- `p + p'` for velocities: only two velocities of the same Cartesian class have a rule
(`d1/cartesian.py` 206-232, `d2/cartesian.py` 218-237, `d3/cartesian.py` 276-281) -/
noncomputable def addVel : Vel ℝ → Vel ℝ → Res (Vel ℝ)
  | .cart1 a, .cart1 a' => .ok (.cart1 (a + a'))
  | .cart2 a b, .cart2 a' b' => .ok (.cart2 (a + a') (b + b'))
  | .cart3 a b c, .cart3 a' b' c' => .ok (.cart3 (a + a') (b + b') (c + c'))
  | _, _ => .error .noDispatch

/-- `-p` (`base/base_vel.py` 107-127): every component -/
noncomputable def negVel (v : Vel ℝ) : Vel ℝ := v.map fun x => -x

/-- `GalileanRotation.__call__` (`galilean/rotation.py` 263-316); a `FourVector` goes through the
generic wrapper `compat.py` 190-218, which builds a new `FourVector` with the default `c`. -/
noncomputable def callRotation (R : Mat3) : Arg → Res Arg
  | .pos q => do return .pos (← rotPos R q)
  | .posTime q t => do return .posTime (← rotPos R q) t
  | .four x => do return .four ⟨x.t, ← rotPos R x.q, lightSpeed⟩
  | _ => .error .noDispatch

/-- a constant position for the Jacobian -/
def Pos.constCart : Pos ℝ → Res (Pos Dual)
  | .cart1 x => .ok (.cart1 (Dual.const x))
  | .cart2 x y => .ok (.cart2 (Dual.const x) (Dual.const y))
  | .cart3 x y z => .ok (.cart3 (Dual.const x) (Dual.const y) (Dual.const z))
  | _ => .error .noDispatch

/-- `jacfwd(self.__call__)(q)` (`spatial_translation.py` 352): the Jacobian at the Cartesian position
`qc` of `q ↦ q + d`, column by column; the translation (already Cartesian, `dc`) is a constant. -/
noncomputable def spatialJacobian (qc dc : Pos ℝ) : Res (List (Vel ℝ)) :=
  qc.kind.basis.mapM fun e => do
    (← mapCart2 (fun x y => x + y) (← qc.seed e) (← dc.constCart)).tangent

/-- velocity part of `GalileanSpatialTranslation` on `(q, p)`
(`galilean/spatial_translation.py` 349-358): to Cartesian, Jacobian of the translation, back at the
new position -/
noncomputable def spatialVel (d q newq : Pos ℝ) (p : Vel ℝ) : Res (Vel ℝ) := do
  let qc ← toCartesian q
  let pc ← representVel {} p p.kind.cartesian qc
  let dc ← representAs {} d qc.kind
  let cols ← spatialJacobian qc dc
  let newp ← contract cols pc.comps
  representVel {} newp p.kind newq

/-- `GalileanSpatialTranslation.__call__` (`galilean/spatial_translation.py` 210-231, 263-360) -/
noncomputable def callSpatial (d : Pos ℝ) : Arg → Res Arg
  | .pos q => do return .pos (← addPos q d)
  | .posTime q t => do return .posTime (← addPos q d) t
  | .four x => do return .four { x with q := ← addPos x.q d }
  | .posVel q p => do
    let newq ← addPos q d
    return .posVel newq (← spatialVel d q newq p)
  | .vel _ => .error .noDispatch

/-- `GalileanTranslation.__call__` (`galilean/translation.py` 145-218): `FourVector`, or a 3-D
position and a time -/
noncomputable def callTranslation (d : Four) : Arg → Res Arg
  | .posTime q t =>
    if q.kind.dim ≠ 3 then .error .noDispatch
    else do return .posTime (← addPos q d.q) (t + d.t)
  | .four x => do return .four (← x.add d)
  | _ => .error .noDispatch

/-- `GalileanBoost.__call__` (`galilean/boost.py` 127-176): `q + velocity * t` -/
noncomputable def callBoost (v : Vel ℝ) : Arg → Res Arg
  | .posTime q t => do return .posTime (← addPos q (← velTimes v t)) t
  | .four x => do return .four { x with q := ← addPos x.q (← velTimes v x.t) }
  | _ => .error .noDispatch

/-- `VelocityBoost.__call__` (`boost.py` 109-127, 159-259) -/
noncomputable def callVBoost (v : Vel ℝ) : Arg → Res Arg
  | .vel p => do return .vel (← addVel p v)
  | .posVel q p => do return .posVel q (← addVel p v)
  | a => .ok a

/-- is the argument a single velocity? -/
def Arg.isVel : Arg → Bool
  | .vel _ => true
  | _ => false

mutual
/-- `op(*args)`. `Identity`: `identity.py` 125-173. `GalileanOperator` and `Pipe`: `pipe.py` 89-133
(the rules are registered for every `AbstractCompositeOperator`): the operators in order, for a
`GalileanOperator` rotation, translation, boost (`galilean/composite.py` 159-164).
The rule for a general argument tuple is `args = op(*args)`; for a single argument that is not a
position this spreads the result of the first operator, so a velocity can only pass a Pipe with
exactly one operator (an empty Pipe returns a 1-tuple, counted as an error here). -/
noncomputable def Op.call : Op → Arg → Res Arg
  | .identity, a => .ok a
  | .rotation R, a => callRotation R a
  | .spatial d, a => callSpatial d a
  | .translation d, a => callTranslation d a
  | .boost v, a => callBoost v a
  | .vboost v, a => callVBoost v a
  | .galilean R d v, a => do callBoost v (← callTranslation d (← callRotation R a))
  | .pipe ops, a =>
    if a.isVel = true ∧ ops.length ≠ 1 then .error .typeError else callAll ops a

/-- the loop of `Pipe.__call__` (`pipe.py` 107-109, 131-133) -/
noncomputable def callAll : List Op → Arg → Res Arg
  | [], a => .ok a
  | op :: ops, a => do callAll ops (← op.call a)
end

/-- `op(quantity)` for a length Quantity of shape `(3,)` (`compat.py` 122-152; `GalileanRotation` has
its own rule `galilean/rotation.py` 227-261; `Identity` returns its argument) -/
noncomputable def Op.callQty (op : Op) (x y z : ℝ) : Res (List ℝ) :=
  match op with
  | .identity => .ok [x, y, z]
  | .rotation R => (matApply R x y z).cartComponents
  | op => do
    match ← op.call (.pos (.cart3 x y z)) with
    | .pos q => toQuantity (← representAs {} q .cart3)
    | _ => .error .noDispatch

mutual
/-- `op.inverse` (`identity.py` 119, `galilean/rotation.py` 223, `galilean/spatial_translation.py` 206,
`galilean/translation.py` 141, `galilean/boost.py` 123, `boost.py` 105, `composite.py` 44-63) -/
noncomputable def Op.inverse : Op → Res Op
  | .identity => .ok .identity
  | .rotation R => .ok (.rotation R.transpose)
  | .spatial d => do return .spatial (← negPos d)
  | .translation d => do return .translation (← d.neg)
  | .boost v => .ok (.boost (negVel v))
  | .vboost v => .ok (.vboost (negVel v))
  | .galilean R d v => do
    return .pipe [.boost (negVel v), .translation (← d.neg), .rotation R.transpose]
  | .pipe ops => do return .pipe (← inverseAll ops)

/-- `tuple(op.inverse for op in reversed(operators))` (`composite.py` 63) -/
noncomputable def inverseAll : List Op → Res (List Op)
  | [] => .ok []
  | op :: ops => do
    let rest ← inverseAll ops
    return rest ++ [← op.inverse]
end

/-- `a | b` (`pipe.py` 137-157 for a Pipe on the left, else `base.py` 219-236: a Pipe on the right
is asked for `__ror__`, which no class defines) -/
def Op.or : Op → Op → Res Op
  | .pipe as, .pipe bs => .ok (.pipe (as ++ bs))
  | .pipe as, b => .ok (.pipe (as ++ [b]))
  | _, .pipe _ => .error .attribute
  | a, b => .ok (.pipe [a, b])

/-! ### Simplification -/

/-- The value 1 in the units in which lengths and velocities are stored, in AU and AU/s:
`jnp.allclose` looks at the stored numbers (`galilean/boost.py` 230 etc.). -/
structure StoredUnits where
  len : ℝ
  vel : ℝ

/-- `jnp.allclose(a, b)` for one pair of numbers: `|a - b| <= atol + rtol |b|` with `atol = 1e-8`,
`rtol = 1e-5` -/
noncomputable def isClose (a b : ℝ) : Bool := decide (|a - b| ≤ 1e-8 + 1e-5 * |b|)

/-- `jnp.allclose(value, zeros(n))` for a list of stored numbers: shapes `(1,)` and `(n,)` broadcast,
others raise -/
noncomputable def closeToZeros (n : ℕ) (xs : List ℝ) : Res Bool :=
  if xs.length = n ∨ xs.length = 1 then .ok (xs.all fun x => isClose x 0) else .error .mismatch

/-- `convert(vel, Quantity)` (`_src/vectors/compat.py` 30-210): Cartesian classes and `RadialVel` -/
noncomputable def velToQuantity : Vel ℝ → Res (List ℝ)
  | .cart1 a | .radial a => .ok [a]
  | .cart2 a b => .ok [a, b]
  | .cart3 a b c => .ok [a, b, c]
  | _ => .error .noDispatch

/-- `simplify_op(GalileanRotation)` (`galilean/rotation.py` 343-369) -/
noncomputable def simplifyRotation (R : Mat3) : Op :=
  if (List.finRange 3).all fun i => (List.finRange 3).all fun j =>
    isClose (R i j) (if i = j then 1 else 0)
  then .identity else .rotation R

/-- `simplify_op(GalileanSpatialTranslation)` (`galilean/spatial_translation.py` 367-395) -/
noncomputable def simplifySpatial (u : StoredUnits) (d : Pos ℝ) : Res Op := do
  let xs ← toQuantity d
  return if ← closeToZeros 3 (xs.map (· / u.len)) then .identity else .spatial d

/-- `simplify_op(GalileanTranslation)` (`galilean/translation.py` 227-257) -/
noncomputable def simplifyTranslation (u : StoredUnits) (d : Four) : Res Op := do
  let xs ← d.toQuantity
  return if ← closeToZeros 4 (xs.map (· / u.len)) then .identity else .translation d

/-- the common test of `simplify_op(GalileanBoost)` (`galilean/boost.py` 207-232) and
`simplify_op(VelocityBoost)` (`boost.py` 266-291) -/
noncomputable def velNegligible (u : StoredUnits) (v : Vel ℝ) : Res Bool := do
  closeToZeros 3 ((← velToQuantity v).map (· / u.vel))

/-- `simplify_op(op1, op2)` (`register_simplify.py` 80-163, `galilean/rotation.py` 407-439,
`galilean/spatial_translation.py` 398-420, `galilean/translation.py` 261-285,
`galilean/boost.py` 235-255, `boost.py` 294-314) -/
noncomputable def simplify2 : Op → Op → Res Op
  | a, .identity => .ok a
  | .identity, b => .ok b
  | .pipe as, .pipe bs => .ok (.pipe (as ++ bs))
  | .pipe as, b => .ok (.pipe (as ++ [b]))
  | .rotation R, .rotation S => .ok (.rotation (R * S))
  | .spatial d, .spatial e => do return .spatial (← addPos d e)
  | .translation d, .translation e => do return .translation (← d.add e)
  | .boost v, .boost w => do return .boost (← addVel v w)
  | .vboost v, .vboost w => do return .vboost (← addVel v w)
  | a, b => .ok (.pipe [a, b])

/-- `functools.reduce(simplify_op, operators, acc)` (`register_simplify.py` 73) -/
noncomputable def simplifyFold (acc : Op) : List Op → Res Op
  | [] => .ok acc
  | op :: ops => do simplifyFold (← simplify2 acc op) ops

/-- is this the operator `Identity`? -/
def Op.isIdentity : Op → Bool
  | .identity => true
  | _ => false

/-- `op.simplify()` (`base.py` 146-170, `register_simplify.py` 14-73; `GalileanOperator`:
`galilean/composite.py` 197-253) -/
noncomputable def Op.simplify (u : StoredUnits) : Op → Res Op
  | .identity => .ok .identity
  | .rotation R => .ok (simplifyRotation R)
  | .spatial d => simplifySpatial u d
  | .translation d => simplifyTranslation u d
  | .boost v => do return if ← velNegligible u v then .identity else .boost v
  | .vboost v => do return if ← velNegligible u v then .identity else .vboost v
  | .galilean R d v => do
    let a := simplifyRotation R
    let b ← simplifyTranslation u d
    let c := if ← velNegligible u v then .identity else .boost v
    if a.isIdentity || b.isIdentity || c.isIdentity then simplifyFold .identity [a, b, c]
    else return .galilean R d v
  | .pipe ops => simplifyFold .identity ops

end Verif
