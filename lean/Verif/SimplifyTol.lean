import Verif.Op

/-!
# `simplify_op(op, rtol=..., atol=...)`

The rules for one operator hand their keyword arguments to `jnp.allclose`. `op.simplify()` passes none (`Op.simplify`).
-/

namespace Verif

noncomputable section

/-- the keyword arguments `atol` and `rtol` of `jnp.allclose` -/
structure Tol where
  atol : ℝ
  rtol : ℝ

/-- what `jnp.allclose` uses when they are not given -/
def Tol.default : Tol := ⟨1e-8, 1e-5⟩

/-- `jnp.allclose(a, b, rtol=rtol, atol=atol)` for one pair of numbers -/
def isCloseT (τ : Tol) (a b : ℝ) : Bool := decide (|a - b| ≤ τ.atol + τ.rtol * |b|)

/-- `jnp.allclose(value, zeros(n), **kwargs)`, see `closeToZeros` -/
def closeToZerosT (τ : Tol) (n : ℕ) (xs : List ℝ) : Res Bool :=
  if xs.length = n ∨ xs.length = 1 then .ok (xs.all fun x => isCloseT τ x 0) else .error .mismatch

/-- `simplify_op(GalileanRotation, **kwargs)` (`galilean/rotation.py` 343-369) -/
def simplifyRotationT (τ : Tol) (R : Mat3) : Op :=
  if (List.finRange 3).all fun i => (List.finRange 3).all fun j => isCloseT τ (R i j) (if i = j then 1 else 0)
  then .identity else .rotation R

/-- `simplify_op(GalileanSpatialTranslation, **kwargs)` (`galilean/spatial_translation.py` 367-395) -/
def simplifySpatialT (τ : Tol) (u : StoredUnits) (d : Pos ℝ) : Res Op := do
  let xs ← toQuantity d
  return if ← closeToZerosT τ 3 (xs.map (· / u.len)) then .identity else .spatial d

/-- `simplify_op(GalileanTranslation, **kwargs)` (`galilean/translation.py` 227-257) -/
def simplifyTranslationT (τ : Tol) (u : StoredUnits) (d : Four) : Res Op := do
  let xs ← d.toQuantity
  return if ← closeToZerosT τ 4 (xs.map (· / u.len)) then .identity else .translation d

/-- the common test of `simplify_op(GalileanBoost, **kwargs)` (`galilean/boost.py` 207-232) and `simplify_op(VelocityBoost,
**kwargs)` (`boost.py` 266-291) -/
def velNegligibleT (τ : Tol) (u : StoredUnits) (v : Vel ℝ) : Res Bool := do
  closeToZerosT τ 3 ((← velToQuantity v).map (· / u.vel))

/-- `simplify_op(op, rtol=..., atol=...)`. The rules for `Identity` and `Pipe` take no keyword arguments (`register_simplify.py`
30-73): a `TypeError`. `GalileanOperator` (`galilean/composite.py` 197-253) hands them to its parts, and folds what is left without
them. -/
def Op.simplifyT (τ : Tol) (u : StoredUnits) : Op → Res Op
  | .identity => .error .typeError
  | .rotation R => .ok (simplifyRotationT τ R)
  | .spatial d => simplifySpatialT τ u d
  | .translation d => simplifyTranslationT τ u d
  | .boost v => do return if ← velNegligibleT τ u v then .identity else .boost v
  | .vboost v => do return if ← velNegligibleT τ u v then .identity else .vboost v
  | .galilean R d v => do
    let a := simplifyRotationT τ R
    let b ← simplifyTranslationT τ u d
    let c := if ← velNegligibleT τ u v then .identity else .boost v
    if a.isIdentity || b.isIdentity || c.isIdentity then simplifyFold .identity [a, b, c]
    else return .galilean R d v
  | .pipe _ => .error .typeError

end

end Verif
