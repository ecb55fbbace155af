import Mathlib.Analysis.SpecialFunctions.Complex.Arg
import Mathlib.Analysis.SpecialFunctions.Trigonometric.Inverse
import Mathlib.Analysis.SpecialFunctions.Pow.Real
import Mathlib.Analysis.SpecialFunctions.Log.Base

/-!
# Scalars

The scalar operations that coordinax's formulas use, as a class `Num`, so that every
formula of the Python code is transcribed once and can be run on

* `ℝ`      (the value of a scalar component),
* `Dual`   (a value together with a tangent: JAX forward mode), and
* `Float`  (only to execute the model).

Partial operations return `Except Err`: an operation that gives NaN or an infinity in the
Python program is `Err.nonFinite` here.
-/

namespace Verif

/-- Ways in which a modelled call does not return a usable vector. -/
inductive Err where
  /-- the program returns NaN or inf (it does not raise) -/
  | nonFinite
  /-- an `eqx.error_if` range check fails (`_src/vectors/checks.py`) -/
  | check
  /-- a component has the wrong physical dimension (`Quantity["length"].from_` raises) -/
  | units
  /-- `Delta` was not given (`_src/vectors/d3/transform.py` 657-661, 815-819) -/
  | missingDelta
  /-- plum finds no applicable rule -/
  | noDispatch
  /-- Python's recursion limit -/
  | recursion
  /-- constructor called with a missing or an unknown field -/
  | badField
  /-- `jax.tree.map` over two vectors whose pytree structures (distance classes, units) differ -/
  | mismatch
  /-- `jax.vmap` over a rank-0 leaf -/
  | vmapRank
  /-- a method called with missing arguments (`TypeError`) -/
  | typeError
  /-- a missing method (`AttributeError`) -/
  | attribute
  /-- `FrameTransformError` (`_src/frames/errors.py`) -/
  | frame
  /-- `KeyError` -/
  | key
  /-- `ValueError` -/
  | value
  deriving DecidableEq, Repr

/-- Result of a modelled call. -/
abbrev Res (α : Type) := Except Err α

/-- Scalar operations used by coordinax (from `quaxed.numpy`). -/
class Num (α : Type) extends Add α, Sub α, Mul α, Neg α where
  /-- numeric literals -/
  nat : ℕ → α
  /-- 180 deg in radians -/
  pi : α
  /-- `xp.abs` -/
  abs : α → α
  /-- `xp.sign`, with `sign 0 = 0` -/
  sign : α → α
  /-- `xp.sin` -/
  sin : α → α
  /-- `xp.cos` -/
  cos : α → α
  /-- `x % 360 deg` (`jnp.mod`: result has the sign of the divisor) -/
  wrap : α → α
  /-- `10 ** x` -/
  pow10 : α → α
  /-- `a < b` -/
  lt : α → α → Bool
  /-- `a == b` -/
  beq : α → α → Bool
  /-- `a / b` -/
  div : α → α → Res α
  /-- `xp.sqrt` -/
  sqrt : α → Res α
  /-- `xp.acos` -/
  acos : α → Res α
  /-- `xp.tan` -/
  tan : α → Res α
  /-- `xp.atan2 y x` -/
  atan2 : α → α → Res α
  /-- `xp.log10` -/
  log10 : α → Res α

/-! ## Real scalars -/

/-- `x % 360deg` in radians: the representative of `x` in `[0, 2π)`. -/
noncomputable def wrapR (x : ℝ) : ℝ := x - 2 * Real.pi * ⌊x / (2 * Real.pi)⌋

/-- `sign` with `sign 0 = 0` (`jnp.sign`). -/
noncomputable def signR (x : ℝ) : ℝ := if 0 < x then 1 else if x < 0 then -1 else 0

/-- `atan2 y x` in `(-π, π]` (`jnp.atan2`; signed zeros not modelled). -/
noncomputable def atan2R (y x : ℝ) : ℝ := Complex.arg ⟨x, y⟩

noncomputable instance : Num ℝ where
  nat n := n
  pi := Real.pi
  abs x := |x|
  sign := signR
  sin := Real.sin
  cos := Real.cos
  wrap := wrapR
  pow10 x := (10 : ℝ) ^ x
  lt a b := decide (a < b)
  beq a b := decide (a = b)
  div a b := if b = 0 then .error .nonFinite else .ok (a / b)
  sqrt a := if a < 0 then .error .nonFinite else .ok (Real.sqrt a)
  acos a := if a < -1 ∨ 1 < a then .error .nonFinite else .ok (Real.arccos a)
  tan a := if Real.cos a = 0 then .error .nonFinite else .ok (Real.tan a)
  atan2 y x := .ok (atan2R y x)
  log10 a := if a ≤ 0 then .error .nonFinite else .ok (Real.logb 10 a)

/-! ## Dual numbers: JAX forward mode

Each instance field is the JVP rule of the corresponding JAX primitive
(`jax/_src/lax/lax.py`, `ad.defjvp` of `add_p`, `mul_p`, `div_p`, `sqrt_p`, `acos_p`, `sin_p`,
`cos_p`, `atan2_p`, `abs_p`, `sign_p`, `rem_p`, ...). Where the rule divides by zero the tangent
is NaN or inf in JAX, `Err.nonFinite` here. Comparisons look at the value only. -/

/-- A value and a tangent. -/
structure Dual where
  /-- value -/
  re : ℝ
  /-- tangent -/
  du : ℝ

@[ext] theorem Dual.ext' {a b : Dual} (h : a.re = b.re) (h' : a.du = b.du) : a = b := by
  cases a; cases b; simp_all

noncomputable instance : Num Dual where
  add a b := ⟨a.re + b.re, a.du + b.du⟩
  sub a b := ⟨a.re - b.re, a.du - b.du⟩
  mul a b := ⟨a.re * b.re, a.du * b.re + a.re * b.du⟩
  neg a := ⟨-a.re, -a.du⟩
  nat n := ⟨n, 0⟩
  pi := ⟨Real.pi, 0⟩
  abs a := ⟨|a.re|, signR a.re * a.du⟩
  sign a := ⟨signR a.re, 0⟩
  sin a := ⟨Real.sin a.re, Real.cos a.re * a.du⟩
  cos a := ⟨Real.cos a.re, -Real.sin a.re * a.du⟩
  wrap a := ⟨wrapR a.re, a.du⟩
  pow10 a := ⟨(10 : ℝ) ^ a.re, Real.log 10 * (10 : ℝ) ^ a.re * a.du⟩
  lt a b := decide (a.re < b.re)
  beq a b := decide (a.re = b.re)
  div a b :=
    if b.re = 0 then .error .nonFinite
    else .ok ⟨a.re / b.re, a.du / b.re - a.re * b.du / (b.re * b.re)⟩
  sqrt a :=
    if a.re ≤ 0 then .error .nonFinite
    else .ok ⟨Real.sqrt a.re, a.du / (2 * Real.sqrt a.re)⟩
  acos a :=
    if a.re ≤ -1 ∨ 1 ≤ a.re then .error .nonFinite
    else .ok ⟨Real.arccos a.re, -a.du / Real.sqrt (1 - a.re * a.re)⟩
  tan a :=
    if Real.cos a.re = 0 then .error .nonFinite
    else .ok ⟨Real.tan a.re, (1 + Real.tan a.re * Real.tan a.re) * a.du⟩
  atan2 y x :=
    if x.re = 0 ∧ y.re = 0 then .error .nonFinite
    else .ok ⟨atan2R y.re x.re,
      (x.re * y.du - y.re * x.du) / (x.re * x.re + y.re * y.re)⟩
  log10 a :=
    if a.re ≤ 0 then .error .nonFinite
    else .ok ⟨Real.logb 10 a.re, a.du / (a.re * Real.log 10)⟩

/-! ## Floats (execution only) -/

instance : Num Float where
  nat n := n.toFloat
  pi := 3.14159265358979323846
  abs := Float.abs
  sign a := if 0 < a then 1 else if a < 0 then -1 else 0
  sin := Float.sin
  cos := Float.cos
  wrap x := x - 6.28318530717958647692 * (x / 6.28318530717958647692).floor
  pow10 x := Float.pow 10 x
  lt a b := decide (a < b)
  beq a b := a == b
  div a b := if b == 0 then .error .nonFinite else .ok (a / b)
  sqrt a := if a < 0 then .error .nonFinite else .ok a.sqrt
  acos a := if a < -1 || a > 1 then .error .nonFinite else .ok a.acos
  tan a := .ok a.tan
  atan2 y x := .ok (Float.atan2 y x)
  log10 a := if a <= 0 then .error .nonFinite else .ok a.log10

end Verif
