import Verif.Represent

/-!
# Floating-point scalars

JAX computes with floating-point numbers (`float32` unless x64 is enabled), the other modules of this model with real
numbers. Here the formulas of `Verif/Vec.lean` and `Verif/Represent.lean`, which are transcribed for any `Num`, run on
floating-point numbers: every operation is rounded. Nothing is assumed about the rounding but what is listed in `FltArith`, so that
the theorems hold for every precision and every rounding direction that is symmetric.

Not modelled: overflow (results are finite, or `nonFinite` where the exact operation is undefined), signed zeros, conversions of units
(angles are in radians, as everywhere in this model, so that `180 deg` is one given number, whatever unit it was converted from).
-/

namespace Verif

/-- A floating-point arithmetic: what IEEE 754 guarantees for round to nearest (monotone, symmetric, exact on representable numbers; `+`,
`-`, `*`, `/`, `sqrt` correctly rounded, small integers representable, halving and doubling of `180 deg` exact), and next to nothing
about the library functions, which are not correctly rounded in practice: only that `acos` stays in `[0, 180 deg]`. -/
structure FltArith where
  /-- rounding -/
  fl : ℝ → ℝ
  mono : Monotone fl
  idem : ∀ x, fl (fl x) = fl x
  odd : ∀ x, fl (-x) = -fl x
  small : ∀ n : ℕ, n ≤ 4 → fl n = n
  /-- the number that stands for `180 deg` (`Angle(180, "deg")` in radians, `_src/vectors/checks.py` 15-16) -/
  piF : ℝ
  pi_pos : 0 < piF
  fl_pi : fl piF = piF
  fl_half : fl (piF / 2) = piF / 2
  fl_two : fl (2 * piF) = 2 * piF
  /-- library functions before rounding -/
  sinF : ℝ → ℝ
  cosF : ℝ → ℝ
  tanF : ℝ → ℝ
  acosF : ℝ → ℝ
  atan2F : ℝ → ℝ → ℝ
  pow10F : ℝ → ℝ
  log10F : ℝ → ℝ
  acos_range : ∀ c, -1 ≤ c → c ≤ 1 → 0 ≤ acosF c ∧ acosF c ≤ piF

/-- the numbers of the arithmetic -/
structure Flt (A : FltArith) where
  /-- value -/
  val : ℝ
  rep : A.fl val = val

/-- round a real number -/
def FltArith.rnd (A : FltArith) (x : ℝ) : Flt A := ⟨A.fl x, A.idem x⟩

/-- `x % 360 deg` before rounding. `jnp.mod(x, m)` is the exact remainder `fmod(x, m)` if that is not negative, and otherwise
`fmod(x, m) + m`, rounded; `fmod` is representable, so that both are the rounded value of this. -/
noncomputable def FltArith.modF (A : FltArith) (x : ℝ) : ℝ := x - 2 * A.piF * ⌊x / (2 * A.piF)⌋

/-- Scalar operations, rounded. `abs`, `neg`, `sign` are exact. Division by zero, roots of negative numbers, and so on, are NaN or inf. -/
noncomputable instance (A : FltArith) : Num (Flt A) where
  add a b := A.rnd (a.val + b.val)
  sub a b := A.rnd (a.val - b.val)
  mul a b := A.rnd (a.val * b.val)
  neg a := A.rnd (-a.val)
  nat n := A.rnd n
  pi := A.rnd A.piF
  abs a := A.rnd |a.val|
  sign a := A.rnd (signR a.val)
  sin a := A.rnd (A.sinF a.val)
  cos a := A.rnd (A.cosF a.val)
  wrap a := A.rnd (A.modF a.val)
  pow10 a := A.rnd (A.pow10F a.val)
  lt a b := decide (a.val < b.val)
  beq a b := decide (a.val = b.val)
  div a b := if b.val = 0 then .error .nonFinite else .ok (A.rnd (a.val / b.val))
  sqrt a := if a.val < 0 then .error .nonFinite else .ok (A.rnd (Real.sqrt a.val))
  acos a := if a.val < -1 ∨ 1 < a.val then .error .nonFinite else .ok (A.rnd (A.acosF a.val))
  tan a := .ok (A.rnd (A.tanF a.val))
  atan2 y x := .ok (A.rnd (A.atan2F y.val x.val))
  log10 a := if a.val ≤ 0 then .error .nonFinite else .ok (A.rnd (A.log10F a.val))

end Verif
