import Verif.Arith

/-!
# Four-vectors: `FourVector` (`_src/vectors/d4/spacetime.py`, `_src/vectors/d4/compat.py`)

Times in seconds, lengths in AU.
-/

namespace Verif

/-- `FourVector` (`d4/spacetime.py` 81-93). `q` is an `AbstractPos3D` (the model does not
enforce the dimension). -/
structure Four where
  /-- time -/
  t : ℝ
  /-- spatial part -/
  q : Pos ℝ
  /-- speed of light -/
  c : ℝ

/-- default of the field `c`: 299792.458 km/s (`d4/spacetime.py` 90-92), in AU/s
(1 AU = 149597870.7 km) -/
noncomputable def lightSpeed : ℝ := 299792.458 / 149597870.7

namespace Four

/-- `FourVector.from_(quantity)` for a Quantity `[ct, x, y, z]` (`d4/spacetime.py` 106-153):
`t = obj[0] / c`, `q = obj[1:]`, `c` the default; another length of the last axis is rejected
(147-151; three components match the other rule, 284-308, which names `t, q, c` from three
components and is not modelled). -/
noncomputable def from_ : List ℝ → Res Four
  | [ct, x, y, z] => do
    let t ← Num.div ct lightSpeed
    let q ← mkCart3 x y z
    return ⟨t, q, lightSpeed⟩
  | _ => .error .noDispatch

/-- `convert(v4, Quantity)` (`d4/compat.py` 15-19): `concat([c * t, convert(q, Quantity)])` -/
noncomputable def toQuantity (x : Four) : Res (List ℝ) := do
  let cart ← Verif.toQuantity x.q
  return x.c * x.t :: cart

/-- `-v4` (`d4/spacetime.py` 208) -/
noncomputable def neg (x : Four) : Res Four := do
  let q ← negPos x.q
  return { x with t := -x.t, q := q }

/-- `v4 + v4'` (`d4/spacetime.py` 311-336) -/
noncomputable def add (x y : Four) : Res Four := do
  let q ← addPos x.q y.q
  return { x with t := x.t + y.t, q := q }

/-- `v4 - v4'` (`d4/spacetime.py` 339-364) -/
noncomputable def sub (x y : Four) : Res Four := do
  let q ← subPos x.q y.q
  return { x with t := x.t - y.t, q := q }

/-- `v4._norm2()` (`d4/spacetime.py` 212-226): `-(q.norm() ** 2) + (c * t) ** 2`. When `q.norm()` is a
`Parallax` or `DistanceModulus`, its square is not an area and the sum raises. -/
noncomputable def norm2 (x : Four) : Res ℝ := do
  let n ← (← Verif.norm x.q).asLength
  return -(n * n) + x.c * x.t * (x.c * x.t)

/-- `v4.norm()` (`d4/spacetime.py` 228-243): complex square root of `_norm2` (principal branch;
returned as real and imaginary part). -/
noncomputable def norm (x : Four) : Res (ℝ × ℝ) := do
  let n2 ← x.norm2
  return if n2 < 0 then (0, Real.sqrt (-n2)) else (Real.sqrt n2, 0)

end Four

end Verif
