import Verif.BatchOp

/-!
# Four-vectors whose components are arrays

`FourVector` of `_src/vectors/d4/spacetime.py` and its conversion to a `Quantity` (`_src/vectors/d4/compat.py`), transcribed
on arrays. `FourB`, its shape check, `+` and unary `-` are in `Verif/BatchOp.lean`. Times in s, lengths in AU.
-/

namespace Verif

open Num

/-- `v4 - v4'` (`d4/spacetime.py` 339-364): the times are subtracted with numpy's rule, `replace` checks again -/
noncomputable def FourB.sub (x y : FourB) : Res FourB := do
  let t ← bsub x.t y.t
  let q ← subPosB x.q y.q
  mkFourB t q x.c

/-- `self.c * self.t`: `c` has shape `()` -/
noncomputable def FourB.ct (x : FourB) : BArr := x.t.map (el1 fun t => .ok (x.c * t))

/-- `v4._norm2()` (`d4/spacetime.py` 212-226): `-(q.norm() ** 2) + (c * t) ** 2` with numpy's broadcasting; a norm that is a
`Parallax` or `DistanceModulus` raises -/
noncomputable def FourB.norm2 (x : FourB) : Res BArr := do
  let n ← (← normB x.q).asLengthB
  badd (bneg (← bmul n n)) (← bmul x.ct x.ct)

/-- `v4.norm()` (`d4/spacetime.py` 228-243): elementwise complex square root, returned as real and imaginary part -/
noncomputable def FourB.norm (x : FourB) : Res (BArr × BArr) := do
  let n2 ← x.norm2
  return (n2.map (el1 fun v => .ok (if v < 0 then 0 else Real.sqrt v)),
    n2.map (el1 fun v => .ok (if v < 0 then Real.sqrt (-v) else 0)))

/-- `a[..., None]` -/
def newLast (a : BArr) : BArr := ⟨a.shape ++ [1], fun idx => a.get idx.dropLast⟩

/-- `jnp.concat([a, b], axis=-1)`: no broadcasting, all axes but the last must agree -/
def concatLast (a b : BArr) : Res BArr :=
  if a.shape.length = b.shape.length ∧ a.shape.dropLast = b.shape.dropLast then
    let m := a.shape.getLastD 0
    .ok ⟨a.shape.dropLast ++ [m + b.shape.getLastD 0], fun idx =>
      let k := idx.getLastD 0
      if k < m then a.get idx else b.get (idx.dropLast ++ [k - m])⟩
  else .error .value

/-- `convert(v4, Quantity)` (`d4/compat.py` 15-19): `concat([c * t[..., None], convert(q, Quantity)], axis=-1)` -/
noncomputable def FourB.toQuantity (x : FourB) : Res BArr := do
  let cart ← toQuantityB x.q
  concatLast (newLast x.ct) cart

/-- `FourVector.from_(quantity)` for a Quantity with last axis `[ct, x, y, z]` (`d4/spacetime.py` 106-153): `t = obj[..., 0] / c`,
`q = CartesianPos3D.from_(obj[..., 1:])`, `c` the default; another length of the last axis raises (as for `Four.from_`, the rule
for three components, 284-308, is not modelled) -/
noncomputable def FourB.from_ (obj : BArr) : Res FourB :=
  if obj.shape.getLastD 0 = 4 then
    mkFourB ((sliceLast 0 obj).map (el1 fun v => Num.div v lightSpeed))
      (.cart3 (sliceLast 1 obj) (sliceLast 2 obj) (sliceLast 3 obj)) lightSpeed
  else .error .value

end Verif
