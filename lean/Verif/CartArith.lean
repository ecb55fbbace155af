import Verif.QBridge
import Verif.Batch

/-!
# Arithmetic of Cartesian vectors with units and arrays

`Verif/Arith.lean` has scalar components in base units. Here components are arrays with units, as in
`Verif/QBridge.lean`, for the Cartesian classes of 1, 2, 3 and N dimensions.

Trusted: the operators of a `Quantity` (`+ - * /`) broadcast as in numpy and convert the right operand to
the unit of the left one; `quaxed.lax` operations broadcast as in `jax.lax` (JAX 0.4.35,
`broadcasting_shape_rule`): rank 0, or the same rank.
-/

namespace Verif

/-- shape rule of a binary operation of `jax.lax`: rank 0 goes with everything, otherwise the ranks must
agree and each axis is equal or 1 -/
def laxShape (s t : List ℕ) : Res (List ℕ) :=
  if s = [] then .ok t
  else if t = [] then .ok s
  else if s.length = t.length then bc2 s t
  else .error .typeError

/-- `qlax.add(a, b)` and the like on arrays -/
def Arr.lax2 (f : ℝ → ℝ → ℝ) (a b : Arr ℝ) : Res (Arr ℝ) := do
  let s ← laxShape a.shape b.shape
  return ⟨s, fun idx => f (a.elem idx) (b.elem idx)⟩

/-- the same unit, as compared by `jax.tree.map` (`Unit.__eq__` compares the scale, not the name) -/
def UnitU.same (u v : UnitU) : Prop := u.dim = v.dim ∧ u.scale = v.scale

/-- `qlax.add(a, b)` of two Quantities: `b` is converted to the unit of `a` -/
noncomputable def QArr.lax2 (f : ℝ → ℝ → ℝ) (a b : QArr) : Res QArr := do
  let b ← b.uconvert a.unit
  return ⟨a.unit, ← a.arr.lax2 f b.arr⟩

/-- component by component -/
def zipRes (g : QArr → QArr → Res QArr) : List QArr → List QArr → Res (List QArr)
  | a :: l, b :: m => do return (← g a b) :: (← zipRes g l m)
  | _, _ => .ok []

open Classical in
/-- one leaf of `jax.tree.map(qlax.add, v, w)`: the units belong to the tree structure, which must agree; the
function sees the bare arrays -/
noncomputable def leaf2 (f : ℝ → ℝ → ℝ) (a b : QArr) : Res QArr :=
  if a.unit.same b.unit then do return ⟨a.unit, ← a.arr.lax2 f b.arr⟩ else .error .mismatch

/-- `jax.tree.map(qlax.add, v, w)` of two vectors of one class; the constructor is not run -/
noncomputable def treeMap2 (f : ℝ → ℝ → ℝ) (v w : CVec) : Res CVec :=
  if v.cls = w.cls then do return ⟨v.cls, ← zipRes (leaf2 f) v.comps w.comps⟩ else .error .noDispatch

/-- `v + w` for two vectors of one Cartesian class (`_src/vectors/d1/cartesian.py` 67-92, 206-228, 297-319;
`d2/cartesian.py` 81-101, 218-235, 331-348; `d3/cartesian.py` 99-117, 276-289, 386-389; the radial classes
have no rule). `CartesianPos3D` adds the fields as Quantities, all others go through `jax.tree.map`. -/
noncomputable def CVec.add (v w : CVec) : Res CVec :=
  match v.cls with
  | .pos3 =>
    if w.cls = .pos3 then do mkC .pos3 (← zipRes (QArr.lax2 (· + ·)) v.comps w.comps) else .error .noDispatch
  | .radVel | .radAcc => .error .noDispatch
  | _ => treeMap2 (· + ·) v w

/-- `v - w` (`d1/cartesian.py` 136-161, 352-374; `d2/cartesian.py` 142-158; `d3/cartesian.py` 135-151, 292-305,
415-418): there is no rule for `CartesianVel1D`, `CartesianVel2D`, `CartesianAcc2D` and the radial classes -/
noncomputable def CVec.sub (v w : CVec) : Res CVec :=
  match v.cls with
  | .pos1 | .pos2 | .pos3 | .vel3 | .acc1 | .acc3 => treeMap2 (· - ·) v w
  | .vel1 | .vel2 | .acc2 | .radVel | .radAcc => .error .noDispatch

/-- `-v` (`d1/cartesian.py` 121-133, `d2/cartesian.py` 127-139, `d3/cartesian.py` 120-132,
`base/base_vel.py` 107-127, `base/base_acc.py` 90-110): `jax.tree.map` over the leaves -/
def CVec.neg (v : CVec) : CVec := ⟨v.cls, v.comps.map fun q => ⟨q.unit, q.arr.map fun x => -x⟩⟩

/-- `a * q` for an array and a Quantity: numpy broadcasting, the unit is kept -/
noncomputable def QArr.scale (a : Arr ℝ) (q : QArr) : Res QArr := do
  return ⟨q.unit, ← Arr.map2 (· * ·) a q.arr⟩

/-- `a * v`: the factor must be a scalar, `error_if(any(shape(a)))` (`d1/cartesian.py` 95-118, 231-260, 322-349;
`d2/cartesian.py` 104-124, 238-261, 351-374; `d3/cartesian.py` 392-412). No rule for `CartesianVel3D`,
`CartesianAcc3D` and the radial classes. -/
noncomputable def CVec.lmul (a : Arr ℝ) (v : CVec) : Res CVec :=
  match v.cls with
  | .pos1 | .pos2 | .pos3 | .vel1 | .vel2 | .acc1 | .acc2 =>
    if a.shape.all (· = 0) then do mkC v.cls (← v.comps.mapM (QArr.scale a)) else .error .check
  | .vel3 | .acc3 | .radVel | .radAcc => .error .noDispatch

/-- `v * a`: only positions have a rule, which swaps the operands (`base/base_pos.py` 327-346) -/
noncomputable def CVec.rmul (v : CVec) (a : Arr ℝ) : Res CVec :=
  match v.cls with
  | .pos1 | .pos2 | .pos3 => v.lmul a
  | _ => .error .noDispatch

open Classical in
/-- `q / a`; a zero divisor gives infinities or NaN -/
noncomputable def QArr.divide (a : Arr ℝ) (q : QArr) : Res QArr :=
  if ∃ idx, InB a.shape idx ∧ a.get idx = 0 then .error .nonFinite
  else do return ⟨q.unit, ← Arr.map2 (· / ·) q.arr a⟩

/-- `v / a` (`base/base_pos.py` 200-219): positions only, the divisor may be an array -/
noncomputable def CVec.divide (v : CVec) (a : Arr ℝ) : Res CVec :=
  match v.cls with
  | .pos1 | .pos2 | .pos3 => do mkC v.cls (← v.comps.mapM (QArr.divide a))
  | _ => .error .noDispatch

/-- `q + q'` of two Quantities: numpy broadcasting -/
noncomputable def QArr.add (a b : QArr) : Res QArr := do
  let b ← b.uconvert a.unit
  return ⟨a.unit, ← Arr.map2 (· + ·) a.arr b.arr⟩

/-- `q - q'` -/
noncomputable def QArr.sub (a b : QArr) : Res QArr := do
  let b ← b.uconvert a.unit
  return ⟨a.unit, ← Arr.map2 (· - ·) a.arr b.arr⟩

/-- `q**2 + q'**2 + ...`, values in the square of the unit of the first -/
noncomputable def sumSquares (un : UnitU) : List QArr → Res (Arr ℝ)
  | [] => .ok (.scalar 0)
  | [q] => do return (← q.uconvert un).arr.map fun x => x * x
  | q :: l => do
    let q ← q.uconvert un
    Arr.map2 (· + ·) (q.arr.map fun x => x * x) (← sumSquares un l)

/-- `v.norm()` for velocities and accelerations: `abs` in one dimension (`d1/cartesian.py` 188-199, 283-294),
otherwise `sqrt` of the sum of the squares (`d2/cartesian.py` 290-301, `d3/cartesian.py` 229-240, 341-352).
`CartesianVel2D` has no method of its own and the inherited one asks for a position (`base/base_vel.py` 133);
the radial classes likewise. Simplification: the sum is associated to the right. Positions are in
`Verif/Arith.lean`. -/
noncomputable def CVec.norm (v : CVec) : Res QArr :=
  match v.cls, v.comps with
  | .vel1, [q] | .acc1, [q] => .ok ⟨q.unit, q.arr.map fun x => |x|⟩
  | .acc2, q :: l | .vel3, q :: l | .acc3, q :: l => do
    return ⟨q.unit, (← sumSquares q.unit (q :: l)).map Real.sqrt⟩
  | _, _ => .error .typeError

open Classical in
/-- one leaf of `jax.tree.map(jnp.equal, v, w)` (numpy broadcasting) -/
noncomputable def leafEq (a b : QArr) : Res (Arr Bool) :=
  if a.unit.same b.unit then Arr.map2 (fun x y => decide (x = y)) a.arr b.arr else .error .mismatch

/-- all leaves -/
noncomputable def leavesEq : List QArr → List QArr → Res (List (Arr Bool))
  | a :: l, b :: m => do return (← leafEq a b) :: (← leavesEq l m)
  | _, _ => .ok []

/-- `jnp.logical_and.reduce(jnp.array(leaves))`: `jnp.array` raises unless all have one shape -/
def allLeaves : List (Arr Bool) → Res (Arr Bool)
  | [] => .error .value
  | c :: l =>
    if l.all fun d => d.shape = c.shape then .ok ⟨c.shape, fun idx => (c :: l).all fun d => d.get idx⟩
    else .error .value

/-- `v == w` for two vectors of one class (`base/base.py` 545-618, `base/base_pos.py` 96-137) -/
noncomputable def CVec.eq (v w : CVec) : Res (Arr Bool) :=
  if v.cls = w.cls then do allLeaves (← leavesEq v.comps w.comps) else .error .noDispatch

/-! ## N dimensions

A vector is its one field, an array of shape `(*batch, F)`. -/

/-- `CartesianPosND(q)`, `CartesianVelND(d_q)`, `CartesianAccND(d2_q)`: the converter asks for the physical type
(`_src/vectors/dn/cartesian.py` 82-84, 334-336, 482-484) -/
def mkND (d : Dim) (q : QArr) : Res QArr := if q.unit.dim = d then .ok q else .error .units

/-- `p + p'` for two `CartesianPosND` (195-212, `represent_as` is the identity: `dn/transform.py` 17-33) -/
noncomputable def addND (a b : QArr) : Res QArr := do mkND .length (← a.add b)

/-- `p - p'` (258-276) -/
noncomputable def subND (a b : QArr) : Res QArr := do mkND .length (← a.sub b)

/-- `-p` (239-255), and of velocities and accelerations (`base/base_vel.py` 127, `base/base_acc.py` 110) -/
def negND (a : QArr) : QArr := ⟨a.unit, a.arr.map fun x => -x⟩

/-- `s * p`, `p * s` (215-236, `base/base_pos.py` 327-346) -/
noncomputable def mulND (s : Arr ℝ) (a : QArr) : Res QArr :=
  if s.shape.all (· = 0) then do mkND .length (← a.scale s) else .error .check

/-- `p / s` (`base/base_pos.py` 200-219) -/
noncomputable def divND (a : QArr) (s : Arr ℝ) : Res QArr := do mkND .length (← a.divide s)

/-- `jnp.linalg.vector_norm(q, axis=-1)` (104-120, 354-370, 523-544) -/
noncomputable def normND (a : QArr) : Res QArr :=
  match a.arr.shape.reverse with
  | [] => .error .value
  | F :: s => .ok ⟨a.unit, ⟨s.reverse, fun idx =>
      Real.sqrt (((List.range F).map fun k => a.arr.get (idx ++ [k]) * a.arr.get (idx ++ [k])).sum)⟩⟩

open Classical in
/-- `p == p'` (`base/base_pos.py` 96-137, `base/base.py` 613-618): one leaf -/
noncomputable def eqND (a b : QArr) : Res (Arr Bool) := do allLeaves [← leafEq a b]

/-- physical type of a product -/
def Dim.mul (a b : Dim) : Dim := ⟨a.len + b.len, a.time + b.time, a.mass + b.mass, a.angle + b.angle, a.mag + b.mag⟩

/-- unit of a product -/
def UnitU.mul (a b : UnitU) : UnitU := ⟨a.name ++ " " ++ b.name, a.dim.mul b.dim, a.scale * b.scale, mul_pos a.pos b.pos⟩

/-- `q * q'` of two Quantities: numpy broadcasting -/
noncomputable def QArr.mul (a b : QArr) : Res QArr := do
  return ⟨a.unit.mul b.unit, ← Arr.map2 (· * ·) a.arr b.arr⟩

/-- "time" -/
def Dim.sec : Dim := { time := 1 }

/-- "s2" -/
def Dim.sec2 : Dim := { time := 2 }

/-- the class of the result of multiplying by a time or a squared time -/
def CCls.times (d : Dim) : CCls → Option CCls
  | .vel1 => if d = .sec then some .pos1 else none
  | .vel2 => if d = .sec then some .pos2 else none
  | .vel3 => if d = .sec then some .pos3 else none
  | .acc1 => if d = .sec then some .vel1 else if d = .sec2 then some .pos1 else none
  | .acc2 => if d = .sec then some .vel2 else if d = .sec2 then some .pos2 else none
  | .acc3 => if d = .sec then some .vel3 else if d = .sec2 then some .pos3 else none
  | _ => none

/-- `v * t` for Cartesian velocities and accelerations (`base/base_vel.py` 141-162, `base/base_acc.py` 126-150,
174-198): field by field. The radial classes are in `Verif/Arith.lean`. -/
noncomputable def CVec.times (v : CVec) (t : QArr) : Res CVec :=
  match v.cls.times t.unit.dim with
  | some c => do mkC c (← v.comps.mapM fun q => q.mul t)
  | none => .error .noDispatch

/-- the same for `CartesianVelND` and `CartesianAccND`, physical type `d`: the one field times the Quantity,
numpy broadcasting over all axes, the components included -/
noncomputable def timesND (d : Dim) (q t : QArr) : Res QArr :=
  if d = .speed ∧ t.unit.dim = .sec then do mkND .length (← q.mul t)
  else if d = .acc ∧ t.unit.dim = .sec then do mkND .speed (← q.mul t)
  else if d = .acc ∧ t.unit.dim = .sec2 then do mkND .length (← q.mul t)
  else .error .noDispatch

end Verif
