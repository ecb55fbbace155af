import Verif.Shape
import Verif.Units

/-!
# Cartesian vectors and `Quantity` arrays

Vectors whose components are arrays with units, their conversion to one `Quantity` and back.
-/

namespace Verif

/-- An array with a unit (`unxt.Quantity`). -/
structure QArr where
  unit : UnitU
  arr : Arr ℝ

/-- `u.uconvert(unit, q)` -/
noncomputable def QArr.uconvert (un : UnitU) (q : QArr) : Res QArr :=
  if un.dim = q.unit.dim then
    .ok ⟨un, ⟨q.arr.shape, fun idx => q.arr.get idx * (q.unit.scale / un.scale)⟩⟩
  else .error .units

/-- `q[index]`, `jnp.reshape(q, ...)`: the unit is kept -/
def QArr.gather (p : Plan) (q : QArr) : Res QArr := do return ⟨q.unit, ← q.arr.gather p⟩

/-- `jnp.atleast_1d(q)` -/
def QArr.atleast1d (q : QArr) : QArr :=
  match q.arr.shape with
  | [] => ⟨q.unit, ⟨[1], fun _ => q.arr.get []⟩⟩
  | _ => q

/-- The classes that have both conversions (`_src/vectors/base/compat.py` 31-196,
`_src/vectors/compat.py` 30-210, and the `from_` cited below). -/
inductive CCls where
  | pos1 | pos2 | pos3 | vel1 | vel2 | vel3 | acc1 | acc2 | acc3 | radVel | radAcc
  deriving DecidableEq, Repr

/-- number of fields (`_src/vectors/d1/cartesian.py`, `d1/radial.py`, `d2/cartesian.py`,
`d3/cartesian.py`) -/
def CCls.n : CCls → ℕ
  | .pos1 | .vel1 | .acc1 | .radVel | .radAcc => 1
  | .pos2 | .vel2 | .acc2 => 2
  | .pos3 | .vel3 | .acc3 => 3

/-- physical type of the fields (same files) -/
def CCls.dim : CCls → Dim
  | .pos1 | .pos2 | .pos3 => .length
  | .vel1 | .vel2 | .vel3 | .radVel => .speed
  | .acc1 | .acc2 | .acc3 | .radAcc => .acc

/-- A vector: class and fields in order (`x`, `y`, `z`). -/
structure CVec where
  cls : CCls
  comps : List QArr

/-- `cls(*fields)`: the converter of each field is `u.Quantity[dim].from_` -/
def mkC (c : CCls) (comps : List QArr) : Res CVec :=
  if comps.length ≠ c.n then .error .badField
  else if comps.all fun q => q.unit.dim = c.dim then .ok ⟨c, comps⟩ else .error .units

/-- `jnp.stack(arrays, axis=-1)` of arrays of shape `s`: everything is converted to the unit of the
first -/
noncomputable def stackLast (s : List ℕ) (l : List QArr) : Res QArr :=
  match l with
  | [] => .error .value
  | q :: _ => do
    let cs ← l.mapM (QArr.uconvert q.unit)
    return ⟨q.unit, ⟨s ++ [l.length], fun idx =>
      match cs[idx.getLastD 0]? with
      | some c => c.arr.get idx.dropLast
      | none => 0⟩⟩

/-- `convert(vec, Quantity)`: `full_shaped` then stack (`_src/vectors/base/compat.py` 69-70, where a
Cartesian position is its own Cartesian form; `_src/vectors/compat.py` 30-32) -/
noncomputable def CVec.toQuantity (v : CVec) : Res QArr := do
  let s ← broadcastShapes (v.comps.map fun q => q.arr.shape)
  let full ← mkC v.cls (v.comps.map fun q => ⟨q.unit, q.arr.broadcastTo s⟩)
  stackLast s full.comps

/-- which Quantities the rule `cls.from_(obj)` is written for: 1-D rules ask for the physical type only
(`_src/vectors/d1/base.py` 45-73, 105-133, 159-187), `CartesianPos2D`, `CartesianVel2D` and
`CartesianAcc3D` for a last axis of the right length (`d2/cartesian.py` 55-58, 192-195,
`d3/cartesian.py` 358-361), the others for nothing (`d2/cartesian.py` 308, `d3/cartesian.py` 69-74,
246-251) -/
def CCls.accepts (c : CCls) (q : QArr) : Bool :=
  match c with
  | .pos1 | .vel1 | .acc1 | .radVel | .radAcc => q.unit.dim = c.dim
  | .pos2 | .vel2 => q.arr.shape.getLast? = some 2
  | .acc3 => q.arr.shape.getLast? = some 3
  | .acc2 | .pos3 | .vel3 => true

/-- `cls.from_(quantity)`. A `CartesianAcc3D` whose rule does not apply falls back to
`AbstractAcc3D.from_` (`d3/constructor.py` 112-130), which calls itself. -/
noncomputable def fromQuantity (c : CCls) (q : QArr) : Res CVec := do
  if !c.accepts q then throw (if c = .acc3 then .recursion else .noDispatch)
  let a := if c.n = 1 then q.atleast1d else q
  mkC c (← (List.range c.n).mapM fun i => a.gather (planLast i))

/-- `CartesianPosND.from_` (`_src/vectors/dn/cartesian.py` 127-174), `CartesianVelND.from_` (377-424),
`CartesianAccND.from_` (551-599): the physical type must match, `cls(jnp.atleast_1d(x))` -/
def fromQuantityND (d : Dim) (q : QArr) : Res QArr :=
  if q.unit.dim = d then .ok q.atleast1d else .error .noDispatch

/-- `convert(vec, Quantity)` of an N-dimensional vector with physical type `d`: there is a rule for
`CartesianPosND` only (177-192) -/
def toQuantityND (d : Dim) (q : QArr) : Res QArr := if d = .length then .ok q else .error .noDispatch

end Verif
