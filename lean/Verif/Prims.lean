import Verif.BatchVel

/-!
# Array primitives on vectors

`jnp.broadcast_to(vec, shape)` and `jnp.reshape(vec, shape)` reach a vector through the two primitives registered for it
(`_src/vectors/base/register_primitives.py` 27-139, `_src/vectors/base/base_pos.py` 411-444). JAX hands them a shape that
includes the axis of the components (`aval`, `_src/vectors/base/mixins.py` 24-122). Both rules run over `field_items(operand)`,
that is, over all fields, `Delta` included, and call the constructor again. What JAX does before it reaches the primitive is not
modelled. `FourVector` (whose field `q` is itself a vector) is not covered.
-/

namespace Verif

/-- a function of every field that may raise, attributes included (`field_items(operand)`) -/
def Pos.mapFieldsM (f : BArr → Res BArr) : Pos BArr → Res (Pos BArr)
  | .prolate mu nu phi delta => do return .prolate (← f mu) (← f nu) (← f phi) (← f delta)
  | p => p.mapCoordsM f

/-- `jnp.broadcast_to(a, s)` on one field: raises unless the shape broadcasts to `s` -/
def bcastTo (s : List ℕ) (a : BArr) : Res BArr := do
  let u ← bc2 a.shape s
  if u = s then .ok (a.broadcastTo s) else .error .value

/-- the rule for `broadcast_in_dim_p` on a position (`register_primitives.py` 27-139): `c_shape = shape[:-1]` -/
noncomputable def broadcastInDimPos (shape : List ℕ) (P : Pos BArr) : Res (Pos BArr) := do
  (← P.mapFieldsM (bcastTo shape.dropLast)).rebuildB

/-- the same for velocities and accelerations (no checks) -/
def broadcastInDimVel (shape : List ℕ) (V : Vel BArr) : Res (Vel BArr) := V.mapM (bcastTo shape.dropLast)

/-- the same for `CartesianPosND`, `CartesianVelND`, `CartesianAccND`, whose one field has the axis of the components -/
def broadcastInDimND (shape : List ℕ) (q : BArr) : Res BArr := bcastTo shape.dropLast q

/-- the rule for `reshape_p` on a position (`base_pos.py` 411-444):
`new_sizes = (new_sizes[0] // len(operand.components), *new_sizes[1:])` -/
noncomputable def reshapePrim (newSizes : List ℕ) (P : Pos BArr) : Res (Pos BArr) :=
  match newSizes with
  | [] => .error .value
  | n0 :: rest => do
    (← P.mapFieldsM fun a => a.gather (planReshape ((n0 / P.coords.length :: rest).map some))).rebuildB

end Verif
