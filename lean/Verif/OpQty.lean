import Verif.Op
import Verif.Frame
import Verif.Units

/-!
# Operators on bare Quantities, Pipes as sequences, construction of operators

Quantities are unbatched lists of lengths in AU, times in seconds.
-/

namespace Verif

/-! ## `op(quantity)`, `op(quantity, t)` (`_src/operators/compat.py`) -/

/-- Arguments: a length Quantity of shape `(n,)`, alone or with a time. -/
inductive QArg where
  | q (xs : List ℝ)
  | qt (xs : List ℝ) (t : ℝ)

/-- `CartesianPos1D.from_(x)`, `CartesianPos2D.from_(x)`, `CartesianPos3D.from_(x)` by the length of the last
axis (`compat.py` 43, 64, 90, 111, 150, 182) -/
def cartOf : List ℝ → Option (Pos ℝ)
  | [x] => some (.cart1 x)
  | [x, y] => some (.cart2 x y)
  | [x, y, z] => some (.cart3 x y z)
  | _ => none

/-- `Pipe` or `GalileanOperator` (`composite.py`) -/
def Op.isComposite : Op → Bool
  | .pipe _ | .galilean _ _ _ => true
  | _ => false

/-- the rules of `compat.py`: 27-43, 75-90 (one and two dimensions), 122-152 (three: `callQty`),
221-252 (four) -/
noncomputable def Op.callQGeneric (op : Op) (xs : List ℝ) : Res (List ℝ) :=
  match xs with
  | [x, y, z] => op.callQty x y z
  | [_, _, _, _] => do
    match ← op.call (.four (← Four.from_ xs)) with
    | .four v => v.toQuantity
    | _ => .error .noDispatch
  | xs =>
    match cartOf xs with
    | none => .error .noDispatch
    | some p => do
      match ← op.call (.pos p) with
      | .pos q => toQuantity q
      | _ => .error .noDispatch

/-- the rules of `compat.py` with a time: 46-65, 93-112, 155-183 -/
noncomputable def Op.callQtGeneric (op : Op) (xs : List ℝ) (t : ℝ) : Res (List ℝ × ℝ) :=
  match cartOf xs with
  | none => .error .noDispatch
  | some p => do
    match ← op.call (.posTime p t) with
    | .posTime q t' => return (← toQuantity q, t')
    | _ => .error .noDispatch

/-- `op(...)` on Quantities, which rule wins. `Identity` takes everything (`identity.py` 125-173, precedence 1).
For composite operators the rule for general arguments (`pipe.py` 89-109, `AbstractCompositeOperator, *object`) and
the rules of `compat.py` (`AbstractOperator, Q`) are both applicable and neither is more specific: plum
raises `AmbiguousLookupError`, except where `compat.py` 122-125 names `Pipe` and a Quantity of three components.
Lengths other than 1 to 4 are left out (counted as an error). -/
noncomputable def Op.callQ (op : Op) : QArg → Res QArg
  | .q xs =>
    match op with
    | .identity => .ok (.q xs)
    | .pipe ops =>
      if xs.length = 3 then do return .q (← Op.callQGeneric (.pipe ops) xs) else .error .noDispatch
    | .galilean _ _ _ => .error .noDispatch
    | op => do return .q (← op.callQGeneric xs)
  | .qt xs t =>
    match op with
    | .identity => .ok (.qt xs t)
    | op =>
      if op.isComposite then .error .noDispatch
      else do
        let r ← op.callQtGeneric xs t
        return .qt r.1 r.2

/-! ## Pipes as sequences -/

/-- `op.operators` (`pipe.py` 85, `galilean/composite.py` 159-164); what `__iter__` yields (`composite.py` 80-81) -/
def Op.operators : Op → Option (List Op)
  | .pipe ops => some ops
  | .galilean R d v => some [.rotation R, .translation d, .boost v]
  | _ => none

/-- Python's index of a tuple of length `n` -/
def pyIndex (n : ℕ) (i : ℤ) : Option ℕ :=
  if 0 ≤ i then (if i < n then some i.toNat else none)
  else if 0 ≤ i + n then some (i + n).toNat else none

/-- Python's bound of a slice with step 1 of a tuple of length `n` -/
def pyBound (n : ℕ) (i : ℤ) : ℕ := if 0 ≤ i then min i.toNat n else (i + n).toNat

/-- `tuple[a:b]` -/
def pySlice {α : Type} (l : List α) (a b : Option ℤ) : List α :=
  let lo := match a with | none => 0 | some i => pyBound l.length i
  let hi := match b with | none => l.length | some i => pyBound l.length i
  (l.take hi).drop lo

/-- `op[i]` (`composite.py` 74-77, `galilean/composite.py` 192-193); other operators have no `__getitem__`.
`IndexError` is `.key` here. -/
def Op.getItem (op : Op) (i : ℤ) : Res Op :=
  match op.operators with
  | none => .error .typeError
  | some ops =>
    match (pyIndex ops.length i).bind fun k => ops[k]? with
    | some o => .ok o
    | none => .error .key

/-- `op[a:b]` (`composite.py` 74-78, `galilean/composite.py` 194): a Pipe -/
def Op.getSlice (op : Op) (a b : Option ℤ) : Res Op :=
  match op.operators with
  | none => .error .typeError
  | some ops => .ok (.pipe (pySlice ops a b))

/-- what `Pipe(...)` is given -/
inductive SeqArg where
  | tuple (ops : List Op)
  | list (ops : List Op)
  | op (o : Op)
  | other

/-- `Pipe(x)` through `_converter_seq` (`pipe.py` 16-26) -/
def mkPipe : SeqArg → Res Op
  | .tuple ops | .list ops => .ok (.pipe ops)
  | .op (.pipe ops) => .ok (.pipe ops)
  | .op o => .ok (.pipe [o])
  | .other => .error .typeError

/-! ## construction -/

/-- the operator classes -/
inductive OpCls where
  | identity | rotation | spatial | translation | boost | vboost | galilean | pipe
  deriving DecidableEq, Repr

/-- class of an operator -/
def Op.cls : Op → OpCls
  | .identity => .identity
  | .rotation _ => .rotation
  | .spatial _ => .spatial
  | .translation _ => .translation
  | .boost _ => .boost
  | .vboost _ => .vboost
  | .galilean _ _ _ => .galilean
  | .pipe _ => .pipe

/-- `cls.from_(op)` (`base.py` 240-285); subclasses written by users are not modelled -/
def fromOp (c : OpCls) (o : Op) : Res Op := if o.cls = c then .ok o else .error .typeError

/-- `Quantity(xs, unit)` in base units -/
def qtyOf (xs : List ℝ) (un : UnitU) : List ℝ := xs.map fun x => x * un.scale

/-- `cls.from_(xs, unit)` for a list of numbers (`base.py` 75-104): `cls(Quantity(xs, unit))` and the converter of
the field. `GalileanSpatialTranslation`: `galilean/spatial_translation.py` 31-55, by the shape.
`GalileanTranslation`: `FourVector.from_` (`galilean/translation.py` 94; a Quantity of three components fails on
its time field, `d4/spacetime.py` 284-308). `GalileanBoost`, `VelocityBoost`: `CartesianVel3D.from_`
(`galilean/boost.py` 79, `boost.py` 61), which takes the first three components; fewer are not modelled
(counted as an error). The other classes have no such field (`Pipe`: `pipe.py` 26; `Identity` has no field;
`GalileanRotation` wants a dimensionless Quantity, whose shape it does not check - not modelled;
`GalileanOperator` likewise). -/
noncomputable def fromValues (c : OpCls) (xs : List ℝ) (un : UnitU) : Res Op :=
  match c with
  | .spatial =>
    match cartOf (qtyOf xs un) with
    | none => .error .typeError
    | some p => if un.dim = .length then .ok (.spatial p) else .error .units
  | .translation =>
    if un.dim = .length then do return .translation (← Four.from_ (qtyOf xs un)) else .error .units
  | .boost | .vboost =>
    if un.dim ≠ .speed then .error .units
    else
      match qtyOf xs un with
      | x :: y :: z :: _ => .ok (if c = .boost then .boost (.cart3 x y z) else .vboost (.cart3 x y z))
      | _ => .error .value
  | _ => .error .typeError

/-- `GalileanOperator(rotation=..., translation=..., velocity=...)` with the defaults of the fields
(`galilean/composite.py` 129-151): the identity matrix, `[0, 0, 0, 0] kpc`, `[0, 0, 0] km/s` -/
noncomputable def mkGalilean (R : Option Mat3) (d : Option Four) (v : Option (Vel ℝ)) : Op :=
  .galilean (R.getD 1) (d.getD ⟨0, .cart3 0 0 0, lightSpeed⟩) (v.getD (.cart3 0 0 0))

/-- an axis letter -/
inductive Axis where
  | x | y | z
  deriving DecidableEq, Repr

/-- rotation about an axis -/
noncomputable def Axis.matrix : Axis → ℝ → Mat3
  | .x, a => eulerX a
  | .y, a => eulerY a
  | .z, a => eulerZ a

/-- `GalileanRotation.from_euler(seq, angles)` (`galilean/rotation.py` 142-164). Trusted:
`Rotation.from_euler` of `jax.scipy`: for a lower-case sequence (extrinsic) the rotations about the fixed axes one
after the other, for an upper-case one (intrinsic) about the moving axes, which is the product in the other
order. -/
noncomputable def fromEuler (intrinsic : Bool) (seq : List (Axis × ℝ)) : Op :=
  let ms := seq.map fun p => p.1.matrix p.2
  .rotation (if intrinsic then ms.foldl (fun A B => A * B) 1 else ms.foldl (fun A B => B * A) 1)

/-- `-op` (`boost.py` 132-146, `galilean/boost.py` 181-195, `galilean/spatial_translation.py` 236-250,
`galilean/rotation.py` 321-337): the parameter changes sign; other classes have no `__neg__` -/
noncomputable def Op.neg : Op → Res Op
  | .rotation R => .ok (.rotation (-R))
  | .spatial d => do return .spatial (← negPos d)
  | .boost v => .ok (.boost (negVel v))
  | .vboost v => .ok (.vboost (negVel v))
  | _ => .error .typeError

/-- `op @ op'` (`galilean/rotation.py` 339-404) -/
noncomputable def Op.matmul : Op → Op → Res Op
  | .rotation R, .rotation S => .ok (.rotation (R * S))
  | .rotation _, _ => .error .noDispatch
  | _, _ => .error .typeError

/-- `op.is_inertial` (`identity.py` 102, `boost.py` 86, `galilean/boost.py` 104, `galilean/rotation.py` 203,
`galilean/spatial_translation.py` 186, `galilean/translation.py` 119; `composite.py` 40-42 asks the parts) -/
def Op.isInertial : Op → Bool
  | .pipe ops => ops.attach.all fun ⟨o, _⟩ => o.isInertial
  | _ => true

end Verif
