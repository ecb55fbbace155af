import Verif.ClassGraph

/-!
# `from_` of operators and frames

`AbstractOperator.from_` and `AbstractReferenceFrame.from_` are plum functions of their own (`_src/operators/base.py` 43-104,
240-285, `_src/operators/galilean/rotation.py` 166-184; `_src/frames/base.py` 22-36, 65-90 and
`_coordinax_space_frames/_interop/interop_astropy/frames.py` 12-68). This file models their registrations and bodies, and the
converters of the fields of operators and of `Galactocentric` that call `from_` of vectors (`FromDispatch`).

Precedences are shifted by one, 0 stands for -1.
-/

namespace Verif

/-- Implementations, named by file and line: `o` is `operators/base.py`, `r` is `operators/galilean/rotation.py`, `f` is
`frames/base.py`, `y` is `interop_astropy/frames.py` -/
inductive OFRule where
  | o45 | o59 | o76 | o241 | r168
  deriving DecidableEq, Repr

inductive FFRule where
  | f32 | f66 | y13 | y31
  deriving DecidableEq, Repr

/-- `AbstractOperator.from_`; `ArrayLike | list[float | int]` is the class `arrayLike` -/
def opFromRegs : List (Method OFRule) :=
  [⟨⟨[T .operator], some [.any]⟩, 0, .o45⟩, ⟨⟨[T .operator, I .mapAny], none⟩, 1, .o59⟩,
   ⟨⟨[T .operator, I .arrayLike, I .strObj], none⟩, 1, .o76⟩, ⟨⟨[T .operator, I .operator], none⟩, 1, .o241⟩,
   ⟨⟨[T .rotationOp, I .rotObj], none⟩, 1, .r168⟩]

def opFromTable : List (Method OFRule) := registerAll opFromRegs

/-- `AbstractReferenceFrame.from_` -/
def frameFromRegs : List (Method FFRule) :=
  [⟨⟨[T .frame, I .mapAny], none⟩, 1, .f32⟩, ⟨⟨[T .frame, I .frame], none⟩, 1, .f66⟩,
   ⟨⟨[T .icrs, I .apyIcrs], none⟩, 1, .y13⟩, ⟨⟨[T .galactocentric, I .apyGcf], none⟩, 1, .y31⟩]

def frameFromTable : List (Method FFRule) := registerAll frameFromRegs

/-- What `from_` of an operator or frame class does: return the argument; call the class `c` with the arguments as they are, with
the entries of the mapping, with the Quantity made of the array and the unit, with the fields of the argument, with the matrix
of the rotation, with the data of an astropy frame; raise -/
inductive OMade where
  | same
  | callArgs (c : Cls)
  | callMapping (c : Cls)
  | callQuantity (c : Cls)
  | callFields (c : Cls)
  | callMatrix (c : Cls)
  | callAstropy (c : Cls)
  | typeError
  | notFound
  | ambiguous
  deriving DecidableEq, Repr

/-- the bodies; `d` is the class of the first argument -/
def OFRule.run (c : Cls) (d : Option Cls) : OFRule → OMade
  | .o45 => .callArgs c
  | .o59 => .callMapping c
  | .o76 => .callQuantity c
  | .o241 => match d with
    | some d => if !d.sub c then .typeError else if d = c then .same else .callFields c
    | none => .typeError
  | .r168 => .callMatrix c

/-- the bodies. The rules of astropy raise if the frame has data, which is not modelled. -/
def FFRule.run (c d : Cls) : FFRule → OMade
  | .f32 => .callMapping c
  | .f66 => if d.sub c then .same else .typeError
  | .y13 => .callAstropy c
  | .y31 => .callAstropy c

/-- `cls.from_(*args)` of an operator class, for arguments of the classes `ds` -/
def opFrom (c : Cls) (ds : List Cls) : OMade :=
  match resolve opFromTable (.klass c :: ds.map Atom.inst) with
  | .found r => r.run c ds.head?
  | .notFound => .notFound
  | .ambiguous => .ambiguous

/-- `cls.from_(obj)` of a frame class -/
def frameFrom (c d : Cls) : OMade :=
  match resolve frameFromTable [.klass c, .inst d] with
  | .found r => r.run c d
  | .notFound => .notFound
  | .ambiguous => .ambiguous

/-- `Unless(AbstractVel, CartesianVel3D.from_)`, the converter of `GalileanBoost.velocity` and `VelocityBoost.velocity`
(`operators/galilean/boost.py` 79-81, `operators/boost.py` 61-63); `n` bounds the recursion -/
def boostField (n : ℕ) (d : Cls) : Made := if d.sub (.lib .vel) then .same else fromCall n (.lib .cartVel3) (.one d)

/-- `FourVector.from_`, the converter of `GalileanTranslation.translation` (`operators/galilean/translation.py` 94) -/
def translationField (n : ℕ) (d : Cls) : Made := fromCall n (.lib .fourVector) (.one d)

/-- `LonLatSphericalPos.from_`, the converter of `Galactocentric.galcen` (`galactocentric.py` 47-54) -/
def galcenField (n : ℕ) (d : Cls) : Made := fromCall n (.lib .lonlatPos) (.one d)

/-- `CartesianVel3D.from_`, the converter of `Galactocentric.galcen_v_sun` (`galactocentric.py` 71-74) -/
def vSunField (n : ℕ) (d : Cls) : Made := fromCall n (.lib .cartVel3) (.one d)

/-- the class of the value that a converter stores -/
def Made.stored (m : Made) (d : Cls) : Option Cls :=
  match m with
  | .same => some d
  | .new c _ => some c
  | _ => none

/-- The converter of `Pipe.operators`, `_converter_seq` (`operators/pipe.py` 16-26): the operators as they are; those of a
`Pipe`; the operator alone; `TypeError` -/
inductive SeqMade where
  | items
  | operatorsOf
  | single
  | typeError
  deriving DecidableEq, Repr

def pipeField (d : Cls) : SeqMade :=
  if d.sub (.lib .opSeq) then .items
  else if d.sub (.lib .pipeOp) then .operatorsOf
  else if d.sub (.lib .operator) then .single
  else .typeError

/-- The converter of `GalileanOperator.translation` and `velocity`, `Unless(C, C.from_)` (`operators/galilean/composite.py`
135-151), and of `rotation`, `GalileanRotation.from_` (129-132) -/
def partField (c : Base) (d : Cls) : OMade :=
  if c ≠ .rotationOp ∧ d.sub (.lib c) then .same else opFrom (.lib c) [d]

end Verif
