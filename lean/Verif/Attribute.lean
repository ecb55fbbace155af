import Verif.Num

/-!
# Attributes of vectors and field functions

`VectorAttribute` (`_src/vectors/base/attribute.py`) is the descriptor for fields of a vector class that are not components
(`Delta` of `ProlateSpheroidalPos`, `c` of `FourVector`, and those of users' classes). This file models the descriptor, the
construction of objects of any class with components and attributes, and the functions that filter attributes out
(`_src/vectors/base/compat.py` 336-507), on which `T`, `flatten`, indexing and so on are built.

`V` is the type of values (Quantities of any kind). Trusted: the `__init__` that `dataclasses` and equinox generate, and
`fields`, `field_items`, `asdict`, `replace` of `dataclassish` without a filter, which list the fields in the order of their
declaration. Not modelled: `__check_init__` of the class (C06), the order in which converters run when several fail.
-/

namespace Verif

variable {V : Type}

/-- A `VectorAttribute` after `__post_init__` (`_src/vectors/base/attribute.py` 26-76); `default = none` is
`Sentinel.MISSING` -/
structure VAttr (V : Type) where
  default : Option V
  converter : V → Res V

/-- `VectorAttribute(default=..., converter=...)`: `__post_init__` converts the default
(`_src/vectors/base/attribute.py` 68-72) -/
def VAttr.make (default : Option V) (converter : V → Res V) : Res (VAttr V) :=
  match default with
  | none => .ok ⟨none, converter⟩
  | some d => do return ⟨some (← converter d), converter⟩

/-- `__set__` (`_src/vectors/base/attribute.py` 107-115). `none` is the descriptor itself, which `__init__` has as the default
of the parameter; the parameter is required if the attribute has no default, because `__get__` on the class raises
`AttributeError` then (lines 92-102). -/
def VAttr.set (a : VAttr V) (value : Option V) : Res V :=
  match value with
  | some v => a.converter v
  | none => match a.default with
    | some d => a.converter d
    | none => .error .badField

/-- A field of a vector class: a component with the `converter` of `eqx.field`, or an attribute -/
inductive Fld (V : Type) where
  | comp (default : Option V) (converter : V → Res V)
  | attr (a : VAttr V)

/-- A vector class: its fields in the order of declaration -/
abbrev VClass (V : Type) := List (String × Fld V)

/-- an object: the values of the fields, in the same order -/
abbrev VObj (V : Type) := List (String × V)

/-- the value of a field after `__init__`, `given` the argument if there is one -/
def Fld.value : Fld V → Option V → Res V
  | .comp default conv, given => match given with
    | some v => conv v
    | none => match default with
      | some d => conv d
      | none => .error .badField
  | .attr a, given => a.set given

/-- `cls(**kw)` -/
def VClass.construct (cls : VClass V) (kw : VObj V) : Res (VObj V) :=
  if kw.all fun e => cls.any fun d => d.1 == e.1 then
    cls.mapM fun d => do return (d.1, ← d.2.value (kw.lookup d.1))
  else .error .badField

/-- `_is_attr(cls, name)` (`_src/vectors/base/compat.py` 336-338); `__get__` on the finished class returns the descriptor,
with a default or without (`_src/vectors/base/attribute.py` 92-102) -/
def VClass.isAttr (cls : VClass V) (name : String) : Bool :=
  match cls.lookup name with
  | some (.attr _) => true
  | _ => false

/-- the names in `fields(AttrFilter, cls)` and `fields(AttrFilter, obj)` (`_src/vectors/base/compat.py` 344-382),
`field_keys(AttrFilter, ...)` (420-457) and `cls.components` (`_src/vectors/base/base.py` 853-870) -/
def VClass.fieldKeysF (cls : VClass V) : List String :=
  (cls.filter fun d => !cls.isAttr d.1).map Prod.fst

/-- `field_items(AttrFilter, obj)` (`_src/vectors/base/compat.py` 487-507) and `asdict(AttrFilter, obj)` (388-414) -/
def VClass.fieldItemsF (cls : VClass V) (o : VObj V) : VObj V := o.filter fun e => !cls.isAttr e.1

/-- `field_values(AttrFilter, obj)` (`_src/vectors/base/compat.py` 463-481) -/
def VClass.fieldValuesF (cls : VClass V) (o : VObj V) : List V := (cls.fieldItemsF o).map Prod.snd

/-- `replace(obj, **changes)`: the class is called again with the values that are not changed -/
def VClass.replace (cls : VClass V) (o changes : VObj V) : Res (VObj V) :=
  cls.construct (changes ++ o.filter fun e => (changes.lookup e.1).isNone)

/-- `replace(self, **{k: f(v) for k, v in field_items(AttrFilter, self)})`: `mT`, `T`, `+v`, indexing, `flatten`, `ravel`,
`reshape` (`_src/vectors/base/base.py` 350, 439, 459, 671, 745, 766, 804) -/
def VClass.mapComps (cls : VClass V) (f : V → V) (o : VObj V) : Res (VObj V) :=
  cls.replace o ((cls.fieldItemsF o).map fun e => (e.1, f e.2))

/-- `units`, `dtypes`, `devices`, `shapes`, `sizes` (`_src/vectors/base/base.py` 872-947) -/
def VClass.describe {W : Type} (cls : VClass V) (f : V → W) (o : VObj V) : List (String × W) :=
  (cls.fieldItemsF o).map fun e => (e.1, f e.2)

/-- `n` times `replace(obj)` -/
def VClass.replaceN (cls : VClass V) : ℕ → VObj V → Res (VObj V)
  | 0, o => .ok o
  | n + 1, o => do cls.replaceN n (← cls.replace o [])

end Verif
