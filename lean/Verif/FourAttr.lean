import Verif.Construct

/-!
# Attributes of a `FourVector`

`w.name` is Python's attribute lookup: what the instance and its classes define goes first; if that ends in `AttributeError`,
Python calls `FourVector.__getattr__` (`_src/vectors/d4/spacetime.py` 157-170), which looks `q` up on `self`, through the same
lookup, and then the name on `q`.

Since lookups can call lookups, `getattr` takes a number of steps it may use; `none` is: not finished.
-/

namespace Verif

/-- How a lookup ends: with a value, with `AttributeError`, or with another exception -/
inductive Got (V : Type) where
  | value (v : V)
  | missing
  | raises (e : String)
  deriving DecidableEq

/-- A Python object: some data, or an object with what ordinary lookup finds, properties evaluated. `missing` in the list is a property
that raises `AttributeError` itself. `four` says if its class has the `__getattr__` of `FourVector`. -/
inductive PyObj where
  | data (n : ℕ)
  | obj (four : Bool) (attrs : List (String × Got PyObj))

/-- `object.__getattribute__(o, name)` -/
def PyObj.ordinary (o : PyObj) (name : String) : Got PyObj :=
  match o with
  | .data _ => .missing
  | .obj _ attrs => (attrs.lookup name).getD .missing

/-- does the class have `FourVector.__getattr__`? -/
def PyObj.four : PyObj → Bool
  | .data _ => false
  | .obj b _ => b

/-- `getattr(o, name)`, with `FourVector.__getattr__` (`_src/vectors/d4/spacetime.py` 157-170) -/
def PyObj.getattr : ℕ → PyObj → String → Option (Got PyObj)
  | 0, _, _ => none
  | n + 1, o, name =>
    match o.ordinary name with
    | .value v => some (.value v)
    | .raises e => some (.raises e)
    | .missing =>
      if o.four then
        match PyObj.getattr n o "q" with
        | none => none
        | some (.value q) => PyObj.getattr n q name
        | some r => some r
      else some .missing

/-- What `FourVector` and its base classes in `coordinax` define, fields and properties included: `_src/vectors/d4/spacetime.py`
39-277, `d4/base.py`, `base/base_pos.py` 29-228, `base/base.py` 52-979, `base/mixins.py` 17-203. Names of the base classes outside `coordinax`
(`quax.ArrayValue`, `equinox.Module`, `object`) are not in the list. -/
def fourNames : List String :=
  ["t", "q", "c", "__check_init__", "from_", "__getattr__", "_cartesian_cls", "differential_cls", "__neg__", "_norm2", "norm", "__str__",
   "__init_subclass__", "__eq__", "represent_as", "uconvert", "shape", "materialise", "aval", "__array_namespace__", "mT", "ndim", "size", "T",
   "__pos__", "__add__", "__sub__", "__mul__", "__rmul__", "__truediv__", "__abs__", "__getitem__", "__setitem__", "to_device", "__len__",
   "flatten", "ravel", "reshape", "asdict", "components", "units", "dtypes", "devices", "shapes", "sizes", "_repr_mimebundle_", "_repr_latex_"]

end Verif
