import Verif.Units

/-!
# Constructors by keyword, `from_` of mappings and vectors, `asdict`, `replace`

`construct` of `Verif/Units.lean` is the positional constructor.
-/

namespace Verif

open List

/-- a Python mapping of keyword arguments (its keys are distinct) -/
abbrev KwArgs := List (String × Qty)

/-- `cls.components` (`_src/vectors/base/base.py` 853-870): field names without attributes -/
def VCls.components (c : VCls) : List String := c.schema.map Prod.fst

/-- `VectorAttribute` fields (`_src/vectors/d3/spheroidal.py` 109) -/
def VCls.attributes : VCls → List String
  | .pos .prolate => ["Delta"]
  | _ => []

/-- binding of the required keyword parameters; a missing one raises `TypeError` -/
def takeKw (m : KwArgs) : List String → Res (List Qty)
  | [] => .ok []
  | n :: ns =>
    match m.lookup n with
    | some q => do return q :: (← takeKw m ns)
    | none => .error .badField

/-- `cls(**m)`: an unexpected keyword raises `TypeError`; then as the positional constructor. The generated
`__init__` of the dataclasses; no component has a default. -/
noncomputable def constructKw (c : VCls) (m : KwArgs) : Res UVec :=
  if m.all (fun e => decide (e.1 ∈ c.components ++ c.attributes)) then do
    construct c (← takeKw m c.components) (m.lookup "Delta")
  else .error .badField

/-- `cls.from_(mapping)` (`_src/vectors/base/base.py` 64-103). For the 3-D classes the rule for `Any`
(`_src/vectors/d3/constructor.py` 14, 62, 112) is equally specific, but has precedence -1. -/
noncomputable def fromMapping (c : VCls) (m : KwArgs) : Res UVec := constructKw c m

/-- `vector.asdict()` (`_src/vectors/base/base.py` 815-851): all fields, attributes included -/
def UVec.asdict (v : UVec) : KwArgs :=
  v.fields ++ match v.delta with
    | none => []
    | some d => [("Delta", d)]

/-- `dataclasses.replace(vector, **m)`: the fields that are not given are taken from the vector, then the
class is called again -/
noncomputable def UVec.replaceKw (v : UVec) (m : KwArgs) : Res UVec :=
  constructKw v.cls (m ++ v.asdict.filter fun e => decide (e.1 ∉ m.map Prod.fst))

/-- positions, velocities or accelerations of three dimensions (`_src/vectors/d3/base.py`), by sort -/
def VCls.sort3 : VCls → Option ℕ
  | .pos .cart3 | .pos .cyl | .pos .sph | .pos .lonlat | .pos .math | .pos .prolate => some 0
  | .vel .cart3 | .vel .cyl | .vel .sph | .vel .lonlat | .vel .lonCosLat | .vel .math | .vel .prolate => some 1
  | .acc .cart3 | .acc .cyl | .acc .sph | .acc .lonlat | .acc .lonCosLat | .acc .math | .acc .prolate => some 2
  | _ => none

/-- `cls.from_(vector)`, `cls` a concrete class: the rules of `_src/vectors/d3/constructor.py` 35-56, 83-106,
133-157 return the argument as it is; otherwise `_src/vectors/base/base.py` 986-1066, where `isinstance`
means the same class because concrete classes are final. -/
def fromVec (c : VCls) (v : UVec) : Res UVec :=
  if c.sort3.isSome ∧ c.sort3 = v.cls.sort3 then .ok v
  else if v.cls = c then .ok v
  else .error .typeError

end Verif
