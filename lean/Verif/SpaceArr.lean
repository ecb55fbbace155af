import Verif.Space

/-!
# `Space` as an array

The methods a `Space` inherits from `AbstractVector` (`_src/vectors/base/base.py`): they run over `field_items(AttrFilter, space)`,
which are the entries of the Space (`_src/vectors/space/compat.py` 90-113), and rebuild it with `replace` (116-138). Entries are
vectors of 1, 2 or 3 dimensions (components of a batch, with the checks of their class). `space.reshape` is not modelled: it needs
`space.components`, which raises `NotImplementedError` (`core.py` 462-467).
-/

namespace Verif

section
variable {α : Type}

/-- `v.T` of an entry (`_src/vectors/base/base.py` 418-439) -/
noncomputable def ClsVec.T (v : ClsVec α) : Res (ClsVec α) := do return ⟨v.chk, ← v.vec.T v.chk⟩

/-- `v.mT` of an entry (329-350) -/
noncomputable def ClsVec.mT (v : ClsVec α) : Res (ClsVec α) := do return ⟨v.chk, ← v.vec.mT v.chk⟩

/-- `v.flatten()` of an entry (728-747) -/
noncomputable def ClsVec.flatten (v : ClsVec α) : Res (ClsVec α) := do return ⟨v.chk, ← v.vec.flatten v.chk⟩

/-- `v.ravel()` of an entry (749-766) -/
noncomputable def ClsVec.ravel (v : ClsVec α) : Res (ClsVec α) := do return ⟨v.chk, ← v.vec.ravel v.chk⟩

/-- `+v` of an entry (444-459): the components again, and the constructor -/
noncomputable def ClsVec.plus (v : ClsVec α) : Res (ClsVec α) := do return ⟨v.chk, ← mkB v.chk v.vec.comps⟩

/-- `replace(space, **kwargs) = type(space)(**{**space, **kwargs})` (`_src/vectors/space/compat.py` 116-138) -/
def Space.replace {V : Type} (names : DimNames) (shape : V → Res (List ℕ)) (s : Space V) (kw : List (String × V)) : Res (Space V) :=
  mkSpace names shape (kw.foldl (fun d kv => dictSet d kv.1 kv.2) s.data)

/-- `replace(self, **{k: f(v) for k, v in field_items(AttrFilter, self)})` for a method `f` of the entries -/
def Space.replaceAll {V : Type} (names : DimNames) (shape : V → Res (List ℕ)) (f : V → Res V) (s : Space V) : Res (Space V) := do
  s.replace names shape (← s.data.mapM fun kv => do return (kv.1, ← f kv.2))

/-- `space.T` (`_src/vectors/space/core.py` 352-379) -/
noncomputable def Space.T (names : DimNames) (s : Space (ClsVec α)) : Res (Space (ClsVec α)) :=
  s.replaceAll names ClsVec.shape ClsVec.T

/-- `space.mT` (270-295) -/
noncomputable def Space.mT (names : DimNames) (s : Space (ClsVec α)) : Res (Space (ClsVec α)) :=
  s.replaceAll names ClsVec.shape ClsVec.mT

/-- `space.flatten()` (`_src/vectors/base/base.py` 728-747) -/
noncomputable def Space.flatten (names : DimNames) (s : Space (ClsVec α)) : Res (Space (ClsVec α)) :=
  s.replaceAll names ClsVec.shape ClsVec.flatten

/-- `space.ravel()` (749-766) -/
noncomputable def Space.ravel (names : DimNames) (s : Space (ClsVec α)) : Res (Space (ClsVec α)) :=
  s.replaceAll names ClsVec.shape ClsVec.ravel

/-- `+space` (444-459) -/
noncomputable def Space.plus (names : DimNames) (s : Space (ClsVec α)) : Res (Space (ClsVec α)) :=
  s.replaceAll names ClsVec.shape ClsVec.plus

/-- `space.ndim` (`_src/vectors/space/core.py` 297-313) -/
def Space.ndim (s : Space (ClsVec α)) : Res ℕ := do return (← s.shape).length

/-- `space.size` (334-350) -/
def Space.size (s : Space (ClsVec α)) : Res ℕ := do return (← s.shape).prod

/-- `len(space)`: `AbstractVector.__len__` (`_src/vectors/base/base.py` 701-726), which comes before `ImmutableMap.__len__` in the
method resolution order -/
def Space.len (s : Space (ClsVec α)) : Res ℕ := do return match ← s.shape with | n :: _ => n | [] => 0

/-- `space.shapes` (`_src/vectors/space/core.py` 516-534) -/
def Space.shapes (s : Space (ClsVec α)) : Res (List (String × List ℕ)) := s.data.mapM fun kv => do return (kv.1, ← kv.2.shape)

/-- `space.sizes` (536-553) -/
def Space.sizes (s : Space (ClsVec α)) : Res (List (String × ℕ)) := s.data.mapM fun kv => do return (kv.1, ← kv.2.vec.size)

end

end Verif
