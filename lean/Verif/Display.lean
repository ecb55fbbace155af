import Verif.Space

/-!
# Rich display

`_repr_mimebundle_` of vectors (`_src/vectors/base/mixins.py` 127-181), which notebooks call.
-/

namespace Verif

/-- What may be given for `include` and `exclude`: a list or tuple of strings, or, by mistake, a string -/
inductive PySeq where
  | list (l : List String)
  | str (s : String)

/-- `for key in seq`: a string is a sequence of its characters -/
def PySeq.items : PySeq → List String
  | .list l => l
  | .str s => s.toList.map fun c => String.ofList [c]

/-- `key in seq`: for a string, this is: is a part of it -/
def PySeq.has (key : String) : PySeq → Bool
  | .list l => l.contains key
  | .str s => decide (key.toList <:+: s.toList)

/-- `SUPPORTED_IPYTHON_REPR_FORMATS` (127-130), with the results of `__repr__` and `_repr_latex_` for the object; they may raise -/
def supported (plain latex : Res String) : List (String × Res String) := [("text/plain", plain), ("text/latex", latex)]

/-- the keys (166-175) -/
def mimeKeys (sup : List (String × Res String)) (incl excl : Option PySeq) : List String :=
  match incl, excl with
  | none, none => sup.map Prod.fst
  | some i, _ => i.items.filter fun key => (sup.map Prod.fst).contains key
  | none, some e => (sup.map Prod.fst).filter fun k => !e.has k

/-- `getattr(self, SUPPORTED_IPYTHON_REPR_FORMATS[key])()` -/
def mimeValue (sup : List (String × Res String)) (key : String) : Res String :=
  match sup.lookup key with
  | some r => r
  | none => .error .badField

/-- `_repr_mimebundle_(include=incl, exclude=excl)` (136-181): a dict comprehension over the keys -/
def mimeBundle (plain latex : Res String) (incl excl : Option PySeq) : Res (List (String × String)) := do
  let sup := supported plain latex
  return dictOf (← (mimeKeys sup incl excl).mapM fun key => do return (key, ← mimeValue sup key))

end Verif
