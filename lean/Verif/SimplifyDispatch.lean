import Verif.OpFrom

/-!
# Dispatch of `simplify_op`

`simplify_op` is a plum function of one or two operators (`_src/operators/register_simplify.py` 14-163 and the modules of the
operators). This file models its registrations, the bodies on the operators of `coordinax` (those of `Op`), and the bodies on
operators of any class, with users' classes, where sums of parameters are kept as terms.

Precedences are shifted by one, 0 stands for -1.
-/

namespace Verif

/-- Implementations, named by file and line: `g` is `register_simplify.py`, `v` is `boost.py`, `b`, `c`, `r`, `s`, `t` are
`galilean/boost.py`, `composite.py`, `rotation.py`, `spatial_translation.py`, `translation.py` -/
inductive SRule where
  | g15 | g31 | g47 | g81 | g101 | g117 | g133 | g150
  | v267 | v295 | b208 | b236 | c198 | r344 | r408 | s368 | s399 | t228 | t262
  deriving DecidableEq, Repr

/-- a registration without `precedence` -/
def mSimp (types : List Base) (r : SRule) : Method SRule := ⟨⟨types.map I, none⟩, 1, r⟩

/-- `simplify_op`, with the modules in some order; no two have the same signature, so the order of the imports does not matter (C74) -/
def simplifyRegs : List (Method SRule) :=
  [mSimp [.vboostOp] .v267, mSimp [.vboostOp, .vboostOp] .v295, mSimp [.boostOp] .b208, mSimp [.boostOp, .boostOp] .b236,
   mSimp [.rotationOp] .r344, mSimp [.rotationOp, .rotationOp] .r408, mSimp [.spatialOp] .s368, mSimp [.spatialOp, .spatialOp] .s399,
   mSimp [.translationOp] .t228, mSimp [.translationOp, .translationOp] .t262, mSimp [.galileanOp] .c198,
   ⟨⟨[I .operator], none⟩, 0, .g15⟩, mSimp [.identityOp] .g31, mSimp [.pipeOp] .g47,
   ⟨⟨[I .operator, I .operator], none⟩, 0, .g81⟩, ⟨⟨[I .operator, I .identityOp], none⟩, 2, .g101⟩,
   mSimp [.identityOp, .operator] .g117, mSimp [.pipeOp, .operator] .g133, mSimp [.pipeOp, .pipeOp] .g150]

def simplifyTable : List (Method SRule) := registerAll simplifyRegs

/-- The bodies for two operators of `coordinax` -/
noncomputable def SRule.run2 (r : SRule) (a b : Op) : Res Op :=
  match r, a, b with
  | .g81, a, b => .ok (.pipe [a, b])
  | .g101, a, _ => .ok a
  | .g117, _, b => .ok b
  | .g133, .pipe as, .pipe bs => .ok (.pipe (as ++ bs))
  | .g133, .pipe as, b => .ok (.pipe (as ++ [b]))
  | .g150, .pipe as, .pipe bs => .ok (.pipe (as ++ bs))
  | .v295, .vboost v, .vboost w => do return .vboost (← addVel v w)
  | .b236, .boost v, .boost w => do return .boost (← addVel v w)
  | .r408, .rotation R, .rotation S => .ok (.rotation (R * S))
  | .s399, .spatial d, .spatial e => do return .spatial (← addPos d e)
  | .t262, .translation d, .translation e => do return .translation (← d.add e)
  | _, _, _ => .error .noDispatch

/-- The bodies for one operator of `coordinax`; `again` is `simplify_op` on the parts of a `GalileanOperator`, `fold` is
`functools.reduce(simplify_op, operators, Identity())` -/
noncomputable def SRule.run1 (r : SRule) (u : StoredUnits) (again : Op → Res Op) (fold : List Op → Res Op) (op : Op) : Res Op :=
  match r, op with
  | .g15, op => .ok op
  | .g31, op => .ok op
  | .g47, .pipe ops => fold ops
  | .v267, .vboost v => do return if ← velNegligible u v then .identity else .vboost v
  | .b208, .boost v => do return if ← velNegligible u v then .identity else .boost v
  | .r344, .rotation R => .ok (simplifyRotation R)
  | .s368, .spatial d => simplifySpatial u d
  | .t228, .translation d => simplifyTranslation u d
  | .c198, .galilean R d v => do
    let a ← again (.rotation R)
    let b ← again (.translation d)
    let c ← again (.boost v)
    if a.isIdentity || b.isIdentity || c.isIdentity then fold [a, b, c] else return .galilean R d v
  | _, _ => .error .noDispatch

/-! ### Operators of any class -/

/-- An operator of any class: an object of class `c` that is no `Pipe`, told apart by `id`; a `Pipe`; a new object of class `c` made
from the parameters of two -/
inductive UOp where
  | leaf (c : Cls) (id : ℕ)
  | pipe (ops : List UOp)
  | merged (c : Base) (a b : UOp)

/-- the class -/
def UOp.cls : UOp → Cls
  | .leaf c _ => c
  | .pipe _ => .lib .pipeOp
  | .merged c _ _ => .lib c

/-- `op.operators` of a `Pipe` -/
def UOp.ops : UOp → List UOp
  | .pipe l => l
  | _ => []

/-- the bodies for two operators. In 133 the second operator is no `Pipe`: 150 takes those. -/
def SRule.runU (r : SRule) (a b : UOp) : UOp :=
  match r with
  | .g101 => a
  | .g117 => b
  | .g133 => .pipe (a.ops ++ [b])
  | .g150 => .pipe (a.ops ++ b.ops)
  | .v295 => .merged .vboostOp a b
  | .b236 => .merged .boostOp a b
  | .r408 => .merged .rotationOp a b
  | .s399 => .merged .spatialOp a b
  | .t262 => .merged .translationOp a b
  | _ => .pipe [a, b]

/-- `simplify_op(a, b)` -/
def simplifyU2 (a b : UOp) : Option UOp :=
  match resolve simplifyTable [.inst a.cls, .inst b.cls] with
  | .found r => some (r.runU a b)
  | _ => none

/-- `functools.reduce(simplify_op, ops, acc)` -/
def simplifyUFold (acc : UOp) : List UOp → Option UOp
  | [] => some acc
  | op :: ops => do simplifyUFold (← simplifyU2 acc op) ops

/-- `simplify_op(Pipe(ops))` (`register_simplify.py` 47-73); `i` is the new `Identity()` -/
def simplifyUPipe (i : ℕ) (ops : List UOp) : Option UOp := simplifyUFold (.leaf (.lib .identityOp) i) ops

end Verif
