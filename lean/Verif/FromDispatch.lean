import Verif.Dispatch
import Verif.Construct

/-!
# Dispatch of `from_`

`cls.from_(...)` of vectors is one plum function, `AbstractVector.from_` (`_src/vectors/base/base.py` 64-147), whose first
parameter is the class. This file models its registrations in `coordinax` and in the astropy interoperation module, and
the calls that its rules make to `from_` again. `Space.from_` is a function of its own and is not modelled.

Precedences are shifted by one, 0 stands for -1, 1 for the default 0, 2 for 1 (only their order is used).
-/

namespace Verif

/-- Implementations, named by file and line: `v` is `_src/vectors/base/base.py`, `u`, `d`, `c`, `k`, `g`, `l`, `m`, `s`, `f`, `n`
are `d1/base.py`, `d2/cartesian.py`, `d3/cartesian.py`, `d3/constructor.py`, `d3/generic.py`, `d3/lonlatspherical.py`,
`d3/mathspherical.py`, `d3/spherical.py`, `d4/spacetime.py`, `dn/cartesian.py`, and `y` is
`_interop/coordinax_interop_astropy/constructors.py`. -/
inductive CRule where
  | v66 | v107 | v987 | u46 | u106 | u160 | d56 | d193 | d308 | c70 | c247 | c359
  | k15 | k36 | k63 | k84 | k113 | k134 | g77 | l149 | m103 | s81 | f108 | f285 | n128 | n378 | n552
  | y20 | y65 | y85 | y107 | y129 | y154 | y175 | y198 | y221 | y247 | y268 | y290 | y312 | y335
  | y367 | y388 | y410 | y432 | y455 | y489
  deriving DecidableEq, Repr

/-- `@C.from_.dispatch def from_(cls: type[C], obj: D)` -/
def mc (c d : Base) (r : CRule) : Method CRule := ⟨⟨[T c, I d], none⟩, 1, r⟩

/-- the same with `precedence=-1` -/
def mcLow (c : Base) (h : Hint) (r : CRule) : Method CRule := ⟨⟨[T c, h], none⟩, 0, r⟩

/-- the same with `precedence=1` -/
def mcHigh (c d : Base) (r : CRule) : Method CRule := ⟨⟨[T c, I d], none⟩, 2, r⟩

/-- `_src/vectors/base/base.py` 64-147, 986-1066 -/
def fromBase : List (Method CRule) :=
  [mc .vector .mapQ .v66, ⟨⟨[T .vector, I .arrayLike, I .unitLike], none⟩, 1, .v107⟩, mc .vector .vector .v987]

/-- `_src/vectors/d1/base.py` 45-73, 105-133, 159-187. The unions of the shapes `*batch` and `*batch 1` accept every shape. -/
def fromD1 : List (Method CRule) := [mc .pos1 .qLength .u46, mc .vel1 .qSpeed .u106, mc .acc1 .qAcc .u160]

/-- `_src/vectors/d2/cartesian.py` 55-75, 192-212, 307-325 -/
def fromD2 : List (Method CRule) := [mc .cartPos2 .sh2 .d56, mc .cartVel2 .sh2 .d193, mc .cartAcc2 .absQ .d308]

/-- `_src/vectors/d3/cartesian.py` 69-92, 246-269, 358-379 -/
def fromD3 : List (Method CRule) := [mc .cartPos3 .absQ .c70, mc .cartVel3 .absQ .c247, mc .cartAcc3 .sh3 .c359]

/-- `_src/vectors/d3/constructor.py` 14-157 -/
def fromD3c : List (Method CRule) :=
  [mcLow .pos3 [.any] .k15, mcHigh .pos3 .pos3 .k36, mcLow .vel3 [.any] .k63, mcHigh .vel3 .vel3 .k84,
   mcLow .acc3 [.any] .k113, mcHigh .acc3 .acc3 .k134]

/-- `_src/vectors/d3/generic.py` 76-99, and the rules with keyword arguments only of `d3/lonlatspherical.py` 148-242,
`d3/mathspherical.py` 102-183, `d3/spherical.py` 80-161 -/
def fromD3s : List (Method CRule) :=
  [mc .generic3 .absQ .g77, ⟨⟨[T .lonlatPos], none⟩, 1, .l149⟩, ⟨⟨[T .mathPos], none⟩, 1, .m103⟩,
   ⟨⟨[T .sphPos], none⟩, 1, .s81⟩]

/-- `_src/vectors/d4/spacetime.py` 106-153, 284-308 -/
def fromD4 : List (Method CRule) := [mc .fourVector .sh4 .f108, mc .fourVector .sh3 .f285]

/-- `_src/vectors/dn/cartesian.py` 127-174, 377-424, 551-599. The unions of the shapes `""` and `*batch N` accept every
shape. -/
def fromDN : List (Method CRule) := [mc .cartPosN .qLength .n128, mc .cartVelN .qSpeed .n378, mc .cartAccN .qAcc .n552]

/-- `_interop/coordinax_interop_astropy/constructors.py` -/
def fromApy : List (Method CRule) :=
  [mc .vector .mapApy .y20, mcLow .pos3 (I .apyCart) .y65, mcLow .pos3 (I .apyCyl) .y85, mcLow .pos3 (I .apyPhys) .y107,
   mcLow .pos3 (I .apySph) .y129, mc .cartPos3 .apyRep .y154, mc .cylPos .apyRep .y175, mc .sphPos .apyRep .y198,
   mc .lonlatPos .apyRep .y221, mc .vel3 .apyDCart .y247, mc .vel3 .apyDCyl .y268, mc .vel3 .apyDPhys .y290,
   mc .vel3 .apyDSph .y312, mc .vel3 .apyDCos .y335, mc .cartVel3 .apyDCart .y367, mc .cylVel .apyDCyl .y388,
   mc .sphVel .apyDPhys .y410, mc .lonlatVel .apyDSph .y432, mc .lonCosLatVel .apyDCos .y455, mc .vector .apyQ .y489]

/-- the modules that register rules (`_src/vectors/__init__.py`, `_interop/__init__.py`) -/
def fromModules : List (List (Method CRule)) :=
  [fromBase, fromD1, fromD2, fromD3, fromD3c, fromD3s, fromD4, fromDN, fromApy]

/-- all registrations, with the astropy module -/
def fromRegs : List (Method CRule) := fromModules.flatten

def fromTable : List (Method CRule) := registerAll fromRegs

/-- without the astropy module -/
def fromRegsCore : List (Method CRule) := [fromBase, fromD1, fromD2, fromD3, fromD3c, fromD3s, fromD4, fromDN].flatten

/-- Arguments of `cls.from_`: one object, known by its class; an array with a unit, or an astropy Quantity, that make a
`Quantity` of class `q`; keyword arguments only. -/
inductive CArg where
  | one (d : Cls)
  | array (q : Base)
  | apyQty (q : Base)
  | keywords
  deriving DecidableEq, Repr

def CArg.atoms : CArg → List Atom
  | .one d => [.inst d]
  | .array _ => [.inst (.lib .arrayLike), .inst (.lib .unitLike)]
  | .apyQty _ => [.inst (.lib .apyQ)]
  | .keywords => []

/-- What `cls.from_` does: return the argument itself; call the class `c` on the components that rule `r` takes from the
argument (which raises if `c` is abstract or rejects them); raise. -/
inductive Made where
  | same
  | new (c : Cls) (r : CRule)
  | typeError
  | notFound
  | ambiguous
  | recursion
  deriving DecidableEq, Repr

/-- the object is returned if it is an instance of `cart`, otherwise `cart.from_(obj)` is called
(`_src/vectors/d3/constructor.py` 32, 80, 130) -/
def lastResort (rec : Cls → CArg → Made) (cart : Base) : CArg → Made
  | .one d => if d.sub (.lib cart) then .same else rec (.lib cart) (.one d)
  | a => rec (.lib cart) a

/-- the body of a rule; `rec` is `from_` -/
def CRule.run (rec : Cls → CArg → Made) (cls : Cls) (a : CArg) : CRule → Made
  | .v107 => match a with
    | .array q => rec cls (.one (.lib q))
    | _ => .typeError
  | .y489 => match a with
    | .apyQty q => rec cls (.one (.lib q))
    | _ => .typeError
  | .v987 => match a with
    | .one d => if !d.sub cls then .typeError else if d = cls then .same else .new cls .v987
    | _ => .typeError
  | .k15 => lastResort rec .cartPos3 a
  | .k63 => lastResort rec .cartVel3 a
  | .k113 => lastResort rec .cartAcc3 a
  | .k36 | .k84 | .k134 => .same
  | .y65 => rec (.lib .cartPos3) a
  | .y85 => rec (.lib .cylPos) a
  | .y107 => rec (.lib .sphPos) a
  | .y129 => rec (.lib .lonlatPos) a
  | .y247 => rec (.lib .cartVel3) a
  | .y268 => rec (.lib .cylVel) a
  | .y290 => rec (.lib .sphVel) a
  | .y312 => rec (.lib .lonlatVel) a
  | .y335 => rec (.lib .lonCosLatVel) a
  | r => .new cls r

/-- what the lookup found is run, a failed lookup raises -/
def Lookup.made (l : Lookup CRule) (f : CRule → Made) : Made :=
  match l with
  | .found r => f r
  | .notFound => .notFound
  | .ambiguous => .ambiguous

/-- `cls.from_(a)`: dispatch, then the body of the rule; `n` bounds the depth of the recursion as Python does -/
def fromCall : ℕ → Cls → CArg → Made
  | 0, _, _ => .recursion
  | n + 1, cls, a => (resolve fromTable (.klass cls :: a.atoms)).made (fun r => r.run (fromCall n) cls a)

/-- the class object of a class of the model of `_src/vectors`; there is no `LonCosLatSphericalAcc` -/
def VCls.base : VCls → Option Base
  | .pos k => some k.cls
  | .vel k => some k.cls
  | .acc k => k.accCls
  | .generic3 => some .generic3
  | .poincare => some .poincare

end Verif
