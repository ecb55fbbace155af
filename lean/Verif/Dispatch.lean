import Verif.Acc
import Verif.Frame
import Verif.OpQty

/-!
# Multiple dispatch

`represent_as` and `frame_transform_op` are plum functions: every `@dispatch` adds a method, and a call runs the most
specific method whose signature the arguments match. This file models plum's registration and resolution, the class
hierarchy of `coordinax`, and the tables of methods that the modules of `coordinax` register. plum itself is not part of
the repository: `register`, `candidates` and `resolve` follow its `Resolver` class (version 2.5), `Sig.le` and
`Sig.matches` its `Signature` class, with subtyping of type hints as in beartype.

Not modelled: plum's cache, its method resolution through `super` for methods of classes, deferred (string) annotations.
-/

namespace Verif

/-! ### Classes -/

/-- Classes of `coordinax`, with the parametrised Quantity classes that occur in signatures. -/
inductive Base where
  /-- `AbstractVector` (`_src/vectors/base/base.py`) -/
  | vector
  /-- `AbstractPos`, `AbstractVel`, `AbstractAcc` -/
  | pos | vel | acc
  | pos1 | cartPos1 | radialPos
  | pos2 | cartPos2 | polarPos | twoSpherePos
  | pos3 | cartPos3 | cylPos | sphericalPos | sphPos | lonlatPos | mathPos | prolatePos
  | pos4 | fourVector | posN | cartPosN | poincare
  | vel1 | cartVel1 | radialVel
  | vel2 | cartVel2 | polarVel | twoSphereVel
  | vel3 | cartVel3 | cylVel | sphericalVel | sphVel | lonlatVel | lonCosLatVel | mathVel | prolateVel
  | velN | cartVelN
  | acc1 | cartAcc1 | radialAcc
  | acc2 | cartAcc2 | polarAcc | twoSphereAcc
  | acc3 | cartAcc3 | cylAcc | sphericalAcc | sphAcc | lonlatAcc | mathAcc | prolateAcc
  | accN | cartAccN
  | generic3 | space
  /-- `Quantity["length"]`, `Quantity["speed"]`, `Quantity["angle"]` -/
  | qLength | qSpeed | qAngle
  /-- `AbstractReferenceFrame`, `NoFrame`, `ICRS`, `Galactocentric` -/
  | frame | noFrame | icrs | galactocentric
  /-- `AbstractOperator`, `AbstractGalileanOperator`, `AbstractCompositeOperator` -/
  | operator | galOp | compOp
  | identityOp | rotationOp | spatialOp | translationOp | boostOp | vboostOp | galileanOp | pipeOp
  /-- `Shaped[Quantity["length"], "*#batch n"]` for n = 1, 2, 3 (`operators/compat.py` 24, 72, 119), `"*batch 3"`
  (`galilean/rotation.py` 230), `"*batch 4"` (`compat.py` 224): jaxtyping classes, none a subclass of another -/
  | hint1 | hint2 | hint3 | hint3r | hint4
  /-- `Quantity["time"]`, `ScalarTime`, `BatchableTime` (`_src/typing.py`) -/
  | qTime | scalarTime | batchTime
  /-- what a length Quantity with a last axis of 1, 2, 3, 4 is an instance of, and a scalar time -/
  | len1 | len2 | len3 | len4 | time0
  /-- `AbstractQuantity`, `Quantity`, `Quantity["acceleration"]` -/
  | absQ | uQ | qAcc
  /-- `Shaped[AbstractQuantity, "*batch n"]` for n = 2, 3 (`d2/cartesian.py` 57, `d3/cartesian.py` 360, `d4/spacetime.py` 286),
  `Shaped[Quantity, "*batch 4"]` (`d4/spacetime.py` 109) -/
  | sh2 | sh3 | sh4
  /-- what a `Quantity` is an instance of: lengths, speeds, accelerations, other dimensions, with a last axis of 2, 3, 4 or
  another (`X`, scalars included); an `AbstractQuantity` that is no `Quantity`, such as `Distance` -/
  | lenX | spd2 | spd3 | spd4 | spdX | acc2q | acc3q | acc4q | accXq | dim2 | dim3 | dim4 | dimX | dist2 | dist3 | distX
  /-- `Mapping[str, AbstractQuantity]`, `Mapping[str, astropy.units.Quantity]`, and what an empty mapping is an instance of -/
  | mapQ | mapApy | mapEmpty
  /-- `ArrayLike | list[Any]`, `Unit | str`, and an object of none of the classes in this list -/
  | arrayLike | unitLike | otherObj
  /-- astropy: `Quantity`, `BaseRepresentation` and four of its classes, `BaseDifferential` and five of its classes -/
  | apyQ | apyRep | apyCart | apyCyl | apyPhys | apySph | apyDiff | apyDCart | apyDCyl | apyDPhys | apyDSph | apyDCos
  /-- `Mapping[str, Any]`, `str`, `jax.scipy.spatial.transform.Rotation`, a list or tuple of operators, and the frames `ICRS` and
  `Galactocentric` of astropy -/
  | mapAny | strObj | rotObj | opSeq | apyIcrs | apyGcf
  deriving DecidableEq, Repr

/-- The class and its bases, transitively (`class X(Y)` statements in `_src/vectors/base/base_{pos,vel,acc}.py`,
`_src/vectors/d{1,2,3,4,n}/*.py`, `_src/vectors/space/core.py` 59, `_src/frames/*.py`, `_coordinax_space_frames/*.py`).
Mixins and bases outside `coordinax` are left out, no signature names them. -/
def Base.mro : Base → List Base
  | .vector => [.vector]
  | .pos => [.pos, .vector]
  | .vel => [.vel, .vector]
  | .acc => [.acc, .vector]
  | .pos1 => [.pos1, .pos, .vector]
  | .cartPos1 => [.cartPos1, .pos1, .pos, .vector]
  | .radialPos => [.radialPos, .pos1, .pos, .vector]
  | .pos2 => [.pos2, .pos, .vector]
  | .cartPos2 => [.cartPos2, .pos2, .pos, .vector]
  | .polarPos => [.polarPos, .pos2, .pos, .vector]
  | .twoSpherePos => [.twoSpherePos, .pos2, .pos, .vector]
  | .pos3 => [.pos3, .pos, .vector]
  | .cartPos3 => [.cartPos3, .pos3, .pos, .vector]
  | .cylPos => [.cylPos, .pos3, .pos, .vector]
  | .sphericalPos => [.sphericalPos, .pos3, .pos, .vector]
  | .sphPos => [.sphPos, .sphericalPos, .pos3, .pos, .vector]
  | .lonlatPos => [.lonlatPos, .sphericalPos, .pos3, .pos, .vector]
  | .mathPos => [.mathPos, .sphericalPos, .pos3, .pos, .vector]
  | .prolatePos => [.prolatePos, .pos3, .pos, .vector]
  | .pos4 => [.pos4, .pos, .vector]
  | .fourVector => [.fourVector, .pos4, .pos, .vector]
  | .posN => [.posN, .pos, .vector]
  | .cartPosN => [.cartPosN, .posN, .pos, .vector]
  | .poincare => [.poincare, .pos, .vector]
  | .vel1 => [.vel1, .vel, .vector]
  | .cartVel1 => [.cartVel1, .vel1, .vel, .vector]
  | .radialVel => [.radialVel, .vel1, .vel, .vector]
  | .vel2 => [.vel2, .vel, .vector]
  | .cartVel2 => [.cartVel2, .vel2, .vel, .vector]
  | .polarVel => [.polarVel, .vel2, .vel, .vector]
  | .twoSphereVel => [.twoSphereVel, .vel2, .vel, .vector]
  | .vel3 => [.vel3, .vel, .vector]
  | .cartVel3 => [.cartVel3, .vel3, .vel, .vector]
  | .cylVel => [.cylVel, .vel3, .vel, .vector]
  | .sphericalVel => [.sphericalVel, .vel3, .vel, .vector]
  | .sphVel => [.sphVel, .sphericalVel, .vel3, .vel, .vector]
  | .lonlatVel => [.lonlatVel, .sphericalVel, .vel3, .vel, .vector]
  | .lonCosLatVel => [.lonCosLatVel, .sphericalVel, .vel3, .vel, .vector]
  | .mathVel => [.mathVel, .sphericalVel, .vel3, .vel, .vector]
  | .prolateVel => [.prolateVel, .vel3, .vel, .vector]
  | .velN => [.velN, .vel, .vector]
  | .cartVelN => [.cartVelN, .velN, .vel, .vector]
  | .acc1 => [.acc1, .acc, .vector]
  | .cartAcc1 => [.cartAcc1, .acc1, .acc, .vector]
  | .radialAcc => [.radialAcc, .acc1, .acc, .vector]
  | .acc2 => [.acc2, .acc, .vector]
  | .cartAcc2 => [.cartAcc2, .acc2, .acc, .vector]
  | .polarAcc => [.polarAcc, .acc2, .acc, .vector]
  | .twoSphereAcc => [.twoSphereAcc, .acc2, .acc, .vector]
  | .acc3 => [.acc3, .acc, .vector]
  | .cartAcc3 => [.cartAcc3, .acc3, .acc, .vector]
  | .cylAcc => [.cylAcc, .acc3, .acc, .vector]
  | .sphericalAcc => [.sphericalAcc, .acc3, .acc, .vector]
  | .sphAcc => [.sphAcc, .sphericalAcc, .acc3, .acc, .vector]
  | .lonlatAcc => [.lonlatAcc, .sphericalAcc, .acc3, .acc, .vector]
  | .mathAcc => [.mathAcc, .sphericalAcc, .acc3, .acc, .vector]
  | .prolateAcc => [.prolateAcc, .acc3, .acc, .vector]
  | .accN => [.accN, .acc, .vector]
  | .cartAccN => [.cartAccN, .accN, .acc, .vector]
  | .generic3 => [.generic3, .vector]
  | .space => [.space, .vector]
  | .qLength => [.qLength, .uQ, .absQ]
  | .qSpeed => [.qSpeed, .uQ, .absQ]
  | .qAngle => [.qAngle, .uQ, .absQ]
  | .frame => [.frame]
  | .noFrame => [.noFrame, .frame]
  | .icrs => [.icrs, .frame]
  | .galactocentric => [.galactocentric, .frame]
  | .operator => [.operator]
  | .galOp => [.galOp, .operator]
  | .compOp => [.compOp, .operator]
  | .identityOp => [.identityOp, .operator]
  | .rotationOp => [.rotationOp, .galOp, .operator]
  | .spatialOp => [.spatialOp, .galOp, .operator]
  | .translationOp => [.translationOp, .galOp, .operator]
  | .boostOp => [.boostOp, .galOp, .operator]
  | .vboostOp => [.vboostOp, .operator]
  | .galileanOp => [.galileanOp, .compOp, .galOp, .operator]
  | .pipeOp => [.pipeOp, .compOp, .operator]
  | .hint1 => [.hint1, .qLength, .uQ, .absQ]
  | .hint2 => [.hint2, .qLength, .uQ, .absQ]
  | .hint3 => [.hint3, .qLength, .uQ, .absQ]
  | .hint3r => [.hint3r, .qLength, .uQ, .absQ]
  | .hint4 => [.hint4, .qLength, .uQ, .absQ]
  | .qTime => [.qTime, .uQ, .absQ]
  | .scalarTime => [.scalarTime, .qTime, .uQ, .absQ]
  | .batchTime => [.batchTime, .qTime, .uQ, .absQ]
  | .len1 => [.len1, .hint1, .qLength, .uQ, .absQ]
  | .len2 => [.len2, .hint2, .qLength, .sh2, .uQ, .absQ]
  | .len3 => [.len3, .hint3, .hint3r, .qLength, .sh3, .uQ, .absQ]
  | .len4 => [.len4, .hint4, .qLength, .sh4, .uQ, .absQ]
  | .time0 => [.time0, .scalarTime, .batchTime, .qTime, .uQ, .absQ]
  | .absQ => [.absQ]
  | .uQ => [.uQ, .absQ]
  | .qAcc => [.qAcc, .uQ, .absQ]
  | .sh2 => [.sh2, .absQ]
  | .sh3 => [.sh3, .absQ]
  | .sh4 => [.sh4, .uQ, .absQ]
  | .lenX => [.lenX, .qLength, .uQ, .absQ]
  | .spd2 => [.spd2, .qSpeed, .sh2, .uQ, .absQ]
  | .spd3 => [.spd3, .qSpeed, .sh3, .uQ, .absQ]
  | .spd4 => [.spd4, .qSpeed, .sh4, .uQ, .absQ]
  | .spdX => [.spdX, .qSpeed, .uQ, .absQ]
  | .acc2q => [.acc2q, .qAcc, .sh2, .uQ, .absQ]
  | .acc3q => [.acc3q, .qAcc, .sh3, .uQ, .absQ]
  | .acc4q => [.acc4q, .qAcc, .sh4, .uQ, .absQ]
  | .accXq => [.accXq, .qAcc, .uQ, .absQ]
  | .dim2 => [.dim2, .sh2, .uQ, .absQ]
  | .dim3 => [.dim3, .sh3, .uQ, .absQ]
  | .dim4 => [.dim4, .sh4, .uQ, .absQ]
  | .dimX => [.dimX, .uQ, .absQ]
  | .dist2 => [.dist2, .sh2, .absQ]
  | .dist3 => [.dist3, .sh3, .absQ]
  | .distX => [.distX, .absQ]
  | .mapQ => [.mapQ, .mapAny]
  | .mapApy => [.mapApy, .mapAny]
  | .mapEmpty => [.mapEmpty, .mapQ, .mapApy, .mapAny]
  | .arrayLike => [.arrayLike]
  | .unitLike => [.unitLike]
  | .otherObj => [.otherObj]
  | .apyQ => [.apyQ]
  | .apyRep => [.apyRep]
  | .apyCart => [.apyCart, .apyRep]
  | .apyCyl => [.apyCyl, .apyRep]
  | .apyPhys => [.apyPhys, .apyRep]
  | .apySph => [.apySph, .apyRep]
  | .apyDiff => [.apyDiff]
  | .apyDCart => [.apyDCart, .apyDiff]
  | .apyDCyl => [.apyDCyl, .apyDiff]
  | .apyDPhys => [.apyDPhys, .apyDiff]
  | .apyDSph => [.apyDSph, .apyDiff]
  | .apyDCos => [.apyDCos, .apyDiff]
  | .mapAny => [.mapAny]
  | .strObj => [.strObj, .unitLike]
  | .rotObj => [.rotObj]
  | .opSeq => [.opSeq]
  | .apyIcrs => [.apyIcrs]
  | .apyGcf => [.apyGcf]

/-- Classes: those of `coordinax`, and any number of classes that users derive from a class. -/
inductive Cls where
  | lib (b : Base)
  | user (parent : Cls) (name : ℕ)
  deriving DecidableEq, Repr

/-- `issubclass` -/
def Cls.sub : Cls → Cls → Bool
  | .lib b, .lib b' => b.mro.contains b'
  | .lib _, .user _ _ => false
  | .user p n, d => decide (Cls.user p n = d) || p.sub d

/-! ### Signatures -/

/-- Type hints: `C` and `type[C]` for a class `C`; `Any` and `object`. -/
inductive Atom where
  | inst (c : Cls)
  | klass (c : Cls)
  | any
  deriving DecidableEq, Repr

/-- Subtyping of hints that are not unions (beartype's `TypeHint.__le__`); `type` is covariant. -/
def Atom.le : Atom → Atom → Bool
  | _, .any => true
  | .inst c, .inst d => c.sub d
  | .klass c, .klass d => c.sub d
  | _, _ => false

/-- A hint: a union of one or more alternatives. -/
abbrev Hint := List Atom

/-- Subtyping of unions -/
def hintLe (s t : Hint) : Bool := s.all fun a => t.any fun b => a.le b

/-- plum's `Signature`: the types of the positional parameters, and of `*args` if there is one. -/
structure Sig where
  types : List Hint
  varargs : Option Hint := none
  deriving DecidableEq, Repr

/-- `Signature.expand_varargs(n)` -/
def Sig.expand (s : Sig) (n : ℕ) : List Hint :=
  match s.varargs with
  | none => s.types
  | some v => s.types ++ List.replicate (n - s.types.length) v

/-- `all(x <= y for x, y in zip(xs, ys))` -/
def zipLe : List Hint → List Hint → Bool
  | x :: xs, y :: ys => hintLe x y && zipLe xs ys
  | _, _ => true

/-- the comparison of `*args` in `Signature.__le__` -/
def varLe : Option Hint → Option Hint → Bool
  | some _, none => false
  | some v, some w => hintLe v w
  | none, _ => true

/-- `Signature.__le__` -/
def Sig.le (s t : Sig) : Bool :=
  let lok := s.types.length == t.types.length
    || (decide (t.types.length < s.types.length) && t.varargs.isSome)
    || (decide (s.types.length < t.types.length) && s.varargs.isSome)
  varLe s.varargs t.varargs && lok && zipLe (s.expand t.types.length) (t.expand s.types.length)

/-- `Signature.match(values)`. A value is known by its class (`.inst c`), a class object by itself (`.klass c`). -/
def Sig.matches (s : Sig) (args : List Atom) : Bool :=
  let ts := s.expand args.length
  ts.length == args.length && zipLe (args.map fun a => [a]) ts

/-- `Signature.__lt__`, `Comparable.is_comparable` -/
def Sig.lt (s t : Sig) : Bool := s.le t && !t.le s

def Sig.comparable (s t : Sig) : Bool := s.le t || t.le s

/-- plum's `Method`: a signature with its precedence and the implementation. -/
structure Method (ρ : Type) where
  sig : Sig
  prec : ℕ := 0
  rule : ρ
  deriving DecidableEq, Repr

/-! ### The resolver -/

/-- `Resolver.register(method)`: a method with an equal signature is replaced, otherwise the method is appended. -/
def register {ρ : Type} (ms : List (Method ρ)) (m : Method ρ) : List (Method ρ) :=
  if ms.any fun m' => m'.sig.le m.sig && m.sig.le m'.sig then
    ms.map fun m' => if m'.sig.le m.sig && m.sig.le m'.sig then m else m'
  else ms ++ [m]

/-- registration in the order of the imports -/
def registerAll {ρ : Type} (ms : List (Method ρ)) : List (Method ρ) := ms.foldl register []

/-- One step of the loop of `Resolver.resolve` over the matching methods -/
def candStep {ρ : Type} (cs : List (Method ρ)) (m : Method ρ) : List (Method ρ) :=
  if cs.any fun c => c.sig.comparable m.sig then
    let rest := cs.filter fun c => !m.sig.lt c.sig
    if cs.any fun c => m.sig.le c.sig then rest ++ [m] else rest
  else cs ++ [m]

/-- the candidates after the loop -/
def candidates {ρ : Type} (ms : List (Method ρ)) (args : List Atom) : List (Method ρ) :=
  (ms.filter fun m => m.sig.matches args).foldl candStep []

/-- What a lookup does: a method, `NotFoundLookupError` or `AmbiguousLookupError`. -/
inductive Lookup (ρ : Type) where
  | found (rule : ρ)
  | notFound
  | ambiguous
  deriving DecidableEq, Repr

/-- the end of `Resolver.resolve`: a single candidate, or the only one of highest precedence -/
def pick {ρ : Type} : List (Method ρ) → Lookup ρ
  | [] => .notFound
  | [c] => .found c.rule
  | cs =>
    let top := (cs.map fun c => c.prec).foldl max 0
    match cs.filter fun c => c.prec == top with
    | [c] => .found c.rule
    | _ => .ambiguous

/-- `Resolver.resolve(args)` -/
def resolve {ρ : Type} (ms : List (Method ρ)) (args : List Atom) : Lookup ρ := pick (candidates ms args)

/-! ### The methods of `represent_as` -/

/-- Implementations, named by file and line of `_src/vectors/`: `a` is `d1/transform.py`, `b` is `d2/transform.py`, `c` is
`d3/transform.py`, `n` is `dn/transform.py`, `s` is `space/core.py`, `xa`, `xb`, `xc`, `xn`, `xs` are
`transform/{d1,d2,d3,dn,space}.py`, `vel` is `transform/velocities.py` 33-167, `acc` is `transform/accelerations.py`
46-199. -/
inductive Rule where
  | a19 | a32 | a41 | a52 | a68 | a84 | a101 | a116 | a131 | a146 | a174
  | b18 | b32 | b43 | b59 | b77 | b91 | b119
  | c34 | c48 | c113 | c187 | c208 | c233 | c264 | c289 | c316 | c350 | c375 | c399 | c423 | c449 | c474 | c499 | c527
  | c552 | c576 | c602 | c633 | c709 | c735 | c779 | c829 | c885 | c913 | c939 | c967
  | n17 | n37 | n65 | n93 | n121 | s580
  | xa30 | xa65 | xa104 | xa145 | xa208 | xa256 | xa291 | xa330 | xa371 | xa434
  | xb30 | xb82 | xb124 | xb153 | xb185 | xb225 | xb252 | xb283 | xb312 | xb341
  | xc32 | xc58 | xc87 | xc115 | xc149 | xc176 | xc207 | xc237 | xc273 | xc300 | xc331 | xc361 | xc397 | xc424 | xc455
  | xc485 | xc521 | xc563
  | xn16 | xs16 | xs37 | vel | acc
  deriving DecidableEq, Repr

/-- the hint `C` -/
def I (b : Base) : Hint := [.inst (.lib b)]

/-- the hint `type[C]` -/
def T (b : Base) : Hint := [.klass (.lib b)]

/-- a method `represent_as(current: a, target: type[b], /)` -/
def m2 (a b : Base) (r : Rule) : Method Rule := ⟨⟨[I a, T b], none⟩, 0, r⟩

/-- with `@dispatch(precedence=1)` -/
def m2p (a b : Base) (r : Rule) : Method Rule := ⟨⟨[I a, T b], none⟩, 1, r⟩

/-- with a third positional parameter -/
def m3 (a b : Base) (h : Hint) (r : Rule) : Method Rule := ⟨⟨[I a, T b, h], none⟩, 0, r⟩

/-- with a third and a fourth -/
def m4 (a b : Base) (h h' : Hint) (r : Rule) : Method Rule := ⟨⟨[I a, T b, h, h'], none⟩, 0, r⟩

/-- `AbstractPos | Quantity["length"]`, `AbstractVel | Quantity["speed"]` -/
def posOrQ : Hint := [.inst (.lib .pos), .inst (.lib .qLength)]
def velOrQ : Hint := [.inst (.lib .vel), .inst (.lib .qSpeed)]

/-- `_src/vectors/d1/transform.py` -/
def regsD1 : List (Method Rule) :=
  [m2 .pos1 .pos1 .a19, m2p .cartPos1 .cartPos1 .a32, m2p .radialPos .radialPos .a41,
   m3 .cartVel1 .cartVel1 (I .pos) .a52, m3 .radialVel .radialVel (I .pos) .a52,
   m2 .cartVel1 .cartVel1 .a68, m2 .radialVel .radialVel .a68,
   m4 .cartAcc1 .cartAcc1 (I .vel) (I .pos) .a84, m4 .radialAcc .radialAcc (I .vel) (I .pos) .a84,
   m2 .cartAcc1 .cartAcc1 .a101, m2 .radialAcc .radialAcc .a101,
   m2 .cartPos1 .radialPos .a116, m2 .radialPos .cartPos1 .a131,
   m2 .cartVel1 .cartVel1 .a146, m2 .cartAcc1 .cartAcc1 .a174]

/-- `_src/vectors/d2/transform.py` -/
def regsD2 : List (Method Rule) :=
  [m2 .pos2 .pos2 .b18, m2 .cartPos2 .cartPos2 .b32, m2 .polarPos .polarPos .b32,
   m3 .cartVel2 .cartVel2 (I .pos) .b43, m3 .polarVel .polarVel (I .pos) .b43,
   m2 .cartPos2 .polarPos .b59, m2 .polarPos .cartPos2 .b77,
   m2 .cartVel2 .cartVel2 .b91, m2 .cartAcc2 .cartAcc2 .b119]

/-- `_src/vectors/d3/transform.py` -/
def regsD3 : List (Method Rule) :=
  [m2 .pos3 .pos3 .c34,
   m2 .cartPos3 .cartPos3 .c48, m2 .cylPos .cylPos .c48, m2 .sphPos .sphPos .c48, m2 .lonlatPos .lonlatPos .c48,
   m2 .mathPos .mathPos .c48,
   m3 .cartVel3 .cartVel3 (I .pos) .c113, m3 .cylVel .cylVel (I .pos) .c113, m3 .sphVel .sphVel (I .pos) .c113,
   m3 .lonlatVel .lonlatVel (I .pos) .c113, m3 .lonCosLatVel .lonCosLatVel (I .pos) .c113,
   m3 .mathVel .mathVel (I .pos) .c113, m3 .prolateVel .prolateVel (I .pos) .c113,
   m2 .cartPos3 .cylPos .c187, m2 .cartPos3 .sphPos .c208,
   m2 .cartPos3 .lonlatPos .c233, m2 .cartPos3 .mathPos .c233,
   m2 .cylPos .cartPos3 .c264, m2 .cylPos .sphPos .c289, m2 .cylPos .lonlatPos .c316, m2 .cylPos .mathPos .c316,
   m2 .sphPos .cartPos3 .c350, m2 .sphPos .cylPos .c375, m2 .sphPos .lonlatPos .c399, m2 .sphPos .mathPos .c423,
   m2 .lonlatPos .cartPos3 .c449, m2 .lonlatPos .cylPos .c474, m2 .lonlatPos .sphPos .c499,
   m2 .mathPos .cartPos3 .c527, m2 .mathPos .cylPos .c552, m2 .mathPos .sphPos .c576,
   m2 .prolatePos .cylPos .c602, m2 .cylPos .prolatePos .c633, m2 .prolatePos .pos3 .c709,
   m2 .prolatePos .prolatePos .c735, m2 .pos3 .prolatePos .c779,
   m3 .vel3 .lonCosLatVel posOrQ .c829, m3 .lonCosLatVel .lonlatVel posOrQ .c885, m3 .lonCosLatVel .vel3 posOrQ .c913,
   m2 .cartVel3 .cartVel3 .c939, m2 .cartAcc3 .cartAcc3 .c967]

/-- `_src/vectors/dn/transform.py`, `_src/vectors/space/core.py` 579-584 -/
def regsDN : List (Method Rule) :=
  [m2 .cartPosN .cartPosN .n17, m3 .cartVelN .cartVelN (I .cartPosN) .n37, m2 .cartVelN .cartVelN .n65,
   m2 .cartAccN .cartAccN .n93, m2 .poincare .poincare .n121, m2 .space .vector .s580]

/-- `_src/vectors/transform/d1.py`; `type[A] | type[B]` is one signature -/
def regsX1 : List (Method Rule) :=
  [m2 .cartPos1 .cartPos2 .xa30, m2 .cartPos1 .polarPos .xa65, m2 .cartPos1 .cartPos3 .xa104,
   ⟨⟨[I .cartPos1, T .sphPos ++ T .mathPos], none⟩, 0, .xa145⟩, m2 .cartPos1 .cylPos .xa208,
   m2 .radialPos .cartPos2 .xa256, m2 .radialPos .polarPos .xa291, m2 .radialPos .cartPos3 .xa330,
   ⟨⟨[I .radialPos, T .sphPos ++ T .mathPos], none⟩, 0, .xa371⟩, m2 .radialPos .cylPos .xa434]

/-- `_src/vectors/transform/d2.py`. A positional parameter with a default adds a signature without it (283, 312); the
signatures of `dispatch.multi` are as given (25-29, 79-81). -/
def regsX2 : List (Method Rule) :=
  [m2 .cartPos2 .cylPos .xb30, m2 .cartPos2 .sphPos .xb30, m2 .cartPos2 .mathPos .xb30, m2 .polarPos .cartPos3 .xb82,
   m2 .cartPos2 .cartPos1 .xb124, m2 .cartPos2 .radialPos .xb153, m2 .cartPos2 .cartPos3 .xb185,
   m2 .polarPos .cartPos1 .xb225, m2 .polarPos .radialPos .xb252,
   m3 .polarPos .sphPos (I .qAngle) .xb283, m2 .polarPos .sphPos .xb283,
   m3 .polarPos .mathPos (I .qAngle) .xb312, m2 .polarPos .mathPos .xb312, m2 .polarPos .cylPos .xb341]

/-- `_src/vectors/transform/d3.py` -/
def regsX3 : List (Method Rule) :=
  [m2 .cartPos3 .cartPos1 .xc32, m2 .cartPos3 .radialPos .xc58, m2 .cartPos3 .cartPos2 .xc87,
   m2 .cartPos3 .polarPos .xc115,
   m2 .cylPos .cartPos1 .xc149, m2 .cylPos .radialPos .xc176, m2 .cylPos .cartPos2 .xc207, m2 .cylPos .polarPos .xc237,
   m2 .sphPos .cartPos1 .xc273, m2 .sphPos .radialPos .xc300, m2 .sphPos .cartPos2 .xc331, m2 .sphPos .polarPos .xc361,
   m2 .mathPos .cartPos1 .xc397, m2 .mathPos .radialPos .xc424, m2 .mathPos .cartPos2 .xc455,
   m2 .mathPos .polarPos .xc485, m2 .prolatePos .pos1 .xc521, m2 .prolatePos .pos2 .xc563]

/-- `_src/vectors/transform/{velocities,accelerations,dn,space}.py` -/
def regsXV : List (Method Rule) :=
  [m4 .acc1 .acc1 velOrQ posOrQ .acc, m4 .acc2 .acc2 velOrQ posOrQ .acc, m4 .acc3 .acc3 velOrQ posOrQ .acc,
   m2 .poincare .space .xn16, m2 .space .space .xs16, m2 .space .poincare .xs37,
   m3 .vel1 .vel1 posOrQ .vel, m3 .vel2 .vel2 posOrQ .vel, m3 .vel3 .vel3 posOrQ .vel]

/-- all registrations for `represent_as` -/
def repRegs : List (Method Rule) := regsD1 ++ regsD2 ++ regsD3 ++ regsDN ++ regsX1 ++ regsX2 ++ regsX3 ++ regsXV

/-- the table after the imports -/
def repTable : List (Method Rule) := registerAll repRegs

/-! ### The methods of `frame_transform_op` -/

/-- Implementations: `_src/frames/xfm.py` 15, 39; `_coordinax_space_frames/frame_transforms.py` 36, 55, 294, 527 -/
inductive FRule where
  | x15 | x39 | f36 | f55 | f294 | f527
  deriving DecidableEq, Repr

/-- `_src/frames/xfm.py`, `_coordinax_space_frames/frame_transforms.py` -/
def frameRegs : List (Method FRule) :=
  [⟨⟨[I .noFrame, I .frame], none⟩, 1, .x15⟩, ⟨⟨[I .frame, I .noFrame], none⟩, 0, .x39⟩,
   ⟨⟨[I .icrs, I .icrs], none⟩, 0, .f36⟩, ⟨⟨[I .galactocentric, I .galactocentric], none⟩, 0, .f55⟩,
   ⟨⟨[I .icrs, I .galactocentric], none⟩, 0, .f294⟩, ⟨⟨[I .galactocentric, I .icrs], none⟩, 0, .f527⟩]

/-- the table after the imports -/
def frameTable : List (Method FRule) := registerAll frameRegs

/-! ### Running the rules -/

/-- the class of a position -/
def Kind.cls : Kind → Base
  | .cart1 => .cartPos1
  | .radial => .radialPos
  | .cart2 => .cartPos2
  | .polar => .polarPos
  | .twoSphere => .twoSpherePos
  | .cart3 => .cartPos3
  | .cyl => .cylPos
  | .sph => .sphPos
  | .lonlat => .lonlatPos
  | .math => .mathPos
  | .prolate => .prolatePos

/-- the class of a velocity -/
def VKind.cls : VKind → Base
  | .cart1 => .cartVel1
  | .radial => .radialVel
  | .cart2 => .cartVel2
  | .polar => .polarVel
  | .twoSphere => .twoSphereVel
  | .cart3 => .cartVel3
  | .cyl => .cylVel
  | .sph => .sphVel
  | .lonlat => .lonlatVel
  | .lonCosLat => .lonCosLatVel
  | .math => .mathVel
  | .prolate => .prolateVel

/-- the class of an acceleration; there is none for `lonCosLat` -/
def VKind.accCls : VKind → Option Base
  | .cart1 => some .cartAcc1
  | .radial => some .radialAcc
  | .cart2 => some .cartAcc2
  | .polar => some .polarAcc
  | .twoSphere => some .twoSphereAcc
  | .cart3 => some .cartAcc3
  | .cyl => some .cylAcc
  | .sph => some .sphAcc
  | .lonlat => some .lonlatAcc
  | .lonCosLat => none
  | .math => some .mathAcc
  | .prolate => some .prolateAcc

section
variable {α : Type} [Num α]
open Num

/-- The bodies of the rules for positions, file and line in the names; `rep` is `represent_as(current, target, **kwargs)`.
A rule whose `current` is not of the declared class is never run (`badField`). -/
def Rule.runPos (rep : Kw α → Pos α → Kind → Res (Pos α)) (r : Rule) (kw : Kw α) (p : Pos α) (k : Kind) :
    Res (Pos α) :=
  match r, p with
  -- generic rules: through the Cartesian class of the dimension
  | .a19, p => do rep {} (← rep {} p .cart1) k
  | .b18, p => do rep {} (← rep {} p .cart2) k
  | .c34, p => do rep {} (← rep {} p .cart3) k
  -- self transforms
  | .a32, p | .a41, p | .b32, p | .c48, p => .ok p
  | .a116, .cart1 x => mkRadial (.dist x)
  | .a131, .radial r => do mkCart1 (← r.distance)
  | .b59, .cart2 x y => cart2ToPolar x y
  | .b77, .polar r phi => polarToCart2 r phi
  | .c187, .cart3 x y z => cart3ToCyl x y z
  | .c208, .cart3 x y z => cart3ToSph x y z
  | .c233, p | .c316, p | .c449, p | .c474, p => do rep {} (← rep {} p .sph) k
  | .c264, .cyl rho phi z => cylToCart3 rho phi z
  | .c289, .cyl rho phi z => cylToSph rho phi z
  | .c350, .sph r theta phi => sphToCart3 r theta phi
  | .c375, .sph r theta phi => sphToCyl r theta phi
  | .c399, .sph r theta phi => sphToLonLat r theta phi
  | .c423, .sph r theta phi => sphToMath r theta phi
  | .c499, .lonlat lon lat d => lonlatToSph lon lat d
  | .c527, .math r theta phi => mathToCart3 r theta phi
  | .c552, .math r theta phi => mathToCyl r theta phi
  | .c576, .math r theta phi => mathToSph r theta phi
  | .c602, .prolate mu nu phi delta => prolateToCyl mu nu phi delta
  | .c633, .cyl rho phi z =>
    match kw.delta with
    | none => .error .missingDelta
    | some dl => cylToProlate rho phi z dl
  | .c709, p => do rep {} (← rep {} p .cyl) k
  | .c735, p =>
    match kw.delta with
    | none => .ok p
    | some dl => do rep { delta := some dl } (← rep {} p .cyl) .prolate
  | .c779, p =>
    match kw.delta with
    | none => .error .missingDelta
    | some dl => do rep { delta := some dl } (← rep {} p .cyl) .prolate
  -- raising the dimension
  | .xa30, .cart1 x => mkCart2 x (orZero kw.y)
  | .xa65, .cart1 x => mkPolar (.dist x) (.qty (orZero kw.phi))
  | .xa104, .cart1 x => mkCart3 x (orZero kw.y) (orZero kw.z)
  | .xa145, .cart1 x =>
    match k with
    | .sph => sphFrom (.dist x) (orZero kw.theta) (.qty (orZero kw.phi))
    | .math => mathFrom (.dist x) (.qty (orZero kw.theta)) (orZero kw.phi)
    | _ => .error .badField
  | .xa208, .cart1 x => mkCyl x (.qty (orZero kw.phi)) (orZero kw.z)
  | .xa256, .radial r => do mkCart2 (← r.asLength) (orZero kw.y)
  | .xa291, .radial r => mkPolar r (.qty (orZero kw.phi))
  | .xa330, .radial r => do mkCart3 (← r.asLength) (orZero kw.y) (orZero kw.z)
  | .xa371, .radial r =>
    match k with
    | .sph => sphFrom r (orZero kw.theta) (.qty (orZero kw.phi))
    | .math => mathFrom r (.qty (orZero kw.theta)) (orZero kw.phi)
    | _ => .error .badField
  | .xa434, .radial r => do mkCyl (← r.asLength) (.qty (orZero kw.phi)) (orZero kw.z)
  | .xb30, p => do rep {} (← rep { z := some (orZero kw.z) } p .cart3) k
  | .xb82, p => do rep {} (← rep { z := some (orZero kw.z) } p .cyl) k
  | .xb185, .cart2 x y => mkCart3 x y (orZero kw.z)
  | .xb283, .polar r phi => sphFrom r (orZero kw.theta) (.angle phi)
  | .xb312, .polar r phi => mathFrom r (.angle phi) (orZero kw.phi)
  | .xb341, .polar r phi => do mkCyl (← r.asLength) (.angle phi) (orZero kw.z)
  -- lowering it
  | .xb124, .cart2 x _ => mkCart1 x
  | .xb153, .cart2 x y => do mkRadial (.dist (← sqrt (x * x + y * y)))
  | .xb225, .polar r phi => polarToCart1 r phi
  | .xb252, .polar r _ => mkRadial r
  | .xc32, .cart3 x _ _ => mkCart1 x
  | .xc58, .cart3 x y z => do mkRadial (.dist (← sqrt (x * x + y * y + z * z)))
  | .xc87, .cart3 x y _ => mkCart2 x y
  | .xc115, p => do rep {} (← rep {} p .cart2) k
  | .xc149, .cyl rho phi _ => mkCart1 (rho * cos phi)
  | .xc176, .cyl rho _ _ => mkRadial (.dist rho)
  | .xc207, .cyl rho phi _ => mkCart2 (rho * cos phi) (rho * sin phi)
  | .xc237, .cyl rho phi _ => mkPolar (.dist rho) (.angle phi)
  | .xc273, .sph r theta phi => sphToCart1 r theta phi
  | .xc300, .sph r _ _ => mkRadial r
  | .xc331, .sph r theta phi => sphToCart2 r theta phi
  | .xc361, .sph r theta phi => sphToPolar r theta phi
  | .xc397, .math r theta phi => sphToCart1 r phi theta
  | .xc424, .math r _ _ => mkRadial r
  | .xc455, .math r theta phi => sphToCart2 r phi theta
  | .xc485, .math r theta phi => sphToPolar r phi theta
  | .xc521, p | .xc563, p => do rep {} (← rep {} p .cart3) k
  | _, _ => .error .badField
end

/-- The bodies of the rules for velocities with a position: `rep` is `represent_as(current, target, position)`. -/
noncomputable def Rule.runVel (rep : Vel ℝ → VKind → Res (Vel ℝ)) (r : Rule) (kw : Kw ℝ) (v : Vel ℝ) (k : VKind)
    (p : Pos ℝ) : Res (Vel ℝ) :=
  match r with
  | .a52 | .b43 | .c113 => .ok v
  | .vel => representVelGeneric kw v k p
  | .c829 => do
    match ← rep v .lonlat with
    | .lonlat a b c =>
      let pv ← representAs {} p .lonlat
      return .lonCosLat (a * Num.cos (← pv.lat)) b c
    | _ => .error .badField
  | .c885 =>
    match v with
    | .lonCosLat a b c => lonCosLatToLonLat a b c p
    | _ => .error .badField
  | .c913 => do rep (← rep v .lonlat) k
  | _ => .error .badField

/-- The bodies of the rules for accelerations with velocity and position. -/
noncomputable def Rule.runAcc (r : Rule) (kw : Kw ℝ) (a : Acc ℝ) (k : VKind) (v : Vel ℝ) (p : Pos ℝ) : Res (Acc ℝ) :=
  match r with
  | .a84 => .ok a
  | .acc => representAccGeneric kw a k v p
  | _ => .error .badField

/-- the class of a frame -/
def Frame.cls : Frame → Base
  | .noFrame => .noFrame
  | .icrs => .icrs
  | .gcf _ => .galactocentric

open Classical in
/-- The bodies of the rules for frames (`_src/frames/xfm.py` 15-36, 39-55 raise;
`_coordinax_space_frames/frame_transforms.py` 36-52, 55-78, 294-316, 527-549). -/
noncomputable def FRule.run (r : FRule) (a b : Frame) : Res FOp :=
  match r with
  | .x15 | .x39 => .error .frame
  | .f36 => .ok .identity
  | .f55 =>
    match a, b with
    | .gcf g, .gcf h => if g = h then .ok (.pipe [.identity]) else .ok (.pipe [.gcf2icrs g, .icrs2gcf h])
    | _, _ => .error .badField
  | .f294 =>
    match b with
    | .gcf g => .ok (.icrs2gcf g)
    | _ => .error .badField
  | .f527 =>
    match a with
    | .gcf g => .ok (.gcf2icrs g)
    | _ => .error .badField

/-! ### The methods of `AbstractOperator.__call__` -/

/-- Implementations, named by file and line of `_src/operators/`: `i` is `identity.py`, `p` is `pipe.py`, `r`, `s`, `t`, `b`
are `galilean/{rotation,spatial_translation,translation,boost}.py`, `v` is `boost.py`, `q` is `compat.py`. -/
inductive ORule where
  | i126 | i150 | p90 | p112
  | b128 | b159 | r228 | r264 | r292 | s211 | s264 | s297 | s318 | t146 | t183
  | v110 | v160 | v187 | v207 | v233
  | q28 | q47 | q76 | q94 | q126 | q156 | q191 | q222
  deriving DecidableEq, Repr

/-- a method without `*args`, of precedence 0 -/
def mo (ts : List Hint) (r : ORule) : Method ORule := ⟨⟨ts, none⟩, 0, r⟩

/-- `TimeBatchOrScalar` (`_src/typing.py` 37) -/
def timeHint : Hint := [.inst (.lib .scalarTime), .inst (.lib .batchTime)]

/-- `identity.py` 125-173. `dispatch.abstract` (`base.py` 109-130) registers nothing. -/
def regsIdentity : List (Method ORule) :=
  [⟨⟨[I .identityOp, [.any]], none⟩, 1, .i126⟩, ⟨⟨[I .identityOp], some [.any]⟩, 1, .i150⟩]

/-- `pipe.py` 89-133 -/
def regsPipe : List (Method ORule) :=
  [⟨⟨[I .compOp], some [.any]⟩, 0, .p90⟩, ⟨⟨[I .compOp, I .pos], none⟩, 1, .p112⟩]

/-- `galilean/boost.py` 127-176 -/
def regsBoost : List (Method ORule) :=
  [mo [I .boostOp, I .pos, I .qTime] .b128, mo [I .boostOp, I .fourVector] .b159]

/-- `galilean/rotation.py` 227-316 -/
def regsRotation : List (Method ORule) :=
  [⟨⟨[I .rotationOp, I .hint3r], none⟩, 1, .r228⟩, mo [I .rotationOp, I .pos3] .r264,
   mo [I .rotationOp, I .pos3, I .qTime] .r292]

/-- `galilean/spatial_translation.py` 210-231, 263-360 -/
def regsSpatial : List (Method ORule) :=
  [mo [I .spatialOp, I .pos] .s211, mo [I .spatialOp, I .pos, I .qTime] .s264, mo [I .spatialOp, I .fourVector] .s297,
   mo [I .spatialOp, I .pos, I .vel] .s318]

/-- `galilean/translation.py` 145-218 -/
def regsTranslation : List (Method ORule) :=
  [mo [I .translationOp, I .fourVector] .t146, mo [I .translationOp, I .pos3, I .qTime] .t183]

/-- `boost.py` 109-127, 159-259 -/
def regsVBoost : List (Method ORule) :=
  [mo [I .vboostOp, I .vel] .v110, mo [I .vboostOp, I .pos, I .vel] .v160, mo [I .vboostOp, I .pos] .v187,
   mo [I .vboostOp, I .pos, I .qTime] .v207, mo [I .vboostOp, I .fourVector] .v233]

/-- `compat.py` 27-252 -/
def regsCompat : List (Method ORule) :=
  [mo [I .operator, I .hint1] .q28, mo [I .operator, I .hint1, timeHint] .q47,
   mo [I .operator, I .hint2] .q76, mo [I .operator, I .hint2, timeHint] .q94,
   mo [I .operator, I .hint3] .q126, mo [I .pipeOp, I .hint3] .q126, mo [I .operator, I .hint3, timeHint] .q156,
   mo [I .operator, I .fourVector] .q191, mo [I .operator, I .hint4] .q222]

/-- the modules that register calls -/
def opModules : List (List (Method ORule)) :=
  [regsIdentity, regsPipe, regsBoost, regsRotation, regsSpatial, regsTranslation, regsVBoost, regsCompat]

/-- all registrations -/
def opRegs : List (Method ORule) := opModules.flatten

/-- the table after the imports -/
def opTable : List (Method ORule) := registerAll opRegs

/-- the class of an operator -/
def Op.opBase : Op → Base
  | .identity => .identityOp
  | .rotation _ => .rotationOp
  | .spatial _ => .spatialOp
  | .translation _ => .translationOp
  | .boost _ => .boostOp
  | .vboost _ => .vboostOp
  | .galilean _ _ _ => .galileanOp
  | .pipe _ => .pipeOp

/-- the classes of the arguments -/
def Arg.atoms : Arg → List Atom
  | .pos q => [.inst (.lib q.kind.cls)]
  | .posTime q _ => [.inst (.lib q.kind.cls), .inst (.lib .time0)]
  | .four _ => [.inst (.lib .fourVector)]
  | .posVel q p => [.inst (.lib q.kind.cls), .inst (.lib p.kind.cls)]
  | .vel p => [.inst (.lib p.kind.cls)]

/-- The bodies of the rules for vectors. `call` is the dispatch of the inner calls `op(...)`. The loop 107-109 spreads the
result of a velocity over the next call, so that only one operator can be applied (see `Op.call`); in a `GalileanOperator`
the rotation raises first. -/
noncomputable def ORule.run (r : ORule) (call : Op → Arg → Res Arg) (op : Op) (a : Arg) : Res Arg :=
  match r, op, a with
  | .i126, _, a | .i150, _, a => .ok a
  | .p90, .pipe ops, a =>
    if a.isVel = true ∧ ops.length ≠ 1 then .error .typeError else ops.foldlM (fun a o => call o a) a
  | .p112, .pipe ops, a => ops.foldlM (fun a o => call o a) a
  | .p90, .galilean R d v, a | .p112, .galilean R d v, a =>
    [Op.rotation R, .translation d, .boost v].foldlM (fun a o => call o a) a
  | .b128, .boost v, .posTime q t => do return .posTime (← addPos q (← velTimes v t)) t
  | .b159, .boost v, .four x => do return .four { x with q := ← addPos x.q (← velTimes v x.t) }
  | .r264, .rotation R, .pos q => do
    match ← representAs {} q .cart3 with
    | .cart3 x y z => return .pos (← representAs {} (matApply R x y z) q.kind)
    | _ => .error .noDispatch
  | .r292, .rotation R, .posTime q t => do
    match ← call (.rotation R) (.pos q) with
    | .pos q' => return .posTime q' t
    | _ => .error .badField
  | .s211, .spatial d, .pos q => do return .pos (← addPos q d)
  | .s264, .spatial d, .posTime q t => do return .posTime (← addPos q d) t
  | .s297, .spatial d, .four x => do return .four { x with q := ← addPos x.q d }
  | .s318, .spatial d, .posVel q p => do
    match ← call (.spatial d) (.pos q) with
    | .pos newq => return .posVel newq (← spatialVel d q newq p)
    | _ => .error .badField
  | .t146, .translation d, .four x => do return .four (← x.add d)
  | .t183, .translation d, .posTime q t => do return .posTime (← addPos q d.q) (t + d.t)
  | .v110, .vboost v, .vel p => do return .vel (← addVel p v)
  | .v160, .vboost v, .posVel q p => do return .posVel q (← addVel p v)
  | .v187, .vboost _, a | .v207, .vboost _, a => .ok a
  | .v233, .vboost v, .four x => do
    match ← call (.vboost v) (.posTime x.q x.t) with
    | .posTime q t => return .four { x with q := q, t := t }
    | _ => .error .badField
  | .q191, op, .four x => do
    match ← call op (.posTime x.q x.t) with
    | .posTime q t => return .four ⟨t, q, lightSpeed⟩
    | _ => .error .badField
  | _, _, _ => .error .badField

/-- the class of a length Quantity of `n` components, 1 to 4 -/
def lenCls : ℕ → Option Base
  | 1 => some .len1
  | 2 => some .len2
  | 3 => some .len3
  | 4 => some .len4
  | _ => none

/-- The bodies of the rules for Quantities -/
noncomputable def ORule.runQ (r : ORule) (op : Op) (a : QArg) : Res QArg :=
  match r, a with
  | .i126, a | .i150, a => .ok a
  | .r228, .q [x, y, z] =>
    match op with
    | .rotation R => do return .q (← (matApply R x y z).cartComponents)
    | _ => .error .badField
  | .q28, .q xs | .q76, .q xs =>
    match cartOf xs with
    | none => .error .badField
    | some p => do
      match ← op.call (.pos p) with
      | .pos q => return .q (← toQuantity q)
      | _ => .error .noDispatch
  | .q126, .q [x, y, z] => do
    match ← op.call (.pos (.cart3 x y z)) with
    | .pos q => return .q (← toQuantity (← representAs {} q .cart3))
    | _ => .error .noDispatch
  | .q222, .q xs => do
    match ← op.call (.four (← Four.from_ xs)) with
    | .four v => return .q (← v.toQuantity)
    | _ => .error .noDispatch
  | .q47, .qt xs t | .q94, .qt xs t | .q156, .qt xs t =>
    match cartOf xs with
    | none => .error .badField
    | some p => do
      match ← op.call (.posTime p t) with
      | .posTime q t' => return .qt (← toQuantity q) t'
      | _ => .error .noDispatch
  | _, _ => .error .badField

end Verif
