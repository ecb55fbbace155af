import Verif.Distance

/-!
# Angles and distances as quantities with explicit units

`coordinax.angle.Angle`, `coordinax.distance.{Distance, Parallax, DistanceModulus}` with values of any shape and
with units. Unlike in `Verif/Units.lean` the exponents of a unit are rational, because roots are taken. An
operation one of whose entries is NaN or inf is `Err.nonFinite`.
-/

namespace Verif

/-- A physical type: rational exponents of length, time, mass, angle and of the logarithmic magnitude. -/
structure RDim where
  len : ℚ := 0
  time : ℚ := 0
  mass : ℚ := 0
  angle : ℚ := 0
  mag : ℚ := 0
  deriving DecidableEq

namespace RDim
/-- product of units -/
def mul (a b : RDim) : RDim :=
  ⟨a.len + b.len, a.time + b.time, a.mass + b.mass, a.angle + b.angle, a.mag + b.mag⟩
/-- power of a unit -/
def pow (a : RDim) (y : ℚ) : RDim := ⟨y * a.len, y * a.time, y * a.mass, y * a.angle, y * a.mag⟩
/-- quotient of units -/
def div (a b : RDim) : RDim := a.mul (b.pow (-1))
end RDim

/-- A unit: physical type and the factor to the base unit of that type (AU, day, solMass, rad, mag).
Astropy compares units by just these two. -/
structure RUnit where
  dim : RDim
  scale : ℝ
  pos : 0 < scale

namespace RUnit
/-- `u1 * u2` -/
noncomputable def mul (a b : RUnit) : RUnit := ⟨a.dim.mul b.dim, a.scale * b.scale, mul_pos a.pos b.pos⟩
/-- `u ** y` -/
noncomputable def pow (a : RUnit) (y : ℚ) : RUnit :=
  ⟨a.dim.pow y, a.scale ^ (y : ℝ), Real.rpow_pos_of_pos a.pos _⟩
/-- `u1 / u2` -/
noncomputable def div (a b : RUnit) : RUnit := ⟨a.dim.div b.dim, a.scale / b.scale, div_pos a.pos b.pos⟩
/-- `u.unit("")` -/ def one : RUnit := ⟨{}, 1, one_pos⟩
/-- `u.unit("radian")` -/ def rad : RUnit := ⟨{ angle := 1 }, 1, one_pos⟩
/-- `u.unit("AU")` -/ def au : RUnit := ⟨{ len := 1 }, 1, one_pos⟩
/-- `u.unit("pc")` -/ noncomputable def pc : RUnit := ⟨{ len := 1 }, 648000 / Real.pi, by positivity⟩
/-- `u.unit("deg")` -/ noncomputable def deg : RUnit := ⟨{ angle := 1 }, Real.pi / 180, by positivity⟩
/-- `u.unit("mag")` -/ def mag : RUnit := ⟨{ mag := 1 }, 1, one_pos⟩
end RUnit

/-- Quantity classes: `Quantity`, `UncheckedQuantity` (unxt), `Angle` (`_src/angles/core.py` 10-11), `Distance`,
`Parallax` with its static field `check_negative`, `DistanceModulus` (`_src/distances/core.py` 25-26, 105-135,
205-206). -/
inductive ACls where
  | quantity | unchecked | angle | distance | parallax (checkNegative : Bool) | distmod
  deriving DecidableEq

/-- an `AbstractAngle` -/
def ACls.isAngle : ACls → Bool
  | .angle => true
  | _ => false

/-- an `AbstractDistance` -/
def ACls.isDistance : ACls → Bool
  | .distance | .parallax _ | .distmod => true
  | _ => false

/-- A quantity whose value is an array with index set `ι`. -/
structure AQ (ι : Type) where
  cls : ACls
  value : ι → ℝ
  unit : RUnit

/-- the value at an index, in base units -/
def AQ.phys {ι : Type} (x : AQ ι) (i : ι) : ℝ := x.value i * x.unit.scale

section
variable {ι : Type}

open Classical in
/-- Constructors with their `__check_init__`: `Angle` (`_src/angles/base.py` 38-42), `Distance`
(`_src/distances/core.py` 45-49), `Parallax` (142-153), `DistanceModulus` (223-227: the unit itself is compared).
`Quantity` and `UncheckedQuantity` (unxt) check nothing here. -/
noncomputable def mkAQ (c : ACls) (v : ι → ℝ) (un : RUnit) : Res (AQ ι) :=
  match c with
  | .quantity | .unchecked => .ok ⟨c, v, un⟩
  | .angle => if un.dim = { angle := 1 } then .ok ⟨c, v, un⟩ else .error .value
  | .distance => if un.dim = { len := 1 } then .ok ⟨c, v, un⟩ else .error .value
  | .parallax chk =>
    if un.dim = { angle := 1 } then
      if chk = true ∧ ∃ i, v i < 0 then .error .check else .ok ⟨c, v, un⟩
    else .error .value
  | .distmod => if un.dim = RUnit.mag.dim ∧ un.scale = RUnit.mag.scale then .ok ⟨c, v, un⟩ else .error .value

/-- `u.ustrip(unit, x)` -/
noncomputable def ustripA (un : RUnit) (x : AQ ι) : Res (ι → ℝ) :=
  if un.dim = x.unit.dim then .ok fun i => x.value i * (x.unit.scale / un.scale) else .error .units

open Classical in
/-- an elementwise primitive with domain `dom`; outside of it the entry is NaN or inf -/
noncomputable def elementwise (dom : ℝ → Prop) (f : ℝ → ℝ) (v : ι → ℝ) : Res (ι → ℝ) :=
  if ∀ i, dom (v i) then .ok fun i => f (v i) else .error .nonFinite

/-- real cube root (`lax.cbrt`) -/
noncomputable def cbrtR (x : ℝ) : ℝ := signR x * |x| ^ ((1 : ℝ) / 3)

/-- where `lax.pow(x, y)` is finite -/
def PowDom (y : ℚ) (x : ℝ) : Prop := 0 < x ∨ (x = 0 ∧ 0 ≤ y) ∨ (x < 0 ∧ y.den = 1)

/-! ### Primitives. `Angle`: `_src/angles/register_primitives.py`; `AbstractDistance`:
`_src/distances/register_primitives.py`. For a plain `Quantity` the same rules are those of unxt. Everything else
has no rule in this model. -/

/-- `cbrt` (`angles/register_primitives.py` 35-49, `distances/register_primitives.py` 35-48) -/
noncomputable def AQ.cbrt (x : AQ ι) : Res (AQ ι) :=
  if x.cls = .unchecked then .error .noDispatch else do
  let v ← elementwise (fun _ => True) cbrtR x.value
  mkAQ .quantity v (x.unit.pow (1 / 3))

/-- `sqrt` (`angles/register_primitives.py` 164-179, `distances/register_primitives.py` 136-156) -/
noncomputable def AQ.sqrt (x : AQ ι) : Res (AQ ι) :=
  if x.cls = .unchecked then .error .noDispatch else do
  let v ← elementwise (fun a => 0 ≤ a) Real.sqrt x.value
  mkAQ .quantity v (x.unit.pow (1 / 2))

/-- `integer_pow` with static exponent `y` (`angles/register_primitives.py` 104-117,
`distances/register_primitives.py` 97-109) -/
noncomputable def AQ.integerPow (x : AQ ι) (y : ℤ) : Res (AQ ι) :=
  if x.cls = .unchecked then .error .noDispatch else do
  let v ← elementwise (fun a => a ≠ 0 ∨ 0 ≤ y) (fun a => a ^ y) x.value
  mkAQ .quantity v (x.unit.pow y)

/-- `pow` with a scalar exponent: redispatches to `Quantity ** y`, whose unit is `unit ** y`
(`angles/register_primitives.py` 123-138, `distances/register_primitives.py` 115-130) -/
noncomputable def AQ.pow (x : AQ ι) (y : ℚ) : Res (AQ ι) :=
  if x.cls = .unchecked then .error .noDispatch else do
  let q ← mkAQ .quantity x.value x.unit
  let v ← elementwise (PowDom y) (fun a => a ^ (y : ℝ)) q.value
  mkAQ .quantity v (q.unit.pow y)

/-- `cos` of an `Angle` (`angles/register_primitives.py` 55-69) -/
noncomputable def AQ.cos (x : AQ ι) : Res (AQ ι) :=
  if x.cls.isAngle then do
    let v ← ustripA .rad x
    mkAQ .quantity (fun i => Real.cos (v i)) .one
  else .error .noDispatch

/-- `sin` of an `Angle` (`angles/register_primitives.py` 144-158) -/
noncomputable def AQ.sin (x : AQ ι) : Res (AQ ι) :=
  if x.cls.isAngle then do
    let v ← ustripA .rad x
    mkAQ .quantity (fun i => Real.sin (v i)) .one
  else .error .noDispatch

/-- `_to_value_rad_or_one` (`distances/register_primitives.py` 162-163) -/
noncomputable def AQ.radOrOne (x : AQ ι) : Res (ι → ℝ) :=
  ustripA (if x.unit.dim = RUnit.rad.dim then .rad else .one) x

/-- `tan` of an `AbstractDistance` (`distances/register_primitives.py` 167-169). A plain `Quantity` is treated alike
by unxt; there is no rule for `Angle` in coordinax. -/
noncomputable def AQ.tan (x : AQ ι) : Res (AQ ι) :=
  if x.cls.isDistance ∨ x.cls = .quantity then do
    let v ← elementwise (fun a => Real.cos a ≠ 0) Real.tan (← x.radOrOne)
    mkAQ .quantity v .one
  else .error .noDispatch

/-- `dot_general` of two `Angle`s or two `AbstractDistance`s (`angles/register_primitives.py` 75-98,
`distances/register_primitives.py` 54-91), after its operands have been brought to the shapes
`(batch, free, contracted)`. -/
noncomputable def AQ.dot {B M N K : Type} [Fintype K] (x : AQ (B × M × K)) (y : AQ (B × N × K)) :
    Res (AQ (B × M × N)) :=
  if (x.cls.isAngle ∧ y.cls.isAngle) ∨ (x.cls.isDistance ∧ y.cls.isDistance) then
    mkAQ .quantity (fun i => ∑ k, x.value (i.1, i.2.1, k) * y.value (i.1, i.2.2, k)) (x.unit.mul y.unit)
  else .error .noDispatch

/-! ### Conversions -/

/-- `plum.convert(q, cls)`. To `Quantity`: `_src/angles/compat.py` 19-34, `_src/distances/compat.py` 22-25; to
`UncheckedQuantity`: `_src/angles/compat.py` 37-52 (angles only); to `Angle`: 55-78; to `Distance`, `Parallax`,
`DistanceModulus`: `_src/distances/compat.py` 28-109. Whatever is already of the class is returned unchanged; a
`Parallax` made here has the default `check_negative=True`. -/
noncomputable def AQ.convertTo (x : AQ ι) : ACls → Res (AQ ι)
  | .quantity => match x.cls with
    | .quantity => .ok x
    | .angle | .distance | .parallax _ | .distmod => mkAQ .quantity x.value x.unit
    | .unchecked => .error .noDispatch
  | .unchecked => match x.cls with
    | .unchecked => .ok x
    | .angle => mkAQ .unchecked x.value x.unit
    | _ => .error .noDispatch
  | .angle => match x.cls with
    | .angle => .ok x
    | _ => mkAQ .angle x.value x.unit
  | .distance => match x.cls with
    | .distance => .ok x
    | _ => mkAQ .distance x.value x.unit
  | .parallax _ => match x.cls with
    | .parallax _ => .ok x
    | _ => mkAQ (.parallax true) x.value x.unit
  | .distmod => match x.cls with
    | .distmod => .ok x
    | _ => mkAQ .distmod x.value x.unit

/-- `plum.convert(astropy_quantity, cls)` for the three distance classes
(`_interop/coordinax_interop_astropy/distance.py` 15-29, 36-50, 57-71) -/
noncomputable def fromAstropyQ (v : ι → ℝ) (un : RUnit) : ACls → Res (AQ ι)
  | .distance => mkAQ .distance v un
  | .parallax _ => mkAQ (.parallax true) v un
  | .distmod => mkAQ .distmod v un
  | _ => .error .noDispatch

/-! ### The properties `distance`, `parallax`, `distance_modulus` with units -/

/-- `1 AU / jnp.tan(p)` as `Distance` (`_src/distances/core.py` 16, 155-172, 293-294) -/
noncomputable def tanDistance (x : AQ ι) : Res (AQ ι) := do
  let t ← x.tan
  let v ← elementwise (fun a => a ≠ 0) (fun a => 1 / a) t.value
  mkAQ .distance v (RUnit.au.div t.unit)

/-- `10 ** (m / 5 + 1)` pc as `Distance`, `m` the number of magnitudes
(`_src/distances/core.py` 229-242, 319-320) -/
noncomputable def magDistance (m : ι → ℝ) : Res (AQ ι) :=
  mkAQ .distance (fun i => (10 : ℝ) ^ (m i / 5 + 1)) .pc

/-- `jnp.arctan2(1 AU, x)` as `Parallax` (`_src/distances/core.py` 16, 65-83, 342-343): the second operand is
converted to AU, the result is in radians -/
noncomputable def atanParallax (x : AQ ι) : Res (AQ ι) := do
  let v ← ustripA .au x
  mkAQ (.parallax true) (fun i => atan2R 1 (v i)) .rad

/-- `.distance` (`_src/distances/core.py` 51-63, 155-172, 229-242) -/
noncomputable def AQ.distance (x : AQ ι) : Res (AQ ι) :=
  match x.cls with
  | .distance => .ok x
  | .parallax _ => tanDistance x
  | .distmod => magDistance x.value
  | _ => .error .attribute

/-- `5 * jnp.log10(x / (10 pc)).value` as `DistanceModulus` (`_src/distances/core.py` 17, 85-99): the quotient has
the unit `x.unit / pc` and is brought to a plain number by `log10` -/
noncomputable def logModulus (x : AQ ι) : Res (AQ ι) := do
  let q ← mkAQ .quantity (fun i => x.value i / 10) (x.unit.div .pc)
  let l ← elementwise (fun a => 0 < a) (Real.logb 10) (← ustripA .one q)
  mkAQ .distmod (fun i => 5 * l i) .mag

/-- `.parallax` (`_src/distances/core.py` 65-83, 174-186, 244-255) -/
noncomputable def AQ.parallax (x : AQ ι) : Res (AQ ι) :=
  match x.cls with
  | .distance => atanParallax x
  | .parallax _ => .ok x
  | .distmod => do atanParallax (← x.distance)
  | _ => .error .attribute

/-- `.distance_modulus` (`_src/distances/core.py` 85-99, 188-199, 257-268) -/
noncomputable def AQ.distanceModulus (x : AQ ι) : Res (AQ ι) :=
  match x.cls with
  | .distance => logModulus x
  | .parallax _ => do logModulus (← x.distance)
  | .distmod => .ok x
  | _ => .error .attribute

/-- `Distance.from_(x)` (`_src/distances/core.py` 275-320): parallaxes and Quantities that are angles through the
tangent, moduli and Quantities in magnitudes through the power of ten (`ustrip("mag", ·)`), everything else by
unxt's rule, which calls the constructor. -/
noncomputable def AQ.distanceFrom (x : AQ ι) : Res (AQ ι) :=
  match x.cls with
  | .distance => .ok x
  | .parallax _ => tanDistance x
  | .distmod => do magDistance (← ustripA .mag x)
  | .quantity =>
    if x.unit.dim = RUnit.rad.dim then tanDistance x
    else if x.unit.dim = RUnit.mag.dim then do magDistance (← ustripA .mag x)
    else mkAQ .distance x.value x.unit
  | .unchecked | .angle => mkAQ .distance x.value x.unit

/-- `Parallax.from_(x)` (`_src/distances/core.py` 323-343): distances and Quantities that are lengths through the
arctangent, everything else by unxt's rule -/
noncomputable def AQ.parallaxFrom (x : AQ ι) : Res (AQ ι) :=
  match x.cls with
  | .distance => atanParallax x
  | .parallax _ => .ok x
  | .quantity =>
    if x.unit.dim = RUnit.au.dim then atanParallax x else mkAQ (.parallax true) x.value x.unit
  | .unchecked | .angle | .distmod => mkAQ (.parallax true) x.value x.unit

end

end Verif
