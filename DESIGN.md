# coordinax in Lean 4: design, trusted base, coverage

Sources modelled: `/repo/src/coordinax` at the pinned commit, read as text.
Nothing in `/repo` is run. All paths below are relative to `/repo/src/coordinax`.

## 1. How the model is built

* **One polymorphic transcription.** The coordinate formulas are transcribed once,
  over an abstract scalar type `α` with a class `Num α` (`+ - * sin cos abs sign <`
  total; `/ sqrt acos atan2 tan ...` *partial*, returning `Except Err α`).
  The transcription is instantiated at
  * `ℝ` - the meaning of a scalar vector component;
  * `Dual` - dual numbers over `ℝ` carrying JAX's forward-mode (JVP) rules for each
    primitive. `jax.jacfwd` of a conversion *is* this instantiation, run once per basis
    tangent, so velocity/acceleration conversions are modelled by running the same
    conversion code on dual numbers, not by hand-written Jacobians;
  * `Float` - only to run the model in a scratch copy against docstring outputs
    (not committed as evidence).
* **Errors are values.** `Except Err`: failed `eqx.error_if` checks, missing `Delta`,
  no dispatch rule, runaway recursion, and *non-finite* results (`0/0`, `sqrt` of a
  negative number, infinite derivative) are distinct errors. So "returns" is never
  obtained from a totalised division.
* **Dispatch.** `represent_as` is a fuel-indexed function with one branch per plum rule,
  in plum's specificity order. Fuel 0 is the error `recursion` (Python's recursion limit).
* **Specification apart.** `Verif/Spec.lean` contains textbook definitions only
  (Cartesian coordinates of each representation, Cartesian velocity as a push-forward,
  Euclidean norm, ...) and does not use the model's functions.
  Property theorems are in `Verif/Props/*.lean`, one file per group, each with examples
  showing that the hypotheses are met by a concrete non-trivial value.

## 2. Trusted base

* Lean 4.33.0 kernel; Mathlib's definitions of `ℝ`, `sin`, `cos`, `arccos`, `Complex.arg`, ...
* Axioms: only `propext`, `Classical.choice`, `Quot.sound` (checked by `vcheck`).
* The reading of the Python text into the model (each definition cites file and lines).
* Assumed behaviour of dependencies (not part of coordinax): plum picks the most specific
  rule; `quaxed.numpy`/`jax` primitives are the mathematical functions on their domain and
  give NaN/inf off it; JAX's JVP rules (listed in `Verif/Num.lean`); `unxt` converts units
  exactly; `Angle % Angle` is an `Angle`; arithmetic of `Angle` with `Quantity` gives a
  `Quantity` (promotion rule in `_src/angles/compat.py`); `eqx.error_if` raises.

### Not modelled
* IEEE floating point: components are exact reals. Rounding, overflow, float32 tolerance.
* JIT/vmap staging, device placement, pytrees; batches are modelled by scalars (every
  modelled operation is elementwise) except in the shape module, where shapes are explicit.
* Units inside vectors: lengths are reals in one base unit (AU), angles in radians, except
  in the units module where units are explicit.
* repr/str, docs, hypothesis strategies, dtype handling, pickling, plotting.
* Warnings (`IrreversibleDimensionChange`) are not effects in the model.

## 3. Plan per property

| id | model | proof |
|----|-------|-------|
| C01 | `represent` (3-D rules) over ℝ; spec `cart3Of` | lemma per primitive rule, then case analysis over dispatch |
| C02 | 2-D, 1-D rules | same |
| C03 | as C01 + canonical form predicate | injectivity of textbook embedding on canonical points |
| C04 | as C01 | C01 twice + injectivity |
| C05 | constructors with checks | every returned vector was built by a checked constructor; azimuth ranges via `wrap` |
| C06 | constructors, `Unless(Angle, ...)` converter; `eqx.error_if` on arrays | iff per class, also for batches (`C06_batches`: every element in range); an `Angle` is not wrapped (negation proved) |
| C07 | `from_` cascades | trig identities on each select branch |
| C08 | `from_` cascade | exact acceptance set (equivalence); the unrestricted claim is negated |
| C09 | `represent` with fuel and non-finite errors | success off the singular cases, and failure at each of them, for every fuel: together an equivalence (`ConvIff.represent_iff`) |
| C10 | prolate rules with all branches | algebra with `D² = diff²+4R²Δ²` |
| C11 | prolate rules with `Delta : Option` | case analysis |
| C12 | cross-dimension rules + kwargs defaults | per rule; the (polar/1-D → spherical) defaults are characterised as the z axis, the return condition is an equivalence |
| C13 | cross-dimension rules | per rule; cylindrical → radial and parallax → polar are characterised, with the exact set where they are right |
| C14 | `norm` overrides and default | per class |
| C15-C18 | arithmetic dispatch through Cartesian | via C01 and `represent_iff`: value when it returns, and an equivalence for when it returns; division characterised componentwise, with the exact set where it is geometric |
| C19-C23 | dual-number run of `represent`, columns contracted with the velocity | position theorem re-proved over dual numbers gives push-forward equality; spec push-forward validated with `HasDerivAt` along arbitrary curves |
| C24 | acceleration rule (Jacobian only) | the exact transformation law (first-order term only); the error is the difference of the quadratic terms of the two classes, so an equivalence for when the result is the physical acceleration; the unrestricted claim negated by circular motion |
| C25 | field renaming + constructors | per class |
| C26 | `Distance`/`Parallax`/`DistanceModulus` | tan/atan2, log10/10^ |
| C27-C32 | inductive `Op`, list Pipes, call on pos / (pos,t) / (pos,vel) | induction on pipes; return conditions as equivalences (`Runs`, `Invertible`); simplification: equivalence through injectivity of rigid actions |
| C33-C36 | frame matrices and call functions | matrix algebra of rotations |
| C37-C38 | explicit units (scale factors per component) | induction on component lists |
| C39 | Cartesian ↔ list of components; a Quantity of shape `()` | direct |
| C40-C41 | `Space` as key-indexed record; Poincaré formulas | per key; exact conditions, with the two failures (duplicate dimensions, sign and azimuth loss) |
| C42 | `FourVector` | direct, via C15; exact conditions |
| C43 | shapes as `List ℕ`, arrays as index functions | broadcasting lemmas; exact conditions for `T`, `mT`, `flatten`, `ravel` (false for some mixed shapes) |
| C44 | `__eq__` | via C01 + injectivity of the embedding on canonical positions; return condition by tracking the class of the radial field through `represent` |
| C45 | astropy constructor/converter field maps | direct |
| C46 | `normalize_vector` | direct |
| C47 | `-space` | exact condition on the rates (`C47_negation_iff`) |
| C48 | cross-dimension rules with explicit keyword arguments | per rule against a textbook `raised` |
| C49 | `represent_as` and `from_` transcribed a second time on arrays with shapes and NaN (`Batch`) | simulation: induction on the recursion depth, per rule, that each element of the array run is the scalar run |
| C50 | constructors with converters, units and checks (`Units.construct`) against a textbook table of components | equivalence: per converter, per class |
| C51 | keyword construction, `asdict`, `replace`, `from_` of mappings and vectors (`Construct`) | lookups in lists with distinct keys; `from_` of vectors characterised |
| C52 | Cartesian `+ - neg * / norm ==`, times a time, on arrays with units (`CartArith`) | elementwise lemmas for `lax` and numpy broadcasting, lifted over the component list; exact conditions for returning |
| C53 | the same for `CartesianPosND/VelND/AccND` | shapes `(*batch, F)`: broadcasting splits at the last axis |
| C54 | call rules on Quantities and which of them wins (`OpQty`) | reduction to calls on vectors (C30, C31, C42); time-free calls agree with timed ones by induction on nesting |
| C55 | indexing, slicing, iteration, `Pipe(...)` | lists: Python bounds against `take`/`drop`; `inverseAll` of an append |
| C56 | `from_`, defaults, `from_euler`, `-op`, `@` | algebra of 3x3 matrices, induction on the angle sequence |
| C57 | velocity and acceleration rules on arrays: `reshape`, `vmap`, `reshape` (`BatchVel`) | elements through the flattening bijection, position conversion by C49's simulation, shapes of all leaves by induction on the recursion depth |
| C58 | position arithmetic on arrays (`BatchArith`): `lax` shape rule, `represent_as` on arrays, stacking, reductions | simulation of the scalar transcription (`Arith`) elementwise through each step; shapes of the Cartesian forms from C57's shape induction |
| C59 | `Angle`, `Distance`, `Parallax`, `DistanceModulus` with explicit units and values of any shape (`AngDist`): constructors, primitives, conversions, `from_` | each rule computed on physical values (value times scale): roots and powers by `rpow` laws, tangents and logarithms by C26's lemmas; unit independence by rewriting both calls to functions of the physical values |
| C60 | operators on arrays (`BatchOp`): `OpB.call` on top of the array versions of `represent_as` and `+`, with numpy/lax broadcasting, `stack`, `matmul` and the Jacobian of the translation | each array rule simulates its scalar rule at a set of indices (`callB_sim`, by induction on the operator); returning by a shape invariant (`UniP`); pairs through a translation by computing the shapes |
| C61 | every rule of `represent_as` again, on quantities with a unit per component (`UnitRep`, `UnitVel`), over real and dual numbers | each rule simulates the rule on base-unit values (`representU_rel`, by induction on the fuel); for Jacobians: the rule commutes with scaling the tangent (`represent_hom`), so a column in any unit is the base column times a ratio of scales (`jacobian_rel`); independence by joining two simulations |
| C62 | `+`, `-`, `-p`, `s * p`, `p / s`, `p * q`, `norm`, `normalize_vector`, `==` with a unit per component (`UnitArith`); `jax.tree.map` acts on stored values and needs equal units | simulation by the rules on base-unit values (`UnitArithSim`, using `representAs_rel` of C61); the units of the Cartesian components are computed from the fields (`toCart_units`), so the raising cases are characterised |
| C63 | `FourVector` on arrays (`BatchFour`): `+`, `-`, `-x`, norms, conversion from and to a Quantity with `concat` (no broadcasting) and slicing | elementwise by `Arr.map2_spec` and C58; exact return conditions from `timeFits_iff`, `Addable` and a closed form of `concat` (`concatLast_snoc`) |
| C64 | the rules for `broadcast_in_dim_p` and `reshape_p` on vectors (`Prims`): every field, then the constructor | closed form of the rule (`mapFieldsM_ite`); the checks of the constructor see only elements they have already accepted (`rebuild_moved`); row-major indices by `unravel_ravel` |
| C65 | the array methods and `replace` of `Space` (`SpaceArr`), which run over its entries | all components of all entries as one vector (`joined`), so that C43 applies; broadcast of broadcasts (`isBroadcast_flat`); closed form of the merged dict (`foldl_dictSet`) |
| C66 | operators and their arguments with a unit per component (`UnitOp`) | simulation by the operators in base units (`Mirrors`: what the left side returns, the right side returns; `RelRes`: same outcome), by mutual induction over pipes; Jacobian of a translation column by column as in C61 |
| C67 | `simplify_op` with a unit per component (`UnitSimplify`) | simulation by `Op.simplify` in base units with `StoredUnits` read off the operator; induction over the fold; the pairs that are added up are separated from those that cannot fail; the dependence on units by choosing a unit for a given translation |
| C68 | Galactocentric frames, rotation and offsets, the two rules and `frame_transform_op`, with a unit per parameter and argument (`UnitFrame`) | simulation by `Frame` in base units (rotation equal, offsets equal in base units); C33 and C36 carry over; where frames equal in base units are stored differently, the round trip through ICRS is shown to be the identity |
| C69 | `simplify_op(op, rtol=..., atol=...)` (`SimplifyTol`) | closed form of every test; the eight cases of `GalileanOperator`; triangle inequality for the bound |
| C70 | `Space` and `PoincarePolarVector` whose components carry units (`UnitSpace`) | simulation by the base-unit model, through dicts of related values |
| C71 | `Space` and `PoincarePolarVector` of arrays with shapes and NaN (`BatchSpace`) | entry by entry from C49, C57, C58; the Poincaré formulas by a simulation of the array operations; returning from the scalar totality at every index |
| C72 | The rules of `Vec`/`Represent`, which are transcribed for any scalar type, run on rounded numbers (`Flt`): nothing is assumed of the rounding but monotone, odd, idempotent, small integers and 90, 180, 360 deg representable. Induction over the rules; exceptions shown in a concrete 1/8-grid arithmetic. |
| C73 | `Arith` on the rounded numbers of `Flt`: rounding is monotone, odd and idempotent, from which the exact identities follow; counterexamples in concrete arithmetics. |
| C74 | `Dispatch`: plum's registration and resolution as list programs, the class hierarchy with user subclasses of any depth, all 96 registrations of `represent_as` and six of `frame_transform_op`. Specification: most specific among the last registrations. Proved by induction over registrations and candidates; the finitely many library classes by kernel evaluation of the complete table, user classes by reduction to their root. |
| C75 | `Dispatch`: every registration of `AbstractOperator.__call__` for positions, velocities, `FourVector`s, times and Quantities, with operator classes and user subclasses. Specification: `ruleFor` (a table over operator class and argument shape) and `Op.call`/`Op.callQ`. Proved by induction over `Pipe`s and registration lists, finite class tables in the kernel |
| C76 | `FromDispatch`: the 47 registrations of `AbstractVector.from_` and the calls its rules make to `from_` again, with a bound on the recursion. Specification: `qtyMade`, `repMade`, `diffMade`, conditions on `isinstance`. Proved over class tables in the kernel (user classes reduce to their base), non-termination by induction on the bound |
| C77 | `Attribute`: the descriptor, construction of any class of components and attributes, the `AttrFilter` functions, `replace`. Specification: `ObjectOf` (names in order, each field with a value), `compNames`. Proved by induction on the list of fields, the drift by induction on the number of calls |
| C78 | `ClassGraph`: the definitions of the three class attributes in every class body, lookup along the bases with users' definitions, the key functions of products with times. Specification: `families`, `Above`, `CartesianOf`, `dName`, `d2Name`. Library classes by the kernel over the complete table, users' classes and names by induction |
| C79 | `OpFrom`: the registrations of `from_` of operators and frames, their bodies, the field converters that call `from_` of vectors (`FromDispatch`). Specification: `opMade`, `frameMade`, `HasLonLat`. One argument by the kernel over all pairs of library classes with reduction of users' classes to their base in the library; two by the matching conditions; three or more for any list |
| C80 | `SimplifyDispatch`: the registrations of `simplify_op`, their bodies on the operators of `coordinax` and on operators of any class with combinations as terms, the fold over a `Pipe`. Specification: `pairRule`, `oneRule`, `kept`, `appended`. Lookup by the kernel over all pairs of library classes with reduction of users' classes, pipes by induction |
| C81 | `FourAttr`: ordinary lookup as a list of names with value, `AttributeError` or other exception, `__getattr__` on top, with a number of steps. Specification: `Ends` (with all large enough numbers of steps), `Loops` (with none). More steps change nothing by induction on the steps; the loop by induction; the names of components by the kernel over all classes |
| C82 | `Display`: `include` and `exclude` as absent, list or string, the keys, the dict comprehension with methods that may raise. Specification: `MimeAsked`. Induction over the keys |
| C83 | `Unchecked`: the constructor with the flag, the conversions of `Distance` behind it. Equal tangents differ by a multiple of `π`; the argument of a number with positive imaginary part is between 0 and `π` |
| C84 | `Checks`: numbers with NaN and infinities and their comparisons, arrays with units over any index set, broadcasting as pairs of places, all checks. Specification: `phys` (value in base units), `HoldsOrNan` over `EReal`. Cases of the two numbers; positive factors preserve the order |
| C85 | `Normalize`: rows over any batch with any number of components, NaN where the norm is 0, units. Specification: `IsDirection`. Squares and their sums |
| C86 | `Op`; specification `SpecOp.act` and lines `x₀ + t u`. Induction over the nesting: affine maps of space and time are closed under composition, orthogonal matrices under products; then `call_sound`, `call_total` and C30 |
| C87 | `Euler`: the check of the letters, unit quaternions, their product and matrix, units of the angles, the field converter. Specification: the three textbook matrices and their product in either order. Quaternion product = matrix product by `ring`; induction over the sequence |

Findings (places where the code, not the model, violates the property) are collected in
section 5.

## 4. What is modelled, module by module

| module | models | simplifications / not modelled |
|---|---|---|
| `Num` | scalar primitives over ℝ, JAX's JVP rules over dual numbers | no floating point; signed zeros not distinguished |
| `Vec` | 11 position classes, three distance classes, constructors with converters and range checks, `from_` cascades | scalar components in AU/rad |
| `Represent` | every `represent_as` rule between positions of dimension 1, 2, 3 | recursion limit is a fixed fuel 200 |
| `Arith` | `+ - * / == norm normalize` of positions | only scalars of shape `()`; mixed units are in `Units` |
| `Vel`, `Acc` | `represent_as` for velocities and accelerations through the Jacobian, `vel*t`, `acc*t`, `acc*t**2`, norms | a length Quantity as position argument is not modelled separately |
| `Distance` | `Distance`, `Parallax`, `DistanceModulus` and their properties and `from_` | `check_negative=False`: see `Unchecked` |
| `Four` | `FourVector` arithmetic, norm, Quantity round trip | `from_` for a Quantity of three components and `uconvert` not modelled |
| `Op` | all Galilean operators, `VelocityBoost`, `Pipe`, composition, inverse, simplify, call on positions, (position, time), FourVectors, (position, velocity), velocities | `allclose` on stored numbers through `StoredUnits` |
| `OpQty` | operators on Quantities of 1 to 4 components, Pipes as sequences, construction of operators | which rule plum picks is transcribed by hand; other lengths, slices with a step and user subclasses not modelled |
| `Frame` | ICRS, Galactocentric, NoFrame, transform operators, Pipes, inverses | `jax.scipy` `Rotation.from_euler` trusted to be the rotation about the axis; frame equality by value |
| `Units` | explicit units, field schemas of all classes, constructors, `uconvert` with unit system / mapping / consistent | unit systems of `unxt` are an arbitrary function from dimension to unit |
| `Shape` | broadcasting, `shape ndim size len T mT flatten ravel reshape getitem` of batched vectors, N-dimensional Cartesian vectors | order "C" only; an index is an arbitrary gather plan; JAX's clamping of out-of-range indices not modelled |
| `QBridge` | Quantity to vector and back for batched Cartesian/radial vectors | `RadialPos.from_` not covered |
| `Space` | `Space` construction, lookup, `represent_as`, negation, indexing; Poincaré polar coordinates | astropy's table of dimension names is the parameter `DimNames`; nested Spaces and FourVectors as entries not modelled; Poincaré components scalar |
| `Batch` | every position rule and constructor on arrays: broadcasting, NaN propagation, `lax.select`/`lax.cond` shape rules, `error_if(any(...))` | positions only (velocities: `BatchVel`); one unit per dimension; `lax.cond` unit mismatch not modelled |
| `BatchArith` | `+ - * / == norm normalize_vector` and `p * q` of positions on arrays | one unit per dimension; `normalize_vector` for `CartesianPos3D`; trusted as for `CartArith` |
| `BatchOp` | operator calls on arrays: rotations (`vectorize(matmul)`), translations, boosts, `Pipe`, `FourVector` construction; the Jacobian and `matmul` of the (position, velocity) rule | one unit per dimension; the Jacobian of `q + d` is written down, not obtained by running dual numbers on arrays; a rotation matrix has no batch axes |
| `BatchFour` | the rest of `FourVector` on arrays: difference, norms, `from_` of a Quantity, `convert` to a Quantity | one unit per dimension; the rule for three components is not modelled; complex square roots as two real arrays |
| `Prims` | `broadcast_in_dim_p` for positions, velocities, N-d vectors, `reshape_p` for positions | what JAX does before it reaches the primitive (`aval`, abstract evaluation) is not modelled |
| `SpaceArr` | `T`, `mT`, `flatten`, `ravel`, `+`, `shape`, `ndim`, `size`, `len`, `shapes`, `sizes`, `replace` of `Space` | entries are `BVec`s with the checks of their class; N-dimensional and four-vectors as entries are not covered; `dtypes`, `devices` are not modelled |
| `UnitOp` | `__call__` and `inverse` of all operators, `+`, `-` and `* time` of velocities, `FourVector` `+`, `-`, with a unit per component | rank-0 values; rotation matrices are dimensionless numbers |
| `UnitSimplify` | `simplify` of all operators, `convert` of velocities and 4-vectors to a Quantity, with a unit per component | rank-0 values; the tolerances are the defaults of `allclose`, `simplify_op(op, rtol=..., atol=...)` is not modelled |
| `UnitFrame` | `Galactocentric`, the rules ICRS/Galactocentric in both directions, `frame_transform_op`, with a unit per parameter | single frames and vectors; `==` of frames is equality of stored values and units |
| `SimplifyTol` | `simplify_op` of one operator with `atol` and `rtol` | rank-0 values in base units, stored units as in C29; `equal_nan` is not modelled |
| `UnitSpace` | `represent_as` and negation of a Space, Poincaré polar vectors, in units | scalar vectors; position classes as targets |
| `BatchSpace` | `represent_as` and negation of a Space, Poincaré polar vectors, on arrays | position classes as targets; entries of one batch shape |
| `Flt` | scalar operations with rounding (`jax` floating point: `jnp.mod`, `sqrt`, `arccos`, …), for the same conversion rules |
| `Dispatch` | signatures and `Resolver` of plum (trusted to be as modelled), classes, all `@dispatch` registrations of `represent_as`, `frame_transform_op` and `AbstractOperator.__call__`, rule bodies in terms of `Represent`, `Vel`, `Acc`, `Frame`, `Op`, `OpQty` |
| `FromDispatch` | `AbstractVector.from_` registrations (with astropy's), redispatch | classes of objects only, not their values; `Space.from_` and the frame and operator `from_` not modelled here |
| `Attribute` | `vectors/base/attribute.py`, `compat.py` 336-507, `replace` as `base.py` uses it | any value type; the generated `__init__` and unfiltered `dataclassish` functions trusted; no `__check_init__` (C06) |
| `ClassGraph` | `differential_cls`, `integral_cls`, `_cartesian_cls` of all vector classes, key functions of `_mul_vel_q`, `_mul_acc_time`, `_mul_acc_time2` | users' definitions are constants |
| `OpFrom` | `from_` of `AbstractOperator` and `AbstractReferenceFrame`, converters of `Pipe.operators`, boost velocities, `GalileanTranslation.translation`, the parts of `GalileanOperator`, `galcen` and `galcen_v_sun` of `Galactocentric` | keyword arguments of `from_`; the check that astropy frames have no data |
| `SimplifyDispatch` | `simplify_op` of one and two operators as dispatch, `functools.reduce` over a `Pipe`, for operators of any class | parameters of users' operators |
| `FourAttr` | Python's attribute lookup with `FourVector.__getattr__`; the names `FourVector` and its bases define | properties appear with their result; descriptors, `__getattribute__` and names of external base classes are not modelled |
| `Display` | `_repr_mimebundle_` | the texts are parameters; `_repr_latex_` and `__repr__` themselves are not modelled |
| `Unchecked` | `Parallax(v, check_negative=...)` and its distance, parallax and modulus | scalars; operations on unchecked parallaxes (which keep the flag) are not modelled |
| `Checks` | all functions of `checks.py` | no rounding; the texts of the messages (`name`, `comparison_name`) are not modelled; `eqx.error_if` raises at once, under `jit` it does when the program runs |
| `Normalize` | `normalize_vector` of arrays and Quantities | real arithmetic; integer input (converted to floats by the division) is not modelled separately |
| `Euler` | `GalileanRotation.from_euler`, the converter of `GalileanRotation.rotation` | `Rotation.from_euler` and `as_matrix` of `jax.scipy` are modelled as quaternion arithmetic from knowledge of that library; one angle for each letter; no batches |
| `AngDist` | quantity classes of angles and distances with explicit units, their `__check_init__`, primitives, conversions and properties | units have rational exponents and a positive factor; rules of `unxt` for plain Quantities (`tan`, `log10`, `arctan2`, `**`, `from_`) transcribed from their documentation; `tan` of an `Angle` and `cos`/`sin` of a distance have no rule here and are not modelled; a NaN or infinite entry is an error |
| `UnitRep`, `UnitVel` | the rules of `Represent`, `Vel`, `Acc` with an explicit unit per component and keyword argument; the unit comparison of `jax.lax.cond` for prolate to prolate | scalar components; rules of `unxt` trusted: `+ - < atan2` convert the second argument to the unit of the first, `select`/`where` to the unit of the "false" case, `stack` to the unit of the first entry, `jacfwd` differentiates stored values; units are equal if dimension and scale are |
| `UnitArith` | the arithmetic rules of `Arith` with a unit per component: `qlax.add` converts, `jax.tree.map` needs equal units and distance classes | scalar components, unitless scalars; `jax.tree.map` compares static fields (units) trusted |
| `BatchVel` | the generic velocity and acceleration rules on arrays, with `reshape` (constructor checks run again), `vmap` over all leaves, the LonCosLat rules with broadcasting | scalar keyword arguments; an element with NaN gives NaN in all components; a `Delta` of two or more dimensions raises; an error while tracing is raised by the first element (an empty batch hides it) |
| `Construct` | `cls(**kw)`, `from_(mapping)`, `asdict`, `replace`, `from_(vector)` for concrete classes | `dtype` conversion not modelled; `from_` on abstract classes not modelled |
| `CartArith` | arithmetic, norm, `==` of Cartesian vectors of 1, 2, 3, N dimensions on arrays with units | trusted: `Quantity` operators broadcast like numpy, `quaxed.lax` ones like `jax.lax`; overflow and NaN not modelled |
| `Astropy` | field maps to and from astropy representations, differentials and the Galactocentric frame | astropy's own classes are records with the documented checks; astropy's `represent_as` is a parameter |

## 5. Findings: properties the code violates

Each is a proved negation (or exact characterisation) beside the theorem that does hold, unless marked
"(read, not modelled)".

1. `simplify_op(Rotation1, Rotation2)` multiplies in the wrong order (C29).
2. `op | Pipe` raises `AttributeError` when `op` is not a Pipe (C28).
3. `p / s` divides angles too (C18).
4. A negative scalar times a polar or mathematical-spherical position is rejected; a parallax or modulus radial field is scaled as a number (C17).
5. Cylindrical to `RadialPos` drops the height (C13); polar and 1-D positions go to the z axis when raised to spherical classes by default (C12).
6. Every conversion that involves `TwoSpherePos` recurses without end (C09).
7. Acceleration conversion ignores the velocity (C24).
8. `+ - * neg ==` raise on prolate positions (C15-C17, C44).
9. An `Angle` azimuth is stored unwrapped (C06).
10. `LonLatSphericalPos.from_` rejects |lat| > 270 deg and such (C08).
11. `Space` never detects two keys of one dimension; an alias key is stored under the canonical name and cannot be looked up again (C40).
12. Poincaré coordinates lose the sense of rotation, and the azimuth when there is none (C41).
13. `mT` of N-dimensional vectors fails for three or more batch axes; `T`, `mT`, `flatten`, `ravel` break vectors with components of different shapes; N-dimensional `ravel`/indexing act on the feature axis (C43).
14. Rotating a FourVector resets `c`; `norm2` raises for parallax fields; the Quantity round trip changes `t` when `c` is not the default (C42, C31).
15. `simplify` drops small but non-zero operators; simplifying a 2-D translation raises (C29).
16. `LonCosLatSphericalVel * t` and `ProlateSpheroidalVel * t` raise (C25).
17. Spherical with parallax to `PolarPos` gives a wrong radius (C13).
18. Conversion at the origin and at prolate foci gives NaN (C09); obtuse parallaxes change the point (C01).
19. A single velocity cannot pass a Pipe of several operators (C28/C32).
20. The norm of a 2-D velocity raises `TypeError` (C23).
21. `-RadialPos` always fails its own check (C16).
22. Conversion to and from prolate accelerations and from prolate velocities always raises (C19, C24); prolate to prolate velocities ignore `Delta`; `LonCosLat` to prolate never gets its `Delta`.
23. The `GalileanOperator` docstring says `R x + v t + a`; the code computes `R x + a + v (t + s)` (C30 proves the code's formula).
24. The inverse of a boost given in curvilinear components raises (C27); operators raise on prolate positions (C31); `VelocityBoost` only adds velocities of the same Cartesian class (C32).
25. Frame operators reject a position vector without velocity; the frame is undefined for parallax distances or |z_sun| > d (C33-C36).
26. 1-D `from_` of a Quantity of shape `(n,)` keeps element 0; some `from_` drop extra components; `CartesianAcc3D.from_` of a wrong length recurses without end (C39).
27. `-space` of spherical vectors does not reverse the physical velocity (C47); `space[index]` fails when shapes differ (C43).
28. Astropy: parallax and modulus fields cannot come back; `convert` and `from_` can return another class than asked for (C45).
29. A batched PolarPos does not convert to SphericalPos or MathSphericalPos with the default angle; a prolate position with components of different shapes does not convert to its own class; `from_` of the spherical classes does not broadcast (C49).
30. `from_` between 3-D classes returns its argument unconverted: `CartesianPos3D.from_(cylindrical)` is cylindrical (C51).
31. Adding Cartesian vectors in different units raises, except `CartesianPos3D`; subtracting always does. `CartesianVel1D`, `CartesianVel2D`, `CartesianAcc2D` have no `-`, `CartesianVel3D`, `CartesianAcc3D` no product with a number; only positions can be multiplied from the right or divided (C52).
32. N-dimensional vectors: a 1-dimensional operand is added to every component; `==` keeps the component axis; times of shape `(F,)` multiply components instead of batch elements (C53).
33. Pipes and GalileanOperators raise on a Quantity with a time (two dispatch rules tie); a GalileanOperator raises on every bare Quantity, a Pipe on all but three components (C54).
34. `-GalileanRotation` is the matrix `-R`, never the inverse; boosts built from more than three numbers drop the rest (C56).
35. (read, not modelled) `FourVector.from_` of a Quantity of three components; `FourVector.uconvert`; ambiguous dispatch of LonCosLat to LonCosLat with a Quantity position.
36. A velocity at a position of fewer dimensions does not convert (the added components are rank-0 leaves that `vmap` rejects), except 1-D or Cartesian 2-D positions with spherical velocities (C57_fewer_dimensions_raises).
37. A batch of velocities at one position (or the reverse) raises instead of broadcasting; velocities of shape (2,3) at positions of shape (3,2) are paired in row-major order without an error (C57).
38. Batches of shapes (3,) and (2, 3) cannot be added or subtracted (`lax.add` needs equal ranks); a position of shape () cannot be multiplied with a batch of positions; `array * pos` raises for every array with an axis, also of the shape of the batch (C58).
39. `==` of batched prolate spheroidal positions with a scalar `Delta` raises (`jnp.array` of leaves of different shapes) (C58_prolate_eq_raises).
40. `Distance.from_` and the radial components take a `Quantity` angle as a parallax but reject the same angle given as `Angle` (C59_from_rejects, C50).
41. A parallax built with `check_negative=False` does not survive `Quantity` and back: a negative one raises, a positive one comes back checked (C59_conversion_round_trip). The parallax of a negative distance is an obtuse angle, which passes the check and gives the negative distance back (C59_signed_round_trip). Magnitudes in another logarithmic unit convert to `Distance` but not to `DistanceModulus` (C59_modulus_needs_mag).
42. A batch of (position, velocity) pairs through a `GalileanSpatialTranslation` raises (C60_pair_batch_raises); if the batch size equals the number of dimensions it returns a velocity of shape `(3, 3, 3)` for a batch of shape `(3,)`, most of it zeros (C60_pair_square_wrong): `jacfwd` of a batched call is not the batch of the Jacobians (spatial_translation.py 352-354).
43. `ProlateSpheroidalPos -> ProlateSpheroidalPos` raises (`TypeError` from `jax.lax.cond`, whose branches must have the same pytree structure, units included) unless `mu` is in the square of `Delta`'s unit and the new `Delta` has the unit of the old one, even when no `Delta` is given (C61_prolate_to_prolate; d3/transform.py 734-775).
44. Addition of 1-D and 2-D positions and every subtraction raise when the Cartesian components come in different units (kpc and pc), although 3-D addition converts; `CartesianPos3D - CartesianPos1D` raises unless `y` and `z` are in metres, the unit of the defaults; `==` of equal positions in different units raises (C62; d1/cartesian.py 92, 161, d2/cartesian.py 101, 158, d3/cartesian.py 151, base/base.py 614).
45. `convert(FourVector, Quantity)` raises when the shape of `t` only broadcasts to that of `q` (one time for a batch of positions), although the class accepts such vectors: `jnp.concat` does not broadcast (C63_to_quantity_returns_iff; d4/compat.py 15-19, d4/spacetime.py 95-101).
46. `jnp.reshape(vec, shape)` divides the *first* axis of the request by the number of components: a request whose first axis is not a multiple of it raises (or is rounded down), the result has one axis more than requested once the component axis is counted, and `Delta` is reshaped with the coordinates, so a batch of `ProlateSpheroidalPos` with one `Delta` cannot be reshaped (C64_reshape_divides, C64_reshape_rank, C64_reshape_sizes; base_pos.py 411-444). `broadcast_to` on the N-dimensional classes drops the last axis although their field has it (C64_broadcast_nd; register_primitives.py 27-139).
47. A `Space` of vectors of different rank: `T` can return a Space of the right shape with the wrong vectors (C65_T_mixed_wrong; base.py 418-439). `len(space)` is the first batch axis, not the number of entries over which iteration runs, and 0 for a Space of single vectors, which is therefore false in a condition (C65_shape; base.py 701-726). `space.reshape` always raises, because `full_shaped` asks for `Space.components`, which is not implemented (read, not modelled; utils.py 17-36, space/core.py 462-467).
48. `VelocityBoost` (and `+` of velocities) raises a ValueError when the two velocities are stored in different units, e.g. km/s and AU/s, because it maps over the stored arrays (C66_velocity_boost_iff; d3/cartesian.py 276-288), although `+` of 3-D positions converts. The same for spatial translations of 1-D and 2-D positions (C66_low_dimension).
49. `simplify` decides by stored numbers: a translation by `1e-9` kpc is replaced by the identity, the same translation written as `1e-6` pc is kept (C67_depends_on_units, C67_dropped_iff; spatial_translation.py 390-395). A 4-vector is compared in the unit of `c t`, by default km/s times the unit of `t`, whatever the units of the spatial part.
50. The same Galactocentric frame stored in two sets of units (8.122 kpc, 8122 pc) is not `==` itself, so `frame_transform_op` goes through ICRS and a position without a velocity raises, where equal frames give `Pipe((Identity(),))` and return (C68_position_alone; frame_transforms.py 74-78).
51. `simplify_op(op, atol=...)` works for all elementary operators and `GalileanOperator`, but raises a `TypeError` for `Pipe` and `Identity`, whose rules take no keyword arguments (C69_returns_iff; register_simplify.py 30-73).
52. `PoincarePolarVector` accepts `pp_phi` and `d_pp_phi` of every physical type, but `represent_as(w, Space)` raises unless both are in units like `m rad(1/2) / s(1/2)`; without the root of a radian the azimuthal speed has the wrong physical type (C70_root_radian_needed; poincare.py 28, 41, transform/dn.py 53-59).
53. `Space(length=q, speed=v)` accepts a position and a velocity whose shapes merely broadcast (one position, many velocities), but `represent_as` then raises, because the conversion of velocities reshapes the position to the batch of the velocity (C71_shapes_differ_raises; space/core.py 594-622, transform/velocities.py 112).
54. (C72) The azimuth range is documented as `[0, 360)`, but `converter_azimuth_to_range` is `x % 360 deg`, and `-1e-9 % 360` is 360 in `float32`: a small negative azimuth is stored as exactly 360 deg, and is changed to 0 when read back in as a quantity (`C72_azimuth_can_be_360`).
55. (C72) In `float32`, 180 deg in radians is above π and its sine is -8.7e-8: `SphericalPos(r, 180 deg, phi).represent_as(PolarPos)` raises ("must be non-negative") for a valid position, whereas `CylindricalPos` is protected by an `abs` (`C72_sine_negative_raises`, `transform/d3.py` 360-385).
56. (C72) `r = sqrt(x² + y² + z²)` underflows near the origin (below 1e-23 in `float32`), and then `acos(z / r)` is NaN or wrong although the point is not the origin (`C72_underflow_nan`).
57. (C73) A position near the north pole (inclination below half a unit in the last place of 90 deg) loses its inclination by a round trip through `LonLatSphericalPos` (`C73_lonlat_round_trip`).
58. (C74) `represent_as(LonCosLatSphericalVel, LonCosLatSphericalVel, Quantity)` raises `AmbiguousLookupError`: `d3/transform.py` 829 and 913 tie and the identity rule takes position vectors only (`C74_ambiguous`). The 1-D rules `d1/transform.py` 68 and 101 are overwritten for the Cartesian classes by 146 and 174, which take no keyword arguments.
59. (C75) A user operator that registers only `op(AbstractPos)` — the documented way to define one — is ambiguous on every `FourVector`, with the generic rule of `operators/base.py` for every operator (`C75_user_four_ambiguous`). `Pipe` and `GalileanOperator` on a bare Quantity raise `AmbiguousLookupError` because their own rules are wider in the second argument than the generic Quantity rules (`C75_ambiguous_quantity`).
60. (C76) `cls.from_(x)` for any 3-D class and an unsupported `x` (a string, an operator, a frame) ends in `RecursionError`, the fallback `d3/constructor.py` 14-32 calls itself (`C76_other`). `SphericalPos.from_([1, 2, 3], "kpc")`, and any user subclass of `AbstractPos3D`, returns a `CartesianPos3D` (`C76_quantity`). `CartesianVel3D.from_(CylindricalDifferential)` is a `CylindricalVel`, whereas `CartesianPos3D.from_(CylindricalRepresentation)` converts (`C76_differential`, `C76_representation`). `cls.from_({})` is ambiguous once the astropy module is loaded (`C76_mapping`, `C76_astropy_module`).
61. (C77) `VectorAttribute` converts its default in `__post_init__` and again in `__set__` (`attribute.py` 68-72, 107-115), so a default is converted twice and an argument once (`C77_attribute`). `replace`, `T`, `flatten`, indexing call the class again, so a converter that is not idempotent changes the attribute on every such operation (`C77_drift`). The library's own attributes (`Delta`, `c`) use the identity and are not affected.
62. (C78) `_mul_acc_time` renames components with `k.replace("2", "")` (`base_acc.py` 149), which removes every 2: a user's acceleration with components `d2_x1, d2_x2` gives keys `d_x1, d_x` (`C78_acceleration_name`). `AbstractSphericalPos.differential_cls` is `None` (body `...`), whereas the other abstract classes raise `NotImplementedError` (`C78_no_differential`). `LonCosLatSphericalVel.integral_cls.differential_cls` is `LonLatSphericalVel` (`C78_there_and_back`), and `LonCosLatSphericalVel * time` has a key that no position class has (`C78_loncoslat`).
63. (C79) `AbstractOperator.from_(op)` never returns `op`: it calls the abstract class on the fields of `op`, which raises, whereas `AbstractReferenceFrame.from_(frame)` returns the frame. `Pipe.from_(op)` raises `TypeError` although `Pipe(op)` works (`C79_operator_same`). `Galactocentric(galcen=...)` keeps every 3-D position and makes a `CartesianPos3D` of a Quantity, because `LonLatSphericalPos.from_` does (C76): the frame is made and every transform with it fails on the missing `lon` and `lat` (`C79_galcen`). Boosts keep velocities of any dimension (`C79_boost`). `GalileanRotation.from_(matrix, unit)` with a unit object (no string) passes the unit as the second field, `check_tol`.
64. (C80) `simplify_op` drops every instance of `Identity`, also of a user's subclass that does something (`C80_pipe`), and two operators of users' subclasses of a combining class become one of the base class, so the subclass is lost. Once two neighbours in a `Pipe` did not combine, later neighbours of the same class do not combine either: `Pipe((rotation, boost, boost)).simplify()` has three operators, `Pipe((boost, boost, rotation)).simplify()` two (`C80_no_more`).
65. (C79) The field `rotation` of `GalileanOperator` is converted by `GalileanRotation.from_`, the other two by `Unless(cls, cls.from_)` (composite.py 129-151): an instance of a user's subclass of `GalileanRotation` is replaced by a plain `GalileanRotation` with its fields, one of `GalileanTranslation` or `GalileanBoost` is kept (C79_parts).
66. (C81) `FourVector.__getattr__` reads `self.q` (spacetime.py 157-170). On an instance whose fields are not set yet, any name its classes do not define, and `q` itself, recurses until `RecursionError` (C81_no_q). CPython's `copy.copy` and `pickle.loads` make such an instance and ask it for `__setstate__`, so both should fail for `FourVector` unless a base class defines it (not modelled; not run here). `hasattr` does not catch `RecursionError`.
67. (C82) `_repr_mimebundle_(include="text/plain")`, with a string, returns an empty bundle, whereas `exclude="text/plain"` works by substring search (mixins.py 166-175).
68. (C83) A small negative parallax `p` (`check_negative=False`, meant for noisy measurements) has a negative `Distance`, which nothing rejects, and `.distance.parallax` is `p + π`, about 180 degrees, without an error (C83_negative; core.py 65-83, 155-172: `arctan2(1 AU, d)` with `d < 0`).
69. (C84) NaN passes every range check (checks.py): `eqx.error_if(x, any(x < 0))` is false for NaN. A position with NaN components is constructed without an error (C84_nan).
70. (C87, C86) `GalileanRotation` accepts every 3 × 3 matrix: the check that it is orthogonal is commented out (rotation.py 129-139), although
    `inverse` is the transpose and `is_inertial` is always `True`. With any other matrix the inverse does not undo the operator (`C87_inverse_iff`).

## 6. Seeded bugs

`tools/mutate.py` edits one definition at a time in a scratch copy, rebuilds and records which
theorems fail; `seeded/LOG.jsonl` has one line per attempt. Where an edit survived, the last field
names the theorem added or tightened.
