{"id": "C01", "title": "3D conversions preserve the point", "statement": "If a valid 3-D position of any class is converted with represent_as to any 3-D position class and the call returns a vector, the returned vector denotes the same point of Euclidean space (same textbook Cartesian coordinates x, y, z).", "quantifier": "every 3-D position class as source and as target (Cartesian, Cylindrical, Spherical, LonLatSpherical, MathSpherical, ProlateSpheroidal with any focal length) and every real component value the source constructor accepts, whatever kind of distance (Distance, Parallax in (0, 90) deg, DistanceModulus) the radial field holds", "why_tests_cant": "tests compare a handful of literals per pair; the claim ranges over a continuum of points and 36 class pairs, and errors appear at quadrant boundaries, negative latitude/nu and special branches", "anchors": ["src/coordinax/_src/vectors/d3/transform.py: represent_as (33-97, 186-594, 601-821)"]}
{"id": "C02", "title": "2D and 1D conversions preserve the point", "statement": "Converting a valid 2-D position between CartesianPos2D and PolarPos, or a 1-D position between CartesianPos1D and RadialPos, keeps the Cartesian coordinates whenever the call returns.", "quantifier": "all real component values accepted by the constructors", "why_tests_cant": "continuum of inputs; quadrant and negative-axis boundaries", "anchors": ["src/coordinax/_src/vectors/d2/transform.py: represent_as (17-83)", "src/coordinax/_src/vectors/d1/transform.py: represent_as (18-138)"]}
{"id": "C03", "title": "Conversion round trips return the original components", "statement": "Converting a position to another class of the same dimension and back yields exactly the original components, provided the original is in canonical form (azimuth in [0,360) deg) and not on a coordinate singularity (axis or origin). A Parallax or DistanceModulus radial field may come back as the Distance it stands for.", "quantifier": "every ordered pair of same-dimension classes and every canonical non-degenerate position", "why_tests_cant": "a round trip composes two branchy formulas with angle wrapping; only a proof covers every azimuth sector and both hemispheres", "anchors": ["src/coordinax/_src/vectors/d3/transform.py", "src/coordinax/_src/vectors/d2/transform.py", "src/coordinax/_src/vectors/d1/transform.py"]}
{"id": "C04", "title": "Conversion is path independent", "statement": "Converting A to C through any intermediate class B gives the same point as converting A to C directly, and exactly the same components when the point is not on a singular axis and A is canonical.", "quantifier": "every triple of 3-D classes and every valid non-degenerate position", "why_tests_cant": "216 class triples times a continuum of points", "anchors": ["src/coordinax/_src/vectors/d3/transform.py"]}
{"id": "C05", "title": "Converted vectors satisfy their class invariants", "statement": "Every vector returned by a position conversion satisfies the target class's documented ranges (r, rho >= 0; inclination in [0,180] deg; latitude in [-90,90] deg; mu >= Delta^2, |nu| <= Delta^2) and its azimuth is in [0,360) deg if the source has no azimuth or a canonical one.", "quantifier": "every source and target class in 1-D, 2-D, 3-D and every valid source", "why_tests_cant": "range violations occur at extreme values (poles, wrap boundaries) that sampling misses", "anchors": ["src/coordinax/_src/vectors/d3/transform.py", "src/coordinax/_src/vectors/checks.py", "src/coordinax/_src/vectors/converters.py"]}
{"id": "C06", "title": "Constructors accept exactly the documented ranges and wrap azimuths", "statement": "Constructing a position succeeds iff its components lie in the documented ranges; a plain angular quantity given for an azimuth is stored as the unique equivalent angle in [0,360) deg.", "quantifier": "every real component value of every position class", "why_tests_cant": "the acceptance boundary must be right at every value, including equality at the ends of closed intervals", "anchors": ["src/coordinax/_src/vectors/checks.py", "src/coordinax/_src/vectors/converters.py", "src/coordinax/_src/vectors/d3/spherical.py: SphericalPos", "src/coordinax/_src/vectors/d3/lonlatspherical.py: LonLatSphericalPos", "src/coordinax/_src/vectors/d3/mathspherical.py: MathSphericalPos", "src/coordinax/_src/vectors/d3/cylindrical.py", "src/coordinax/_src/vectors/d3/spheroidal.py", "src/coordinax/_src/vectors/d2/polar.py", "src/coordinax/_src/vectors/d1/radial.py"]}
{"id": "C07", "title": "SphericalPos.from_ and MathSphericalPos.from_ normalise any input to the same point", "statement": "from_(r, theta, phi) with any real r (also negative), any inclination and any azimuth succeeds, returns in-range canonical components, and denotes the point given by the textbook formula on the raw inputs.", "quantifier": "all real r, theta, phi", "why_tests_cant": "the normalisation is a cascade of selects over an unbounded range of windings; tests only cover a few windings", "anchors": ["src/coordinax/_src/vectors/d3/spherical.py: from_ (80-161)", "src/coordinax/_src/vectors/d3/mathspherical.py: from_ (102-183)"]}
{"id": "C08", "title": "LonLatSphericalPos.from_ normalises exactly the latitudes within one reflection", "statement": "from_(lon, lat, distance) succeeds exactly when the latitude (with its sign flipped if the distance is negative) is in [-450, 270] degrees, and then denotes the point given by the textbook formula on the raw inputs; every other latitude is rejected although it denotes a point.", "quantifier": "all real lon, lat, distance", "why_tests_cant": "unbounded range of latitude windings", "anchors": ["src/coordinax/_src/vectors/d3/lonlatspherical.py: from_ (148-242)"]}
{"id": "C09", "title": "Position conversion is total except at named singular cases", "statement": "A same-dimension conversion of a valid position terminates and returns a vector with finite components, except exactly when: a TwoSpherePos is involved (unbounded recursion); the point is the origin and the conversion has to compute a direction (NaN); a negative 1-D coordinate goes to RadialPos; or the target is prolate spheroidal and Delta is missing (from another class), not positive, or puts a focus at the point.", "quantifier": "every same-dimension ordered class pair, every valid source, every choice of keyword arguments", "why_tests_cant": "non-termination or NaN at isolated inputs/pairs is not found by sampling", "anchors": ["src/coordinax/_src/vectors/d3/transform.py", "src/coordinax/_src/vectors/d2/transform.py: represent_as (17-25)", "src/coordinax/_src/vectors/d2/spherical.py: TwoSpherePos"]}
{"id": "C10", "title": "Prolate spheroidal coordinates invert exactly", "statement": "Converting a cylindrical position to ProlateSpheroidalPos with any focal length and back returns the original; a prolate position converted to cylindrical and back with its own Delta returns the original; re-expressing with a different Delta keeps the point.", "quantifier": "all Delta > 0 and all valid positions away from the focal points", "why_tests_cant": "the conversion has five data-dependent branches (z=0, rho=0, sign of R^2+z^2-Delta^2, large nu) whose agreement cannot be sampled", "anchors": ["src/coordinax/_src/vectors/d3/transform.py: represent_as (601-705, 734-821)"]}
{"id": "C11", "title": "Prolate targets need a focal length and never guess one", "statement": "Converting any non-prolate position to ProlateSpheroidalPos without Delta is an error, and a prolate-to-prolate conversion without Delta returns the vector unchanged.", "quantifier": "every source class and value", "why_tests_cant": "must hold for all sources; also determines which arithmetic on prolate vectors can work", "anchors": ["src/coordinax/_src/vectors/d3/transform.py: represent_as (632-661, 734-821)"]}
{"id": "C12", "title": "Raising the dimension embeds the point, with a named exception", "statement": "Converting a lower-dimension position to a higher-dimension class with default keyword arguments returns exactly for the sources and targets that have a rule (and non-negative 1-D coordinate, plain distance or non-origin where the rule needs it), and gives the point with the missing Cartesian coordinates zero - except from 1-D or polar positions to SphericalPos and MathSphericalPos, which always land on the z axis at the signed length and so keep the point only at the origin. Converting back down returns the original point, or the origin in the exceptional case (from RadialPos always the original).", "quantifier": "every 1-D/2-D source class, every higher-dimension target class, every valid value; the exact return condition for all keyword values", "why_tests_cant": "all values and all source/target pairs", "anchors": ["src/coordinax/_src/vectors/transform/d1.py", "src/coordinax/_src/vectors/transform/d2.py"]}
{"id": "C13", "title": "Lowering the dimension projects the point, with named exceptions", "statement": "Converting a position to a lower-dimension class returns exactly when there is a rule (no LonLatSphericalPos or TwoSpherePos source, no TwoSpherePos target), a parallax or modulus does not go to a Cartesian class, and a parallax on the z axis does not go to PolarPos. The result is the orthogonal projection for the Cartesian classes and PolarPos and the Euclidean length for RadialPos, whatever the source class - except that CylindricalPos gives its rho to RadialPos (right iff z = 0), and a parallax (modulus) is itself multiplied by the sine of the inclination on the way to PolarPos (right, for a parallax, iff in the x-y plane).", "quantifier": "every source class and every lower-dimension target class, every valid value, every choice of keyword arguments", "why_tests_cant": "consistency across classes must hold at every point", "anchors": ["src/coordinax/_src/vectors/transform/d3.py", "src/coordinax/_src/vectors/transform/d2.py: represent_as (123-177, 224-275)"]}
{"id": "C14", "title": "The norm is the Euclidean norm in every class", "statement": "norm() of a position equals the Euclidean length of its Cartesian coordinates, so it is the same for all representations of a point.", "quantifier": "every 1-D, 2-D, 3-D class and every valid value", "why_tests_cant": "continuum of inputs, per-class overrides", "anchors": ["src/coordinax/_src/vectors/base/base_pos.py: norm (142-173)", "src/coordinax/_src/vectors/d3/cylindrical.py: norm (63-79)", "src/coordinax/_src/vectors/d3/lonlatspherical.py: norm (129-145)", "src/coordinax/_src/vectors/d3/mathspherical.py: norm (84-99)"]}
{"id": "C15", "title": "Position addition and subtraction are vector addition", "statement": "a + b and a - b of positions of any (possibly different) classes denote the Cartesian vector sum and difference and are returned in the class of the left operand; they fail to return exactly when a TwoSpherePos is involved, the left operand is prolate spheroidal, it is of a spherical class and the result is the origin, or it is a RadialPos and the result is negative.", "quantifier": "every pair of classes of one dimension and all valid values", "why_tests_cant": "all pairs of classes and values", "anchors": ["src/coordinax/_src/vectors/base/base_pos.py: _add_qq (180-194), _sub_qq (450-460)", "src/coordinax/_src/vectors/d3/cartesian.py: _add_cart3d_pos, _sub_cart3d_pos"]}
{"id": "C16", "title": "Negation is the point reflection", "statement": "-p denotes the Cartesian negation of p, has the class of p, and -(-p) is the point p; it fails to return exactly for TwoSpherePos, ProlateSpheroidalPos, the spherical classes at the origin, and RadialPos away from the origin.", "quantifier": "every class and every valid value", "why_tests_cant": "continuum, angle wrap by 180 deg", "anchors": ["src/coordinax/_src/vectors/base/base_pos.py: _neg_pos (383-405)", "src/coordinax/_src/vectors/d3/cartesian.py: _neg_p_cart3d_pos"]}
{"id": "C17", "title": "Scalar multiplication scales the point, with a named exception", "statement": "s * p (and p * s) has the class of p and denotes the Cartesian vector scaled by s, except for PolarPos and MathSphericalPos with a parallax or distance-modulus radial field, where exactly the stored parallax (modulus) is multiplied. It fails to return exactly for TwoSpherePos and prolate positions, SphericalPos/LonLatSphericalPos when the result is the origin, RadialPos when the result is negative, and PolarPos/MathSphericalPos when s times the stored radial value is negative.", "quantifier": "every class, every valid value, every real s of either sign", "why_tests_cant": "sign of s, singular classes", "anchors": ["src/coordinax/_src/vectors/base/base_pos.py: _mul_v_pos (234-324)", "src/coordinax/_src/vectors/d2/polar.py: _mul_p_vpolar", "src/coordinax/_src/vectors/d3/mathspherical.py: _mul_p_vmsph", "src/coordinax/_src/vectors/d3/cartesian.py: _mul_ac3"]}
{"id": "C18", "title": "Scalar division divides every component, angles included", "statement": "p / s divides every component of p by s, angles included, and is returned exactly when s is non-zero and the quotients are in the ranges of the class; with plain distances it then denotes the point of p divided by s always for the Cartesian classes and RadialPos, for PolarPos and CylindricalPos exactly on the axis or when the division changes the azimuth by full turns only, for the spherical classes exactly at the origin, at zero inclination (LonLat: on the equator with the longitude changed by full turns only) or for s = 1, and for prolate positions exactly when moreover s = 1 or mu + |nu| = Delta^2 (1 + s).", "quantifier": "every class, every valid value, every real s", "why_tests_cant": "all classes and values", "anchors": ["src/coordinax/_src/vectors/base/base_pos.py: _div_pos_v (200-219)"]}
{"id": "C19", "title": "Velocity conversion preserves the physical velocity, with named exceptions", "statement": "Converting a velocity at a given position between any two 3-D (2-D, 1-D) velocity classes returns a velocity of the target class and keeps the Cartesian velocity vector, i.e. the time derivative of the Cartesian coordinates along any trajectory with those coordinate rates. Exceptions, all of them: a ProlateSpheroidalVel never converts to another class, LonCosLatSphericalVel never converts to ProlateSpheroidalVel, TwoSphereVel never converts at all (each raises), and ProlateSpheroidalVel to its own class returns the components unchanged whatever Delta is.", "quantifier": "every pair of velocity classes, every non-singular position in any class, every real velocity components", "why_tests_cant": "the Jacobian is obtained by automatic differentiation of branchy conversions with angle wrapping; correctness at every point, including on the atan2/mod cut, is beyond sampling", "anchors": ["src/coordinax/_src/vectors/transform/velocities.py: represent_as (27-167)", "src/coordinax/_src/vectors/d3/transform.py: represent_as (100-179, 828-931)"]}
{"id": "C20", "title": "Velocity conversion round trips and is path independent, with named exceptions", "statement": "Converting a velocity to another class and back, or via an intermediate class, at the same non-singular position (given in any class) gives exactly the same components as the direct conversion. Exceptions, where one of the conversions raises: through or back from ProlateSpheroidalVel, from LonCosLatSphericalVel to ProlateSpheroidalVel, TwoSphereVel.", "quantifier": "every class triple, non-singular position and velocity", "why_tests_cant": "inverse-function property of Jacobians over a continuum", "anchors": ["src/coordinax/_src/vectors/transform/velocities.py"]}
{"id": "C21", "title": "Velocity conversion is linear", "statement": "Conversion of velocities at a fixed position is linear: it commutes with sums, scalar multiples and maps zero to zero.", "quantifier": "all velocities, all non-singular positions, all class pairs", "why_tests_cant": "universally quantified algebraic law", "anchors": ["src/coordinax/_src/vectors/transform/velocities.py"]}
{"id": "C22", "title": "LonCosLat velocities carry the cos(lat) factor exactly once", "statement": "LonCosLatSphericalVel denotes the velocity whose longitude rate times cos(lat) is the stored component: conversions from and to it preserve the Cartesian velocity, round trip away from the poles, and are undefined exactly at the poles when dividing.", "quantifier": "all positions with |lat| < 90 deg, all velocities, all other velocity classes", "why_tests_cant": "continuum and singular set", "anchors": ["src/coordinax/_src/vectors/d3/transform.py: represent_as (828-931)"]}
{"id": "C23", "title": "Speed is representation independent, with named exceptions", "statement": "norm(position) of a velocity equals the Euclidean length of the Cartesian velocity whatever the velocity class, in one and three dimensions; for every 2-D velocity class and for ProlateSpheroidalVel it never returns.", "quantifier": "every velocity class, non-singular position and velocity", "why_tests_cant": "continuum", "anchors": ["src/coordinax/_src/vectors/base/base_vel.py: norm (132-135)", "src/coordinax/_src/vectors/d3/cartesian.py: CartesianVel3D.norm (228-240)"]}
{"id": "C24", "title": "Acceleration conversion carries over the first-order term only", "statement": "Converting an acceleration at a given position and velocity applies the first-order chain rule and does not look at the velocity: compared with the second time derivative of the coordinates of the target class along the same motion, the result is off by exactly the difference of the terms quadratic in the coordinate rates (centripetal, Coriolis) of the two classes. So it is the physical acceleration iff these terms agree: always at rest and between Cartesian classes, to a Cartesian class iff no angle of the source class changes at that instant (uniform circular motion comes out with acceleration zero). Prolate spheroidal and TwoSphere accelerations never convert.", "quantifier": "every pair of acceleration classes, non-singular positions, all velocities and accelerations", "why_tests_cant": "needs the second-order chain rule at every point; a test at zero velocity cannot see a missing term", "anchors": ["src/coordinax/_src/vectors/transform/accelerations.py: represent_as (25-199)"]}
{"id": "C25", "title": "Velocity times time and acceleration times time are componentwise integrals for Cartesian vectors", "statement": "v * t is the Cartesian displacement, a * t the Cartesian velocity change and a * t^2 the displacement; each field d_k maps to field k.", "quantifier": "all Cartesian velocities, accelerations and times; field mapping for every class", "why_tests_cant": "all values; field renaming must be right for every class", "anchors": ["src/coordinax/_src/vectors/base/base_vel.py: _mul_vel_q (141-162)", "src/coordinax/_src/vectors/base/base_acc.py: _mul_acc_time, _mul_acc_time2 (126-219)"]}
{"id": "C26", "title": "Distance, parallax and distance modulus are mutually inverse", "statement": "For every positive distance, converting Distance -> Parallax -> Distance, Distance -> DistanceModulus -> Distance and the remaining compositions returns the original; parallax decreases and modulus increases strictly with distance.", "quantifier": "all positive distances, all parallaxes in (0, 90 deg), all real moduli", "why_tests_cant": "transcendental identities over a continuum", "anchors": ["src/coordinax/_src/distances/core.py: Distance.parallax, Distance.distance_modulus, Parallax.distance, DistanceModulus.distance, from_ (275-343)"]}
{"id": "C27", "title": "Operator inverse undoes the operator", "statement": "Applying op then op.inverse, or the reverse, to (position, time) gives back the position (point, class, and the components of a canonical value off the axis) and the time, whenever the two calls return: for identities, rotations by orthogonal matrices, spatial and spacetime translations, Galilean boosts by velocities of any class, velocity boosts, Galilean composites and Pipes. The inverse exists exactly when every translation vector has an opposite in its class (a prolate spheroidal one never, the origin of a spherical class not), and the two calls return exactly when every intermediate point can be expressed in the class of the position. In particular the inverse of a boost by a curvilinear velocity with positive radial rate raises at positive times.", "quantifier": "every operator value, Pipes of any length and nesting, positions, translations and boosts of every class of one to three dimensions, every time", "why_tests_cant": "unbounded pipes, all parameters", "anchors": ["src/coordinax/_src/operators/galilean/spatial_translation.py", "src/coordinax/_src/operators/galilean/translation.py", "src/coordinax/_src/operators/galilean/rotation.py", "src/coordinax/_src/operators/galilean/boost.py", "src/coordinax/_src/operators/galilean/composite.py", "src/coordinax/_src/operators/composite.py: inverse (44-63)"]}
{"id": "C28", "title": "A Pipe applies its operators left to right and | is associative", "statement": "Calling a Pipe equals applying its operators in order, and a | b acts as a followed by b; (a | b) | c and a | (b | c) act identically whenever they return; Identity is neutral on either side. a | b returns exactly when a is a Pipe or b is not one (so a | (b | c) needs a to be a Pipe). A lone velocity is accepted only by Pipes of exactly one operator, which hand it on.", "quantifier": "every list of operators of any length, every argument", "why_tests_cant": "unbounded composition depth", "anchors": ["src/coordinax/_src/operators/pipe.py: Pipe.__call__ (89-133), __or__ (137-157)", "src/coordinax/_src/operators/base.py: __or__ (219-236)", "src/coordinax/_src/operators/identity.py"]}
{"id": "C29", "title": "Simplification does not change an operator's action", "statement": "simplify() of an operator acts on every (position, time) exactly like the operator itself iff (for a single operator) each of its parameters is trivial or above the tolerance of allclose, and (for a Pipe) the rotations at its head have the same product forwards and backwards, because they are fused in the wrong order; what is dropped moves no coordinate by more than the tolerance. It returns for all 3-D Cartesian parameters and raises for planar translations.", "quantifier": "every operator with orthogonal rotations, Pipes of any length, every position and time", "why_tests_cant": "unbounded pipes, pair fusion rules, thresholds", "anchors": ["src/coordinax/_src/operators/register_simplify.py", "src/coordinax/_src/operators/boost.py: simplify_op", "src/coordinax/_src/operators/galilean/*.py: simplify_op"]}
{"id": "C30", "title": "Galilean operators act as the textbook affine map and preserve distances", "statement": "GalileanOperator(rotation, translation, velocity) maps (q, t) to (R q + s + v (t + tau), t + tau); simultaneous distances between points and time intervals are preserved for every orthogonal R.", "quantifier": "all parameters, all pairs of events", "why_tests_cant": "universally quantified geometric law", "anchors": ["src/coordinax/_src/operators/galilean/composite.py: operators (159-164)", "src/coordinax/_src/operators/galilean/rotation.py: __call__"]}
{"id": "C31", "title": "Operators act on points independently of representation", "statement": "Applying an operator to (position, time) returns exactly when every step can be carried out in the class of the position, and then gives the textbook image of the event, in the class of the input; so the same point given in two classes yields the same point, and the Cartesian form returns whenever another class does. Prolate spheroidal positions are rejected by every rotation, translation and boost. A FourVector is acted on like its spatial part and time.", "quantifier": "every operator of any nesting, every class of one to three dimensions and valid value, every time", "why_tests_cant": "all classes and values", "anchors": ["src/coordinax/_src/operators/galilean/rotation.py: __call__ (263-289)", "src/coordinax/_src/operators/galilean/spatial_translation.py: __call__ (210-231)"]}
{"id": "C32", "title": "Operators act on velocities consistently with positions", "statement": "VelocityBoost adds its velocity to every velocity of its own Cartesian class, given alone or with a position, leaves positions, times and events alone, and its inverse undoes it; it rejects all other velocities. A spatial translation applied to (position, velocity) moves the position as it does alone and returns a velocity of the same class with the same Cartesian velocity wherever the class is regular at the old and new place, and its inverse gives the velocity back exactly; it raises on TwoSphereVel and prolate spheroidal velocities.", "quantifier": "all operators, positions and velocities", "why_tests_cant": "all classes and values", "anchors": ["src/coordinax/_src/operators/boost.py", "src/coordinax/_src/operators/galilean/spatial_translation.py: call (316-360)"]}
{"id": "C33", "title": "ICRS <-> Galactocentric transforms are mutually inverse", "statement": "Transforming a position Quantity, position and velocity Quantities, or a position vector and a velocity vector of any classes, from ICRS to a Galactocentric frame and back (or the reverse) returns the original Cartesian values; the two operators are each other's inverse. A position vector without a velocity is rejected in both directions.", "quantifier": "every Galactocentric frame with distance d > 0 and |z_sun| <= d, every position and velocity", "why_tests_cant": "frame parameters are a continuum; only defaults are tested", "anchors": ["src/coordinax/_coordinax_space_frames/frame_transforms.py"]}
{"id": "C34", "title": "Galactocentric frame places its landmarks correctly", "statement": "The sky position of the Galactic centre at the frame's distance maps to the origin; the ICRS origin (the Sun) maps to a point at distance d from the origin at height z_sun on the x-z plane with x<=0; a star at rest with the Sun gets the frame's solar velocity; the roll angle is measured so that at the Galactic centre the north celestial pole makes the angle 58.5986320306 deg - roll with the z axis, towards +y.", "quantifier": "every frame parameter set with |z_sun| <= d", "why_tests_cant": "continuum of frame parameters", "anchors": ["src/coordinax/_coordinax_space_frames/frame_transforms.py: _icrs_to_gcf_matrix (84-108), icrs2gcf (204-290)", "src/coordinax/_coordinax_space_frames/galactocentric.py"]}
{"id": "C35", "title": "Frame transforms are rigid", "statement": "ICRS <-> Galactocentric transforms preserve distances between positions and relative speeds; the frame rotation is orthogonal.", "quantifier": "every parameter set, every pair of positions/velocities", "why_tests_cant": "continuum", "anchors": ["src/coordinax/_coordinax_space_frames/frame_transforms.py"]}
{"id": "C36", "title": "Frame-to-frame transforms compose and the identity frame transform is neutral", "statement": "For all frames (ICRS or Galactocentric) T(g,h) after T(f,g) is T(f,h) and T(f,f) is the identity on position and velocity, as Quantities or as vectors of any classes (which are transformed like their Cartesian forms); the inverse of T(f,g) is T(g,f); transforming from or to NoFrame is an error. T between two different Galactocentric frames rejects a position given without a velocity.", "quantifier": "every triple of frames, every position and velocity", "why_tests_cant": "all frame parameter triples", "anchors": ["src/coordinax/_coordinax_space_frames/frame_transforms.py: frame_transform_op (35-78)", "src/coordinax/_src/frames/xfm.py"]}
{"id": "C37", "title": "Unit conversion preserves physical values", "statement": "uconvert with a unit system, a mapping by physical type, or 'consistent' leaves the physical value of every component unchanged; it is idempotent, and converting there and back restores the original value and unit.", "quantifier": "every vector, every assignment of positive unit scales", "why_tests_cant": "all unit assignments", "anchors": ["src/coordinax/_src/vectors/base/compat.py: uconvert (203-329)"]}
{"id": "C38", "title": "The consistent option gives one unit per dimension", "statement": "After uconvert(ToUnitsOptions.consistent), any two components of the same dimension carry the same unit, namely that of the first component of that dimension.", "quantifier": "every component list of any length and unit assignment", "why_tests_cant": "arbitrary length histories of seen dimensions", "anchors": ["src/coordinax/_src/vectors/base/compat.py: uconvert (276-329)"]}
{"id": "C39", "title": "Cartesian vector <-> Quantity conversions are inverse", "statement": "Converting a Cartesian position, velocity or acceleration of 1 to 3 dimensions, or an N-dimensional position, to a Quantity and back with from_ returns the original, component order x, y, z preserved; a non-Cartesian position converts to the Quantity of its Cartesian form. Quantities of wrong lengths or dimensions raise. Exceptions: a Quantity with more trailing components than the class has is truncated silently, and N-dimensional velocities and accelerations can be made from a Quantity but not converted to one (they raise).", "quantifier": "all dimensions 1..3 and N, all values", "why_tests_cant": "all values and sizes N", "anchors": ["src/coordinax/_src/vectors/base/compat.py: convert (31-70)", "src/coordinax/_src/vectors/d3/cartesian.py: from_ (69-92)", "src/coordinax/_src/vectors/dn/cartesian.py"]}
{"id": "C40", "title": "Space converts each component with the right base vectors", "statement": "Space.represent_as(target) converts the position to target, the velocity to target's velocity class at that position and the acceleration likewise, keeping the set of keys. A Space is constructed exactly when every keyword names a dimension and the shapes broadcast; indexing by a dimension or its name returns the vector given for it. Exceptions: of two vectors of one dimension the later silently replaces the earlier (expected: an error), and a string key that is another name of a dimension raises.", "quantifier": "every Space content, any number of keyword arguments and extra keys, every target class", "why_tests_cant": "all keys and classes", "anchors": ["src/coordinax/_src/vectors/space/core.py: __init__ (103-128), __getitem__ (150-255), __neg__ (400), represent_as (579-622)"]}
{"id": "C41", "title": "Phase-space to Poincare polar coordinates and back is the identity", "statement": "Space -> PoincarePolarVector -> Space returns, for a moving point off the z axis in any classes, a position and velocity in cylindrical form; they are the original point and velocity exactly when the angular momentum about z is positive, or is zero with azimuth zero. (Expected: always. For negative angular momentum the sign of the azimuthal rate is lost; for zero the azimuth is.)", "quantifier": "every position off the axis and every velocity", "why_tests_cant": "sign loss at negative angular rates is invisible to positive examples", "anchors": ["src/coordinax/_src/vectors/transform/space.py (36-70)", "src/coordinax/_src/vectors/transform/dn.py (15-59)"]}
{"id": "C42", "title": "FourVector arithmetic and norm are Minkowski", "statement": "FourVector + and - act on time and space separately, negation negates both, and norm2 = (c t)^2 - |q|^2; the results are returned exactly when the spatial part can be expressed in the class of the left operand. from_ of [ct, x, y, z] and conversion to Quantity are inverse. Exceptions: norm2 raises exactly for LonLatSphericalPos and MathSphericalPos whose distance is a parallax or modulus; converting to a Quantity and back resets the speed of light to the default and multiplies the time by the ratio.", "quantifier": "all four-vectors, spatial part in any 3-D class, any speed of light and time", "why_tests_cant": "all values and classes", "anchors": ["src/coordinax/_src/vectors/d4/spacetime.py: from_ (106-153), __neg__ (208), _norm2 (226), add (336), sub (364)", "src/coordinax/_src/vectors/d4/compat.py"]}
{"id": "C43", "title": "Array-shape operations agree with the broadcast shape", "statement": "vec.shape is the broadcast of the component shapes. Indexing and reshape return vectors whose shape is the corresponding operation on vec.shape with elements moved accordingly, for all component shapes. mT does so exactly when every component has at least two axes and otherwise raises; T exactly when every component has all the axes or a single element; flatten and ravel exactly when every component has all or one element (expected: always). N-dimensional vectors: T, flatten and reshape for all batch shapes; mT for two batch axes (it raises otherwise); indices into the batch axes; ravel turns the batch into a single vector and indices that reach the last axis take coordinates. A Space indexes each vector by its own shape.", "quantifier": "all tuples of broadcast-compatible component shapes of any rank", "why_tests_cant": "unbounded rank and sizes; mixed component shapes are rarely tested", "anchors": ["src/coordinax/_src/vectors/base/base.py: shape (279), mT (350), T (439), flatten (745), ravel (766), reshape (802), __getitem__ (670)", "src/coordinax/_src/vectors/dn/base.py: mT (67-74)"]}
{"id": "C44", "title": "Equality of positions is equality of points", "statement": "For positions of one dimension, p == q true implies that they denote the same point; for canonical positions off the z axis (of one focal length if both are prolate) it is true exactly when they do; p == p is true. It fails to return exactly when q cannot be converted to the class of p (C09; in particular a prolate p and a non-prolate q) or the radial fields are then of different classes.", "quantifier": "all pairs of classes of one dimension and all valid values", "why_tests_cant": "all pairs", "anchors": ["src/coordinax/_src/vectors/base/base_pos.py: __eq__ (96-137)", "src/coordinax/_src/vectors/base/base.py: __eq__ (545-618)"]}
{"id": "C45", "title": "Astropy interop preserves components", "statement": "Converting a coordinax position to the corresponding astropy representation and back returns the same position exactly when its class has a counterpart, its azimuth is in range and its radial field is a Distance; velocities of the five classes and Galactocentric frames come back unchanged. Exceptions: parallax and modulus radial fields raise, out-of-range azimuths come back reduced, and convert() and from_ may return another class than the one asked for.", "quantifier": "every supported class and every valid value", "why_tests_cant": "all values and ~20 class pairs with renamed/reordered fields", "anchors": ["src/coordinax/_interop/coordinax_interop_astropy/constructors.py", "src/coordinax/_interop/coordinax_interop_astropy/converters.py"]}
{"id": "C46", "title": "normalize_vector returns the unit vector", "statement": "normalize_vector of a CartesianPos3D returns a vector of Euclidean length one that is a positive multiple of the input, and is undefined (NaN) exactly at the origin.", "quantifier": "all 3-D Cartesian positions", "why_tests_cant": "ranges over all real components; tests see finitely many points", "anchors": ["src/coordinax/_src/vectors/d3/cartesian.py: normalize_vector"]}
{"id": "C47", "title": "Negating a Space reflects the moving point", "statement": "-space is at the opposite point (each position negated), in the same classes, and is returned exactly when every position has a negative in its class. Every velocity and acceleration keeps its class and gets all components negated; it moves with the opposite Cartesian velocity exactly when the velocity is Cartesian or its radial and azimuthal rates vanish (expected: always).", "quantifier": "every Space, any number of entries, every position and velocity class", "why_tests_cant": "all classes and points; the doctest only shows Cartesian vectors, for which negating components is right", "anchors": ["src/coordinax/_src/vectors/space/core.py: __neg__ (384-400)", "src/coordinax/_src/vectors/base/base_vel.py: __neg__ (107-127)"]}
{"id": "C48", "title": "Keyword coordinates fill the missing dimensions", "statement": "Raising a position to a class of higher dimension with explicit keyword arguments y, z, theta, phi returns a vector of that class denoting the point whose missing coordinates are those arguments in the textbook formula of the target class (zero where absent), whatever the sign of the 1-D coordinate for the spherical classes.", "quantifier": "all valid 1-D and 2-D positions, all higher-dimension target classes with a rule, all real keyword values", "why_tests_cant": "tests call each rule with defaults or one literal; the claim ranges over all values and combinations of keywords, sources and targets", "anchors": ["src/coordinax/_src/vectors/transform/d1.py:represent_as", "src/coordinax/_src/vectors/transform/d2.py:represent_as"]}
{"id": "C49", "title": "Converting an array of positions converts each element", "statement": "represent_as of a vector whose components are arrays (of any shapes that broadcast together) with array keyword arguments returns a vector whose element at every batch index is the conversion of the element of the input at that index, including NaN where the scalar formula has no finite value and independently of the other elements; it raises when one element raises, and when all elements of a non-empty batch convert it returns exactly if the shapes of the arguments are ones lax.select and lax.cond accept where the code uses them. The same for from_ of the spherical classes.", "quantifier": "all position classes, targets, component shapes and ranks that broadcast, keyword arguments, batch indices, real or NaN elements", "why_tests_cant": "tests use one or two small batches of one shape; the claim ranges over all shapes, mixtures of shapes, indices and values", "anchors": ["src/coordinax/_src/vectors/d3/transform.py:represent_as", "src/coordinax/_src/vectors/transform/d1.py:represent_as", "src/coordinax/_src/vectors/transform/d2.py:represent_as", "src/coordinax/_src/vectors/d3/spherical.py:from_", "src/coordinax/_src/vectors/checks.py"]}
{"id": "C50", "title": "Constructors keep what they are given", "statement": "Calling a vector class with one quantity per component succeeds exactly when every quantity has the physical type of its component (a velocity component the position's per time, an acceleration component per time squared) and the class's range conditions hold; each component then holds the given value in the given unit, except that an azimuth not given as Angle is reduced to [0, 360) deg and a radial argument given as parallax angle or distance modulus becomes the distance. Delta is accepted and required exactly by ProlateSpheroidalPos.", "quantifier": "all position, velocity and acceleration classes, CartesianGeneric3D, PoincarePolarVector; all argument lists, values, units", "why_tests_cant": "tests construct each class from a few literals; the claim ranges over all values, units and wrong argument combinations", "anchors": ["src/coordinax/_src/vectors/d3/spherical.py", "src/coordinax/_src/vectors/d3/cartesian.py", "src/coordinax/_src/vectors/d3/spheroidal.py", "src/coordinax/_src/vectors/converters.py", "src/coordinax/_src/vectors/checks.py"]}
{"id": "C51", "title": "Mappings, asdict, replace and from_ of vectors", "statement": "cls.from_(v.asdict()) gives back v in whatever order the entries come; a mapping with a missing or unknown key is rejected; replace(v, name=q) is the constructor with those components exchanged and the others kept; cls.from_(v) is v when v is of that class, and otherwise raises, except that between three-dimensional classes of one sort it returns the argument unconverted (expected: convert or raise).", "quantifier": "all constructed vectors of all classes, all mappings, all permutations of their entries, all subsets of replaced components", "why_tests_cant": "tests use single literal mappings; the claim ranges over all vectors, orders and key sets", "anchors": ["src/coordinax/_src/vectors/base/base.py:from_", "src/coordinax/_src/vectors/base/base.py:asdict", "src/coordinax/_src/vectors/d3/constructor.py:from_"]}
{"id": "C52", "title": "Cartesian arithmetic on batches with units", "statement": "For Cartesian positions, velocities and accelerations of 1, 2, 3 dimensions whose components are arrays of any shapes in any units: whenever +, -, unary -, multiplication by a number, division by an array, norm, == or multiplication by a time (squared time) return, every element of the result is that operation on the physical components of the elements, the class is right and units come from the left operand. Which classes have which operation, and that operands in different units raise (except CartesianPos3D +), is fixed exactly; an array as factor is rejected.", "quantifier": "all Cartesian classes, all component shapes (including components of different shapes within one vector), all units, all elements of the batch", "why_tests_cant": "tests add scalar literals in one unit; the claim ranges over all shapes, unit combinations and elements", "anchors": ["src/coordinax/_src/vectors/d1/cartesian.py", "src/coordinax/_src/vectors/d2/cartesian.py", "src/coordinax/_src/vectors/d3/cartesian.py", "src/coordinax/_src/vectors/base/base_pos.py", "src/coordinax/_src/vectors/base/base_vel.py", "src/coordinax/_src/vectors/base/base_acc.py"]}
{"id": "C53", "title": "Arithmetic of N-dimensional Cartesian vectors", "statement": "For batches of F-dimensional CartesianPosND: + and - return exactly when the batch shapes broadcast and act on the physical components of each element, in the unit of the left operand; -p, x*p, p/x keep unit and shape and act on every component; norm has the batch shape and is Euclidean; == compares component by component and keeps the component axis; CartesianVelND/AccND times a scalar time, or times with a trailing axis of length 1, multiplies each vector by the time at its place. Positions of different dimension raise unless one of them is one-dimensional.", "quantifier": "all dimensions F, all batch shapes, all units, all values", "why_tests_cant": "tests use one literal of F=3; the claim ranges over all dimensions, batch shapes and units", "anchors": ["src/coordinax/_src/vectors/dn/cartesian.py", "src/coordinax/_src/vectors/base/base_pos.py", "src/coordinax/_src/vectors/base/base_vel.py", "src/coordinax/_src/vectors/base/base_acc.py"]}
{"id": "C54", "title": "Operators on bare Quantities", "statement": "Calling an operator on a length Quantity of three coordinates, alone or with a time, or on [ct, x, y, z], returns the coordinates (and time) of the point or event the operator maps it to; without a time this works exactly for operators that need none. One- and two-dimensional Quantities are translated and boosted componentwise. (Pipes and GalileanOperators should behave the same; they raise on all Quantities with a time, and except for Pipes on three coordinates also without.)", "quantifier": "all operators of any nesting, all coordinates, all times", "why_tests_cant": "tests call a few operators on one literal; the claim ranges over all operators, nestings, coordinates and argument forms", "anchors": ["src/coordinax/_src/operators/compat.py", "src/coordinax/_src/operators/identity.py", "src/coordinax/_src/operators/pipe.py", "src/coordinax/_src/operators/galilean/rotation.py"]}
{"id": "C55", "title": "Composite operators are sequences", "statement": "A Pipe or GalileanOperator behaves as the Python sequence of its parts: op[k], op[-k], op[a:b] with negative and overshooting bounds; calling op[:k] and then op[k:], or op[:k] | op[k:], is calling op, for every integer k; the inverse of a slice is the mirrored slice of the inverse; Pipe(x) of a tuple, list, operator or Pipe acts as x; every operator is inertial.", "quantifier": "all composite operators of any length and nesting, all integer indices and bounds, all arguments", "why_tests_cant": "tests index one Pipe of three operators; the claim ranges over all lengths, indices, slices and arguments", "anchors": ["src/coordinax/_src/operators/composite.py", "src/coordinax/_src/operators/pipe.py", "src/coordinax/_src/operators/galilean/composite.py"]}
{"id": "C56", "title": "Construction of operators", "statement": "from_(numbers, unit) gives the operator that translates or boosts by those numbers of that unit, and rejects wrong dimensions or counts; from_(operator) returns it exactly when it is of that class; parts omitted from GalileanOperator do nothing; from_euler gives a proper rotation, turning about the fixed axes in the order given (extrinsic) or in reverse (intrinsic); a @ b acts as b then a; -op is the inverse (false for rotations, where it is never the inverse; boosts drop extra numbers).", "quantifier": "all numbers, units, angle sequences of any length, matrices", "why_tests_cant": "tests build a few literals; the claim ranges over all values, units and sequences", "anchors": ["src/coordinax/_src/operators/base.py", "src/coordinax/_src/operators/galilean/rotation.py", "src/coordinax/_src/operators/galilean/boost.py", "src/coordinax/_src/operators/galilean/translation.py", "src/coordinax/_src/operators/galilean/spatial_translation.py", "src/coordinax/_src/operators/galilean/composite.py"]}
{"id": "C57", "title": "Batches of velocities and accelerations convert element by element", "statement": "represent_as(vel, target, position) and represent_as(acc, target, vel, position) on arrays: with one common batch shape the result has the target class and that shape, its element at every index is the conversion of the elements at that index, whatever the other elements (NaN included), and it returns whenever all elements convert. A position of another shape would be expected to broadcast or to raise (false: never broadcast; equal sizes are paired silently in row-major order, other sizes raise).", "quantifier": "all classes, batch shapes, ranks, mixtures of component shapes, elements, keyword numbers", "why_tests_cant": "tests use shapes () and (n,); the claim ranges over every shape, every mixture of component shapes and every value", "anchors": ["src/coordinax/_src/vectors/transform/velocities.py", "src/coordinax/_src/vectors/transform/accelerations.py", "src/coordinax/_src/vectors/d3/transform.py", "src/coordinax/_src/vectors/base/base.py: AbstractVector.reshape"]}
{"id": "C58", "title": "Arithmetic on batches of positions acts element by element", "statement": "p + q, p - q, -p, s * p, p * s, p / s, p.norm(), p == q, p * q and normalize_vector on positions whose components are arrays: the element of the result at every batch index is the scalar result for the elements at that index (so it is the vector sum, the Euclidean length, ... of the points there), whatever the other elements. If the operation returns for all elements of a non-empty batch, then -p, p / s and norm return; p + q and p - q return exactly when, component by component, the shapes of the Cartesian forms have equal rank or one is (); p == q exactly when all pairs of components have the same broadcast shape; p * q exactly when the shapes of the operands have equal rank and the dimensions are equal or one is 1; s * p for a single factor. The shape of a Cartesian component is the broadcast of the components it depends on. (Expected: numpy broadcasting between the operands.)", "quantifier": "all classes, batch shapes, ranks, mixtures of component shapes, elements (NaN included)", "why_tests_cant": "tests use shapes () and (n,) of a few values; the claim ranges over every shape, class pair and value", "anchors": ["src/coordinax/_src/vectors/base/base_pos.py", "src/coordinax/_src/vectors/base/base.py: AbstractVector.__eq__", "src/coordinax/_src/vectors/base/compat.py", "src/coordinax/_src/vectors/d1/cartesian.py", "src/coordinax/_src/vectors/d2/cartesian.py", "src/coordinax/_src/vectors/d3/cartesian.py", "src/coordinax/_src/vectors/d2/polar.py", "src/coordinax/_src/vectors/d3/mathspherical.py"]}
{"id": "C59", "title": "Angles and distances do not depend on their units", "statement": "cos and sin of an Angle, tan of a Parallax, square and cube roots, powers and dot products of Angles and distances, the properties distance, parallax and distance_modulus, Distance.from_, Parallax.from_ and the conversions between Quantity, Angle, Distance, Parallax and DistanceModulus give the mathematically right value of the physical quantity with the right physical type (roots and powers as plain Quantity), in every unit of the argument and at every entry; they raise exactly where the physical type or the sign is wrong (a DistanceModulus must be in mag); a conversion keeps value and unit and a conversion to Quantity and back is the identity (except for an unchecked parallax); a root followed by the power gives the original.", "quantifier": "all values of all shapes, all units (positive scale), all integer and rational exponents, negative distances included", "why_tests_cant": "tests check a few literals in one unit; the claim is about every real value, every unit and every shape", "anchors": ["src/coordinax/_src/angles/base.py: AbstractAngle.__check_init__", "src/coordinax/_src/angles/compat.py", "src/coordinax/_src/angles/register_primitives.py", "src/coordinax/_src/distances/core.py", "src/coordinax/_src/distances/compat.py", "src/coordinax/_src/distances/register_primitives.py", "src/coordinax/_interop/coordinax_interop_astropy/distance.py"]}
{"id": "C60", "title": "Operators on batches act on each element", "statement": "An operator whose parameters and arguments carry batch axes returns, at every batch index, what the operator with the parameters at that index returns for the argument at that index; for 3-D positions with times that is the event moved by the operator's transformation, in the class of the input. If every scalar call returns, the call on a non-empty batch returns exactly when, step by step, the shapes can be combined (sums of positions and velocities component by component, four-vectors by the shape check of the class); in particular when every vector is a batch of one shape or a single vector. This holds for every operator class and pipes of any length and depth. Exception: a batch of (position, velocity) pairs through a GalileanSpatialTranslation raises, and when the batch size equals the number of dimensions it returns a velocity with two extra axes; a single pair through a batch of translations is right at every index.", "quantifier": "all operators, pipes of any length and nesting, all vector classes, all batch shapes and ranks that broadcast, all values (other elements may be NaN)", "why_tests_cant": "tests apply operators to one or a few elements of one shape; the claim is about every shape, every index and every pipe", "anchors": ["src/coordinax/_src/operators/galilean/rotation.py: GalileanRotation.__call__", "src/coordinax/_src/operators/galilean/spatial_translation.py: GalileanSpatialTranslation.__call__", "src/coordinax/_src/operators/galilean/translation.py: GalileanTranslation.__call__", "src/coordinax/_src/operators/galilean/boost.py: GalileanBoost.__call__", "src/coordinax/_src/operators/pipe.py: Pipe.__call__", "src/coordinax/_src/operators/compat.py"]}
{"id": "C61", "title": "Conversions do not depend on the units of the components", "statement": "vec.represent_as(target, **kw), represent_as(vel, target, position, **kw) and represent_as(acc, target, velocity, position, **kw) called with the same physical quantities in different units (each component and keyword argument in its own unit) return the same physical vector, with components of the physical types of the target class, or raise the same error; the result is the one obtained with everything given in base units, so the point and the velocity of C01, C02, C19 are preserved in any units. Exception: a prolate spheroidal position converted to its own class raises unless mu is given in the square of Delta's unit and the new Delta in the unit of the old one. Prolate spheroidal velocities and accelerations do not convert to another class in any units.", "quantifier": "all units with positive scale per component and keyword argument, all position, velocity and acceleration classes and targets, all real values, all three distance classes", "why_tests_cant": "tests use one or two units per class; the claim is about every combination of units in every component, through rules of several steps and the Jacobian", "anchors": ["src/coordinax/_src/vectors/d1/transform.py", "src/coordinax/_src/vectors/d2/transform.py", "src/coordinax/_src/vectors/d3/transform.py", "src/coordinax/_src/vectors/transform/d1.py", "src/coordinax/_src/vectors/transform/d2.py", "src/coordinax/_src/vectors/transform/d3.py", "src/coordinax/_src/vectors/transform/velocities.py", "src/coordinax/_src/vectors/transform/accelerations.py", "src/coordinax/_src/vectors/converters.py", "src/coordinax/_src/vectors/checks.py"]}
{"id": "C62", "title": "Arithmetic of positions does not depend on the units of the components", "statement": "p + q (3-D), -p, s*p, p/s, p*q, p.norm() and normalize_vector(p) of positions whose components carry units give the same physical result, or raise the same error, as with all components in base units; so two calls with the same quantities in different units agree. p - q, p + q in one and two dimensions and p == q do so when the units of the two vectors (of their Cartesian components, or of the fields for ==) agree, in particular when all lengths are given in one unit; otherwise they raise, and never return a wrong number.", "quantifier": "all units with positive scale per component, all position classes of either operand, all real values and scalars, all three distance classes", "why_tests_cant": "tests add vectors in one unit; the claim covers every combination of units and classes, and that mixed units raise instead of adding stored numbers", "anchors": ["src/coordinax/_src/vectors/base/base_pos.py", "src/coordinax/_src/vectors/base/base.py:AbstractVector.__eq__", "src/coordinax/_src/vectors/d1/cartesian.py", "src/coordinax/_src/vectors/d2/cartesian.py", "src/coordinax/_src/vectors/d3/cartesian.py", "src/coordinax/_src/vectors/base/compat.py"]}
{"id": "C63", "title": "Four-vectors on batches", "statement": "For FourVectors whose time and position are arrays: x + y, x - y, -x, the squared norm and norm() hold at every index what the scalar operation gives for the elements there; the sum of two accepted four-vectors returns exactly when their positions can be added, and its result always passes the class's shape check; -x and norm() always return. FourVector.from_(quantity) accepts exactly the arrays whose last axis has length 4 and splits them into t = ct/c and (x, y, z); converting back gives the same array. Converting an arbitrary four-vector to a Quantity returns exactly when the time has the shape of the position (a time that merely broadcasts is accepted by the class but makes the conversion raise) and gives c t, x, y, z at every index.", "quantifier": "all batch shapes (including arrays that only broadcast), all position classes of dimension 3, all real values, all indices", "why_tests_cant": "tests use single events; the claim ranges over every pair of shapes, every index and every representation of the spatial part", "anchors": ["src/coordinax/_src/vectors/d4/spacetime.py:FourVector", "src/coordinax/_src/vectors/d4/compat.py"]}
{"id": "C64", "title": "broadcast_to and reshape on vectors", "statement": "jnp.broadcast_to(vec, (*t, k)) on a position or velocity returns exactly when every component (Delta included) broadcasts to t; the result has the class of vec, components of shape t, and holds at every batch index the vector that broadcasting reads off there. jnp.reshape(vec, (n0, *rest)) gives every component the shape (n0 // n_components, *rest) in row-major order; if all fields have shape s it returns exactly when that shape has as many elements as s, so among the shapes of the right total size exactly those whose first axis is a multiple of the number of components are accepted, and the result never has the requested array shape; fields of different sizes (a scalar Delta with a batch of coordinates) always raise. For the N-dimensional classes broadcast_to drops the last axis of the request although the data has the component axis.", "quantifier": "all batch shapes, all requested shapes, all position and velocity classes, all component values including NaN", "why_tests_cant": "a statement about all shapes and ranks; the exact set of accepted requests is infinite", "anchors": ["src/coordinax/_src/vectors/base/register_primitives.py", "src/coordinax/_src/vectors/base/base_pos.py:_reshape_pos", "src/coordinax/_src/vectors/base/mixins.py"]}
{"id": "C65", "title": "Space as an array", "statement": "space.shape is the broadcast of the shapes of all components of all its vectors, ndim and size belong to it, len(space) is its first axis (0 for single vectors, however many entries there are), shapes and sizes list those of the vectors. T, mT, flatten, ravel are those of the vectors under the same keys in the same order and return exactly when each of them returns and the results broadcast: mT is right for all shapes whenever every component has two axes and raises otherwise; flatten has shape (size,) exactly when every component has size elements or one, and then keeps row-major order; T moves the vectors to the reversed index when every component has all axes or one element, and can silently give wrong vectors otherwise. +space is space. replace(space, **kwargs) puts the new vectors under their dimensions (under any name of the dimension) and keeps the others.", "quantifier": "all Spaces with any number of entries, all component shapes and values, all tables of dimension names, all index positions", "why_tests_cant": "a statement about all shapes, ranks and numbers of entries", "anchors": ["src/coordinax/_src/vectors/space/core.py:Space", "src/coordinax/_src/vectors/space/compat.py:replace", "src/coordinax/_src/vectors/base/base.py"]}
{"id": "C66", "title": "Operators do not depend on the units of components", "statement": "Lengths, times, angles and velocities in operators and their arguments may be in any units, different for every component. Whatever op(*args) returns, its values in base units are those the same operator in base units gives for the same arguments in base units, so two calls that agree in base units and return give results that agree in base units. With a three-dimensional position, and as long as no VelocityBoost acts on a velocity, the call returns exactly when it returns in base units and otherwise raises the same error. Two exceptions: a VelocityBoost of a velocity returns exactly when both velocities are of one Cartesian class and stored in the same units, and a spatial translation in one or two dimensions raises when the Cartesian components of the operands come in different units. op.inverse behaves as in base units for every operator.", "quantifier": "all operators (pipes of any depth and length), all argument forms (position, position and time, FourVector, position and velocity, velocity), all classes, values and units", "why_tests_cant": "a statement about every choice of units for every component of operator and argument, and pipes of any depth", "anchors": ["src/coordinax/_src/operators/galilean/rotation.py", "src/coordinax/_src/operators/galilean/spatial_translation.py", "src/coordinax/_src/operators/galilean/translation.py", "src/coordinax/_src/operators/galilean/boost.py", "src/coordinax/_src/operators/boost.py", "src/coordinax/_src/operators/pipe.py", "src/coordinax/_src/operators/composite.py"]}
{"id": "C67", "title": "simplify and the units of components", "statement": "op.simplify() compares stored numbers with zero: a spatial translation in the unit of its first Cartesian component, a FourVector translation in the unit of c t, a boost in the unit of its first component. Whatever op.simplify() returns is, in base units, what the operator in base units simplifies to when the comparison is made with 1e-8 of that unit; a single operator also raises exactly when it does in base units, and so does a Pipe of three-dimensional translations and of velocities in one set of units. If all parameters are zero or above that tolerance and the leading rotations of a Pipe agree, the simplified operator acts on every position and time like the operator. simplify is not a function of the physical operator: every translation other than zero can be written in units in which it is dropped and in units in which it is kept.", "quantifier": "all operators (pipes of any length), all classes, values and units of their parameters", "why_tests_cant": "a statement about every choice of units for every component, and about every translation for the dependence on units", "anchors": ["src/coordinax/_src/operators/register_simplify.py", "src/coordinax/_src/operators/galilean/spatial_translation.py", "src/coordinax/_src/operators/galilean/translation.py", "src/coordinax/_src/operators/galilean/boost.py", "src/coordinax/_src/operators/galilean/composite.py", "src/coordinax/_src/vectors/compat.py", "src/coordinax/_src/vectors/d4/compat.py"]}
{"id": "C68", "title": "Frame transforms do not depend on units", "statement": "The parameters of a Galactocentric frame and the arguments of a frame transform may be in any units, different for every component. A transform between frames returns in base units what the transform of the frames in base units returns, and raises exactly when it does; on Quantities the position keeps the unit it came in. Transforms in any units compose: T(g,h) after T(f,g) is T(f,h) in base units. The one dependence on units: between two Galactocentric frames a position without a velocity is accepted exactly when the frames are equal as stored, so that the same frame written in two sets of units is rejected.", "quantifier": "all frames with parameters in any units, all positions and velocities of any class in any units", "why_tests_cant": "ranges over all units of every parameter and component and over all real values", "anchors": ["src/coordinax/_coordinax_space_frames/frame_transforms.py: frame_transform_op, _icrs_to_gcf", "src/coordinax/_coordinax_space_frames/galactocentric.py: Galactocentric", "src/coordinax/_src/operators/galilean/rotation.py: from_euler"]}
{"id": "C69", "title": "simplify_op with given tolerances", "statement": "simplify_op(op, rtol=..., atol=...) is taken by every operator except Identity and Pipe, which raise. A parameter is dropped exactly when every stored number is within atol of zero (a rotation matrix within atol of the unit matrix, on the diagonal within atol + rtol), and the result acts as the Galilean transformation with the parameters that are left. With both tolerances zero it acts on every position and time exactly like the operator; otherwise no coordinate is moved by more than the tolerances allow, an explicit bound for every class of operator. op.simplify() is the case atol=1e-8, rtol=1e-5.", "quantifier": "all operators with three-dimensional parameters, all real tolerances, all stored units, all positions and times", "why_tests_cant": "ranges over all parameters, tolerances and events", "anchors": ["src/coordinax/_src/operators/galilean/rotation.py: simplify_op", "src/coordinax/_src/operators/galilean/spatial_translation.py: simplify_op", "src/coordinax/_src/operators/galilean/translation.py: simplify_op", "src/coordinax/_src/operators/galilean/boost.py: simplify_op", "src/coordinax/_src/operators/galilean/composite.py: simplify_op", "src/coordinax/_src/operators/register_simplify.py"]}
{"id": "C70", "title": "Space and Poincar\u00e9 polar vectors do not depend on units", "statement": "Converting a Space to another representation, negating it, and converting it to Poincar\u00e9 polar coordinates and back give the same quantities whatever units its components are in: the call returns iff it returns for the same Space in base units, the result has the right physical types and is the base-unit result in base units, and an error is the same error. A moving point off the z axis with positive angular momentum about it comes back from Poincar\u00e9 polar coordinates in any units. pp_phi and d_pp_phi only convert back if they are square roots of angular momenta including the root of a radian, although the class accepts every physical type.", "quantifier": "all Spaces of positions, velocities and accelerations of all classes, all units, all target classes", "why_tests_cant": "ranges over all units, classes and real components", "anchors": ["src/coordinax/_src/vectors/space/core.py: Space, represent_as, temp_represent_as", "src/coordinax/_src/vectors/transform/space.py: represent_as", "src/coordinax/_src/vectors/transform/dn.py: represent_as", "src/coordinax/_src/vectors/dn/poincare.py: PoincarePolarVector"]}
{"id": "C71", "title": "Spaces and Poincar\u00e9 polar vectors of batched vectors", "statement": "Converting, negating a Space of batched vectors, and converting it to a Poincar\u00e9 polar vector and back, is what these operations do for the scalar Space at every batch index where the components are numbers, whatever the other elements are (NaN included), and the result has the same keys. If no axis is empty and the operation returns for the scalar Space at every index, it returns for the batch. So a batch of moving points converts to every class regular at all of them and every element is the same point with the same velocity; with positive angular momenta about the z axis it comes back from Poincar\u00e9 polar coordinates element by element. Exception: a Space whose position and velocity have different numbers of elements is accepted by the constructor but does not convert.", "quantifier": "all Spaces with any number of entries, classes, batch shapes and ranks, component shapes that differ and broadcast, real and NaN elements, all target classes", "why_tests_cant": "ranges over all shapes, classes and real elements", "anchors": ["src/coordinax/_src/vectors/space/core.py: Space, represent_as, temp_represent_as", "src/coordinax/_src/vectors/transform/space.py: represent_as", "src/coordinax/_src/vectors/transform/dn.py: represent_as", "src/coordinax/_src/vectors/dn/poincare.py: PoincarePolarVector"]}
{"id": "C72", "title": "What survives rounding", "statement": "With floating-point components, of any precision and with any library functions (only acos staying in [0, 180 deg] is assumed): every vector represent_as returns is in the documented range; rounding never makes represent_as raise a range-check error for a vector in range (targets other than prolate spheroidal; provided the sine of an inclination does not round to a negative number, for the projection on PolarPos); the azimuth stays in the closed range [0, 360] deg; SphericalPos.from_ and MathSphericalPos.from_ accept any radius and angles; conversions that compute no inclination from Cartesian or cylindrical coordinates always return; the inclination of a Cartesian or cylindrical position is a number iff its computed radius is not zero. Exceptions: a small negative azimuth is stored as exactly 360 deg, outside the half-open range; where sin(180 deg) rounds to a negative number (float32) a SphericalPos on the negative z axis cannot be converted to a PolarPos; a position whose squared coordinates underflow has a NaN inclination.", "quantifier": "every rounding that is monotone, symmetric and exact on representable numbers, every library sin, cos, tan, atan2, every vector of such numbers, every target class and keyword arguments", "why_tests_cant": "tests sample a few values in one precision; a bound on the rounded result must hold for every representable number", "anchors": ["/repo/src/coordinax/_src/vectors/checks.py", "/repo/src/coordinax/_src/vectors/converters.py: converter_azimuth_to_range", "/repo/src/coordinax/_src/vectors/d3/transform.py", "/repo/src/coordinax/_src/vectors/transform/d3.py", "/repo/src/coordinax/_src/vectors/d3/spherical.py: from_"]}
{"id": "C73", "title": "Identities of vector arithmetic that rounding does not break", "statement": "With floating-point components of any precision, bit for bit: p + q = q + p for positions of one class (every class); for Cartesian positions of one class -(-p) = p, p - q = p + (-q), -(p - q) = q - p, p - p = 0, 1 * p = p, (-s) * p = -(s * p), p + 0 * q = p, norm(-p) = norm(p), norm(p - q) = norm(q - p); the norm is a number, not negative, and not less than the absolute value of any component. A position equals itself, == is symmetric, conversion to the own class returns the vector unchanged, SphericalPos <-> MathSphericalPos and Cartesian embedding and projection are exact. Through LonLatSphericalPos the inclination comes back exactly if 90 deg - theta is representable, and as 0 if that rounds to 90 deg. Not kept: (q + p) - q = p and associativity.", "quantifier": "every rounding that is monotone, symmetric and exact on representable numbers, every pair of positions of such numbers, every scalar", "why_tests_cant": "an exact identity must hold for every representable number and every precision; tests compare a few with tolerances", "anchors": ["/repo/src/coordinax/_src/vectors/base/base_pos.py", "/repo/src/coordinax/_src/vectors/d3/cartesian.py", "/repo/src/coordinax/_src/vectors/d3/transform.py"]}
{"id": "C74", "title": "Which rule a conversion runs", "statement": "Every call of represent_as and frame_transform_op runs one rule determined by the classes of the positional arguments: the most specific of the rules registered last for their signature, with precedence as the tie-breaker; it raises NotFoundLookupError exactly if no rule accepts the arguments and AmbiguousLookupError exactly if none of the most specific ones wins. The order in which the modules of coordinax are imported makes no difference. Rules that users register for their own classes change no call on objects of the library, and objects of user subclasses of any depth are converted as their library base class. represent_as(vector, target) is never ambiguous for any classes, nor is represent_as(velocity, target, position vector); with a Quantity as the position exactly one call is, LonCosLatSphericalVel to itself. Without a position only Cartesian velocities and RadialVel convert, to themselves. A positional angle is taken only from PolarPos to SphericalPos or MathSphericalPos. User frames have no transformation until one is registered; NoFrame raises its own error.", "quantifier": "every list of registrations, every order of imports, every set of user rules and user classes, all argument classes", "why_tests_cant": "user classes and rules, import orders and class combinations are unbounded; ambiguity arises only for untested pairs", "anchors": ["src/coordinax/_src/vectors/d1/transform.py", "src/coordinax/_src/vectors/d2/transform.py", "src/coordinax/_src/vectors/d3/transform.py: represent_as", "src/coordinax/_src/vectors/transform/*.py", "src/coordinax/_src/vectors/dn/transform.py", "src/coordinax/_src/frames/xfm.py: frame_transform_op", "src/coordinax/_coordinax_space_frames/frame_transforms.py"]}
{"id": "C75", "title": "Which rule an operator call runs", "statement": "A call op(x) or op(x, t) runs the rule fixed by the classes of op and of the arguments: for every operator of the library, and every user subclass of one, and every tuple of positions, velocities, FourVectors and times, exactly one rule is selected and none of these calls is ambiguous. On a bare Quantity a call raises AmbiguousLookupError exactly for a GalileanOperator, and for a Pipe unless the Quantity has three components; with a time, exactly for these two classes on at most three components. The order of importing the operator modules makes no difference. An operator class of a user without rules raises NotFoundLookupError on positions and velocities; with a rule for positions only it is ambiguous on every FourVector, and a rule for FourVector cures that in either order of registration.", "quantifier": "all operators, pipelines of any length, all argument classes, user classes and rules, import orders", "why_tests_cant": "user classes, pipelines and import orders are unbounded; ambiguity arises only for untested pairs of classes", "anchors": ["src/coordinax/_src/operators/base.py: AbstractOperator.__call__", "src/coordinax/_src/operators/{identity,pipe,boost,compat}.py and galilean/*.py: call registrations"]}
{"id": "C76", "title": "Which rule from_ runs and what class it returns", "statement": "cls.from_(obj) of a vector class runs one rule fixed by cls and the class of obj; it is ambiguous for empty mappings only. A vector is returned as it is if it is a 3-D position (velocity, acceleration) and cls is any 3-D position (velocity, acceleration) class, or if its class is cls; an instance of a subclass is rebuilt as cls; any other vector raises TypeError. A Quantity makes cls for 1-D and N-D classes of the right dimension, for Cartesian 2-D classes with the right last axis, for CartesianGeneric3D and FourVector; every 3-D class that is not Cartesian makes the Cartesian class; 3-D accelerations recurse without end unless the last axis has three elements; other classes raise NotFoundLookupError. An object of an unknown class makes every 3-D class recurse without end and every other class raise NotFoundLookupError. Arrays with units and astropy Quantities act as the Quantity. Astropy representations are converted by the four position classes with a counterpart; every other 3-D position class, and every 3-D velocity class for differentials, returns the counterpart of the astropy class. User subclasses of any depth act as their base; the order of imports makes no difference, and the astropy module changes no call on other objects except empty mappings.", "quantifier": "all vector classes but Space, user subclasses of any depth, all argument classes, all recursion depths, all import orders", "why_tests_cant": "class pairs, user classes and import orders are unbounded; non-termination at every depth cannot be observed by a test", "anchors": ["src/coordinax/_src/vectors/base/base.py: AbstractVector.from_", "src/coordinax/_src/vectors/d3/constructor.py", "src/coordinax/_src/vectors/d{1,2,3,4,n}/*.py: from_", "src/coordinax/_interop/coordinax_interop_astropy/constructors.py"]}
{"id": "C77", "title": "Attributes of vectors, field filters and replace", "statement": "For any vector class with components and attributes (VectorAttribute): calling it returns an object exactly if every keyword is a field, every field without a default is given, and the converters accept the values; each field holds its converted value, the default where none is given. The default of an attribute goes through the converter twice, an argument once; an attribute without a default is required. cls.components, field_keys/field_items/field_values/asdict with AttrFilter, units, dtypes, shapes, sizes and devices list exactly the components in the order of declaration. replace and the shape operations (T, flatten, indexing, ...) apply the converter of every field again: with idempotent converters unchanged fields and all attributes stay as they are, replace without changes and +v return the same object; otherwise n calls of replace apply the converter n more times.", "quantifier": "all vector classes with any number of components and attributes, all converters and defaults, all keyword arguments, all component functions, any number of replace calls", "why_tests_cant": "user classes, converters and sequences of replace calls are unbounded", "anchors": ["src/coordinax/_src/vectors/base/attribute.py: VectorAttribute", "src/coordinax/_src/vectors/base/compat.py: fields, asdict, field_keys, field_values, field_items with AttrFilter", "src/coordinax/_src/vectors/base/base.py: components, units, dtypes, devices, shapes, sizes, T, mT, __getitem__, flatten, ravel, reshape", "src/coordinax/_src/vectors/base/flags.py: AttrFilter"]}
{"id": "C78", "title": "The graph of vector classes and the names of components", "statement": "differential_cls, integral_cls and _cartesian_cls of every vector class: which classes have them and which class they give; the derivative is one order up in the same dimension; the integral of the derivative is the class itself, except that LonCosLatSphericalVel leads to LonLatSphericalVel; the Cartesian class has the same order and dimension, is its own Cartesian class and commutes with derivatives and integrals. Classes that users derive at any depth inherit these from the nearest definition, so the round trip leads to the base in coordinax and not to the user's class. The abstract spherical classes give None instead of raising. A product with a time names the components of the result: for velocities d_k becomes k for every name, for accelerations d2_k becomes d_k exactly if k has no digit 2, times a squared time k exactly if k does not contain d2_; the names of all classes of coordinax fit, except LonCosLatSphericalVel.", "quantifier": "all vector classes, users' classes at any depth with or without own definitions, all component names", "why_tests_cant": "users' classes and component names are unbounded", "anchors": ["src/coordinax/_src/vectors/base/base_pos.py: differential_cls, _cartesian_cls", "src/coordinax/_src/vectors/base/base_vel.py: integral_cls, differential_cls, _mul_vel_q", "src/coordinax/_src/vectors/base/base_acc.py: integral_cls, _mul_acc_time, _mul_acc_time2", "src/coordinax/_src/vectors/d{1,2,3,4,n}/*.py: differential_cls, integral_cls, _cartesian_cls", "src/coordinax/_src/utils.py: classproperty"]}
{"id": "C79", "title": "Making operators and frames with from_", "statement": "cls.from_ of every operator class on any number of arguments of any classes finds exactly one implementation: an operator comes back as it is exactly if it is of the class cls itself, is rebuilt from its fields if it is of a subclass, and raises TypeError otherwise; a mapping is passed as keywords; an array and a unit string make a Quantity; a rotation object goes to rotation classes as a matrix; everything else is passed to the class. cls.from_ of a frame class returns frames of the class or a subclass as they are, raises for other frames, takes mappings, and takes an astropy frame only in the class of that name. The converters of fields: a boost keeps every velocity of any dimension and makes a CartesianVel3D of a Quantity; the galactic centre of a Galactocentric frame keeps every 3-D position and turns a Quantity into a CartesianPos3D, so that lon and lat exist only if a LonLatSphericalPos, a mapping or an astropy object was given; a translation takes a FourVector, a Quantity with a last axis of length three or four, and no position; the parts of a Galilean operator take operators of their own class only.", "quantifier": "all operator and frame classes, users' classes at any depth, any number of arguments of any classes", "why_tests_cant": "users' classes and the lengths of argument lists are unbounded, and every pair of class and argument has to be resolved", "anchors": ["src/coordinax/_src/operators/base.py: AbstractOperator.from_", "src/coordinax/_src/operators/galilean/rotation.py: from_", "src/coordinax/_src/operators/pipe.py: _converter_seq", "src/coordinax/_src/operators/galilean/{boost,translation,composite}.py: field converters", "src/coordinax/_src/frames/base.py: AbstractReferenceFrame.from_", "src/coordinax/_coordinax_space_frames/galactocentric.py: Galactocentric"]}
{"id": "C80", "title": "Dispatch of simplify_op", "statement": "simplify_op of one operator and of two operators of any classes, users' classes included, always finds exactly one rule: for two, an instance of Identity on the right is dropped first, then one on the left, then pipes are joined, then two operators of one of the five combining classes combine, and any other two make a Pipe. An operator whose class derives from none of the concrete classes comes back unchanged. For the operators of coordinax this dispatch is the simplification of C29. Simplifying a Pipe of any number of operators of any classes returns an operator that applies the same operators in the same order, combined or not, except instances of Identity and of users' subclasses of it. Once two neighbours did not combine, nothing after them does: the rest is appended. A Pipe of identities becomes a new Identity.", "quantifier": "all operator classes, users' classes at any depth, pipes of any length and nesting", "why_tests_cant": "pipes of any length with operators of any classes", "anchors": ["src/coordinax/_src/operators/register_simplify.py: simplify_op", "src/coordinax/_src/operators/boost.py: simplify_op", "src/coordinax/_src/operators/galilean/{boost,composite,rotation,spatial_translation,translation}.py: simplify_op"]}
{"id": "C81", "title": "Attributes of a FourVector", "statement": "w.name for a FourVector w: what FourVector and its base classes define is never taken from the spatial part; every other name, also the name of a property of w that raises AttributeError, is looked up on w.q with the result it has there; with a spatial part that does not forward names every lookup ends, and w has an attribute exactly if it or w.q has it. The components and attributes of every position class are none of the names that FourVector and its bases in coordinax define, so they are reachable on w. On a FourVector whose field q is not set yet, as copy and pickle make one, every name that its classes do not define, q included, recurses without end instead of raising AttributeError.", "quantifier": "every attribute name, every set of attributes of the FourVector, every spatial part, every number of lookup steps", "why_tests_cant": "a test asks for some names on some vectors; that lookups end for all names, and never end on unfinished objects, is about all names and unboundedly many steps", "anchors": ["src/coordinax/_src/vectors/d4/spacetime.py:FourVector.__getattr__", "src/coordinax/_src/vectors/base/base.py:AbstractVector"]}
{"id": "C82", "title": "Formats of the rich display", "statement": "vec._repr_mimebundle_(include, exclude) has exactly the formats asked for, each once, with what its method returns: those of include that are supported, whatever exclude is; without include those supported and not in exclude; without both all. It returns exactly if the methods of the formats asked for return: the others are not called. A string given as include asks for nothing, as exclude it excludes the formats whose name is a part of it.", "quantifier": "every include and exclude (absent, any list of strings, any string), any result or failure of the two methods", "why_tests_cant": "include and exclude are arbitrary sequences, with repetitions and unknown formats; tests have three calls", "anchors": ["src/coordinax/_src/vectors/base/mixins.py:IPythonReprMixin._repr_mimebundle_"]}
{"id": "C83", "title": "Parallaxes that may be negative", "statement": "Parallax(v, check_negative=False) takes every angle and keeps it; with the check exactly the negative ones are rejected. The distance of an unchecked parallax p is 1 AU / tan p, defined exactly where sin p and cos p are not 0, and negative for every p between -\u03c0/2 and 0. Going back from the distance to a parallax gives the angle between 0 and \u03c0 that differs from p by a multiple of \u03c0, so the round trip returns p exactly if p is between 0 and \u03c0; for small negative p it returns p + \u03c0 and raises nothing. The distance modulus of a small negative parallax is undefined.", "quantifier": "every angle, with and without the check", "why_tests_cant": "the claims are about all angles, also beyond half a turn; tests make one negative parallax and do not convert it", "anchors": ["src/coordinax/_src/distances/core.py:Parallax", "src/coordinax/_src/distances/core.py:Distance.parallax"]}
{"id": "C84", "title": "What the range checks accept", "statement": "check_less_than, check_less_than_equal, check_greater_than, check_greater_than_equal, check_non_negative, check_r_non_negative, check_non_negative_non_zero and check_polar_range return their argument unchanged, with its own shape and unit, exactly if the physical types agree and the relation holds between the physical values, whatever the units, at every place of the broadcast arrays where neither is NaN; otherwise they raise. The bounds are included exactly in the checks that say so; infinities are compared as such; NaN, as value or as limit, and arrays without elements pass every check.", "quantifier": "every array of any shape with finite numbers, infinities and NaN, every limit and broadcasting of the two, every physical type and units", "why_tests_cant": "the claims are about all values, shapes and pairs of units, and about every mixture of NaN, infinities and numbers in an array", "anchors": ["src/coordinax/_src/vectors/checks.py:check_less_than", "src/coordinax/_src/vectors/checks.py:check_less_than_equal", "src/coordinax/_src/vectors/checks.py:check_greater_than", "src/coordinax/_src/vectors/checks.py:check_greater_than_equal", "src/coordinax/_src/vectors/checks.py:check_non_negative", "src/coordinax/_src/vectors/checks.py:check_non_negative_non_zero", "src/coordinax/_src/vectors/checks.py:check_polar_range"]}
{"id": "C85", "title": "normalize_vector of arrays and Quantities", "statement": "normalize_vector of an array of shape (*batch, N): every row that is not 0 becomes the one row of length 1 of which it is a positive multiple; a row of zeros becomes NaN in every component, and no other component becomes NaN; each row depends on itself only. Positive factors, a different one for each row, change nothing, negative ones change the sign; exactly the rows of length 1 stay as they are, and normalizing twice is normalizing once. The result of a Quantity is dimensionless with the unit 1 and does not depend on the unit. For three components it agrees with normalize_vector of a CartesianPos3D.", "quantifier": "every batch, every number of components, all values, all units and physical types", "why_tests_cant": "N, the batch and the values are unbounded; tests normalize two rows of two components", "anchors": ["src/coordinax/_src/vectors/funcs.py:normalize_vector", "src/coordinax/_src/vectors/d3/cartesian.py:normalize_vector"]}
{"id": "C86", "title": "Operators keep free motion free: every operator is one Galilean operator", "statement": "Every operator with meaningful parameters (boost velocities Cartesian), however nested, acts on (position, time) as one affine map (x, t) -> (R x + t v + d, t + tau) whose four parameters belong to the operator alone; R is orthogonal if the rotations inside are. A single GalileanOperator with a Cartesian translation and boost does the same to every position and time. A particle in free motion x0 + t u stays in free motion, with the velocity R u + v, whatever class its positions are given in, and relative speeds of particles are unchanged when the rotations are orthogonal: this is what is_inertial=True promises.", "quantifier": "all operators and nestings of pipes, all parameters, all 3-D positions of all classes, all times, all straight motions", "why_tests_cant": "a motion is an infinite set of events and pipes nest without bound; tests apply one operator to one event and only read is_inertial", "anchors": ["src/coordinax/_src/operators/base.py:AbstractOperator.is_inertial", "src/coordinax/_src/operators/pipe.py:Pipe", "src/coordinax/_src/operators/galilean/composite.py:GalileanOperator"]}
{"id": "C87", "title": "GalileanRotation from Euler angles and from arrays", "statement": "GalileanRotation.from_euler(seq, angles) with one to three axis letters, all small or all capital, no equal neighbours, and one angle per letter makes the textbook rotation: small letters turn about the fixed axes one after the other, capitals about the moving axes, which is the fixed axes in the opposite order. Any other sequence, and a Quantity that is not an angle, raises. The result is always orthogonal with determinant 1; it depends on the angles only, not on their units; about z it adds the angle to the azimuth (likewise about x and y); its inverse has the letters in the other case and the opposite angles. The constructor takes the matrix of an array or of another GalileanRotation, and of a dimensionless Quantity in the unit 1; other Quantities raise, and no matrix is refused for not being orthogonal.", "quantifier": "all sequences of characters, all angles in all units, all matrices, all points", "why_tests_cant": "the doctests try one angle of 90 degrees about z", "anchors": ["src/coordinax/_src/operators/galilean/rotation.py:GalileanRotation.from_euler", "src/coordinax/_src/operators/galilean/rotation.py:converter"]}
