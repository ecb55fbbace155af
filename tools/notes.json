{
 "C01": {
  "note": "Parallaxes restricted to (0,90) deg; C01_obtuse_parallax_changes_point shows why."
 },
 "C02": {
  "note": "TwoSpherePos never converts (C09_twoSphere_never_returns); which calls return is C09_returns_iff"
 },
 "C03": {
  "note": "A Parallax/DistanceModulus radial field may come back as the Distance it stands for (same length); with Distance fields components are identical."
 },
 "C04": {
  "note": "exact equality of components with Distance fields; a Parallax or DistanceModulus may become the Distance it stands for"
 },
 "C05": {
  "note": "any keyword arguments, raising and lowering the dimension included"
 },
 "C06": {
  "note": "Acceptance is exact and plain quantities are reduced; C06_angle_not_wrapped proves an Angle argument is stored as is."
 },
 "C07": {
  "note": "no hypotheses on the inputs; over the reals (for rounding see C72)"
 },
 "C08": {
  "note": "C08_lonlat_from_iff gives the exact accepted set; C08_lonlat_from_in_range the denoted point. The unrestricted claim (every latitude) is false: C08_rejects."
 },
 "C09": {
  "note": "C09_returns_iff is an equivalence. The unrestricted claim is false at the origin (NaN), at prolate foci, for TwoSpherePos (unbounded recursion at every fuel) and negative 1-D to RadialPos."
 },
 "C10": {
  "note": "off the foci, where the conversion is NaN (C10_focus_is_nan)"
 },
 "C11": {
  "note": "any keyword arguments other than Delta; lower-dimensional sources raise even with Delta (C11_lower_dimension)"
 },
 "C12": {
  "note": "C12_raising_returns_iff, C12_raising_exact, C12_up_and_down_exact characterise every source/target pair. The unrestricted claim is false for polar/1-D sources to SphericalPos/MathSphericalPos (default inclination 0): C12_polar_to_sph_moves."
 },
 "C13": {
  "note": "C13_returns_iff, C13_lowering_exact characterise every source/target pair. The unrestricted claim is false for CylindricalPos -> RadialPos and SphericalPos(Parallax) -> PolarPos."
 },
 "C14": {
  "note": "TwoSpherePos excluded: it has no Cartesian form"
 },
 "C15": {
  "note": "C15_add_sub (what), C15_returns_iff (exactly when)."
 },
 "C16": {
  "note": "C16_negation, C16_involution (what), C16_returns_iff (exactly when)."
 },
 "C17": {
  "note": "C17_scaling_exact (what), C17_returns_iff (exactly when). The unrestricted claim is false for negative scalars and parallaxes on PolarPos/MathSphericalPos."
 },
 "C18": {
  "note": "C18_division_iff (exact value and return condition), C18_right_iff (exactly when this is the geometric quotient). The unrestricted claim is false for every class with an angle: C18_angles_divided."
 },
 "C19": {
  "note": "C19_velocity_preserved and C19_trajectory cover every class pair and non-singular valid position outside the four named exceptions, each of which has its own theorem."
 },
 "C20": {
  "note": "C20_path_independent, C20_round_trip; the exceptions are those of C19."
 },
 "C21": {
  "note": "all classes, whenever one conversion at the position returns"
 },
 "C22": {
  "note": "The real-number model raises at the poles; in floating point cos(90 deg) is about 6e-17 and the quotient is huge instead."
 },
 "C23": {
  "note": "C23_speed, with C23_two_dimensions_raise and C23_prolate_raises for the exceptions."
 },
 "C24": {
  "note": "C24_exact (equivalence along any motion), C24_to_cartesian_iff, C24_first_order, C24_ignores_velocity. The claim one would like (physical acceleration preserved) is false: C24_circular_motion_wrong.."
 },
 "C25": {
  "note": "Cartesian classes fully; field mapping for every class whenever it returns; the failing classes are listed in C25_vel_times_raises."
 },
 "C26": {
  "note": "positive lengths; parallax in (0, 90) deg; C26_domain says where each conversion is undefined"
 },
 "C27": {
  "note": "Exact: C27_inverse_undoes and C27_inverse_returns_iff; C27_curvilinear_boost_fails is the notable exception."
 },
 "C28": {
  "note": "Exact: C28_or_returns_iff, C28_velocity_exact."
 },
 "C29": {
  "note": "Exact: C29_simplify_iff. C29_rotations_swapped, C29_small_dropped and C29_planar_raises are the surprising cases."
 },
 "C30": {
  "note": "rotation matrix is stored as given: orthogonality is a hypothesis of the isometry only"
 },
 "C31": {
  "note": "Exact: C31_call_exact."
 },
 "C32": {
  "note": "Rejected inputs: C32_vboost_other_raises, C32_twoSphere_raises, C32_prolate_raises."
 },
 "C33": {
  "note": "Rejected input: C33_position_vector_alone_raises."
 },
 "C34": {
  "note": "Domain 0 < distance, |z_sun| <= distance, distance given as a length; outside it no transform exists (C34_undefined). Rotation.from_euler is modelled as the intrinsic rotation matrices."
 },
 "C35": {
  "note": "frames with 0 < distance and |z_sun| <= distance, elsewhere the transform is NaN (C34_undefined)"
 },
 "C36": {
  "note": "Rejected input: C36_position_alone_raises."
 },
 "C37": {
  "note": "Round trip stated through the physical value and the original units; unit scales are positive reals."
 },
 "C38": {
  "note": "units as exact positive factors per dimension"
 },
 "C39": {
  "note": "Cartesian classes of 1 to 3 dimensions with arrays of any shape, N-dimensional positions. Exceptions proved: C39_extra_entries_dropped, C39_nd_velocity_raises."
 },
 "C40": {
  "note": "Conversion for any number of entries; construction exactly (C40_construct_exact). Exceptions: C40_duplicates_accepted, C40_alias_key_raises."
 },
 "C41": {
  "note": "Exact (C41_round_trip_iff); witnesses of the two failures: C41_negative_wrong, C41_zero_wrong."
 },
 "C42": {
  "note": "Exact: C42_arithmetic_returns_iff, C42_norm2_iff, C42_to_from_quantity_exact."
 },
 "C43": {
  "note": "Exact conditions: C43_T_iff (no empty axes), C43_mT_iff, C43_flatten_iff, C43_space_getitem_exact, C43_nd_mT with C43_nd_mT_raises. Witnesses of the failures: C43_T_mixed_wrong, C43_T_mixed_raises, C43_mT_mixed_raises, C43_flatten_mixed_wrong, C43_flatten_mixed_raises, C43_nd_mT_raises, C43_nd_ravel_wrong, C43_nd_getitem_wrong, C43_space_mixed_raises."
 },
 "C44": {
  "note": "C44_returns_iff, C44_true_same_point, C44_equality_exact. The unrestricted claim is false for prolate operands and mixed distance classes: negations proved."
 },
 "C45": {
  "note": "Exact for positions (C45_round_trip_iff). Astropy's own represent_as is a hypothesis (AstropyOk). Exceptions: C45_parallax_raises, C45_angle_reduced, C45_convert_wrong_class, C45_from_other_class, C45_velocity_from_other_class."
 },
 "C46": {
  "note": "CartesianPos3D only, the code has no rule for other classes; arrays in C58"
 },
 "C47": {
  "note": "Exact (C47_negation_iff, C47_negation_returns_iff); a witness of the failure: C47_spherical_wrong. Velocities where their class is regular; TwoSphereVel stands for no motion in space."
 },
 "C48": {
  "note": "every sign and every value of the keywords; C48_keywords_returns is the exact condition for a result"
 },
 "C49": {
  "note": "Elements: full. Returning: exact (C49_returns_iff) for non-empty batches; the shapes that fail include C49_polar_to_spherical_raises and C49_prolate_mixed_raises."
 },
 "C50": {
  "note": "Both directions, all classes."
 },
 "C51": {
  "note": "Full; C51_from_vector characterises from_ of vectors, C51_from_vector_wrong_class shows the exception."
 },
 "C52": {
  "note": "Exact: when each operation returns and what. Positions' norm is C20/C06 (Arith); radial classes have no +, -. CartesianVel1D/2D and Acc2D have no -, Vel3D/Acc3D no scalar product, as C52_sub_returns and C52_scale state."
 },
 "C53": {
  "note": "Also shows the surprises: a 1-dimensional operand is added to every component (C53_dimension_mismatch), == keeps the component axis (C53_eq), times of shape (F,) multiply components, not batch elements (C53_times)."
 },
 "C54": {
  "note": "Full characterisation; composite operators raise on Quantities with a time (C54_composite_raises), a GalileanOperator on every Quantity: plum finds two applicable rules. Low dimensions are shown for each operator, not for nested ones, since composites raise there."
 },
 "C55": {
  "note": "A lone velocity as argument is excluded (finding 19). Slices with a step are not modelled."
 },
 "C56": {
  "note": "-GalileanRotation is -R, never the inverse (C56_neg_rotation); boosts drop extra numbers (C56_boost_drops_components). jax.scipy Rotation.from_euler is trusted. from_ of rotations from arrays is not modelled."
 },
 "C57": {
  "note": "Same shape: full, elements (C57_elementwise, C57_acceleration_elementwise) and returning (C57_returns, C57_acceleration_returns). Broadcasting between velocity and position: C57_size_mismatch_raises, C57_mismatched_shapes_return. Delta is a single number; keyword arguments too."
 },
 "C58": {
  "note": "Elements: full for every operation. Returning: full for -, s *, / and norm; exact for + and - (C58_add_sub_returns_iff, C58_cartesian_shapes), == (C58_eq_returns_iff) and p * q (C58_product_returns_iff), for non-empty batches. numpy broadcasting of operands of different rank is false: C58_add_sub_shapes, C58_product_shapes, C58_scale_array_raises; == for prolate positions raises: C58_prolate_eq_raises. Lengths in AU, angles in radians."
 },
 "C59": {
  "note": "Full for the listed functions. Exact reals; unxt rules for plain Quantities are trusted (see DESIGN.md section 4). The one dependence on the unit is stated and proved: C59_modulus_needs_mag."
 },
 "C60": {
  "note": "Elements: full, except pairs (position, velocity) through a spatial translation, where the claim is false for a batch (C60_pair_batch_raises, C60_pair_square_wrong) and proved for a single pair (C60_pair_single_elementwise, C60_pair_single_returns). Returning: exact (C60_returns_iff), and the common case spelled out (C60_returns_uniform); non-empty batches."
 },
 "C61": {
  "note": "Every exception is characterised: prolate to prolate (C61_prolate_to_prolate, raises when the units differ), ProlateSpheroidalVel to another class and ProlateSpheroidalAcc (C61_prolate_velocity_raises, C61_prolate_acceleration_raises: raise in any units). Scalar components; unxt's unit rules are trusted."
 },
 "C62": {
  "note": "Scalar components and scalars without units. The raising cases (different units for -, low-dimensional + and ==) are characterised exactly; unxt's unit rules and jax.tree.map's structure check are trusted."
 },
 "C63": {
  "note": "Scalar content is C42 and C58; here at every index of a batch. A norm is complex in the code; real and imaginary part are returned. NaN entries: the elementwise statements hold at indices whose entries are numbers, the round trip also at NaN entries. Not covered: from_ of three components (t, q, c), units (C51/C61 for the parts)."
 },
 "C64": {
  "note": "positions, velocities, accelerations and N-dimensional vectors; FourVector and what JAX does before it reaches the primitive are not covered; a position is any vector its own constructor accepts"
 },
 "C65": {
  "note": "entries are vectors of 1 to 3 dimensions; reshape of a Space raises in the code (it needs Space.components) and is not modelled; T for mixed ranks: sufficient condition and a counterexample"
 },
 "C66": {
  "note": "the two exceptions are proved as exact conditions (C66_velocity_boost_iff, C66_low_dimension)"
 },
 "C67": {
  "note": "the dependence on units is itself a theorem (C67_depends_on_units), and the condition for dropping a translation is exact (C67_dropped_iff)"
 },
 "C68": {
  "note": "prolate spheroidal velocities are left out of the arguments: they convert to no other class (C61_prolate_velocity_raises)"
 },
 "C69": {
  "note": "the bounds hold for non-negative tolerances; the exact description C69_acts for all"
 },
 "C70": {
  "note": "prolate spheroidal positions need mu in the square of the unit of Delta, as in C61"
 },
 "C71": {
  "note": "conversion is for entries of one batch shape (components within it may broadcast); to Poincar\u00e9 polar vectors for positions whose components all have the batch shape"
 },
 "C72": {
  "note": "prolate spheroidal targets are only covered by C72_ranges (what is returned is in range); overflow and signed zeros are not modelled"
 },
 "C73": {
  "note": "signed zeros and overflow are not modelled"
 },
 "C74": {
  "note": "plum's Resolver is modelled from its documented algorithm (not in /repo); its cache and deferred annotations are not. C74_positions/velocities/accelerations/frames tie the tables to represent, representVel, representAcc and frameTransformOp"
 },
 "C75": {
  "note": "plum's Resolver as in C74. C75_call, C75_quantity and C75_quantity_time tie the table to Op.call and Op.callQ, so every earlier theorem on operator calls is about the dispatched rule"
 },
 "C76": {
  "note": "plum's Resolver as in C74; a mapping is known by the type of the entry that the type check inspects. Made.new c r is a call of the class c with the components rule r takes: what the constructor then accepts is C06, C39, C50. C76_model ties the table to fromVec (C51). Space.from_ is not covered"
 },
 "C77": {
  "note": "The generated __init__ and dataclassish without a filter are trusted; __check_init__ is C06. Which error is raised when several fields fail is not stated"
 },
 "C78": {
  "note": "classproperty is modelled as a lookup along the bases. Users' definitions are constants, not functions of the class that is asked"
 },
 "C79": {
  "note": "Only which implementation runs and what it is called with is modelled; what the constructors called at the end check is not part of it. The astropy rules raise for frames with data, which is not modelled"
 },
 "C80": {
  "note": "For operators of any class the sums of parameters are kept as terms, so that the theorem says which operators are combined in which order; that the combination acts as the two is C29 for the operators of coordinax. Keyword arguments are those of C69"
 },
 "C81": {
  "note": "Names of the base classes outside coordinax (quax, equinox, object) are a parameter: the list of attributes of w. That copy and pickle ask an object without fields for __setstate__ is CPython's, and is not modelled"
 },
 "C82": {
  "note": "The texts themselves are parameters"
 },
 "C83": {
  "note": "Scalars, real arithmetic: at p = 0 the program returns inf, here an undefined result"
 },
 "C84": {
  "note": "No rounding in the conversion of the limit; a broadcasting is any set of pairs of places. That the classes call these checks is in C06 and C60"
 },
 "C85": {
  "note": "Real arithmetic: overflow and underflow of the norm are not modelled"
 },
 "C86": {
  "note": "Results of non-Cartesian classes: whenever the calls return (C27 and C31 say when they do)"
 },
 "C87": {
  "note": "The quaternion arithmetic of jax.scipy's Rotation is modelled from knowledge of that library (its source is not in the sandbox). Batches of angles, and a number of angles other than the number of letters, are outside the model"
 }
}