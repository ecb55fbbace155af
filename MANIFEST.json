{
 "claims": [
  {
   "property": "C01",
   "status": "proved",
   "theorems": [
    "Verif.Props.C01_conversion_preserves_point",
    "Verif.Props.C01_obtuse_parallax_changes_point"
   ],
   "note": "Parallaxes restricted to (0,90) deg; C01_obtuse_parallax_changes_point shows why."
  },
  {
   "property": "C02",
   "status": "proved",
   "theorems": [
    "Verif.Props.C02_conversion_preserves_point"
   ],
   "note": "TwoSpherePos never converts (C09_twoSphere_never_returns); which calls return is C09_returns_iff"
  },
  {
   "property": "C03",
   "status": "proved",
   "theorems": [
    "Verif.Props.C03_round_trip"
   ],
   "note": "A Parallax/DistanceModulus radial field may come back as the Distance it stands for (same length); with Distance fields components are identical."
  },
  {
   "property": "C04",
   "status": "proved",
   "theorems": [
    "Verif.Props.C04_path_independent",
    "Verif.Props.C04_path_exists"
   ],
   "note": "exact equality of components with Distance fields; a Parallax or DistanceModulus may become the Distance it stands for"
  },
  {
   "property": "C05",
   "status": "proved",
   "theorems": [
    "Verif.Props.C05_result_in_range"
   ],
   "note": "any keyword arguments, raising and lowering the dimension included"
  },
  {
   "property": "C06",
   "status": "proved",
   "theorems": [
    "Verif.C06_batches",
    "Verif.Props.C06_constructors",
    "Verif.Props.C06_angle_not_wrapped"
   ],
   "note": "Acceptance is exact and plain quantities are reduced; C06_angle_not_wrapped proves an Angle argument is stored as is."
  },
  {
   "property": "C07",
   "status": "proved",
   "theorems": [
    "Verif.Props.C07_from_normalises"
   ],
   "note": "no hypotheses on the inputs; over the reals (for rounding see C72)"
  },
  {
   "property": "C08",
   "status": "proved",
   "theorems": [
    "Verif.Props.C08_lonlat_from_in_range",
    "Verif.Props.C08_rejects",
    "Verif.Props.C08_lonlat_from_iff"
   ],
   "note": "C08_lonlat_from_iff gives the exact accepted set; C08_lonlat_from_in_range the denoted point. The unrestricted claim (every latitude) is false: C08_rejects."
  },
  {
   "property": "C09",
   "status": "proved",
   "theorems": [
    "Verif.Props.C09_conversion_total",
    "Verif.Props.C09_origin_is_nan",
    "Verif.Props.C09_twoSphere_never_returns",
    "Verif.Props.C09_negative_cart1_rejected",
    "Verif.Props.C09_returns_iff"
   ],
   "note": "C09_returns_iff is an equivalence. The unrestricted claim is false at the origin (NaN), at prolate foci, for TwoSpherePos (unbounded recursion at every fuel) and negative 1-D to RadialPos."
  },
  {
   "property": "C10",
   "status": "proved",
   "theorems": [
    "Verif.Props.C10_prolate_inverts",
    "Verif.Props.C10_focus_is_nan"
   ],
   "note": "off the foci, where the conversion is NaN (C10_focus_is_nan)"
  },
  {
   "property": "C11",
   "status": "proved",
   "theorems": [
    "Verif.Props.C11_prolate_needs_delta",
    "Verif.Props.C11_lower_dimension"
   ],
   "note": "any keyword arguments other than Delta; lower-dimensional sources raise even with Delta (C11_lower_dimension)"
  },
  {
   "property": "C12",
   "status": "proved",
   "theorems": [
    "Verif.Props.C12_raising_returns_iff",
    "Verif.Props.C12_raising_exact",
    "Verif.Props.C12_up_and_down_exact",
    "Verif.Props.C12_raising_embeds",
    "Verif.Props.C12_raising_returns",
    "Verif.Props.C12_up_and_down",
    "Verif.Props.C12_polar_to_sph_moves"
   ],
   "note": "C12_raising_returns_iff, C12_raising_exact, C12_up_and_down_exact characterise every source/target pair. The unrestricted claim is false for polar/1-D sources to SphericalPos/MathSphericalPos (default inclination 0): C12_polar_to_sph_moves."
  },
  {
   "property": "C13",
   "status": "proved",
   "theorems": [
    "Verif.Props.C13_returns_iff",
    "Verif.Props.C13_lowering_exact",
    "Verif.Props.C13_lowering_projects",
    "Verif.Props.C13_class_independent",
    "Verif.Props.C13_radial_is_norm",
    "Verif.Props.C13_cyl_radial_drops_height",
    "Verif.Props.C13_parallax_polar_wrong"
   ],
   "note": "C13_returns_iff, C13_lowering_exact characterise every source/target pair. The unrestricted claim is false for CylindricalPos -> RadialPos and SphericalPos(Parallax) -> PolarPos."
  },
  {
   "property": "C14",
   "status": "proved",
   "theorems": [
    "Verif.Props.C14_norm_is_euclidean",
    "Verif.Props.C14_norm_class_independent"
   ],
   "note": "TwoSpherePos excluded: it has no Cartesian form"
  },
  {
   "property": "C15",
   "status": "proved",
   "theorems": [
    "Verif.Props.C15_add_sub",
    "Verif.Props.C15_add_sub_return",
    "Verif.Props.C15_prolate_fails",
    "Verif.Props.C15_returns_iff"
   ],
   "note": "C15_add_sub (what), C15_returns_iff (exactly when)."
  },
  {
   "property": "C16",
   "status": "proved",
   "theorems": [
    "Verif.Props.C16_negation",
    "Verif.Props.C16_negation_returns",
    "Verif.Props.C16_radial_fails",
    "Verif.Props.C16_involution",
    "Verif.Props.C16_returns_iff"
   ],
   "note": "C16_negation, C16_involution (what), C16_returns_iff (exactly when)."
  },
  {
   "property": "C17",
   "status": "proved",
   "theorems": [
    "Verif.Props.C17_scaling",
    "Verif.Props.C17_left_right",
    "Verif.Props.C17_scaling_returns",
    "Verif.Props.C17_negative_rejected",
    "Verif.Props.C17_parallax_wrong",
    "Verif.Props.C17_returns_iff",
    "Verif.Props.C17_scaling_exact"
   ],
   "note": "C17_scaling_exact (what), C17_returns_iff (exactly when). The unrestricted claim is false for negative scalars and parallaxes on PolarPos/MathSphericalPos."
  },
  {
   "property": "C18",
   "status": "proved",
   "theorems": [
    "Verif.Props.C18_division",
    "Verif.Props.C18_angles_divided",
    "Verif.Props.C18_division_iff",
    "Verif.Props.C18_right_iff"
   ],
   "note": "C18_division_iff (exact value and return condition), C18_right_iff (exactly when this is the geometric quotient). The unrestricted claim is false for every class with an angle: C18_angles_divided."
  },
  {
   "property": "C19",
   "status": "proved",
   "theorems": [
    "Verif.C19_velocity_preserved",
    "Verif.C19_cartVel_is_derivative",
    "Verif.C19_trajectory",
    "Verif.C19_prolate_source_raises",
    "Verif.C19_lonCosLat_to_prolate_raises",
    "Verif.C19_twoSphere_raises",
    "Verif.C19_prolate_self_ignores_delta"
   ],
   "note": "C19_velocity_preserved and C19_trajectory cover every class pair and non-singular valid position outside the four named exceptions, each of which has its own theorem."
  },
  {
   "property": "C20",
   "status": "proved",
   "theorems": [
    "Verif.C20_path_independent",
    "Verif.C20_round_trip"
   ],
   "note": "C20_path_independent, C20_round_trip; the exceptions are those of C19."
  },
  {
   "property": "C21",
   "status": "proved",
   "theorems": [
    "Verif.C21_linear",
    "Verif.C21_domain",
    "Verif.C21_zero"
   ],
   "note": "all classes, whenever one conversion at the position returns"
  },
  {
   "property": "C22",
   "status": "proved",
   "theorems": [
    "Verif.C22_factor",
    "Verif.C22_defined_iff",
    "Verif.C22_round_trip"
   ],
   "note": "The real-number model raises at the poles; in floating point cos(90 deg) is about 6e-17 and the quotient is huge instead."
  },
  {
   "property": "C23",
   "status": "proved",
   "theorems": [
    "Verif.C23_speed",
    "Verif.C23_two_dimensions_raise",
    "Verif.C23_prolate_raises"
   ],
   "note": "C23_speed, with C23_two_dimensions_raise and C23_prolate_raises for the exceptions."
  },
  {
   "property": "C24",
   "status": "proved",
   "theorems": [
    "Verif.C24_exact",
    "Verif.C24_to_cartesian_iff",
    "Verif.C24_first_order",
    "Verif.C24_at_rest",
    "Verif.C24_ignores_velocity",
    "Verif.C24_circular_motion_wrong",
    "Verif.C24_prolate_raises",
    "Verif.C24_twoSphere_raises",
    "Verif.C24_cartesian_self"
   ],
   "note": "C24_exact (equivalence along any motion), C24_to_cartesian_iff, C24_first_order, C24_ignores_velocity. The claim one would like (physical acceleration preserved) is false: C24_circular_motion_wrong.."
  },
  {
   "property": "C25",
   "status": "proved",
   "theorems": [
    "Verif.C25_vel_times_cartesian",
    "Verif.C25_acc_times",
    "Verif.C25_acc_times_sq_cartesian",
    "Verif.C25_acc_times_twice",
    "Verif.C25_vel_times_fields",
    "Verif.C25_vel_times_raises"
   ],
   "note": "Cartesian classes fully; field mapping for every class whenever it returns; the failing classes are listed in C25_vel_times_raises."
  },
  {
   "property": "C26",
   "status": "proved",
   "theorems": [
    "Verif.C26_same_length",
    "Verif.C26_denotes_unique",
    "Verif.C26_round_trips",
    "Verif.C26_from_agrees",
    "Verif.C26_monotone",
    "Verif.C26_domain"
   ],
   "note": "positive lengths; parallax in (0, 90) deg; C26_domain says where each conversion is undefined"
  },
  {
   "property": "C27",
   "status": "proved",
   "theorems": [
    "Verif.C27_inverse_undoes",
    "Verif.C27_inverse_returns_iff",
    "Verif.C27_inverse_undoes_cartesian",
    "Verif.C27_inverse_returns_cartesian",
    "Verif.C27_curvilinear_boost_fails"
   ],
   "note": "Exact: C27_inverse_undoes and C27_inverse_returns_iff; C27_curvilinear_boost_fails is the notable exception."
  },
  {
   "property": "C28",
   "status": "proved",
   "theorems": [
    "Verif.C28_or_returns_iff",
    "Verif.C28_velocity_exact",
    "Verif.C28_pipe_left_to_right",
    "Verif.C28_or_is_composition",
    "Verif.C28_or_assoc",
    "Verif.C28_or_pipe_raises",
    "Verif.C28_identity_neutral",
    "Verif.C28_velocity_pipe_raises"
   ],
   "note": "Exact: C28_or_returns_iff, C28_velocity_exact."
  },
  {
   "property": "C29",
   "status": "proved",
   "theorems": [
    "Verif.C29_simplify_acts_alike",
    "Verif.C29_simplify_cartesian",
    "Verif.C29_simplify_returns",
    "Verif.C29_rotations_swapped",
    "Verif.C29_rotations_swapped_example",
    "Verif.C29_small_dropped",
    "Verif.C29_dropped_is_small",
    "Verif.C29_planar_raises",
    "Verif.C29_simplify_iff",
    "Verif.C29_simplify_any_class",
    "Verif.C29_pipe_simplified",
    "Verif.C29_boost_simplify"
   ],
   "note": "Exact: C29_simplify_iff. C29_rotations_swapped, C29_small_dropped and C29_planar_raises are the surprising cases."
  },
  {
   "property": "C30",
   "status": "proved",
   "theorems": [
    "Verif.C30_distances_preserved_any",
    "Verif.C30_galilean_affine",
    "Verif.C30_galilean_returns",
    "Verif.C30_distances_preserved"
   ],
   "note": "rotation matrix is stored as given: orthogonality is a hypothesis of the isometry only"
  },
  {
   "property": "C31",
   "status": "proved",
   "theorems": [
    "Verif.C31_four_vector",
    "Verif.C31_call_exact",
    "Verif.C31_move_is_act",
    "Verif.C31_same_point",
    "Verif.C31_class_independent",
    "Verif.C31_like_cartesian",
    "Verif.C31_prolate_fails"
   ],
   "note": "Exact: C31_call_exact."
  },
  {
   "property": "C32",
   "status": "proved",
   "theorems": [
    "Verif.C32_velocity_boost",
    "Verif.C32_vboost_other_raises",
    "Verif.C32_translation_keeps_velocity",
    "Verif.C32_translation_inverse",
    "Verif.C32_twoSphere_raises",
    "Verif.C32_prolate_raises"
   ],
   "note": "Rejected inputs: C32_vboost_other_raises, C32_twoSphere_raises, C32_prolate_raises."
  },
  {
   "property": "C33",
   "status": "proved",
   "theorems": [
    "Verif.C33_round_trip",
    "Verif.C33_round_trip_vectors",
    "Verif.C33_position_vector_alone_raises"
   ],
   "note": "Rejected input: C33_position_vector_alone_raises."
  },
  {
   "property": "C34",
   "status": "proved",
   "theorems": [
    "Verif.C34_landmarks",
    "Verif.C34_roll",
    "Verif.C34_undefined"
   ],
   "note": "Domain 0 < distance, |z_sun| <= distance, distance given as a length; outside it no transform exists (C34_undefined). Rotation.from_euler is modelled as the intrinsic rotation matrices."
  },
  {
   "property": "C35",
   "status": "proved",
   "theorems": [
    "Verif.C35_rigid",
    "Verif.C35_orientation"
   ],
   "note": "frames with 0 < distance and |z_sun| <= distance, elsewhere the transform is NaN (C34_undefined)"
  },
  {
   "property": "C36",
   "status": "proved",
   "theorems": [
    "Verif.C36_composition",
    "Verif.C36_any_class",
    "Verif.C36_no_frame",
    "Verif.C36_position_alone_raises",
    "Verif.C36_pipe_positions",
    "Verif.C36_inverse_undoes",
    "Verif.C36_inverse_is_reverse"
   ],
   "note": "Rejected input: C36_position_alone_raises."
  },
  {
   "property": "C37",
   "status": "proved",
   "theorems": [
    "Verif.C37_physical_value",
    "Verif.C37_units_asked",
    "Verif.C37_returns",
    "Verif.C37_idempotent",
    "Verif.C37_round_trip"
   ],
   "note": "Round trip stated through the physical value and the original units; unit scales are positive reals."
  },
  {
   "property": "C38",
   "status": "proved",
   "theorems": [
    "Verif.C38_first_unit",
    "Verif.C38_consistent"
   ],
   "note": "units as exact positive factors per dimension"
  },
  {
   "property": "C39",
   "status": "proved",
   "theorems": [
    "Verif.C39_to_quantity",
    "Verif.C39_round_trip",
    "Verif.C39_round_trip_exact",
    "Verif.C39_from_quantity",
    "Verif.C39_extra_entries_dropped",
    "Verif.C39_wrong_length_rejected",
    "Verif.C39_nd",
    "Verif.C39_nd_velocity_raises",
    "Verif.C39_scalar",
    "Verif.C39_noncartesian"
   ],
   "note": "Cartesian classes of 1 to 3 dimensions with arrays of any shape, N-dimensional positions. Exceptions proved: C39_extra_entries_dropped, C39_nd_velocity_raises."
  },
  {
   "property": "C40",
   "status": "proved",
   "theorems": [
    "Verif.C40_construct_exact",
    "Verif.C40_constructed_ok",
    "Verif.C40_construct",
    "Verif.C40_duplicates_accepted",
    "Verif.C40_shapes_rejected",
    "Verif.C40_alias_key_raises",
    "Verif.C40_represent_as",
    "Verif.C40_phase_space",
    "Verif.C40_represent_as_returns",
    "Verif.C40_no_position_raises"
   ],
   "note": "Conversion for any number of entries; construction exactly (C40_construct_exact). Exceptions: C40_duplicates_accepted, C40_alias_key_raises."
  },
  {
   "property": "C41",
   "status": "proved",
   "theorems": [
    "Verif.C41_round_trip_iff",
    "Verif.C41_round_trip",
    "Verif.C41_negative_wrong",
    "Verif.C41_zero_wrong"
   ],
   "note": "Exact (C41_round_trip_iff); witnesses of the two failures: C41_negative_wrong, C41_zero_wrong."
  },
  {
   "property": "C42",
   "status": "proved",
   "theorems": [
    "Verif.C42_arithmetic",
    "Verif.C42_arithmetic_returns",
    "Verif.C42_norm2",
    "Verif.C42_norm2_units_fail",
    "Verif.C42_norm_is_root",
    "Verif.C42_from_to_quantity",
    "Verif.C42_to_from_quantity",
    "Verif.C42_other_c_changes_time",
    "Verif.C42_rotation_drops_c",
    "Verif.C42_arithmetic_returns_iff",
    "Verif.C42_norm2_iff",
    "Verif.C42_to_from_quantity_exact"
   ],
   "note": "Exact: C42_arithmetic_returns_iff, C42_norm2_iff, C42_to_from_quantity_exact."
  },
  {
   "property": "C43",
   "status": "proved",
   "theorems": [
    "Verif.C43_row_major",
    "Verif.C43_shape",
    "Verif.C43_getitem",
    "Verif.C43_reshape",
    "Verif.C43_T_same_rank",
    "Verif.C43_mT_same_rank",
    "Verif.C43_flatten_full_or_single",
    "Verif.C43_T_mixed_wrong",
    "Verif.C43_T_mixed_raises",
    "Verif.C43_mT_mixed_raises",
    "Verif.C43_flatten_mixed_wrong",
    "Verif.C43_flatten_mixed_raises",
    "Verif.C43_T",
    "Verif.C43_T_iff",
    "Verif.C43_mT_iff",
    "Verif.C43_flatten_iff",
    "Verif.C43_space_getitem_exact",
    "Verif.C43_nd_T",
    "Verif.C43_nd_mT",
    "Verif.C43_nd_mT_raises",
    "Verif.C43_nd_flatten",
    "Verif.C43_nd_reshape",
    "Verif.C43_nd_ravel_wrong",
    "Verif.C43_nd_getitem",
    "Verif.C43_nd_getitem_wrong",
    "Verif.C43_space_getitem",
    "Verif.C43_space_mixed_raises"
   ],
   "note": "Exact conditions: C43_T_iff (no empty axes), C43_mT_iff, C43_flatten_iff, C43_space_getitem_exact, C43_nd_mT with C43_nd_mT_raises. Witnesses of the failures: C43_T_mixed_wrong, C43_T_mixed_raises, C43_mT_mixed_raises, C43_flatten_mixed_wrong, C43_flatten_mixed_raises, C43_nd_mT_raises, C43_nd_ravel_wrong, C43_nd_getitem_wrong, C43_space_mixed_raises."
  },
  {
   "property": "C44",
   "status": "proved",
   "theorems": [
    "Verif.Props.C44_equality",
    "Verif.Props.C44_refl",
    "Verif.Props.C44_prolate_focal",
    "Verif.Props.C44_prolate_error",
    "Verif.Props.C44_mixed_distance_error",
    "Verif.Props.C44_returns_iff",
    "Verif.Props.C44_true_same_point",
    "Verif.Props.C44_equality_exact"
   ],
   "note": "C44_returns_iff, C44_true_same_point, C44_equality_exact. The unrestricted claim is false for prolate operands and mixed distance classes: negations proved."
  },
  {
   "property": "C45",
   "status": "proved",
   "theorems": [
    "Verif.C45_to_astropy",
    "Verif.C45_round_trip",
    "Verif.C45_angle_reduced",
    "Verif.C45_parallax_raises",
    "Verif.C45_unsupported",
    "Verif.C45_from_astropy",
    "Verif.C45_from_other_class",
    "Verif.C45_convert_wrong_class",
    "Verif.C45_velocity_round_trip",
    "Verif.C45_velocity_from_other_class",
    "Verif.C45_frame",
    "Verif.C45_round_trip_iff"
   ],
   "note": "Exact for positions (C45_round_trip_iff). Astropy's own represent_as is a hypothesis (AstropyOk). Exceptions: C45_parallax_raises, C45_angle_reduced, C45_convert_wrong_class, C45_from_other_class, C45_velocity_from_other_class."
  },
  {
   "property": "C46",
   "status": "proved",
   "theorems": [
    "Verif.Props.C46_normalize"
   ],
   "note": "CartesianPos3D only, the code has no rule for other classes; arrays in C58"
  },
  {
   "property": "C47",
   "status": "proved",
   "theorems": [
    "Verif.C47_negation_iff",
    "Verif.C47_negation_returns_iff",
    "Verif.C47_negation_cartesian",
    "Verif.C47_rates",
    "Verif.C47_spherical_wrong"
   ],
   "note": "Exact (C47_negation_iff, C47_negation_returns_iff); a witness of the failure: C47_spherical_wrong. Velocities where their class is regular; TwoSphereVel stands for no motion in space."
  },
  {
   "property": "C48",
   "status": "proved",
   "theorems": [
    "Verif.Props.C48_keywords_used",
    "Verif.Props.C48_keywords_returns"
   ],
   "note": "every sign and every value of the keywords; C48_keywords_returns is the exact condition for a result"
  },
  {
   "property": "C49",
   "status": "proved",
   "theorems": [
    "Verif.C49_elementwise",
    "Verif.C49_element_raises",
    "Verif.C49_returns_if_shapes_fit",
    "Verif.C49_points",
    "Verif.C49_polar_to_spherical_raises",
    "Verif.C49_prolate_mixed_raises",
    "Verif.C49_from_elementwise",
    "Verif.C49_origin_nan",
    "Verif.C49_returns_iff"
   ],
   "note": "Elements: full. Returning: exact (C49_returns_iff) for non-empty batches; the shapes that fail include C49_polar_to_spherical_raises and C49_prolate_mixed_raises."
  },
  {
   "property": "C50",
   "status": "proved",
   "theorems": [
    "Verif.C50_constructor",
    "Verif.C50_derivatives"
   ],
   "note": "Both directions, all classes."
  },
  {
   "property": "C51",
   "status": "proved",
   "theorems": [
    "Verif.C51_order",
    "Verif.C51_asdict_round_trip",
    "Verif.C51_wrong_keys",
    "Verif.C51_replace",
    "Verif.C51_from_vector",
    "Verif.C51_from_vector_wrong_class"
   ],
   "note": "Full; C51_from_vector characterises from_ of vectors, C51_from_vector_wrong_class shows the exception."
  },
  {
   "property": "C52",
   "status": "proved",
   "theorems": [
    "Verif.C52_add_sub",
    "Verif.C52_add_returns",
    "Verif.C52_sub_returns",
    "Verif.C52_neg",
    "Verif.C52_scale",
    "Verif.C52_scale_array_rejected",
    "Verif.C52_divide",
    "Verif.C52_divide_returns",
    "Verif.C52_norm",
    "Verif.C52_eq",
    "Verif.C52_times"
   ],
   "note": "Exact: when each operation returns and what. Positions' norm is C20/C06 (Arith); radial classes have no +, -. CartesianVel1D/2D and Acc2D have no -, Vel3D/Acc3D no scalar product, as C52_sub_returns and C52_scale state."
  },
  {
   "property": "C53",
   "status": "proved",
   "theorems": [
    "Verif.C53_add_sub",
    "Verif.C53_dimension_mismatch",
    "Verif.C53_scale",
    "Verif.C53_norm",
    "Verif.C53_eq",
    "Verif.C53_times"
   ],
   "note": "Also shows the surprises: a 1-dimensional operand is added to every component (C53_dimension_mismatch), == keeps the component axis (C53_eq), times of shape (F,) multiply components, not batch elements (C53_times)."
  },
  {
   "property": "C54",
   "status": "proved",
   "theorems": [
    "Verif.C54_events",
    "Verif.C54_points",
    "Verif.C54_four_components",
    "Verif.C54_low_dimensions",
    "Verif.C54_composite_raises"
   ],
   "note": "Full characterisation; composite operators raise on Quantities with a time (C54_composite_raises), a GalileanOperator on every Quantity: plum finds two applicable rules. Low dimensions are shown for each operator, not for nested ones, since composites raise there."
  },
  {
   "property": "C55",
   "status": "proved",
   "theorems": [
    "Verif.C55_parts",
    "Verif.C55_index",
    "Verif.C55_not_a_sequence",
    "Verif.C55_slice",
    "Verif.C55_cut",
    "Verif.C55_inverse_of_slice",
    "Verif.C55_make",
    "Verif.C55_inertial"
   ],
   "note": "A lone velocity as argument is excluded (finding 19). Slices with a step are not modelled."
  },
  {
   "property": "C56",
   "status": "proved",
   "theorems": [
    "Verif.C56_from_values",
    "Verif.C56_from_values_raises",
    "Verif.C56_boost_drops_components",
    "Verif.C56_from_operator",
    "Verif.C56_galilean_defaults",
    "Verif.C56_euler_proper",
    "Verif.C56_euler_order",
    "Verif.C56_neg_is_inverse",
    "Verif.C56_neg_rotation",
    "Verif.C56_matmul"
   ],
   "note": "-GalileanRotation is -R, never the inverse (C56_neg_rotation); boosts drop extra numbers (C56_boost_drops_components). jax.scipy Rotation.from_euler is trusted. from_ of rotations from arrays is not modelled."
  },
  {
   "property": "C57",
   "status": "proved",
   "theorems": [
    "Verif.C57_elementwise",
    "Verif.C57_returns",
    "Verif.C57_velocity_preserved",
    "Verif.C57_row_major_pairing",
    "Verif.C57_size_mismatch_raises",
    "Verif.C57_fewer_dimensions_raises",
    "Verif.C57_acceleration_elementwise",
    "Verif.C57_acceleration_returns",
    "Verif.C57_mismatched_shapes_return"
   ],
   "note": "Same shape: full, elements (C57_elementwise, C57_acceleration_elementwise) and returning (C57_returns, C57_acceleration_returns). Broadcasting between velocity and position: C57_size_mismatch_raises, C57_mismatched_shapes_return. Delta is a single number; keyword arguments too."
  },
  {
   "property": "C58",
   "status": "proved",
   "theorems": [
    "Verif.C58_add_sub_elementwise",
    "Verif.C58_neg_elementwise",
    "Verif.C58_scale_elementwise",
    "Verif.C58_divide_elementwise",
    "Verif.C58_norm_elementwise",
    "Verif.C58_eq_elementwise",
    "Verif.C58_add_sub_returns_uniform",
    "Verif.C58_neg_returns",
    "Verif.C58_scale_returns",
    "Verif.C58_divide_returns",
    "Verif.C58_norm_returns",
    "Verif.C58_eq_returns_uniform",
    "Verif.C58_add_sub_shapes",
    "Verif.C58_scale_array_raises",
    "Verif.C58_prolate_eq_raises",
    "Verif.C58_add_sub_points",
    "Verif.C58_norm_points",
    "Verif.C58_product_scalar",
    "Verif.C58_product_dimensions",
    "Verif.C58_product_elementwise",
    "Verif.C58_product_shapes",
    "Verif.C58_product_returns",
    "Verif.C58_normalize_elementwise",
    "Verif.C58_add_sub_returns_iff",
    "Verif.C58_eq_returns_iff",
    "Verif.C58_cartesian_shapes",
    "Verif.C58_product_returns_iff"
   ],
   "note": "Elements: full for every operation. Returning: full for -, s *, / and norm; exact for + and - (C58_add_sub_returns_iff, C58_cartesian_shapes), == (C58_eq_returns_iff) and p * q (C58_product_returns_iff), for non-empty batches. numpy broadcasting of operands of different rank is false: C58_add_sub_shapes, C58_product_shapes, C58_scale_array_raises; == for prolate positions raises: C58_prolate_eq_raises. Lengths in AU, angles in radians."
  },
  {
   "property": "C59",
   "status": "proved",
   "theorems": [
    "Verif.C59_constructors",
    "Verif.C59_cos_sin",
    "Verif.C59_tan",
    "Verif.C59_sqrt",
    "Verif.C59_cbrt",
    "Verif.C59_integer_pow",
    "Verif.C59_pow",
    "Verif.C59_dot",
    "Verif.C59_root_then_power",
    "Verif.C59_conversions",
    "Verif.C59_conversion_round_trip",
    "Verif.C59_from_astropy",
    "Verif.C59_same_length",
    "Verif.C59_distance_from",
    "Verif.C59_parallax_from",
    "Verif.C59_from_rejects",
    "Verif.C59_signed_round_trip",
    "Verif.C59_unit_independent",
    "Verif.C59_dot_unit_independent",
    "Verif.C59_modulus_needs_mag"
   ],
   "note": "Full for the listed functions. Exact reals; unxt rules for plain Quantities are trusted (see DESIGN.md section 4). The one dependence on the unit is stated and proved: C59_modulus_needs_mag."
  },
  {
   "property": "C60",
   "status": "proved",
   "theorems": [
    "Verif.C60_elementwise",
    "Verif.C60_returns_uniform",
    "Verif.C60_acts_on_each",
    "Verif.C60_four_shape",
    "Verif.C60_returns_iff",
    "Verif.C60_pair_batch_raises",
    "Verif.C60_pair_square_wrong",
    "Verif.C60_pair_single_elementwise",
    "Verif.C60_pair_single_returns"
   ],
   "note": "Elements: full, except pairs (position, velocity) through a spatial translation, where the claim is false for a batch (C60_pair_batch_raises, C60_pair_square_wrong) and proved for a single pair (C60_pair_single_elementwise, C60_pair_single_returns). Returning: exact (C60_returns_iff), and the common case spelled out (C60_returns_uniform); non-empty batches."
  },
  {
   "property": "C61",
   "status": "proved",
   "theorems": [
    "Verif.C61_as_in_base_units",
    "Verif.C61_units_irrelevant",
    "Verif.C61_prolate_to_prolate",
    "Verif.C61_same_point",
    "Verif.C61_velocity_as_in_base_units",
    "Verif.C61_velocity_units_irrelevant",
    "Verif.C61_prolate_velocity_raises",
    "Verif.C61_acceleration_as_in_base_units",
    "Verif.C61_acceleration_units_irrelevant",
    "Verif.C61_prolate_acceleration_raises",
    "Verif.C61_result_typed"
   ],
   "note": "Every exception is characterised: prolate to prolate (C61_prolate_to_prolate, raises when the units differ), ProlateSpheroidalVel to another class and ProlateSpheroidalAcc (C61_prolate_velocity_raises, C61_prolate_acceleration_raises: raise in any units). Scalar components; unxt's unit rules are trusted."
  },
  {
   "property": "C62",
   "status": "proved",
   "theorems": [
    "Verif.C62_norm",
    "Verif.C62_product",
    "Verif.C62_negation",
    "Verif.C62_scaling",
    "Verif.C62_division",
    "Verif.C62_normalize",
    "Verif.C62_addition_3d",
    "Verif.C62_subtraction",
    "Verif.C62_subtraction_same_dimension",
    "Verif.C62_addition_low_dimension",
    "Verif.C62_one_unit",
    "Verif.C62_missing_components",
    "Verif.C62_equality",
    "Verif.C62_equality_same_class",
    "Verif.C62_equality_prolate",
    "Verif.C62_units_irrelevant",
    "Verif.C62_sum_point"
   ],
   "note": "Scalar components and scalars without units. The raising cases (different units for -, low-dimensional + and ==) are characterised exactly; unxt's unit rules and jax.tree.map's structure check are trusted."
  },
  {
   "property": "C63",
   "status": "proved",
   "theorems": [
    "Verif.C63_arithmetic_elementwise",
    "Verif.C63_arithmetic_points",
    "Verif.C63_arithmetic_returns_iff",
    "Verif.C63_norm_elementwise",
    "Verif.C63_norm_returns",
    "Verif.C63_to_quantity_returns_iff",
    "Verif.C63_to_quantity_elementwise",
    "Verif.C63_from_quantity",
    "Verif.C63_roundtrip"
   ],
   "note": "Scalar content is C42 and C58; here at every index of a batch. A norm is complex in the code; real and imaginary part are returned. NaN entries: the elementwise statements hold at indices whose entries are numbers, the round trip also at NaN entries. Not covered: from_ of three components (t, q, c), units (C51/C61 for the parts)."
  },
  {
   "property": "C64",
   "status": "proved",
   "theorems": [
    "Verif.C64_broadcast",
    "Verif.C64_broadcast_velocity",
    "Verif.C64_broadcast_nd",
    "Verif.C64_reshape_elementwise",
    "Verif.C64_reshape_returns_iff",
    "Verif.C64_reshape_divides",
    "Verif.C64_reshape_rank",
    "Verif.C64_reshape_sizes",
    "Verif.C64_reshape_empty"
   ],
   "note": "positions, velocities, accelerations and N-dimensional vectors; FourVector and what JAX does before it reaches the primitive are not covered; a position is any vector its own constructor accepts"
  },
  {
   "property": "C65",
   "status": "proved",
   "theorems": [
    "Verif.C65_shape",
    "Verif.C65_shapes",
    "Verif.C65_entries",
    "Verif.C65_T",
    "Verif.C65_mT_iff",
    "Verif.C65_flatten_iff",
    "Verif.C65_plus",
    "Verif.C65_replace",
    "Verif.C65_T_mixed_wrong"
   ],
   "note": "entries are vectors of 1 to 3 dimensions; reshape of a Space raises in the code (it needs Space.components) and is not modelled; T for mixed ranks: sufficient condition and a counterexample"
  },
  {
   "property": "C66",
   "status": "proved",
   "theorems": [
    "Verif.C66_returns_base",
    "Verif.C66_three_dimensions",
    "Verif.C66_units_irrelevant",
    "Verif.C66_inverse",
    "Verif.C66_velocity_boost_iff",
    "Verif.C66_low_dimension"
   ],
   "note": "the two exceptions are proved as exact conditions (C66_velocity_boost_iff, C66_low_dimension)"
  },
  {
   "property": "C67",
   "status": "proved",
   "theorems": [
    "Verif.C67_returns_base",
    "Verif.C67_single",
    "Verif.C67_pipe",
    "Verif.C67_dropped_iff",
    "Verif.C67_depends_on_units",
    "Verif.C67_acts_alike"
   ],
   "note": "the dependence on units is itself a theorem (C67_depends_on_units), and the condition for dropping a translation is exact (C67_dropped_iff)"
  },
  {
   "property": "C68",
   "status": "proved",
   "theorems": [
    "Verif.C68_as_in_base_units",
    "Verif.C68_operator",
    "Verif.C68_transform",
    "Verif.C68_composition",
    "Verif.C68_position_alone"
   ],
   "note": "prolate spheroidal velocities are left out of the arguments: they convert to no other class (C61_prolate_velocity_raises)"
  },
  {
   "property": "C69",
   "status": "proved",
   "theorems": [
    "Verif.C69_acts",
    "Verif.C69_returns_iff",
    "Verif.C69_defaults",
    "Verif.C69_dropped_iff",
    "Verif.C69_zero_tolerance",
    "Verif.C69_error_bound"
   ],
   "note": "the bounds hold for non-negative tolerances; the exact description C69_acts for all"
  },
  {
   "property": "C70",
   "status": "proved",
   "theorems": [
    "Verif.C70_represent_as",
    "Verif.C70_negation",
    "Verif.C70_to_poincare",
    "Verif.C70_from_poincare",
    "Verif.C70_units_irrelevant",
    "Verif.C70_root_radian_needed",
    "Verif.C70_round_trip"
   ],
   "note": "prolate spheroidal positions need mu in the square of the unit of Delta, as in C61"
  },
  {
   "property": "C71",
   "status": "proved",
   "theorems": [
    "Verif.C71_represent_as",
    "Verif.C71_entries",
    "Verif.C71_returns",
    "Verif.C71_negation",
    "Verif.C71_neg_returns",
    "Verif.C71_to_poincare",
    "Verif.C71_from_poincare",
    "Verif.C71_round_trip",
    "Verif.C71_phase_space",
    "Verif.C71_shapes_differ_raises",
    "Verif.C71_wrong_class"
   ],
   "note": "conversion is for entries of one batch shape (components within it may broadcast); to Poincar\u00e9 polar vectors for positions whose components all have the batch shape"
  },
  {
   "property": "C72",
   "status": "proved",
   "theorems": [
    "Verif.C72_no_spurious_raise",
    "Verif.C72_ranges",
    "Verif.C72_azimuth",
    "Verif.C72_returns",
    "Verif.C72_inclination_iff",
    "Verif.C72_underflow_nan",
    "Verif.C72_from_normalises",
    "Verif.C72_azimuth_can_be_360",
    "Verif.C72_sine_negative_raises"
   ],
   "note": "prolate spheroidal targets are only covered by C72_ranges (what is returned is in range); overflow and signed zeros are not modelled"
  },
  {
   "property": "C73",
   "status": "proved",
   "theorems": [
    "Verif.C73_add_comm",
    "Verif.C73_neg_sub",
    "Verif.C73_scale",
    "Verif.C73_norm",
    "Verif.C73_self",
    "Verif.C73_eq_comm",
    "Verif.C73_math_exact",
    "Verif.C73_embed_exact",
    "Verif.C73_lonlat_round_trip",
    "Verif.C73_not_exact"
   ],
   "note": "signed zeros and overflow are not modelled"
  },
  {
   "property": "C74",
   "status": "proved",
   "theorems": [
    "Verif.C74_resolve",
    "Verif.C74_specific",
    "Verif.C74_order",
    "Verif.C74_import_order",
    "Verif.C74_extension",
    "Verif.C74_subclass",
    "Verif.C74_positions",
    "Verif.C74_velocities",
    "Verif.C74_accelerations",
    "Verif.C74_unambiguous",
    "Verif.C74_unambiguous_velocity",
    "Verif.C74_ambiguous",
    "Verif.C74_position_argument",
    "Verif.C74_velocity_needs_position",
    "Verif.C74_positional_angle",
    "Verif.C74_other_classes",
    "Verif.C74_frames",
    "Verif.C74_user_frames"
   ],
   "note": "plum's Resolver is modelled from its documented algorithm (not in /repo); its cache and deferred annotations are not. C74_positions/velocities/accelerations/frames tie the tables to represent, representVel, representAcc and frameTransformOp"
  },
  {
   "property": "C75",
   "status": "proved",
   "theorems": [
    "Verif.C75_rule",
    "Verif.C75_call",
    "Verif.C75_ambiguous_quantity",
    "Verif.C75_ambiguous_quantity_time",
    "Verif.C75_quantity",
    "Verif.C75_quantity_time",
    "Verif.C75_import_order",
    "Verif.C75_user_operator",
    "Verif.C75_user_four_ambiguous",
    "Verif.C75_user_four_own_rule"
   ],
   "note": "plum's Resolver as in C74. C75_call, C75_quantity and C75_quantity_time tie the table to Op.call and Op.callQ, so every earlier theorem on operator calls is about the dispatched rule"
  },
  {
   "property": "C76",
   "status": "proved",
   "theorems": [
    "Verif.C76_vector",
    "Verif.C76_quantity",
    "Verif.C76_other",
    "Verif.C76_mapping",
    "Verif.C76_keywords",
    "Verif.C76_array",
    "Verif.C76_representation",
    "Verif.C76_differential",
    "Verif.C76_ambiguous",
    "Verif.C76_import_order",
    "Verif.C76_astropy_module",
    "Verif.C76_model"
   ],
   "note": "plum's Resolver as in C74; a mapping is known by the type of the entry that the type check inspects. Made.new c r is a call of the class c with the components rule r takes: what the constructor then accepts is C06, C39, C50. C76_model ties the table to fromVec (C51). Space.from_ is not covered"
  },
  {
   "property": "C77",
   "status": "proved",
   "theorems": [
    "Verif.C77_construct",
    "Verif.C77_attribute",
    "Verif.C77_required",
    "Verif.C77_components",
    "Verif.C77_items",
    "Verif.C77_replace",
    "Verif.C77_settled",
    "Verif.C77_replace_keeps",
    "Verif.C77_replace_nothing",
    "Verif.C77_drift",
    "Verif.C77_map",
    "Verif.C77_map_attributes",
    "Verif.C77_map_id"
   ],
   "note": "The generated __init__ and dataclassish without a filter are trusted; __check_init__ is C06. Which error is raised when several fields fail is not stated"
  },
  {
   "property": "C78",
   "status": "proved",
   "theorems": [
    "Verif.C78_user",
    "Verif.C78_override",
    "Verif.C78_differential",
    "Verif.C78_integral",
    "Verif.C78_there_and_back",
    "Verif.C78_back_and_there",
    "Verif.C78_no_differential",
    "Verif.C78_cartesian",
    "Verif.C78_cartesian_commutes",
    "Verif.C78_velocity_name",
    "Verif.C78_acceleration_name",
    "Verif.C78_acceleration_name_twice",
    "Verif.C78_names",
    "Verif.C78_loncoslat"
   ],
   "note": "classproperty is modelled as a lookup along the bases. Users' definitions are constants, not functions of the class that is asked"
  },
  {
   "property": "C79",
   "status": "proved",
   "theorems": [
    "Verif.C79_operator",
    "Verif.C79_operator_same",
    "Verif.C79_frame",
    "Verif.C79_boost",
    "Verif.C79_galcen",
    "Verif.C79_v_sun",
    "Verif.C79_translation",
    "Verif.C79_parts"
   ],
   "note": "Only which implementation runs and what it is called with is modelled; what the constructors called at the end check is not part of it. The astropy rules raise for frames with data, which is not modelled"
  },
  {
   "property": "C80",
   "status": "proved",
   "theorems": [
    "Verif.C80_pair",
    "Verif.C80_single",
    "Verif.C80_unchanged",
    "Verif.C80_two",
    "Verif.C80_one",
    "Verif.C80_pipe",
    "Verif.C80_no_more",
    "Verif.C80_identities",
    "Verif.C80_short",
    "Verif.C80_merge"
   ],
   "note": "For operators of any class the sums of parameters are kept as terms, so that the theorem says which operators are combined in which order; that the combination acts as the two is C29 for the operators of coordinax. Keyword arguments are those of C69"
  },
  {
   "property": "C81",
   "status": "proved",
   "theorems": [
    "Verif.C81_one_result",
    "Verif.C81_own",
    "Verif.C81_forward",
    "Verif.C81_hasattr",
    "Verif.C81_no_q",
    "Verif.C81_q_raises",
    "Verif.C81_components"
   ],
   "note": "Names of the base classes outside coordinax (quax, equinox, object) are a parameter: the list of attributes of w. That copy and pickle ask an object without fields for __setstate__ is CPython's, and is not modelled"
  },
  {
   "property": "C82",
   "status": "proved",
   "theorems": [
    "Verif.C82_returns",
    "Verif.C82_bundle"
   ],
   "note": "The texts themselves are parameters"
  },
  {
   "property": "C83",
   "status": "proved",
   "theorems": [
    "Verif.C83_construct",
    "Verif.C83_distance",
    "Verif.C83_round_trip",
    "Verif.C83_negative"
   ],
   "note": "Scalars, real arithmetic: at p = 0 the program returns inf, here an undefined result"
  },
  {
   "property": "C84",
   "status": "proved",
   "theorems": [
    "Verif.C84_compare",
    "Verif.C84_zero",
    "Verif.C84_polar",
    "Verif.C84_nan"
   ],
   "note": "No rounding in the conversion of the limit; a broadcasting is any set of pairs of places. That the classes call these checks is in C06 and C60"
  },
  {
   "property": "C85",
   "status": "proved",
   "theorems": [
    "Verif.C85_direction",
    "Verif.C85_zero",
    "Verif.C85_scale",
    "Verif.C85_fixed",
    "Verif.C85_quantity",
    "Verif.C85_cartesian"
   ],
   "note": "Real arithmetic: overflow and underflow of the norm are not modelled"
  },
  {
   "property": "C86",
   "status": "proved",
   "theorems": [
    "Verif.C86_affine",
    "Verif.C86_one_galilean",
    "Verif.C86_free_motion"
   ],
   "note": "Results of non-Cartesian classes: whenever the calls return (C27 and C31 say when they do)"
  },
  {
   "property": "C87",
   "status": "proved",
   "theorems": [
    "Verif.C87_euler",
    "Verif.C87_accepts",
    "Verif.C87_rigid",
    "Verif.C87_units",
    "Verif.C87_intrinsic_is_reversed_extrinsic",
    "Verif.C87_inverse",
    "Verif.C87_turns",
    "Verif.C87_constructor",
    "Verif.C87_refines",
    "Verif.C87_inverse_iff"
   ],
   "note": "The quaternion arithmetic of jax.scipy's Rotation is modelled from knowledge of that library (its source is not in the sandbox). Batches of angles, and a number of angles other than the number of letters, are outside the model"
  }
 ]
}