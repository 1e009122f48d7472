C01	proved	index after init/default/iden, both flags, any scalar
C02	proved	read-after-write, exact panic condition for debug and release index arithmetic, unchecked column
C03	proved	any scalar, both layouts
C04	proved	exact arithmetic; panic condition and bit-level formula for any float
C05	proved	bit-for-bit, any float format; Mat4::inverse is shown layout independent as well
C06	proved	algebra in exact arithmetic, duality bit-exact
C07	proved	includes the theorem describing what mixed layouts do
C08	proved	
C13	partial	false of the code: the returned matrix is the inverse transpose (C13_false, C13_f64_false). C13_partial: None condition; C13_transpose_partial: the transpose of the result is the inverse.
C14	partial	false of the code (C14_false, C14_f64_false); C14_partial gives the exact None condition and entries; C14_correct_iff_partial: the result is the inverse exactly for two families of matrices of determinant -1
C15	proved	
C16	proved	
C09	proved	symmetry bit-exact on all floats; algebra in exact arithmetic
C10	proved	norm laws in exact arithmetic; non-negativity for every lawful float format (binary64, binary32 proved lawful)
C11	proved	
C12	proved	exact characterisation over the reals; reflexivity, monotonicity and NaN behaviour for every lawful float format
C54	proved	
C17	proved	exact arithmetic against Mathlib quaternions
C18	proved	exact arithmetic
C19	proved	exact arithmetic; panic condition and NaN behaviour for every float
C20	proved	exact arithmetic
C21	proved	exact arithmetic; also multiplicativity
C22	partial	false of the code: the column-major matrix is the transpose (C22_rotation_false on binary64, C22_rotation_exact_false on unit quaternions, C22_translation_false). C22_partial: exact transposes of each other for every float; C22_inverse_partial: the column-major one is the inverse rotation.
C23	proved	exact arithmetic with real sin/cos
C24	proved	exact arithmetic with real sin/cos/acos
C25	proved	exact arithmetic; float end points in C56
C26	partial	unit norm is false of the code for inputs more than 90 degrees apart (C26_unit_false; C26_obtuse_false shows it fails for every such pair). End points and clamping proved; C26_unit_partial and C26_near_partial cover the other inputs.
C27	proved	also pow(n)=q^n and pow(-1)=q^-1
C28	partial	false of the code for every quaternion with non-zero vector part (C28_false, C28_never_false); panic condition proved; C28_partial describes the returned value
C29	proved	
C30	partial	false of the code (C30_false); C30_partial: every (p,1) is mapped to (t/2,1)
C31	proved	
C56	proved	for every lawful rounding; binary64 and binary32 are proved lawful
C32	proved	symmetry and characterisation for every float; exactness over the reals
C33	proved	for every float, NaN bounds included
C34	partial	false of the code: the axes after the first are compared with the wrong extent (C34_longestAxis_false); the partial theorems describe when the answer is right
C35	proved	for every lawful rounding; C35_overflow shows the hypothesis on overflow is needed
C36	proved	exact arithmetic; also tightness for the bounded kinds
C37	proved	for every float
C38	proved	for every float
C53	proved	
C57	proved	for every float
C39	proved	for every float; C39_exact in exact arithmetic
C40	proved	exact arithmetic; the location bound holds except for two zero radii at one centre, where it is NaN (C40_zero_radii, C40_location_false)
C41	proved	exact arithmetic, completeness also for floats; C41_ball_false: corner points outside the ball are reported, so the answer is the cube and not the ball
C42	proved	exact arithmetic
C43	proved	exact arithmetic; back-facing hits are missed (C43_back_false) and binary64 rounding loses a hit (C43_f64_false)
C44	proved	exact arithmetic; spheres behind the plane are reported (C44_behind_false)
C45	proved	exact arithmetic, any tolerance
C46	proved	for every float; C46_exact in exact arithmetic
C47	proved	exact arithmetic; rays with a zero direction component report nothing (C47_zero_false)
C48	proved	exact arithmetic; skew rays and rays meeting behind their origins are reported (C48_skew_false, C48_behind_false), nearly parallel crossing rays are missed (C48_near_false)
C49	proved	exact arithmetic; a negative height never reports and a zero height reports the whole bounding box (C49_negative_false, C49_zero_false)
C50	proved	exact arithmetic; zero-length segments inside the bounding box but outside the prism are reported with a NaN point (C50_degenerate_false)
C51	proved	exact arithmetic; in binary64 tiny non-zero directions also give None and NaN directions panic for box and prism (C51_f64_false)
C52	proved	exact arithmetic: sound off the axis, terminates unless the balls touch; touching balls off the axis are never answered Some(true) and, at an angle that is an irrational multiple of pi, never answered at all (C52_touching_false); on the axis (and for two points) a false positive (C52_axis_false, C52_f64_false); panics characterised for every float; in binary64 also a false positive, a false negative and a panic off the axis (C52_f64_absorbed_false, C52_f64_overflow_false, C52_f64_panic_false)
C55	proved	every format with the standard error model (binary32, binary64); the ranges exclude underflowing squares, C55_underflow shows why
C58	proved	every format with the standard error model (binary32, binary64); conditional on the entry being finite
C59	proved	every format with the standard error model (binary32, binary64)
C60	proved	every format with a lawful monotone rounding; C60_encloses_false shows that points that are not representable can fall outside the rounded box
C61	proved	generic RndErr format and the binary64 instance with explicit numbers; C61_exact_false shows the margin is needed
C62	proved	every slice length and every float, any rounding
C63	proved	generic RndErr format and the binary64 instance with explicit numbers; C63_exact_false: with default tolerance a point exactly on the plane is missed and a point at distance above 1/2 is reported
C64	proved	generic RndErr format (binary32 and binary64 are instances); C64_exact_false shows the shell is needed
C65	proved	generic and f64 instance; exactness without margin refuted by C65_exact_false
C66	proved	generic and f64 instance; C66_chord relates b, D to the ball; exactness without margin refuted by C66_exact_false
C67	proved	generic and f64 instance; exactness refuted by C67_exact_false
C68	proved	all types; exactness refuted by C68_exact_false
C69	proved	characterises the answers on degenerate shapes; concrete binary64 witnesses in C69_f64_witness
C70	proved	characterises the answers on NaN arguments; concrete binary64 witnesses in C70_f64_witness
C71	proved	decision margins and entrywise accuracy; C71_singular_false shows the margin cannot be dropped
C72	proved	non-interference by case analysis over the dispatch, monotonicity for all lawful formats, binary64 witnesses that the four dependencies are real
C73	proved	for every lawful format by monotonicity of rounding, with a binary64 witness that negative radii against rays are not monotone
C74	proved	for all floats of every lawful format, including NaN and infinities
C75	proved	for exact arithmetic, including NaN and infinite arguments; C75_rounding_false is a binary64 witness that rounding breaks it
C76	proved	for all floats of every lawful format; binary64 witnesses show that the exceptions (sphere-point, odd patterns on prisms, NaN corners) are real
C77	proved	explicit error bounds in terms of the unit roundoff, instantiated for binary64; C77_exact_false shows that exact maximality does not survive rounding
C78	proved	explicit margin in terms of unit roundoff and the conditioning of the base triangle, instantiated for binary64; C78_exact_false shows that some margin is needed
C79	partial	ends and sound are proved; complete and finite fail in binary64 and are refuted by witnesses: a segment through the middle of a prism is not reported (C79_crossing_false), and a segment that misses the prism is reported at a location with a NaN coordinate (C79_nan_false)
C80	proved	soundness, rejection and completeness with explicit margins, instantiated for binary64; C80_exact_false shows that some margin is needed
C81	proved	both branches with explicit margins; meet and parallel parts instantiated for binary64; the gap of width 80 u around the cut-off 0.0001 is left open; C81_exact_false, C81_parallel_false and C81_skew_false show what fails
C82	proved	a result for every number of loop turns, by an invariant; termination is not claimed (C83_terminates_false); Some(true) has no such margin (C52_f64_absorbed_false), and outside the range the query panics or is wrong (C52_f64_panic_false, C52_f64_overflow_false); pairs of centres both with first coordinate zero are not covered; C82_exact_false shows the tolerance is needed
C83	partial	refuted by C83_terminates_false with a concrete pair and every number of turns; C83_exact shows the same pair ends in exact arithmetic (from C52_terminates); the positive part C83_left_partial covers pairs separated along the first axis in order; termination for other pairs is not classified
C84	proved	quantitative form of C52_terminates; touching pairs (g = 0) are excluded because the loop may run for ever on them (C52_touching_false), and rounding breaks the bound (C83_terminates_false)
C85	proved	positive part for the eight listed pairs and GJK; the pairs where it fails are refuted with concrete rotated witnesses (C85_sphere_point_false, C85_box_point_false, C85_ray_point_false, C85_ray_ray_false, C85_gjk_false)
C86	proved	the two failing cases outside the range are C86_inverse_range_false and C86_lerp_self_false
C87	proved	the accuracy of the mathematical library is a hypothesis (AccLibm), shown satisfiable in binary64 with d = 2^-49 by accLibm64_acc; the failing case |w| > 1 is C87_overshoot_false
C88	proved	obtuse angles are excluded because the code is wrong there already in exact arithmetic (C26)
C89	proved	C89_pow (accuracy), C89_laws (norm, natural exponents, inverse), C89_small_angle_false (the dependence on 1/s is real: small rotations lose their vector part). powf accuracy is the hypothesis AccPow, shown satisfiable in binary64 by powLibm64_pow.
C90	proved	C90_product, C90_renormalised, C90_rotate (general formats), *_f64 (binary64 with normalised inputs), C90_drift_false (why the product without normalisation needs a bound on n)
C91	proved	C91_deep_f64 (two turns, Some(true)), C91_separated_false (concrete spheres far apart reported as intersecting in binary64)
C92	proved	C92_vector_* / C92_matrix_* / C92_inverse / C92_quat*; C92_inverse_unit_false (absolute singularity test), C92_inverse3_false (Mat3::inverse not homogeneous), C92_range_false (2^-600)
C93	proved	C93_query, C93_segment, C93_rays; C93_default_false (default tolerance), C93_rays_tolerance_false (tolerance of two rays is not a length)
C94	proved	C94_gjk; C94_forever (the never-ending run of C83 in all units within 35 places); C94_range_false (underflow of the search direction)
C95	proved	C95_query; C95_ray_point_false (flag changes under the exchange of x and y at tolerance 1/2); C95_y_z_false (exchange of y and z)
C96	proved	C96_other_axes; C96_first_axis (with the spheres exchanged); C96_first_axis_false, C96_exchange_false (balls apart found in one order only), C96_y_z_false
C97	proved	C97_before, C97_axis, C97_behind; C97_separated_false (unit balls 2^100 apart reported as intersecting); C97_range_false (beyond the range overlapping balls are reported apart)
C98	proved	C98_product, C98_apply for any lawful format, both matrix types; C98_rotations_f64 from quaternions to the final matrix
C99	proved	C99_reverse, C99_turn without restriction on the angle; C99_power, C99_subdivide for unit ends at most 90 degrees apart (beyond, C26_obtuse_false); C99_double_cover_near, C99_double_cover_false
C100	proved	C100_undo (four ways), C100_inverse_repeats, C100_inverse_iff, C100_inverse_false in exact arithmetic; C100_transpose_float for any lawful format, C100_rotation_f64
C101	proved	C101_compose, C101_undo, C101_distance, C101_matrix exact; C101_chain, C101_undo_float any lawful format; C101_chain_f64, C101_shape_f64, C101_undo_f64; C101_undo_false, C101_matrix_false show what fails
C102	proved	C102_least, C102_shape, C102_prune, C102_points for every tree; C102_shapes connects it with the shape constructors; C102_nan_false shows why the leaf must have no NaN
C103	proved	C103_product, C103_reverse, C103_involution, C103_transpose, C103_solve, C103_scale exact; C103_reverse_false and C103_singular_false refute the textbook law and scale invariance; C103_f64 shows two cases in binary64
C104	proved	C104_raySphere, C104_rayPlane, C104_sphereSphere, C104_spherePlane, C104_prismLine, C104_rayRay exact; C104_spherePlane_f64, C104_rayPlane_f64 in binary64; C104_raySphere_false, C104_rayPlane_false, C104_spherePlane_false, C104_rayRay_false are witnesses of the exceptions stated in the property
C105	proved	C105_two, C105_every, C105_carry, C105_handed, C105_shortest exact; C105_negated in every format; C105_f64 error bounds; C105_exact_false (rounding: two reflections need not give the vector back), C105_real_false (a real part breaks the mirror)
C106	proved	C106_agree, C106_both, C106_swap exact; C106_f64 binary64; C106_touching_false and C106_axis_false show that the two exclusions are needed
C107	proved	C107_inverse_f64, C107_rotation_f64; C107_undo_false: the inverse does not undo the rotation
C108	proved	C108_search, C108_arrangement, C108_found in every format; C108_nan_false shows that NaN bounds must be excluded
C109	proved	C109_trace, C109_free, C109_order, C109_tree in exact arithmetic; C109_behind_false (binary64) shows that planes seen from behind must be excluded
C110	proved	C110_trace_f64, C110_tree_f64; C110_first_false shows that the tolerance is needed
C111	proved	C111_point and C111_line in exact arithmetic; C111_leak_false is the f64 witness
C112	proved	C112_frame, C112_apply (exact); C112_frame_f64; C112_parallel_false shows that the condition on the angle is needed
C113	proved	C113_sphere, C113_plane, C113_two (exact; two moving balls); C113_f64_false: a concrete path in binary64 on which the two queries disagree
C114	proved	C114_fan_point, C114_fan_line, C114_stack (exact); C114_fan_false: the cut leaks in binary64
C115	proved	C115_cut, C115_bisect, C115_total; exact arithmetic
C116	proved	C116_sphere, C116_box for every lawful format; C116_computed_false: a position computed from the ends may be beyond them
C117	proved	C117_segment, C117_mutual (exact); C117_plane_false, C117_f64_false: where sight is not mutual
C118	proved	C118_scene (exact); the growing of the obstacles and the fold over the scene are the client's, not code of the crate
C119	proved	C119_flag, C119_opposite, C119_inside, C119_behind (exact); C119_ray_false: the ray queries have no such reading
C120	proved	C120_box, C120_sphere; C120_sphere_false: the rule that holds for the box fails for every sphere of negative radius
