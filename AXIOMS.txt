Mazth.C01_init: depends on axioms: [propext, Classical.choice, Quot.sound]
Mazth.C01_default: depends on axioms: [propext, Classical.choice, Quot.sound]
Mazth.C01_iden: depends on axioms: [propext, Classical.choice, Quot.sound]
Mazth.C01_surjective: depends on axioms: [propext, Classical.choice, Quot.sound]
Mazth.C02_set_get: depends on axioms: [propext, Classical.choice, Quot.sound]
Mazth.C02_index: depends on axioms: [propext, Classical.choice, Quot.sound]
Mazth.C02_indexMut_panics: depends on axioms: [propext, Quot.sound]
Mazth.C02_set_get_any: depends on axioms: [propext, Quot.sound]
Mazth.C02_column_not_checked: depends on axioms: [propext, Classical.choice, Quot.sound]
Mazth.C02_vec_index: depends on axioms: [propext, Quot.sound]
Mazth.C02_vec_set_get: depends on axioms: [propext, Quot.sound]
Mazth.C02_size: depends on axioms: [propext, Classical.choice, Quot.sound]
Mazth.C03_transpose: depends on axioms: [propext, Classical.choice, Quot.sound]
Mazth.C03_involution: depends on axioms: [propext, Classical.choice, Quot.sound]
Mazth.C03_transposeSelf: depends on axioms: [propext, Quot.sound]
Mazth.C03_symmetric: depends on axioms: [propext, Classical.choice, Quot.sound]
Mazth.C03_vec_transpose: depends on axioms: [propext, Quot.sound]
Mazth.C03_vec_involution: does not depend on any axioms
Mazth.C04_mul: depends on axioms: [propext, Classical.choice, Quot.sound]
Mazth.C04_panic: depends on axioms: [propext, Classical.choice, Quot.sound]
Mazth.C04_assoc: depends on axioms: [propext, Classical.choice, Quot.sound]
Mazth.C04_iden: depends on axioms: [propext, Classical.choice, Quot.sound]
Mazth.C04_transpose: depends on axioms: [propext, Classical.choice, Quot.sound]
Mazth.C05_mul: depends on axioms: [propext, Classical.choice, Quot.sound]
Mazth.C05_mulCol: depends on axioms: [propext, Classical.choice, Quot.sound]
Mazth.C05_rowMul: depends on axioms: [propext, Classical.choice, Quot.sound]
Mazth.C05_unary: depends on axioms: [propext, Classical.choice, Quot.sound]
Mazth.C05_elementwise: depends on axioms: [propext, Classical.choice, Quot.sound]
Mazth.C05_submat: depends on axioms: [propext, Classical.choice, Quot.sound]
Mazth.C05_inverse4: depends on axioms: [propext, Classical.choice, Quot.sound]
Mazth.C06_mulCol: depends on axioms: [propext, Classical.choice, Quot.sound]
Mazth.C06_rowMul: depends on axioms: [propext, Classical.choice, Quot.sound]
Mazth.C06_compose: depends on axioms: [propext, Classical.choice, Quot.sound]
Mazth.C06_duality: depends on axioms: [propext, Classical.choice, Quot.sound]
Mazth.C06_duality3: depends on axioms: [propext, Classical.choice, Quot.sound]
Mazth.C06_duality4: depends on axioms: [propext, Classical.choice, Quot.sound]
Mazth.C07_elementwise: depends on axioms: [propext, Classical.choice, Quot.sound]
Mazth.C07_mixed_layouts: depends on axioms: [propext, Classical.choice, Quot.sound]
Mazth.C07_scale: depends on axioms: [propext, Classical.choice, Quot.sound]
Mazth.C08_trace_floats: depends on axioms: [propext, Classical.choice, Quot.sound]
Mazth.C08_trace: depends on axioms: [propext, Classical.choice, Quot.sound]
Mazth.C08_transpose: depends on axioms: [propext, Classical.choice, Quot.sound]
Mazth.C08_cyclic: depends on axioms: [propext, Classical.choice, Quot.sound]
Mazth.C09_dot_comm: depends on axioms: [propext, Quot.sound]
Mazth.C09_dot: depends on axioms: [propext, Classical.choice, Quot.sound]
Mazth.C09_cross: depends on axioms: [propext, Classical.choice, Quot.sound]
Mazth.C09_cross_laws: depends on axioms: [propext, Classical.choice, Quot.sound]
Mazth.C09_none: depends on axioms: [propext, Quot.sound]
Mazth.C10_matrix: depends on axioms: [propext, Quot.sound]
Mazth.C10_magnitude: depends on axioms: [propext, Classical.choice, Quot.sound]
Mazth.C10_laws: depends on axioms: [propext, Classical.choice, Quot.sound]
Mazth.C10_nonneg: depends on axioms: [propext, Classical.choice, Quot.sound]
Mazth.C11_normalize: depends on axioms: [propext, Classical.choice, Quot.sound]
Mazth.C11_zero: depends on axioms: [propext, Classical.choice, Quot.sound]
Mazth.C12_vec: depends on axioms: [propext, Classical.choice, Quot.sound]
Mazth.C12_mat: depends on axioms: [propext, Classical.choice, Quot.sound]
Mazth.C12_layout: depends on axioms: [propext, Quot.sound]
Mazth.C12_refl: depends on axioms: [propext, Classical.choice, Quot.sound]
Mazth.C12_refl_mat: depends on axioms: [propext, Classical.choice, Quot.sound]
Mazth.C12_mono: depends on axioms: [propext, Classical.choice, Quot.sound]
Mazth.C12_mono_mat: depends on axioms: [propext, Classical.choice, Quot.sound]
Mazth.C12_nan: depends on axioms: [propext, Classical.choice, Quot.sound]
Mazth.C12_nan_mat: depends on axioms: [propext, Classical.choice, Quot.sound]
Mazth.C13_partial: depends on axioms: [propext, Classical.choice, Quot.sound]
Mazth.C13_transpose_partial: depends on axioms: [propext, Classical.choice, Quot.sound]
Mazth.C13_correct_iff_symmetric_partial: depends on axioms: [propext, Classical.choice, Quot.sound]
Mazth.C13_false: depends on axioms: [propext, Classical.choice, Quot.sound]
Mazth.C13_f64_false: depends on axioms: [propext, Classical.choice, Quot.sound]
Mazth.C14_partial: depends on axioms: [propext, Classical.choice, Quot.sound]
Mazth.C14_det_one_partial: depends on axioms: [propext, Classical.choice, Quot.sound]
Mazth.C14_entry11_partial: depends on axioms: [propext, Classical.choice, Quot.sound]
Mazth.C14_false: depends on axioms: [propext, Classical.choice, Quot.sound]
Mazth.C14_f64_false: depends on axioms: [propext, Classical.choice, Quot.sound]
Mazth.C14_correct_iff_partial: depends on axioms: [propext, Classical.choice, Quot.sound]
Mazth.C15_normalize: depends on axioms: [propext, Classical.choice, Quot.sound]
Mazth.C15_normalize_real: depends on axioms: [propext, Classical.choice, Quot.sound]
Mazth.C15_scale_real: depends on axioms: [propext, Classical.choice, Quot.sound]
Mazth.C16_submat: depends on axioms: [propext, Classical.choice, Quot.sound]
Mazth.C17_mul: depends on axioms: [propext, Classical.choice, Quot.sound]
Mazth.C17_ops: depends on axioms: [propext, Classical.choice, Quot.sound]
Mazth.C17_assoc: depends on axioms: [propext, Classical.choice, Quot.sound]
Mazth.C17_one: depends on axioms: [propext, Classical.choice, Quot.sound]
Mazth.C17_norm: depends on axioms: [propext, Classical.choice, Quot.sound]
Mazth.C17_conj: depends on axioms: [propext, Classical.choice, Quot.sound]
Mazth.C17_distrib: depends on axioms: [propext, Classical.choice, Quot.sound]
Mazth.C18_inverse: depends on axioms: [propext, Classical.choice, Quot.sound]
Mazth.C19_panic: depends on axioms: [propext, Quot.sound]
Mazth.C19_nan: depends on axioms: [propext, Quot.sound]
Mazth.C19_normalize: depends on axioms: [propext, Classical.choice, Quot.sound]
Mazth.C20_formula: depends on axioms: [propext, Classical.choice, Quot.sound]
Mazth.C20_rotate: depends on axioms: [propext, Classical.choice, Quot.sound]
Mazth.C20_linear: depends on axioms: [propext, Classical.choice, Quot.sound]
Mazth.C20_isometry: depends on axioms: [propext, Classical.choice, Quot.sound]
Mazth.C20_negate: depends on axioms: [propext, Classical.choice, Quot.sound]
Mazth.C20_compose: depends on axioms: [propext, Classical.choice, Quot.sound]
Mazth.C20_inverse: depends on axioms: [propext, Classical.choice, Quot.sound]
Mazth.C20_identity: depends on axioms: [propext, Classical.choice, Quot.sound]
Mazth.C21_apply: depends on axioms: [propext, Classical.choice, Quot.sound]
Mazth.C21_orthogonal: depends on axioms: [propext, Classical.choice, Quot.sound]
Mazth.C21_mul: depends on axioms: [propext, Classical.choice, Quot.sound]
Mazth.C22_rotation_false: depends on axioms: [propext, Classical.choice, Quot.sound]
Mazth.C22_rotation_exact_false: depends on axioms: [propext, Classical.choice, Quot.sound]
Mazth.C22_translation_false: depends on axioms: [propext, Classical.choice, Quot.sound]
Mazth.C22_partial: depends on axioms: [propext, Classical.choice, Quot.sound]
Mazth.C22_inverse_partial: depends on axioms: [propext, Classical.choice, Quot.sound]
Mazth.C23_rodrigues: depends on axioms: [propext, Classical.choice, Quot.sound]
Mazth.C23_degree: depends on axioms: [propext, Classical.choice, Quot.sound]
Mazth.C23_add: depends on axioms: [propext, Classical.choice, Quot.sound]
Mazth.C23_zero_axis: depends on axioms: [propext, Classical.choice, Quot.sound]
Mazth.C24_roundtrip: depends on axioms: [propext, Classical.choice, Quot.sound]
Mazth.C24_rebuild: depends on axioms: [propext, Classical.choice, Quot.sound]
Mazth.C24_cutoff: depends on axioms: [propext, Classical.choice, Quot.sound]
Mazth.C25_affine: depends on axioms: [propext, Classical.choice, Quot.sound]
Mazth.C25_endpoints: depends on axioms: [propext, Classical.choice, Quot.sound]
Mazth.C25_between: depends on axioms: [propext, Classical.choice, Quot.sound]
Mazth.C26_endpoints: depends on axioms: [propext, Classical.choice, Quot.sound]
Mazth.C26_clamp: depends on axioms: [propext, Classical.choice, Quot.sound]
Mazth.C26_unit_partial: depends on axioms: [propext, Classical.choice, Quot.sound]
Mazth.C26_near_partial: depends on axioms: [propext, Classical.choice, Quot.sound]
Mazth.C26_obtuse_false: depends on axioms: [propext, Classical.choice, Quot.sound]
Mazth.C26_unit_false: depends on axioms: [propext, Classical.choice, Quot.sound]
Mazth.C27_panic: depends on axioms: [propext, Classical.choice, Quot.sound]
Mazth.C27_laws: depends on axioms: [propext, Classical.choice, Quot.sound]
Mazth.C28_panic: depends on axioms: [propext, Classical.choice, Quot.sound]
Mazth.C28_never_false: depends on axioms: [propext, Classical.choice, Quot.sound]
Mazth.C28_false: depends on axioms: [propext, Classical.choice, Quot.sound]
Mazth.C28_partial: depends on axioms: [propext, Classical.choice, Quot.sound]
Mazth.C29_inside: depends on axioms: [propext, Classical.choice, Quot.sound]
Mazth.C29_outside: depends on axioms: [propext, Classical.choice, Quot.sound]
Mazth.C30_partial: depends on axioms: [propext, Classical.choice, Quot.sound]
Mazth.C30_false: depends on axioms: [propext, Classical.choice, Quot.sound]
Mazth.C31_reflection: depends on axioms: [propext, Classical.choice, Quot.sound]
Mazth.C31_isometry: depends on axioms: [propext, Classical.choice, Quot.sound]
Mazth.C31_components: depends on axioms: [propext, Classical.choice, Quot.sound]
Mazth.C32_symm: depends on axioms: [propext, Quot.sound]
Mazth.C32_answers: depends on axioms: [propext, Quot.sound]
Mazth.C32_exact: depends on axioms: [propext, Classical.choice, Quot.sound]
Mazth.C32_exact_real: depends on axioms: [propext, Classical.choice, Quot.sound]
Mazth.C32_sphere: depends on axioms: [propext, Quot.sound]
Mazth.C33_discards: depends on axioms: [propext, Quot.sound]
Mazth.C33_union: depends on axioms: [propext, Classical.choice, Quot.sound]
Mazth.C33_least: depends on axioms: [propext, Classical.choice, Quot.sound]
Mazth.C33_points: depends on axioms: [propext, Classical.choice, Quot.sound]
Mazth.C33_order: depends on axioms: [propext, Classical.choice, Quot.sound]
Mazth.C33_empty: depends on axioms: [propext, Classical.choice, Quot.sound]
Mazth.C33_panics: depends on axioms: [propext, Quot.sound]
Mazth.C34_longestAxis_false: depends on axioms: [propext, Classical.choice, Quot.sound]
Mazth.C34_longestAxis_partial: depends on axioms: [propext, Quot.sound]
Mazth.C34_longestAxis_right_partial: depends on axioms: [propext, Quot.sound]
Mazth.C35_midpoint: depends on axioms: [propext, Classical.choice, Quot.sound]
Mazth.C35_inside: depends on axioms: [propext, Classical.choice, Quot.sound]
Mazth.C35_overflow: depends on axioms: [propext, Classical.choice, Quot.sound]
Mazth.C36_encloses: depends on axioms: [propext, Classical.choice, Quot.sound]
Mazth.C36_pretest: depends on axioms: [propext, Classical.choice, Quot.sound]
Mazth.C36_tight: depends on axioms: [propext, Classical.choice, Quot.sound]
Mazth.C37_terminates: depends on axioms: [propext, Classical.choice, Quot.sound]
Mazth.C37_symm: depends on axioms: [propext, Quot.sound]
Mazth.C37_panics: depends on axioms: [propext, Classical.choice, Quot.sound]
Mazth.C37_supported_symm: depends on axioms: [propext]
Mazth.C37_disjoint: depends on axioms: [propext, Quot.sound]
Mazth.C38_flag: depends on axioms: [propext, Classical.choice, Quot.sound]
Mazth.C39_pointPoint: depends on axioms: [propext, Classical.choice, Quot.sound]
Mazth.C39_tolerance_ignored: depends on axioms: [propext, Classical.choice, Quot.sound]
Mazth.C39_exact: depends on axioms: [propext, Classical.choice, Quot.sound]
Mazth.C40_sphereSphere: depends on axioms: [propext, Classical.choice, Quot.sound]
Mazth.C40_zero_radii: depends on axioms: [propext, Classical.choice, Quot.sound]
Mazth.C40_location_false: depends on axioms: [propext, Classical.choice, Quot.sound]
Mazth.C41_cube: depends on axioms: [propext, Classical.choice, Quot.sound]
Mazth.C41_complete: depends on axioms: [propext, Classical.choice, Quot.sound]
Mazth.C41_float_complete: depends on axioms: [propext, Classical.choice, Quot.sound]
Mazth.C41_ball_false: depends on axioms: [propext, Classical.choice, Quot.sound]
Mazth.C42_raySphere: depends on axioms: [propext, Classical.choice, Quot.sound]
Mazth.C43_sound: depends on axioms: [propext, Classical.choice, Quot.sound]
Mazth.C43_rayPlane: depends on axioms: [propext, Classical.choice, Quot.sound]
Mazth.C43_back_false: depends on axioms: [propext, Classical.choice, Quot.sound]
Mazth.C43_f64_false: depends on axioms: [propext, Classical.choice, Quot.sound]
Mazth.C44_spherePlane: depends on axioms: [propext, Classical.choice, Quot.sound]
Mazth.C44_complete: depends on axioms: [propext, Classical.choice, Quot.sound]
Mazth.C44_location: depends on axioms: [propext, Classical.choice, Quot.sound]
Mazth.C44_behind_false: depends on axioms: [propext, Classical.choice, Quot.sound]
Mazth.C44_f64_false: depends on axioms: [propext, Classical.choice, Quot.sound]
Mazth.C45_planePoint: depends on axioms: [propext, Classical.choice, Quot.sound]
Mazth.C45_on_plane: depends on axioms: [propext, Classical.choice, Quot.sound]
Mazth.C46_boxPoint: depends on axioms: [propext, Quot.sound]
Mazth.C46_complete: depends on axioms: [propext, Classical.choice, Quot.sound]
Mazth.C46_exact: depends on axioms: [propext, Classical.choice, Quot.sound]
Mazth.C47_zero_never: depends on axioms: [propext, Classical.choice, Quot.sound]
Mazth.C47_on_ray: depends on axioms: [propext, Classical.choice, Quot.sound]
Mazth.C47_sound: depends on axioms: [propext, Classical.choice, Quot.sound]
Mazth.C47_exact: depends on axioms: [propext, Classical.choice, Quot.sound]
Mazth.C47_zero_false: depends on axioms: [propext, Classical.choice, Quot.sound]
Mazth.C47_f64_false: depends on axioms: [propext, Classical.choice, Quot.sound]
Mazth.C48_meet: depends on axioms: [propext, Classical.choice, Quot.sound]
Mazth.C48_always: depends on axioms: [propext, Classical.choice, Quot.sound]
Mazth.C48_skew_false: depends on axioms: [propext, Classical.choice, Quot.sound]
Mazth.C48_behind_false: depends on axioms: [propext, Classical.choice, Quot.sound]
Mazth.C48_parallel_meet: depends on axioms: [propext, Classical.choice, Quot.sound]
Mazth.C48_parallel_miss: depends on axioms: [propext, Classical.choice, Quot.sound]
Mazth.C48_near_false: depends on axioms: [propext, Classical.choice, Quot.sound]
Mazth.C49_prismPoint: depends on axioms: [propext, Classical.choice, Quot.sound]
Mazth.C49_negative_false: depends on axioms: [propext, Classical.choice, Quot.sound]
Mazth.C49_zero_false: depends on axioms: [propext, Classical.choice, Quot.sound]
Mazth.C50_prismLine: depends on axioms: [propext, Classical.choice, Quot.sound]
Mazth.C50_location: depends on axioms: [propext, Classical.choice, Quot.sound]
Mazth.C50_zero_length: depends on axioms: [propext, Classical.choice, Quot.sound]
Mazth.C50_degenerate_false: depends on axioms: [propext, Classical.choice, Quot.sound]
Mazth.C51_constant: depends on axioms: [propext, Quot.sound]
Mazth.C51_none: depends on axioms: [propext, Quot.sound]
Mazth.C51_sphere: depends on axioms: [propext, Classical.choice, Quot.sound]
Mazth.C51_box: depends on axioms: [propext, Classical.choice, Quot.sound]
Mazth.C51_prism: depends on axioms: [propext, Classical.choice, Quot.sound]
Mazth.C51_zero: depends on axioms: [propext, Classical.choice, Quot.sound]
Mazth.C51_f64_false: depends on axioms: [propext, Classical.choice, Quot.sound]
Mazth.C52_unsupported: depends on axioms: [propext, Quot.sound]
Mazth.C52_panics: depends on axioms: [propext, Classical.choice, Quot.sound]
Mazth.C52_fuel: depends on axioms: [propext, Quot.sound]
Mazth.C52_axis: depends on axioms: [propext, Classical.choice, Quot.sound]
Mazth.C52_sound: depends on axioms: [propext, Classical.choice, Quot.sound]
Mazth.C52_negative: depends on axioms: [propext, Classical.choice, Quot.sound]
Mazth.C52_terminates: depends on axioms: [propext, Classical.choice, Quot.sound]
Mazth.C52_axis_false: depends on axioms: [propext, Classical.choice, Quot.sound]
Mazth.C52_f64_false: depends on axioms: [propext, Classical.choice, Quot.sound]
Mazth.C52_touching: depends on axioms: [propext, Classical.choice, Quot.sound]
Mazth.C52_touching_false: depends on axioms: [propext, Classical.choice, Quot.sound]
Mazth.C52_f64_absorbed_false: depends on axioms: [propext, Classical.choice, Quot.sound]
Mazth.C52_f64_overflow_false: depends on axioms: [propext, Classical.choice, Quot.sound]
Mazth.C52_f64_panic_false: depends on axioms: [propext, Classical.choice, Quot.sound]
Mazth.C53_setVicinity: depends on axioms: [propext, Quot.sound]
Mazth.C53_nonneg: depends on axioms: [propext, Classical.choice, Quot.sound]
Mazth.C53_last: depends on axioms: [propext, Quot.sound]
Mazth.C53_within: depends on axioms: [propext, Classical.choice, Quot.sound]
Mazth.C53_refl: depends on axioms: [propext, Classical.choice, Quot.sound]
Mazth.C53_nan: depends on axioms: [propext, Quot.sound]
Mazth.C53_mono: depends on axioms: [propext, Classical.choice, Quot.sound]
Mazth.C54_componentwise: depends on axioms: [propext, Classical.choice, Quot.sound]
Mazth.C54_comm: depends on axioms: [propext, Classical.choice, Quot.sound]
Mazth.C54_vectorSpace: depends on axioms: [propext, Classical.choice, Quot.sound]
Mazth.C55_constants: depends on axioms: [propext, Classical.choice, Quot.sound]
Mazth.C55_dot: depends on axioms: [propext, Classical.choice, Quot.sound]
Mazth.C55_dot_normal: depends on axioms: [propext, Classical.choice, Quot.sound]
Mazth.C55_magnitude: depends on axioms: [propext, Classical.choice, Quot.sound]
Mazth.C55_normalize: depends on axioms: [propext, Classical.choice, Quot.sound]
Mazth.C55_finite: depends on axioms: [propext, Classical.choice, Quot.sound]
Mazth.C55_normalize_f64: depends on axioms: [propext, Classical.choice, Quot.sound]
Mazth.C55_normalize_f32: depends on axioms: [propext, Classical.choice, Quot.sound]
Mazth.C55_underflow: depends on axioms: [propext, Classical.choice, Quot.sound]
Mazth.C55_magnitude_abs: depends on axioms: [propext, Classical.choice, Quot.sound]
Mazth.C56_negate: depends on axioms: [propext, Quot.sound]
Mazth.C56_mul_one: depends on axioms: [propext, Quot.sound]
Mazth.C56_lerp: depends on axioms: [propext, Classical.choice, Quot.sound]
Mazth.C56_neutral: depends on axioms: [propext, Quot.sound]
Mazth.C57_dual: does not depend on any axioms
Mazth.C57_point: depends on axioms: [propext, Quot.sound]
Mazth.C57_sphere: depends on axioms: [propext, Quot.sound]
Mazth.C57_box: depends on axioms: [propext, Quot.sound]
Mazth.C57_ray: depends on axioms: [propext, Classical.choice, Quot.sound]
Mazth.C57_plane: depends on axioms: [propext, Classical.choice, Quot.sound]
Mazth.C57_line: depends on axioms: [propext, Classical.choice, Quot.sound]
Mazth.C57_prism: depends on axioms: [propext, Classical.choice, Quot.sound]
Mazth.C58_cross: depends on axioms: [propext, Classical.choice, Quot.sound]
Mazth.C58_mul3: depends on axioms: [propext, Classical.choice, Quot.sound]
Mazth.C58_mul4: depends on axioms: [propext, Classical.choice, Quot.sound]
Mazth.C58_mulvec3: depends on axioms: [propext, Classical.choice, Quot.sound]
Mazth.C58_mulvec4: depends on axioms: [propext, Classical.choice, Quot.sound]
Mazth.C58_quat_mul: depends on axioms: [propext, Classical.choice, Quot.sound]
Mazth.C58_rotate: depends on axioms: [propext, Classical.choice, Quot.sound]
Mazth.C58_reflect: depends on axioms: [propext, Classical.choice, Quot.sound]
Mazth.C59_length: depends on axioms: [propext, Classical.choice, Quot.sound]
Mazth.C59_normalize: depends on axioms: [propext, Classical.choice, Quot.sound]
Mazth.C60_encloses: depends on axioms: [propext, Classical.choice, Quot.sound]
Mazth.C60_pretest: depends on axioms: [propext, Classical.choice, Quot.sound]
Mazth.C60_valid: depends on axioms: [propext, Classical.choice, Quot.sound]
Mazth.C60_encloses_false: depends on axioms: [propext, Classical.choice, Quot.sound]
Mazth.C61_sphereSphere: depends on axioms: [propext, Classical.choice, Quot.sound]
Mazth.C61_sphereSphere_f64: depends on axioms: [propext, Classical.choice, Quot.sound]
Mazth.C61_exact_false: depends on axioms: [propext, Classical.choice, Quot.sound]
Mazth.C62_init_answers: depends on axioms: [propext, Quot.sound]
Mazth.C62_init_values: depends on axioms: [propext, Classical.choice, Quot.sound]
Mazth.C62_data: depends on axioms: [propext, Quot.sound]
Mazth.C62_default: depends on axioms: [propext, Classical.choice, Quot.sound]
Mazth.C62_unimplemented: depends on axioms: [propext, Quot.sound]
Mazth.C63_planePoint: depends on axioms: [propext, Classical.choice, Quot.sound]
Mazth.C63_spherePlane: depends on axioms: [propext, Classical.choice, Quot.sound]
Mazth.C63_planePoint_f64: depends on axioms: [propext, Classical.choice, Quot.sound]
Mazth.C63_spherePlane_f64: depends on axioms: [propext, Classical.choice, Quot.sound]
Mazth.C63_exact_false: depends on axioms: [propext, Classical.choice, Quot.sound]
Mazth.C64_boxPoint: depends on axioms: [propext, Classical.choice, Quot.sound]
Mazth.C64_spherePoint: depends on axioms: [propext, Classical.choice, Quot.sound]
Mazth.C64_boxPoint_margin: depends on axioms: [propext, Classical.choice, Quot.sound]
Mazth.C64_spherePoint_margin: depends on axioms: [propext, Classical.choice, Quot.sound]
Mazth.C64_exact_false: depends on axioms: [propext, Classical.choice, Quot.sound]
Mazth.C65_rayPlane: depends on axioms: [propext, Classical.choice, Quot.sound]
Mazth.C65_rayPlane_f64: depends on axioms: [propext, Classical.choice, Quot.sound]
Mazth.C65_exact_false: depends on axioms: [propext, Classical.choice, Quot.sound]
Mazth.C66_chord: depends on axioms: [propext, Classical.choice, Quot.sound]
Mazth.C66_raySphere: depends on axioms: [propext, Classical.choice, Quot.sound]
Mazth.C66_raySphere_f64: depends on axioms: [propext, Classical.choice, Quot.sound]
Mazth.C66_exact_false: depends on axioms: [propext, Classical.choice, Quot.sound]
Mazth.C67_rotate: depends on axioms: [propext, Classical.choice, Quot.sound]
Mazth.C67_roundtrip: depends on axioms: [propext, Classical.choice, Quot.sound]
Mazth.C67_matrix: depends on axioms: [propext, Classical.choice, Quot.sound]
Mazth.C67_matrix_apply: depends on axioms: [propext, Classical.choice, Quot.sound]
Mazth.C67_rotate_f64: depends on axioms: [propext, Classical.choice, Quot.sound]
Mazth.C67_exact_false: depends on axioms: [propext, Classical.choice, Quot.sound]
Mazth.C68_componentwise: depends on axioms: [propext, Classical.choice, Quot.sound]
Mazth.C68_dot: depends on axioms: [propext, Classical.choice, Quot.sound]
Mazth.C68_magnitude: depends on axioms: [propext, Classical.choice, Quot.sound]
Mazth.C68_normalize: depends on axioms: [propext, Classical.choice, Quot.sound]
Mazth.C68_matrix: depends on axioms: [propext, Classical.choice, Quot.sound]
Mazth.C68_homogeneous: depends on axioms: [propext, Classical.choice, Quot.sound]
Mazth.C68_trace: depends on axioms: [propext, Classical.choice, Quot.sound]
Mazth.C68_mul: depends on axioms: [propext, Classical.choice, Quot.sound]
Mazth.C68_mulvec: depends on axioms: [propext, Classical.choice, Quot.sound]
Mazth.C68_normalize_f64: depends on axioms: [propext, Classical.choice, Quot.sound]
Mazth.C68_exact_false: depends on axioms: [propext, Classical.choice, Quot.sound]
Mazth.C68_magnitude_nan: depends on axioms: [propext, Classical.choice, Quot.sound]
Mazth.C69_zero_normal: depends on axioms: [propext, Classical.choice, Quot.sound]
Mazth.C69_zero_direction: depends on axioms: [propext, Classical.choice, Quot.sound]
Mazth.C69_flat_prism: depends on axioms: [propext, Classical.choice, Quot.sound]
Mazth.C69_flat_prism_line: depends on axioms: [propext, Classical.choice, Quot.sound]
Mazth.C69_default_prism: depends on axioms: [propext, Classical.choice, Quot.sound]
Mazth.C69_f64_witness: depends on axioms: [propext, Classical.choice, Quot.sound]
Mazth.C70_bound: depends on axioms: [propext, Quot.sound]
Mazth.C70_nan_sphere: depends on axioms: [propext, Classical.choice, Quot.sound]
Mazth.C70_nan_point: depends on axioms: [propext, Quot.sound]
Mazth.C70_nan_point_true: depends on axioms: [propext, Classical.choice, Quot.sound]
Mazth.C70_f64_witness: depends on axioms: [propext, Classical.choice, Quot.sound]
Mazth.C71_mat4: depends on axioms: [propext, Classical.choice, Quot.sound]
Mazth.C71_mat3: depends on axioms: [propext, Classical.choice, Quot.sound]
Mazth.C71_mat4_f64: depends on axioms: [propext, Classical.choice, Quot.sound]
Mazth.C71_mat3_f64: depends on axioms: [propext, Classical.choice, Quot.sound]
Mazth.C71_singular_false: depends on axioms: [propext, Classical.choice, Quot.sound]
Mazth.C72_irrelevant: depends on axioms: [propext, Quot.sound]
Mazth.C72_mono: depends on axioms: [propext, Classical.choice, Quot.sound]
Mazth.C72_matters: depends on axioms: [propext, Classical.choice, Quot.sound]
Mazth.C73_sphere: depends on axioms: [propext, Classical.choice, Quot.sound]
Mazth.C73_box: depends on axioms: [propext, Classical.choice, Quot.sound]
Mazth.C73_negative_witness: depends on axioms: [propext, Classical.choice, Quot.sound]
Mazth.C74_transpose_mul: depends on axioms: [propext, Classical.choice, Quot.sound]
Mazth.C74_iden: depends on axioms: [propext, Classical.choice, Quot.sound]
Mazth.C74_comm: depends on axioms: [propext, Classical.choice, Quot.sound]
Mazth.C74_distance: depends on axioms: [propext, Classical.choice, Quot.sound]
Mazth.C74_negated: depends on axioms: [propext, Classical.choice, Quot.sound]
Mazth.C74_cross: depends on axioms: [propext, Classical.choice, Quot.sound]
Mazth.C74_scale_one: depends on axioms: [propext, Classical.choice, Quot.sound]
Mazth.C74_double_cover: depends on axioms: [propext, Classical.choice, Quot.sound]
Mazth.C74_quat_one: depends on axioms: [propext, Classical.choice, Quot.sound]
Mazth.C74_sphere_sphere: depends on axioms: [propext, Classical.choice, Quot.sound]
Mazth.C74_point_point: depends on axioms: [propext, Quot.sound]
Mazth.C75_query: depends on axioms: [propext, Classical.choice, Quot.sound]
Mazth.C75_support: depends on axioms: [propext, Classical.choice, Quot.sound]
Mazth.C75_gjk: depends on axioms: [propext, Classical.choice, Quot.sound]
Mazth.C75_bound: depends on axioms: [propext, Classical.choice, Quot.sound]
Mazth.C75_rounding_false: depends on axioms: [propext, Classical.choice, Quot.sound]
Mazth.C76_query: depends on axioms: [propext, Classical.choice, Quot.sound]
Mazth.C76_sphere_point_exact: depends on axioms: [propext, Classical.choice, Quot.sound]
Mazth.C76_sphere_point_false: depends on axioms: [propext, Classical.choice, Quot.sound]
Mazth.C76_prism_false: depends on axioms: [propext, Classical.choice, Quot.sound]
Mazth.C76_nan_false: depends on axioms: [propext, Classical.choice, Quot.sound]
Mazth.C77_box: depends on axioms: [propext, Classical.choice, Quot.sound]
Mazth.C77_prism: depends on axioms: [propext, Classical.choice, Quot.sound]
Mazth.C77_sphere: depends on axioms: [propext, Classical.choice, Quot.sound]
Mazth.C77_box_f64: depends on axioms: [propext, Classical.choice, Quot.sound]
Mazth.C77_sphere_f64: depends on axioms: [propext, Classical.choice, Quot.sound]
Mazth.C77_exact_false: depends on axioms: [propext, Classical.choice, Quot.sound]
Mazth.C78_facets: depends on axioms: [propext, Classical.choice, Quot.sound]
Mazth.C78_prismPoint: depends on axioms: [propext, Classical.choice, Quot.sound]
Mazth.C78_prismPoint_f64: depends on axioms: [propext, Classical.choice, Quot.sound]
Mazth.C78_exact_false: depends on axioms: [propext, Classical.choice, Quot.sound]
Mazth.C79_ends: depends on axioms: [propext, Classical.choice, Quot.sound]
Mazth.C79_sound_partial: depends on axioms: [propext, Classical.choice, Quot.sound]
Mazth.C79_ends_f64: depends on axioms: [propext, Classical.choice, Quot.sound]
Mazth.C79_sound_f64_partial: depends on axioms: [propext, Classical.choice, Quot.sound]
Mazth.C79_crossing_false: depends on axioms: [propext, Classical.choice, Quot.sound]
Mazth.C79_nan_false: depends on axioms: [propext, Classical.choice, Quot.sound]
Mazth.C80_sound: depends on axioms: [propext, Classical.choice, Quot.sound]
Mazth.C80_rejects: depends on axioms: [propext, Classical.choice, Quot.sound]
Mazth.C80_finds: depends on axioms: [propext, Classical.choice, Quot.sound]
Mazth.C80_sound_f64: depends on axioms: [propext, Classical.choice, Quot.sound]
Mazth.C80_finds_f64: depends on axioms: [propext, Classical.choice, Quot.sound]
Mazth.C80_exact_false: depends on axioms: [propext, Classical.choice, Quot.sound]
Mazth.C81_always: depends on axioms: [propext, Classical.choice, Quot.sound]
Mazth.C81_meet: depends on axioms: [propext, Classical.choice, Quot.sound]
Mazth.C81_parallel_far: depends on axioms: [propext, Classical.choice, Quot.sound]
Mazth.C81_parallel_near: depends on axioms: [propext, Classical.choice, Quot.sound]
Mazth.C81_parallel_meet: depends on axioms: [propext, Classical.choice, Quot.sound]
Mazth.C81_meet_f64: depends on axioms: [propext, Classical.choice, Quot.sound]
Mazth.C81_parallel_f64: depends on axioms: [propext, Classical.choice, Quot.sound]
Mazth.C81_exact_false: depends on axioms: [propext, Classical.choice, Quot.sound]
Mazth.C81_parallel_false: depends on axioms: [propext, Classical.choice, Quot.sound]
Mazth.C81_skew_false: depends on axioms: [propext, Classical.choice, Quot.sound]
Mazth.C82_query: depends on axioms: [propext, Classical.choice, Quot.sound]
Mazth.C82_no_panic_f64: depends on axioms: [propext, Classical.choice, Quot.sound]
Mazth.C82_disjoint_f64: depends on axioms: [propext, Classical.choice, Quot.sound]
Mazth.C82_points_f64: depends on axioms: [propext, Classical.choice, Quot.sound]
Mazth.C82_overlap_f64: depends on axioms: [propext, Classical.choice, Quot.sound]
Mazth.C82_exact_false: depends on axioms: [propext, Classical.choice, Quot.sound]
Mazth.C83_terminates_false: depends on axioms: [propext, Classical.choice, Quot.sound]
Mazth.C83_exact: depends on axioms: [propext, Classical.choice, Quot.sound]
Mazth.C83_left_partial: depends on axioms: [propext, Classical.choice, Quot.sound]
Mazth.C84_turns: depends on axioms: [propext, Classical.choice, Quot.sound]
Mazth.C85_point_point: depends on axioms: [propext, Classical.choice, Quot.sound]
Mazth.C85_sphere_sphere: depends on axioms: [propext, Classical.choice, Quot.sound]
Mazth.C85_ray_sphere: depends on axioms: [propext, Classical.choice, Quot.sound]
Mazth.C85_ray_plane: depends on axioms: [propext, Classical.choice, Quot.sound]
Mazth.C85_sphere_plane: depends on axioms: [propext, Classical.choice, Quot.sound]
Mazth.C85_plane_point: depends on axioms: [propext, Classical.choice, Quot.sound]
Mazth.C85_prism_point: depends on axioms: [propext, Classical.choice, Quot.sound]
Mazth.C85_prism_line: depends on axioms: [propext, Classical.choice, Quot.sound]
Mazth.C85_gjk: depends on axioms: [propext, Classical.choice, Quot.sound]
Mazth.C85_quat: depends on axioms: [propext, Classical.choice, Quot.sound]
Mazth.C85_sphere_point_false: depends on axioms: [propext, Classical.choice, Quot.sound]
Mazth.C85_box_point_false: depends on axioms: [propext, Classical.choice, Quot.sound]
Mazth.C85_ray_point_false: depends on axioms: [propext, Classical.choice, Quot.sound]
Mazth.C85_ray_ray_false: depends on axioms: [propext, Classical.choice, Quot.sound]
Mazth.C85_gjk_false: depends on axioms: [propext, Classical.choice, Quot.sound]
Mazth.C86_inverse: depends on axioms: [propext, Classical.choice, Quot.sound]
Mazth.C86_inverse_product: depends on axioms: [propext, Classical.choice, Quot.sound]
Mazth.C86_lerp: depends on axioms: [propext, Classical.choice, Quot.sound]
Mazth.C86_parallel: depends on axioms: [propext, Classical.choice, Quot.sound]
Mazth.C86_orthogonal: depends on axioms: [propext, Classical.choice, Quot.sound]
Mazth.C86_auto_w: depends on axioms: [propext, Classical.choice, Quot.sound]
Mazth.C86_centroid: depends on axioms: [propext, Classical.choice, Quot.sound]
Mazth.C86_inverse_range_false: depends on axioms: [propext, Classical.choice, Quot.sound]
Mazth.C86_lerp_self_false: depends on axioms: [propext, Classical.choice, Quot.sound]
Mazth.C87_axis_angle: depends on axioms: [propext, Classical.choice, Quot.sound]
Mazth.C87_rotate: depends on axioms: [propext, Classical.choice, Quot.sound]
Mazth.C87_degree: depends on axioms: [propext, Classical.choice, Quot.sound]
Mazth.C87_cutoff: depends on axioms: [propext, Classical.choice, Quot.sound]
Mazth.C87_to_axis_angle: depends on axioms: [propext, Classical.choice, Quot.sound]
Mazth.C87_rebuild: depends on axioms: [propext, Classical.choice, Quot.sound]
Mazth.C87_overshoot_false: depends on axioms: [propext, Classical.choice, Quot.sound]
Mazth.C88_slerp: depends on axioms: [propext, Classical.choice, Quot.sound]
Mazth.C88_exact_norm: depends on axioms: [propext, Classical.choice, Quot.sound]
Mazth.C88_linear: depends on axioms: [propext, Quot.sound]
Mazth.C89_pow: depends on axioms: [propext, Classical.choice, Quot.sound]
Mazth.C89_laws: depends on axioms: [propext, Classical.choice, Quot.sound]
Mazth.C89_small_angle_false: depends on axioms: [propext, Classical.choice, Quot.sound]
Mazth.C90_product: depends on axioms: [propext, Classical.choice, Quot.sound]
Mazth.C90_renormalised: depends on axioms: [propext, Classical.choice, Quot.sound]
Mazth.C90_rotate: depends on axioms: [propext, Classical.choice, Quot.sound]
Mazth.C90_product_f64: depends on axioms: [propext, Classical.choice, Quot.sound]
Mazth.C90_renormalised_f64: depends on axioms: [propext, Classical.choice, Quot.sound]
Mazth.C90_rotate_f64: depends on axioms: [propext, Classical.choice, Quot.sound]
Mazth.C90_drift_false: depends on axioms: [propext, Classical.choice, Quot.sound]
Mazth.C91_deep_f64: depends on axioms: [propext, Classical.choice, Quot.sound]
Mazth.C91_separated_false: depends on axioms: [propext, Classical.choice, Quot.sound]
Mazth.C92_vector_linear: depends on axioms: [propext, Classical.choice, Quot.sound]
Mazth.C92_vector_products: depends on axioms: [propext, Classical.choice, Quot.sound]
Mazth.C92_vector_length: depends on axioms: [propext, Classical.choice, Quot.sound]
Mazth.C92_vector_equal: depends on axioms: [propext, Classical.choice, Quot.sound]
Mazth.C92_vector_cross: depends on axioms: [propext, Classical.choice, Quot.sound]
Mazth.C92_matrix_linear: depends on axioms: [propext, Classical.choice, Quot.sound]
Mazth.C92_matrix_products: depends on axioms: [propext, Classical.choice, Quot.sound]
Mazth.C92_inverse: depends on axioms: [propext, Classical.choice, Quot.sound]
Mazth.C92_quat: depends on axioms: [propext, Classical.choice, Quot.sound]
Mazth.C92_quat_inverse: depends on axioms: [propext, Classical.choice, Quot.sound]
Mazth.C92_quat_rotate: depends on axioms: [propext, Classical.choice, Quot.sound]
Mazth.C92_quat_lerp: depends on axioms: [propext, Classical.choice, Quot.sound]
Mazth.C92_inverse_unit_false: depends on axioms: [propext, Classical.choice, Quot.sound]
Mazth.C92_inverse3_false: depends on axioms: [propext, Classical.choice, Quot.sound]
Mazth.C92_range_false: depends on axioms: [propext, Classical.choice, Quot.sound]
Mazth.C93_query: depends on axioms: [propext, Classical.choice, Quot.sound]
Mazth.C93_segment: depends on axioms: [propext, Classical.choice, Quot.sound]
Mazth.C93_rays: depends on axioms: [propext, Classical.choice, Quot.sound]
Mazth.C93_default_false: depends on axioms: [propext, Classical.choice, Quot.sound]
Mazth.C93_rays_tolerance_false: depends on axioms: [propext, Classical.choice, Quot.sound]
Mazth.C94_gjk: depends on axioms: [propext, Classical.choice, Quot.sound]
Mazth.C94_forever: depends on axioms: [propext, Classical.choice, Quot.sound]
Mazth.C94_range_false: depends on axioms: [propext, Classical.choice, Quot.sound]
Mazth.C95_query: depends on axioms: [propext, Classical.choice, Quot.sound]
Mazth.C95_ray_point_false: depends on axioms: [propext, Classical.choice, Quot.sound]
Mazth.C95_y_z_false: depends on axioms: [propext, Classical.choice, Quot.sound]
Mazth.C96_other_axes: depends on axioms: [propext, Classical.choice, Quot.sound]
Mazth.C96_first_axis: depends on axioms: [propext, Classical.choice, Quot.sound]
Mazth.C96_first_axis_false: depends on axioms: [propext, Classical.choice, Quot.sound]
Mazth.C96_exchange_false: depends on axioms: [propext, Classical.choice, Quot.sound]
Mazth.C96_y_z_false: depends on axioms: [propext, Classical.choice, Quot.sound]
Mazth.C97_before: depends on axioms: [propext, Classical.choice, Quot.sound]
Mazth.C97_axis: depends on axioms: [propext, Classical.choice, Quot.sound]
Mazth.C97_behind: depends on axioms: [propext, Classical.choice, Quot.sound]
Mazth.C97_separated_false: depends on axioms: [propext, Classical.choice, Quot.sound]
Mazth.C97_range_false: depends on axioms: [propext, Classical.choice, Quot.sound]
Mazth.C98_product: depends on axioms: [propext, Classical.choice, Quot.sound]
Mazth.C98_apply: depends on axioms: [propext, Classical.choice, Quot.sound]
Mazth.C98_rotations_f64: depends on axioms: [propext, Classical.choice, Quot.sound]
Mazth.C99_reverse: depends on axioms: [propext, Classical.choice, Quot.sound]
Mazth.C99_turn: depends on axioms: [propext, Classical.choice, Quot.sound]
Mazth.C99_power: depends on axioms: [propext, Classical.choice, Quot.sound]
Mazth.C99_subdivide: depends on axioms: [propext, Classical.choice, Quot.sound]
Mazth.C99_double_cover_near: depends on axioms: [propext, Classical.choice, Quot.sound]
Mazth.C99_double_cover_false: depends on axioms: [propext, Classical.choice, Quot.sound]
Mazth.C100_undo: depends on axioms: [propext, Classical.choice, Quot.sound]
Mazth.C100_inverse_repeats: depends on axioms: [propext, Classical.choice, Quot.sound]
Mazth.C100_inverse_iff: depends on axioms: [propext, Classical.choice, Quot.sound]
Mazth.C100_inverse_false: depends on axioms: [propext, Classical.choice, Quot.sound]
Mazth.C100_transpose_float: depends on axioms: [propext, Classical.choice, Quot.sound]
Mazth.C100_rotation_f64: depends on axioms: [propext, Classical.choice, Quot.sound]
Mazth.C101_compose: depends on axioms: [propext, Classical.choice, Quot.sound]
Mazth.C101_undo: depends on axioms: [propext, Classical.choice, Quot.sound]
Mazth.C101_distance: depends on axioms: [propext, Classical.choice, Quot.sound]
Mazth.C101_matrix: depends on axioms: [propext, Classical.choice, Quot.sound]
Mazth.C101_matrix_false: depends on axioms: [propext, Classical.choice, Quot.sound]
Mazth.C101_chain: depends on axioms: [propext, Classical.choice, Quot.sound]
Mazth.C101_undo_float: depends on axioms: [propext, Classical.choice, Quot.sound]
Mazth.C101_chain_f64: depends on axioms: [propext, Classical.choice, Quot.sound]
Mazth.C101_shape_f64: depends on axioms: [propext, Classical.choice, Quot.sound]
Mazth.C101_undo_f64: depends on axioms: [propext, Classical.choice, Quot.sound]
Mazth.C101_undo_false: depends on axioms: [propext, Classical.choice, Quot.sound]
Mazth.C102_least: depends on axioms: [propext, Classical.choice, Quot.sound]
Mazth.C102_shape: depends on axioms: [propext, Classical.choice, Quot.sound]
Mazth.C102_prune: depends on axioms: [propext, Classical.choice, Quot.sound]
Mazth.C102_points: depends on axioms: [propext, Classical.choice, Quot.sound]
Mazth.C102_shapes: depends on axioms: [propext, Classical.choice, Quot.sound]
Mazth.C102_nan_false: depends on axioms: [propext, Classical.choice, Quot.sound]
Mazth.C103_product: depends on axioms: [propext, Classical.choice, Quot.sound]
Mazth.C103_reverse: depends on axioms: [propext, Classical.choice, Quot.sound]
Mazth.C103_involution: depends on axioms: [propext, Classical.choice, Quot.sound]
Mazth.C103_transpose: depends on axioms: [propext, Classical.choice, Quot.sound]
Mazth.C103_solve: depends on axioms: [propext, Classical.choice, Quot.sound]
Mazth.C103_scale: depends on axioms: [propext, Classical.choice, Quot.sound]
Mazth.C103_singular_false: depends on axioms: [propext, Classical.choice, Quot.sound]
Mazth.C103_reverse_false: depends on axioms: [propext, Classical.choice, Quot.sound]
Mazth.C103_f64: depends on axioms: [propext, Classical.choice, Quot.sound]
Mazth.C104_raySphere: depends on axioms: [propext, Classical.choice, Quot.sound]
Mazth.C104_rayPlane: depends on axioms: [propext, Classical.choice, Quot.sound]
Mazth.C104_sphereSphere: depends on axioms: [propext, Classical.choice, Quot.sound]
Mazth.C104_spherePlane: depends on axioms: [propext, Classical.choice, Quot.sound]
Mazth.C104_prismLine: depends on axioms: [propext, Classical.choice, Quot.sound]
Mazth.C104_rayRay: depends on axioms: [propext, Classical.choice, Quot.sound]
Mazth.C104_spherePlane_f64: depends on axioms: [propext, Classical.choice, Quot.sound]
Mazth.C104_rayPlane_f64: depends on axioms: [propext, Classical.choice, Quot.sound]
Mazth.C104_raySphere_false: depends on axioms: [propext, Classical.choice, Quot.sound]
Mazth.C104_rayPlane_false: depends on axioms: [propext, Classical.choice, Quot.sound]
Mazth.C104_spherePlane_false: depends on axioms: [propext, Classical.choice, Quot.sound]
Mazth.C104_rayRay_false: depends on axioms: [propext, Classical.choice, Quot.sound]
Mazth.C105_two: depends on axioms: [propext, Classical.choice, Quot.sound]
Mazth.C105_every: depends on axioms: [propext, Classical.choice, Quot.sound]
Mazth.C105_carry: depends on axioms: [propext, Classical.choice, Quot.sound]
Mazth.C105_handed: depends on axioms: [propext, Classical.choice, Quot.sound]
Mazth.C105_shortest: depends on axioms: [propext, Classical.choice, Quot.sound]
Mazth.C105_negated: depends on axioms: [propext, Classical.choice, Quot.sound]
Mazth.C105_f64: depends on axioms: [propext, Classical.choice, Quot.sound]
Mazth.C105_exact_false: depends on axioms: [propext, Classical.choice, Quot.sound]
Mazth.C105_real_false: depends on axioms: [propext, Classical.choice, Quot.sound]
Mazth.C106_agree: depends on axioms: [propext, Classical.choice, Quot.sound]
Mazth.C106_both: depends on axioms: [propext, Classical.choice, Quot.sound]
Mazth.C106_swap: depends on axioms: [propext, Classical.choice, Quot.sound]
Mazth.C106_touching_false: depends on axioms: [propext, Classical.choice, Quot.sound]
Mazth.C106_axis_false: depends on axioms: [propext, Classical.choice, Quot.sound]
Mazth.C106_f64: depends on axioms: [propext, Classical.choice, Quot.sound]
Mazth.C107_inverse_f64: depends on axioms: [propext, Classical.choice, Quot.sound]
Mazth.C107_rotation_f64: depends on axioms: [propext, Classical.choice, Quot.sound]
Mazth.C107_undo_false: depends on axioms: [propext, Classical.choice, Quot.sound]
Mazth.C108_search: depends on axioms: [propext, Classical.choice, Quot.sound]
Mazth.C108_arrangement: depends on axioms: [propext, Classical.choice, Quot.sound]
Mazth.C108_found: depends on axioms: [propext, Classical.choice, Quot.sound]
Mazth.C108_nan_false: depends on axioms: [propext, Classical.choice, Quot.sound]
Mazth.C109_trace: depends on axioms: [propext, Classical.choice, Quot.sound]
Mazth.C109_free: depends on axioms: [propext, Classical.choice, Quot.sound]
Mazth.C109_order: depends on axioms: [propext, Classical.choice, Quot.sound]
Mazth.C109_tree: depends on axioms: [propext, Classical.choice, Quot.sound]
Mazth.C109_behind_false: depends on axioms: [propext, Classical.choice, Quot.sound]
Mazth.C110_trace_f64: depends on axioms: [propext, Classical.choice, Quot.sound]
Mazth.C110_tree_f64: depends on axioms: [propext, Classical.choice, Quot.sound]
Mazth.C110_first_false: depends on axioms: [propext, Classical.choice, Quot.sound]
Mazth.C111_point: depends on axioms: [propext, Classical.choice, Quot.sound]
Mazth.C111_line: depends on axioms: [propext, Classical.choice, Quot.sound]
Mazth.C111_leak_false: depends on axioms: [propext, Classical.choice, Quot.sound]
Mazth.C112_frame: depends on axioms: [propext, Classical.choice, Quot.sound]
Mazth.C112_apply: depends on axioms: [propext, Classical.choice, Quot.sound]
Mazth.C112_frame_f64: depends on axioms: [propext, Classical.choice, Quot.sound]
Mazth.C112_parallel_false: depends on axioms: [propext, Classical.choice, Quot.sound]
Mazth.C113_sphere: depends on axioms: [propext, Classical.choice, Quot.sound]
Mazth.C113_two: depends on axioms: [propext, Classical.choice, Quot.sound]
Mazth.C113_plane: depends on axioms: [propext, Classical.choice, Quot.sound]
Mazth.C113_f64_false: depends on axioms: [propext, Classical.choice, Quot.sound]
Mazth.C114_fan_point: depends on axioms: [propext, Classical.choice, Quot.sound]
Mazth.C114_fan_line: depends on axioms: [propext, Classical.choice, Quot.sound]
Mazth.C114_stack: depends on axioms: [propext, Classical.choice, Quot.sound]
Mazth.C114_fan_false: depends on axioms: [propext, Classical.choice, Quot.sound]
Mazth.C115_cut: depends on axioms: [propext, Classical.choice, Quot.sound]
Mazth.C115_bisect: depends on axioms: [propext, Classical.choice, Quot.sound]
Mazth.C115_total: depends on axioms: [propext, Classical.choice, Quot.sound]
Mazth.C116_sphere: depends on axioms: [propext, Classical.choice, Quot.sound]
Mazth.C116_box: depends on axioms: [propext, Classical.choice, Quot.sound]
Mazth.C116_computed_false: depends on axioms: [propext, Classical.choice, Quot.sound]
Mazth.C117_segment: depends on axioms: [propext, Classical.choice, Quot.sound]
Mazth.C117_mutual: depends on axioms: [propext, Classical.choice, Quot.sound]
Mazth.C117_plane_false: depends on axioms: [propext, Classical.choice, Quot.sound]
Mazth.C117_f64_false: depends on axioms: [propext, Classical.choice, Quot.sound]
Mazth.C118_scene: depends on axioms: [propext, Classical.choice, Quot.sound]
Mazth.C119_flag: depends on axioms: [propext, Classical.choice, Quot.sound]
Mazth.C119_opposite: depends on axioms: [propext, Classical.choice, Quot.sound]
Mazth.C119_inside: depends on axioms: [propext, Classical.choice, Quot.sound]
Mazth.C119_behind: depends on axioms: [propext, Classical.choice, Quot.sound]
Mazth.C119_ray_false: depends on axioms: [propext, Classical.choice, Quot.sound]
Mazth.C120_box: depends on axioms: [propext, Classical.choice, Quot.sound]
Mazth.C120_sphere: depends on axioms: [propext, Classical.choice, Quot.sound]
Mazth.C120_sphere_false: depends on axioms: [propext, Classical.choice, Quot.sound]
