{
 "claims": [
  {
   "property": "C01",
   "status": "proved",
   "theorems": [
    "Mazth.C01_init",
    "Mazth.C01_default",
    "Mazth.C01_iden",
    "Mazth.C01_surjective"
   ],
   "note": "index after init/default/iden, both flags, any scalar"
  },
  {
   "property": "C02",
   "status": "proved",
   "theorems": [
    "Mazth.C02_set_get",
    "Mazth.C02_index",
    "Mazth.C02_indexMut_panics",
    "Mazth.C02_set_get_any",
    "Mazth.C02_column_not_checked",
    "Mazth.C02_vec_index",
    "Mazth.C02_vec_set_get",
    "Mazth.C02_size"
   ],
   "note": "read-after-write, exact panic condition for debug and release index arithmetic, unchecked column"
  },
  {
   "property": "C03",
   "status": "proved",
   "theorems": [
    "Mazth.C03_transpose",
    "Mazth.C03_involution",
    "Mazth.C03_transposeSelf",
    "Mazth.C03_symmetric",
    "Mazth.C03_vec_transpose",
    "Mazth.C03_vec_involution"
   ],
   "note": "any scalar, both layouts"
  },
  {
   "property": "C04",
   "status": "proved",
   "theorems": [
    "Mazth.C04_mul",
    "Mazth.C04_panic",
    "Mazth.C04_assoc",
    "Mazth.C04_iden",
    "Mazth.C04_transpose"
   ],
   "note": "exact arithmetic; panic condition and bit-level formula for any float"
  },
  {
   "property": "C05",
   "status": "proved",
   "theorems": [
    "Mazth.C05_mul",
    "Mazth.C05_mulCol",
    "Mazth.C05_rowMul",
    "Mazth.C05_unary",
    "Mazth.C05_elementwise",
    "Mazth.C05_submat",
    "Mazth.C05_inverse4"
   ],
   "note": "bit-for-bit, any float format; Mat4::inverse is shown layout independent as well"
  },
  {
   "property": "C06",
   "status": "proved",
   "theorems": [
    "Mazth.C06_mulCol",
    "Mazth.C06_rowMul",
    "Mazth.C06_compose",
    "Mazth.C06_duality",
    "Mazth.C06_duality3",
    "Mazth.C06_duality4"
   ],
   "note": "algebra in exact arithmetic, duality bit-exact"
  },
  {
   "property": "C07",
   "status": "proved",
   "theorems": [
    "Mazth.C07_elementwise",
    "Mazth.C07_mixed_layouts",
    "Mazth.C07_scale"
   ],
   "note": "includes the theorem describing what mixed layouts do"
  },
  {
   "property": "C08",
   "status": "proved",
   "theorems": [
    "Mazth.C08_trace_floats",
    "Mazth.C08_trace",
    "Mazth.C08_transpose",
    "Mazth.C08_cyclic"
   ],
   "note": ""
  },
  {
   "property": "C09",
   "status": "proved",
   "theorems": [
    "Mazth.C09_dot_comm",
    "Mazth.C09_dot",
    "Mazth.C09_cross",
    "Mazth.C09_cross_laws",
    "Mazth.C09_none"
   ],
   "note": "symmetry bit-exact on all floats; algebra in exact arithmetic"
  },
  {
   "property": "C10",
   "status": "proved",
   "theorems": [
    "Mazth.C10_matrix",
    "Mazth.C10_magnitude",
    "Mazth.C10_laws",
    "Mazth.C10_nonneg"
   ],
   "note": "norm laws in exact arithmetic; non-negativity for every lawful float format (binary64, binary32 proved lawful)"
  },
  {
   "property": "C11",
   "status": "proved",
   "theorems": [
    "Mazth.C11_normalize",
    "Mazth.C11_zero"
   ],
   "note": ""
  },
  {
   "property": "C12",
   "status": "proved",
   "theorems": [
    "Mazth.C12_vec",
    "Mazth.C12_mat",
    "Mazth.C12_layout",
    "Mazth.C12_refl",
    "Mazth.C12_refl_mat",
    "Mazth.C12_mono",
    "Mazth.C12_mono_mat",
    "Mazth.C12_nan",
    "Mazth.C12_nan_mat"
   ],
   "note": "exact characterisation over the reals; reflexivity, monotonicity and NaN behaviour for every lawful float format"
  },
  {
   "property": "C13",
   "status": "partial",
   "theorems": [
    "Mazth.C13_partial",
    "Mazth.C13_transpose_partial",
    "Mazth.C13_correct_iff_symmetric_partial",
    "Mazth.C13_false",
    "Mazth.C13_f64_false"
   ],
   "note": "false of the code: the returned matrix is the inverse transpose (C13_false, C13_f64_false). C13_partial: None condition; C13_transpose_partial: the transpose of the result is the inverse."
  },
  {
   "property": "C14",
   "status": "partial",
   "theorems": [
    "Mazth.C14_partial",
    "Mazth.C14_det_one_partial",
    "Mazth.C14_entry11_partial",
    "Mazth.C14_false",
    "Mazth.C14_f64_false",
    "Mazth.C14_correct_iff_partial"
   ],
   "note": "false of the code (C14_false, C14_f64_false); C14_partial gives the exact None condition and entries; C14_correct_iff_partial: the result is the inverse exactly for two families of matrices of determinant -1"
  },
  {
   "property": "C15",
   "status": "proved",
   "theorems": [
    "Mazth.C15_normalize",
    "Mazth.C15_normalize_real",
    "Mazth.C15_scale_real"
   ],
   "note": ""
  },
  {
   "property": "C16",
   "status": "proved",
   "theorems": [
    "Mazth.C16_submat"
   ],
   "note": ""
  },
  {
   "property": "C17",
   "status": "proved",
   "theorems": [
    "Mazth.C17_mul",
    "Mazth.C17_ops",
    "Mazth.C17_assoc",
    "Mazth.C17_one",
    "Mazth.C17_norm",
    "Mazth.C17_conj",
    "Mazth.C17_distrib"
   ],
   "note": "exact arithmetic against Mathlib quaternions"
  },
  {
   "property": "C18",
   "status": "proved",
   "theorems": [
    "Mazth.C18_inverse"
   ],
   "note": "exact arithmetic"
  },
  {
   "property": "C19",
   "status": "proved",
   "theorems": [
    "Mazth.C19_panic",
    "Mazth.C19_nan",
    "Mazth.C19_normalize"
   ],
   "note": "exact arithmetic; panic condition and NaN behaviour for every float"
  },
  {
   "property": "C20",
   "status": "proved",
   "theorems": [
    "Mazth.C20_formula",
    "Mazth.C20_rotate",
    "Mazth.C20_linear",
    "Mazth.C20_isometry",
    "Mazth.C20_negate",
    "Mazth.C20_compose",
    "Mazth.C20_inverse",
    "Mazth.C20_identity"
   ],
   "note": "exact arithmetic"
  },
  {
   "property": "C21",
   "status": "proved",
   "theorems": [
    "Mazth.C21_apply",
    "Mazth.C21_orthogonal",
    "Mazth.C21_mul"
   ],
   "note": "exact arithmetic; also multiplicativity"
  },
  {
   "property": "C22",
   "status": "partial",
   "theorems": [
    "Mazth.C22_rotation_false",
    "Mazth.C22_rotation_exact_false",
    "Mazth.C22_translation_false",
    "Mazth.C22_partial",
    "Mazth.C22_inverse_partial"
   ],
   "note": "false of the code: the column-major matrix is the transpose (C22_rotation_false on binary64, C22_rotation_exact_false on unit quaternions, C22_translation_false). C22_partial: exact transposes of each other for every float; C22_inverse_partial: the column-major one is the inverse rotation."
  },
  {
   "property": "C23",
   "status": "proved",
   "theorems": [
    "Mazth.C23_rodrigues",
    "Mazth.C23_degree",
    "Mazth.C23_add",
    "Mazth.C23_zero_axis"
   ],
   "note": "exact arithmetic with real sin/cos"
  },
  {
   "property": "C24",
   "status": "proved",
   "theorems": [
    "Mazth.C24_roundtrip",
    "Mazth.C24_rebuild",
    "Mazth.C24_cutoff"
   ],
   "note": "exact arithmetic with real sin/cos/acos"
  },
  {
   "property": "C25",
   "status": "proved",
   "theorems": [
    "Mazth.C25_affine",
    "Mazth.C25_endpoints",
    "Mazth.C25_between"
   ],
   "note": "exact arithmetic; float end points in C56"
  },
  {
   "property": "C26",
   "status": "partial",
   "theorems": [
    "Mazth.C26_endpoints",
    "Mazth.C26_clamp",
    "Mazth.C26_unit_partial",
    "Mazth.C26_near_partial",
    "Mazth.C26_obtuse_false",
    "Mazth.C26_unit_false"
   ],
   "note": "unit norm is false of the code for inputs more than 90 degrees apart (C26_unit_false; C26_obtuse_false shows it fails for every such pair). End points and clamping proved; C26_unit_partial and C26_near_partial cover the other inputs."
  },
  {
   "property": "C27",
   "status": "proved",
   "theorems": [
    "Mazth.C27_panic",
    "Mazth.C27_laws"
   ],
   "note": "also pow(n)=q^n and pow(-1)=q^-1"
  },
  {
   "property": "C28",
   "status": "partial",
   "theorems": [
    "Mazth.C28_panic",
    "Mazth.C28_never_false",
    "Mazth.C28_false",
    "Mazth.C28_partial"
   ],
   "note": "false of the code for every quaternion with non-zero vector part (C28_false, C28_never_false); panic condition proved; C28_partial describes the returned value"
  },
  {
   "property": "C29",
   "status": "proved",
   "theorems": [
    "Mazth.C29_inside",
    "Mazth.C29_outside"
   ],
   "note": ""
  },
  {
   "property": "C30",
   "status": "partial",
   "theorems": [
    "Mazth.C30_partial",
    "Mazth.C30_false"
   ],
   "note": "false of the code (C30_false); C30_partial: every (p,1) is mapped to (t/2,1)"
  },
  {
   "property": "C31",
   "status": "proved",
   "theorems": [
    "Mazth.C31_reflection",
    "Mazth.C31_isometry",
    "Mazth.C31_components"
   ],
   "note": ""
  },
  {
   "property": "C32",
   "status": "proved",
   "theorems": [
    "Mazth.C32_symm",
    "Mazth.C32_answers",
    "Mazth.C32_exact",
    "Mazth.C32_exact_real",
    "Mazth.C32_sphere"
   ],
   "note": "symmetry and characterisation for every float; exactness over the reals"
  },
  {
   "property": "C33",
   "status": "proved",
   "theorems": [
    "Mazth.C33_discards",
    "Mazth.C33_union",
    "Mazth.C33_least",
    "Mazth.C33_points",
    "Mazth.C33_order",
    "Mazth.C33_empty",
    "Mazth.C33_panics"
   ],
   "note": "for every float, NaN bounds included"
  },
  {
   "property": "C34",
   "status": "partial",
   "theorems": [
    "Mazth.C34_longestAxis_false",
    "Mazth.C34_longestAxis_partial",
    "Mazth.C34_longestAxis_right_partial"
   ],
   "note": "false of the code: the axes after the first are compared with the wrong extent (C34_longestAxis_false); the partial theorems describe when the answer is right"
  },
  {
   "property": "C35",
   "status": "proved",
   "theorems": [
    "Mazth.C35_midpoint",
    "Mazth.C35_inside",
    "Mazth.C35_overflow"
   ],
   "note": "for every lawful rounding; C35_overflow shows the hypothesis on overflow is needed"
  },
  {
   "property": "C36",
   "status": "proved",
   "theorems": [
    "Mazth.C36_encloses",
    "Mazth.C36_pretest",
    "Mazth.C36_tight"
   ],
   "note": "exact arithmetic; also tightness for the bounded kinds"
  },
  {
   "property": "C37",
   "status": "proved",
   "theorems": [
    "Mazth.C37_terminates",
    "Mazth.C37_symm",
    "Mazth.C37_panics",
    "Mazth.C37_supported_symm",
    "Mazth.C37_disjoint"
   ],
   "note": "for every float"
  },
  {
   "property": "C38",
   "status": "proved",
   "theorems": [
    "Mazth.C38_flag"
   ],
   "note": "for every float"
  },
  {
   "property": "C39",
   "status": "proved",
   "theorems": [
    "Mazth.C39_pointPoint",
    "Mazth.C39_tolerance_ignored",
    "Mazth.C39_exact"
   ],
   "note": "for every float; C39_exact in exact arithmetic"
  },
  {
   "property": "C40",
   "status": "proved",
   "theorems": [
    "Mazth.C40_sphereSphere",
    "Mazth.C40_zero_radii",
    "Mazth.C40_location_false"
   ],
   "note": "exact arithmetic; the location bound holds except for two zero radii at one centre, where it is NaN (C40_zero_radii, C40_location_false)"
  },
  {
   "property": "C41",
   "status": "proved",
   "theorems": [
    "Mazth.C41_cube",
    "Mazth.C41_complete",
    "Mazth.C41_float_complete",
    "Mazth.C41_ball_false"
   ],
   "note": "exact arithmetic, completeness also for floats; C41_ball_false: corner points outside the ball are reported, so the answer is the cube and not the ball"
  },
  {
   "property": "C42",
   "status": "proved",
   "theorems": [
    "Mazth.C42_raySphere"
   ],
   "note": "exact arithmetic"
  },
  {
   "property": "C43",
   "status": "proved",
   "theorems": [
    "Mazth.C43_sound",
    "Mazth.C43_rayPlane",
    "Mazth.C43_back_false",
    "Mazth.C43_f64_false"
   ],
   "note": "exact arithmetic; back-facing hits are missed (C43_back_false) and binary64 rounding loses a hit (C43_f64_false)"
  },
  {
   "property": "C44",
   "status": "proved",
   "theorems": [
    "Mazth.C44_spherePlane",
    "Mazth.C44_complete",
    "Mazth.C44_location",
    "Mazth.C44_behind_false",
    "Mazth.C44_f64_false"
   ],
   "note": "exact arithmetic; spheres behind the plane are reported (C44_behind_false)"
  },
  {
   "property": "C45",
   "status": "proved",
   "theorems": [
    "Mazth.C45_planePoint",
    "Mazth.C45_on_plane"
   ],
   "note": "exact arithmetic, any tolerance"
  },
  {
   "property": "C46",
   "status": "proved",
   "theorems": [
    "Mazth.C46_boxPoint",
    "Mazth.C46_complete",
    "Mazth.C46_exact"
   ],
   "note": "for every float; C46_exact in exact arithmetic"
  },
  {
   "property": "C47",
   "status": "proved",
   "theorems": [
    "Mazth.C47_zero_never",
    "Mazth.C47_on_ray",
    "Mazth.C47_sound",
    "Mazth.C47_exact",
    "Mazth.C47_zero_false",
    "Mazth.C47_f64_false"
   ],
   "note": "exact arithmetic; rays with a zero direction component report nothing (C47_zero_false)"
  },
  {
   "property": "C48",
   "status": "proved",
   "theorems": [
    "Mazth.C48_meet",
    "Mazth.C48_always",
    "Mazth.C48_skew_false",
    "Mazth.C48_behind_false",
    "Mazth.C48_parallel_meet",
    "Mazth.C48_parallel_miss",
    "Mazth.C48_near_false"
   ],
   "note": "exact arithmetic; skew rays and rays meeting behind their origins are reported (C48_skew_false, C48_behind_false), nearly parallel crossing rays are missed (C48_near_false)"
  },
  {
   "property": "C49",
   "status": "proved",
   "theorems": [
    "Mazth.C49_prismPoint",
    "Mazth.C49_negative_false",
    "Mazth.C49_zero_false"
   ],
   "note": "exact arithmetic; a negative height never reports and a zero height reports the whole bounding box (C49_negative_false, C49_zero_false)"
  },
  {
   "property": "C50",
   "status": "proved",
   "theorems": [
    "Mazth.C50_prismLine",
    "Mazth.C50_location",
    "Mazth.C50_zero_length",
    "Mazth.C50_degenerate_false"
   ],
   "note": "exact arithmetic; zero-length segments inside the bounding box but outside the prism are reported with a NaN point (C50_degenerate_false)"
  },
  {
   "property": "C51",
   "status": "proved",
   "theorems": [
    "Mazth.C51_constant",
    "Mazth.C51_none",
    "Mazth.C51_sphere",
    "Mazth.C51_box",
    "Mazth.C51_prism",
    "Mazth.C51_zero",
    "Mazth.C51_f64_false"
   ],
   "note": "exact arithmetic; in binary64 tiny non-zero directions also give None and NaN directions panic for box and prism (C51_f64_false)"
  },
  {
   "property": "C52",
   "status": "proved",
   "theorems": [
    "Mazth.C52_unsupported",
    "Mazth.C52_panics",
    "Mazth.C52_fuel",
    "Mazth.C52_axis",
    "Mazth.C52_sound",
    "Mazth.C52_negative",
    "Mazth.C52_terminates",
    "Mazth.C52_axis_false",
    "Mazth.C52_f64_false",
    "Mazth.C52_touching",
    "Mazth.C52_touching_false",
    "Mazth.C52_f64_absorbed_false",
    "Mazth.C52_f64_overflow_false",
    "Mazth.C52_f64_panic_false"
   ],
   "note": "exact arithmetic: sound off the axis, terminates unless the balls touch; touching balls off the axis are never answered Some(true) and, at an angle that is an irrational multiple of pi, never answered at all (C52_touching_false); on the axis (and for two points) a false positive (C52_axis_false, C52_f64_false); panics characterised for every float; in binary64 also a false positive, a false negative and a panic off the axis (C52_f64_absorbed_false, C52_f64_overflow_false, C52_f64_panic_false)"
  },
  {
   "property": "C53",
   "status": "proved",
   "theorems": [
    "Mazth.C53_setVicinity",
    "Mazth.C53_nonneg",
    "Mazth.C53_last",
    "Mazth.C53_within",
    "Mazth.C53_refl",
    "Mazth.C53_nan",
    "Mazth.C53_mono"
   ],
   "note": ""
  },
  {
   "property": "C54",
   "status": "proved",
   "theorems": [
    "Mazth.C54_componentwise",
    "Mazth.C54_comm",
    "Mazth.C54_vectorSpace"
   ],
   "note": ""
  },
  {
   "property": "C55",
   "status": "proved",
   "theorems": [
    "Mazth.C55_constants",
    "Mazth.C55_dot",
    "Mazth.C55_dot_normal",
    "Mazth.C55_magnitude",
    "Mazth.C55_normalize",
    "Mazth.C55_finite",
    "Mazth.C55_normalize_f64",
    "Mazth.C55_normalize_f32",
    "Mazth.C55_underflow",
    "Mazth.C55_magnitude_abs"
   ],
   "note": "every format with the standard error model (binary32, binary64); the ranges exclude underflowing squares, C55_underflow shows why"
  },
  {
   "property": "C56",
   "status": "proved",
   "theorems": [
    "Mazth.C56_negate",
    "Mazth.C56_mul_one",
    "Mazth.C56_lerp",
    "Mazth.C56_neutral"
   ],
   "note": "for every lawful rounding; binary64 and binary32 are proved lawful"
  },
  {
   "property": "C57",
   "status": "proved",
   "theorems": [
    "Mazth.C57_dual",
    "Mazth.C57_point",
    "Mazth.C57_sphere",
    "Mazth.C57_box",
    "Mazth.C57_ray",
    "Mazth.C57_plane",
    "Mazth.C57_line",
    "Mazth.C57_prism"
   ],
   "note": "for every float"
  },
  {
   "property": "C58",
   "status": "proved",
   "theorems": [
    "Mazth.C58_cross",
    "Mazth.C58_mul3",
    "Mazth.C58_mul4",
    "Mazth.C58_mulvec3",
    "Mazth.C58_mulvec4",
    "Mazth.C58_quat_mul",
    "Mazth.C58_rotate",
    "Mazth.C58_reflect"
   ],
   "note": "every format with the standard error model (binary32, binary64); conditional on the entry being finite"
  },
  {
   "property": "C59",
   "status": "proved",
   "theorems": [
    "Mazth.C59_length",
    "Mazth.C59_normalize"
   ],
   "note": "every format with the standard error model (binary32, binary64)"
  },
  {
   "property": "C60",
   "status": "proved",
   "theorems": [
    "Mazth.C60_encloses",
    "Mazth.C60_pretest",
    "Mazth.C60_valid",
    "Mazth.C60_encloses_false"
   ],
   "note": "every format with a lawful monotone rounding; C60_encloses_false shows that points that are not representable can fall outside the rounded box"
  },
  {
   "property": "C61",
   "status": "proved",
   "theorems": [
    "Mazth.C61_sphereSphere",
    "Mazth.C61_sphereSphere_f64",
    "Mazth.C61_exact_false"
   ],
   "note": "generic RndErr format and the binary64 instance with explicit numbers; C61_exact_false shows the margin is needed"
  },
  {
   "property": "C62",
   "status": "proved",
   "theorems": [
    "Mazth.C62_init_answers",
    "Mazth.C62_init_values",
    "Mazth.C62_data",
    "Mazth.C62_default",
    "Mazth.C62_unimplemented"
   ],
   "note": "every slice length and every float, any rounding"
  },
  {
   "property": "C63",
   "status": "proved",
   "theorems": [
    "Mazth.C63_planePoint",
    "Mazth.C63_spherePlane",
    "Mazth.C63_planePoint_f64",
    "Mazth.C63_spherePlane_f64",
    "Mazth.C63_exact_false"
   ],
   "note": "generic RndErr format and the binary64 instance with explicit numbers; C63_exact_false: with default tolerance a point exactly on the plane is missed and a point at distance above 1/2 is reported"
  },
  {
   "property": "C64",
   "status": "proved",
   "theorems": [
    "Mazth.C64_boxPoint",
    "Mazth.C64_spherePoint",
    "Mazth.C64_boxPoint_margin",
    "Mazth.C64_spherePoint_margin",
    "Mazth.C64_exact_false"
   ],
   "note": "generic RndErr format (binary32 and binary64 are instances); C64_exact_false shows the shell is needed"
  },
  {
   "property": "C65",
   "status": "proved",
   "theorems": [
    "Mazth.C65_rayPlane",
    "Mazth.C65_rayPlane_f64",
    "Mazth.C65_exact_false"
   ],
   "note": "generic and f64 instance; exactness without margin refuted by C65_exact_false"
  },
  {
   "property": "C66",
   "status": "proved",
   "theorems": [
    "Mazth.C66_chord",
    "Mazth.C66_raySphere",
    "Mazth.C66_raySphere_f64",
    "Mazth.C66_exact_false"
   ],
   "note": "generic and f64 instance; C66_chord relates b, D to the ball; exactness without margin refuted by C66_exact_false"
  },
  {
   "property": "C67",
   "status": "proved",
   "theorems": [
    "Mazth.C67_rotate",
    "Mazth.C67_roundtrip",
    "Mazth.C67_matrix",
    "Mazth.C67_matrix_apply",
    "Mazth.C67_rotate_f64",
    "Mazth.C67_exact_false"
   ],
   "note": "generic and f64 instance; exactness refuted by C67_exact_false"
  },
  {
   "property": "C68",
   "status": "proved",
   "theorems": [
    "Mazth.C68_componentwise",
    "Mazth.C68_dot",
    "Mazth.C68_magnitude",
    "Mazth.C68_normalize",
    "Mazth.C68_matrix",
    "Mazth.C68_homogeneous",
    "Mazth.C68_trace",
    "Mazth.C68_mul",
    "Mazth.C68_mulvec",
    "Mazth.C68_normalize_f64",
    "Mazth.C68_exact_false",
    "Mazth.C68_magnitude_nan"
   ],
   "note": "all types; exactness refuted by C68_exact_false"
  },
  {
   "property": "C69",
   "status": "proved",
   "theorems": [
    "Mazth.C69_zero_normal",
    "Mazth.C69_zero_direction",
    "Mazth.C69_flat_prism",
    "Mazth.C69_flat_prism_line",
    "Mazth.C69_default_prism",
    "Mazth.C69_f64_witness"
   ],
   "note": "characterises the answers on degenerate shapes; concrete binary64 witnesses in C69_f64_witness"
  },
  {
   "property": "C70",
   "status": "proved",
   "theorems": [
    "Mazth.C70_bound",
    "Mazth.C70_nan_sphere",
    "Mazth.C70_nan_point",
    "Mazth.C70_nan_point_true",
    "Mazth.C70_f64_witness"
   ],
   "note": "characterises the answers on NaN arguments; concrete binary64 witnesses in C70_f64_witness"
  },
  {
   "property": "C71",
   "status": "proved",
   "theorems": [
    "Mazth.C71_mat4",
    "Mazth.C71_mat3",
    "Mazth.C71_mat4_f64",
    "Mazth.C71_mat3_f64",
    "Mazth.C71_singular_false"
   ],
   "note": "decision margins and entrywise accuracy; C71_singular_false shows the margin cannot be dropped"
  },
  {
   "property": "C72",
   "status": "proved",
   "theorems": [
    "Mazth.C72_irrelevant",
    "Mazth.C72_mono",
    "Mazth.C72_matters"
   ],
   "note": "non-interference by case analysis over the dispatch, monotonicity for all lawful formats, binary64 witnesses that the four dependencies are real"
  },
  {
   "property": "C73",
   "status": "proved",
   "theorems": [
    "Mazth.C73_sphere",
    "Mazth.C73_box",
    "Mazth.C73_negative_witness"
   ],
   "note": "for every lawful format by monotonicity of rounding, with a binary64 witness that negative radii against rays are not monotone"
  },
  {
   "property": "C74",
   "status": "proved",
   "theorems": [
    "Mazth.C74_transpose_mul",
    "Mazth.C74_iden",
    "Mazth.C74_comm",
    "Mazth.C74_distance",
    "Mazth.C74_negated",
    "Mazth.C74_cross",
    "Mazth.C74_scale_one",
    "Mazth.C74_double_cover",
    "Mazth.C74_quat_one",
    "Mazth.C74_sphere_sphere",
    "Mazth.C74_point_point"
   ],
   "note": "for all floats of every lawful format, including NaN and infinities"
  },
  {
   "property": "C75",
   "status": "proved",
   "theorems": [
    "Mazth.C75_query",
    "Mazth.C75_support",
    "Mazth.C75_gjk",
    "Mazth.C75_bound",
    "Mazth.C75_rounding_false"
   ],
   "note": "for exact arithmetic, including NaN and infinite arguments; C75_rounding_false is a binary64 witness that rounding breaks it"
  },
  {
   "property": "C76",
   "status": "proved",
   "theorems": [
    "Mazth.C76_query",
    "Mazth.C76_sphere_point_exact",
    "Mazth.C76_sphere_point_false",
    "Mazth.C76_prism_false",
    "Mazth.C76_nan_false"
   ],
   "note": "for all floats of every lawful format; binary64 witnesses show that the exceptions (sphere-point, odd patterns on prisms, NaN corners) are real"
  },
  {
   "property": "C77",
   "status": "proved",
   "theorems": [
    "Mazth.C77_box",
    "Mazth.C77_prism",
    "Mazth.C77_sphere",
    "Mazth.C77_box_f64",
    "Mazth.C77_sphere_f64",
    "Mazth.C77_exact_false"
   ],
   "note": "explicit error bounds in terms of the unit roundoff, instantiated for binary64; C77_exact_false shows that exact maximality does not survive rounding"
  },
  {
   "property": "C78",
   "status": "proved",
   "theorems": [
    "Mazth.C78_facets",
    "Mazth.C78_prismPoint",
    "Mazth.C78_prismPoint_f64",
    "Mazth.C78_exact_false"
   ],
   "note": "explicit margin in terms of unit roundoff and the conditioning of the base triangle, instantiated for binary64; C78_exact_false shows that some margin is needed"
  },
  {
   "property": "C79",
   "status": "partial",
   "theorems": [
    "Mazth.C79_ends",
    "Mazth.C79_sound_partial",
    "Mazth.C79_ends_f64",
    "Mazth.C79_sound_f64_partial",
    "Mazth.C79_crossing_false",
    "Mazth.C79_nan_false"
   ],
   "note": "ends and sound are proved; complete and finite fail in binary64 and are refuted by witnesses: a segment through the middle of a prism is not reported (C79_crossing_false), and a segment that misses the prism is reported at a location with a NaN coordinate (C79_nan_false)"
  },
  {
   "property": "C80",
   "status": "proved",
   "theorems": [
    "Mazth.C80_sound",
    "Mazth.C80_rejects",
    "Mazth.C80_finds",
    "Mazth.C80_sound_f64",
    "Mazth.C80_finds_f64",
    "Mazth.C80_exact_false"
   ],
   "note": "soundness, rejection and completeness with explicit margins, instantiated for binary64; C80_exact_false shows that some margin is needed"
  },
  {
   "property": "C81",
   "status": "proved",
   "theorems": [
    "Mazth.C81_always",
    "Mazth.C81_meet",
    "Mazth.C81_parallel_far",
    "Mazth.C81_parallel_near",
    "Mazth.C81_parallel_meet",
    "Mazth.C81_meet_f64",
    "Mazth.C81_parallel_f64",
    "Mazth.C81_exact_false",
    "Mazth.C81_parallel_false",
    "Mazth.C81_skew_false"
   ],
   "note": "both branches with explicit margins; meet and parallel parts instantiated for binary64; the gap of width 80 u around the cut-off 0.0001 is left open; C81_exact_false, C81_parallel_false and C81_skew_false show what fails"
  },
  {
   "property": "C82",
   "status": "proved",
   "theorems": [
    "Mazth.C82_query",
    "Mazth.C82_no_panic_f64",
    "Mazth.C82_disjoint_f64",
    "Mazth.C82_points_f64",
    "Mazth.C82_overlap_f64",
    "Mazth.C82_exact_false"
   ],
   "note": "a result for every number of loop turns, by an invariant; termination is not claimed (C83_terminates_false); Some(true) has no such margin (C52_f64_absorbed_false), and outside the range the query panics or is wrong (C52_f64_panic_false, C52_f64_overflow_false); pairs of centres both with first coordinate zero are not covered; C82_exact_false shows the tolerance is needed"
  },
  {
   "property": "C83",
   "status": "partial",
   "theorems": [
    "Mazth.C83_terminates_false",
    "Mazth.C83_exact",
    "Mazth.C83_left_partial"
   ],
   "note": "refuted by C83_terminates_false with a concrete pair and every number of turns; C83_exact shows the same pair ends in exact arithmetic (from C52_terminates); the positive part C83_left_partial covers pairs separated along the first axis in order; termination for other pairs is not classified"
  },
  {
   "property": "C84",
   "status": "proved",
   "theorems": [
    "Mazth.C84_turns"
   ],
   "note": "quantitative form of C52_terminates; touching pairs (g = 0) are excluded because the loop may run for ever on them (C52_touching_false), and rounding breaks the bound (C83_terminates_false)"
  },
  {
   "property": "C85",
   "status": "proved",
   "theorems": [
    "Mazth.C85_point_point",
    "Mazth.C85_sphere_sphere",
    "Mazth.C85_ray_sphere",
    "Mazth.C85_ray_plane",
    "Mazth.C85_sphere_plane",
    "Mazth.C85_plane_point",
    "Mazth.C85_prism_point",
    "Mazth.C85_prism_line",
    "Mazth.C85_gjk",
    "Mazth.C85_quat",
    "Mazth.C85_sphere_point_false",
    "Mazth.C85_box_point_false",
    "Mazth.C85_ray_point_false",
    "Mazth.C85_ray_ray_false",
    "Mazth.C85_gjk_false"
   ],
   "note": "positive part for the eight listed pairs and GJK; the pairs where it fails are refuted with concrete rotated witnesses (C85_sphere_point_false, C85_box_point_false, C85_ray_point_false, C85_ray_ray_false, C85_gjk_false)"
  },
  {
   "property": "C86",
   "status": "proved",
   "theorems": [
    "Mazth.C86_inverse",
    "Mazth.C86_inverse_product",
    "Mazth.C86_lerp",
    "Mazth.C86_parallel",
    "Mazth.C86_orthogonal",
    "Mazth.C86_auto_w",
    "Mazth.C86_centroid",
    "Mazth.C86_inverse_range_false",
    "Mazth.C86_lerp_self_false"
   ],
   "note": "the two failing cases outside the range are C86_inverse_range_false and C86_lerp_self_false"
  },
  {
   "property": "C87",
   "status": "proved",
   "theorems": [
    "Mazth.C87_axis_angle",
    "Mazth.C87_rotate",
    "Mazth.C87_degree",
    "Mazth.C87_cutoff",
    "Mazth.C87_to_axis_angle",
    "Mazth.C87_rebuild",
    "Mazth.C87_overshoot_false"
   ],
   "note": "the accuracy of the mathematical library is a hypothesis (AccLibm), shown satisfiable in binary64 with d = 2^-49 by accLibm64_acc; the failing case |w| > 1 is C87_overshoot_false"
  },
  {
   "property": "C88",
   "status": "proved",
   "theorems": [
    "Mazth.C88_slerp",
    "Mazth.C88_exact_norm",
    "Mazth.C88_linear"
   ],
   "note": "obtuse angles are excluded because the code is wrong there already in exact arithmetic (C26)"
  },
  {
   "property": "C89",
   "status": "proved",
   "theorems": [
    "Mazth.C89_pow",
    "Mazth.C89_laws",
    "Mazth.C89_small_angle_false"
   ],
   "note": "C89_pow (accuracy), C89_laws (norm, natural exponents, inverse), C89_small_angle_false (the dependence on 1/s is real: small rotations lose their vector part). powf accuracy is the hypothesis AccPow, shown satisfiable in binary64 by powLibm64_pow."
  },
  {
   "property": "C90",
   "status": "proved",
   "theorems": [
    "Mazth.C90_product",
    "Mazth.C90_renormalised",
    "Mazth.C90_rotate",
    "Mazth.C90_product_f64",
    "Mazth.C90_renormalised_f64",
    "Mazth.C90_rotate_f64",
    "Mazth.C90_drift_false"
   ],
   "note": "C90_product, C90_renormalised, C90_rotate (general formats), *_f64 (binary64 with normalised inputs), C90_drift_false (why the product without normalisation needs a bound on n)"
  },
  {
   "property": "C91",
   "status": "proved",
   "theorems": [
    "Mazth.C91_deep_f64",
    "Mazth.C91_separated_false"
   ],
   "note": "C91_deep_f64 (two turns, Some(true)), C91_separated_false (concrete spheres far apart reported as intersecting in binary64)"
  },
  {
   "property": "C92",
   "status": "proved",
   "theorems": [
    "Mazth.C92_vector_linear",
    "Mazth.C92_vector_products",
    "Mazth.C92_vector_length",
    "Mazth.C92_vector_equal",
    "Mazth.C92_vector_cross",
    "Mazth.C92_matrix_linear",
    "Mazth.C92_matrix_products",
    "Mazth.C92_inverse",
    "Mazth.C92_quat",
    "Mazth.C92_quat_inverse",
    "Mazth.C92_quat_rotate",
    "Mazth.C92_quat_lerp",
    "Mazth.C92_inverse_unit_false",
    "Mazth.C92_inverse3_false",
    "Mazth.C92_range_false"
   ],
   "note": "C92_vector_* / C92_matrix_* / C92_inverse / C92_quat*; C92_inverse_unit_false (absolute singularity test), C92_inverse3_false (Mat3::inverse not homogeneous), C92_range_false (2^-600)"
  },
  {
   "property": "C93",
   "status": "proved",
   "theorems": [
    "Mazth.C93_query",
    "Mazth.C93_segment",
    "Mazth.C93_rays",
    "Mazth.C93_default_false",
    "Mazth.C93_rays_tolerance_false"
   ],
   "note": "C93_query, C93_segment, C93_rays; C93_default_false (default tolerance), C93_rays_tolerance_false (tolerance of two rays is not a length)"
  },
  {
   "property": "C94",
   "status": "proved",
   "theorems": [
    "Mazth.C94_gjk",
    "Mazth.C94_forever",
    "Mazth.C94_range_false"
   ],
   "note": "C94_gjk; C94_forever (the never-ending run of C83 in all units within 35 places); C94_range_false (underflow of the search direction)"
  },
  {
   "property": "C95",
   "status": "proved",
   "theorems": [
    "Mazth.C95_query",
    "Mazth.C95_ray_point_false",
    "Mazth.C95_y_z_false"
   ],
   "note": "C95_query; C95_ray_point_false (flag changes under the exchange of x and y at tolerance 1/2); C95_y_z_false (exchange of y and z)"
  },
  {
   "property": "C96",
   "status": "proved",
   "theorems": [
    "Mazth.C96_other_axes",
    "Mazth.C96_first_axis",
    "Mazth.C96_first_axis_false",
    "Mazth.C96_exchange_false",
    "Mazth.C96_y_z_false"
   ],
   "note": "C96_other_axes; C96_first_axis (with the spheres exchanged); C96_first_axis_false, C96_exchange_false (balls apart found in one order only), C96_y_z_false"
  },
  {
   "property": "C97",
   "status": "proved",
   "theorems": [
    "Mazth.C97_before",
    "Mazth.C97_axis",
    "Mazth.C97_behind",
    "Mazth.C97_separated_false",
    "Mazth.C97_range_false"
   ],
   "note": "C97_before, C97_axis, C97_behind; C97_separated_false (unit balls 2^100 apart reported as intersecting); C97_range_false (beyond the range overlapping balls are reported apart)"
  },
  {
   "property": "C98",
   "status": "proved",
   "theorems": [
    "Mazth.C98_product",
    "Mazth.C98_apply",
    "Mazth.C98_rotations_f64"
   ],
   "note": "C98_product, C98_apply for any lawful format, both matrix types; C98_rotations_f64 from quaternions to the final matrix"
  },
  {
   "property": "C99",
   "status": "proved",
   "theorems": [
    "Mazth.C99_reverse",
    "Mazth.C99_turn",
    "Mazth.C99_power",
    "Mazth.C99_subdivide",
    "Mazth.C99_double_cover_near",
    "Mazth.C99_double_cover_false"
   ],
   "note": "C99_reverse, C99_turn without restriction on the angle; C99_power, C99_subdivide for unit ends at most 90 degrees apart (beyond, C26_obtuse_false); C99_double_cover_near, C99_double_cover_false"
  },
  {
   "property": "C100",
   "status": "proved",
   "theorems": [
    "Mazth.C100_undo",
    "Mazth.C100_inverse_repeats",
    "Mazth.C100_inverse_iff",
    "Mazth.C100_inverse_false",
    "Mazth.C100_transpose_float",
    "Mazth.C100_rotation_f64"
   ],
   "note": "C100_undo (four ways), C100_inverse_repeats, C100_inverse_iff, C100_inverse_false in exact arithmetic; C100_transpose_float for any lawful format, C100_rotation_f64"
  },
  {
   "property": "C101",
   "status": "proved",
   "theorems": [
    "Mazth.C101_compose",
    "Mazth.C101_undo",
    "Mazth.C101_distance",
    "Mazth.C101_matrix",
    "Mazth.C101_matrix_false",
    "Mazth.C101_chain",
    "Mazth.C101_undo_float",
    "Mazth.C101_chain_f64",
    "Mazth.C101_shape_f64",
    "Mazth.C101_undo_f64",
    "Mazth.C101_undo_false"
   ],
   "note": "C101_compose, C101_undo, C101_distance, C101_matrix exact; C101_chain, C101_undo_float any lawful format; C101_chain_f64, C101_shape_f64, C101_undo_f64; C101_undo_false, C101_matrix_false show what fails"
  },
  {
   "property": "C102",
   "status": "proved",
   "theorems": [
    "Mazth.C102_least",
    "Mazth.C102_shape",
    "Mazth.C102_prune",
    "Mazth.C102_points",
    "Mazth.C102_shapes",
    "Mazth.C102_nan_false"
   ],
   "note": "C102_least, C102_shape, C102_prune, C102_points for every tree; C102_shapes connects it with the shape constructors; C102_nan_false shows why the leaf must have no NaN"
  },
  {
   "property": "C103",
   "status": "proved",
   "theorems": [
    "Mazth.C103_product",
    "Mazth.C103_reverse",
    "Mazth.C103_involution",
    "Mazth.C103_transpose",
    "Mazth.C103_solve",
    "Mazth.C103_scale",
    "Mazth.C103_singular_false",
    "Mazth.C103_reverse_false",
    "Mazth.C103_f64"
   ],
   "note": "C103_product, C103_reverse, C103_involution, C103_transpose, C103_solve, C103_scale exact; C103_reverse_false and C103_singular_false refute the textbook law and scale invariance; C103_f64 shows two cases in binary64"
  },
  {
   "property": "C104",
   "status": "proved",
   "theorems": [
    "Mazth.C104_raySphere",
    "Mazth.C104_rayPlane",
    "Mazth.C104_sphereSphere",
    "Mazth.C104_spherePlane",
    "Mazth.C104_prismLine",
    "Mazth.C104_rayRay",
    "Mazth.C104_spherePlane_f64",
    "Mazth.C104_rayPlane_f64",
    "Mazth.C104_raySphere_false",
    "Mazth.C104_rayPlane_false",
    "Mazth.C104_spherePlane_false",
    "Mazth.C104_rayRay_false"
   ],
   "note": "C104_raySphere, C104_rayPlane, C104_sphereSphere, C104_spherePlane, C104_prismLine, C104_rayRay exact; C104_spherePlane_f64, C104_rayPlane_f64 in binary64; C104_raySphere_false, C104_rayPlane_false, C104_spherePlane_false, C104_rayRay_false are witnesses of the exceptions stated in the property"
  },
  {
   "property": "C105",
   "status": "proved",
   "theorems": [
    "Mazth.C105_two",
    "Mazth.C105_every",
    "Mazth.C105_carry",
    "Mazth.C105_handed",
    "Mazth.C105_shortest",
    "Mazth.C105_negated",
    "Mazth.C105_f64",
    "Mazth.C105_exact_false",
    "Mazth.C105_real_false"
   ],
   "note": "C105_two, C105_every, C105_carry, C105_handed, C105_shortest exact; C105_negated in every format; C105_f64 error bounds; C105_exact_false (rounding: two reflections need not give the vector back), C105_real_false (a real part breaks the mirror)"
  },
  {
   "property": "C106",
   "status": "proved",
   "theorems": [
    "Mazth.C106_agree",
    "Mazth.C106_both",
    "Mazth.C106_swap",
    "Mazth.C106_touching_false",
    "Mazth.C106_axis_false",
    "Mazth.C106_f64"
   ],
   "note": "C106_agree, C106_both, C106_swap exact; C106_f64 binary64; C106_touching_false and C106_axis_false show that the two exclusions are needed"
  },
  {
   "property": "C107",
   "status": "proved",
   "theorems": [
    "Mazth.C107_inverse_f64",
    "Mazth.C107_rotation_f64",
    "Mazth.C107_undo_false"
   ],
   "note": "C107_inverse_f64, C107_rotation_f64; C107_undo_false: the inverse does not undo the rotation"
  },
  {
   "property": "C108",
   "status": "proved",
   "theorems": [
    "Mazth.C108_search",
    "Mazth.C108_arrangement",
    "Mazth.C108_found",
    "Mazth.C108_nan_false"
   ],
   "note": "C108_search, C108_arrangement, C108_found in every format; C108_nan_false shows that NaN bounds must be excluded"
  },
  {
   "property": "C109",
   "status": "proved",
   "theorems": [
    "Mazth.C109_trace",
    "Mazth.C109_free",
    "Mazth.C109_order",
    "Mazth.C109_tree",
    "Mazth.C109_behind_false"
   ],
   "note": "C109_trace, C109_free, C109_order, C109_tree in exact arithmetic; C109_behind_false (binary64) shows that planes seen from behind must be excluded"
  },
  {
   "property": "C110",
   "status": "proved",
   "theorems": [
    "Mazth.C110_trace_f64",
    "Mazth.C110_tree_f64",
    "Mazth.C110_first_false"
   ],
   "note": "C110_trace_f64, C110_tree_f64; C110_first_false shows that the tolerance is needed"
  },
  {
   "property": "C111",
   "status": "proved",
   "theorems": [
    "Mazth.C111_point",
    "Mazth.C111_line",
    "Mazth.C111_leak_false"
   ],
   "note": "C111_point and C111_line in exact arithmetic; C111_leak_false is the f64 witness"
  },
  {
   "property": "C112",
   "status": "proved",
   "theorems": [
    "Mazth.C112_frame",
    "Mazth.C112_apply",
    "Mazth.C112_frame_f64",
    "Mazth.C112_parallel_false"
   ],
   "note": "C112_frame, C112_apply (exact); C112_frame_f64; C112_parallel_false shows that the condition on the angle is needed"
  },
  {
   "property": "C113",
   "status": "proved",
   "theorems": [
    "Mazth.C113_sphere",
    "Mazth.C113_two",
    "Mazth.C113_plane",
    "Mazth.C113_f64_false"
   ],
   "note": "C113_sphere, C113_plane, C113_two (exact; two moving balls); C113_f64_false: a concrete path in binary64 on which the two queries disagree"
  },
  {
   "property": "C114",
   "status": "proved",
   "theorems": [
    "Mazth.C114_fan_point",
    "Mazth.C114_fan_line",
    "Mazth.C114_stack",
    "Mazth.C114_fan_false"
   ],
   "note": "C114_fan_point, C114_fan_line, C114_stack (exact); C114_fan_false: the cut leaks in binary64"
  },
  {
   "property": "C115",
   "status": "proved",
   "theorems": [
    "Mazth.C115_cut",
    "Mazth.C115_bisect",
    "Mazth.C115_total"
   ],
   "note": "C115_cut, C115_bisect, C115_total; exact arithmetic"
  },
  {
   "property": "C116",
   "status": "proved",
   "theorems": [
    "Mazth.C116_sphere",
    "Mazth.C116_box",
    "Mazth.C116_computed_false"
   ],
   "note": "C116_sphere, C116_box for every lawful format; C116_computed_false: a position computed from the ends may be beyond them"
  },
  {
   "property": "C117",
   "status": "proved",
   "theorems": [
    "Mazth.C117_segment",
    "Mazth.C117_mutual",
    "Mazth.C117_plane_false",
    "Mazth.C117_f64_false"
   ],
   "note": "C117_segment, C117_mutual (exact); C117_plane_false, C117_f64_false: where sight is not mutual"
  },
  {
   "property": "C118",
   "status": "proved",
   "theorems": [
    "Mazth.C118_scene"
   ],
   "note": "C118_scene (exact); the growing of the obstacles and the fold over the scene are the client's, not code of the crate"
  },
  {
   "property": "C119",
   "status": "proved",
   "theorems": [
    "Mazth.C119_flag",
    "Mazth.C119_opposite",
    "Mazth.C119_inside",
    "Mazth.C119_behind",
    "Mazth.C119_ray_false"
   ],
   "note": "C119_flag, C119_opposite, C119_inside, C119_behind (exact); C119_ray_false: the ray queries have no such reading"
  },
  {
   "property": "C120",
   "status": "proved",
   "theorems": [
    "Mazth.C120_box",
    "Mazth.C120_sphere",
    "Mazth.C120_sphere_false"
   ],
   "note": "C120_box, C120_sphere; C120_sphere_false: the rule that holds for the box fails for every sphere of negative radius"
  }
 ]
}