{
 "claims": [
  {
   "property": "C01",
   "status": "proved",
   "theorems": [
    "Vecmat.C01_mat_init_calls",
    "Vecmat.C01_init_pure",
    "Vecmat.C01_mat_init_pure",
    "Vecmat.C01_mat_fill",
    "Vecmat.C01_mat_default",
    "Vecmat.C01_init_calls",
    "Vecmat.C01_init_at",
    "Vecmat.C01_init_count_ok",
    "Vecmat.C01_init_fault",
    "Vecmat.C01_fill",
    "Vecmat.C01_default"
   ],
   "note": ""
  },
  {
   "property": "C02",
   "status": "proved",
   "theorems": [
    "Vecmat.C02_mat_try_from_iter_refines",
    "Vecmat.C02_try_from_iter_refines",
    "Vecmat.C02_some_iff",
    "Vecmat.C02_none_iff",
    "Vecmat.C02_count",
    "Vecmat.C02_fault",
    "Vecmat.C02_list"
   ],
   "note": ""
  },
  {
   "property": "C03",
   "status": "proved",
   "theorems": [
    "Vecmat.C03_group_chunks",
    "Vecmat.C03_group_concat",
    "Vecmat.C03_group_zero"
   ],
   "note": ""
  },
  {
   "property": "C04",
   "status": "proved",
   "theorems": [
    "Vecmat.C04_mat_map_calls",
    "Vecmat.C04_mat_map_get",
    "Vecmat.C04_mat_map_log",
    "Vecmat.C04_mat_for_each_log",
    "Vecmat.C04_map_calls",
    "Vecmat.C04_map_get",
    "Vecmat.C04_map_log",
    "Vecmat.C04_for_each_log"
   ],
   "note": ""
  },
  {
   "property": "C05",
   "status": "proved",
   "theorems": [
    "Vecmat.C05_mat_zip_get",
    "Vecmat.C05_mat_unzip_zip",
    "Vecmat.C05_mat_zip_unzip",
    "Vecmat.C05_zip_get",
    "Vecmat.C05_zip_ok",
    "Vecmat.C05_unzip_ok",
    "Vecmat.C05_unzip_zip",
    "Vecmat.C05_zip_unzip"
   ],
   "note": ""
  },
  {
   "property": "C06",
   "status": "proved",
   "theorems": [
    "Vecmat.C06_fold_first_panics_exact",
    "Vecmat.C06_fold",
    "Vecmat.C06_fold_calls",
    "Vecmat.C06_fold_first",
    "Vecmat.C06_fold_first_panics",
    "Vecmat.C06_scan",
    "Vecmat.C06_scan_pure"
   ],
   "note": ""
  },
  {
   "property": "C07",
   "status": "proved",
   "theorems": [
    "Vecmat.C07_mat_index_get",
    "Vecmat.C07_mat_index_panics",
    "Vecmat.C07_mat_index_set_panics",
    "Vecmat.C07_mat_index_set",
    "Vecmat.C07_mat_get_unchecked",
    "Vecmat.C07_mat_set_unchecked",
    "Vecmat.C07_index_panics_exact",
    "Vecmat.C07_mat_index_panics_exact",
    "Vecmat.C07_index_get",
    "Vecmat.C07_index_panics",
    "Vecmat.C07_index_set_panics",
    "Vecmat.C07_index_set",
    "Vecmat.C07_get_unchecked"
   ],
   "note": ""
  },
  {
   "property": "C08",
   "status": "proved",
   "theorems": [
    "Vecmat.C08_mat_indices_ok",
    "Vecmat.C08_mat_indices",
    "Vecmat.C08_indices",
    "Vecmat.C08_indices_ok",
    "Vecmat.C08_enumerate"
   ],
   "note": ""
  },
  {
   "property": "C09",
   "status": "proved",
   "theorems": [
    "Vecmat.C09_mat_roundtrip",
    "Vecmat.C09_mat_positions",
    "Vecmat.C09_array_roundtrip",
    "Vecmat.C09_tuple2",
    "Vecmat.C09_tuple3",
    "Vecmat.C09_tuple4",
    "Vecmat.C09_components",
    "Vecmat.C09_component_mut"
   ],
   "note": ""
  },
  {
   "property": "C10",
   "status": "proved",
   "theorems": [
    "Vecmat.C10_mat_try_from_slice",
    "Vecmat.C10_mat_try_from_slice_of_vectors",
    "Vecmat.C10_try_from_slice"
   ],
   "note": ""
  },
  {
   "property": "C11",
   "status": "proved",
   "theorems": [
    "Vecmat.C11_init_good",
    "Vecmat.C11_try_from_iter_good",
    "Vecmat.C11_matrix_init_good",
    "Vecmat.C11_matrix_try_from_iter_good",
    "Vecmat.C11_init",
    "Vecmat.C11_try_from_iter_some",
    "Vecmat.C11_try_from_iter_none",
    "Vecmat.C11_matrix_try_from_iter",
    "Vecmat.C11_matrix_init",
    "Vecmat.C11_matrix_init_no_drop",
    "Vecmat.C11_matrix_try_from_iter_some",
    "Vecmat.C11_no_double_drop",
    "Vecmat.C11_unzip",
    "Vecmat.C11_transpose",
    "Vecmat.C11_init_refines",
    "Vecmat.C11_try_from_iter_refines",
    "Vecmat.C11_matrix_init_refines",
    "Vecmat.C11_matrix_try_from_iter_refines"
   ],
   "note": ""
  },
  {
   "property": "C12",
   "status": "proved",
   "theorems": [
    "Vecmat.C12_init",
    "Vecmat.C12_try_from_iter",
    "Vecmat.C12_try_from_iter_iter_panics",
    "Vecmat.C12_matrix_init",
    "Vecmat.C12_matrix_try_from_iter_iter_panics"
   ],
   "note": ""
  },
  {
   "property": "C13",
   "status": "proved",
   "theorems": [
    "Vecmat.C13_mat_arith",
    "Vecmat.C13_mat_scalar",
    "Vecmat.C13_mat_bits",
    "Vecmat.C13_vec_arith",
    "Vecmat.C13_vec_scalar",
    "Vecmat.C13_vec_bits"
   ],
   "note": ""
  },
  {
   "property": "C14",
   "status": "proved",
   "theorems": [
    "Vecmat.C14_mat_assign",
    "Vecmat.C14_mat_assign_scalar",
    "Vecmat.C14_mat_assign_bits",
    "Vecmat.C14_mat_assign_panics",
    "Vecmat.C14_mat_assign_panics_exact",
    "Vecmat.C14_vec_assign",
    "Vecmat.C14_vec_assign_scalar",
    "Vecmat.C14_vec_assign_bits"
   ],
   "note": ""
  },
  {
   "property": "C15",
   "status": "proved",
   "theorems": [
    "Vecmat.C15_mat_add_group",
    "Vecmat.C15_mat_module",
    "Vecmat.C15_mat_zero",
    "Vecmat.C15_mat_is_zero",
    "Vecmat.C15_mat_is_zero_panics",
    "Vecmat.C15_vec_add_group",
    "Vecmat.C15_vec_module",
    "Vecmat.C15_vec_zero",
    "Vecmat.C15_vec_is_zero"
   ],
   "note": ""
  },
  {
   "property": "C16",
   "status": "proved",
   "theorems": [
    "Vecmat.C16_mat_sum_order",
    "Vecmat.C16_mat_sum_exact",
    "Vecmat.C16_mat_sum_panics",
    "Vecmat.C16_panics_exact",
    "Vecmat.C16_mat_sum_panics_exact",
    "Vecmat.C16_sum_order",
    "Vecmat.C16_dot_order",
    "Vecmat.C16_sum_exact",
    "Vecmat.C16_dot_exact",
    "Vecmat.C16_empty_panics",
    "Vecmat.C16_no_panic"
   ],
   "note": ""
  },
  {
   "property": "C17",
   "status": "proved",
   "theorems": [
    "Vecmat.C17_mat_max",
    "Vecmat.C17_mat_min",
    "Vecmat.C17_mat_panics",
    "Vecmat.C17_panics_exact",
    "Vecmat.C17_mat_panics_exact",
    "Vecmat.C17_max",
    "Vecmat.C17_min",
    "Vecmat.C17_panics",
    "Vecmat.C17_nonempty",
    "Vecmat.C17_nan_refuted"
   ],
   "note": ""
  },
  {
   "property": "C18",
   "status": "proved",
   "theorems": [
    "Vecmat.C18_mat_norm_values",
    "Vecmat.C18_mat_norms",
    "Vecmat.C18_mat_norm_order",
    "Vecmat.C18_panics_exact",
    "Vecmat.C18_mat_panics_exact",
    "Vecmat.C18_norm_values",
    "Vecmat.C18_l2_sqr",
    "Vecmat.C18_l1_norm",
    "Vecmat.C18_l2_norm",
    "Vecmat.C18_linf_norm",
    "Vecmat.C18_norm_order"
   ],
   "note": ""
  },
  {
   "property": "C19",
   "status": "proved",
   "theorems": [
    "Vecmat.C19_dot_bilinear",
    "Vecmat.C19_dot_self",
    "Vecmat.C19_cauchy_schwarz"
   ],
   "note": ""
  },
  {
   "property": "C20",
   "status": "proved",
   "theorems": [
    "Vecmat.C20_length_pos",
    "Vecmat.C20_normalize",
    "Vecmat.C20_normalize_unit",
    "Vecmat.C20_normalize_idem"
   ],
   "note": ""
  },
  {
   "property": "C21",
   "status": "proved",
   "theorems": [
    "Vecmat.C21_cross3_algebra",
    "Vecmat.C21_cross3_geometry",
    "Vecmat.C21_cross2",
    "Vecmat.C21_cross4"
   ],
   "note": ""
  },
  {
   "property": "C22",
   "status": "proved",
   "theorems": [
    "Vecmat.C22_mat_masks_eq",
    "Vecmat.C22_mat_masks_ord",
    "Vecmat.C22_mat_masks_total",
    "Vecmat.C22_mat_any_all",
    "Vecmat.C22_mat_any_all_panics",
    "Vecmat.C22_masks_eq",
    "Vecmat.C22_masks_ord",
    "Vecmat.C22_masks_total",
    "Vecmat.C22_nan_refuted",
    "Vecmat.C22_any_all"
   ],
   "note": ""
  },
  {
   "property": "C23",
   "status": "proved",
   "theorems": [
    "Vecmat.C23_mat_floor",
    "Vecmat.C23_mat_div_mod",
    "Vecmat.C23_vec_floor",
    "Vecmat.C23_vec_div_mod"
   ],
   "note": ""
  },
  {
   "property": "C24",
   "status": "proved",
   "theorems": [
    "Vecmat.C24_mat_sum",
    "Vecmat.C24_mat_product",
    "Vecmat.C24_mat_empty",
    "Vecmat.C24_vec_sum",
    "Vecmat.C24_vec_product",
    "Vecmat.C24_vec_empty"
   ],
   "note": ""
  },
  {
   "property": "C25",
   "status": "proved",
   "theorems": [
    "Vecmat.C25_vector_unary",
    "Vecmat.C25_vector_binary",
    "Vecmat.C25_vector_powi",
    "Vecmat.C25_vector_ternary",
    "Vecmat.C25_vector_sin_cos",
    "Vecmat.C25_vector_clamp",
    "Vecmat.C25_vector_real",
    "Vecmat.C25_matrix_unary",
    "Vecmat.C25_matrix_binary",
    "Vecmat.C25_matrix_powi",
    "Vecmat.C25_matrix_ternary",
    "Vecmat.C25_matrix_sin_cos",
    "Vecmat.C25_matrix_clamp",
    "Vecmat.C25_matrix_real",
    "Vecmat.C25_vector_broadcast",
    "Vecmat.C25_matrix_broadcast"
   ],
   "note": ""
  },
  {
   "property": "C26",
   "status": "proved",
   "theorems": [
    "Vecmat.C26_iter",
    "Vecmat.C26_iter_mut",
    "Vecmat.C26_iter_panics",
    "Vecmat.C26_fold",
    "Vecmat.C26_fold_calls",
    "Vecmat.C26_fold_first",
    "Vecmat.C26_fold_first_panics",
    "Vecmat.C26_scan",
    "Vecmat.C26_fold_first_panics_exact",
    "Vecmat.C26_iter_panics_exact"
   ],
   "note": ""
  },
  {
   "property": "C27",
   "status": "proved",
   "theorems": [
    "Vecmat.C27_flat_iter_exact",
    "Vecmat.C27_flat_iter",
    "Vecmat.C27_flat_iter_refuted"
   ],
   "note": ""
  },
  {
   "property": "C28",
   "status": "proved",
   "theorems": [
    "Vecmat.C28_transpose_ok",
    "Vecmat.C28_transpose_get",
    "Vecmat.C28_transpose_involutive",
    "Vecmat.C28_transpose_moves"
   ],
   "note": ""
  },
  {
   "property": "C29",
   "status": "proved",
   "theorems": [
    "Vecmat.C29_row",
    "Vecmat.C29_row_panics",
    "Vecmat.C29_col",
    "Vecmat.C29_col_panics",
    "Vecmat.C29_row_col_panics_exact"
   ],
   "note": ""
  },
  {
   "property": "C30",
   "status": "proved",
   "theorems": [
    "Vecmat.C30_panics_exact",
    "Vecmat.C30_outer",
    "Vecmat.C30_products_are_dots",
    "Vecmat.C30_matrix_vector",
    "Vecmat.C30_vector_matrix",
    "Vecmat.C30_matrix_matrix",
    "Vecmat.C30_panics",
    "Vecmat.C30_assoc",
    "Vecmat.C30_assoc_vector",
    "Vecmat.C30_distrib",
    "Vecmat.C30_one_dot",
    "Vecmat.C30_transpose_product",
    "Vecmat.C30_square_ok",
    "Vecmat.C30_square_ring"
   ],
   "note": ""
  },
  {
   "property": "C31",
   "status": "proved",
   "theorems": [
    "Vecmat.C31_det_ok",
    "Vecmat.C31_det_leibniz",
    "Vecmat.C31_det_zero"
   ],
   "note": ""
  },
  {
   "property": "C32",
   "status": "proved",
   "theorems": [
    "Vecmat.C32_cofactor_panics_exact",
    "Vecmat.C32_cofactor",
    "Vecmat.C32_cofactor_minor",
    "Vecmat.C32_cofactor_panics"
   ],
   "note": ""
  },
  {
   "property": "C33",
   "status": "proved",
   "theorems": [
    "Vecmat.C33_adj_ok",
    "Vecmat.C33_adj",
    "Vecmat.C33_adj_entries",
    "Vecmat.C33_inv",
    "Vecmat.C33_inv_unique",
    "Vecmat.C33_inv_inv",
    "Vecmat.C33_inv_mul",
    "Vecmat.C33_det_inv"
   ],
   "note": ""
  },
  {
   "property": "C34",
   "status": "proved",
   "theorems": [
    "Vecmat.C34_det_mul",
    "Vecmat.C34_det_transpose",
    "Vecmat.C34_det_one",
    "Vecmat.C34_det_diagonal",
    "Vecmat.C34_det_repeated_row",
    "Vecmat.C34_det_scale",
    "Vecmat.C34_det_swap",
    "Vecmat.C34_invertible_iff"
   ],
   "note": ""
  },
  {
   "property": "C35",
   "status": "proved",
   "theorems": [
    "Vecmat.C35_diagonal",
    "Vecmat.C35_one"
   ],
   "note": ""
  },
  {
   "property": "C36",
   "status": "proved",
   "theorems": [
    "Vecmat.C36_one_mul_small",
    "Vecmat.C36_one_mul_refuted",
    "Vecmat.C36_one_dot"
   ],
   "note": ""
  },
  {
   "property": "C37",
   "status": "proved",
   "theorems": [
    "Vecmat.C37_wrap_dot",
    "Vecmat.C37_wrap_dot_unsigned",
    "Vecmat.C37_wrap_sum",
    "Vecmat.C37_wrap_square_length",
    "Vecmat.C37_wrap_mat_vec",
    "Vecmat.C37_wrap_mat_mat",
    "Vecmat.C37_wrap_det",
    "Vecmat.C37_wrap_adj",
    "Vecmat.C37_wrap_cross2",
    "Vecmat.C37_wrap_cross3",
    "Vecmat.C37_wrap_complex_mul",
    "Vecmat.C37_wrap_quaternion_mul",
    "Vecmat.C37_wrap_quaternion_norm_sqr",
    "Vecmat.C37_checked_dot",
    "Vecmat.C37_checked_det",
    "Vecmat.C37_checked_adj",
    "Vecmat.C37_checked_mat_mat",
    "Vecmat.C37_checked_quaternion_mul",
    "Vecmat.C37_debug_release_det",
    "Vecmat.C37_debug_release_dot",
    "Vecmat.C37_det_no_overflow",
    "Vecmat.C37_dot_no_overflow",
    "Vecmat.C37_intermediate_overflow_refuted",
    "Vecmat.C37_unsigned_sum",
    "Vecmat.C37_unsigned_dot",
    "Vecmat.C37_unsigned_square_length",
    "Vecmat.C37_unsigned_mat_vec",
    "Vecmat.C37_unsigned_mat_mat"
   ],
   "note": ""
  },
  {
   "property": "C38",
   "status": "proved",
   "theorems": [
    "Vecmat.C38_ring",
    "Vecmat.C38_i_sq",
    "Vecmat.C38_components",
    "Vecmat.C38_inverse",
    "Vecmat.C38_zero",
    "Vecmat.C38_isomorphic"
   ],
   "note": ""
  },
  {
   "property": "C39",
   "status": "proved",
   "theorems": [
    "Vecmat.C39_conj",
    "Vecmat.C39_normSqr_mul",
    "Vecmat.C39_dot",
    "Vecmat.C39_norm_real",
    "Vecmat.C39_normalize"
   ],
   "note": ""
  },
  {
   "property": "C40",
   "status": "proved",
   "theorems": [
    "Vecmat.C40_add_sub",
    "Vecmat.C40_div",
    "Vecmat.C40_assign",
    "Vecmat.C40_iter"
   ],
   "note": ""
  },
  {
   "property": "C41",
   "status": "proved",
   "theorems": [
    "Vecmat.C41_arg",
    "Vecmat.C41_from_to",
    "Vecmat.C41_to_from",
    "Vecmat.C41_mul",
    "Vecmat.C41_from_polar_mul"
   ],
   "note": ""
  },
  {
   "property": "C42",
   "status": "proved",
   "theorems": [
    "Vecmat.C42_homomorphism",
    "Vecmat.C42_det",
    "Vecmat.C42_apply"
   ],
   "note": ""
  },
  {
   "property": "C43",
   "status": "proved",
   "theorems": [
    "Vecmat.C43_ring",
    "Vecmat.C43_units",
    "Vecmat.C43_isomorphic",
    "Vecmat.C43_isomorphic_real",
    "Vecmat.C43_inverse",
    "Vecmat.C43_zero",
    "Vecmat.C43_not_commutative"
   ],
   "note": ""
  },
  {
   "property": "C44",
   "status": "proved",
   "theorems": [
    "Vecmat.C44_conj",
    "Vecmat.C44_normSqr_mul",
    "Vecmat.C44_dot",
    "Vecmat.C44_law_of_cosines",
    "Vecmat.C44_norm_real",
    "Vecmat.C44_normalize"
   ],
   "note": ""
  },
  {
   "property": "C45",
   "status": "proved",
   "theorems": [
    "Vecmat.C45_complex",
    "Vecmat.C45_scalar",
    "Vecmat.C45_embedding",
    "Vecmat.C45_inv_embedding",
    "Vecmat.C45_div",
    "Vecmat.C45_assign",
    "Vecmat.C45_iter"
   ],
   "note": ""
  },
  {
   "property": "C46",
   "status": "proved",
   "theorems": [
    "Vecmat.C46_homomorphism",
    "Vecmat.C46_det",
    "Vecmat.C46_apply"
   ],
   "note": ""
  },
  {
   "property": "C47",
   "status": "proved",
   "theorems": [
    "Vecmat.C47_rem_panics",
    "Vecmat.C47_from_str_radix_panics"
   ],
   "note": ""
  },
  {
   "property": "C48",
   "status": "proved",
   "theorems": [
    "Vecmat.C48_coefficients",
    "Vecmat.C48_composition_scalar",
    "Vecmat.C48_composition_complex",
    "Vecmat.C48_composition_quaternion",
    "Vecmat.C48_composition_complex_on_quaternion",
    "Vecmat.C48_composition_scalar_on_quaternion",
    "Vecmat.C48_identity",
    "Vecmat.C48_composition_scalar_on_complex",
    "Vecmat.C48_real_coefficients",
    "Vecmat.C48_apply_formula",
    "Vecmat.C48_chain_monoid",
    "Vecmat.C48_transform"
   ],
   "note": ""
  },
  {
   "property": "C49",
   "status": "proved",
   "theorems": [
    "Vecmat.C49_inverse_complex",
    "Vecmat.C49_inverse_complex_on_quaternion",
    "Vecmat.C49_inverse_pole",
    "Vecmat.C49_quaternion_coefficients_refuted"
   ],
   "note": ""
  },
  {
   "property": "C50",
   "status": "proved",
   "theorems": [
    "Vecmat.C50_deriv_complex",
    "Vecmat.C50_deriv_closed_form",
    "Vecmat.C50_deriv_quaternion"
   ],
   "note": ""
  },
  {
   "property": "C51",
   "status": "proved",
   "theorems": [
    "Vecmat.C51_det_mul",
    "Vecmat.C51_det_formula",
    "Vecmat.C51_normalize_apply",
    "Vecmat.C51_normalize_det",
    "Vecmat.C51_det_ne_zero_iff",
    "Vecmat.C51_normalize_quaternion_real",
    "Vecmat.C51_normalize_quaternion_refuted"
   ],
   "note": ""
  },
  {
   "property": "C52",
   "status": "proved",
   "theorems": [
    "Vecmat.C52_shift_apply",
    "Vecmat.C52_shift_group",
    "Vecmat.C52_scale_apply",
    "Vecmat.C52_scale_group",
    "Vecmat.C52_scale_zero"
   ],
   "note": ""
  },
  {
   "property": "C53",
   "status": "proved",
   "theorems": [
    "Vecmat.C53_linear_apply",
    "Vecmat.C53_linear_group",
    "Vecmat.C53_linear_additive",
    "Vecmat.C53_linear_complete"
   ],
   "note": ""
  },
  {
   "property": "C54",
   "status": "proved",
   "theorems": [
    "Vecmat.C54_orthogonal",
    "Vecmat.C54_length",
    "Vecmat.C54_group",
    "Vecmat.C54_inv_needs_unit_refuted",
    "Vecmat.C54_new",
    "Vecmat.C54_angle",
    "Vecmat.C54_to_linear"
   ],
   "note": ""
  },
  {
   "property": "C55",
   "status": "proved",
   "theorems": [
    "Vecmat.C55_orthogonal",
    "Vecmat.C55_length",
    "Vecmat.C55_group",
    "Vecmat.C55_sandwich",
    "Vecmat.C55_double_cover",
    "Vecmat.C55_double_cover_exact",
    "Vecmat.C55_to_linear",
    "Vecmat.C55_to_linear_needs_unit_refuted"
   ],
   "note": ""
  },
  {
   "property": "C56",
   "status": "proved",
   "theorems": [
    "Vecmat.C56_unit",
    "Vecmat.C56_rodrigues",
    "Vecmat.C56_axis_fixed",
    "Vecmat.C56_chain",
    "Vecmat.C56_axis_angle",
    "Vecmat.C56_decompose"
   ],
   "note": ""
  },
  {
   "property": "C57",
   "status": "proved",
   "theorems": [
    "Vecmat.C57_linear_look_at_iff",
    "Vecmat.C57_linear_look_at_any_iff",
    "Vecmat.C57_rotation_look_at_any_iff",
    "Vecmat.C57_zero_direction",
    "Vecmat.C57_linear_look_at",
    "Vecmat.C57_linear_look_at_any",
    "Vecmat.C57_doc_refuted",
    "Vecmat.C57_rotation_look_at_any",
    "Vecmat.C57_look_at_any_cont"
   ],
   "note": ""
  },
  {
   "property": "C58",
   "status": "proved",
   "theorems": [
    "Vecmat.C58_reorder_rotation2",
    "Vecmat.C58_reorder_rotation3",
    "Vecmat.C58_rigid2_group",
    "Vecmat.C58_rigid3_group",
    "Vecmat.C58_rotation_shift_group",
    "Vecmat.C58_reorder_linear",
    "Vecmat.C58_reorder_scale",
    "Vecmat.C58_chain_composition",
    "Vecmat.C58_chain_identity",
    "Vecmat.C58_chain_inverse",
    "Vecmat.C58_affine_group",
    "Vecmat.C58_shift_scale_group",
    "Vecmat.C58_linear_shift_group",
    "Vecmat.C58_linear_shift_singular_refuted"
   ],
   "note": ""
  },
  {
   "property": "C59",
   "status": "proved",
   "theorems": [
    "Vecmat.C59_exact_difference_rotation",
    "Vecmat.C59_frechet",
    "Vecmat.C59_frechet_rotation",
    "Vecmat.C59_frechet_chain",
    "Vecmat.C59_frechet_affine",
    "Vecmat.C59_frechet_rigid",
    "Vecmat.C59_exact_difference",
    "Vecmat.C59_exact_difference_chain"
   ],
   "note": ""
  },
  {
   "property": "C60",
   "status": "proved",
   "theorems": [
    "Vecmat.C60_linear",
    "Vecmat.C60_shift_rotation",
    "Vecmat.C60_scale",
    "Vecmat.C60_chain",
    "Vecmat.C60_affine",
    "Vecmat.C60_conformal",
    "Vecmat.C60_dir_is_not_normal_refuted"
   ],
   "note": ""
  },
  {
   "property": "C61",
   "status": "proved",
   "theorems": [
    "Vecmat.C61_direction",
    "Vecmat.C61_direction_rotation",
    "Vecmat.C61_scale_negative_refuted",
    "Vecmat.C61_chain",
    "Vecmat.C61_affine"
   ],
   "note": ""
  },
  {
   "property": "C62",
   "status": "proved",
   "theorems": [
    "Vecmat.C62_nonzero",
    "Vecmat.C62_nonzero_stream",
    "Vecmat.C62_nonzero_any_scalar",
    "Vecmat.C62_nonzero_halts",
    "Vecmat.C62_nonzero_mono",
    "Vecmat.C62_nonzero_no_panic",
    "Vecmat.C62_nonzero_zero_dim",
    "Vecmat.C62_unit",
    "Vecmat.C62_unit_length",
    "Vecmat.C62_invertible",
    "Vecmat.C62_invertible_inverse",
    "Vecmat.C62_linear_invertible",
    "Vecmat.C62_invertible_zero_dim",
    "Vecmat.C62_invertible_no_panic",
    "Vecmat.C62_invertible_mono",
    "Vecmat.C62_affine_normal",
    "Vecmat.C62_affine_invertible",
    "Vecmat.C62_complex",
    "Vecmat.C62_quaternion",
    "Vecmat.C62_moebius_complex",
    "Vecmat.C62_rotation2",
    "Vecmat.C62_rotation3"
   ],
   "note": ""
  },
  {
   "property": "C63",
   "status": "proved",
   "theorems": [
    "Vecmat.C63_formula",
    "Vecmat.C63_domain"
   ],
   "note": ""
  },
  {
   "property": "C64",
   "status": "proved",
   "theorems": [
    "Vecmat.C64_vector",
    "Vecmat.C64_matrix",
    "Vecmat.C64_complex",
    "Vecmat.C64_quaternion",
    "Vecmat.C64_moebius",
    "Vecmat.C64_transforms",
    "Vecmat.C64_default_vector",
    "Vecmat.C64_default_matrix",
    "Vecmat.C64_default_transforms",
    "Vecmat.C64_chain",
    "Vecmat.C64_laws_vector",
    "Vecmat.C64_laws_matrix",
    "Vecmat.C64_laws_complex",
    "Vecmat.C64_laws_quaternion",
    "Vecmat.C64_laws_moebius",
    "Vecmat.C64_laws_transforms"
   ],
   "note": ""
  },
  {
   "property": "C65",
   "status": "proved",
   "theorems": [
    "Vecmat.C65_vector",
    "Vecmat.C65_vector_zero",
    "Vecmat.C65_matrix",
    "Vecmat.C65_complex",
    "Vecmat.C65_quaternion",
    "Vecmat.C65_vector_inj",
    "Vecmat.C65_matrix_inj",
    "Vecmat.C65_complex_inj",
    "Vecmat.C65_quaternion_inj",
    "Vecmat.C65_comma_refuted"
   ],
   "note": ""
  },
  {
   "property": "C66",
   "status": "proved",
   "theorems": [
    "Vecmat.C66_conformal",
    "Vecmat.C66_conformal_complex",
    "Vecmat.C66_nonsingular",
    "Vecmat.C66_directional",
    "Vecmat.C66_directional_complex"
   ],
   "note": ""
  },
  {
   "property": "C67",
   "status": "proved",
   "theorems": [
    "Vecmat.C67_distance_formula",
    "Vecmat.C67_half_space",
    "Vecmat.C67_isometry",
    "Vecmat.C67_complex_determinant_refuted",
    "Vecmat.C67_half_plane"
   ],
   "note": ""
  },
  {
   "property": "C68",
   "status": "proved",
   "theorems": [
    "Vecmat.C68_complex",
    "Vecmat.C68_complex_set",
    "Vecmat.C68_quaternion",
    "Vecmat.C68_quaternion_set",
    "Vecmat.C68_norm_l1"
   ],
   "note": ""
  },
  {
   "property": "C69",
   "status": "proved",
   "theorems": [
    "Vecmat.C69_round_trip",
    "Vecmat.C69_delegation",
    "Vecmat.C69_delegation_atan",
    "Vecmat.C69_from_str_radix"
   ],
   "note": ""
  },
  {
   "property": "C70",
   "status": "proved",
   "theorems": [
    "Vecmat.C70_binary",
    "Vecmat.C70_factor",
    "Vecmat.C70_sum",
    "Vecmat.C70_dot",
    "Vecmat.C70_mat_vec",
    "Vecmat.C70_mat_mat",
    "Vecmat.C70_cross2",
    "Vecmat.C70_cross3",
    "Vecmat.C70_det",
    "Vecmat.C70_adj",
    "Vecmat.C70_complex_mul",
    "Vecmat.C70_quaternion_mul",
    "Vecmat.C70_rotation3"
   ],
   "note": ""
  },
  {
   "property": "C71",
   "status": "proved",
   "theorems": [
    "Vecmat.C71_square_length",
    "Vecmat.C71_length",
    "Vecmat.C71_normalize",
    "Vecmat.C71_normalize_length",
    "Vecmat.C71_complex",
    "Vecmat.C71_quaternion"
   ],
   "note": ""
  },
  {
   "property": "C72",
   "status": "proved",
   "theorems": [
    "Vecmat.C72_binary",
    "Vecmat.C72_dot",
    "Vecmat.C72_mat_mat",
    "Vecmat.C72_cross3",
    "Vecmat.C72_det"
   ],
   "note": ""
  },
  {
   "property": "C73",
   "status": "proved",
   "theorems": [
    "Vecmat.C73_normal",
    "Vecmat.C73_vector",
    "Vecmat.C73_independent",
    "Vecmat.C73_matrix",
    "Vecmat.C73_nonzero",
    "Vecmat.C73_nonzero_total",
    "Vecmat.C73_nonzero_halts",
    "Vecmat.C73_unit",
    "Vecmat.C73_unit_invariant",
    "Vecmat.C73_invertible",
    "Vecmat.C73_invertible_total",
    "Vecmat.C73_invertible_halts",
    "Vecmat.C73_complex_invariant",
    "Vecmat.C73_quaternion_invariant",
    "Vecmat.C73_affine",
    "Vecmat.C73_affine_invertible",
    "Vecmat.C73_other_types"
   ],
   "note": ""
  },
  {
   "property": "C74",
   "status": "proved",
   "theorems": [
    "Vecmat.C74_rotation2",
    "Vecmat.C74_rotation3",
    "Vecmat.C74_rotation3_right_angle",
    "Vecmat.C74_rotation3_refuted",
    "Vecmat.C74_rotation3_conjugation"
   ],
   "note": ""
  },
  {
   "property": "C75",
   "status": "proved",
   "theorems": [
    "Vecmat.C75_as_array_of_arrays",
    "Vecmat.C75_as_mut_array_of_arrays",
    "Vecmat.C75_as_ptr",
    "Vecmat.C75_as_mut_ptr",
    "Vecmat.C75_vector_ptr",
    "Vecmat.C75_vector_from_uninit",
    "Vecmat.C75_matrix_from_uninit",
    "Vecmat.C75_uninit_round_trip",
    "Vecmat.C75_uninit",
    "Vecmat.C75_vector_assume_init",
    "Vecmat.C75_matrix_assume_init",
    "Vecmat.C75_read_as_uninit",
    "Vecmat.C75_model_agrees"
   ],
   "note": ""
  },
  {
   "property": "C76",
   "status": "proved",
   "theorems": [
    "Vecmat.C76_vector_element",
    "Vecmat.C76_vector_out_of_range",
    "Vecmat.C76_vector_array",
    "Vecmat.C76_vector_components",
    "Vecmat.C76_matrix_views",
    "Vecmat.C76_row_mut",
    "Vecmat.C76_matrix_element",
    "Vecmat.C76_matrix_out_of_range",
    "Vecmat.C76_complex",
    "Vecmat.C76_quaternion",
    "Vecmat.C76_moebius",
    "Vecmat.C76_chain",
    "Vecmat.C76_read_whole",
    "Vecmat.C76_write_then_read"
   ],
   "note": ""
  },
  {
   "property": "C77",
   "status": "proved",
   "theorems": [
    "Vecmat.C77_vector_rounding",
    "Vecmat.C77_matrix_rounding",
    "Vecmat.C77_vector_algebraic",
    "Vecmat.C77_matrix_algebraic",
    "Vecmat.C77_vector_trig",
    "Vecmat.C77_matrix_trig",
    "Vecmat.C77_vector_hyperbolic",
    "Vecmat.C77_matrix_hyperbolic",
    "Vecmat.C77_vector_exponential",
    "Vecmat.C77_matrix_exponential",
    "Vecmat.C77_vector_binary",
    "Vecmat.C77_vector_powi",
    "Vecmat.C77_vector_mul_add",
    "Vecmat.C77_matrix_binary",
    "Vecmat.C77_matrix_powi",
    "Vecmat.C77_matrix_mul_add"
   ],
   "note": ""
  },
  {
   "property": "C78",
   "status": "proved",
   "theorems": [
    "Vecmat.C78_scalar_signed",
    "Vecmat.C78_scalar_unsigned",
    "Vecmat.C78_l1_wrapping",
    "Vecmat.C78_l1_exact",
    "Vecmat.C78_linf_exact",
    "Vecmat.C78_linf_min",
    "Vecmat.C78_linf_min_refuted",
    "Vecmat.C78_unsigned",
    "Vecmat.C78_debug_l1",
    "Vecmat.C78_debug_linf"
   ],
   "note": ""
  },
  {
   "property": "C79",
   "status": "proved",
   "theorems": [
    "Vecmat.C79_vector_calls",
    "Vecmat.C79_matrix_order",
    "Vecmat.C79_matrix_calls",
    "Vecmat.C79_vector",
    "Vecmat.C79_matrix",
    "Vecmat.C79_complex",
    "Vecmat.C79_quaternion",
    "Vecmat.C79_moebius",
    "Vecmat.C79_transforms",
    "Vecmat.C79_chain",
    "Vecmat.C79_chain_calls",
    "Vecmat.C79_composite_order",
    "Vecmat.C79_vector_veq",
    "Vecmat.C79_reflexive",
    "Vecmat.C79_symm",
    "Vecmat.C79_trans",
    "Vecmat.C79_lawful",
    "Vecmat.C79_clone_calls",
    "Vecmat.C79_clone_id",
    "Vecmat.C79_default"
   ],
   "note": ""
  },
  {
   "property": "C80",
   "status": "proved",
   "theorems": [
    "Vecmat.C80_dot_comm",
    "Vecmat.C80_add_comm",
    "Vecmat.C80_mul_comm",
    "Vecmat.C80_complex_mul_comm",
    "Vecmat.C80_quaternion_dot_comm",
    "Vecmat.C80_transpose_mul",
    "Vecmat.C80_transpose_vec",
    "Vecmat.C80_gram",
    "Vecmat.C80_neg_length",
    "Vecmat.C80_neg_normalize",
    "Vecmat.C80_neg_dot",
    "Vecmat.C80_neg_sub",
    "Vecmat.C80_sub_self",
    "Vecmat.C80_cross2",
    "Vecmat.C80_cross3",
    "Vecmat.C80_cross_self",
    "Vecmat.C80_conj",
    "Vecmat.C80_conj_mul",
    "Vecmat.C80_quaternion_conj",
    "Vecmat.C80_rotation3_to_linear",
    "Vecmat.C80_rotation3_apply",
    "Vecmat.C80_add_not_assoc",
    "Vecmat.C80_formats"
   ],
   "note": ""
  },
  {
   "property": "C81",
   "status": "proved",
   "theorems": [
    "Vecmat.C81_scalar",
    "Vecmat.C81_sum",
    "Vecmat.C81_dot",
    "Vecmat.C81_norms",
    "Vecmat.C81_normalize",
    "Vecmat.C81_compare",
    "Vecmat.C81_mat_vec",
    "Vecmat.C81_mat_mat",
    "Vecmat.C81_det",
    "Vecmat.C81_inv",
    "Vecmat.C81_complex",
    "Vecmat.C81_quaternion",
    "Vecmat.C81_moebius",
    "Vecmat.C81_rotation3",
    "Vecmat.C81_max_refuted",
    "Vecmat.C81_length"
   ],
   "note": ""
  },
  {
   "property": "C82",
   "status": "proved",
   "theorems": [
    "Vecmat.C82_neutral",
    "Vecmat.C82_permutation_vec",
    "Vecmat.C82_permutation_mat",
    "Vecmat.C82_identity",
    "Vecmat.C82_one_mul",
    "Vecmat.C82_mul_one",
    "Vecmat.C82_infinite_refuted",
    "Vecmat.C82_permutation_det",
    "Vecmat.C82_det_one",
    "Vecmat.C82_complex_one",
    "Vecmat.C82_quaternion_one"
   ],
   "note": ""
  },
  {
   "property": "C83",
   "status": "proved",
   "theorems": [
    "Vecmat.C83_length_ge",
    "Vecmat.C83_normalize_range",
    "Vecmat.C83_axis",
    "Vecmat.C83_overflow_refuted",
    "Vecmat.C83_underflow_refuted"
   ],
   "note": ""
  },
  {
   "property": "C84",
   "status": "proved",
   "theorems": [
    "Vecmat.C84_sum",
    "Vecmat.C84_dot",
    "Vecmat.C84_square_length",
    "Vecmat.C84_square_length_rel",
    "Vecmat.C84_length",
    "Vecmat.C84_normalize",
    "Vecmat.C84_mat_vec",
    "Vecmat.C84_mat_mat",
    "Vecmat.C84_cross2",
    "Vecmat.C84_cross3",
    "Vecmat.C84_complex_mul",
    "Vecmat.C84_quaternion_mul",
    "Vecmat.C84_affine",
    "Vecmat.C84_rotation2"
   ],
   "note": ""
  },
  {
   "property": "C85",
   "status": "proved",
   "theorems": [
    "Vecmat.C85_formats",
    "Vecmat.C85_det",
    "Vecmat.C85_adj",
    "Vecmat.C85_length",
    "Vecmat.C85_normalize",
    "Vecmat.C85_rotation3",
    "Vecmat.C85_int_dot",
    "Vecmat.C85_int_mat_mat",
    "Vecmat.C85_int_cross3",
    "Vecmat.C85_int_det"
   ],
   "note": ""
  },
  {
   "property": "C86",
   "status": "proved",
   "theorems": [
    "Vecmat.C86_rotation3",
    "Vecmat.C86_rotation3_drift",
    "Vecmat.C86_rotation2",
    "Vecmat.C86_rotation2_drift",
    "Vecmat.C86_complex_prod",
    "Vecmat.C86_quaternion_prod",
    "Vecmat.C86_shift",
    "Vecmat.C86_scale",
    "Vecmat.C86_linear",
    "Vecmat.C86_matrix_prod",
    "Vecmat.C86_moebius",
    "Vecmat.C86_affine_linear",
    "Vecmat.C86_affine_shift",
    "Vecmat.C86_linear_apply",
    "Vecmat.C86_rotation3_apply"
   ],
   "note": ""
  },
  {
   "property": "C87",
   "status": "proved",
   "theorems": [
    "Vecmat.C87_complex_inv",
    "Vecmat.C87_quaternion_inv",
    "Vecmat.C87_complex_div",
    "Vecmat.C87_quaternion_div",
    "Vecmat.C87_moebius_apply",
    "Vecmat.C87_moebius_apply_quaternion",
    "Vecmat.C87_inverse"
   ],
   "note": ""
  },
  {
   "property": "C88",
   "status": "proved",
   "theorems": [
    "Vecmat.C88_look_at_any",
    "Vecmat.C88_look_at_any_cont",
    "Vecmat.C88_doc_refuted",
    "Vecmat.C88_linear_look_at",
    "Vecmat.C88_linear_look_at_any"
   ],
   "note": ""
  },
  {
   "property": "C89",
   "status": "proved",
   "theorems": [
    "Vecmat.C89_vector",
    "Vecmat.C89_iter_sum",
    "Vecmat.C89_cross",
    "Vecmat.C89_matrix",
    "Vecmat.C89_square",
    "Vecmat.C89_complex",
    "Vecmat.C89_quaternion",
    "Vecmat.C89_division",
    "Vecmat.C89_moebius",
    "Vecmat.C89_moebius_complex",
    "Vecmat.C89_chain",
    "Vecmat.C89_shift_linear",
    "Vecmat.C89_scale",
    "Vecmat.C89_rotation",
    "Vecmat.C89_rotation_reorder",
    "Vecmat.C89_order",
    "Vecmat.C89_sqrt",
    "Vecmat.C89_homs",
    "Vecmat.C89_int_det"
   ],
   "note": ""
  },
  {
   "property": "C90",
   "status": "proved",
   "theorems": [
    "Vecmat.C90_line",
    "Vecmat.C90_vector",
    "Vecmat.C90_vector_quotient",
    "Vecmat.C90_length",
    "Vecmat.C90_cross",
    "Vecmat.C90_inverse_formula",
    "Vecmat.C90_complex",
    "Vecmat.C90_quaternion",
    "Vecmat.C90_matrix",
    "Vecmat.C90_affine",
    "Vecmat.C90_rotation2",
    "Vecmat.C90_rotation3",
    "Vecmat.C90_axis_angle"
   ],
   "note": ""
  },
  {
   "property": "C91",
   "status": "proved",
   "theorems": [
    "Vecmat.C91_rotation3",
    "Vecmat.C91_f64_rotation3",
    "Vecmat.C91_rotation2",
    "Vecmat.C91_linear",
    "Vecmat.C91_affine",
    "Vecmat.C91_moebius",
    "Vecmat.C91_complex_inv",
    "Vecmat.C91_complex_div",
    "Vecmat.C91_quaternion_inv",
    "Vecmat.C91_quaternion_div",
    "Vecmat.C91_moebius_apply",
    "Vecmat.C91_moebius_apply_quaternion",
    "Vecmat.C91_inverse"
   ],
   "note": ""
  },
  {
   "property": "C92",
   "status": "proved",
   "theorems": [
    "Vecmat.C92_rotation2_mapping",
    "Vecmat.C92_rotation3_mapping",
    "Vecmat.C92_derivation_square",
    "Vecmat.C92_derivation_inverse"
   ],
   "note": ""
  },
  {
   "property": "C93",
   "status": "proved",
   "theorems": [
    "Vecmat.C93_quaternion_mul",
    "Vecmat.C93_quaternion_div",
    "Vecmat.C93_quaternion_self_div",
    "Vecmat.C93_rotation3_apply",
    "Vecmat.C93_rotation3_inversion",
    "Vecmat.C93_rotation3_chain",
    "Vecmat.C93_rotation3_drift",
    "Vecmat.C93_complex_mul",
    "Vecmat.C93_complex_div",
    "Vecmat.C93_rotation2_apply",
    "Vecmat.C93_rotation2_inversion",
    "Vecmat.C93_rotation2_chain",
    "Vecmat.C93_rotation2_drift",
    "Vecmat.C93_to_linear3",
    "Vecmat.C93_to_linear3_apply"
   ],
   "note": ""
  },
  {
   "property": "C94",
   "status": "proved",
   "theorems": [
    "Vecmat.C94_length",
    "Vecmat.C94_normalize",
    "Vecmat.C94_cross",
    "Vecmat.C94_look_at",
    "Vecmat.C94_look_at_forward",
    "Vecmat.C94_look_at_any",
    "Vecmat.C94_rotation_look_at_any_total",
    "Vecmat.C94_rotation_look_at_any_front",
    "Vecmat.C94_rotation_look_at_any_back",
    "Vecmat.C94_half_turn",
    "Vecmat.C94_rotation_look_at_any"
   ],
   "note": ""
  },
  {
   "property": "C95",
   "status": "proved",
   "theorems": [
    "Vecmat.C95_isometry_affine",
    "Vecmat.C95_rotation3_complete",
    "Vecmat.C95_space_motion",
    "Vecmat.C95_space_motion_proper",
    "Vecmat.C95_space_motion_keeps",
    "Vecmat.C95_rotation2_complete",
    "Vecmat.C95_plane_motion",
    "Vecmat.C95_affine_complete",
    "Vecmat.C95_determined"
   ],
   "note": ""
  },
  {
   "property": "C96",
   "status": "proved",
   "theorems": [
    "Vecmat.C96_cross_ratio",
    "Vecmat.C96_three_points",
    "Vecmat.C96_equal_action",
    "Vecmat.C96_three_fixed_points",
    "Vecmat.C96_equal_action_quaternion",
    "Vecmat.C96_decomposition",
    "Vecmat.C96_cross_ratio_quaternion",
    "Vecmat.C96_spheres",
    "Vecmat.C96_circles"
   ],
   "note": ""
  },
  {
   "property": "C97",
   "status": "proved",
   "theorems": [
    "Vecmat.C97_vector",
    "Vecmat.C97_matrix",
    "Vecmat.C97_complex",
    "Vecmat.C97_quaternion",
    "Vecmat.C97_derived",
    "Vecmat.C97_shift",
    "Vecmat.C97_scale",
    "Vecmat.C97_linear",
    "Vecmat.C97_rotation2",
    "Vecmat.C97_rotation3",
    "Vecmat.C97_moebius",
    "Vecmat.C97_chain",
    "Vecmat.C97_prefix",
    "Vecmat.C97_string",
    "Vecmat.C97_text_unique",
    "Vecmat.C97_vector_empty",
    "Vecmat.C97_options_refuted"
   ],
   "note": ""
  },
  {
   "property": "C98",
   "status": "proved",
   "theorems": [
    "Vecmat.C98_rotation2_new",
    "Vecmat.C98_rotation2_apply",
    "Vecmat.C98_rotation2_angle_sum",
    "Vecmat.C98_rotation2_angle",
    "Vecmat.C98_rotation2_round_trip",
    "Vecmat.C98_rotation3_new",
    "Vecmat.C98_rotation3_apply",
    "Vecmat.C98_rotation3_steps",
    "Vecmat.C98_rotation3_angle",
    "Vecmat.C98_rotation3_axis",
    "Vecmat.C98_rotation3_round_trip",
    "Vecmat.C98_library"
   ],
   "note": ""
  },
  {
   "property": "C99",
   "status": "proved",
   "theorems": [
    "Vecmat.C99_affine_chain",
    "Vecmat.C99_affine_inv",
    "Vecmat.C99_linear_round_trip",
    "Vecmat.C99_affine_round_trip",
    "Vecmat.C99_det",
    "Vecmat.C99_adj",
    "Vecmat.C99_inverse",
    "Vecmat.C99_linear_apply",
    "Vecmat.C99_linear_chain",
    "Vecmat.C99_affine_apply",
    "Vecmat.C99_solve"
   ],
   "note": ""
  },
  {
   "property": "C100",
   "status": "proved",
   "theorems": [
    "Vecmat.C100_in_order_returns",
    "Vecmat.C100_in_order_panics",
    "Vecmat.C100_vector",
    "Vecmat.C100_matrix",
    "Vecmat.C100_dot",
    "Vecmat.C100_products",
    "Vecmat.C100_det",
    "Vecmat.C100_inv",
    "Vecmat.C100_complex",
    "Vecmat.C100_quaternion",
    "Vecmat.C100_cross",
    "Vecmat.C100_plain_vector",
    "Vecmat.C100_plain_matrix",
    "Vecmat.C100_plain_det",
    "Vecmat.C100_plain_complex",
    "Vecmat.C100_calls_dot",
    "Vecmat.C100_calls_products",
    "Vecmat.C100_calls_det",
    "Vecmat.C100_calls_inv",
    "Vecmat.C100_calls_complex",
    "Vecmat.C100_count_det",
    "Vecmat.C100_checked_det",
    "Vecmat.C100_checked_det_exact",
    "Vecmat.C100_checked_dot",
    "Vecmat.C100_checked_dot_exact",
    "Vecmat.C100_checked_mat_mat",
    "Vecmat.C100_checked_inv",
    "Vecmat.C100_assign_vector",
    "Vecmat.C100_assign_vector_scalar",
    "Vecmat.C100_assign_matrix",
    "Vecmat.C100_assign_matrix_scalar",
    "Vecmat.C100_assign_complex",
    "Vecmat.C100_assign_quaternion",
    "Vecmat.C100_assign_quaternion_complex"
   ],
   "note": ""
  },
  {
   "property": "C101",
   "status": "proved",
   "theorems": [
    "Vecmat.C101_vector",
    "Vecmat.C101_matrix",
    "Vecmat.C101_square",
    "Vecmat.C101_complex",
    "Vecmat.C101_quaternion",
    "Vecmat.C101_cross",
    "Vecmat.C101_shift",
    "Vecmat.C101_scale",
    "Vecmat.C101_linear",
    "Vecmat.C101_rotation2",
    "Vecmat.C101_rotation3",
    "Vecmat.C101_chain",
    "Vecmat.C101_affine",
    "Vecmat.C101_reorder_linear",
    "Vecmat.C101_reorder_rotation",
    "Vecmat.C101_reorder_scale",
    "Vecmat.C101_moebius",
    "Vecmat.C101_complex_scalars",
    "Vecmat.C101_moebius_deriv",
    "Vecmat.C101_field_inv_singular",
    "Vecmat.C101_field_inv",
    "Vecmat.C101_field_linear",
    "Vecmat.C101_field_affine",
    "Vecmat.C101_field_complex",
    "Vecmat.C101_field_quaternion",
    "Vecmat.C101_field_moebius_apply",
    "Vecmat.C101_field_moebius",
    "Vecmat.C101_strict",
    "Vecmat.C101_strict_inv",
    "Vecmat.C101_ring_affine_chain",
    "Vecmat.C101_ring_affine_apply",
    "Vecmat.C101_checked",
    "Vecmat.C101_checked_affine_chain",
    "Vecmat.C101_checked_products",
    "Vecmat.C101_calls_apply",
    "Vecmat.C101_calls_affine",
    "Vecmat.C101_calls_rotation",
    "Vecmat.C101_affine_deriv",
    "Vecmat.C101_total_shift",
    "Vecmat.C101_total_scale",
    "Vecmat.C101_total_linear",
    "Vecmat.C101_total_rotation2",
    "Vecmat.C101_total_rotation3",
    "Vecmat.C101_total_chain",
    "Vecmat.C101_total_affine",
    "Vecmat.C101_total_reorder",
    "Vecmat.C101_total_moebius",
    "Vecmat.C101_total_complex",
    "Vecmat.C101_total_moebius_deriv",
    "Vecmat.C101_calls_shift",
    "Vecmat.C101_calls_scale",
    "Vecmat.C101_calls_linear",
    "Vecmat.C101_calls_rotation_rest",
    "Vecmat.C101_calls_chain",
    "Vecmat.C101_calls_reorder",
    "Vecmat.C101_calls_affine_rest",
    "Vecmat.C101_calls_moebius",
    "Vecmat.C101_order_moebius",
    "Vecmat.C101_calls_moebius_inv",
    "Vecmat.C101_calls_complex_constants"
   ],
   "note": ""
  },
  {
   "property": "C102",
   "status": "proved",
   "theorems": [
    "Vecmat.C102_map_clean",
    "Vecmat.C102_for_each_clean",
    "Vecmat.C102_fold_clean",
    "Vecmat.C102_fold_first_clean",
    "Vecmat.C102_scan_good",
    "Vecmat.C102_bin_op_clean",
    "Vecmat.C102_op_assign_clean",
    "Vecmat.C102_matrix_map_clean",
    "Vecmat.C102_matrix_for_each_clean",
    "Vecmat.C102_matrix_fold_clean",
    "Vecmat.C102_matrix_fold_first_clean",
    "Vecmat.C102_matrix_scan_good",
    "Vecmat.C102_matrix_bin_op_clean",
    "Vecmat.C102_matrix_op_assign_clean",
    "Vecmat.C102_zip",
    "Vecmat.C102_enumerate",
    "Vecmat.C102_matrix_zip",
    "Vecmat.C102_matrix_unzip",
    "Vecmat.C102_map_returns",
    "Vecmat.C102_map_panics",
    "Vecmat.C102_for_each_returns",
    "Vecmat.C102_for_each_panics",
    "Vecmat.C102_fold_calls",
    "Vecmat.C102_scan_returns",
    "Vecmat.C102_scan_panics",
    "Vecmat.C102_op_assign_calls",
    "Vecmat.C102_matrix_op_assign_calls",
    "Vecmat.C102_into_iter",
    "Vecmat.C102_map_agrees",
    "Vecmat.C102_fold_agrees",
    "Vecmat.C102_for_each_agrees",
    "Vecmat.C102_fold_first_agrees",
    "Vecmat.C102_scan_agrees",
    "Vecmat.C102_bin_op_agrees",
    "Vecmat.C102_matrix_map_agrees",
    "Vecmat.C102_matrix_fold_agrees",
    "Vecmat.C102_matrix_for_each_agrees",
    "Vecmat.C102_matrix_fold_first_agrees",
    "Vecmat.C102_matrix_scan_agrees",
    "Vecmat.C102_matrix_bin_op_agrees"
   ],
   "note": ""
  },
  {
   "property": "C103",
   "status": "proved",
   "theorems": [
    "Vecmat.C103_apply_complex",
    "Vecmat.C103_apply_quaternion",
    "Vecmat.C103_chain",
    "Vecmat.C103_det",
    "Vecmat.C103_inv",
    "Vecmat.C103_normalize",
    "Vecmat.C103_deriv",
    "Vecmat.C103_deriv_quaternion"
   ],
   "note": ""
  },
  {
   "property": "C104",
   "status": "proved",
   "theorems": [
    "Vecmat.C104_div_zero",
    "Vecmat.C104_normalize_zero",
    "Vecmat.C104_normalize_inf",
    "Vecmat.C104_normalize_overflow",
    "Vecmat.C104_normalize_underflow",
    "Vecmat.C104_complex_zero",
    "Vecmat.C104_complex_inf",
    "Vecmat.C104_complex_overflow",
    "Vecmat.C104_complex_underflow",
    "Vecmat.C104_quaternion_zero",
    "Vecmat.C104_quaternion_div_complex_zero",
    "Vecmat.C104_quaternion_inf",
    "Vecmat.C104_quaternion_overflow",
    "Vecmat.C104_quaternion_underflow",
    "Vecmat.C104_matrix_inv_zero",
    "Vecmat.C104_matrix_inv_inf",
    "Vecmat.C104_moebius_pole",
    "Vecmat.C104_moebius_pole_quaternion",
    "Vecmat.C104_moebius_infinity",
    "Vecmat.C104_moebius_degenerate",
    "Vecmat.C104_look_at_parallel",
    "Vecmat.C104_look_at_parallel_apply"
   ],
   "note": ""
  },
  {
   "property": "C105",
   "status": "proved",
   "theorems": [
    "Vecmat.C105_nearest",
    "Vecmat.C105_adj",
    "Vecmat.C105_inv",
    "Vecmat.C105_singular",
    "Vecmat.C105_unimodular",
    "Vecmat.C105_ties",
    "Vecmat.C105_overflow"
   ],
   "note": ""
  },
  {
   "property": "C106",
   "status": "proved",
   "theorems": [
    "Vecmat.C106_indices",
    "Vecmat.C106_try_from_slice",
    "Vecmat.C106_try_from_slice_overflow",
    "Vecmat.C106_square",
    "Vecmat.C106_det_any_size",
    "Vecmat.C106_cofactor_overflow"
   ],
   "note": ""
  },
  {
   "property": "C107",
   "status": "proved",
   "theorems": [
    "Vecmat.C107_quaternion_mul",
    "Vecmat.C107_quaternion_div",
    "Vecmat.C107_quaternion_self_div",
    "Vecmat.C107_rotation3_apply",
    "Vecmat.C107_rotation3_inversion",
    "Vecmat.C107_rotation3_chain",
    "Vecmat.C107_rotation3_drift",
    "Vecmat.C107_complex_mul",
    "Vecmat.C107_complex_div",
    "Vecmat.C107_rotation2_apply",
    "Vecmat.C107_rotation2_inversion",
    "Vecmat.C107_rotation2_chain",
    "Vecmat.C107_rotation2_drift",
    "Vecmat.C107_to_linear3",
    "Vecmat.C107_to_linear3_apply",
    "Vecmat.C107_length",
    "Vecmat.C107_normalize",
    "Vecmat.C107_cross",
    "Vecmat.C107_look_at",
    "Vecmat.C107_look_at_any",
    "Vecmat.C107_rotation_look_at_any_front",
    "Vecmat.C107_rotation_look_at_any_back",
    "Vecmat.C107_half_turn",
    "Vecmat.C107_rotation_look_at_any"
   ],
   "note": ""
  },
  {
   "property": "C108",
   "status": "proved",
   "theorems": [
    "Vecmat.C108_rotation2_new",
    "Vecmat.C108_rotation2_apply",
    "Vecmat.C108_rotation2_angle_sum",
    "Vecmat.C108_rotation2_angle",
    "Vecmat.C108_rotation2_round_trip",
    "Vecmat.C108_rotation3_new",
    "Vecmat.C108_rotation3_apply",
    "Vecmat.C108_rotation3_steps",
    "Vecmat.C108_rotation3_angle",
    "Vecmat.C108_rotation3_axis",
    "Vecmat.C108_rotation3_round_trip",
    "Vecmat.C108_library"
   ],
   "note": ""
  },
  {
   "property": "C109",
   "status": "proved",
   "theorems": [
    "Vecmat.C109_affine_chain",
    "Vecmat.C109_affine_inv",
    "Vecmat.C109_linear_round_trip",
    "Vecmat.C109_affine_round_trip",
    "Vecmat.C109_det",
    "Vecmat.C109_adj",
    "Vecmat.C109_inverse",
    "Vecmat.C109_linear_apply",
    "Vecmat.C109_linear_chain",
    "Vecmat.C109_affine_apply",
    "Vecmat.C109_solve"
   ],
   "note": ""
  },
  {
   "property": "C110",
   "status": "proved",
   "theorems": [
    "Vecmat.C110_apply_complex",
    "Vecmat.C110_apply_quaternion",
    "Vecmat.C110_chain",
    "Vecmat.C110_det",
    "Vecmat.C110_inv",
    "Vecmat.C110_normalize",
    "Vecmat.C110_deriv",
    "Vecmat.C110_deriv_quaternion"
   ],
   "note": ""
  },
  {
   "property": "C111",
   "status": "proved",
   "theorems": [
    "Vecmat.C111_normal",
    "Vecmat.C111_normal_f64",
    "Vecmat.C111_normal_f32",
    "Vecmat.C111_nonzero",
    "Vecmat.C111_nonzero_accepts",
    "Vecmat.C111_unit",
    "Vecmat.C111_rotation2",
    "Vecmat.C111_rotation3",
    "Vecmat.C111_invertible",
    "Vecmat.C111_invertible_accepts",
    "Vecmat.C111_invertible_two",
    "Vecmat.C111_invertible_singular_refuted",
    "Vecmat.C111_library",
    "Vecmat.C111_nonzero_f32",
    "Vecmat.C111_nonzero_accepts_f32",
    "Vecmat.C111_unit_f32",
    "Vecmat.C111_rotation2_f32",
    "Vecmat.C111_rotation3_f32",
    "Vecmat.C111_invertible_f32",
    "Vecmat.C111_invertible_accepts_f32",
    "Vecmat.C111_invertible_two_f32",
    "Vecmat.C111_invertible_singular_refuted_f32",
    "Vecmat.C111_invertible_complex",
    "Vecmat.C111_invertible_complex_accepts",
    "Vecmat.C111_invertible_complex_refuted",
    "Vecmat.C111_invertible_complex_f32",
    "Vecmat.C111_invertible_complex_accepts_f32",
    "Vecmat.C111_invertible_complex_refuted_f32"
   ],
   "note": ""
  },
  {
   "property": "C112",
   "status": "proved",
   "theorems": [
    "Vecmat.C112_motion3_apply_f32",
    "Vecmat.C112_motion3_distance_f32",
    "Vecmat.C112_motion3_inv_f32",
    "Vecmat.C112_motion3_round_trip_f32",
    "Vecmat.C112_motion3_chain_f32",
    "Vecmat.C112_motion3_deriv_f32",
    "Vecmat.C112_motion3_drift_f32",
    "Vecmat.C112_motion3_drift_apply_f32",
    "Vecmat.C112_motion2_apply_f32",
    "Vecmat.C112_motion2_distance_f32",
    "Vecmat.C112_motion2_inv_f32",
    "Vecmat.C112_motion2_round_trip_f32",
    "Vecmat.C112_motion2_chain_f32",
    "Vecmat.C112_motion2_deriv_f32",
    "Vecmat.C112_motion2_drift_f32",
    "Vecmat.C112_motion2_drift_apply_f32",
    "Vecmat.C112_motion3_apply",
    "Vecmat.C112_motion3_distance",
    "Vecmat.C112_motion3_inv",
    "Vecmat.C112_motion3_round_trip",
    "Vecmat.C112_motion3_chain",
    "Vecmat.C112_motion3_deriv",
    "Vecmat.C112_motion3_drift",
    "Vecmat.C112_motion3_drift_apply",
    "Vecmat.C112_motion2_apply",
    "Vecmat.C112_motion2_distance",
    "Vecmat.C112_motion2_inv",
    "Vecmat.C112_motion2_round_trip",
    "Vecmat.C112_motion2_chain",
    "Vecmat.C112_motion2_deriv",
    "Vecmat.C112_motion2_drift",
    "Vecmat.C112_motion2_drift_apply"
   ],
   "note": ""
  },
  {
   "property": "C113",
   "status": "proved",
   "theorems": [
    "Vecmat.C113_invertible_moebius",
    "Vecmat.C113_invertible_moebius_f32",
    "Vecmat.C113_normal_vectors",
    "Vecmat.C113_normal_transforms",
    "Vecmat.C113_nonzero",
    "Vecmat.C113_unit",
    "Vecmat.C113_invertible",
    "Vecmat.C113_invertible_two",
    "Vecmat.C113_rotation3",
    "Vecmat.C113_normal_vectors_f32",
    "Vecmat.C113_normal_transforms_f32",
    "Vecmat.C113_nonzero_f32",
    "Vecmat.C113_unit_f32",
    "Vecmat.C113_invertible_f32",
    "Vecmat.C113_invertible_two_f32",
    "Vecmat.C113_rotation3_f32"
   ],
   "note": ""
  },
  {
   "property": "C114",
   "status": "proved",
   "theorems": [
    "Vecmat.C114_direction_f32",
    "Vecmat.C114_normal_f32",
    "Vecmat.C114_orthogonal_f32",
    "Vecmat.C114_affine_f32",
    "Vecmat.C114_rotation3_f32",
    "Vecmat.C114_rotation2_f32",
    "Vecmat.C114_direction",
    "Vecmat.C114_normal",
    "Vecmat.C114_orthogonal",
    "Vecmat.C114_affine",
    "Vecmat.C114_rotation3",
    "Vecmat.C114_rotation2"
   ],
   "note": ""
  },
  {
   "property": "C115",
   "status": "proved",
   "theorems": [
    "Vecmat.C115_quaternion_f32",
    "Vecmat.C115_complex_f32",
    "Vecmat.C115_rotation3_renormalised_f32",
    "Vecmat.C115_rotation2_renormalised_f32",
    "Vecmat.C115_rotation3_renormalised_apply_f32",
    "Vecmat.C115_rotation2_renormalised_apply_f32",
    "Vecmat.C115_quaternion",
    "Vecmat.C115_complex",
    "Vecmat.C115_rotation3_renormalised",
    "Vecmat.C115_rotation2_renormalised",
    "Vecmat.C115_rotation3_renormalised_apply",
    "Vecmat.C115_rotation2_renormalised_apply"
   ],
   "note": ""
  },
  {
   "property": "C116",
   "status": "proved",
   "theorems": [
    "Vecmat.C116_shift",
    "Vecmat.C116_add_sub",
    "Vecmat.C116_scale",
    "Vecmat.C116_sum",
    "Vecmat.C116_dot",
    "Vecmat.C116_mat_vec",
    "Vecmat.C116_mat_mat",
    "Vecmat.C116_affine",
    "Vecmat.C116_max_min",
    "Vecmat.C116_max_min_mono",
    "Vecmat.C116_lengths",
    "Vecmat.C116_mat_norms",
    "Vecmat.C116_complex",
    "Vecmat.C116_quaternion",
    "Vecmat.C116_norm_order",
    "Vecmat.C116_strict_refuted"
   ],
   "note": ""
  },
  {
   "property": "C117",
   "status": "proved",
   "theorems": [
    "Vecmat.C117_sum",
    "Vecmat.C117_dot",
    "Vecmat.C117_length",
    "Vecmat.C117_normalize",
    "Vecmat.C117_cross2",
    "Vecmat.C117_cross3",
    "Vecmat.C117_mat_vec",
    "Vecmat.C117_mat_mat",
    "Vecmat.C117_det",
    "Vecmat.C117_inverse",
    "Vecmat.C117_complex",
    "Vecmat.C117_quaternion",
    "Vecmat.C117_rotation3",
    "Vecmat.C117_rotation2",
    "Vecmat.C117_affine",
    "Vecmat.C117_moebius",
    "Vecmat.C117_moebius_quaternion",
    "Vecmat.C117_look_at",
    "Vecmat.C117_compose_rotation3",
    "Vecmat.C117_compose_affine",
    "Vecmat.C117_directions",
    "Vecmat.C117_moebius_directions",
    "Vecmat.C117_moebius_quaternion_directions",
    "Vecmat.C117_rescale"
   ],
   "note": ""
  }
 ]
}