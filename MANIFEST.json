{
 "claims": [
  {
   "property": "C01",
   "status": "proved",
   "theorems": [
    "MUL.C01_var_map",
    "MUL.C01_eval_var",
    "MUL.C01_last_write",
    "MUL.C01_removed",
    "MUL.C01_nodup",
    "MUL.C01_from_lists"
   ],
   "note": ""
  },
  {
   "property": "C02",
   "status": "proved",
   "theorems": [
    "MUL.C02_fun_map",
    "MUL.C02_independent"
   ],
   "note": ""
  },
  {
   "property": "C03",
   "status": "proved",
   "theorems": [
    "MUL.C03_combinations",
    "MUL.C03_mem",
    "MUL.C03_count",
    "MUL.C03_empty"
   ],
   "note": ""
  },
  {
   "property": "C04",
   "status": "proved",
   "theorems": [
    "MUL.C04_join",
    "MUL.C04_cuts",
    "MUL.C04_count"
   ],
   "note": ""
  },
  {
   "property": "C05",
   "status": "proved",
   "theorems": [
    "MUL.C05_parse_terminates"
   ],
   "note": ""
  },
  {
   "property": "C06",
   "status": "proved",
   "theorems": [
    "MUL.C06_no_panic_ascii",
    "MUL.C06_no_panic_plain",
    "MUL.C06_no_panic_false"
   ],
   "note": ""
  },
  {
   "property": "C07",
   "status": "proved",
   "theorems": [
    "MUL.C07_blanks",
    "MUL.C07_outer",
    "MUL.C07_only"
   ],
   "note": ""
  },
  {
   "property": "C08",
   "status": "proved",
   "theorems": [
    "MUL.C08_open",
    "MUL.C08_close",
    "MUL.C08_accepted",
    "MUL.C08_blank"
   ],
   "note": ""
  },
  {
   "property": "C09",
   "status": "proved",
   "theorems": [
    "MUL.C09_parse_text",
    "MUL.C09_parse_text_blanks",
    "MUL.C09_unambiguous"
   ],
   "note": ""
  },
  {
   "property": "C10",
   "status": "proved",
   "theorems": [
    "MUL.C10_value",
    "MUL.C10_division_right",
    "MUL.C10_left_false"
   ],
   "note": ""
  },
  {
   "property": "C11",
   "status": "proved",
   "theorems": [
    "MUL.C11_wellformed"
   ],
   "note": ""
  },
  {
   "property": "C12",
   "status": "proved",
   "theorems": [
    "MUL.C12_orientation",
    "MUL.C12_features",
    "MUL.C12_ragged",
    "MUL.C12_nested",
    "MUL.C12_mixed"
   ],
   "note": ""
  },
  {
   "property": "C13",
   "status": "proved",
   "theorems": [
    "MUL.C13_root",
    "MUL.C13_derivative",
    "MUL.C13_integral"
   ],
   "note": ""
  },
  {
   "property": "C14",
   "status": "proved",
   "theorems": [
    "MUL.C14_numeral",
    "MUL.C14_exactly"
   ],
   "note": ""
  },
  {
   "property": "C15",
   "status": "proved",
   "theorems": [
    "MUL.C15_equations",
    "MUL.C15_extra_dropped"
   ],
   "note": ""
  },
  {
   "property": "C16",
   "status": "proved",
   "theorems": [
    "MUL.C16_valid_name",
    "MUL.C16_empty_panics"
   ],
   "note": ""
  },
  {
   "property": "C17",
   "status": "proved",
   "theorems": [
    "MUL.C17_missing_left_is_zero",
    "MUL.C17_rejected_false"
   ],
   "note": ""
  },
  {
   "property": "C18",
   "status": "proved",
   "theorems": [
    "MUL.C18_more_steps",
    "MUL.C18_one_outcome"
   ],
   "note": ""
  },
  {
   "property": "C19",
   "status": "proved",
   "theorems": [
    "MUL.C19_results",
    "MUL.C19_first_error",
    "MUL.C19_left_error",
    "MUL.C19_right_error",
    "MUL.C19_count"
   ],
   "note": ""
  },
  {
   "property": "C20",
   "status": "proved",
   "theorems": [
    "MUL.C20_vector",
    "MUL.C20_vector_nonscalar",
    "MUL.C20_matrix",
    "MUL.C20_matrix_nonscalar",
    "MUL.C20_list"
   ],
   "note": ""
  },
  {
   "property": "C21",
   "status": "proved",
   "theorems": [
    "MUL.C21_constructed",
    "MUL.C21_variable",
    "MUL.C21_missing"
   ],
   "note": ""
  },
  {
   "property": "C22",
   "status": "proved",
   "theorems": [
    "MUL.C22_constructed",
    "MUL.C22_call",
    "MUL.C22_body_error",
    "MUL.C22_no_function",
    "MUL.C22_wrong_count",
    "MUL.C22_arg_error"
   ],
   "note": ""
  },
  {
   "property": "C23",
   "status": "proved",
   "theorems": [
    "MUL.C23_cycle",
    "MUL.C23_equation_fails",
    "MUL.C23_body_fails",
    "MUL.C23_direct_recursion",
    "MUL.C23_rejected",
    "MUL.C23_mutual_diverges",
    "MUL.C23_derivative_diverges"
   ],
   "note": ""
  },
  {
   "property": "C24",
   "status": "proved",
   "theorems": [
    "MUL.C24_terminates",
    "MUL.C24_no_functions"
   ],
   "note": ""
  },
  {
   "property": "C25",
   "status": "proved",
   "theorems": [
    "MUL.C25_same_meaning",
    "MUL.C25_unmentioned_calls",
    "MUL.C25_unmentioned"
   ],
   "note": ""
  },
  {
   "property": "C26",
   "status": "proved",
   "theorems": [
    "MUL.C26_no_panic",
    "MUL.C26_text",
    "MUL.C26_equation_panics"
   ],
   "note": ""
  },
  {
   "property": "C27",
   "status": "proved",
   "theorems": [
    "MUL.C27_wellformed"
   ],
   "note": ""
  },
  {
   "property": "C28",
   "status": "proved",
   "theorems": [
    "MUL.C28_from_value"
   ],
   "note": ""
  },
  {
   "property": "C29",
   "status": "proved",
   "theorems": [
    "MUL.C29_parse_error",
    "MUL.C29_eval",
    "MUL.C29_no_outcome"
   ],
   "note": ""
  },
  {
   "property": "C30",
   "status": "proved",
   "theorems": [
    "MUL.C30_add",
    "MUL.C30_sub",
    "MUL.C30_mismatch",
    "MUL.C30_commutes",
    "MUL.C30_sum",
    "MUL.C30_difference",
    "MUL.C30_negation",
    "MUL.C30_laws",
    "MUL.C30_laws_all",
    "MUL.C30_float_assoc_false"
   ],
   "note": ""
  },
  {
   "property": "C31",
   "status": "proved",
   "theorems": [
    "MUL.C31_mismatch",
    "MUL.C31_product",
    "MUL.C31_apply",
    "MUL.C31_associative"
   ],
   "note": ""
  },
  {
   "property": "C32",
   "status": "proved",
   "theorems": [
    "MUL.C32_either_side",
    "MUL.C32_div_undefined",
    "MUL.C32_scale",
    "MUL.C32_divide",
    "MUL.C32_divide_zero",
    "MUL.C32_vector_quotient"
   ],
   "note": ""
  },
  {
   "property": "C33",
   "status": "proved",
   "theorems": [
    "MUL.C33_mismatch",
    "MUL.C33_symmetric",
    "MUL.C33_dot",
    "MUL.C33_abs_scalar",
    "MUL.C33_abs_vector"
   ],
   "note": ""
  },
  {
   "property": "C34",
   "status": "proved",
   "theorems": [
    "MUL.C34_mismatch",
    "MUL.C34_cross",
    "MUL.C34_laws"
   ],
   "note": ""
  },
  {
   "property": "C35",
   "status": "proved",
   "theorems": [
    "MUL.C35_mismatch",
    "MUL.C35_det",
    "MUL.C35_laws"
   ],
   "note": ""
  },
  {
   "property": "C36",
   "status": "proved",
   "theorems": [
    "MUL.C36_inverse",
    "MUL.C36_error_iff",
    "MUL.C36_finite_iff",
    "MUL.C36_mismatch",
    "MUL.C36_zero_pivot_false"
   ],
   "note": ""
  },
  {
   "property": "C37",
   "status": "proved",
   "theorems": [
    "MUL.C37_power",
    "MUL.C37_not_integer",
    "MUL.C37_not_square",
    "MUL.C37_negative",
    "MUL.C37_inverse_power_false"
   ],
   "note": ""
  },
  {
   "property": "C38",
   "status": "proved",
   "theorems": [
    "MUL.C38_index",
    "MUL.C38_error",
    "MUL.C38_kinds",
    "MUL.C38_negative_zero"
   ],
   "note": ""
  },
  {
   "property": "C39",
   "status": "proved",
   "theorems": [
    "MUL.C39_scalar",
    "MUL.C39_vector",
    "MUL.C39_matrix",
    "MUL.C39_monotone",
    "MUL.C39_idempotent",
    "MUL.C39_entrywise",
    "MUL.C39_wraps",
    "MUL.C39_negative",
    "MUL.C39_values"
   ],
   "note": ""
  },
  {
   "property": "C40",
   "status": "proved",
   "theorems": [
    "MUL.C40_rejected",
    "MUL.C40_tight"
   ],
   "note": ""
  },
  {
   "property": "C41",
   "status": "proved",
   "theorems": [
    "MUL.C41_bound_error",
    "MUL.C41_equal_bounds",
    "MUL.C41_incomparable_bounds",
    "MUL.C41_several_bounds",
    "MUL.C41_loop",
    "MUL.C41_integral",
    "MUL.C41_integral_vector",
    "MUL.C41_integral_matrix",
    "MUL.C41_constant",
    "MUL.C41_identity",
    "MUL.C41_default"
   ],
   "note": ""
  },
  {
   "property": "C42",
   "status": "proved",
   "theorems": [
    "MUL.C42_symmetric",
    "MUL.C42_negation_false"
   ],
   "note": ""
  },
  {
   "property": "C43",
   "status": "proved",
   "theorems": [
    "MUL.C43_steps",
    "MUL.C43_never",
    "MUL.C43_diverges",
    "MUL.C43_arrives",
    "MUL.C43_terminates",
    "MUL.C43_float_diverges",
    "MUL.C43_float_arrives_false"
   ],
   "note": ""
  },
  {
   "property": "C44",
   "status": "proved",
   "theorems": [
    "MUL.C44_derivative",
    "MUL.C44_value_error",
    "MUL.C44_count_error",
    "MUL.C44_point_error",
    "MUL.C44_exact",
    "MUL.C44_affine",
    "MUL.C44_quadratic",
    "MUL.C44_default",
    "MUL.C44_float_zero"
   ],
   "note": ""
  },
  {
   "property": "C45",
   "status": "proved",
   "theorems": [
    "MUL.C45_roots",
    "MUL.C45_exact"
   ],
   "note": ""
  },
  {
   "property": "C46",
   "status": "proved",
   "theorems": [
    "MUL.C46_shape",
    "MUL.C46_at_most_ten",
    "MUL.C46_distinct"
   ],
   "note": ""
  },
  {
   "property": "C47",
   "status": "proved",
   "theorems": [
    "MUL.C47_no_equation",
    "MUL.C47_search_var_exists",
    "MUL.C47_underdetermined",
    "MUL.C47_first_equation"
   ],
   "note": ""
  },
  {
   "property": "C48",
   "status": "proved",
   "theorems": [
    "MUL.C48_error_iff",
    "MUL.C48_otherwise",
    "MUL.C48_contradiction",
    "MUL.C48_solution",
    "MUL.C48_finite_iff",
    "MUL.C48_error_singular",
    "MUL.C48_zero_pivot_false",
    "MUL.C48_eq_solves"
   ],
   "note": ""
  },
  {
   "property": "C49",
   "status": "proved",
   "theorems": [
    "MUL.C49_combinations",
    "MUL.C49_root_finder"
   ],
   "note": ""
  },
  {
   "property": "C50",
   "status": "proved",
   "theorems": [
    "MUL.C50_solve_eq"
   ],
   "note": ""
  },
  {
   "property": "C51",
   "status": "proved",
   "theorems": [
    "MUL.C51_scalar",
    "MUL.C51_vector",
    "MUL.C51_matrix_row_major",
    "MUL.C51_values",
    "MUL.C51_matrix_column_major",
    "MUL.C51_symmetric",
    "MUL.C51_no_values_false",
    "MUL.C51_matrix_false"
   ],
   "note": ""
  },
  {
   "property": "C52",
   "status": "proved",
   "theorems": [
    "MUL.C52_value",
    "MUL.C52_values",
    "MUL.C52_tree",
    "MUL.C52_function",
    "MUL.C52_variable",
    "MUL.C52_braces",
    "MUL.C52_plusminus_false"
   ],
   "note": ""
  },
  {
   "property": "C53",
   "status": "proved",
   "theorems": [
    "MUL.C53_vector",
    "MUL.C53_matrix"
   ],
   "note": ""
  },
  {
   "property": "C54",
   "status": "proved",
   "theorems": [
    "MUL.C54_no_solutions",
    "MUL.C54_one",
    "MUL.C54_set",
    "MUL.C54_at_var",
    "MUL.C54_value_at_var",
    "MUL.C54_variable"
   ],
   "note": ""
  },
  {
   "property": "C55",
   "status": "proved",
   "theorems": [
    "MUL.C55_tag",
    "MUL.C55_inline",
    "MUL.C55_inline_calculation",
    "MUL.C55_inline_declaration_false"
   ],
   "note": ""
  },
  {
   "property": "C56",
   "status": "proved",
   "theorems": [
    "MUL.C56_export",
    "MUL.C56_append"
   ],
   "note": ""
  },
  {
   "property": "C57",
   "status": "proved",
   "theorems": [
    "MUL.C57_vector",
    "MUL.C57_matrix",
    "MUL.C57_symbols",
    "MUL.C57_symbols_exceptions",
    "MUL.C57_other_names",
    "MUL.C57_vector_named",
    "MUL.C57_matrix_named",
    "MUL.C57_ascii",
    "MUL.C57_greek_false",
    "MUL.C57_vector_lines",
    "MUL.C57_matrix_lines",
    "MUL.C57_matrix_content",
    "MUL.C57_vector_content",
    "MUL.C57_scalar",
    "MUL.C57_empty_panics"
   ],
   "note": ""
  },
  {
   "property": "C58",
   "status": "proved",
   "theorems": [
    "MUL.C58_center",
    "MUL.C58_ascii_width"
   ],
   "note": ""
  },
  {
   "property": "C59",
   "status": "proved",
   "theorems": [
    "MUL.C59_tree",
    "MUL.C59_meaning",
    "MUL.C59_equation_false",
    "MUL.C59_equation",
    "MUL.C59_cross_false",
    "MUL.C59_get_false",
    "MUL.C59_addSub_false",
    "MUL.C59_abs_false",
    "MUL.C59_power_before_name_false",
    "MUL.C59_tiny_false"
   ],
   "note": ""
  },
  {
   "property": "C60",
   "status": "proved",
   "theorems": [
    "MUL.C60_formula",
    "MUL.C60_number",
    "MUL.C60_constants"
   ],
   "note": ""
  },
  {
   "property": "C61",
   "status": "proved",
   "theorems": [
    "MUL.C61_same_text",
    "MUL.C61_distinct",
    "MUL.C61_latex_distinct",
    "MUL.C61_latex",
    "MUL.C61_quick",
    "MUL.C61_unknown_variable",
    "MUL.C61_calls",
    "MUL.C61_kinds"
   ],
   "note": ""
  },
  {
   "property": "C62",
   "status": "proved",
   "theorems": [
    "MUL.C62_read",
    "MUL.C62_same_latex",
    "MUL.C62_from_value",
    "MUL.C62_values",
    "MUL.C62_function",
    "MUL.C62_variable",
    "MUL.C62_tree",
    "MUL.C62_meaning",
    "MUL.C62_same_meaning",
    "MUL.C62_inv_false",
    "MUL.C62_get_false",
    "MUL.C62_equation_false"
   ],
   "note": ""
  },
  {
   "property": "C63",
   "status": "proved",
   "theorems": [
    "MUL.C63_rounded",
    "MUL.C63_zero",
    "MUL.C63_tiny"
   ],
   "note": ""
  },
  {
   "property": "C64",
   "status": "proved",
   "theorems": [
    "MUL.C64_procedure",
    "MUL.C64_no_solution",
    "MUL.C64_quadratic",
    "MUL.C64_quadratic_real",
    "MUL.C64_double_solution",
    "MUL.C64_text",
    "MUL.C64_quadratic_text",
    "MUL.C64_none_text",
    "MUL.C64_double_text"
   ],
   "note": ""
  },
  {
   "property": "C65",
   "status": "proved",
   "theorems": [
    "MUL.C65_kinds",
    "MUL.C65_macro",
    "MUL.C65_several",
    "MUL.C65_nonfinite",
    "MUL.C65_equal",
    "MUL.C65_nan",
    "MUL.C65_literal"
   ],
   "note": ""
  },
  {
   "property": "C66",
   "status": "proved",
   "theorems": [
    "MUL.C66_derivative",
    "MUL.C66_integral",
    "MUL.C66_derivative_text",
    "MUL.C66_integral_text"
   ],
   "note": ""
  },
  {
   "property": "C67",
   "status": "proved",
   "theorems": [
    "MUL.C67_formula",
    "MUL.C67_exact_value",
    "MUL.C67_number",
    "MUL.C67_constants",
    "MUL.C67_operations"
   ],
   "note": ""
  },
  {
   "property": "C68",
   "status": "proved",
   "theorems": [
    "MUL.C68_whole"
   ],
   "note": ""
  },
  {
   "property": "C69",
   "status": "proved",
   "theorems": [
    "MUL.C69_far"
   ],
   "note": ""
  },
  {
   "property": "C70",
   "status": "proved",
   "theorems": [
    "MUL.C70_derivative"
   ],
   "note": ""
  },
  {
   "property": "C71",
   "status": "proved",
   "theorems": [
    "MUL.C71_integral"
   ],
   "note": ""
  },
  {
   "property": "C72",
   "status": "proved",
   "theorems": [
    "MUL.C72_function",
    "MUL.C72_operator",
    "MUL.C72_root",
    "MUL.C72_negation",
    "MUL.C72_negated",
    "MUL.C72_difference"
   ],
   "note": ""
  },
  {
   "property": "C73",
   "status": "proved",
   "theorems": [
    "MUL.C73_never",
    "MUL.C73_far"
   ],
   "note": ""
  },
  {
   "property": "C74",
   "status": "proved",
   "theorems": [
    "MUL.C74_decimal",
    "MUL.C74_error",
    "MUL.C74_idempotent",
    "MUL.C74_monotone",
    "MUL.C74_overflow",
    "MUL.C74_text",
    "MUL.C74_surprises"
   ],
   "note": ""
  },
  {
   "property": "C75",
   "status": "proved",
   "theorems": [
    "MUL.C75_dot",
    "MUL.C75_apply",
    "MUL.C75_product",
    "MUL.C75_det",
    "MUL.C75_whole_dot",
    "MUL.C75_whole_product",
    "MUL.C75_whole_det",
    "MUL.C75_singular"
   ],
   "note": ""
  },
  {
   "property": "C76",
   "status": "proved",
   "theorems": [
    "MUL.C76_procedure",
    "MUL.C76_small",
    "MUL.C76_at_most_ten",
    "MUL.C76_first_variable",
    "MUL.C76_gives_up",
    "MUL.C76_linear",
    "MUL.C76_linear_whole",
    "MUL.C76_text"
   ],
   "note": ""
  },
  {
   "property": "C77",
   "status": "proved",
   "theorems": [
    "MUL.C77_svg",
    "MUL.C77_no_current_color",
    "MUL.C77_errors",
    "MUL.C77_png",
    "MUL.C77_zero_height",
    "MUL.C77_export",
    "MUL.C77_letters"
   ],
   "note": ""
  },
  {
   "property": "C78",
   "status": "proved",
   "theorems": [
    "MUL.C78_rename",
    "MUL.C78_solve",
    "MUL.C78_replace",
    "MUL.C78_derivative",
    "MUL.C78_integral",
    "MUL.C78_equation",
    "MUL.C78_parameter",
    "MUL.C78_dynamic_false",
    "MUL.C78_text",
    "MUL.C78_text_results"
   ],
   "note": ""
  },
  {
   "property": "C79",
   "status": "proved",
   "theorems": [
    "MUL.C79_replace",
    "MUL.C79_substitute",
    "MUL.C79_define"
   ],
   "note": ""
  },
  {
   "property": "C80",
   "status": "proved",
   "theorems": [
    "MUL.C80_equation",
    "MUL.C80_tree",
    "MUL.C80_text",
    "MUL.C80_incomparable",
    "MUL.C80_exact",
    "MUL.C80_double",
    "MUL.C80_integral_false",
    "MUL.C80_vector_false"
   ],
   "note": ""
  },
  {
   "property": "C81",
   "status": "proved",
   "theorems": [
    "MUL.C81_test",
    "MUL.C81_panic",
    "MUL.C81_exact"
   ],
   "note": ""
  },
  {
   "property": "C82",
   "status": "proved",
   "theorems": [
    "MUL.C82_bounds",
    "MUL.C82_exact",
    "MUL.C82_one"
   ],
   "note": ""
  },
  {
   "property": "C83",
   "status": "proved",
   "theorems": [
    "MUL.C83_commutative",
    "MUL.C83_units",
    "MUL.C83_cancel",
    "MUL.C83_monotone",
    "MUL.C83_not_laws",
    "MUL.C83_sum",
    "MUL.C83_product",
    "MUL.C83_swap",
    "MUL.C83_order"
   ],
   "note": ""
  },
  {
   "property": "C84",
   "status": "proved",
   "theorems": [
    "MUL.C84_integral",
    "MUL.C84_substitution",
    "MUL.C84_not_additive",
    "MUL.C84_derivative"
   ],
   "note": ""
  },
  {
   "property": "C85",
   "status": "proved",
   "theorems": [
    "MUL.C85_trees",
    "MUL.C85_values",
    "MUL.C85_reflexive",
    "MUL.C85_equivalence",
    "MUL.C85_parsed",
    "MUL.C85_zeros",
    "MUL.C85_contexts",
    "MUL.C85_order"
   ],
   "note": ""
  },
  {
   "property": "C86",
   "status": "proved",
   "theorems": [
    "MUL.C86_trees",
    "MUL.C86_values",
    "MUL.C86_contexts",
    "MUL.C86_steps",
    "MUL.C86_exact",
    "MUL.C86_injective",
    "MUL.C86_json"
   ],
   "note": ""
  },
  {
   "property": "C87",
   "status": "proved",
   "theorems": [
    "MUL.C87_slopes_of_deriv",
    "MUL.C87_found",
    "MUL.C87_unique",
    "MUL.C87_found_text",
    "MUL.C87_unique_text"
   ],
   "note": ""
  },
  {
   "property": "C88",
   "status": "proved",
   "theorems": [
    "MUL.C88_formula",
    "MUL.C88_equation",
    "MUL.C88_found",
    "MUL.C88_unique",
    "MUL.C88_reciprocal_missed"
   ],
   "note": ""
  },
  {
   "property": "C89",
   "status": "proved",
   "theorems": [
    "MUL.C89_equation",
    "MUL.C89_text"
   ],
   "note": ""
  },
  {
   "property": "C90",
   "status": "proved",
   "theorems": [
    "MUL.C90_depth",
    "MUL.C90_depth_integrals",
    "MUL.C90_height",
    "MUL.C90_text",
    "MUL.C90_unbounded"
   ],
   "note": ""
  },
  {
   "property": "C91",
   "status": "proved",
   "theorems": [
    "MUL.C91_same_results",
    "MUL.C91_determined",
    "MUL.C91_silent",
    "MUL.C91_no_letter",
    "MUL.C91_silent_text",
    "MUL.C91_lines",
    "MUL.C91_sums",
    "MUL.C91_equal_bounds",
    "MUL.C91_derivative",
    "MUL.C91_call",
    "MUL.C91_equation",
    "MUL.C91_rejected",
    "MUL.C91_not_numbers",
    "MUL.C91_operator",
    "MUL.C91_operator_stops",
    "MUL.C91_list",
    "MUL.C91_vector",
    "MUL.C91_matrix"
   ],
   "note": ""
  },
  {
   "property": "C92",
   "status": "proved",
   "theorems": [
    "MUL.C92_mixed",
    "MUL.C92_fubini",
    "MUL.C92_leibniz",
    "MUL.C92_higher",
    "MUL.C92_integral_of_derivative",
    "MUL.C92_derivative_of_integral",
    "MUL.C92_binary64"
   ],
   "note": ""
  },
  {
   "property": "C93",
   "status": "proved",
   "theorems": [
    "MUL.C93_from_text",
    "MUL.C93_size",
    "MUL.C93_attained"
   ],
   "note": ""
  },
  {
   "property": "C94",
   "status": "proved",
   "theorems": [
    "MUL.C94_derivative",
    "MUL.C94_context_ok",
    "MUL.C94_context_first",
    "MUL.C94_context_later",
    "MUL.C94_context_kind",
    "MUL.C94_others",
    "MUL.C94_newton_given",
    "MUL.C94_newton_first",
    "MUL.C94_newton_empty",
    "MUL.C94_newton_context",
    "MUL.C94_integral",
    "MUL.C94_integral_shadowed",
    "MUL.C94_forgets",
    "MUL.C94_shadowed_value"
   ],
   "note": ""
  },
  {
   "property": "C95",
   "status": "proved",
   "theorems": [
    "MUL.C95_finite",
    "MUL.C95_unique",
    "MUL.C95_denotes",
    "MUL.C95_quotient_false"
   ],
   "note": ""
  },
  {
   "property": "C96",
   "status": "proved",
   "theorems": [
    "MUL.C96_nothing_dropped",
    "MUL.C96_injective",
    "MUL.C96_last_character",
    "MUL.C96_second_equals"
   ],
   "note": ""
  },
  {
   "property": "C97",
   "status": "proved",
   "theorems": [
    "MUL.C97_every_part",
    "MUL.C97_first_failure",
    "MUL.C97_divergence",
    "MUL.C97_origin",
    "MUL.C97_unknown_variable"
   ],
   "note": ""
  },
  {
   "property": "C98",
   "status": "proved",
   "theorems": [
    "MUL.C98_some",
    "MUL.C98_all",
    "MUL.C98_call",
    "MUL.C98_text",
    "MUL.C98_inline",
    "MUL.C98_example"
   ],
   "note": ""
  },
  {
   "property": "C99",
   "status": "proved",
   "theorems": [
    "MUL.C99_text",
    "MUL.C99_quadratic",
    "MUL.C99_values",
    "MUL.C99_iff",
    "MUL.C99_count"
   ],
   "note": ""
  },
  {
   "property": "C100",
   "status": "proved",
   "theorems": [
    "MUL.C100_results",
    "MUL.C100_failures",
    "MUL.C100_converse",
    "MUL.C100_text",
    "MUL.C100_equal_bounds",
    "MUL.C100_not_square",
    "MUL.C100_example",
    "MUL.C100_example_none"
   ],
   "note": ""
  },
  {
   "property": "C101",
   "status": "proved",
   "theorems": [
    "MUL.C101_orientation",
    "MUL.C101_no_matrix",
    "MUL.C101_parse_precision",
    "MUL.C101_no_bracket",
    "MUL.C101_eval_orientation",
    "MUL.C101_solve_orientation",
    "MUL.C101_eval_precision",
    "MUL.C101_printing",
    "MUL.C101_quick_eval",
    "MUL.C101_example",
    "MUL.C101_example_same"
   ],
   "note": ""
  },
  {
   "property": "C102",
   "status": "proved",
   "theorems": [
    "MUL.C102_panics",
    "MUL.C102_well_formed",
    "MUL.C102_eval",
    "MUL.C102_unicode",
    "MUL.C102_example"
   ],
   "note": ""
  },
  {
   "property": "C103",
   "status": "proved",
   "theorems": [
    "MUL.C103_inverse_product",
    "MUL.C103_inverse_twice",
    "MUL.C103_inverse_det",
    "MUL.C103_powers_product",
    "MUL.C103_powers_power",
    "MUL.C103_powers_det",
    "MUL.C103_powers_inverse",
    "MUL.C103_triple",
    "MUL.C103_lagrange",
    "MUL.C103_length",
    "MUL.C103_root",
    "MUL.C103_trigonometry",
    "MUL.C103_system",
    "MUL.C103_inverse_product_false",
    "MUL.C103_inverse_twice_false",
    "MUL.C103_power_false"
   ],
   "note": ""
  },
  {
   "property": "C104",
   "status": "proved",
   "theorems": [
    "MUL.C104_succeeds",
    "MUL.C104_count",
    "MUL.C104_text",
    "MUL.C104_excluded"
   ],
   "note": ""
  },
  {
   "property": "C105",
   "status": "proved",
   "theorems": [
    "MUL.C105_justified",
    "MUL.C105_solve",
    "MUL.C105_text",
    "MUL.C105_never",
    "MUL.C105_variables",
    "MUL.C105_no_equations"
   ],
   "note": ""
  },
  {
   "property": "C106",
   "status": "proved",
   "theorems": [
    "MUL.C106_sides",
    "MUL.C106_solve",
    "MUL.C106_text",
    "MUL.C106_one",
    "MUL.C106_binary64",
    "MUL.C106_exact",
    "MUL.C106_anywhere",
    "MUL.C106_text_anywhere"
   ],
   "note": ""
  },
  {
   "property": "C107",
   "status": "proved",
   "theorems": [
    "MUL.C107_replace",
    "MUL.C107_same",
    "MUL.C107_results"
   ],
   "note": ""
  },
  {
   "property": "C108",
   "status": "proved",
   "theorems": [
    "MUL.C108_twice",
    "MUL.C108_solve",
    "MUL.C108_text",
    "MUL.C108_turned"
   ],
   "note": ""
  },
  {
   "property": "C109",
   "status": "proved",
   "theorems": [
    "MUL.C109_rewrite",
    "MUL.C109_binary64",
    "MUL.C109_trees",
    "MUL.C109_text"
   ],
   "note": ""
  },
  {
   "property": "C110",
   "status": "proved",
   "theorems": [
    "MUL.C110_trees",
    "MUL.C110_text"
   ],
   "note": ""
  },
  {
   "property": "C111",
   "status": "proved",
   "theorems": [
    "MUL.C111_triangle",
    "MUL.C111_difference",
    "MUL.C111_product",
    "MUL.C111_multiple",
    "MUL.C111_positive",
    "MUL.C111_parallelogram"
   ],
   "note": ""
  },
  {
   "property": "C112",
   "status": "proved",
   "theorems": [
    "MUL.C112_sum",
    "MUL.C112_multiple",
    "MUL.C112_matrices",
    "MUL.C112_composed",
    "MUL.C112_det"
   ],
   "note": ""
  }
 ]
}