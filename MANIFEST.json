{
 "claims": [
  {
   "property": "C01",
   "status": "proved",
   "theorems": [
    "VO.C01_roundtrip",
    "VO.C01_inverse",
    "VO.C01_back",
    "VO.C01_toField_panics"
   ],
   "note": ""
  },
  {
   "property": "C02",
   "status": "proved",
   "theorems": [
    "VO.C02_power",
    "VO.C02_power_add",
    "VO.C02_power_zero",
    "VO.C02_power_zero_deviation"
   ],
   "note": "C02_power_zero_deviation: power(0,0)=0 in the code, where 0^0=1 is expected."
  },
  {
   "property": "C03",
   "status": "proved",
   "theorems": [
    "VO.C03_product",
    "VO.C03_abort"
   ],
   "note": ""
  },
  {
   "property": "C04",
   "status": "proved",
   "theorems": [
    "VO.C04_left_product",
    "VO.C04_adjoint"
   ],
   "note": ""
  },
  {
   "property": "C05",
   "status": "proved",
   "theorems": [
    "VO.C05_vector_poly_mul",
    "VO.C05_middle_coefficient",
    "VO.C05_abort"
   ],
   "note": ""
  },
  {
   "property": "C06",
   "status": "proved",
   "theorems": [
    "VO.C06_cache_transparent",
    "VO.C06_shared_cache_wrong"
   ],
   "note": ""
  },
  {
   "property": "C07",
   "status": "proved",
   "theorems": [
    "VO.C07_vector_power_mul"
   ],
   "note": ""
  },
  {
   "property": "C08",
   "status": "proved",
   "theorems": [
    "VO.C08_power_power_mul"
   ],
   "note": ""
  },
  {
   "property": "C09",
   "status": "proved",
   "theorems": [
    "VO.C09_plus",
    "VO.C09_mul"
   ],
   "note": ""
  },
  {
   "property": "C10",
   "status": "proved",
   "theorems": [
    "VO.C10_dense",
    "VO.C10_agree",
    "VO.C10_abort",
    "VO.C10_duplicate_differs"
   ],
   "note": "C10_duplicate_differs: with a repeated index the dense vector and the sparse evaluation differ."
  },
  {
   "property": "C11",
   "status": "proved",
   "theorems": [
    "VO.C11_vector",
    "VO.C11_abort",
    "VO.C11_complete",
    "VO.C11_forest_iff",
    "VO.C11_forest_cycles",
    "VO.C11_duplicate_cancels",
    "VO.C11_triangle_drops"
   ],
   "note": "True for forests; C11_duplicate_cancels and C11_triangle_drops exhibit the deviation for repeated or cyclic pairs."
  },
  {
   "property": "C12",
   "status": "proved",
   "theorems": [
    "VO.C12_short",
    "VO.C12_short_zero",
    "VO.C12_sparse",
    "VO.C12_sparse_zero",
    "VO.C12_vector"
   ],
   "note": "Deviation at the point 0 proved in C12_short_zero and C12_sparse_zero."
  },
  {
   "property": "C13",
   "status": "proved",
   "theorems": [
    "VO.C13_power_iter",
    "VO.C13_abort"
   ],
   "note": ""
  },
  {
   "property": "C14",
   "status": "proved",
   "theorems": [
    "VO.C14_expression_inverse",
    "VO.C14_uwinverse"
   ],
   "note": ""
  },
  {
   "property": "C15",
   "status": "proved",
   "theorems": [
    "VO.C15_zero_pad",
    "VO.C15_zero_pad_and_concat",
    "VO.C15_vector_index"
   ],
   "note": ""
  },
  {
   "property": "C16",
   "status": "proved",
   "theorems": [
    "VO.C16_vertical",
    "VO.C16_horizontal"
   ],
   "note": ""
  },
  {
   "property": "C17",
   "status": "proved",
   "theorems": [
    "VO.C17_setup",
    "VO.C17_setup_vk"
   ],
   "note": ""
  },
  {
   "property": "C18",
   "status": "proved",
   "theorems": [
    "VO.C18_commit",
    "VO.C18_commit_coefficients",
    "VO.C18_homomorphic",
    "VO.C18_leading_zeros"
   ],
   "note": ""
  },
  {
   "property": "C19",
   "status": "proved",
   "theorems": [
    "VO.C19_open_complete",
    "VO.C19_witness",
    "VO.C19_open_constant_aborts"
   ],
   "note": ""
  },
  {
   "property": "C20",
   "status": "proved",
   "theorems": [
    "VO.C20_check_iff",
    "VO.C20_value_unique",
    "VO.C20_binding"
   ],
   "note": ""
  },
  {
   "property": "C21",
   "status": "proved",
   "theorems": [
    "VO.C21_batch_complete",
    "VO.C21_batch_constant_aborts"
   ],
   "note": ""
  },
  {
   "property": "C22",
   "status": "proved",
   "theorems": [
    "VO.C22_batch_iff",
    "VO.C22_randomizer",
    "VO.C22_batch_sound",
    "VO.C22_known_randomizer_forgery"
   ],
   "note": ""
  },
  {
   "property": "C23",
   "status": "proved",
   "theorems": [
    "VO.C23_vector_commitment",
    "VO.C23_empty_aborts"
   ],
   "note": ""
  },
  {
   "property": "C24",
   "status": "proved",
   "theorems": [
    "VO.C24_satisfy",
    "VO.C24_abort"
   ],
   "note": ""
  },
  {
   "property": "C25",
   "status": "proved",
   "theorems": [
    "VO.C25_satisfy",
    "VO.C25_bad_shape"
   ],
   "note": ""
  },
  {
   "property": "C26",
   "status": "proved",
   "theorems": [
    "VO.C26_get_size",
    "VO.C26_densities_are_those_of_A",
    "VO.C26_wrong_density"
   ],
   "note": "The code reports the density of A for all three matrices (C26_densities_are_those_of_A, C26_wrong_density)."
  },
  {
   "property": "C27",
   "status": "proved",
   "theorems": [
    "VO.C27_gates",
    "VO.C27_wiring",
    "VO.C27_instance",
    "VO.C27_satisfy",
    "VO.C27_empty_witness_passes_gates"
   ],
   "note": "C27_empty_witness_passes_gates: the gate check ignores the witness length."
  },
  {
   "property": "C28",
   "status": "proved",
   "theorems": [
    "VO.C28_generator",
    "VO.C28_too_many_inputs"
   ],
   "note": "For input_size > nrows the generated instance is not accepted (C28_too_many_inputs)."
  },
  {
   "property": "C29",
   "status": "proved",
   "theorems": [
    "VO.C29_wired",
    "VO.C29_unique",
    "VO.C29_ordered",
    "VO.C29_failed_gate_remains"
   ],
   "note": "C29_failed_gate_remains: a low-level gate call that fails leaves a dangling gate."
  },
  {
   "property": "C30",
   "status": "proved",
   "theorems": [
    "VO.C30_bin",
    "VO.C30_const",
    "VO.C30_input"
   ],
   "note": ""
  },
  {
   "property": "C31",
   "status": "proved",
   "theorems": [
    "VO.C31_succeeds_iff",
    "VO.C31_errors",
    "VO.C31_values"
   ],
   "note": ""
  },
  {
   "property": "C32",
   "status": "proved",
   "theorems": [
    "VO.C32_layout",
    "VO.C32_injective",
    "VO.C32_onto"
   ],
   "note": ""
  },
  {
   "property": "C33",
   "status": "proved",
   "theorems": [
    "VO.C33_linked",
    "VO.C33_succeeds_iff",
    "VO.C33_forest"
   ],
   "note": ""
  },
  {
   "property": "C34",
   "status": "proved",
   "theorems": [
    "VO.C34_honest",
    "VO.C34_system"
   ],
   "note": ""
  },
  {
   "property": "C35",
   "status": "proved",
   "theorems": [
    "VO.C35_sound"
   ],
   "note": ""
  },
  {
   "property": "C36",
   "status": "proved",
   "theorems": [
    "VO.C36_succeeds_iff",
    "VO.C36_history",
    "VO.C36_has_constant",
    "VO.C36_equivalent",
    "VO.C36_triple",
    "VO.C36_pair_sound",
    "VO.C36_forest",
    "VO.C36_repeated_row_unsound"
   ],
   "note": ""
  },
  {
   "property": "C37",
   "status": "proved",
   "theorems": [
    "VO.C37_complete"
   ],
   "note": ""
  },
  {
   "property": "C38",
   "status": "proved",
   "theorems": [
    "VO.C38_accepts_iff",
    "VO.C38_sound"
   ],
   "note": ""
  },
  {
   "property": "C39",
   "status": "proved",
   "theorems": [
    "VO.C39_instance_shift",
    "VO.C39_instance_shift_b"
   ],
   "note": ""
  },
  {
   "property": "C40",
   "status": "proved",
   "theorems": [
    "VO.C40_forgery"
   ],
   "note": ""
  },
  {
   "property": "C41",
   "status": "proved",
   "theorems": [
    "VO.C41_complete",
    "VO.C41_no_constants"
   ],
   "note": "C41_no_constants: systems without constant gates cannot be indexed. Omega = 0 with public position 0 is excluded (power(0,0)=0)."
  },
  {
   "property": "C42",
   "status": "proved",
   "theorems": [
    "VO.C42_grand_product"
   ],
   "note": ""
  },
  {
   "property": "C43",
   "status": "proved",
   "theorems": [
    "VO.C43_complete",
    "VO.C43_too_few_entries",
    "VO.C43_tall_system"
   ],
   "note": "C43_too_few_entries and C43_tall_system: satisfiable systems for which the prover aborts or fails."
  },
  {
   "property": "C44",
   "status": "proved",
   "theorems": [
    "VO.C44_complete",
    "VO.C44_wrong_density",
    "VO.C44_tall_system"
   ],
   "note": "C44_wrong_density and C44_tall_system: satisfiable systems for which the prover fails, because get_size reports the density of A for B and C, or because there are more rows than entries."
  },
  {
   "property": "C45",
   "status": "proved",
   "theorems": [
    "VO.C45_prover_aborts",
    "VO.C45_complete",
    "VO.C45_accepting_exists"
   ],
   "note": "Completeness is conditional on the fifth blinding value being zero; C45_prover_aborts proves that the shipped prover stops otherwise, and C45_accepting_exists that accepted proofs exist all the same."
  },
  {
   "property": "C46",
   "status": "proved",
   "theorems": [
    "VO.C46_params_roundtrip",
    "VO.C46_setup_roundtrip",
    "VO.C46_vk_roundtrip",
    "VO.C46_sizes"
   ],
   "note": ""
  },
  {
   "property": "C47",
   "status": "proved",
   "theorems": [
    "VO.C47_prepared",
    "VO.C47_prepared_vk",
    "VO.C47_table_mul"
   ],
   "note": ""
  },
  {
   "property": "C48",
   "status": "proved",
   "theorems": [
    "VO.C48_omega",
    "VO.C48_z",
    "VO.C48_complete"
   ],
   "note": ""
  },
  {
   "property": "C49",
   "status": "proved",
   "theorems": [
    "VO.C49_add_nonneg",
    "VO.C49_add_neg",
    "VO.C49_add_neg_wrong"
   ],
   "note": "Negative i64 arguments give a wrong result (C49_add_neg, C49_add_neg_wrong)."
  },
  {
   "property": "C50",
   "status": "proved",
   "theorems": [
    "VO.C50_binary_search",
    "VO.C50_bounds",
    "VO.C50_no_panic"
   ],
   "note": ""
  },
  {
   "property": "C51",
   "status": "proved",
   "theorems": [
    "VO.C51_ark_entry",
    "VO.C51_ark_conversion"
   ],
   "note": ""
  },
  {
   "property": "C52",
   "status": "proved",
   "theorems": [
    "VO.C52_complete",
    "VO.C52_failure_is_clean",
    "VO.C52_failed_but_complete",
    "VO.C52_twice",
    "VO.C52_output"
   ],
   "note": "Deviations: C52_failed_but_complete (hand-made variables), C52_twice (outputs duplicated)."
  },
  {
   "property": "C53",
   "status": "proved",
   "theorems": [
    "VO.C53_concat_subvec",
    "VO.C53_hadamard_vector",
    "VO.C53_concat_neg_vector"
   ],
   "note": ""
  },
  {
   "property": "C54",
   "status": "proved",
   "theorems": [
    "VO.C54_sound"
   ],
   "note": "Prover modelled as committing to polynomials of degree at most D; challenges are fixed by the hash of the transcript."
  },
  {
   "property": "C55",
   "status": "proved",
   "theorems": [
    "VO.C55_accepts_iff"
   ],
   "note": ""
  },
  {
   "property": "C56",
   "status": "proved",
   "theorems": [
    "VO.C56_forgery"
   ],
   "note": ""
  },
  {
   "property": "C57",
   "status": "proved",
   "theorems": [
    "VO.C57_unchecked_position"
   ],
   "note": "Deviation; not expected of a sound verifier. Excluded in C54 by the hypothesis that public positions are in range."
  },
  {
   "property": "C58",
   "status": "proved",
   "theorems": [
    "VO.C58_sound"
   ],
   "note": "Prover modelled as committing to polynomials of degree at most D; challenges are fixed by the hash of the transcript."
  },
  {
   "property": "C59",
   "status": "proved",
   "theorems": [
    "VO.C59_accepts_iff"
   ],
   "note": ""
  },
  {
   "property": "C60",
   "status": "proved",
   "theorems": [
    "VO.C60_forgery"
   ],
   "note": ""
  },
  {
   "property": "C61",
   "status": "proved",
   "theorems": [
    "VO.C61_instance_length"
   ],
   "note": "Deviation; the statement of C58 uses the cut or padded instance accordingly."
  },
  {
   "property": "C62",
   "status": "proved",
   "theorems": [
    "VO.C62_sound"
   ],
   "note": "Prover modelled as committing to polynomials of degree at most D; challenges are fixed by the hash of the transcript."
  },
  {
   "property": "C63",
   "status": "proved",
   "theorems": [
    "VO.C63_accepts_iff"
   ],
   "note": ""
  },
  {
   "property": "C64",
   "status": "proved",
   "theorems": [
    "VO.C64_forgery"
   ],
   "note": ""
  },
  {
   "property": "C65",
   "status": "proved",
   "theorems": [
    "VO.C65_instance_too_long"
   ],
   "note": "Deviation; excluded in C62 by the hypothesis on the length of the instance."
  },
  {
   "property": "C66",
   "status": "proved",
   "theorems": [
    "VO.C66_sound"
   ],
   "note": "Provers whose group elements are commitments to known polynomials (algebraic provers)."
  },
  {
   "property": "C67",
   "status": "proved",
   "theorems": [
    "VO.C67_accepts_iff"
   ],
   "note": ""
  },
  {
   "property": "C68",
   "status": "proved",
   "theorems": [
    "VO.C68_forgery"
   ],
   "note": ""
  },
  {
   "property": "C69",
   "status": "proved",
   "theorems": [
    "VO.C69_short_table"
   ],
   "note": "Deviation; excluded in C66 by lookup_size <= range."
  },
  {
   "property": "C70",
   "status": "proved",
   "theorems": [
    "VO.C70_complete",
    "VO.C70_no_constants"
   ],
   "note": ""
  },
  {
   "property": "C71",
   "status": "proved",
   "theorems": [
    "VO.C71_enforced"
   ],
   "note": ""
  },
  {
   "property": "C72",
   "status": "proved",
   "theorems": [
    "VO.C72_not_enforced",
    "VO.C72_constants_ignored"
   ],
   "note": ""
  },
  {
   "property": "C73",
   "status": "proved",
   "theorems": [
    "VO.C73_sound_if_padded"
   ],
   "note": ""
  },
  {
   "property": "C74",
   "status": "proved",
   "theorems": [
    "VO.C74_accepts_iff"
   ],
   "note": ""
  },
  {
   "property": "C75",
   "status": "proved",
   "theorems": [
    "VO.C75_forgery"
   ],
   "note": ""
  },
  {
   "property": "C76",
   "status": "proved",
   "theorems": [
    "VO.C76_complete",
    "VO.C76_too_few_entries",
    "VO.C76_long_witness",
    "VO.C76_wide_instance",
    "VO.C76_many_columns"
   ],
   "note": ""
  },
  {
   "property": "C77",
   "status": "proved",
   "theorems": [
    "VO.C77_sound"
   ],
   "note": ""
  },
  {
   "property": "C78",
   "status": "proved",
   "theorems": [
    "VO.C78_accepts_iff"
   ],
   "note": ""
  },
  {
   "property": "C79",
   "status": "proved",
   "theorems": [
    "VO.C79_forgery"
   ],
   "note": ""
  },
  {
   "property": "C80",
   "status": "proved",
   "theorems": [
    "VO.C80_instance_length"
   ],
   "note": ""
  },
  {
   "property": "C81",
   "status": "proved",
   "theorems": [
    "VO.C81_fibonacci",
    "VO.C81_range_check",
    "VO.C81_hpr",
    "VO.C81_pov_prover_efficient",
    "VO.C81_pov",
    "VO.C81_r1cs",
    "VO.C81_r1cs_prover_efficient"
   ],
   "note": ""
  },
  {
   "property": "C82",
   "status": "proved",
   "theorems": [
    "VO.C82_combine",
    "VO.C82_combine_truncates",
    "VO.C82_no_one",
    "VO.C82_with_one",
    "VO.C82_randomness_arith",
    "VO.C82_is_hiding",
    "VO.C82_hiding_cancel",
    "VO.C82_randomness_rand",
    "VO.C82_vector_diff",
    "VO.C82_expression_check",
    "VO.C82_density"
   ],
   "note": ""
  },
  {
   "property": "C83",
   "status": "proved",
   "theorems": [
    "VO.C83_commitment_hides",
    "VO.C83_value_hides",
    "VO.C83_two_blinders_hide"
   ],
   "note": ""
  },
  {
   "property": "C84",
   "status": "proved",
   "theorems": [
    "VO.C84_pov",
    "VO.C84_pov_prover_efficient",
    "VO.C84_r1cs",
    "VO.C84_r1cs_prover_efficient",
    "VO.C84_hpr",
    "VO.C84_fibonacci",
    "VO.C84_range_check"
   ],
   "note": "Deviation: the proofs are not zero knowledge; the theorems give the public test."
  },
  {
   "property": "C85",
   "status": "proved",
   "theorems": [
    "VO.C85_consistent",
    "VO.C85_zero_var",
    "VO.C85_new"
   ],
   "note": ""
  },
  {
   "property": "C86",
   "status": "proved",
   "theorems": [
    "VO.C86_append_only",
    "VO.C86_sat_mono",
    "VO.C86_value"
   ],
   "note": ""
  },
  {
   "property": "C87",
   "status": "proved",
   "theorems": [
    "VO.C87_add_input",
    "VO.C87_add_constant",
    "VO.C87_assert_equal",
    "VO.C87_constrain_to_constant",
    "VO.C87_poly_gate"
   ],
   "note": ""
  },
  {
   "property": "C88",
   "status": "proved",
   "theorems": [
    "VO.C88_arithmetic_gate",
    "VO.C88_arithmetic_gate_output",
    "VO.C88_panics"
   ],
   "note": ""
  },
  {
   "property": "C89",
   "status": "proved",
   "theorems": [
    "VO.C89_boolean_gate",
    "VO.C89_is_zero",
    "VO.C89_is_eq"
   ],
   "note": ""
  },
  {
   "property": "C90",
   "status": "proved",
   "theorems": [
    "VO.C90_select",
    "VO.C90_select_zero",
    "VO.C90_select_one"
   ],
   "note": ""
  },
  {
   "property": "C91",
   "status": "proved",
   "theorems": [
    "VO.C91_range_gate",
    "VO.C91_range_gate_own"
   ],
   "note": ""
  },
  {
   "property": "C92",
   "status": "proved",
   "theorems": [
    "VO.C92_logic_own",
    "VO.C92_logic_sound",
    "VO.C92_logic_inputs_not_bound"
   ],
   "note": ""
  },
  {
   "property": "C93",
   "status": "proved",
   "theorems": [
    "VO.C93_lookup",
    "VO.C93_lookup_public_input"
   ],
   "note": ""
  },
  {
   "property": "C94",
   "status": "proved",
   "theorems": [
    "VO.C94_full_affine",
    "VO.C94_affinePartialRound"
   ],
   "note": ""
  },
  {
   "property": "C95",
   "status": "proved",
   "theorems": [
    "VO.C95_identity",
    "VO.C95_add_affine",
    "VO.C95_public_point",
    "VO.C95_assert_equal_point",
    "VO.C95_conditional"
   ],
   "note": ""
  },
  {
   "property": "C96",
   "status": "proved",
   "theorems": [
    "VO.C96_runs",
    "VO.C96_sum",
    "VO.C96_complete",
    "VO.C96_group"
   ],
   "note": ""
  },
  {
   "property": "C97",
   "status": "proved",
   "theorems": [
    "VO.C97_sound",
    "VO.C97_own"
   ],
   "note": ""
  },
  {
   "property": "C98",
   "status": "proved",
   "theorems": [
    "VO.C98_runs",
    "VO.C98_sound",
    "VO.C98_own"
   ],
   "note": ""
  },
  {
   "property": "C99",
   "status": "proved",
   "theorems": [
    "VO.C99_blinding",
    "VO.C99_dummy"
   ],
   "note": ""
  },
  {
   "property": "C100",
   "status": "proved",
   "theorems": [
    "VO.C100_satisfied",
    "VO.C100_violated",
    "VO.C100_range",
    "VO.C100_logic",
    "VO.C100_fixed",
    "VO.C100_var",
    "VO.C100_lc"
   ],
   "note": "gate terms of quotient_poly.rs; lookup term is in the lookup claims"
  },
  {
   "property": "C101",
   "status": "proved",
   "theorems": [
    "VO.C101_sigma",
    "VO.C101_sigma_polys",
    "VO.C101_complete",
    "VO.C101_sound",
    "VO.C101_quotient"
   ],
   "note": "the domain is assumed to keep the four cosets 1, 7, 13, 17 apart (DomOk), as the code takes for granted"
  },
  {
   "property": "C102",
   "status": "proved",
   "theorems": [
    "VO.C102_insert_multi",
    "VO.C102_rows",
    "VO.C102_lookup",
    "VO.C102_multi",
    "VO.C102_value_from_table",
    "VO.C102_preprocess"
   ],
   "note": ""
  },
  {
   "property": "C103",
   "status": "proved",
   "theorems": [
    "VO.C103_combine_split",
    "VO.C103_compress",
    "VO.C103_compress_sound"
   ],
   "note": ""
  },
  {
   "property": "C104",
   "status": "proved",
   "theorems": [
    "VO.C104_sound",
    "VO.C104_complete",
    "VO.C104_distinct_rows",
    "VO.C104_deviation_duplicates",
    "VO.C104_quotient"
   ],
   "note": ""
  },
  {
   "property": "C105",
   "status": "proved",
   "theorems": [
    "VO.C105_complete",
    "VO.C105_preprocessed",
    "VO.C105_succeeds"
   ],
   "note": "PcsComplete is met by the ideal scheme (Lemmas/PlonkIdeal) and PFieldOk by a field of 7681 elements; an honest run is exhibited."
  },
  {
   "property": "C106",
   "status": "proved",
   "theorems": [
    "VO.C106_sound",
    "VO.C106_unsatisfiable"
   ],
   "note": ""
  },
  {
   "property": "C107",
   "status": "proved",
   "theorems": [
    "VO.C107_not_hashed",
    "VO.C107_late_accumulator"
   ],
   "note": ""
  },
  {
   "property": "C108",
   "status": "proved",
   "theorems": [
    "VO.C108_point_before_values",
    "VO.C108_late_selector",
    "VO.C108_every_statement",
    "VO.C108_accepts_false"
   ],
   "note": ""
  },
  {
   "property": "C109",
   "status": "proved",
   "theorems": [
    "VO.C109_add_input",
    "VO.C109_canonical",
    "VO.C109_equal",
    "VO.C109_from_val_pos",
    "VO.C109_as_evals",
    "VO.C109_poly",
    "VO.C109_round_trip"
   ],
   "note": ""
  },
  {
   "property": "C110",
   "status": "proved",
   "theorems": [
    "VO.C110_complete",
    "VO.C110_succeeds",
    "VO.C110_sound"
   ],
   "note": ""
  },
  {
   "property": "C111",
   "status": "proved",
   "theorems": [
    "VO.C111_invert",
    "VO.C111_singular",
    "VO.C111_shape",
    "VO.C111_is_invertible",
    "VO.C111_is_invertible_rect"
   ],
   "note": ""
  },
  {
   "property": "C112",
   "status": "proved",
   "theorems": [
    "VO.C112_matmul",
    "VO.C112_matmul_rect",
    "VO.C112_transpose",
    "VO.C112_transpose_rect",
    "VO.C112_apply",
    "VO.C112_apply_shape",
    "VO.C112_minor",
    "VO.C112_identity",
    "VO.C112_is_identity",
    "VO.C112_is_sparse"
   ],
   "note": ""
  },
  {
   "property": "C113",
   "status": "proved",
   "theorems": [
    "VO.C113_generate",
    "VO.C113_derive",
    "VO.C113_derive_panics",
    "VO.C113_new",
    "VO.C113_sparse"
   ],
   "note": ""
  },
  {
   "property": "C114",
   "status": "proved",
   "theorems": [
    "VO.C114_optimised",
    "VO.C114_generated"
   ],
   "note": ""
  },
  {
   "property": "C115",
   "status": "proved",
   "theorems": [
    "VO.C115_hash",
    "VO.C115_full_buffer",
    "VO.C115_padding",
    "VO.C115_reset",
    "VO.C115_state",
    "VO.C115_bijective",
    "VO.C115_second"
   ],
   "note": ""
  },
  {
   "property": "C116",
   "status": "proved",
   "theorems": [
    "VO.C116_output",
    "VO.C116_hash",
    "VO.C116_tag_free"
   ],
   "note": ""
  },
  {
   "property": "C117",
   "status": "proved",
   "theorems": [
    "VO.C117_general",
    "VO.C117_hash",
    "VO.C117_surplus",
    "VO.C117_transposed"
   ],
   "note": ""
  },
  {
   "property": "C118",
   "status": "proved",
   "theorems": [
    "VO.C118_minimal",
    "VO.C118_monotone",
    "VO.C118_even",
    "VO.C118_value"
   ],
   "note": ""
  },
  {
   "property": "C119",
   "status": "proved",
   "theorems": [
    "VO.C119_initial",
    "VO.C119_stream",
    "VO.C119_new",
    "VO.C119_bit",
    "VO.C119_next_returns",
    "VO.C119_constants",
    "VO.C119_rejects",
    "VO.C119_returns"
   ],
   "note": ""
  },
  {
   "property": "C120",
   "status": "proved",
   "theorems": [
    "VO.C120_good",
    "VO.C120_returns",
    "VO.C120_unsupported",
    "VO.C120_agree"
   ],
   "note": ""
  },
  {
   "property": "C121",
   "status": "proved",
   "theorems": [
    "VO.C121_complete",
    "VO.C121_sound",
    "VO.C121_r1cs_complete",
    "VO.C121_r1cs_sound"
   ],
   "note": ""
  },
  {
   "property": "C122",
   "status": "proved",
   "theorems": [
    "VO.C122_invariant_suffices",
    "VO.C122_repeated_assertion",
    "VO.C122_false_circuit_accepted",
    "VO.C122_false_r1cs_accepted"
   ],
   "note": ""
  },
  {
   "property": "C123",
   "status": "proved",
   "theorems": [
    "VO.C123_exact",
    "VO.C123_satisfied_iff",
    "VO.C123_complete",
    "VO.C123_sound",
    "VO.C123_incremental",
    "VO.C123_range",
    "VO.C123_lookup_unchecked",
    "VO.C123_accepts_failed_lookup"
   ],
   "note": ""
  },
  {
   "property": "C124",
   "status": "proved",
   "theorems": [
    "VO.C124_linear_combination",
    "VO.C124_aggregate",
    "VO.C124_lc",
    "VO.C124_batch_complete",
    "VO.C124_batch_sound"
   ],
   "note": ""
  },
  {
   "property": "C125",
   "status": "proved",
   "theorems": [
    "VO.C125_from_embedded",
    "VO.C125_to_embedded",
    "VO.C125_round_trip",
    "VO.C125_total",
    "VO.C125_variable_base",
    "VO.C125_fixed_base"
   ],
   "note": ""
  },
  {
   "property": "C126",
   "status": "proved",
   "theorems": [
    "VO.C126_prime",
    "VO.C126_roots",
    "VO.C126_generator",
    "VO.C126_cosets",
    "VO.C126_plonk_field",
    "VO.C126_plonk_complete",
    "VO.C126_env",
    "VO.C126_circuit_sound",
    "VO.C126_circuit_complete"
   ],
   "note": ""
  },
  {
   "property": "C127",
   "status": "proved",
   "theorems": [
    "VO.C127_add_laws",
    "VO.C127_curve_group",
    "VO.C127_subgroup",
    "VO.C127_multiples",
    "VO.C127_variable_base_sound",
    "VO.C127_fixed_base_sound",
    "VO.C127_fixed_base_own",
    "VO.C127_variable_base_own",
    "VO.C127_curves"
   ],
   "note": ""
  },
  {
   "property": "C128",
   "status": "proved",
   "theorems": [
    "VO.C128_fibonacci",
    "VO.C128_range_witness",
    "VO.C128_range_check",
    "VO.C128_test_circuit",
    "VO.C128_r1cs",
    "VO.C128_r1cs_too_small",
    "VO.C128_r1cs_prover_efficient",
    "VO.C128_hpr"
   ],
   "note": ""
  },
  {
   "property": "C129",
   "status": "proved",
   "theorems": [
    "VO.C129_call",
    "VO.C129_gadget",
    "VO.C129_compile_once",
    "VO.C129_constants"
   ],
   "note": ""
  },
  {
   "property": "C130",
   "status": "proved",
   "theorems": [
    "VO.C130_runs",
    "VO.C130_satisfied",
    "VO.C130_sound",
    "VO.C130_accepts",
    "VO.C130_rejects",
    "VO.C130_documentation",
    "VO.C130_documentation_repaired",
    "VO.C130_bls12_381",
    "VO.C130_poly",
    "VO.C130_poly_one_not_constrained"
   ],
   "note": ""
  },
  {
   "property": "C131",
   "status": "proved",
   "theorems": [
    "VO.C131_complete",
    "VO.C131_sound",
    "VO.C131_prover_efficient_complete",
    "VO.C131_prover_efficient_sound"
   ],
   "note": ""
  },
  {
   "property": "C132",
   "status": "proved",
   "theorems": [
    "VO.C132_complete",
    "VO.C132_enforced",
    "VO.C132_forgery",
    "VO.C132_additions_unprotected"
   ],
   "note": ""
  },
  {
   "property": "C133",
   "status": "proved",
   "theorems": [
    "VO.C133_triple",
    "VO.C133_pov",
    "VO.C133_pov_prover_efficient",
    "VO.C133_prover_efficient_forgery"
   ],
   "note": ""
  },
  {
   "property": "C134",
   "status": "proved",
   "theorems": [
    "VO.C134_translates_iff",
    "VO.C134_complete",
    "VO.C134_sound",
    "VO.C134_prover_efficient_complete",
    "VO.C134_pair",
    "VO.C134_prover_efficient_forgery"
   ],
   "note": ""
  },
  {
   "property": "C135",
   "status": "proved",
   "theorems": [
    "VO.C135_pov",
    "VO.C135_pov_pe",
    "VO.C135_pov_pe_padded"
   ],
   "note": ""
  },
  {
   "property": "C136",
   "status": "proved",
   "theorems": [
    "VO.C136_r1cs",
    "VO.C136_r1cs_pe"
   ],
   "note": ""
  },
  {
   "property": "C137",
   "status": "proved",
   "theorems": [
    "VO.C137_hpr"
   ],
   "note": ""
  },
  {
   "property": "C138",
   "status": "proved",
   "theorems": [
    "VO.C138_fibonacci",
    "VO.C138_range_check"
   ],
   "note": ""
  },
  {
   "property": "C139",
   "status": "proved",
   "theorems": [
    "VO.C139_plonk"
   ],
   "note": ""
  },
  {
   "property": "C140",
   "status": "proved",
   "theorems": [
    "VO.C140_circuit",
    "VO.C140_circuit_pe",
    "VO.C140_ark",
    "VO.C140_ark_pe",
    "VO.C140_ark_pov"
   ],
   "note": ""
  },
  {
   "property": "C141",
   "status": "proved",
   "theorems": [
    "VO.C141_pov",
    "VO.C141_pov_pe",
    "VO.C141_r1cs",
    "VO.C141_hpr",
    "VO.C141_r1cs_pe",
    "VO.C141_fibonacci",
    "VO.C141_range_check"
   ],
   "note": ""
  },
  {
   "property": "C142",
   "status": "proved",
   "theorems": [
    "VO.C142_prove",
    "VO.C142_circuit"
   ],
   "note": ""
  },
  {
   "property": "C143",
   "status": "proved",
   "theorems": [
    "VO.C143_prove",
    "VO.C143_preprocessed",
    "VO.C143_circuit",
    "VO.C143_own"
   ],
   "note": ""
  },
  {
   "property": "C144",
   "status": "proved",
   "theorems": [
    "VO.C144_passes",
    "VO.C144_fails",
    "VO.C144_dummy",
    "VO.C144_dummy_passes"
   ],
   "note": ""
  },
  {
   "property": "C145",
   "status": "proved",
   "theorems": [
    "VO.C145_session",
    "VO.C145_clear",
    "VO.C145_again"
   ],
   "note": ""
  },
  {
   "property": "C146",
   "status": "proved",
   "theorems": [
    "VO.C146_fast",
    "VO.C146_slow",
    "VO.C146_circuit"
   ],
   "note": ""
  },
  {
   "property": "C147",
   "status": "proved",
   "theorems": [
    "VO.C147_fibonacci",
    "VO.C147_pov",
    "VO.C147_pov_pe",
    "VO.C147_r1cs",
    "VO.C147_hpr",
    "VO.C147_r1cs_pe"
   ],
   "note": ""
  },
  {
   "property": "C148",
   "status": "proved",
   "theorems": [
    "VO.C148_runs",
    "VO.C148_small",
    "VO.C148_fewer_rows",
    "VO.C148_accepts"
   ],
   "note": ""
  },
  {
   "property": "C149",
   "status": "proved",
   "theorems": [
    "VO.C149_kzg",
    "VO.C149_complete",
    "VO.C149_circuit",
    "VO.C149_circuit_complete",
    "VO.C149_simple_circuit"
   ],
   "note": ""
  },
  {
   "property": "C150",
   "status": "proved",
   "theorems": [
    "VO.C150_selector",
    "VO.C150_accumulator",
    "VO.C150_circuit",
    "VO.C150_simple_circuit"
   ],
   "note": ""
  },
  {
   "property": "C151",
   "status": "proved",
   "theorems": [
    "VO.C151_right_guess",
    "VO.C151_points",
    "VO.C151_output_hides",
    "VO.C151_output_published",
    "VO.C151_kzg",
    "VO.C151_kzg_decides",
    "VO.C151_circuit"
   ],
   "note": ""
  },
  {
   "property": "C152",
   "status": "proved",
   "theorems": [
    "VO.C152_check",
    "VO.C152_batch_check",
    "VO.C152_pov",
    "VO.C152_pov_pe",
    "VO.C152_r1cs",
    "VO.C152_r1cs_pe",
    "VO.C152_hpr",
    "VO.C152_fibonacci",
    "VO.C152_range_check",
    "VO.C152_plonk"
   ],
   "note": ""
  },
  {
   "property": "C153",
   "status": "proved",
   "theorems": [
    "VO.C153_bytes",
    "VO.C153_fibonacci",
    "VO.C153_pov",
    "VO.C153_pov_pe",
    "VO.C153_r1cs",
    "VO.C153_r1cs_pe",
    "VO.C153_hpr",
    "VO.C153_range_check"
   ],
   "note": ""
  },
  {
   "property": "C154",
   "status": "proved",
   "theorems": [
    "VO.C154_digests",
    "VO.C154_bad_set",
    "VO.C154_bls",
    "VO.C154_bls_bad_set",
    "VO.C154_hash"
   ],
   "note": ""
  },
  {
   "property": "C155",
   "status": "proved",
   "theorems": [
    "VO.C155_never_panics",
    "VO.C155_panics",
    "VO.C155_can_panic",
    "VO.C155_strings",
    "VO.C155_bad_set",
    "VO.C155_bls"
   ],
   "note": ""
  },
  {
   "property": "C156",
   "status": "proved",
   "theorems": [
    "VO.C156_key_given",
    "VO.C156_preprocessed",
    "VO.C156_messages",
    "VO.C156_circuit"
   ],
   "note": ""
  },
  {
   "property": "C157",
   "status": "proved",
   "theorems": [
    "VO.C157_proof",
    "VO.C157_key",
    "VO.C157_public_inputs",
    "VO.C157_verifier_data",
    "VO.C157_proved",
    "VO.C157_verify"
   ],
   "note": ""
  },
  {
   "property": "C158",
   "status": "proved",
   "theorems": [
    "VO.C158_plonk",
    "VO.C158_kzg",
    "VO.C158_complete",
    "VO.C158_sizes",
    "VO.C158_bls"
   ],
   "note": ""
  },
  {
   "property": "C159",
   "status": "proved",
   "theorems": [
    "VO.C159_pov",
    "VO.C159_pov_pe",
    "VO.C159_r1cs",
    "VO.C159_r1cs_pe",
    "VO.C159_hpr",
    "VO.C159_fibonacci",
    "VO.C159_range_check",
    "VO.C159_bls"
   ],
   "note": ""
  },
  {
   "property": "C160",
   "status": "proved",
   "theorems": [
    "VO.C160_read",
    "VO.C160_sorted",
    "VO.C160_same",
    "VO.C160_as_evals",
    "VO.C160_verify_panics",
    "VO.C160_verify_bytes"
   ],
   "note": ""
  },
  {
   "property": "C161",
   "status": "proved",
   "theorems": [
    "VO.C161_verify",
    "VO.C161_kzg",
    "VO.C161_missing_name",
    "VO.C161_bytes"
   ],
   "note": ""
  },
  {
   "property": "C162",
   "status": "proved",
   "theorems": [
    "VO.C162_pov",
    "VO.C162_pov_pe",
    "VO.C162_r1cs",
    "VO.C162_hpr",
    "VO.C162_r1cs_pe",
    "VO.C162_fibonacci",
    "VO.C162_range_check"
   ],
   "note": ""
  }
 ]
}