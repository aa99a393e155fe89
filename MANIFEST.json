{
 "claims": [
  {
   "property": "C01",
   "status": "proved",
   "theorems": [
    "Verif.Immix.c01_allocations_disjoint"
   ],
   "note": ""
  },
  {
   "property": "C02",
   "status": "proved",
   "theorems": [
    "Verif.Immix.c02_inside_block",
    "Verif.Immix.c02_metadata_word_intact",
    "Verif.Immix.c02_blocks_owned"
   ],
   "note": ""
  },
  {
   "property": "C03",
   "status": "proved",
   "theorems": [
    "Verif.Immix.c03_contents",
    "Verif.Immix.c03_headers"
   ],
   "note": ""
  },
  {
   "property": "C04",
   "status": "proved",
   "theorems": [
    "Verif.Immix.c04_array_zeroed"
   ],
   "note": ""
  },
  {
   "property": "C05",
   "status": "proved",
   "theorems": [
    "Verif.Immix.c05_header_object_inverse"
   ],
   "note": ""
  },
  {
   "property": "C06",
   "status": "proved",
   "theorems": [
    "Verif.Immix.c06_header_exact"
   ],
   "note": ""
  },
  {
   "property": "C07",
   "status": "proved",
   "theorems": [
    "Verif.Immix.c07_alloc_acceptance",
    "Verif.Immix.c07_alloc_array_acceptance",
    "Verif.Immix.c07_alloc_overflow"
   ],
   "note": ""
  },
  {
   "property": "C08",
   "status": "proved",
   "theorems": [
    "Verif.Immix.c08_no_panic"
   ],
   "note": ""
  },
  {
   "property": "C09",
   "status": "proved",
   "theorems": [
    "Verif.Immix.c09_failed_alloc",
    "Verif.Immix.c09_failed_alloc_array"
   ],
   "note": ""
  },
  {
   "property": "C10",
   "status": "proved",
   "theorems": [
    "Verif.Immix.c10_alignment"
   ],
   "note": ""
  },
  {
   "property": "C11",
   "status": "proved",
   "theorems": [
    "Verif.Immix.c11_rounding",
    "Verif.Immix.c11_rounding_overflow"
   ],
   "note": ""
  },
  {
   "property": "C12",
   "status": "proved",
   "theorems": [
    "Verif.Immix.c12_size_classes"
   ],
   "note": ""
  },
  {
   "property": "C13",
   "status": "proved",
   "theorems": [
    "Verif.Immix.c13_hole_is_free"
   ],
   "note": ""
  },
  {
   "property": "C14",
   "status": "proved",
   "theorems": [
    "Verif.Immix.c14_first_hole"
   ],
   "note": ""
  },
  {
   "property": "C15",
   "status": "proved",
   "theorems": [
    "Verif.Immix.c15_recycled_regions"
   ],
   "note": ""
  },
  {
   "property": "C16",
   "status": "proved",
   "theorems": [
    "Verif.Immix.c16_metadata_word_kept",
    "Verif.Immix.c16_metadata_word_handed_out",
    "Verif.Immix.c16_metadata_word_kept_iff"
   ],
   "note": ""
  },
  {
   "property": "C17",
   "status": "proved",
   "theorems": [
    "Verif.Immix.c17_refused_iff_full",
    "Verif.Immix.c17_new_block",
    "Verif.Immix.c17_bump_greedy"
   ],
   "note": ""
  },
  {
   "property": "C18",
   "status": "proved",
   "theorems": [
    "Verif.Immix.c18_block_new"
   ],
   "note": ""
  },
  {
   "property": "C19",
   "status": "proved",
   "theorems": [
    "Verif.Immix.c19_freed_exactly_once",
    "Verif.Immix.c19_metadata_boxes",
    "Verif.Immix.c19_layouts"
   ],
   "note": ""
  },
  {
   "property": "C20",
   "status": "proved",
   "theorems": [
    "Verif.Immix.c20_points_nowhere",
    "Verif.Immix.c20_into_mut_ptr_dangles"
   ],
   "note": "The statement describes what the code does: the pointer always dangles."
  },
  {
   "property": "C21",
   "status": "proved",
   "theorems": [
    "Verif.Immix.c21_retire_waste",
    "Verif.Immix.c21_retire_waste_array",
    "Verif.Immix.c21_medium_overflow",
    "Verif.Immix.c21_medium_overflow_array",
    "Verif.Immix.c21_medium_array_never_retires",
    "Verif.Immix.c21_medium_never_retires"
   ],
   "note": ""
  },
  {
   "property": "C22",
   "status": "proved",
   "theorems": [
    "Verif.Immix.c22_marks_are_a_set",
    "Verif.Immix.c22_block_mark"
   ],
   "note": ""
  },
  {
   "property": "C23",
   "status": "proved",
   "theorems": [
    "Verif.Brass.c23_reads_prefix",
    "Verif.Brass.c23_position_plus_remaining"
   ],
   "note": ""
  },
  {
   "property": "C24",
   "status": "proved",
   "theorems": [
    "Verif.Brass.c24_unsigned",
    "Verif.Brass.c24_signed",
    "Verif.Brass.c24_f64",
    "Verif.Brass.c24_short",
    "Verif.Brass.c24_surjective"
   ],
   "note": ""
  },
  {
   "property": "C25",
   "status": "proved",
   "theorems": [
    "Verif.Brass.c25_small",
    "Verif.Brass.c25_large_wrong"
   ],
   "note": ""
  },
  {
   "property": "C26",
   "status": "proved",
   "theorems": [
    "Verif.Brass.c26_bad_magic",
    "Verif.Brass.c26_bad_version",
    "Verif.Brass.c26_header_cut_short",
    "Verif.Brass.c26_accepted",
    "Verif.Brass.c26_only_then"
   ],
   "note": ""
  },
  {
   "property": "C27",
   "status": "proved",
   "theorems": [
    "Verif.Brass.c27_truncation",
    "Verif.Brass.c27_panics"
   ],
   "note": ""
  },
  {
   "property": "C28",
   "status": "proved",
   "theorems": [
    "Verif.Brass.c28_short_ints",
    "Verif.Brass.c28_short_floats"
   ],
   "note": ""
  },
  {
   "property": "C29",
   "status": "proved",
   "theorems": [
    "Verif.Brass.c29_ok_no_error",
    "Verif.Brass.c29_sticky"
   ],
   "note": ""
  },
  {
   "property": "C30",
   "status": "proved",
   "theorems": [
    "Verif.Brass.c30_poisoned_never_ok",
    "Verif.Brass.c30_poisoned_stale_error",
    "Verif.Brass.c30_after_ok"
   ],
   "note": ""
  },
  {
   "property": "C31",
   "status": "proved",
   "theorems": [
    "Verif.Brass.c31_trailing_ignored",
    "Verif.Brass.c31_depends_on_consumed",
    "Verif.Brass.c31_no_truncation_accepted"
   ],
   "note": ""
  },
  {
   "property": "C32",
   "status": "proved",
   "theorems": [
    "Verif.Brass.c32_pools"
   ],
   "note": ""
  },
  {
   "property": "C33",
   "status": "proved",
   "theorems": [
    "Verif.Brass.c33_strings_roundtrip",
    "Verif.Brass.c33_exactly_short"
   ],
   "note": ""
  },
  {
   "property": "C34",
   "status": "proved",
   "theorems": [
    "Verif.Brass.c34_at_most_nstrings",
    "Verif.Brass.c34_missing_strings"
   ],
   "note": ""
  },
  {
   "property": "C35",
   "status": "proved",
   "theorems": [
    "Verif.Brass.c35_ordered_lookups",
    "Verif.Brass.c35_lookups_bounded",
    "Verif.Brass.c35_out_of_order",
    "Verif.Brass.c35_lookups_exact",
    "Verif.Brass.c35_all_right_iff",
    "Verif.Brass.c35_wrong_field_name"
   ],
   "note": ""
  },
  {
   "property": "C36",
   "status": "proved",
   "theorems": [
    "Verif.Brass.c36_get_type",
    "Verif.Brass.c36_uses_resolve",
    "Verif.Brass.c36_types_refer_back",
    "Verif.Brass.c36_module_references",
    "Verif.Brass.c36_forward_reference_lost"
   ],
   "note": ""
  },
  {
   "property": "C37",
   "status": "proved",
   "theorems": [
    "Verif.Brass.c37_table_lengths"
   ],
   "note": ""
  },
  {
   "property": "C38",
   "status": "proved",
   "theorems": [
    "Verif.Brass.c38_accepts_exactly_the_grammar",
    "Verif.Brass.c38_bad_type_reference",
    "Verif.Brass.c38_bad_string_reference",
    "Verif.Brass.c38_negative_count",
    "Verif.Brass.c38_bad_type_kind"
   ],
   "note": ""
  },
  {
   "property": "C39",
   "status": "proved",
   "theorems": [
    "Verif.Brass.c39_opcode_roundtrip",
    "Verif.Brass.c39_operands_recovered",
    "Verif.Brass.c39_extra_padded"
   ],
   "note": ""
  },
  {
   "property": "C40",
   "status": "proved",
   "theorems": [
    "Verif.Brass.c40_opcode_never_err",
    "Verif.Brass.c40_discriminant",
    "Verif.Brass.c40_decodable",
    "Verif.Brass.c40_invalid_recorded"
   ],
   "note": ""
  },
  {
   "property": "C41",
   "status": "proved",
   "theorems": [
    "Verif.Brass.c41_debug_terminates",
    "Verif.Brass.c41_two_words_per_instruction"
   ],
   "note": ""
  },
  {
   "property": "C42",
   "status": "proved",
   "theorems": [
    "Verif.Brass.c42_debug_iff_supported"
   ],
   "note": ""
  },
  {
   "property": "C43",
   "status": "proved",
   "theorems": [
    "Verif.Brass.c43_file_roundtrip"
   ],
   "note": ""
  },
  {
   "property": "C44",
   "status": "proved",
   "theorems": [
    "Verif.Brass.c44_has_header",
    "Verif.Brass.c44_header_reported",
    "Verif.Brass.c44_bare_file"
   ],
   "note": ""
  },
  {
   "property": "C45",
   "status": "proved",
   "theorems": [
    "Verif.Brass.c45_debugfiles_lens_empty"
   ],
   "note": ""
  },
  {
   "property": "C46",
   "status": "proved",
   "theorems": [
    "Verif.Brass.c46_incremental",
    "Verif.Brass.c46_crc32"
   ],
   "note": ""
  },
  {
   "property": "C47",
   "status": "proved",
   "theorems": [
    "Verif.Brass.c47_word_detected",
    "Verif.Brass.c47_five_bytes_can_collide",
    "Verif.Brass.c47_operand1",
    "Verif.Brass.c47_operand2",
    "Verif.Brass.c47_operand3",
    "Verif.Brass.c47_extra_operand",
    "Verif.Brass.c47_int_constant",
    "Verif.Brass.c47_type_reference",
    "Verif.Brass.c47_callee",
    "Verif.Brass.c47_opcode",
    "Verif.Brass.c47_register",
    "Verif.Brass.c47_burst_detected",
    "Verif.Brass.c47_two_bits",
    "Verif.Brass.c47_two_bits_detected"
   ],
   "note": ""
  },
  {
   "property": "C48",
   "status": "proved",
   "theorems": [
    "Verif.Brass.c48_shallow_hash",
    "Verif.Brass.c48_hash",
    "Verif.Brass.c48_primitives_collide",
    "Verif.Brass.c48_kinds_collide"
   ],
   "note": ""
  },
  {
   "property": "C49",
   "status": "proved",
   "theorems": [
    "Verif.Brass.c49_hash_returns",
    "Verif.Brass.c49_default_panics"
   ],
   "note": ""
  },
  {
   "property": "C50",
   "status": "proved",
   "theorems": [
    "Verif.Brass.c50_function_position",
    "Verif.Brass.c50_native_position"
   ],
   "note": ""
  },
  {
   "property": "C51",
   "status": "proved",
   "theorems": [
    "Verif.Brass.c51_alloc_returns_iff",
    "Verif.Brass.c51_both_cases"
   ],
   "note": ""
  },
  {
   "property": "C52",
   "status": "proved",
   "theorems": [
    "Verif.Brass.c52_finalize_panics",
    "Verif.Brass.c52_needs_owner"
   ],
   "note": ""
  },
  {
   "property": "C53",
   "status": "proved",
   "theorems": [
    "Verif.Brass.c53_signatures",
    "Verif.Brass.c53_signature_lost"
   ],
   "note": ""
  },
  {
   "property": "C54",
   "status": "proved",
   "theorems": [
    "Verif.Brass.c54_renumbering",
    "Verif.Brass.c54_ignores"
   ],
   "note": ""
  },
  {
   "property": "C55",
   "status": "proved",
   "theorems": [
    "Verif.Brass.c55_signature",
    "Verif.Brass.c55_distinguished"
   ],
   "note": ""
  },
  {
   "property": "C56",
   "status": "proved",
   "theorems": [
    "Verif.Brass.c56_init_returns_iff",
    "Verif.Brass.c56_init_hot_returns_iff",
    "Verif.Brass.c56_init_result",
    "Verif.Brass.c56_names_distinct"
   ],
   "note": ""
  },
  {
   "property": "C57",
   "status": "proved",
   "theorems": [
    "Verif.Immix.c57_blocks_packed"
   ],
   "note": ""
  },
  {
   "property": "C58",
   "status": "proved",
   "theorems": [
    "Verif.Brass.c58_float_panics",
    "Verif.Brass.c58_constant_not_covered",
    "Verif.Brass.c58_contributes"
   ],
   "note": ""
  },
  {
   "property": "C59",
   "status": "proved",
   "theorems": [
    "Verif.Brass.c59_native_call_panics"
   ],
   "note": ""
  },
  {
   "property": "C60",
   "status": "proved",
   "theorems": [
    "Verif.Brass.c60_functions_well_formed",
    "Verif.Brass.c60_constants_well_formed",
    "Verif.Brass.c60_types_well_formed"
   ],
   "note": ""
  },
  {
   "property": "C61",
   "status": "proved",
   "theorems": [
    "Verif.Brass.c61_primitive_hash",
    "Verif.Brass.c61_primitive_entry",
    "Verif.Brass.c61_register_not_covered"
   ],
   "note": ""
  },
  {
   "property": "C62",
   "status": "proved",
   "theorems": [
    "Verif.Brass.c62_function_hashes",
    "Verif.Brass.c62_later_function_ignored",
    "Verif.Brass.c62_caller_unchanged"
   ],
   "note": ""
  },
  {
   "property": "C63",
   "status": "proved",
   "theorems": [
    "Verif.Immix.c63_placement"
   ],
   "note": ""
  },
  {
   "property": "C64",
   "status": "proved",
   "theorems": [
    "Verif.Immix.c64_space_bound",
    "Verif.Immix.c64_bound_reached"
   ],
   "note": ""
  },
  {
   "property": "C65",
   "status": "proved",
   "theorems": [
    "Verif.Brass.c65_type_hash"
   ],
   "note": ""
  },
  {
   "property": "C66",
   "status": "proved",
   "theorems": [
    "Verif.Brass.c66_type_table"
   ],
   "note": ""
  },
  {
   "property": "C67",
   "status": "proved",
   "theorems": [
    "Verif.Brass.c67_function_hash",
    "Verif.Brass.c67_accepted"
   ],
   "note": ""
  },
  {
   "property": "C68",
   "status": "proved",
   "theorems": [
    "Verif.Brass.c68_native_hash",
    "Verif.Brass.c68_signature_hash"
   ],
   "note": ""
  },
  {
   "property": "C69",
   "status": "proved",
   "theorems": [
    "Verif.Brass.c69_finalize"
   ],
   "note": ""
  },
  {
   "property": "C70",
   "status": "proved",
   "theorems": [
    "Verif.Brass.c70_signature",
    "Verif.Brass.c70_source_unique",
    "Verif.Brass.c70_abstract_zero"
   ],
   "note": ""
  },
  {
   "property": "C71",
   "status": "proved",
   "theorems": [
    "Verif.Brass.c71_in_magic_leaves_clean",
    "Verif.Brass.c71_in_table_poisons",
    "Verif.Brass.c71_call",
    "Verif.Brass.c71_recorded_for_ever",
    "Verif.Brass.c71_no_ok_after",
    "Verif.Brass.c71_fresh_while_clean",
    "Verif.Brass.c71_panic_poisons",
    "Verif.Brass.c71_missing_version_poisons",
    "Verif.Brass.c71_short_bytes_poison",
    "Verif.Brass.c71_panic_leaves_clean"
   ],
   "note": ""
  },
  {
   "property": "C72",
   "status": "proved",
   "theorems": [
    "Verif.Brass.c72_good_files"
   ],
   "note": ""
  },
  {
   "property": "C73",
   "status": "proved",
   "theorems": [
    "Verif.Brass.c73_ok_is_right",
    "Verif.Brass.c73_no_ok_after_error",
    "Verif.Brass.c73_error_of_another_thread"
   ],
   "note": ""
  },
  {
   "property": "C74",
   "status": "proved",
   "theorems": [
    "Verif.Brass.c74_every_call_returns",
    "Verif.Brass.c74_one_thread_is_history"
   ],
   "note": ""
  },
  {
   "property": "C75",
   "status": "proved",
   "theorems": [
    "Verif.Immix.c75_ownership",
    "Verif.Immix.c75_memory"
   ],
   "note": ""
  },
  {
   "property": "C76",
   "status": "proved",
   "theorems": [
    "Verif.Immix.c76_double_free"
   ],
   "note": ""
  },
  {
   "property": "C77",
   "status": "proved",
   "theorems": [
    "Verif.Immix.c77_disjoint",
    "Verif.Immix.c77_contents",
    "Verif.Immix.c77_in_live_block",
    "Verif.Immix.c77_steps",
    "Verif.Immix.c77_panics_iff",
    "Verif.Immix.c77_array_panics_iff",
    "Verif.Immix.c77_constructor_panics",
    "Verif.Immix.c77_array_constructor_panics",
    "Verif.Immix.c77_constructor_writes",
    "Verif.Immix.c77_array_constructor_writes"
   ],
   "note": ""
  },
  {
   "property": "C78",
   "status": "proved",
   "theorems": [
    "Verif.Immix.c78_live_iff",
    "Verif.Immix.c78_freed_once",
    "Verif.Immix.c78_metadata"
   ],
   "note": ""
  },
  {
   "property": "C79",
   "status": "proved",
   "theorems": [
    "Verif.Immix.c79_destroyed",
    "Verif.Immix.c79_same_alloc"
   ],
   "note": ""
  },
  {
   "property": "C80",
   "status": "proved",
   "theorems": [
    "Verif.Immix.c80_same_address",
    "Verif.Immix.c80_pointers_identify"
   ],
   "note": ""
  },
  {
   "property": "C81",
   "status": "proved",
   "theorems": [
    "Verif.Immix.c81_heap_same_layout",
    "Verif.Immix.c81_block_same_layout",
    "Verif.Immix.c81_heap_requests",
    "Verif.Immix.c81_block_requests"
   ],
   "note": ""
  },
  {
   "property": "C82",
   "status": "proved",
   "theorems": [
    "Verif.Brass.c82_quiet_files",
    "Verif.Brass.c82_one_loud_file",
    "Verif.Brass.c82_accepted_is_quiet",
    "Verif.Brass.c82_panic_of_another_thread"
   ],
   "note": ""
  },
  {
   "property": "C83",
   "status": "proved",
   "theorems": [
    "Verif.Brass.c83_error_origin"
   ],
   "note": ""
  },
  {
   "property": "C84",
   "status": "proved",
   "theorems": [
    "Verif.Brass.c84_at_most_exponential",
    "Verif.Brass.c84_nesting",
    "Verif.Brass.c84_exponential"
   ],
   "note": ""
  },
  {
   "property": "C85",
   "status": "proved",
   "theorems": [
    "Verif.Brass.c85_linear",
    "Verif.Brass.c85_string_slots",
    "Verif.Brass.c85_string_slots_max"
   ],
   "note": ""
  },
  {
   "property": "C86",
   "status": "proved",
   "theorems": [
    "Verif.Brass.c86_reported",
    "Verif.Brass.c86_process",
    "Verif.Brass.c86_kinds",
    "Verif.Brass.c86_not_repairable"
   ],
   "note": ""
  },
  {
   "property": "C87",
   "status": "proved",
   "theorems": [
    "Verif.Brass.c87_module_bad_debug",
    "Verif.Brass.c87_bad_function",
    "Verif.Brass.c87_module_bad_register",
    "Verif.Brass.c87_bad_constant",
    "Verif.Brass.c87_module_bad_constant",
    "Verif.Brass.c87_module_unknown_kinds",
    "Verif.Brass.c87_unknown_kinds_masked",
    "Verif.Brass.c87_module_unknown_instructions",
    "Verif.Brass.c87_bad_globals",
    "Verif.Brass.c87_bad_natives",
    "Verif.Brass.c87_module_bad_global",
    "Verif.Brass.c87_module_bad_native",
    "Verif.Brass.c87_rejected_iff",
    "Verif.Brass.c87_one_error",
    "Verif.Brass.c87_panics_iff",
    "Verif.Brass.c87_rejected_after_iff",
    "Verif.Brass.c87_unmarked",
    "Verif.Brass.c87_negative_counts"
   ],
   "note": ""
  },
  {
   "property": "C88",
   "status": "proved",
   "theorems": [
    "Verif.Brass.c88_alloc",
    "Verif.Brass.c88_native_shadows"
   ],
   "note": ""
  },
  {
   "property": "C89",
   "status": "proved",
   "theorems": [
    "Verif.Brass.c89_table",
    "Verif.Brass.c89_text",
    "Verif.Brass.c89_separator",
    "Verif.Brass.c89_accepted"
   ],
   "note": ""
  },
  {
   "property": "C90",
   "status": "proved",
   "theorems": [
    "Verif.Brass.c90_names"
   ],
   "note": ""
  },
  {
   "property": "C91",
   "status": "proved",
   "theorems": [
    "Verif.Brass.c91_recorded",
    "Verif.Brass.c91_recorded_after",
    "Verif.Brass.c91_later"
   ],
   "note": ""
  },
  {
   "property": "C92",
   "status": "proved",
   "theorems": [
    "Verif.Immix.c92_next_fit",
    "Verif.Immix.c92_determined",
    "Verif.Immix.c92_given_up"
   ],
   "note": ""
  },
  {
   "property": "C93",
   "status": "proved",
   "theorems": [
    "Verif.Brass.c93_left_behind",
    "Verif.Brass.c93_left_behind_after",
    "Verif.Brass.c93_history",
    "Verif.Brass.c93_exactly_one_history",
    "Verif.Brass.c93_one_of_three",
    "Verif.Brass.c93_never_accepted_again"
   ],
   "note": ""
  },
  {
   "property": "C94",
   "status": "proved",
   "theorems": [
    "Verif.Brass.c94_reported_iff",
    "Verif.Brass.c94_recorded_iff",
    "Verif.Brass.c94_accepted_iff"
   ],
   "note": ""
  },
  {
   "property": "C95",
   "status": "proved",
   "theorems": [
    "Verif.Immix.c95_survivors",
    "Verif.Immix.c95_no_panic",
    "Verif.Immix.c95_rules",
    "Verif.Immix.c95_exactly_covered"
   ],
   "note": ""
  },
  {
   "property": "C96",
   "status": "proved",
   "theorems": [
    "Verif.Immix.c96_metadata_found",
    "Verif.Immix.c96_empty_object",
    "Verif.Immix.c96_other_heap"
   ],
   "note": ""
  },
  {
   "property": "C97",
   "status": "proved",
   "theorems": [
    "Verif.Brass.c97_wait_free",
    "Verif.Brass.c97_wait_free_any",
    "Verif.Brass.c97_accepted_reads",
    "Verif.Brass.c97_cut_ints",
    "Verif.Brass.c97_cut_floats",
    "Verif.Brass.c97_sixteen_bytes"
   ],
   "note": ""
  },
  {
   "property": "C98",
   "status": "proved",
   "theorems": [
    "Verif.Brass.c98_no_confusion",
    "Verif.Brass.c98_witness",
    "Verif.Brass.c98_equal_entries_confused"
   ],
   "note": ""
  },
  {
   "property": "C99",
   "status": "proved",
   "theorems": [
    "Verif.Brass.c99_same_reader",
    "Verif.Brass.c99_accepted",
    "Verif.Brass.c99_bare",
    "Verif.Brass.c99_bound",
    "Verif.Brass.c99_accepted_linear",
    "Verif.Brass.c99_types",
    "Verif.Brass.c99_types_max",
    "Verif.Brass.c99_witness"
   ],
   "note": ""
  },
  {
   "property": "C100",
   "status": "proved",
   "theorems": [
    "Verif.Brass.c100_panic_or_same",
    "Verif.Brass.c100_same",
    "Verif.Brass.c100_differs",
    "Verif.Brass.c100_differs_early"
   ],
   "note": ""
  },
  {
   "property": "C101",
   "status": "proved",
   "theorems": [
    "Verif.Immix.c101_same_alloc",
    "Verif.Immix.c101_steps",
    "Verif.Immix.c101_running",
    "Verif.Immix.c101_disjoint",
    "Verif.Immix.c101_contents",
    "Verif.Immix.c101_in_live_block",
    "Verif.Immix.c101_returns",
    "Verif.Immix.c101_blocks"
   ],
   "note": ""
  },
  {
   "property": "C102",
   "status": "proved",
   "theorems": [
    "Verif.Brass.c102_same_finalize",
    "Verif.Brass.c102_left_behind",
    "Verif.Brass.c102_only_two_tables",
    "Verif.Brass.c102_no_influence",
    "Verif.Brass.c102_again",
    "Verif.Brass.c102_decoded"
   ],
   "note": ""
  },
  {
   "property": "C103",
   "status": "proved",
   "theorems": [
    "Verif.Immix.c103_logged",
    "Verif.Immix.c103_placement",
    "Verif.Immix.c103_separate",
    "Verif.Immix.c103_packed",
    "Verif.Immix.c103_space"
   ],
   "note": ""
  },
  {
   "property": "C104",
   "status": "proved",
   "theorems": [
    "Verif.Brass.c104_same_reader",
    "Verif.Brass.c104_accepted",
    "Verif.Brass.c104_unknown_version",
    "Verif.Brass.c104_only_functions",
    "Verif.Brass.c104_poisoned",
    "Verif.Brass.c104_prefix",
    "Verif.Brass.c104_truncated",
    "Verif.Brass.c104_reached",
    "Verif.Brass.c104_crash_point",
    "Verif.Brass.c104_bound",
    "Verif.Brass.c104_hash_silent"
   ],
   "note": ""
  },
  {
   "property": "C105",
   "status": "proved",
   "theorems": [
    "Verif.Brass.c105_same_reader",
    "Verif.Brass.c105_modules",
    "Verif.Brass.c105_count",
    "Verif.Brass.c105_functions",
    "Verif.Brass.c105_types",
    "Verif.Brass.c105_any",
    "Verif.Brass.c105_last",
    "Verif.Brass.c105_each",
    "Verif.Brass.c105_bound",
    "Verif.Brass.c105_quadratic",
    "Verif.Brass.c105_deep"
   ],
   "note": ""
  },
  {
   "property": "C106",
   "status": "proved",
   "theorems": [
    "Verif.Brass.c106_same_init",
    "Verif.Brass.c106_history",
    "Verif.Brass.c106_loads",
    "Verif.Brass.c106_handled"
   ],
   "note": ""
  },
  {
   "property": "C107",
   "status": "proved",
   "theorems": [
    "Verif.Brass.c107_version",
    "Verif.Brass.c107_text",
    "Verif.Brass.c107_accepted",
    "Verif.Brass.c107_one_line",
    "Verif.Brass.c107_count",
    "Verif.Brass.c107_texts",
    "Verif.Brass.c107_readable",
    "Verif.Brass.c107_output",
    "Verif.Brass.c107_functions",
    "Verif.Brass.c107_exponential"
   ],
   "note": ""
  },
  {
   "property": "C108",
   "status": "proved",
   "theorems": [
    "Verif.Brass.c108_same_reader",
    "Verif.Brass.c108_types",
    "Verif.Brass.c108_strings",
    "Verif.Brass.c108_cache",
    "Verif.Brass.c108_any",
    "Verif.Brass.c108_bound",
    "Verif.Brass.c108_large"
   ],
   "note": ""
  },
  {
   "property": "C109",
   "status": "proved",
   "theorems": [
    "Verif.Brass.c109_same",
    "Verif.Brass.c109_comparisons",
    "Verif.Brass.c109_copies",
    "Verif.Brass.c109_one",
    "Verif.Brass.c109_bound",
    "Verif.Brass.c109_exponential"
   ],
   "note": ""
  },
  {
   "property": "C110",
   "status": "proved",
   "theorems": [
    "Verif.Brass.c110_extended",
    "Verif.Brass.c110_type_hash",
    "Verif.Brass.c110_renumbered",
    "Verif.Brass.c110_hashes",
    "Verif.Brass.c110_order_matters"
   ],
   "note": ""
  },
  {
   "property": "C111",
   "status": "proved",
   "theorems": [
    "Verif.Brass.c111_pools",
    "Verif.Brass.c111_hashes",
    "Verif.Brass.c111_order_matters"
   ],
   "note": ""
  },
  {
   "property": "C112",
   "status": "proved",
   "theorems": [
    "Verif.Brass.c112_read_as",
    "Verif.Brass.c112_names",
    "Verif.Brass.c112_right_iff",
    "Verif.Brass.c112_right_distinct"
   ],
   "note": ""
  },
  {
   "property": "C113",
   "status": "proved",
   "theorems": [
    "Verif.Brass.c113_only_readable",
    "Verif.Brass.c113_exactly"
   ],
   "note": ""
  },
  {
   "property": "C114",
   "status": "proved",
   "theorems": [
    "Verif.Immix.c114_hole_size",
    "Verif.Immix.c114_new_and_recycled"
   ],
   "note": ""
  },
  {
   "property": "C115",
   "status": "proved",
   "theorems": [
    "Verif.Immix.c115_same",
    "Verif.Immix.c115_search",
    "Verif.Immix.c115_fits",
    "Verif.Immix.c115_total",
    "Verif.Immix.c115_heap"
   ],
   "note": ""
  },
  {
   "property": "C116",
   "status": "proved",
   "theorems": [
    "Verif.Immix.c116_current",
    "Verif.Immix.c116_behind",
    "Verif.Immix.c116_otherwise",
    "Verif.Immix.c116_cases",
    "Verif.Immix.c116_overlap"
   ],
   "note": ""
  }
 ]
}