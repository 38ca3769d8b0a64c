{
 "claims": [
  {
   "property": "C01",
   "status": "proved",
   "theorems": [
    "Verif.Range.C01_sort_canonical"
   ],
   "note": ""
  },
  {
   "property": "C02",
   "status": "proved",
   "theorems": [
    "Verif.Range.C02_sort_exact",
    "Verif.Range.C02_no_address_lost",
    "Verif.Range.C02_only_padding_invented"
   ],
   "note": ""
  },
  {
   "property": "C03",
   "status": "partial",
   "theorems": [
    "Verif.Range.C03_subtract_keeps",
    "Verif.Range.C03_subtract_exact_up_to_padding_partial",
    "Verif.Range.C03_subtract_exact_partial",
    "Verif.Range.C03_subtract_not_exact",
    "Verif.Range.C03_subtract_can_add"
   ],
   "note": "Keeping half proved in full; exactness holds up to alignment padding and is refuted in general by witness."
  },
  {
   "property": "C04",
   "status": "proved",
   "theorems": [
    "Verif.Range.C04_size_counts_addresses",
    "Verif.Range.C04_size_of_list",
    "Verif.Range.C04_coveredBelow_spec"
   ],
   "note": ""
  },
  {
   "property": "C05",
   "status": "partial",
   "theorems": [
    "Verif.Range.C05_sort_set_partial",
    "Verif.Range.C05_any_order_covers_sorted_partial",
    "Verif.Range.C05_sorted_pushes_agree_partial",
    "Verif.Range.C05_order_independent_partial",
    "Verif.Range.C05_order_dependent"
   ],
   "note": "Holds when no pushed range begins on a 16-byte boundary; refuted in general by witness."
  },
  {
   "property": "C06",
   "status": "proved",
   "theorems": [
    "Verif.Sentinel.C06_round_trip",
    "Verif.Sentinel.C06_faithful",
    "Verif.Sentinel.C06_order",
    "Verif.Sentinel.C06_only_max_collides"
   ],
   "note": ""
  },
  {
   "property": "C07",
   "status": "proved",
   "theorems": [
    "Verif.Namespace.Namespace.C07_cmp_is_path_order",
    "Verif.Namespace.Namespace.C07_cmp_assert_holds",
    "Verif.Namespace.Namespace.C07_cmp_laws"
   ],
   "note": ""
  },
  {
   "property": "C08",
   "status": "proved",
   "theorems": [
    "Verif.Namespace.Namespace.C08_isWithin_iff_prefix"
   ],
   "note": ""
  },
  {
   "property": "C09",
   "status": "proved",
   "theorems": [
    "Verif.Namespace.Namespace.C09_cmpNsAndName_is_pair_order",
    "Verif.Namespace.Namespace.C09_cmpNsAndName_laws"
   ],
   "note": ""
  },
  {
   "property": "C10",
   "status": "proved",
   "theorems": [
    "Verif.Types.C10_cmpId_swap",
    "Verif.Types.C10_cmpId_trans",
    "Verif.Types.C10_cmpId_total",
    "Verif.Types.C10_fuel_irrelevant"
   ],
   "note": ""
  },
  {
   "property": "C11",
   "status": "partial",
   "theorems": [
    "Verif.Types.C11_eq_iff_same_identity_partial",
    "Verif.Types.C11_identity_exists",
    "Verif.Types.C11_multi_dim_arrays_confused"
   ],
   "note": "Equality iff same identity tree, where an array tree records only the one-dimensional count; refuted for multi-dimensional arrays by witness."
  },
  {
   "property": "C12",
   "status": "proved",
   "theorems": [
    "Verif.Types.C12_byteSize_sound",
    "Verif.Types.C12_byteSize_complete",
    "Verif.Types.C12_byteSize_panics_only_on_overflow"
   ],
   "note": ""
  },
  {
   "property": "C13",
   "status": "proved",
   "theorems": [
    "Verif.Types.C13_byteSize_diverges_iff",
    "Verif.Types.C13_cmpId_self_terminates_iff",
    "Verif.Types.C13_cmpId_terminates",
    "Verif.Types.C13_cycles_diverge"
   ],
   "note": ""
  },
  {
   "property": "C14",
   "status": "proved",
   "theorems": [
    "Verif.Layout.C14_layout_tiles",
    "Verif.Layout.C14_struct_tiles",
    "Verif.Layout.C14_empty_struct"
   ],
   "note": ""
  },
  {
   "property": "C15",
   "status": "proved",
   "theorems": [
    "Verif.Layout.C15_layout_has_every_item",
    "Verif.Layout.C15_entries",
    "Verif.Layout.C15_padding_exact",
    "Verif.Layout.C15_no_gap_left"
   ],
   "note": ""
  },
  {
   "property": "C16",
   "status": "proved",
   "theorems": [
    "Verif.Layout.C16_member_size",
    "Verif.Layout.C16_variant_extent",
    "Verif.Layout.C16_variantPart_extent"
   ],
   "note": ""
  },
  {
   "property": "C17",
   "status": "proved",
   "theorems": [
    "Verif.Dwarf.C17_position",
    "Verif.Dwarf.C17_direct",
    "Verif.Dwarf.C17_missing_size_witness"
   ],
   "note": ""
  },
  {
   "property": "C18",
   "status": "proved",
   "theorems": [
    "Verif.Merge.C18_steps",
    "Verif.Merge.C18_complete",
    "Verif.Merge.C18_pair_equal",
    "Verif.Merge.C18_pair_count",
    "Verif.Merge.C18_sorted",
    "Verif.Merge.C18_deleted_iff",
    "Verif.Merge.C18_added_iff",
    "Verif.Merge.C18_sort_then_merge",
    "Verif.Merge.C18_no_missed_pair",
    "Verif.Order.C18_merged_types",
    "Verif.Order.C18_merged_variables",
    "Verif.Order.C18_merged_units",
    "Verif.Order.C18_merged_functions"
   ],
   "note": ""
  },
  {
   "property": "C19",
   "status": "proved",
   "theorems": [
    "Verif.Path.C19_alignment"
   ],
   "note": ""
  },
  {
   "property": "C20",
   "status": "proved",
   "theorems": [
    "Verif.Path.C20_minimal",
    "Verif.Path.C20_minimal_any"
   ],
   "note": ""
  },
  {
   "property": "C21",
   "status": "proved",
   "theorems": [
    "Verif.Path.C21_self"
   ],
   "note": ""
  },
  {
   "property": "C22",
   "status": "proved",
   "theorems": [
    "Verif.Print.C22_accumulates",
    "Verif.Print.C22_flag_iff",
    "Verif.Print.C22_unflagged_clean",
    "Verif.Print.C22_print_if_diff",
    "Verif.Print.C22_empty_iff",
    "Verif.Print.C22_ignore",
    "Verif.Print.C22_block_always_differs"
   ],
   "note": ""
  },
  {
   "property": "C23",
   "status": "proved",
   "theorems": [
    "Verif.Print.C23_same",
    "Verif.Print.C23_sort_list_self",
    "Verif.Print.C23_list_pairs"
   ],
   "note": ""
  },
  {
   "property": "C24",
   "status": "proved",
   "theorems": [
    "Verif.Print.C24_sort_list"
   ],
   "note": ""
  },
  {
   "property": "C25",
   "status": "proved",
   "theorems": [
    "Verif.Print.C25_section_lines",
    "Verif.Print.C25_header_body",
    "Verif.Print.C25_header_body_diff",
    "Verif.Print.C25_deeper",
    "Verif.Print.C25_render_line",
    "Verif.Print.C25_changed",
    "Verif.Print.C25_unchanged"
   ],
   "note": ""
  },
  {
   "property": "C26",
   "status": "proved",
   "theorems": [
    "Verif.Print.C26_depth",
    "Verif.Print.C26_depth_diff",
    "Verif.Print.C26_restored"
   ],
   "note": ""
  },
  {
   "property": "C27",
   "status": "proved",
   "theorems": [
    "Verif.Html.C27_no_specials",
    "Verif.Html.C27_decode",
    "Verif.Html.C27_compositional",
    "Verif.Html.C27_value"
   ],
   "note": ""
  },
  {
   "property": "C28",
   "status": "proved",
   "theorems": [
    "Verif.Html.C28_print",
    "Verif.Html.C28_diff",
    "Verif.Html.C28_instructions",
    "Verif.Html.C28_rows_in_list"
   ],
   "note": "For section trees with flat headers and plain labels (all call sites); instruction listings outside the server are refuted by witness C28_rows_in_list."
  },
  {
   "property": "C29",
   "status": "partial",
   "theorems": [
    "Verif.Html.C29_recoverable",
    "Verif.Html.C29_plain_kept",
    "Verif.Html.C29_subsequence",
    "Verif.Html.C29_brace_reordered"
   ],
   "note": "Recoverability, full display without generics/braces, and in-order display without braces proved; in-order display with braces refuted by witness."
  },
  {
   "property": "C30",
   "status": "proved",
   "theorems": [
    "Verif.Filter.C30_units",
    "Verif.Filter.C30_functions",
    "Verif.Filter.C30_variables",
    "Verif.Filter.C30_types",
    "Verif.Filter.C30_enumerated"
   ],
   "note": ""
  },
  {
   "property": "C31",
   "status": "proved",
   "theorems": [
    "Verif.Opts.C31_accepts",
    "Verif.Opts.C31_settings"
   ],
   "note": ""
  },
  {
   "property": "C32",
   "status": "proved",
   "theorems": [
    "Verif.Opts.C32_longest_prefix",
    "Verif.Opts.C32_unsorted_first_match"
   ],
   "note": ""
  },
  {
   "property": "C33",
   "status": "proved",
   "theorems": [
    "Verif.File.C33_symbols_read",
    "Verif.File.C33_symbols_fail",
    "Verif.File.C33_symtab"
   ],
   "note": ""
  },
  {
   "property": "C34",
   "status": "proved",
   "theorems": [
    "Verif.File.C34_sections_read",
    "Verif.File.C34_unit_ranges",
    "Verif.File.C34_unknown_ranges",
    "Verif.File.C34_complete"
   ],
   "note": ""
  },
  {
   "property": "C35",
   "status": "proved",
   "theorems": [
    "Verif.File.C35_by_address",
    "Verif.File.C35_by_offset"
   ],
   "note": ""
  },
  {
   "property": "C36",
   "status": "proved",
   "theorems": [
    "Verif.File.C36_segment_bytes",
    "Verif.File.C36_inverted_panics"
   ],
   "note": ""
  },
  {
   "property": "C37",
   "status": "proved",
   "theorems": [
    "Verif.Ids.C37_print_ids",
    "Verif.Ids.C37_print_ids_distinct",
    "Verif.Ids.C37_print_id",
    "Verif.Ids.C37_parent",
    "Verif.Ids.C37_diff_ids",
    "Verif.Ids.C37_diff_ids_complete",
    "Verif.Ids.C37_diff_id",
    "Verif.Ids.C37_diff_out_of_range_panics"
   ],
   "note": ""
  },
  {
   "property": "C38",
   "status": "proved",
   "theorems": [
    "Verif.Bloat.C38_groups",
    "Verif.Bloat.C38_sum",
    "Verif.Bloat.C38_callers",
    "Verif.Bloat.C38_report",
    "Verif.Bloat.C38_bloat_id"
   ],
   "note": ""
  },
  {
   "property": "C39",
   "status": "proved",
   "theorems": [
    "Verif.Serve.C39_unambiguous",
    "Verif.Serve.C39_print",
    "Verif.Serve.C39_diff",
    "Verif.Serve.C39_bloat"
   ],
   "note": ""
  },
  {
   "property": "C40",
   "status": "proved",
   "theorems": [
    "Verif.Frame.C40_listed",
    "Verif.Frame.C40_determined",
    "Verif.Frame.C40_panics_iff",
    "Verif.Frame.C40_lines",
    "Verif.Frame.C40_gaps",
    "Verif.Frame.C40_overlap_witness"
   ],
   "note": ""
  },
  {
   "property": "C41",
   "status": "proved",
   "theorems": [
    "Verif.Cfi.C41_all",
    "Verif.Cfi.C41_placed",
    "Verif.Cfi.C41_listing",
    "Verif.Cfi.C41_panics_iff",
    "Verif.Cfi.C41_lines",
    "Verif.Cfi.C41_mismatch_witness"
   ],
   "note": ""
  },
  {
   "property": "C42",
   "status": "proved",
   "theorems": [
    "Verif.Dwarf.C42_error",
    "Verif.Dwarf.C42_tiles",
    "Verif.Dwarf.C42_total",
    "Verif.Dwarf.C42_panic_witness",
    "Verif.Dwarf.C42_parameter",
    "Verif.Dwarf.C42_variable"
   ],
   "note": ""
  },
  {
   "property": "C43",
   "status": "proved",
   "theorems": [
    "Verif.Dwarf.C43_sound",
    "Verif.Dwarf.C43_plus_exact",
    "Verif.Dwarf.C43_mask_witness",
    "Verif.Dwarf.C43_plus_witness",
    "Verif.Dwarf.C43_precise"
   ],
   "note": ""
  },
  {
   "property": "C44",
   "status": "proved",
   "theorems": [
    "Verif.Dwarf.C44_terminates",
    "Verif.Dwarf.C44_listing",
    "Verif.Dwarf.C44_record",
    "Verif.Dwarf.C44_origin",
    "Verif.Dwarf.C44_inherit",
    "Verif.Dwarf.C44_nested_witness"
   ],
   "note": "Trees of entries (gimli values) of any shape; hypothesis: no two items of a kind share an offset (section offsets). Limit on loop iterations shown irrelevant by C44_terminates."
  },
  {
   "property": "C45",
   "status": "proved",
   "theorems": [
    "Verif.Dwarf.C45_listing",
    "Verif.Dwarf.C45_record",
    "Verif.Dwarf.C45_dropped_witness",
    "Verif.Dwarf.C45_dwarf5_witness"
   ],
   "note": "Exact characterisation including the silently dropped variables (findings: C45_dropped_witness, C45_dwarf5_witness)."
  },
  {
   "property": "C46",
   "status": "proved",
   "theorems": [
    "Verif.Reloc.C46_relocated",
    "Verif.Reloc.C46_unrelocated",
    "Verif.Reloc.C46_no_truncation",
    "Verif.Reloc.C46_read",
    "Verif.Reloc.C46_read_total",
    "Verif.Reloc.C46_number"
   ],
   "note": ""
  },
  {
   "property": "C47",
   "status": "proved",
   "theorems": [
    "Verif.Dwarf.C47_ranges",
    "Verif.Dwarf.C47_low_pc",
    "Verif.Dwarf.C47_names",
    "Verif.Dwarf.C47_line_table_hides_witness"
   ],
   "note": ""
  },
  {
   "property": "C48",
   "status": "proved",
   "theorems": [
    "Verif.Cfi.C48_panics_iff",
    "Verif.Cfi.C48_sound",
    "Verif.Cfi.C48_complete",
    "Verif.Cfi.C48_overlap_witness",
    "Verif.Cfi.C48_empty_witness",
    "Verif.Cfi.C48_sections"
   ],
   "note": ""
  },
  {
   "property": "C49",
   "status": "proved",
   "theorems": [
    "Verif.Cfi.C49_contents",
    "Verif.Cfi.C49_ordered",
    "Verif.Cfi.C49_panics_iff",
    "Verif.Cfi.C49_negative_offset_witness"
   ],
   "note": ""
  },
  {
   "property": "C50",
   "status": "proved",
   "theorems": [
    "Verif.Dwarf.C50_dimension",
    "Verif.Dwarf.C50_array",
    "Verif.Dwarf.C50_negative_lower_witness",
    "Verif.Dwarf.C50_subrange",
    "Verif.Dwarf.C50_subrange_witness",
    "Verif.Dwarf.C50_enumerators",
    "Verif.Dwarf.C50_value"
   ],
   "note": ""
  },
  {
   "property": "C51",
   "status": "proved",
   "theorems": [
    "Verif.Code.C51_range_total",
    "Verif.Code.C51_range_bytes",
    "Verif.Code.C51_range_iff",
    "Verif.Code.C51_read",
    "Verif.Code.C51_call",
    "Verif.Code.C51_calls",
    "Verif.Code.C51_plt",
    "Verif.Code.C51_plt_collision_witness"
   ],
   "note": ""
  },
  {
   "property": "C52",
   "status": "proved",
   "theorems": [
    "Verif.Item.C52_path",
    "Verif.Item.C52_unit",
    "Verif.Item.C52_absolute_file_not_special",
    "Verif.Item.C52_print",
    "Verif.Item.C52_no_loss"
   ],
   "note": ""
  },
  {
   "property": "C53",
   "status": "proved",
   "theorems": [
    "Verif.Merge.C53_cmp_shown",
    "Verif.Order.C53_types",
    "Verif.Order.C53_functions",
    "Verif.Order.C53_variables",
    "Verif.Order.C53_units",
    "Verif.Order.C53_type_key",
    "Verif.Order.C53_function_key",
    "Verif.Order.C53_variable_key",
    "Verif.Order.C53_variable_size",
    "Verif.Order.C53_unit_key",
    "Verif.Order.C53_units_unsorted"
   ],
   "note": ""
  },
  {
   "property": "C54",
   "status": "proved",
   "theorems": [
    "Verif.Frame.C54_many",
    "Verif.Frame.C54_single",
    "Verif.Frame.C54_missed_witness",
    "Verif.Frame.C54_listing"
   ],
   "note": ""
  },
  {
   "property": "C55",
   "status": "proved",
   "theorems": [
    "Verif.File.C55_print",
    "Verif.File.C55_diff",
    "Verif.File.C55_counted_once",
    "Verif.File.C55_diff_panics"
   ],
   "note": ""
  },
  {
   "property": "C56",
   "status": "proved",
   "theorems": [
    "Verif.Dwarf.C56_parameter_type",
    "Verif.Dwarf.C56_parameter",
    "Verif.Dwarf.C56_variable",
    "Verif.Dwarf.C56_details",
    "Verif.Dwarf.C56_file",
    "Verif.Dwarf.C56_order",
    "Verif.Dwarf.C56_appended",
    "Verif.Dwarf.C56_total"
   ],
   "note": "Entry trees of any shape. Call sites: C79. An origin's own origin is not followed by the code; the theorem says so (Inherits uses the origin's own entries only)."
  },
  {
   "property": "C57",
   "status": "proved",
   "theorems": [
    "Verif.Dwarf.C57_function",
    "Verif.Dwarf.C57_empty_ranges_witness",
    "Verif.Dwarf.C57_wrap_witness",
    "Verif.Dwarf.C57_inlined"
   ],
   "note": ""
  },
  {
   "property": "C58",
   "status": "proved",
   "theorems": [
    "Verif.Item.C58_registers",
    "Verif.Item.C58_register_offsets",
    "Verif.Item.C58_frame_locations",
    "Verif.Item.C58_local_frame_locations"
   ],
   "note": ""
  },
  {
   "property": "C59",
   "status": "proved",
   "theorems": [
    "Verif.Print.C59_delta_exact_iff",
    "Verif.Print.C59_changed",
    "Verif.Print.C59_unchanged",
    "Verif.Print.C59_injective",
    "Verif.Print.C59_overflow_witness"
   ],
   "note": ""
  },
  {
   "property": "C60",
   "status": "proved",
   "theorems": [
    "Verif.Item.C60_known_ranges",
    "Verif.Item.C60_unknown_ranges",
    "Verif.Item.C60_complete",
    "Verif.Item.C60_sizes",
    "Verif.Item.C60_size_double_counts"
   ],
   "note": ""
  },
  {
   "property": "C61",
   "status": "proved",
   "theorems": [
    "Verif.Range.C61_push_no_overflow",
    "Verif.Range.C61_push_exact",
    "Verif.Range.C61_push_overflows"
   ],
   "note": ""
  },
  {
   "property": "C62",
   "status": "proved",
   "theorems": [
    "Verif.Namespace.Namespace.C62_isAnonType_iff"
   ],
   "note": ""
  },
  {
   "property": "C63",
   "status": "partial",
   "theorems": [
    "Verif.Types.C63_cmpId_release_no_panic_partial",
    "Verif.Types.C63_void_pointer_trips_assertion"
   ],
   "note": "Release builds proved; debug builds refuted by witness (void* against void*)."
  },
  {
   "property": "C64",
   "status": "proved",
   "theorems": [
    "Verif.Types.C64_isAnon_iff"
   ],
   "note": ""
  },
  {
   "property": "C65",
   "status": "proved",
   "theorems": [
    "Verif.Layout.C65_variant_inside_part",
    "Verif.Layout.C65_empty_variant_moves_start"
   ],
   "note": ""
  },
  {
   "property": "C66",
   "status": "proved",
   "theorems": [
    "Verif.Print.C66_listings",
    "Verif.Print.C66_header_unmarked"
   ],
   "note": ""
  },
  {
   "property": "C67",
   "status": "partial",
   "theorems": [
    "Verif.Html.C67_modify_leaks",
    "Verif.Print.C67_same_not_modified_partial"
   ],
   "note": "Proved while nothing differs; refuted in general by witness (C67_modify_leaks)."
  },
  {
   "property": "C68",
   "status": "proved",
   "theorems": [
    "Verif.Cfi.C68_text_identifies"
   ],
   "note": ""
  },
  {
   "property": "C69",
   "status": "proved",
   "theorems": [
    "Verif.Code.C69_reg_variable",
    "Verif.Code.C69_reg_parameter",
    "Verif.Code.C69_mem_variable",
    "Verif.Code.C69_mem_parameter",
    "Verif.Code.C69_imm",
    "Verif.Code.C69_ip",
    "Verif.Code.C69_operands",
    "Verif.Code.C69_bytes"
   ],
   "note": ""
  },
  {
   "property": "C70",
   "status": "partial",
   "theorems": [
    "Verif.Code.C70_x86_64",
    "Verif.Code.C70_i386_witness"
   ],
   "note": "Proved for x86-64; the claim for i386 is refuted by witness (C70_i386_witness)."
  },
  {
   "property": "C71",
   "status": "proved",
   "theorems": [
    "Verif.Dwarf.C71_listing",
    "Verif.Dwarf.C71_record"
   ],
   "note": "Same model of the walk as C44. Rust variant flattening (dwarf.rs 1497-1534) is left out of the struct record."
  },
  {
   "property": "C72",
   "status": "proved",
   "theorems": [
    "Verif.Dwarf.C72_function",
    "Verif.Dwarf.C72_variable",
    "Verif.Dwarf.C72_parameter",
    "Verif.Dwarf.C72_member",
    "Verif.Dwarf.C72_types",
    "Verif.Dwarf.C72_variant",
    "Verif.Dwarf.C72_parts",
    "Verif.Dwarf.C72_variant_offset_witness",
    "Verif.Dwarf.C72_unnamed"
   ],
   "note": ""
  },
  {
   "property": "C73",
   "status": "proved",
   "theorems": [
    "Verif.Dwarf.C73_found",
    "Verif.Dwarf.C73_complete"
   ],
   "note": ""
  },
  {
   "property": "C74",
   "status": "proved",
   "theorems": [
    "Verif.Dwarf.C74_named",
    "Verif.Dwarf.C74_unnamed",
    "Verif.Dwarf.C74_unresolved",
    "Verif.Dwarf.C74_enumerators",
    "Verif.Dwarf.C74_function",
    "Verif.Dwarf.C74_variable"
   ],
   "note": ""
  },
  {
   "property": "C75",
   "status": "proved",
   "theorems": [
    "Verif.Print.C75_unreported",
    "Verif.Print.C75_unreported_all",
    "Verif.Print.C75_nothing_printed"
   ],
   "note": "Generic over printing programs; instantiated for types (C76_type_unreported)."
  },
  {
   "property": "C76",
   "status": "proved",
   "theorems": [
    "Verif.Show.C76_type_self",
    "Verif.Show.C76_type_unreported",
    "Verif.Show.C76_type_listings",
    "Verif.Show.C76_type_flag",
    "Verif.Show.C76_bases_witness"
   ],
   "note": "Sizes and references of types are parameters of the model (Side.tsz, Side.tref). Exception for one against several base classes, with witness C76_bases_witness."
  },
  {
   "property": "C77",
   "status": "proved",
   "theorems": [
    "Verif.Show.C77_members_end",
    "Verif.Show.C77_struct_members",
    "Verif.Show.C77_union_members",
    "Verif.Show.C77_nested",
    "Verif.Show.C77_endless_witness",
    "Verif.Show.C77_variant_gap_witness"
   ],
   "note": "Findings: C77_endless_witness, C77_variant_gap_witness."
  },
  {
   "property": "C78",
   "status": "proved",
   "theorems": [
    "Verif.Show.C78_text",
    "Verif.Show.C78_written",
    "Verif.Show.C78_returns",
    "Verif.Show.C78_endless_witness",
    "Verif.Show.C78_links",
    "Verif.Show.C78_described",
    "Verif.Show.C78_not_blank",
    "Verif.Show.C78_file_self",
    "Verif.Show.C78_file_unreported"
   ],
   "note": "Spelled is an independent inductive specification of the text; C78_text/C78_written are soundness and completeness. C78_links and C78_described are about link targets. C78_returns gives termination for acyclic references, C78_endless_witness shows a self-referential pointer type is written forever (finding). C78_file_self and C78_file_unreported apply C76 with the real references, sizes and identity comparison."
  },
  {
   "property": "C79",
   "status": "proved",
   "theorems": [
    "Verif.Dwarf.C79_parameter",
    "Verif.Dwarf.C79_call",
    "Verif.Dwarf.C79_total"
   ],
   "note": "C79_call and C79_parameter describe one call site; C56_details/C56_file (DetailsOf.calls, InlinedOf) say the list of calls is complete and in order; C79_total is totality."
  },
  {
   "property": "C80",
   "status": "proved",
   "theorems": [
    "Verif.Html.C80_look",
    "Verif.Html.C80_tree",
    "Verif.Html.C80_one_reading",
    "Verif.Html.C80_print",
    "Verif.Html.C80_diff",
    "Verif.Html.C80_no_missed",
    "Verif.Html.C80_text",
    "Verif.Html.C80_text_diff",
    "Verif.Html.C80_example_witness",
    "Verif.Html.C80_label_witness",
    "Verif.Html.C80_link_witness"
   ],
   "note": "C80_print/C80_diff: how the page reads; C80_text/C80_text_diff: agreement with the text output (for diffs without parts that the text output hides as unchanged, which an HTML page always shows; conditions Regular/RegularD: links go around text, equal texts carry equal links, entities with an id have a title, no blank lines in optional sections). C80_look: a reader that goes through the page once, tag by tag (it knows nothing of how pages are made), sees exactly the items; C80_tree, C80_one_reading: so a page can be read in one way only. Findings: C80_label_witness, C80_link_witness."
  },
  {
   "property": "C81",
   "status": "proved",
   "theorems": [
    "Verif.Show.C81_instructions_witness",
    "Verif.Show.C81_addresses_witness",
    "Verif.Show.C81_frame_witness",
    "Verif.Show.C81_self",
    "Verif.Show.C81_unreported",
    "Verif.Show.C81_listings",
    "Verif.Show.C81_listings_ordered",
    "Verif.Show.C81_flag"
   ],
   "note": "What is written for types, function references and instructions are parameters of the model (FnSide). Exceptions with witnesses: instructions are not compared (C81_instructions_witness), one address against several (C81_addresses_witness), stack frames compare type offsets of different files (C81_frame_witness), several frame locations (C54_missed_witness)."
  },
  {
   "property": "C82",
   "status": "proved",
   "theorems": [
    "Verif.Show.C82_empty_unit_witness",
    "Verif.Show.C82_unit_listing",
    "Verif.Show.C82_listing",
    "Verif.Show.C82_unit_items",
    "Verif.Show.C82_items",
    "Verif.Show.C82_unreported",
    "Verif.Show.C82_self",
    "Verif.Web.C82_unit_page_diff",
    "Verif.Web.C82_page_diff",
    "Verif.Web.C82_diff_reads",
    "Verif.Web.C82_unit_page",
    "Verif.Web.C82_page"
   ],
   "note": "Text and HTML output (the latter: C82_unit_page, C82_page, C82_unit_page_diff, C82_page_diff as trees of lines; C82_diff_reads and C88_page_wellformed tie them to the bytes written). Ids, type sizes and references, function details and instructions are parameters (FileSide). Finding: C82_empty_unit_witness (an added unit without listing is reported but not shown). C82_unit_items assumes types without reference cycles (as C18)."
  },
  {
   "property": "C83",
   "status": "proved",
   "theorems": [
    "Verif.Show.C83_numbers",
    "Verif.Show.C83_struct",
    "Verif.Show.C83_item_determined",
    "Verif.Show.C83_enumerators"
   ],
   "note": "Specification FactsSpec.lean (Decimal, BitText, IntText, ItemReads, EnumeratorReads) does not use the printing functions."
  },
  {
   "property": "C84",
   "status": "proved",
   "theorems": [
    "Verif.Show.C84_type"
   ],
   "note": "SameType (FactsSpec.lean) compares the data of the two types. Hypotheses: references to types are never blank (C78) and names contain none of : < ( (= for typedef names), which is what makes a line unambiguous."
  },
  {
   "property": "C85",
   "status": "proved",
   "theorems": [
    "Verif.Show.C85_hex",
    "Verif.Show.C85_function",
    "Verif.Show.C85_type",
    "Verif.Show.C85_variable",
    "Verif.Show.C85_unit",
    "Verif.Show.C85_file"
   ],
   "note": "RowsSpec.lean and FileRowsSpec.lean say which rows a listing consists of without the printing functions; the theorems say that the written lines are exactly these rows. The references to types (C78) and the decoded instructions are given."
  },
  {
   "property": "C86",
   "status": "proved",
   "theorems": [
    "Verif.Show.C86_function",
    "Verif.Show.C86_inlined",
    "Verif.Show.C86_registers",
    "Verif.Show.C86_locations",
    "Verif.Show.C86_struct",
    "Verif.Show.C86_union",
    "Verif.Show.C86_inner_struct",
    "Verif.Show.C86_inner_union",
    "Verif.Show.C86_variants",
    "Verif.Show.C86_variant",
    "Verif.Show.C86_enumeration",
    "Verif.Show.C86_sections",
    "Verif.Show.C86_paired_parameters",
    "Verif.Show.C86_paired_locals",
    "Verif.Show.C86_paired_layout",
    "Verif.Show.C86_paired_variants",
    "Verif.Show.C86_paired_enumerators",
    "Verif.Show.C86_paired_call_sites",
    "Verif.Show.C86_paired_inlined",
    "Verif.Show.C86_paired_sections",
    "Verif.Show.C86_removed",
    "Verif.Show.C86_added",
    "Verif.Show.C86_enumerators_removed",
    "Verif.Show.C86_enumerators_added",
    "Verif.Show.C86_range_lines",
    "Verif.Show.C86_function_ranges"
   ],
   "note": "AlignSpec.lean has the price lists, Best (complete, in order, least cost) and PartOf (part of a diff). Uses C19/C20. Simplification as in C81: lists whose total cost does not fit in a usize are left out."
  },
  {
   "property": "C87",
   "status": "proved",
   "theorems": [
    "Verif.Show.C87_function",
    "Verif.Show.C87_file"
   ],
   "note": "SameFunction (FnFactsSpec.lean) and SameFileFacts (FileFactsSpec.lean) compare the data of the two sides. Built on C81/C82 (no difference reported: same listing) and C85 (the rows of a listing), and on reading the rows back. Hypotheses: names as in source code, no empty location pieces in call sites, and at most one stack-frame location per variable on the new side when locations are listed (C54_missed_witness shows why). Instructions and the order of local variables are not compared by the program."
  },
  {
   "property": "C88",
   "status": "proved",
   "theorems": [
    "Verif.Web.C88_answers_wellformed",
    "Verif.Web.C88_page_wellformed",
    "Verif.Web.C88_print",
    "Verif.Web.C88_rows",
    "Verif.Web.C88_insn_rows",
    "Verif.Web.C88_link"
   ],
   "note": "Opens (Web/Spec.lean) says what the script does with the answers. C88_print: equality with the printed page; C88_rows/C88_insn_rows discharge its hypothesis on instruction listings; C88_link: links to items not loaded; C88_answers_wellformed, C88_page_wellformed. Assumes fewer than 2^64 ids, for links distinct units; ids are a function of the contents of an item (IdsOf); header and footer of the page are parameters; a body that ends with an error half-way counts as no answer."
  },
  {
   "property": "C89",
   "status": "partial",
   "theorems": [
    "Verif.Web.C89_diff_partial",
    "Verif.Web.C89_function",
    "Verif.Web.C89_requests",
    "Verif.Web.C89_detail",
    "Verif.Web.C89_function_witness",
    "Verif.Web.C89_marks_witness"
   ],
   "note": "The full claim is false of the code. Proved (C89_diff_partial): the opened page equals the printed one up to the marks (class del/add) of lines inside items that only one file has, and exactly if added and deleted items are ignored; for diffs without instructions and, if functions are shown, without a function common to both files. What is missing is refuted: C89_function and C89_function_witness (a function in both files carries the id of its old unit, so opening it loads the unit), C89_detail (the server of a diff answers no detail or parent request), C89_marks_witness (contents of deleted and added items are served unmarked). Assumes fewer than 2^64 ids; ids are a function of the contents of an item."
  },
  {
   "property": "C90",
   "status": "proved",
   "theorems": [
    "Verif.Code.C90_arch",
    "Verif.Code.C90_code",
    "Verif.Code.C90_segments",
    "Verif.Code.C90_errors",
    "Verif.Code.C90_plt_sound",
    "Verif.Code.C90_plt_complete",
    "Verif.Code.C90_plt_none",
    "Verif.Code.C90_call",
    "Verif.Code.C90_absolute",
    "Verif.Code.C90_relocations",
    "Verif.Code.C90_runs"
   ],
   "note": ""
  },
  {
   "property": "C91",
   "status": "proved",
   "theorems": [
    "Verif.Whole.C91_plain_function",
    "Verif.Whole.C91_plain_variable",
    "Verif.Whole.C91_units",
    "Verif.Whole.C91_type_records",
    "Verif.Whole.C91_function_records",
    "Verif.Whole.C91_variable_records",
    "Verif.Whole.C91_unit",
    "Verif.Whole.C91_listing",
    "Verif.Whole.C91_constants",
    "Verif.Whole.C91_names",
    "Verif.Whole.C91_enumerator_values",
    "Verif.Whole.C91_extra",
    "Verif.Whole.C91_enumerators",
    "Verif.Whole.C91_types",
    "Verif.Whole.C91_sizes",
    "Verif.Whole.C91_calls",
    "Verif.Whole.C91_spelled",
    "Verif.Whole.C91_functions",
    "Verif.Whole.C91_symtab"
   ],
   "note": ""
  },
  {
   "property": "C92",
   "status": "proved",
   "theorems": [
    "Verif.Show.C92_diff",
    "Verif.Show.C92_print",
    "Verif.Show.C92_offset_witness"
   ],
   "note": "C92_print and C92_diff: for all files that meet UnitOk (resp. DiffOk), printing (diffing) yields a result for every sufficiently large bound on recursion, where the absence of a result stands for a panic (overflow, missing code) and a bound that does not suffice for an endless recursion; C92_offset_witness shows that the condition on offsets is needed (finding 35), C77_members_end and C55_diff that those on members and summaries are."
  },
  {
   "property": "C93",
   "status": "proved",
   "theorems": [
    "Verif.Whole.C93_self",
    "Verif.Whole.C93_no_entry_lost",
    "Verif.Whole.C93_no_entry_gained",
    "Verif.Whole.C93_old_functions",
    "Verif.Whole.C93_new_functions",
    "Verif.Whole.C93_old_types",
    "Verif.Whole.C93_new_types",
    "Verif.Whole.C93_old_variables",
    "Verif.Whole.C93_new_variables"
   ],
   "note": "C93_self; C93_no_entry_lost and C93_no_entry_gained for diffs that report nothing; C93_{old,new}_{functions,types,variables} for all diffs (Accounted). Text output (html = false). Assumes: names as in source code (ReadableFile), for stack frames one location per variable (OneLocation), for types no cycles among the types of the old file; that the diff runs to the end is C92. Facts are those the options have shown and compared (C84, C87)."
  },
  {
   "property": "C94",
   "status": "proved",
   "theorems": [
    "Verif.Arena.C94_own_data",
    "Verif.Arena.C94_never_dangling",
    "Verif.Arena.C94_no_deadlock",
    "Verif.Arena.C94_drop"
   ],
   "note": ""
  },
  {
   "property": "C95",
   "status": "proved",
   "theorems": [
    "Verif.Move.C95_type",
    "Verif.Move.C95_function",
    "Verif.Move.C95_file",
    "Verif.Move.C95_identity",
    "Verif.Move.C95_computed",
    "Verif.Move.C95_moved",
    "Verif.Move.C95_frame_witness"
   ],
   "note": "C95_type, C95_function, C95_file for all files, options of text output and injective renumberings; C95_identity and C95_computed: identity, sizes, written references and comparison follow from the moved types as the program computes them; C95_moved: every file can be moved. With stack frames listed the types in them must not have moved: C95_frame_witness shows that otherwise a difference is reported (finding 28). Instructions are not compared (C81_instructions_witness), so lines of instructions may be marked."
  },
  {
   "property": "C96",
   "status": "proved",
   "theorems": [
    "Verif.Asm.C96_code",
    "Verif.Asm.C96_function",
    "Verif.Asm.C96_names",
    "Verif.Asm.C96_nothing"
   ],
   "note": "C96_code for every function record, C96_function for every function entry of an object file inside the listing of C91_unit; C96_nothing. The decoding of instructions (capstone) is a parameter; sizes of variables are assumed to fit in 63 bits (the code casts them to i64)."
  },
  {
   "property": "C97",
   "status": "proved",
   "theorems": [
    "Verif.Main.C97_received_is_a_beginning",
    "Verif.Main.C97_page_beginning",
    "Verif.Main.C97_closed_pipe",
    "Verif.Main.C97_complete",
    "Verif.Main.C97_silent_loss",
    "Verif.Main.C97_reports_are_real",
    "Verif.Main.C97_short_output_lost",
    "Verif.Main.C97_html_diff_can_lack_the_middle"
   ],
   "note": "The buffered writer of std is modelled from its documentation. C97_short_output_lost and C97_html_diff_can_lack_the_middle are the two findings that bound the claim."
  },
  {
   "property": "C98",
   "status": "proved",
   "theorems": [
    "Verif.Main.C98_mode",
    "Verif.Main.C98_unreadable",
    "Verif.Main.C98_served",
    "Verif.Main.C98_printed",
    "Verif.Main.C98_messages"
   ],
   "note": "clap's splitting of the command line is C99; its rules for the modes are here; the server itself is C39, C79 and C82."
  },
  {
   "property": "C99",
   "status": "proved",
   "theorems": [
    "Verif.Cli.C99_means",
    "Verif.Cli.C99_reads",
    "Verif.Cli.C99_program",
    "Verif.Cli.C99_order",
    "Verif.Cli.C99_unambiguous",
    "Verif.Cli.C99_rejected_only",
    "Verif.Cli.C99_no_commas",
    "Verif.Cli.C99_comma_names_are_not_found",
    "Verif.Cli.C99_comma_filter_is_rejected"
   ],
   "note": "The table of cli() is modelled from the code; how clap reads a command line by it from clap's documented behaviour (trusted)."
  },
  {
   "property": "C100",
   "status": "proved",
   "theorems": [
    "Verif.Select.C100_part",
    "Verif.Select.C100_arguments",
    "Verif.Select.C100_diff_options",
    "Verif.Select.C100_replaced_filter_witness"
   ],
   "note": "For the text listing of one file; the HTML program is covered through the lines it writes."
  },
  {
   "property": "C101",
   "status": "proved",
   "theorems": [
    "Verif.Select.C101_part",
    "Verif.Select.C101_arguments",
    "Verif.Select.C101_filters",
    "Verif.Select.C101_unit_filter_witness",
    "Verif.Select.C101_inline_filter_witness",
    "Verif.Select.C101_calls_witness"
   ],
   "note": "For the diff of two files, in text and HTML form. Filters by name, namespace and unit may differ: filtering commutes with pairing, because the filters depend only on what items are paired by. The three exceptions of the claim are shown necessary by C101_calls_witness, C101_inline_filter_witness and C101_unit_filter_witness."
  },
  {
   "property": "C102",
   "status": "proved",
   "theorems": [
    "Verif.Shuffle.C102_listing",
    "Verif.Shuffle.C102_diff",
    "Verif.Shuffle.C102_distinct_names",
    "Verif.Shuffle.C102_order_witness"
   ],
   "note": "What is looked up in a file by offset or address is the same on both sides by hypothesis (C35 says how it depends on the order when two functions share an address). The summaries are excluded, with a witness that they do depend on the order (C05)."
  },
  {
   "property": "C103",
   "status": "proved",
   "theorems": [
    "Verif.Rebase.C103_function",
    "Verif.Rebase.C103_variable",
    "Verif.Rebase.C103_file",
    "Verif.Rebase.C103_nothing",
    "Verif.Rebase.C103_rebased",
    "Verif.Rebase.C103_not_ignored_witness",
    "Verif.Rebase.C103_call_witness"
   ],
   "note": "Text form only: in HTML, items without differences are written too. C103_rebased: the hypotheses are met whenever details are found by offset, as the program finds them. The summary of the files (category file) does list sizes and sections; C103_file says it is all that is written."
  },
  {
   "property": "C104",
   "status": "proved",
   "theorems": [
    "Verif.Turn.C104_pairing",
    "Verif.Turn.C104_type",
    "Verif.Turn.C104_function",
    "Verif.Turn.C104_variable",
    "Verif.Turn.C104_unit",
    "Verif.Turn.C104_file",
    "Verif.Turn.C104_locations_witness",
    "Verif.Turn.C104_overflow_witness"
   ],
   "note": "The theorems hold whatever heap breaks the ties of the alignment; with another order of ties the two directions may align items differently, which is why items that read alike must be alike. Both diffs are assumed to be made (C92 says when); C104_overflow_witness shows one can fail alone. That no variable is in two places on the stack is needed where locations are shown: C104_locations_witness."
  },
  {
   "property": "C105",
   "status": "proved",
   "theorems": [
    "Verif.Prog.C105_page",
    "Verif.Prog.C105_diff_page",
    "Verif.Prog.C105_unmarked_page",
    "Verif.Prog.C105_run",
    "Verif.Prog.C105_one_meaning",
    "Verif.Prog.C105_readable",
    "Verif.Prog.C105_unreadable",
    "Verif.Prog.C105_print",
    "Verif.Prog.C105_diff",
    "Verif.Prog.C105_bloat",
    "Verif.Prog.C105_self",
    "Verif.Prog.C105_copy",
    "Verif.Prog.C105_html",
    "Verif.Prog.C105_html_diff",
    "Verif.Prog.C105_served",
    "Verif.Prog.C105_any_output",
    "Verif.Prog.C105_self_page"
   ],
   "note": "Composition of C31, C38, C82, C88, C91, C92, C93, C97, C98 and C99 for the whole program. Depth bounds: each theorem says that from some bound on the text is this, so it speaks of runs that end, and C92's conditions say when they do. Item contents are in terms of FunctionRows, TypeRows and the other specifications of C85/C91/C93. C105_page and C105_diff_page say the same of HTML pages, in terms of ObjectPage and DiffPage (C106); C105_self_page of a file compared with itself, C105_unmarked_page of a page without marks."
  },
  {
   "property": "C106",
   "status": "proved",
   "theorems": [
    "Verif.Page.C106_unmarked",
    "Verif.Page.C106_diff",
    "Verif.Page.C106_entries",
    "Verif.Page.C106_object",
    "Verif.Page.C106_page",
    "Verif.Page.C106_self"
   ],
   "note": "Joins C82 (which items), C85 (which rows an item has) and C80 and C88 (how the HTML reads). Headings without a value are part of the listing half (sublist); the half about other text is about lines with a value, since a link around an empty name leaves an empty line on the page (C80). C106_diff adds the pages of diffs: its exceptions (one base class or address against several, several stack-frame locations, order of local variables) are those of C53, C54 and C81, where the diff does not contain both listings. C106_entries and C106_object go down to the debug information: one item for every wanted entry. C106_self: a reader of the page of a file compared with itself sees no mark (links included: values are equal, not only their texts). C106_unmarked is the other direction: a page of a diff without a mark means that every item to list has a partner with the same rows and sizes, or is one the user ignores. Its exceptions are those of C106_diff. Pages with instructions are excluded here: their tables are C88."
  }
 ]
}