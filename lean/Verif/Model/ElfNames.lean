import Verif.Py.Dict
import Verif.Py.Fmt
/-!
# Names of constants

`/repo/esp_idf_size/elf.py:10-1300`: the constants of the DWARF and ELF standards, with the names under which they are shown.  The names of operations are in `Model/OpNames`.

-/
namespace EspSize

/-- `DW_TAG_*`, `elf.py:12-101`, without the prefix `DW_TAG_`. -/
def tagConsts : List (String × Nat) :=
  [("padding", 0), ("array_type", 1), ("class_type", 2), ("entry_point", 3), ("enumeration_type", 4), ("formal_parameter", 5),
   ("imported_declaration", 8), ("label", 0xa), ("lexical_block", 0xb), ("member", 0xd), ("pointer_type", 0xf), ("reference_type", 0x10),
   ("compile_unit", 0x11), ("string_type", 0x12), ("structure_type", 0x13), ("subroutine_type", 0x15), ("typedef", 0x16),
   ("union_type", 0x17), ("unspecified_parameters", 0x18), ("variant", 0x19), ("common_block", 0x1a), ("common_inclusion", 0x1b),
   ("inheritance", 0x1c), ("inlined_subroutine", 0x1d), ("module", 0x1e), ("ptr_to_member_type", 0x1f), ("set_type", 0x20),
   ("subrange_type", 0x21), ("with_stmt", 0x22), ("access_declaration", 0x23), ("base_type", 0x24), ("catch_block", 0x25),
   ("const_type", 0x26), ("constant", 0x27), ("enumerator", 0x28), ("file_type", 0x29), ("friend", 0x2a), ("namelist", 0x2b),
   ("namelist_item", 0x2c), ("packed_type", 0x2d), ("subprogram", 0x2e), ("template_type_param", 0x2f), ("template_value_param", 0x30),
   ("thrown_type", 0x31), ("try_block", 0x32), ("variant_part", 0x33), ("variable", 0x34), ("volatile_type", 0x35),
   ("dwarf_procedure", 0x36), ("restrict_type", 0x37), ("interface_type", 0x38), ("namespace", 0x39), ("imported_module", 0x3a),
   ("unspecified_type", 0x3b), ("partial_unit", 0x3c), ("imported_unit", 0x3d), ("condition", 0x3f), ("shared_type", 0x40),
   ("type_unit", 0x41), ("rvalue_reference_type", 0x42), ("template_alias", 0x43), ("coarray_type", 0x44), ("generic_subrange", 0x45),
   ("dynamic_type", 0x46), ("atomic_type", 0x47), ("call_site", 0x48), ("call_site_parameter", 0x49), ("skeleton_unit", 0x4a),
   ("immutable_type", 0x4b), ("lo_user", 0x4080), ("hi_user", 0xffff), ("MIPS_loop", 0x4081), ("HP_array_descriptor", 0x4090),
   ("HP_Bliss_field", 0x4091), ("HP_Bliss_field_set", 0x4092), ("format_label", 0x4101), ("function_template", 0x4102),
   ("class_template", 0x4103), ("GNU_BINCL", 0x4104), ("GNU_EINCL", 0x4105), ("GNU_template_template_param", 0x4106),
   ("GNU_template_parameter_pack", 0x4107), ("GNU_formal_parameter_pack", 0x4108), ("GNU_call_site", 0x4109),
   ("GNU_call_site_parameter", 0x410a), ("upc_shared_type", 0x8765), ("upc_strict_type", 0x8766), ("upc_relaxed_type", 0x8767),
   ("PGI_kanji_type", 0xa000), ("PGI_interface_block", 0xa020)]

/-- The literal of `DW_TAG_NAME_MAP`, `elf.py:103-194`. -/
def tagMap : List (Nat × String) :=
  [(0, "DW_TAG_padding"), (1, "DW_TAG_array_type"), (2, "DW_TAG_class_type"), (3, "DW_TAG_entry_point"), (4, "DW_TAG_enumeration_type"),
   (5, "DW_TAG_formal_parameter"), (8, "DW_TAG_imported_declaration"), (0xa, "DW_TAG_label"), (0xb, "DW_TAG_lexical_block"),
   (0xd, "DW_TAG_member"), (0xf, "DW_TAG_pointer_type"), (0x10, "DW_TAG_reference_type"), (0x11, "DW_TAG_compile_unit"),
   (0x12, "DW_TAG_string_type"), (0x13, "DW_TAG_structure_type"), (0x15, "DW_TAG_subroutine_type"), (0x16, "DW_TAG_typedef"),
   (0x17, "DW_TAG_union_type"), (0x18, "DW_TAG_unspecified_parameters"), (0x19, "DW_TAG_variant"), (0x1a, "DW_TAG_common_block"),
   (0x1b, "DW_TAG_common_inclusion"), (0x1c, "DW_TAG_inheritance"), (0x1d, "DW_TAG_inlined_subroutine"), (0x1e, "DW_TAG_module"),
   (0x1f, "DW_TAG_ptr_to_member_type"), (0x20, "DW_TAG_set_type"), (0x21, "DW_TAG_subrange_type"), (0x22, "DW_TAG_with_stmt"),
   (0x23, "DW_TAG_access_declaration"), (0x24, "DW_TAG_base_type"), (0x25, "DW_TAG_catch_block"), (0x26, "DW_TAG_const_type"),
   (0x27, "DW_TAG_constant"), (0x28, "DW_TAG_enumerator"), (0x29, "DW_TAG_file_type"), (0x2a, "DW_TAG_friend"), (0x2b, "DW_TAG_namelist"),
   (0x2c, "DW_TAG_namelist_item"), (0x2d, "DW_TAG_packed_type"), (0x2e, "DW_TAG_subprogram"), (0x2f, "DW_TAG_template_type_param"),
   (0x30, "DW_TAG_template_value_param"), (0x31, "DW_TAG_thrown_type"), (0x32, "DW_TAG_try_block"), (0x33, "DW_TAG_variant_part"),
   (0x34, "DW_TAG_variable"), (0x35, "DW_TAG_volatile_type"), (0x36, "DW_TAG_dwarf_procedure"), (0x37, "DW_TAG_restrict_type"),
   (0x38, "DW_TAG_interface_type"), (0x39, "DW_TAG_namespace"), (0x3a, "DW_TAG_imported_module"), (0x3b, "DW_TAG_unspecified_type"),
   (0x3c, "DW_TAG_partial_unit"), (0x3d, "DW_TAG_imported_unit"), (0x3f, "DW_TAG_condition"), (0x40, "DW_TAG_shared_type"),
   (0x41, "DW_TAG_type_unit"), (0x42, "DW_TAG_rvalue_reference_type"), (0x43, "DW_TAG_template_alias"), (0x44, "DW_TAG_coarray_type"),
   (0x45, "DW_TAG_generic_subrange"), (0x46, "DW_TAG_dynamic_type"), (0x47, "DW_TAG_atomic_type"), (0x48, "DW_TAG_call_site"),
   (0x49, "DW_TAG_call_site_parameter"), (0x4a, "DW_TAG_skeleton_unit"), (0x4b, "DW_TAG_immutable_type"), (0x4080, "DW_TAG_lo_user"),
   (0xffff, "DW_TAG_hi_user"), (0x4081, "DW_TAG_MIPS_loop"), (0x4090, "DW_TAG_HP_array_descriptor"), (0x4091, "DW_TAG_HP_Bliss_field"),
   (0x4092, "DW_TAG_HP_Bliss_field_set"), (0x4101, "DW_TAG_format_label"), (0x4102, "DW_TAG_function_template"),
   (0x4103, "DW_TAG_class_template"), (0x4104, "DW_TAG_GNU_BINCL"), (0x4105, "DW_TAG_GNU_EINCL"),
   (0x4106, "DW_TAG_GNU_template_template_param"), (0x4107, "DW_TAG_GNU_template_parameter_pack"),
   (0x4108, "DW_TAG_GNU_formal_parameter_pack"), (0x4109, "DW_TAG_GNU_call_site"), (0x410a, "DW_TAG_GNU_call_site_parameter"),
   (0x8765, "DW_TAG_upc_shared_type"), (0x8766, "DW_TAG_upc_strict_type"), (0x8767, "DW_TAG_upc_relaxed_type"),
   (0xa000, "DW_TAG_PGI_kanji_type"), (0xa020, "DW_TAG_PGI_interface_block")]

/-- `DW_AT_*`, `elf.py:201-415`, without the prefix `DW_AT_`. -/
def atConsts : List (String × Nat) :=
  [("end", 0), ("sibling", 1), ("location", 2), ("name", 3), ("ordering", 9), ("subscr_data", 0xa), ("byte_size", 0xb),
   ("bit_offset", 0xc), ("bit_size", 0xd), ("element_list", 0xf), ("stmt_list", 0x10), ("low_pc", 0x11), ("high_pc", 0x12),
   ("language", 0x13), ("member", 0x14), ("discr", 0x15), ("discr_value", 0x16), ("visibility", 0x17), ("import", 0x18),
   ("string_length", 0x19), ("common_reference", 0x1a), ("comp_dir", 0x1b), ("const_value", 0x1c), ("containing_type", 0x1d),
   ("default_value", 0x1e), ("inline", 0x20), ("is_optional", 0x21), ("lower_bound", 0x22), ("producer", 0x25), ("prototyped", 0x27),
   ("return_addr", 0x2a), ("start_scope", 0x2c), ("bit_stride", 0x2e), ("upper_bound", 0x2f), ("abstract_origin", 0x31),
   ("accessibility", 0x32), ("address_class", 0x33), ("artificial", 0x34), ("base_types", 0x35), ("calling_convention", 0x36),
   ("count", 0x37), ("data_member_location", 0x38), ("decl_column", 0x39), ("decl_file", 0x3a), ("decl_line", 0x3b), ("declaration", 0x3c),
   ("discr_list", 0x3d), ("encoding", 0x3e), ("external", 0x3f), ("frame_base", 0x40), ("friend", 0x41), ("identifier_case", 0x42),
   ("macro_info", 0x43), ("namelist_item", 0x44), ("priority", 0x45), ("segment", 0x46), ("specification", 0x47), ("static_link", 0x48),
   ("type", 0x49), ("use_location", 0x4a), ("variable_parameter", 0x4b), ("virtuality", 0x4c), ("vtable_elem_location", 0x4d),
   ("allocated", 0x4e), ("associated", 0x4f), ("data_location", 0x50), ("byte_stride", 0x51), ("entry_pc", 0x52), ("use_UTF8", 0x53),
   ("extension", 0x54), ("ranges", 0x55), ("trampoline", 0x56), ("call_column", 0x57), ("call_file", 0x58), ("call_line", 0x59),
   ("description", 0x5a), ("binary_scale", 0x5b), ("decimal_scale", 0x5c), ("small", 0x5d), ("decimal_sign", 0x5e), ("digit_count", 0x5f),
   ("picture_string", 0x60), ("mutable", 0x61), ("threads_scaled", 0x62), ("explicit", 0x63), ("object_pointer", 0x64),
   ("endianity", 0x65), ("elemental", 0x66), ("pure", 0x67), ("recursive", 0x68), ("signature", 0x69), ("main_subprogram", 0x6a),
   ("data_bit_offset", 0x6b), ("const_expr", 0x6c), ("enum_class", 0x6d), ("linkage_name", 0x6e), ("string_length_bit_size", 0x6f),
   ("string_length_byte_size", 0x70), ("rank", 0x71), ("str_offsets_base", 0x72), ("addr_base", 0x73), ("rnglists_base", 0x74),
   ("dwo_name", 0x76), ("reference", 0x77), ("rvalue_reference", 0x78), ("macros", 0x79), ("call_all_calls", 0x7a),
   ("call_all_source_calls", 0x7b), ("call_all_tail_calls", 0x7c), ("call_return_pc", 0x7d), ("call_value", 0x7e), ("call_origin", 0x7f),
   ("call_parameter", 0x80), ("call_pc", 0x81), ("call_tail_call", 0x82), ("call_target", 0x83), ("call_target_clobbered", 0x84),
   ("call_data_location", 0x85), ("call_data_value", 0x86), ("noreturn", 0x87), ("alignment", 0x88), ("export_symbols", 0x89),
   ("deleted", 0x8a), ("defaulted", 0x8b), ("loclists_base", 0x8c), ("lo_user", 0x2000), ("hi_user", 0x3fff), ("MIPS_fde", 0x2001),
   ("MIPS_loop_begin", 0x2002), ("MIPS_tail_loop_begin", 0x2003), ("MIPS_epilog_begin", 0x2004), ("MIPS_loop_unroll_factor", 0x2005),
   ("MIPS_software_pipeline_depth", 0x2006), ("MIPS_linkage_name", 0x2007), ("MIPS_stride", 0x2008), ("MIPS_abstract_name", 0x2009),
   ("MIPS_clone_origin", 0x200a), ("MIPS_has_inlines", 0x200b), ("HP_block_index", 0x2000), ("HP_unmodifiable", 0x2001),
   ("HP_prologue", 0x2005), ("HP_epilogue", 0x2008), ("HP_actuals_stmt_list", 0x2010), ("HP_proc_per_section", 0x2011),
   ("HP_raw_data_ptr", 0x2012), ("HP_pass_by_reference", 0x2013), ("HP_opt_level", 0x2014), ("HP_prof_version_id", 0x2015),
   ("HP_opt_flags", 0x2016), ("HP_cold_region_low_pc", 0x2017), ("HP_cold_region_high_pc", 0x2018),
   ("HP_all_variables_modifiable", 0x2019), ("HP_linkage_name", 0x201a), ("HP_prof_flags", 0x201b), ("HP_unit_name", 0x201f),
   ("HP_unit_size", 0x2020), ("HP_widened_byte_size", 0x2021), ("HP_definition_points", 0x2022), ("HP_default_location", 0x2023),
   ("HP_is_result_param", 0x2029), ("sf_names", 0x2101), ("src_info", 0x2102), ("mac_info", 0x2103), ("src_coords", 0x2104),
   ("body_begin", 0x2105), ("body_end", 0x2106), ("GNU_vector", 0x2107), ("GNU_guarded_by", 0x2108), ("GNU_pt_guarded_by", 0x2109),
   ("GNU_guarded", 0x210a), ("GNU_pt_guarded", 0x210b), ("GNU_locks_excluded", 0x210c), ("GNU_exclusive_locks_required", 0x210d),
   ("GNU_shared_locks_required", 0x210e), ("GNU_odr_signature", 0x210f), ("GNU_template_name", 0x2110), ("GNU_call_site_value", 0x2111),
   ("GNU_call_site_data_value", 0x2112), ("GNU_call_site_target", 0x2113), ("GNU_call_site_target_clobbered", 0x2114),
   ("GNU_tail_call", 0x2115), ("GNU_all_tail_call_sites", 0x2116), ("GNU_all_call_sites", 0x2117), ("GNU_all_source_call_sites", 0x2118),
   ("GNU_macros", 0x2119), ("GNU_deleted", 0x211a), ("GNU_dwo_name", 0x2130), ("GNU_dwo_id", 0x2131), ("GNU_ranges_base", 0x2132),
   ("GNU_addr_base", 0x2133), ("GNU_pubnames", 0x2134), ("GNU_pubtypes", 0x2135), ("GNU_discriminator", 0x2136), ("GNU_locviews", 0x2137),
   ("GNU_entry_view", 0x2138), ("VMS_rtnbeg_pd_address", 0x2201), ("use_GNAT_descriptive_type", 0x2301), ("GNAT_descriptive_type", 0x2302),
   ("upc_threads_scaled", 0x3210), ("PGI_lbase", 0x3a00), ("PGI_soffset", 0x3a01), ("PGI_lstride", 0x3a02), ("APPLE_optimized", 0x3fe1),
   ("APPLE_flags", 0x3fe2), ("APPLE_isa", 0x3fe3), ("APPLE_block", 0x3fe4), ("APPLE_major_runtime_vers", 0x3fe5),
   ("APPLE_runtime_class", 0x3fe6), ("APPLE_omit_frame_ptr", 0x3fe7), ("APPLE_property_name", 0x3fe8), ("APPLE_property_getter", 0x3fe9),
   ("APPLE_property_setter", 0x3fea), ("APPLE_property_attribute", 0x3feb), ("APPLE_objc_complete_type", 0x3fec),
   ("APPLE_property", 0x3fed)]

/-- The literal of `DW_AT_NAME_MAP`, `elf.py:417-629`. -/
def atMap : List (Nat × String) :=
  [(0, "DW_AT_end"), (1, "DW_AT_sibling"), (2, "DW_AT_location"), (3, "DW_AT_name"), (9, "DW_AT_ordering"), (0xa, "DW_AT_subscr_data"),
   (0xb, "DW_AT_byte_size"), (0xc, "DW_AT_bit_offset"), (0xd, "DW_AT_bit_size"), (0xf, "DW_AT_element_list"), (0x10, "DW_AT_stmt_list"),
   (0x11, "DW_AT_low_pc"), (0x12, "DW_AT_high_pc"), (0x13, "DW_AT_language"), (0x14, "DW_AT_member"), (0x15, "DW_AT_discr"),
   (0x16, "DW_AT_discr_value"), (0x17, "DW_AT_visibility"), (0x18, "DW_AT_import"), (0x19, "DW_AT_string_length"),
   (0x1a, "DW_AT_common_reference"), (0x1b, "DW_AT_comp_dir"), (0x1c, "DW_AT_const_value"), (0x1d, "DW_AT_containing_type"),
   (0x1e, "DW_AT_default_value"), (0x20, "DW_AT_inline"), (0x21, "DW_AT_is_optional"), (0x22, "DW_AT_lower_bound"),
   (0x25, "DW_AT_producer"), (0x27, "DW_AT_prototyped"), (0x2a, "DW_AT_return_addr"), (0x2c, "DW_AT_start_scope"),
   (0x2e, "DW_AT_bit_stride"), (0x2f, "DW_AT_upper_bound"), (0x31, "DW_AT_abstract_origin"), (0x32, "DW_AT_accessibility"),
   (0x33, "DW_AT_address_class"), (0x34, "DW_AT_artificial"), (0x35, "DW_AT_base_types"), (0x36, "DW_AT_calling_convention"),
   (0x37, "DW_AT_count"), (0x38, "DW_AT_data_member_location"), (0x39, "DW_AT_decl_column"), (0x3a, "DW_AT_decl_file"),
   (0x3b, "DW_AT_decl_line"), (0x3c, "DW_AT_declaration"), (0x3d, "DW_AT_discr_list"), (0x3e, "DW_AT_encoding"), (0x3f, "DW_AT_external"),
   (0x40, "DW_AT_frame_base"), (0x41, "DW_AT_friend"), (0x42, "DW_AT_identifier_case"), (0x43, "DW_AT_macro_info"),
   (0x44, "DW_AT_namelist_item"), (0x45, "DW_AT_priority"), (0x46, "DW_AT_segment"), (0x47, "DW_AT_specification"),
   (0x48, "DW_AT_static_link"), (0x49, "DW_AT_type"), (0x4a, "DW_AT_use_location"), (0x4b, "DW_AT_variable_parameter"),
   (0x4c, "DW_AT_virtuality"), (0x4d, "DW_AT_vtable_elem_location"), (0x4e, "DW_AT_allocated"), (0x4f, "DW_AT_associated"),
   (0x50, "DW_AT_data_location"), (0x51, "DW_AT_byte_stride"), (0x52, "DW_AT_entry_pc"), (0x53, "DW_AT_use_UTF8"),
   (0x54, "DW_AT_extension"), (0x55, "DW_AT_ranges"), (0x56, "DW_AT_trampoline"), (0x57, "DW_AT_call_column"), (0x58, "DW_AT_call_file"),
   (0x59, "DW_AT_call_line"), (0x5a, "DW_AT_description"), (0x5b, "DW_AT_binary_scale"), (0x5c, "DW_AT_decimal_scale"),
   (0x5d, "DW_AT_small"), (0x5e, "DW_AT_decimal_sign"), (0x5f, "DW_AT_digit_count"), (0x60, "DW_AT_picture_string"),
   (0x61, "DW_AT_mutable"), (0x62, "DW_AT_threads_scaled"), (0x63, "DW_AT_explicit"), (0x64, "DW_AT_object_pointer"),
   (0x65, "DW_AT_endianity"), (0x66, "DW_AT_elemental"), (0x67, "DW_AT_pure"), (0x68, "DW_AT_recursive"), (0x69, "DW_AT_signature"),
   (0x6a, "DW_AT_main_subprogram"), (0x6b, "DW_AT_data_bit_offset"), (0x6c, "DW_AT_const_expr"), (0x6d, "DW_AT_enum_class"),
   (0x6e, "DW_AT_linkage_name"), (0x6f, "DW_AT_string_length_bit_size"), (0x70, "DW_AT_string_length_byte_size"), (0x71, "DW_AT_rank"),
   (0x72, "DW_AT_str_offsets_base"), (0x73, "DW_AT_addr_base"), (0x74, "DW_AT_rnglists_base"), (0x76, "DW_AT_dwo_name"),
   (0x77, "DW_AT_reference"), (0x78, "DW_AT_rvalue_reference"), (0x79, "DW_AT_macros"), (0x7a, "DW_AT_call_all_calls"),
   (0x7b, "DW_AT_call_all_source_calls"), (0x7c, "DW_AT_call_all_tail_calls"), (0x7d, "DW_AT_call_return_pc"), (0x7e, "DW_AT_call_value"),
   (0x7f, "DW_AT_call_origin"), (0x80, "DW_AT_call_parameter"), (0x81, "DW_AT_call_pc"), (0x82, "DW_AT_call_tail_call"),
   (0x83, "DW_AT_call_target"), (0x84, "DW_AT_call_target_clobbered"), (0x85, "DW_AT_call_data_location"), (0x86, "DW_AT_call_data_value"),
   (0x87, "DW_AT_noreturn"), (0x88, "DW_AT_alignment"), (0x89, "DW_AT_export_symbols"), (0x8a, "DW_AT_deleted"), (0x8b, "DW_AT_defaulted"),
   (0x8c, "DW_AT_loclists_base"), (0x2000, "DW_AT_lo_user/DW_AT_HP_block_index"), (0x3fff, "DW_AT_hi_user"),
   (0x2001, "DW_AT_MIPS_fde/DW_AT_HP_unmodifiable"), (0x2002, "DW_AT_MIPS_loop_begin"), (0x2003, "DW_AT_MIPS_tail_loop_begin"),
   (0x2004, "DW_AT_MIPS_epilog_begin"), (0x2005, "DW_AT_MIPS_loop_unroll_factor/DW_AT_HP_prologue"),
   (0x2006, "DW_AT_MIPS_software_pipeline_depth"), (0x2007, "DW_AT_MIPS_linkage_name"), (0x2008, "DW_AT_MIPS_stride/DW_AT_HP_epilogue"),
   (0x2009, "DW_AT_MIPS_abstract_name"), (0x200a, "DW_AT_MIPS_clone_origin"), (0x200b, "DW_AT_MIPS_has_inlines"),
   (0x2010, "DW_AT_HP_actuals_stmt_list"), (0x2011, "DW_AT_HP_proc_per_section"), (0x2012, "DW_AT_HP_raw_data_ptr"),
   (0x2013, "DW_AT_HP_pass_by_reference"), (0x2014, "DW_AT_HP_opt_level"), (0x2015, "DW_AT_HP_prof_version_id"),
   (0x2016, "DW_AT_HP_opt_flags"), (0x2017, "DW_AT_HP_cold_region_low_pc"), (0x2018, "DW_AT_HP_cold_region_high_pc"),
   (0x2019, "DW_AT_HP_all_variables_modifiable"), (0x201a, "DW_AT_HP_linkage_name"), (0x201b, "DW_AT_HP_prof_flags"),
   (0x201f, "DW_AT_HP_unit_name"), (0x2020, "DW_AT_HP_unit_size"), (0x2021, "DW_AT_HP_widened_byte_size"),
   (0x2022, "DW_AT_HP_definition_points"), (0x2023, "DW_AT_HP_default_location"), (0x2029, "DW_AT_HP_is_result_param"),
   (0x2101, "DW_AT_sf_names"), (0x2102, "DW_AT_src_info"), (0x2103, "DW_AT_mac_info"), (0x2104, "DW_AT_src_coords"),
   (0x2105, "DW_AT_body_begin"), (0x2106, "DW_AT_body_end"), (0x2107, "DW_AT_GNU_vector"), (0x2108, "DW_AT_GNU_guarded_by"),
   (0x2109, "DW_AT_GNU_pt_guarded_by"), (0x210a, "DW_AT_GNU_guarded"), (0x210b, "DW_AT_GNU_pt_guarded"),
   (0x210c, "DW_AT_GNU_locks_excluded"), (0x210d, "DW_AT_GNU_exclusive_locks_required"), (0x210e, "DW_AT_GNU_shared_locks_required"),
   (0x210f, "DW_AT_GNU_odr_signature"), (0x2110, "DW_AT_GNU_template_name"), (0x2111, "DW_AT_GNU_call_site_value"),
   (0x2112, "DW_AT_GNU_call_site_data_value"), (0x2113, "DW_AT_GNU_call_site_target"), (0x2114, "DW_AT_GNU_call_site_target_clobbered"),
   (0x2115, "DW_AT_GNU_tail_call"), (0x2116, "DW_AT_GNU_all_tail_call_sites"), (0x2117, "DW_AT_GNU_all_call_sites"),
   (0x2118, "DW_AT_GNU_all_source_call_sites"), (0x2119, "DW_AT_GNU_macros"), (0x211a, "DW_AT_GNU_deleted"),
   (0x2130, "DW_AT_GNU_dwo_name"), (0x2131, "DW_AT_GNU_dwo_id"), (0x2132, "DW_AT_GNU_ranges_base"), (0x2133, "DW_AT_GNU_addr_base"),
   (0x2134, "DW_AT_GNU_pubnames"), (0x2135, "DW_AT_GNU_pubtypes"), (0x2136, "DW_AT_GNU_discriminator"), (0x2137, "DW_AT_GNU_locviews"),
   (0x2138, "DW_AT_GNU_entry_view"), (0x2201, "DW_AT_VMS_rtnbeg_pd_address"), (0x2301, "DW_AT_use_GNAT_descriptive_type"),
   (0x2302, "DW_AT_GNAT_descriptive_type"), (0x3210, "DW_AT_upc_threads_scaled"), (0x3a00, "DW_AT_PGI_lbase"),
   (0x3a01, "DW_AT_PGI_soffset"), (0x3a02, "DW_AT_PGI_lstride"), (0x3fe1, "DW_AT_APPLE_optimized"), (0x3fe2, "DW_AT_APPLE_flags"),
   (0x3fe3, "DW_AT_APPLE_isa"), (0x3fe4, "DW_AT_APPLE_block"), (0x3fe5, "DW_AT_APPLE_major_runtime_vers"),
   (0x3fe6, "DW_AT_APPLE_runtime_class"), (0x3fe7, "DW_AT_APPLE_omit_frame_ptr"), (0x3fe8, "DW_AT_APPLE_property_name"),
   (0x3fe9, "DW_AT_APPLE_property_getter"), (0x3fea, "DW_AT_APPLE_property_setter"), (0x3feb, "DW_AT_APPLE_property_attribute"),
   (0x3fec, "DW_AT_APPLE_objc_complete_type"), (0x3fed, "DW_AT_APPLE_property")]

/-- `DW_FORM_*`, `elf.py:636-683`, without the prefix `DW_FORM_`. -/
def formConsts : List (String × Nat) :=
  [("end", 0), ("addr", 1), ("block2", 3), ("block4", 4), ("data2", 5), ("data4", 6), ("data8", 7), ("string", 8), ("block", 9),
   ("block1", 0xa), ("data1", 0xb), ("flag", 0xc), ("sdata", 0xd), ("strp", 0xe), ("udata", 0xf), ("ref_addr", 0x10), ("ref1", 0x11),
   ("ref2", 0x12), ("ref4", 0x13), ("ref8", 0x14), ("ref_udata", 0x15), ("indirect", 0x16), ("sec_offset", 0x17), ("exprloc", 0x18),
   ("flag_present", 0x19), ("ref_sig8", 0x20), ("strx", 0x1a), ("addrx", 0x1b), ("ref_sup4", 0x1c), ("strp_sup", 0x1d), ("data16", 0x1e),
   ("line_strp", 0x1f), ("implicit_const", 0x21), ("loclistx", 0x22), ("rnglistx", 0x23), ("ref_sup8", 0x24), ("strx1", 0x25),
   ("strx2", 0x26), ("strx3", 0x27), ("strx4", 0x28), ("addrx1", 0x29), ("addrx2", 0x2a), ("addrx3", 0x2b), ("addrx4", 0x2c),
   ("GNU_addr_index", 0x1f01), ("GNU_str_index", 0x1f02), ("GNU_ref_alt", 0x1f20), ("GNU_strp_alt", 0x1f21)]

/-- The literal of `DW_FORM_NAME_MAP`, `elf.py:685-734`. -/
def formMap : List (Nat × String) :=
  [(0, "DW_FORM_end"), (1, "DW_FORM_addr"), (3, "DW_FORM_block2"), (4, "DW_FORM_block4"), (5, "DW_FORM_data2"), (6, "DW_FORM_data4"),
   (7, "DW_FORM_data8"), (8, "DW_FORM_string"), (9, "DW_FORM_block"), (0xa, "DW_FORM_block1"), (0xb, "DW_FORM_data1"),
   (0xc, "DW_FORM_flag"), (0xd, "DW_FORM_sdata"), (0xe, "DW_FORM_strp"), (0xf, "DW_FORM_udata"), (0x10, "DW_FORM_ref_addr"),
   (0x11, "DW_FORM_ref1"), (0x12, "DW_FORM_ref2"), (0x13, "DW_FORM_ref4"), (0x14, "DW_FORM_ref8"), (0x15, "DW_FORM_ref_udata"),
   (0x16, "DW_FORM_indirect"), (0x17, "DW_FORM_sec_offset"), (0x18, "DW_FORM_exprloc"), (0x19, "DW_FORM_flag_present"),
   (0x20, "DW_FORM_ref_sig8"), (0x1a, "DW_FORM_strx"), (0x1b, "DW_FORM_addrx"), (0x1c, "DW_FORM_ref_sup4"), (0x1d, "DW_FORM_strp_sup"),
   (0x1e, "DW_FORM_data16"), (0x1f, "DW_FORM_line_strp"), (0x21, "DW_FORM_implicit_const"), (0x22, "DW_FORM_loclistx"),
   (0x23, "DW_FORM_rnglistx"), (0x24, "DW_FORM_ref_sup8"), (0x25, "DW_FORM_strx1"), (0x26, "DW_FORM_strx2"), (0x27, "DW_FORM_strx3"),
   (0x28, "DW_FORM_strx4"), (0x29, "DW_FORM_addrx1"), (0x2a, "DW_FORM_addrx2"), (0x2b, "DW_FORM_addrx3"), (0x2c, "DW_FORM_addrx4"),
   (0x1f01, "DW_FORM_GNU_addr_index"), (0x1f02, "DW_FORM_GNU_str_index"), (0x1f20, "DW_FORM_GNU_ref_alt"), (0x1f21, "DW_FORM_GNU_strp_alt")]

/-- `SHT_*`, `elf.py:1148-1184`, without the prefix `SHT_`. -/
def shtConsts : List (String × Nat) :=
  [("NULL", 0), ("PROGBITS", 1), ("SYMTAB", 2), ("STRTAB", 3), ("RELA", 4), ("HASH", 5), ("DYNAMIC", 6), ("NOTE", 7), ("NOBITS", 8),
   ("REL", 9), ("SHLIB", 0xa), ("DYNSYM", 0xb), ("INIT_ARRAY", 0xe), ("FINI_ARRAY", 0xf), ("PREINIT_ARRAY", 0x10), ("GROUP", 0x11),
   ("SYMTAB_SHNDX", 0x12), ("RELR", 0x13), ("NUM", 0x14), ("LOOS", 0x60000000), ("GNU_ATTRIBUTES", 0x6ffffff5), ("GNU_HASH", 0x6ffffff6),
   ("GNU_LIBLIST", 0x6ffffff7), ("CHECKSUM", 0x6ffffff8), ("LOSUNW", 0x6ffffffa), ("SUNW_move", 0x6ffffffa), ("SUNW_COMDAT", 0x6ffffffb),
   ("SUNW_syminfo", 0x6ffffffc), ("GNU_verdef", 0x6ffffffd), ("GNU_verneed", 0x6ffffffe), ("GNU_versym", 0x6fffffff),
   ("HISUNW", 0x6fffffff), ("HIOS", 0x6fffffff), ("LOPROC", 0x70000000), ("HIPROC", 0x7fffffff), ("LOUSER", 0x80000000),
   ("HIUSER", 0x8fffffff)]

/-- The literal of `SHT_NAME_MAP`, `elf.py:1187-1225`. -/
def shtMap : List (Nat × String) :=
  [(0, "NULL"), (1, "PROGBITS"), (2, "SYMTAB"), (3, "STRTAB"), (4, "RELA"), (5, "HASH"), (6, "DYNAMIC"), (7, "NOTE"), (8, "NOBITS"),
   (9, "REL"), (0xa, "SHLIB"), (0xb, "DYNSYM"), (0xe, "INIT_ARRAY"), (0xf, "FINI_ARRAY"), (0x10, "PREINIT_ARRAY"), (0x11, "GROUP"),
   (0x12, "SYMTAB_SHNDX"), (0x13, "RELR"), (0x14, "NUM"), (0x60000000, "LOOS"), (0x6ffffff5, "GNU_ATTRIBUTES"), (0x6ffffff6, "GNU_HASH"),
   (0x6ffffff7, "GNU_LIBLIST"), (0x6ffffff8, "CHECKSUM"), (0x6ffffffa, "LOSUNW"), (0x6ffffffa, "SUNW_move"), (0x6ffffffb, "SUNW_COMDAT"),
   (0x6ffffffc, "SUNW_syminfo"), (0x6ffffffd, "GNU_verdef"), (0x6ffffffe, "GNU_verneed"), (0x6fffffff, "GNU_versym"),
   (0x6fffffff, "HISUNW"), (0x6fffffff, "HIOS"), (0x70000000, "LOPROC"), (0x7fffffff, "HIPROC"), (0x80000000, "LOUSER"),
   (0x8fffffff, "HIUSER")]

/-- `STB_*`, `elf.py:1233-1241`, without the prefix `STB_`. -/
def stbConsts : List (String × Nat) :=
  [("LOCAL", 0), ("GLOBAL", 1), ("WEAK", 2), ("NUM", 3), ("LOOS", 0xa), ("GNU_UNIQUE", 0xa), ("HIOS", 0xc), ("LOPROC", 0xd),
   ("HIPROC", 0xf)]

/-- The literal of `STB_NAME_MAP`, `elf.py:1243-1252`. -/
def stbMap : List (Nat × String) :=
  [(0, "LOCAL"), (1, "GLOBAL"), (2, "WEAK"), (3, "NUM"), (0xa, "LOOS"), (0xc, "HIOS"), (0xd, "LOPROC"), (0xf, "HIPROC")]

/-- `STT_*`, `elf.py:1255-1267`, without the prefix `STT_`. -/
def sttConsts : List (String × Nat) :=
  [("NOTYPE", 0), ("OBJECT", 1), ("FUNC", 2), ("SECTION", 3), ("FILE", 4), ("COMMON", 5), ("TLS", 6), ("NUM", 7), ("LOOS", 0xa),
   ("GNU_IFUNC", 0xa), ("HIOS", 0xc), ("LOPROC", 0xd), ("HIPROC", 0xf)]

/-- The literal of `STT_NAME_MAP`, `elf.py:1269-1282`. -/
def sttMap : List (Nat × String) :=
  [(0, "NOTYPE"), (1, "OBJECT"), (2, "FUNC"), (3, "SECTION"), (4, "FILE"), (5, "COMMON"), (6, "TLS"), (7, "NUM"), (0xa, "LOOS/GNU_IFUNC"),
   (0xc, "HIOS"), (0xd, "LOPROC"), (0xf, "HIPROC")]

/-- `STV_*`, `elf.py:1285-1288`, without the prefix `STV_`. -/
def stvConsts : List (String × Nat) :=
  [("DEFAULT", 0), ("INTERNAL", 1), ("HIDDEN", 2), ("PROTECTED", 3)]

/-- The literal of `STV_NAME_MAP`, `elf.py:1290-1295`. -/
def stvMap : List (Nat × String) :=
  [(0, "DEFAULT"), (1, "INTERNAL"), (2, "HIDDEN"), (3, "PROTECTED")]

/-- A dictionary literal: a later value of a key replaces an earlier one. -/
def nameDict (l : List (Nat × String)) : Dict Nat Str := l.foldl (fun d p => dset d p.1 (str p.2)) []

/-- `M[n] if n in M else f'UNKNOWN {n}'`, `elf.py:197-198,632-633,737-738,1228-1229,1503-1508,1542-1543`. -/
def nameOrUnknown (m : List (Nat × String)) (n : Nat) : Str :=
  match dget (nameDict m) n with
  | some s => s
  | none => str "UNKNOWN " ++ intStr n

/-- `M[n]`, `elf.py:1455-1472`. -/
def nameOrError (m : List (Nat × String)) (n : Nat) : Except Err Str :=
  match dget (nameDict m) n with
  | some s => .ok s
  | none => .error .keyError

end EspSize
