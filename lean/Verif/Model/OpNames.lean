import Verif.Model.ElfNames
/-!
# Names of the operations of DWARF expressions

`/repo/esp_idf_size/elf.py:741-1120`.  The package itself does not use the table.  `DW_OP_deref` is assigned twice, the same
value; it is listed once.
-/
namespace EspSize

/-- `DW_OP_*`, `elf.py:741-930`, without the prefix `DW_OP_`. -/
def opConsts : List (String × Nat) :=
  [("addr", 3), ("deref", 6), ("const1u", 8), ("const1s", 9), ("const2u", 0xa), ("const2s", 0xb), ("const4u", 0xc), ("const4s", 0xd),
   ("const8u", 0xe), ("const8s", 0xf), ("constu", 0x10), ("consts", 0x11), ("dup", 0x12), ("drop", 0x13), ("over", 0x14), ("pick", 0x15),
   ("swap", 0x16), ("rot", 0x17), ("xderef", 0x18), ("abs", 0x19), ("and", 0x1a), ("div", 0x1b), ("minus", 0x1c), ("mod", 0x1d), ("mul", 0x1e),
   ("neg", 0x1f), ("not", 0x20), ("or", 0x21), ("plus", 0x22), ("plus_uconst", 0x23), ("shl", 0x24), ("shr", 0x25), ("shra", 0x26), ("xor", 0x27),
   ("bra", 0x28), ("eq", 0x29), ("ge", 0x2a), ("gt", 0x2b), ("le", 0x2c), ("lt", 0x2d), ("ne", 0x2e), ("skip", 0x2f), ("lit0", 0x30), ("lit1", 0x31),
   ("lit2", 0x32), ("lit3", 0x33), ("lit4", 0x34), ("lit5", 0x35), ("lit6", 0x36), ("lit7", 0x37), ("lit8", 0x38), ("lit9", 0x39), ("lit10", 0x3a),
   ("lit11", 0x3b), ("lit12", 0x3c), ("lit13", 0x3d), ("lit14", 0x3e), ("lit15", 0x3f), ("lit16", 0x40), ("lit17", 0x41), ("lit18", 0x42),
   ("lit19", 0x43), ("lit20", 0x44), ("lit21", 0x45), ("lit22", 0x46), ("lit23", 0x47), ("lit24", 0x48), ("lit25", 0x49), ("lit26", 0x4a),
   ("lit27", 0x4b), ("lit28", 0x4c), ("lit29", 0x4d), ("lit30", 0x4e), ("lit31", 0x4f), ("reg0", 0x50), ("reg1", 0x51), ("reg2", 0x52),
   ("reg3", 0x53), ("reg4", 0x54), ("reg5", 0x55), ("reg6", 0x56), ("reg7", 0x57), ("reg8", 0x58), ("reg9", 0x59), ("reg10", 0x5a), ("reg11", 0x5b),
   ("reg12", 0x5c), ("reg13", 0x5d), ("reg14", 0x5e), ("reg15", 0x5f), ("reg16", 0x60), ("reg17", 0x61), ("reg18", 0x62), ("reg19", 0x63),
   ("reg20", 0x64), ("reg21", 0x65), ("reg22", 0x66), ("reg23", 0x67), ("reg24", 0x68), ("reg25", 0x69), ("reg26", 0x6a), ("reg27", 0x6b),
   ("reg28", 0x6c), ("reg29", 0x6d), ("reg30", 0x6e), ("reg31", 0x6f), ("breg0", 0x70), ("breg1", 0x71), ("breg2", 0x72), ("breg3", 0x73),
   ("breg4", 0x74), ("breg5", 0x75), ("breg6", 0x76), ("breg7", 0x77), ("breg8", 0x78), ("breg9", 0x79), ("breg10", 0x7a), ("breg11", 0x7b),
   ("breg12", 0x7c), ("breg13", 0x7d), ("breg14", 0x7e), ("breg15", 0x7f), ("breg16", 0x80), ("breg17", 0x81), ("breg18", 0x82), ("breg19", 0x83),
   ("breg20", 0x84), ("breg21", 0x85), ("breg22", 0x86), ("breg23", 0x87), ("breg24", 0x88), ("breg25", 0x89), ("breg26", 0x8a), ("breg27", 0x8b),
   ("breg28", 0x8c), ("breg29", 0x8d), ("breg30", 0x8e), ("breg31", 0x8f), ("regx", 0x90), ("fbreg", 0x91), ("bregx", 0x92), ("piece", 0x93),
   ("deref_size", 0x94), ("xderef_size", 0x95), ("nop", 0x96), ("push_object_address", 0x97), ("call2", 0x98), ("call4", 0x99), ("call_ref", 0x9a),
   ("form_tls_address", 0x9b), ("call_frame_cfa", 0x9c), ("bit_piece", 0x9d), ("implicit_value", 0x9e), ("stack_value", 0x9f),
   ("implicit_pointer", 0xa0), ("addrx", 0xa1), ("constx", 0xa2), ("entry_value", 0xa3), ("const_type", 0xa4), ("regval_type", 0xa5),
   ("deref_type", 0xa6), ("xderef_type", 0xa7), ("convert", 0xa8), ("reinterpret", 0xa9), ("lo_user", 0xe0), ("hi_user", 0xff),
   ("GNU_push_tls_address", 0xe0), ("GNU_uninit", 0xf0), ("GNU_encoded_addr", 0xf1), ("GNU_implicit_pointer", 0xf2), ("GNU_entry_value", 0xf3),
   ("GNU_const_type", 0xf4), ("GNU_regval_type", 0xf5), ("GNU_deref_type", 0xf6), ("GNU_convert", 0xf7), ("GNU_reinterpret", 0xf9),
   ("GNU_parameter_ref", 0xfa), ("GNU_addr_index", 0xfb), ("GNU_const_index", 0xfc), ("GNU_variable_value", 0xfd), ("HP_unknown", 0xe0),
   ("HP_is_value", 0xe1), ("HP_fltconst4", 0xe2), ("HP_fltconst8", 0xe3), ("HP_mod_range", 0xe4), ("HP_unmod_range", 0xe5), ("HP_tls", 0xe6),
   ("PGI_omp_thread_num", 0xf8), ("AARCH64_operation", 0xea)]

/-- The literal of `DW_OP_NAME_MAP`, `elf.py:932-1120`. -/
def opMap : List (Nat × String) :=
  [(3, "DW_OP_addr"), (6, "DW_OP_deref"), (8, "DW_OP_const1u"), (9, "DW_OP_const1s"), (0xa, "DW_OP_const2u"), (0xb, "DW_OP_const2s"),
   (0xc, "DW_OP_const4u"), (0xd, "DW_OP_const4s"), (0xe, "DW_OP_const8u"), (0xf, "DW_OP_const8s"), (0x10, "DW_OP_constu"), (0x11, "DW_OP_consts"),
   (0x12, "DW_OP_dup"), (0x13, "DW_OP_drop"), (0x14, "DW_OP_over"), (0x15, "DW_OP_pick"), (0x16, "DW_OP_swap"), (0x17, "DW_OP_rot"),
   (0x18, "DW_OP_xderef"), (0x19, "DW_OP_abs"), (0x1a, "DW_OP_and"), (0x1b, "DW_OP_div"), (0x1c, "DW_OP_minus"), (0x1d, "DW_OP_mod"),
   (0x1e, "DW_OP_mul"), (0x1f, "DW_OP_neg"), (0x20, "DW_OP_not"), (0x21, "DW_OP_or"), (0x22, "DW_OP_plus"), (0x23, "DW_OP_plus_uconst"),
   (0x24, "DW_OP_shl"), (0x25, "DW_OP_shr"), (0x26, "DW_OP_shra"), (0x27, "DW_OP_xor"), (0x28, "DW_OP_bra"), (0x29, "DW_OP_eq"), (0x2a, "DW_OP_ge"),
   (0x2b, "DW_OP_gt"), (0x2c, "DW_OP_le"), (0x2d, "DW_OP_lt"), (0x2e, "DW_OP_ne"), (0x2f, "DW_OP_skip"), (0x30, "DW_OP_lit0"), (0x31, "DW_OP_lit1"),
   (0x32, "DW_OP_lit2"), (0x33, "DW_OP_lit3"), (0x34, "DW_OP_lit4"), (0x35, "DW_OP_lit5"), (0x36, "DW_OP_lit6"), (0x37, "DW_OP_lit7"),
   (0x38, "DW_OP_lit8"), (0x39, "DW_OP_lit9"), (0x3a, "DW_OP_lit10"), (0x3b, "DW_OP_lit11"), (0x3c, "DW_OP_lit12"), (0x3d, "DW_OP_lit13"),
   (0x3e, "DW_OP_lit14"), (0x3f, "DW_OP_lit15"), (0x40, "DW_OP_lit16"), (0x41, "DW_OP_lit17"), (0x42, "DW_OP_lit18"), (0x43, "DW_OP_lit19"),
   (0x44, "DW_OP_lit20"), (0x45, "DW_OP_lit21"), (0x46, "DW_OP_lit22"), (0x47, "DW_OP_lit23"), (0x48, "DW_OP_lit24"), (0x49, "DW_OP_lit25"),
   (0x4a, "DW_OP_lit26"), (0x4b, "DW_OP_lit27"), (0x4c, "DW_OP_lit28"), (0x4d, "DW_OP_lit29"), (0x4e, "DW_OP_lit30"), (0x4f, "DW_OP_lit31"),
   (0x50, "DW_OP_reg0"), (0x51, "DW_OP_reg1"), (0x52, "DW_OP_reg2"), (0x53, "DW_OP_reg3"), (0x54, "DW_OP_reg4"), (0x55, "DW_OP_reg5"),
   (0x56, "DW_OP_reg6"), (0x57, "DW_OP_reg7"), (0x58, "DW_OP_reg8"), (0x59, "DW_OP_reg9"), (0x5a, "DW_OP_reg10"), (0x5b, "DW_OP_reg11"),
   (0x5c, "DW_OP_reg12"), (0x5d, "DW_OP_reg13"), (0x5e, "DW_OP_reg14"), (0x5f, "DW_OP_reg15"), (0x60, "DW_OP_reg16"), (0x61, "DW_OP_reg17"),
   (0x62, "DW_OP_reg18"), (0x63, "DW_OP_reg19"), (0x64, "DW_OP_reg20"), (0x65, "DW_OP_reg21"), (0x66, "DW_OP_reg22"), (0x67, "DW_OP_reg23"),
   (0x68, "DW_OP_reg24"), (0x69, "DW_OP_reg25"), (0x6a, "DW_OP_reg26"), (0x6b, "DW_OP_reg27"), (0x6c, "DW_OP_reg28"), (0x6d, "DW_OP_reg29"),
   (0x6e, "DW_OP_reg30"), (0x6f, "DW_OP_reg31"), (0x70, "DW_OP_breg0"), (0x71, "DW_OP_breg1"), (0x72, "DW_OP_breg2"), (0x73, "DW_OP_breg3"),
   (0x74, "DW_OP_breg4"), (0x75, "DW_OP_breg5"), (0x76, "DW_OP_breg6"), (0x77, "DW_OP_breg7"), (0x78, "DW_OP_breg8"), (0x79, "DW_OP_breg9"),
   (0x7a, "DW_OP_breg10"), (0x7b, "DW_OP_breg11"), (0x7c, "DW_OP_breg12"), (0x7d, "DW_OP_breg13"), (0x7e, "DW_OP_breg14"), (0x7f, "DW_OP_breg15"),
   (0x80, "DW_OP_breg16"), (0x81, "DW_OP_breg17"), (0x82, "DW_OP_breg18"), (0x83, "DW_OP_breg19"), (0x84, "DW_OP_breg20"), (0x85, "DW_OP_breg21"),
   (0x86, "DW_OP_breg22"), (0x87, "DW_OP_breg23"), (0x88, "DW_OP_breg24"), (0x89, "DW_OP_breg25"), (0x8a, "DW_OP_breg26"), (0x8b, "DW_OP_breg27"),
   (0x8c, "DW_OP_breg28"), (0x8d, "DW_OP_breg29"), (0x8e, "DW_OP_breg30"), (0x8f, "DW_OP_breg31"), (0x90, "DW_OP_regx"), (0x91, "DW_OP_fbreg"),
   (0x92, "DW_OP_bregx"), (0x93, "DW_OP_piece"), (0x94, "DW_OP_deref_size"), (0x95, "DW_OP_xderef_size"), (0x96, "DW_OP_nop"),
   (0x97, "DW_OP_push_object_address"), (0x98, "DW_OP_call2"), (0x99, "DW_OP_call4"), (0x9a, "DW_OP_call_ref"), (0x9b, "DW_OP_form_tls_address"),
   (0x9c, "DW_OP_call_frame_cfa"), (0x9d, "DW_OP_bit_piece"), (0x9e, "DW_OP_implicit_value"), (0x9f, "DW_OP_stack_value"),
   (0xa0, "DW_OP_implicit_pointer"), (0xa1, "DW_OP_addrx"), (0xa2, "DW_OP_constx"), (0xa3, "DW_OP_entry_value"), (0xa4, "DW_OP_const_type"),
   (0xa5, "DW_OP_regval_type"), (0xa6, "DW_OP_deref_type"), (0xa7, "DW_OP_xderef_type"), (0xa8, "DW_OP_convert"), (0xa9, "DW_OP_reinterpret"),
   (0xe0, "DW_OP_lo_user/DW_OP_GNU_push_tls_address/DW_OP_HP_unknown"), (0xff, "DW_OP_hi_user"), (0xf0, "DW_OP_GNU_uninit"),
   (0xf1, "DW_OP_GNU_encoded_addr"), (0xf2, "DW_OP_GNU_implicit_pointer"), (0xf3, "DW_OP_GNU_entry_value"), (0xf4, "DW_OP_GNU_const_type"),
   (0xf5, "DW_OP_GNU_regval_type"), (0xf6, "DW_OP_GNU_deref_type"), (0xf7, "DW_OP_GNU_convert"), (0xf9, "DW_OP_GNU_reinterpret"),
   (0xfa, "DW_OP_GNU_parameter_ref"), (0xfb, "DW_OP_GNU_addr_index"), (0xfc, "DW_OP_GNU_const_index"), (0xfd, "DW_OP_GNU_variable_value"),
   (0xe1, "DW_OP_HP_is_value"), (0xe2, "DW_OP_HP_fltconst4"), (0xe3, "DW_OP_HP_fltconst8"), (0xe4, "DW_OP_HP_mod_range"),
   (0xe5, "DW_OP_HP_unmod_range"), (0xe6, "DW_OP_HP_tls"), (0xf8, "DW_OP_PGI_omp_thread_num"), (0xea, "DW_OP_AARCH64_operation")]

end EspSize
