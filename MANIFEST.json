{
 "claims": [
  {
   "property": "C01",
   "status": "proved",
   "theorems": [
    "EspSize.C01_diff_pointwise"
   ],
   "note": "for all well-formed (distinct-key) maps; diff also shown never to raise"
  },
  {
   "property": "C02",
   "status": "proved",
   "theorems": [
    "EspSize.C02_diff_union",
    "EspSize.C01_diff_pointwise"
   ],
   "note": "key order and abbreviated names at every level; presence iff is part of DiffAt in C01"
  },
  {
   "property": "C03",
   "status": "proved",
   "theorems": [
    "EspSize.C03_diff_self",
    "EspSize.C03_diff_antisymm"
   ],
   "note": ""
  },
  {
   "property": "C04",
   "status": "proved",
   "theorems": [
    "EspSize.C04_unify_aggregates",
    "EspSize.C04_unify_totals"
   ],
   "note": ""
  },
  {
   "property": "C05",
   "status": "proved",
   "theorems": [
    "EspSize.C05_unify_keys",
    "EspSize.C05_unify_idem"
   ],
   "note": ""
  },
  {
   "property": "C06",
   "status": "proved",
   "theorems": [
    "EspSize.C06_unify_diff_commute"
   ],
   "note": "hypothesis: abbreviated names are a function of full names (holds for maps built by get)"
  },
  {
   "property": "C07",
   "status": "proved",
   "theorems": [
    "EspSize.C07_sort_stable",
    "EspSize.C07_summary_sorted"
   ],
   "note": ""
  },
  {
   "property": "C08",
   "status": "partial",
   "theorems": [
    "EspSize.C08_remove_unused_partial",
    "EspSize.C08_zero_used_remains"
   ],
   "note": "Proved: exactly the used types remain, with exactly their sections that have archives, used being their sum. Violated: the expectation that no remaining type has used = 0, and with it idempotence; a type all of whose sections have no archives remains with used = 0 (C08_zero_used_remains)."
  },
  {
   "property": "C09",
   "status": "partial",
   "theorems": [
    "EspSize.C09_ignore_flash_size",
    "EspSize.C09_self_diff_partial",
    "EspSize.C09_self_diff_nonzero"
   ],
   "note": "code violates: flash sizes are zeroed only in the current map when a reference is given"
  },
  {
   "property": "C10",
   "status": "partial",
   "theorems": [
    "EspSize.C10_trim_partial",
    "EspSize.C10_hidden_changes"
   ],
   "note": "code violates: changes below an entry whose total is unchanged are dropped"
  },
  {
   "property": "C11",
   "status": "proved",
   "theorems": [
    "EspSize.C11_archives_summary",
    "EspSize.C11_names"
   ],
   "note": ""
  },
  {
   "property": "C12",
   "status": "partial",
   "theorems": [
    "EspSize.C12_files_summary_partial",
    "EspSize.C12_entries",
    "EspSize.C12_unify_section_lost"
   ],
   "note": "names, totals and sizes per memory type of every entry proved always; per-section sizes when report keys do not collide; code violates it for collisions under --unify"
  },
  {
   "property": "C13",
   "status": "partial",
   "theorems": [
    "EspSize.C13_symbols_summary_partial",
    "EspSize.C13_entries",
    "EspSize.C13_present_not_found",
    "EspSize.C13_unify_section_lost"
   ],
   "note": "code violates: an archive in the map without symbols is reported as not found; sections of colliding keys under --unify"
  },
  {
   "property": "C14",
   "status": "proved",
   "theorems": [
    "EspSize.C14_covered_region",
    "EspSize.C14_split_regions"
   ],
   "note": "regions of non-negative length"
  },
  {
   "property": "C15",
   "status": "partial",
   "theorems": [
    "EspSize.C15_terminates_iff",
    "EspSize.C15_ends_iff",
    "EspSize.C15_terminates_partial",
    "EspSize.C15_diverges"
   ],
   "note": "code violates it: exact termination criterion proved, with a concrete non-terminating input"
  },
  {
   "property": "C16",
   "status": "partial",
   "theorems": [
    "EspSize.C16_sizes_partial",
    "EspSize.C16_partial_alias"
   ],
   "note": "Exact size and plain bound without conditions; physical bound needs physically disjoint regions: views of different length are counted twice (counterexample proved)."
  },
  {
   "property": "C17",
   "status": "proved",
   "theorems": [
    "EspSize.C17_accounted"
   ],
   "note": "Conservation through splitting and the memory type map."
  },
  {
   "property": "C18",
   "status": "partial",
   "theorems": [
    "EspSize.C18_used_partial",
    "EspSize.C18_entries",
    "EspSize.C18_same_name_lost"
   ],
   "note": "Parts of one output section in the same memory type overwrite each other while used counts all (counterexample proved)."
  },
  {
   "property": "C19",
   "status": "proved",
   "theorems": [
    "EspSize.C19_split_sections",
    "EspSize.C19_total"
   ],
   "note": ""
  },
  {
   "property": "C20",
   "status": "proved",
   "theorems": [
    "EspSize.C20_filter"
   ],
   "note": "An ELF without any loaded named section falls back to the names, as the code does."
  },
  {
   "property": "C21",
   "status": "partial",
   "theorems": [
    "EspSize.C21_image_size_elf_partial",
    "EspSize.C21_image_size_no_elf",
    "EspSize.C21_duplicate_names"
   ],
   "note": "Loaded ELF sections with the same name are counted once (counterexample proved)."
  },
  {
   "property": "C22",
   "status": "proved",
   "theorems": [
    "EspSize.C22_inside",
    "EspSize.C22_complete",
    "EspSize.addSymbols_exact"
   ],
   "note": "The exact result, including when it fails, is addSymbols_exact."
  },
  {
   "property": "C23",
   "status": "proved",
   "theorems": [
    "EspSize.C23_archives"
   ],
   "note": "Sizes of archives and object files of every output section."
  },
  {
   "property": "C24",
   "status": "proved",
   "theorems": [
    "EspSize.C24_external_ram",
    "EspSize.C24_entry"
   ],
   "note": ""
  },
  {
   "property": "C25",
   "status": "partial",
   "theorems": [
    "EspSize.C25_overflow_partial",
    "EspSize.C25_above_all",
    "EspSize.C25_below_all"
   ],
   "note": "Needs a region above the section; sections above all regions are not accounted and sections below all are accounted to a region above (counterexamples proved)."
  },
  {
   "property": "C26",
   "status": "partial",
   "theorems": [
    "EspSize.C26_expand_partial",
    "EspSize.C26_total_partial",
    "EspSize.C26_tail_lost",
    "EspSize.C26_fill_overwritten",
    "EspSize.expandSymbols_ok"
   ],
   "note": "Needs a symbol behind the input section; otherwise its rest is dropped (counterexample proved). An empty input section overwrites padding (counterexample proved)."
  },
  {
   "property": "C27",
   "status": "proved",
   "theorems": [
    "EspSize.C27_round_trip",
    "EspSize.C27_rejected",
    "EspSize.C27_no_header"
   ],
   "note": "Memory Configuration text is read back; other field counts and missing headers are MapFileException."
  },
  {
   "property": "C28",
   "status": "partial",
   "theorems": [
    "EspSize.C28_split_partial",
    "EspSize.C28_no_paren",
    "EspSize.C28_parenthesis"
   ],
   "note": "Exact for archive paths without '('; false for paths with '(' (C28_parenthesis)."
  },
  {
   "property": "C29",
   "status": "partial",
   "theorems": [
    "EspSize.C29_sections_partial",
    "EspSize.C29_no_table_partial",
    "EspSize.C29_tidy",
    "EspSize.C29_padding_bound",
    "EspSize.C29_before",
    "EspSize.C29_no_listing",
    "EspSize.C29_fill_lost",
    "EspSize.C29_fill_expected",
    "EspSize.C29_fill_wrong",
    "EspSize.C29_unclosed_lost"
   ],
   "note": "Round trip for any listing in which an uncounted section has at most one *fill*; the closure variable bug breaks the rest (C29_fill_lost, C29_fill_wrong). Lines before the listing are ignored, files without one rejected."
  },
  {
   "property": "C30",
   "status": "partial",
   "theorems": [
    "EspSize.C30_errors_partial",
    "EspSize.C30_regions_partial",
    "EspSize.C30_sections_partial",
    "EspSize.C30_value_error",
    "EspSize.C30_type_error",
    "EspSize.C30_name_error",
    "EspSize.C30_index_error"
   ],
   "note": "Exactly five exception kinds are possible; the four undocumented ones are shown possible."
  },
  {
   "property": "C31",
   "status": "proved",
   "theorems": [
    "EspSize.C31_inside",
    "EspSize.C31_once",
    "EspSize.C31_padding"
   ],
   "note": "Invariant of the parser for all texts."
  },
  {
   "property": "C32",
   "status": "proved",
   "theorems": [
    "EspSize.C32_validate_all",
    "EspSize.C32_parsed",
    "EspSize.C32_validate",
    "EspSize.C32_disjoint",
    "EspSize.C32_type_error"
   ],
   "note": "C32_validate_all: for all lists of sections, with the exact exception; C32_validate is the form for known addresses. A first section printed without address gives TypeError (C32_parsed, C32_type_error)."
  },
  {
   "property": "C33",
   "status": "proved",
   "theorems": [
    "EspSize.C33_round_trip",
    "EspSize.C33_no_table",
    "EspSize.C33_duplicate_lost"
   ],
   "note": "Distinct symbols as in the property."
  },
  {
   "property": "C34",
   "status": "proved",
   "theorems": [
    "EspSize.C34_target",
    "EspSize.C34_no_target",
    "EspSize.C34_error",
    "EspSize.C34_detect",
    "EspSize.C34_detect_none",
    "EspSize.C34_detect_cmake_any",
    "EspSize.C34_detect_cmake",
    "EspSize.C34_detect_make"
   ],
   "note": "target of the result, exception without target, detection in the three forms"
  },
  {
   "property": "C35",
   "status": "proved",
   "theorems": [
    "EspSize.C35_report",
    "EspSize.C35_dual",
    "EspSize.C35_requires",
    "EspSize.C35_table_ok"
   ],
   "note": "complete description of the report up to key order, duality for independent set orders, assumptions hold for every parsed table"
  },
  {
   "property": "C36",
   "status": "partial",
   "theorems": [
    "EspSize.C36_deterministic_partial",
    "EspSize.C36_order_visible"
   ],
   "note": "contents deterministic; the order of keys follows the set iteration order, witness for both directions (code violates the property)"
  },
  {
   "property": "C37",
   "status": "partial",
   "theorems": [
    "EspSize.C37_dot",
    "EspSize.C37_dot_output",
    "EspSize.C37_text_partial",
    "EspSize.C37_graph_partial",
    "EspSize.C37_only_dependencies",
    "EspSize.C37_quotes_break"
   ],
   "note": "Reading of the text printed proved for names (and paths) without a quote, a markup tag, a line break after a backslash and a backslash at the end; brackets such as operator[] and backslashes are allowed. Violation proved (C37_quotes_break): names are put between quotes without escaping, so a symbol with a quote in its name makes a text that is no graph."
  },
  {
   "property": "C38",
   "status": "proved",
   "theorems": [
    "EspSize.C38_fnmatch",
    "EspSize.C38_pattern",
    "EspSize.C38_substring",
    "EspSize.C38_filter"
   ],
   "note": "fnmatch modelled as tokens, with the bracket expressions of CPython 3.11 and 3.12; its patterns are specified by a grammar of their own (GlobMatches)"
  },
  {
   "property": "C39",
   "status": "proved",
   "theorems": [
    "EspSize.C39_archives_table",
    "EspSize.C39_files_table",
    "EspSize.C39_symbols_table",
    "EspSize.C39_no_rows_accepts_invalid"
   ],
   "note": "cells in text table form (color/diff markup as produced by the formatter); an invalid column number is accepted when the filter leaves no row"
  },
  {
   "property": "C40",
   "status": "partial",
   "theorems": [
    "EspSize.C40_summary_table_partial",
    "EspSize.C40_sorted_by_value",
    "EspSize.C40_percent_not_sorted",
    "EspSize.C40_rows"
   ],
   "note": "proved for the used, remain and total columns; percentages are sorted only by their integer part (sort_dict_by_key truncates), which C40_percent_not_sorted shows; float arithmetic is a parameter"
  },
  {
   "property": "C41",
   "status": "partial",
   "theorems": [
    "EspSize.C41_csv_read_partial",
    "EspSize.C41_detail_csv_partial",
    "EspSize.C41_quote_breaks"
   ],
   "note": "for names and titles with neither a quote nor markup (C64: brackets that can be taken for a tag); fails for names with quotes (not doubled in the output); console wrapping not modelled"
  },
  {
   "property": "C42",
   "status": "partial",
   "theorems": [
    "EspSize.C42_json_summary_partial",
    "EspSize.C42_json_no_abbrev",
    "EspSize.C42_parts_lost"
   ],
   "note": "holds when printed section names are distinct within each memory type (always with no_abbrev); fails for sections abbreviated alike"
  },
  {
   "property": "C43",
   "status": "partial",
   "theorems": [
    "EspSize.C43_output_file_partial",
    "EspSize.C43_no_output_file",
    "EspSize.C43_truncated",
    "EspSize.C43_handled"
   ],
   "note": "Holds for every failure before or while creating the directory and opening the file, and for every success. Violated for a failure while the bytes are written: the file is truncated when it is opened (C43_truncated). The file system is a function from paths to contents; directories are not recorded."
  },
  {
   "property": "C44",
   "status": "partial",
   "theorems": [
    "EspSize.C44_unify_abbrev",
    "EspSize.C44_abbrev",
    "EspSize.C44_dependencies_no_diff",
    "EspSize.C44_dwarf_partial",
    "EspSize.C44_formatter",
    "EspSize.C44_dwarf_for_summary",
    "EspSize.C44_consulted"
   ],
   "note": "All parts proved, except that DWARF is not consulted for a summary when neither --lto nor --no-lto is given: violated for link-time optimised projects (C44_dwarf_for_summary)."
  },
  {
   "property": "C45",
   "status": "proved",
   "theorems": [
    "EspSize.C45_uleb_decode",
    "EspSize.C45_uleb_any",
    "EspSize.uleb_exists",
    "EspSize.uleb_unique"
   ],
   "note": "All numbers, paddings, positions; failure only when the data ends."
  },
  {
   "property": "C46",
   "status": "partial",
   "theorems": [
    "EspSize.C46_sleb_partial",
    "EspSize.C46_sleb_start",
    "EspSize.C46_sleb_wrong",
    "EspSize.sleb_exists"
   ],
   "note": "The offset is always right. The value is right exactly if bit 6 of the byte before the number (at the start the last byte of the data) is the sign, and off by a power of 2 otherwise; violated (C46_sleb_wrong)."
  },
  {
   "property": "C47",
   "status": "partial",
   "theorems": [
    "EspSize.C47_uint",
    "EspSize.C47_sint",
    "EspSize.C47_open_partial",
    "EspSize.C47_length",
    "EspSize.C47_symbols",
    "EspSize.symOf_enc",
    "EspSize.C47_short_file"
   ],
   "note": "Proved for both classes and byte orders for files of at least the number of bytes the program needs: 76 where long has 8 bytes, 52 or 64 where it has 4 (C47_length, which also proves that every shorter file is rejected). So a shorter complete ELF file is rejected (C47_short_file). Section header entry size assumed to be the standard one; program headers and other entry sizes are in C97."
  },
  {
   "property": "C48",
   "status": "proved",
   "theorems": [
    "EspSize.C48_lookup",
    "EspSize.C48_fails",
    "EspSize.C48_name"
   ],
   "note": "All tables and indices, including UTF-8 decoding of names."
  },
  {
   "property": "C49",
   "status": "partial",
   "theorems": [
    "EspSize.C49_units",
    "EspSize.C49_tile",
    "EspSize.C49_any",
    "EspSize.C49_first_entry_partial",
    "EspSize.C49_type_unit"
   ],
   "note": "Units are found and tile the section for all well-formed contents; the walk terminates for any contents. Violated: the position of the first entry of DWARF 5 type, skeleton and split units is wrong (C49_type_unit); C49_first_entry_partial covers the other units."
  },
  {
   "property": "C50",
   "status": "partial",
   "theorems": [
    "EspSize.C50_form_partial",
    "EspSize.C50_implicit",
    "EspSize.C50_unsupported",
    "EspSize.C50_ref_sig8",
    "EspSize.C50_ref_addr_v2",
    "EspSize.C50_cut_number",
    "EspSize.C50_cut_ref",
    "EspSize.C50_cut_block",
    "EspSize.C50_cut_ublock",
    "EspSize.C50_cut_leb",
    "EspSize.C50_cut_string"
   ],
   "note": "Proved for the supported forms, and for values cut off at the end of the data (C50_cut_*: numbers, references and blocks are not rejected). Violated for ref_sig8 (1 byte instead of 8) and ref_addr in DWARF 2. addrx and indirect are rejected."
  },
  {
   "property": "C51",
   "status": "partial",
   "theorems": [
    "EspSize.C51_text_partial",
    "EspSize.C51_eval_twice",
    "EspSize.C51_eval_then_text",
    "EspSize.C51_address",
    "EspSize.C51_string",
    "EspSize.C51_strp",
    "EspSize.C51_empty_location",
    "EspSize.C51_shown"
   ],
   "note": "Violated: the second evaluation, and the text after an evaluation, raise KeyError (C51_eval_twice, C51_eval_then_text); the text is repeatable (C51_text_partial) and is exactly described (C51_shown). Evaluation of addresses and strings is right; an empty location raises Elf_Exception."
  },
  {
   "property": "C52",
   "status": "partial",
   "theorems": [
    "EspSize.C52_tables",
    "EspSize.C52_found_partial",
    "EspSize.C52_unique_partial",
    "EspSize.C52_shadowed",
    "EspSize.C52_listed",
    "EspSize.C52_no_region",
    "EspSize.C52_size_zero",
    "EspSize.C52_ext_ram",
    "EspSize.C52_s3_run"
   ],
   "note": "Tables checked whole by decide +kernel, lifted to all addresses by findType_at and findType_before. Against the property: ten memory types of seven chips share all windows with an earlier entry, no address leads to them (C52_shadowed), so no region is ever theirs and their size is always 0 (C52_size_zero); on four chips this is the external RAM type, to which sections are moved by name (C52_ext_ram, C52_s3_run)."
  },
  {
   "property": "C53",
   "status": "partial",
   "theorems": [
    "EspSize.C53_map_file_partial",
    "EspSize.C53_sections_partial",
    "EspSize.C53_elf_ignored",
    "EspSize.C53_elf_lost"
   ],
   "note": "violated for elf: the argument is overwritten (line 198); proved for map_file"
  },
  {
   "property": "C54",
   "status": "proved",
   "theorems": [
    "EspSize.C54_walk_order",
    "EspSize.C54_walk_mem"
   ],
   "note": ""
  },
  {
   "property": "C55",
   "status": "partial",
   "theorems": [
    "EspSize.C55_symbols_partial",
    "EspSize.C55_same_name_lost"
   ],
   "note": "Symbols with the same name in one object file overwrite each other (counterexample proved)."
  },
  {
   "property": "C56",
   "status": "partial",
   "theorems": [
    "EspSize.C56_no_holes_partial",
    "EspSize.C56_tail_empty",
    "EspSize.C56_no_elf"
   ],
   "note": "Input sections behind the last sized symbol get none (counterexample proved)."
  },
  {
   "property": "C57",
   "status": "partial",
   "theorems": [
    "EspSize.C57_component_partial",
    "EspSize.C57_posix",
    "EspSize.C57_relative",
    "EspSize.C57_objectFile",
    "EspSize.C57_prefix",
    "EspSize.C57_dot"
   ],
   "note": "For all spellings of paths. Directories are compared as string prefixes of their texts, without separator, and '.' contains no path (counterexamples proved); the theorem needs that the texts tell the directories."
  },
  {
   "property": "C58",
   "status": "proved",
   "theorems": [
    "EspSize.C58_accounted"
   ],
   "note": "composition of the whole pipeline of get"
  },
  {
   "property": "C59",
   "status": "partial",
   "theorems": [
    "EspSize.C59_errors_partial",
    "EspSize.C59_index_error",
    "EspSize.C59_key_error",
    "EspSize.C30_value_error",
    "EspSize.C30_type_error",
    "EspSize.C30_name_error"
   ],
   "note": "violated: five other exceptions escape; proved that there are no more"
  },
  {
   "property": "C60",
   "status": "partial",
   "theorems": [
    "EspSize.C60_inside_partial",
    "EspSize.C60_outside"
   ],
   "note": "violated: the target of a map file may contain slashes"
  },
  {
   "property": "C61",
   "status": "partial",
   "theorems": [
    "EspSize.C61_archive_report_partial"
   ],
   "note": "when no two parts collide and all are assigned"
  },
  {
   "property": "C62",
   "status": "partial",
   "theorems": [
    "EspSize.C62_unify_no_deps",
    "EspSize.C62_unify_hides"
   ],
   "note": "code violates the property; the general failure is proved"
  },
  {
   "property": "C63",
   "status": "partial",
   "theorems": [
    "EspSize.C63_no_differences_partial",
    "EspSize.C63_self_compare_partial",
    "EspSize.C63_self_compare_flash_size",
    "EspSize.C63_self_compare_nonzero",
    "EspSize.C63_sort_fails"
   ],
   "note": "C63_no_differences_partial: every format, listing and option; a report shows zero for every difference, and without --show-unchanged no row. Missing (violations): the raw report gives minus the total for the totals of flash types without --use-flash-size (C63_self_compare_nonzero); with no rows left, sorting by the name of a section or type fails (C63_sort_fails). A total that is ignored (size 0) is not printed by the tables, so its difference is left out."
  },
  {
   "property": "C64",
   "status": "partial",
   "theorems": [
    "EspSize.C64_verbatim_partial",
    "EspSize.C64_brackets_lost",
    "EspSize.C64_report_loses_name",
    "EspSize.C64_verbatim_iff",
    "EspSize.C64_shorter"
   ],
   "note": "Exact: a name is shown verbatim if and only if it has neither text that looks like a markup tag nor an escaped bracket (C64_verbatim_iff), otherwise shorter (C64_shorter). Violated by the others, because the formatters do not escape names."
  },
  {
   "property": "C65",
   "status": "proved",
   "theorems": [
    "EspSize.C65_dependency_table",
    "EspSize.C65_filter"
   ],
   "note": ""
  },
  {
   "property": "C66",
   "status": "partial",
   "theorems": [
    "EspSize.C66_abbrevs",
    "EspSize.C66_entries_partial",
    "EspSize.C66_dead_branch",
    "EspSize.C66_codes",
    "EspSize.C66_implicit_negative"
   ],
   "note": "Round trip proved if codes are numbered 1, 2, 3, ... and forms are supported; for sdata the number read may have the other sign (C46), for loclistx and rnglistx None is read (ValueRead). Violated for other codes (C66_codes) and negative implicit constants."
  },
  {
   "property": "C67",
   "status": "partial",
   "theorems": [
    "EspSize.C67_names",
    "EspSize.C67_symbols",
    "EspSize.C67_entries_partial",
    "EspSize.C67_address",
    "EspSize.C67_unit_name",
    "EspSize.C67_partial_unit"
   ],
   "note": "C67_names holds for every ELF file on which the function returns; C67_entries_partial links the entries to encoded units. Violated: KeyError for partial units (C67_partial_unit)."
  },
  {
   "property": "C68",
   "status": "partial",
   "theorems": [
    "EspSize.C68_text_partial",
    "EspSize.C68_documents_partial",
    "EspSize.C68_distinct",
    "EspSize.C68_brackets_lost",
    "EspSize.C68_unify_null",
    "EspSize.C68_grammar_partial"
   ],
   "note": "Names without markup (such as operator[] or a[1]). The text goes through rich markup, which removes what looks like a tag (violation, C68_brackets_lost). After unify every symbol has an undocumented member named null (C68_unify_null)."
  },
  {
   "property": "C69",
   "status": "partial",
   "theorems": [
    "EspSize.C69_map_tree_partial",
    "EspSize.C69_deps_tree_partial",
    "EspSize.C69_labels_distinct",
    "EspSize.C69_type_labels_distinct",
    "EspSize.C69_brackets_lost"
   ],
   "note": "Node by node for names without markup; other names lose what looks like a markup tag (violation, C69_brackets_lost). Type labels are unique for names without a slash. Drawing of the guides is not modelled."
  },
  {
   "property": "C70",
   "status": "partial",
   "theorems": [
    "EspSize.C70_map_file_partial",
    "EspSize.C70_print_parse_partial"
   ],
   "note": "for paddings of the form SimplePads (the code loses other paddings, see C29)"
  },
  {
   "property": "C71",
   "status": "partial",
   "theorems": [
    "EspSize.C71_csv_archives_partial"
   ],
   "note": "if no two parts share an entry and every part is assigned to a memory type (see C24, C25), names without markup or quote (see C64), paddings as in C70, no debug information used"
  },
  {
   "property": "C72",
   "status": "partial",
   "theorems": [
    "EspSize.C72_elf_view",
    "EspSize.C72_image_size_partial",
    "EspSize.C104_image_partial"
   ],
   "note": "loaded sections have distinct names (see C21 for the violation otherwise); files of at least the native header size (see C47); C72_image_size_partial for names that can be read, C104_image_partial for every opened file with attributes read on first use"
  },
  {
   "property": "C73",
   "status": "partial",
   "theorems": [
    "EspSize.C73_json_archives_partial",
    "EspSize.C73_json_files_partial",
    "EspSize.C73_raw_used_partial"
   ],
   "note": "Missing: runs with --diff or --unify, DWARF sections, name collisions of parts in one memory type (see C18), inputs with the padding shapes excluded by SimplePads."
  },
  {
   "property": "C74",
   "status": "partial",
   "theorems": [
    "EspSize.C74_pieces",
    "EspSize.C74_placed",
    "EspSize.C74_empty_piece"
   ],
   "note": "Exact description of every part proved; violated in one respect: what starts exactly at a boundary also leaves an empty piece in the part before (C74_empty_piece)."
  },
  {
   "property": "C75",
   "status": "partial",
   "theorems": [
    "EspSize.C75_symbols_fit_partial",
    "EspSize.C75_alias_twice"
   ],
   "note": "Proved if no two functions or objects of the ELF file overlap. Violated otherwise: two names of one function are both counted (C75_alias_twice)."
  },
  {
   "property": "C76",
   "status": "proved",
   "theorems": [
    "EspSize.C76_nested"
   ],
   "note": "for input sections inside their output section that do not overlap; sizes of ELF symbols are not negative"
  },
  {
   "property": "C77",
   "status": "partial",
   "theorems": [
    "EspSize.C77_archives_partial",
    "EspSize.C77_files_partial",
    "EspSize.C77_archives_diff_partial",
    "EspSize.C77_files_diff_partial"
   ],
   "note": "For link map files in the form of MapFileText (C70) whose padding lines are of the simple kind, and runs that do not read debug information. No condition on collisions or unassigned parts: what is not shown is a term of the statement."
  },
  {
   "property": "C78",
   "status": "partial",
   "theorems": [
    "EspSize.C78_no_symbols",
    "EspSize.C78_origin",
    "EspSize.C78_totals_partial",
    "EspSize.C78_elf_totals_partial"
   ],
   "note": "Origin without conditions. Totals if no two symbols of an object file in an output section have one name (such symbols overwrite each other, C55_same_name_lost); the link to the ELF file for disjoint input sections and names that are not those of input sections."
  },
  {
   "property": "C79",
   "status": "partial",
   "theorems": [
    "EspSize.C79_symbols_partial",
    "EspSize.C79_symbols_diff_partial"
   ],
   "note": "If no two symbols of an object file in an output section have one name (see C55_same_name_lost), and output sections have non-negative sizes. No condition on the form of the link map file or on debug information."
  },
  {
   "property": "C80",
   "status": "partial",
   "theorems": [
    "EspSize.C80_nowhere",
    "EspSize.C80_overflow",
    "EspSize.C80_accounted",
    "EspSize.C80_exceeds_partial",
    "EspSize.C80_exceeds_fits",
    "EspSize.C80_regions",
    "EspSize.C80_noTarget",
    "EspSize.C80_noTarget_partial",
    "EspSize.C80_noTarget_silent",
    "EspSize.C80_dwarf",
    "EspSize.C80_badElf",
    "EspSize.C80_badElf_twice",
    "EspSize.C80_options",
    "EspSize.C80_targets_partial",
    "EspSize.C80_targets_swapped",
    "EspSize.C80_noDesc",
    "EspSize.C80_noElf",
    "EspSize.C80_badElf_iff",
    "EspSize.C80_invalid"
   ],
   "note": "Violated in four ways: with overlapping regions a part that fits one is reported to exceed another (C80_exceeds_fits; never without overlap), a missing target is not reported without cross reference table (C80_noTarget_silent), the targets are named in the wrong order (C80_targets_swapped), an ELF error is reported twice (C80_badElf_twice). The rest holds as stated; messages of runs that raise are not modelled."
  },
  {
   "property": "C81",
   "status": "partial",
   "theorems": [
    "EspSize.C81_archives",
    "EspSize.C81_archives_diff",
    "EspSize.C81_files_partial",
    "EspSize.C81_files_diff_partial",
    "EspSize.C81_symbols_partial",
    "EspSize.C81_symbols_diff_partial",
    "EspSize.C81_accounted",
    "EspSize.C81_types",
    "EspSize.C81_files_section_lost"
   ],
   "note": "Archives completely, if output sections have non-negative sizes. Section columns of files and symbols if no two of them that stand for different ones have one name in the report: otherwise only the last is shown (counterexample proved). JSON reports ignore --filter. CSV text for names without quotes and markup (see C41, C64)."
  },
  {
   "property": "C82",
   "status": "partial",
   "theorems": [
    "EspSize.C82_load",
    "EspSize.C82_lto_partial",
    "EspSize.C82_frame",
    "EspSize.C82_lto_lost"
   ],
   "note": "What is read: completely (map file not in the root directory). Attribution: if symbols do not overlap, symbols that start in an input section end in it, something of a component follows its last symbol or the section ends there (otherwise the tail is lost, counterexample proved), and the texts tell the directories of components (see C57)."
  },
  {
   "property": "C83",
   "status": "partial",
   "theorems": [
    "EspSize.C83_filter_partial",
    "EspSize.C83_unchanged_partial",
    "EspSize.C83_sort",
    "EspSize.C83_abbrev",
    "EspSize.C83_csv",
    "EspSize.C83_text",
    "EspSize.C83_filter_fails"
   ],
   "note": "Listings without dependencies. Violation proved (C83_filter_fails): a filter that leaves no row makes the run fail if rows are sorted by the name of a section; the partial theorems therefore allow failure or a report without rows in that case. C83_abbrev needs a sort column given by number and no filter, since names of sections and rows are what changes."
  },
  {
   "property": "C84",
   "status": "proved",
   "theorems": [
    "EspSize.C84_size_cell",
    "EspSize.C84_space_cell",
    "EspSize.C84_percent_cell",
    "EspSize.C84_listing"
   ],
   "note": "Text and style of every character after the markup parser of rich; numbers formatted by the float operations are assumed to consist of digits, dot and sign (FloatOps.Plain)."
  },
  {
   "property": "C85",
   "status": "proved",
   "theorems": [
    "EspSize.C85_map_plain",
    "EspSize.C85_map_diff",
    "EspSize.C85_used_total",
    "EspSize.C85_sections_add_up"
   ],
   "note": "from the link map file to the report: types, used, sizes, sections and archives of the map that is shown, and what each format shows of it"
  },
  {
   "property": "C86",
   "status": "proved",
   "theorems": [
    "EspSize.C86_archives_files",
    "EspSize.C86_archive_row",
    "EspSize.C86_used",
    "EspSize.C86_room",
    "EspSize.C86_hidden_archive"
   ],
   "note": "For the quantifier as stated: format json2; rows of archives for names that the separator does not make ambiguous; used bytes of the summary for plain runs. Without --show-unchanged sizes need not agree (C86_hidden_archive is a witness)."
  },
  {
   "property": "C87",
   "status": "proved",
   "theorems": [
    "EspSize.C87_lines",
    "EspSize.C87_line_ends",
    "EspSize.C87_not_text",
    "EspSize.C87_json",
    "EspSize.C87_description",
    "EspSize.C87_sdkconfig",
    "EspSize.C87_no_json",
    "EspSize.C87_line_separator"
   ],
   "note": "Decoding is the inverse of UTF-8 encoding of the core library; the grammar of JSON is a relation in Spec/JsonText.lean and the reader is proved to accept exactly its texts (jsonLoads_iff). C87_csv_partial (not counted) carries C71 down to the bytes of the file. C87_line_separator is the witness for the excluded characters. Unpaired surrogates in JSON strings and members of other types are outside the model."
  },
  {
   "property": "C88",
   "status": "partial",
   "theorems": [
    "EspSize.C88_units_partial"
   ],
   "note": "For files with named sections and symbols (C72) and units of types without extra header fields, declarations with sequential codes and supported forms (the violations otherwise are C49, C50, C66), addresses in the usual forms (C51), and a name for every unit of an entry at the address of a symbol (C67_partial_unit otherwise)."
  },
  {
   "property": "C89",
   "status": "proved",
   "theorems": [
    "EspSize.C89_white",
    "EspSize.C89_split",
    "EspSize.C89_maxsplit",
    "EspSize.C89_number",
    "EspSize.C89_sort_number"
   ],
   "note": "digits outside ASCII are not modelled"
  },
  {
   "property": "C90",
   "status": "partial",
   "theorems": [
    "EspSize.C90_written",
    "EspSize.C90_utf8",
    "EspSize.C90_ascii",
    "EspSize.C90_run",
    "EspSize.C90_text",
    "EspSize.C90_json_partial",
    "EspSize.C90_csv_partial",
    "EspSize.C90_ambiguous",
    "EspSize.C90_unwritable",
    "EspSize.C90_not_opened"
   ],
   "note": "Violated for distinctness (C90_ambiguous: escape sequences are not marked). The JSON files: for values without markup (C64, C68); the CSV file: under the hypotheses of C87_csv_partial, for UTF-8 and Unix ends of lines. What rich draws for tables and trees is a parameter."
  },
  {
   "property": "C91",
   "status": "proved",
   "theorems": [
    "EspSize.C91_percent",
    "EspSize.C91_cell",
    "EspSize.C91_monotone",
    "EspSize.C91_range",
    "EspSize.C91_run",
    "EspSize.C91_run_diff",
    "EspSize.C91_not_full",
    "EspSize.C91_minus_zero",
    "EspSize.C91_not_sorted"
   ],
   "note": "Floats are rational numbers rounded to 53 bits, ties to even (Py/Float); overflow, subnormal numbers and shares of 1e13 percent and more are not modelled. C91_not_sorted is the violation of C40 with these numbers."
  },
  {
   "property": "C92",
   "status": "proved",
   "theorems": [
    "EspSize.C92_value",
    "EspSize.C92_read",
    "EspSize.C92_missing",
    "EspSize.C92_package"
   ],
   "note": "PyYAML and eval are modelled on this format only; of other texts nothing is said."
  },
  {
   "property": "C93",
   "status": "proved",
   "theorems": [
    "EspSize.C93_run",
    "EspSize.C93_accepted",
    "EspSize.C93_docs",
    "EspSize.C93_unique",
    "EspSize.C93_order",
    "EspSize.C93_status"
   ],
   "note": "click is a dependency and not in the repository; its splitting of arguments is modelled as documented by it (no abbreviated names of options)."
  },
  {
   "property": "C94",
   "status": "proved",
   "theorems": [
    "EspSize.C94_abspath",
    "EspSize.C94_projectPath",
    "EspSize.C94_spelling",
    "EspSize.C94_reference",
    "EspSize.C94_run",
    "EspSize.C94_worlds",
    "EspSize.C94_example"
   ],
   "note": "For file systems in which a path is looked up by its place; os.path.abspath is modelled after the Python library."
  },
  {
   "property": "C95",
   "status": "partial",
   "theorems": [
    "EspSize.C95_again_partial",
    "EspSize.C95_dwarf_kept",
    "EspSize.C95_warning_lost"
   ],
   "note": "Missing: calls that differ in use_dwarf (false: C95_dwarf_kept, a call without debug information gives the result of the former one with it), the warnings (false: C95_warning_lost), and input sections without address or size."
  },
  {
   "property": "C96",
   "status": "partial",
   "theorems": [
    "EspSize.C96_symbols_partial",
    "EspSize.C96_units_partial",
    "EspSize.C96_abbrevs_partial",
    "EspSize.C96_entries_partial",
    "EspSize.C96_first",
    "EspSize.C96_add_partial",
    "EspSize.C96_twice_partial",
    "EspSize.C96_raises_once",
    "EspSize.C96_filter_ignored",
    "EspSize.C96_twice_raises",
    "EspSize.C96_left_symbols",
    "EspSize.C96_left_units",
    "EspSize.C96_left_abbrevs"
   ],
   "note": "Violated: C96_raises_once, C96_filter_ignored, C96_twice_raises; C96_left_* tell what is kept after the exception. The rest holds for files that can be read, one filter per unit and one add_cus_to_symbols, after any sequence of uses. Which entries a get_DIEs that raises leaves behind is a parameter here (any); C109 says which."
  },
  {
   "property": "C97",
   "status": "partial",
   "theorems": [
    "EspSize.C97_header",
    "EspSize.C97_sections",
    "EspSize.C97_opened_partial",
    "EspSize.C97_entry_size",
    "EspSize.C97_phdrs_opened",
    "EspSize.C97_phdrs_partial",
    "EspSize.C97_phdrs64",
    "EspSize.C97_entry_size_wrong",
    "EspSize.C97_phdrs64_wrong"
   ],
   "note": "Proved for every opened file, of any content: the ELF header, every section header (at distance 40 or 64 bytes) and every program header are what the bytes say; with standard entry sizes a file is opened exactly if it has these headers and the bytes needed (C97_opened_partial). Violated: other entry sizes are taken for the size of the table only, so that the number of headers is never the one of the ELF header (C97_entry_size, with witness C97_entry_size_wrong); 64-bit program headers are read in the order of the fields of 32-bit ones (C97_phdrs64, with witness C97_phdrs64_wrong). The tool uses no program headers."
  },
  {
   "property": "C98",
   "status": "partial",
   "theorems": [
    "EspSize.C98_comparison_partial",
    "EspSize.C98_image",
    "EspSize.C98_calls_partial",
    "EspSize.C98_cells",
    "EspSize.C98_report_partial",
    "EspSize.C98_csv_partial",
    "EspSize.C98_plain_partial",
    "EspSize.C98_stray_raises",
    "EspSize.C98_path_raises",
    "EspSize.C98_cell_raises",
    "EspSize.C98_csv_raises",
    "EspSize.C98_name_raises",
    "EspSize.C98_verbatim_iff",
    "EspSize.C98_shown_iff",
    "EspSize.C98_noTag_partial",
    "EspSize.C98_deps_shown_iff",
    "EspSize.C98_deps_unannounced",
    "EspSize.C98_deps_csv_partial",
    "EspSize.C98_deps_symbols_lost",
    "EspSize.C98_csv_iff",
    "EspSize.C98_csv_titles",
    "EspSize.C98_csv_summary_iff"
   ],
   "note": "Tables: exactly when a report of sizes is shown (C98_shown_iff: paths, titles and names can be rendered, each for itself; in particular if they have no tag); the same for the table of dependencies (C98_deps_shown_iff), before which a comparison is not announced (C98_deps_unannounced). CSV of sizes: exactly when it is printed (C98_csv_iff: the line of titles as a whole, C98_csv_titles, and each name; C98_csv_summary_iff). CSV of dependencies: if names and lists of symbols have no markup. Violated: a text whose first tag is a closing one raises MarkupError, which is not caught."
  },
  {
   "property": "C99",
   "status": "partial",
   "theorems": [
    "EspSize.C99_tags",
    "EspSize.C99_attributes",
    "EspSize.C99_forms",
    "EspSize.C99_operations",
    "EspSize.C99_operation_bytes",
    "EspSize.C99_numbered",
    "EspSize.C99_sections_partial",
    "EspSize.C99_sections_wrong",
    "EspSize.C99_symbol_types",
    "EspSize.C99_bindings_partial",
    "EspSize.C99_bindings_wrong",
    "EspSize.C99_visibility",
    "EspSize.C99_symbols_raise",
    "EspSize.C99_different"
   ],
   "note": "Violated for three codes: section types 0x6fffffff and 0x6ffffffa and binding 10 are shown under one of the names of their constants only; type_name and bind_name raise KeyError for values without a constant."
  },
  {
   "property": "C100",
   "status": "partial",
   "theorems": [
    "EspSize.C100_section_line",
    "EspSize.C100_sections",
    "EspSize.C100_all_sections",
    "EspSize.C100_symbol_line_partial",
    "EspSize.C100_symbols_partial",
    "EspSize.C100_symbol_table_partial",
    "EspSize.C100_symbol_cu_partial",
    "EspSize.C100_imported",
    "EspSize.C100_imported_table",
    "EspSize.C100_unnamed_type"
   ],
   "note": "Sections: complete. Symbols: only when elf.py is run as a program and all types and bindings have a name; in an importing program dump_symbol_table raises NameError at the first symbol (global elf), and an unnamed type raises KeyError."
  },
  {
   "property": "C101",
   "status": "partial",
   "theorems": [
    "EspSize.C101_steps",
    "EspSize.C101_ends_iff",
    "EspSize.C101_covered_partial",
    "EspSize.C101_diverges"
   ],
   "note": "Violated: C101_diverges is a project for which the run never ends. C101_ends_iff: exact criterion, for all projects; C101_covered_partial: a run ends if all regions lie in memory types of the chip. Every other while loop advances by an element or a byte or raises, and is a recursion accepted by Lean."
  },
  {
   "property": "C102",
   "status": "partial",
   "theorems": [
    "EspSize.C102_up_to_error",
    "EspSize.C102_complete_iff",
    "EspSize.C102_debug_info_partial",
    "EspSize.C102_entries_partial",
    "EspSize.C102_abbrevs",
    "EspSize.C102_program",
    "EspSize.C102_joined",
    "EspSize.C102_no_value",
    "EspSize.C102_empty_location"
   ],
   "note": "Abbreviations: complete, from the encoded bytes. Debugging information: the listing and when it is complete are exact, and for encoded entries it has exactly their lines; violated for attribute names of 30 characters or more (joined with the form), for values of form loclistx and rnglistx and for empty locations, where the listing ends with an exception."
  },
  {
   "property": "C103",
   "status": "proved",
   "theorems": [
    "EspSize.C103_listing",
    "EspSize.C103_json_listing",
    "EspSize.C103_deps",
    "EspSize.C103_json_deps",
    "EspSize.C103_tree_deps",
    "EspSize.C103_raw",
    "EspSize.C103_tree",
    "EspSize.C103_summary",
    "EspSize.C103_json_summary",
    "EspSize.C103_unchanged"
   ],
   "note": "Equality of makeReport for two option records that differ in the options named, in every world."
  },
  {
   "property": "C104",
   "status": "partial",
   "theorems": [
    "EspSize.C104_get",
    "EspSize.C104_same",
    "EspSize.C104_errors_partial",
    "EspSize.C104_kinds_partial",
    "EspSize.C104_section_escapes",
    "EspSize.C104_table_escapes",
    "EspSize.C104_symbol_escapes",
    "EspSize.C104_deps",
    "EspSize.C104_deps_escapes",
    "EspSize.C104_witness",
    "EspSize.C104_read",
    "EspSize.C104_image_partial"
   ],
   "note": "independence of all names that are not needed, agreement with the model used elsewhere, and the complete list of sources of exceptions are proved for all files; the last part is violated: the exception of an attribute escapes get (general theorems and witness). C104_read: a call that returns has read all needed names of sections and symbols."
  },
  {
   "property": "C105",
   "status": "partial",
   "theorems": [
    "EspSize.C105_same",
    "EspSize.C105_files",
    "EspSize.C105_keys",
    "EspSize.C105_errors_partial",
    "EspSize.C105_no_target",
    "EspSize.C105_not_dict",
    "EspSize.C105_app_elf",
    "EspSize.C105_config",
    "EspSize.C105_target",
    "EspSize.C105_truth",
    "EspSize.C105_lto",
    "EspSize.C105_components",
    "EspSize.C105_component",
    "EspSize.C105_component_error",
    "EspSize.C105_witness"
   ],
   "note": "independence of all other keys and values, agreement with the model used elsewhere for files of the expected types, and the complete list of exceptions are proved; violated: AttributeError, TypeError and KeyError escape get (general theorems and witness). Which texts of floating point numbers are zero is a parameter."
  },
  {
   "property": "C106",
   "status": "proved",
   "theorems": [
    "EspSize.C106_opposite",
    "EspSize.C106_chain",
    "EspSize.C106_compares",
    "EspSize.C106_flash_not_opposite"
   ],
   "note": "Lists of archives, files and symbols as JSON. C106_flash_not_opposite: the totals of flash memories in raw reports are not opposite (C63)."
  },
  {
   "property": "C107",
   "status": "partial",
   "theorems": [
    "EspSize.C107_archives_partial",
    "EspSize.C107_files_partial",
    "EspSize.C107_archive_rows_partial",
    "EspSize.C107_file_rows_partial",
    "EspSize.C107_one",
    "EspSize.C107_moved",
    "EspSize.C107_added",
    "EspSize.C107_archive_cells",
    "EspSize.C107_file_cells_partial",
    "EspSize.C107_one_cell"
   ],
   "note": "JSON, tables and CSV. If the maps of both projects lack the same (LoseSame: parts in no memory type, or replaced by another part of the same name, see C18, C25); section columns of files if no two are reported under one name (C81). A change that keeps the total of an entry is hidden without --show-unchanged (C10)."
  },
  {
   "property": "C108",
   "status": "partial",
   "theorems": [
    "EspSize.C108_dependencies",
    "EspSize.C108_text_partial",
    "EspSize.C108_dual",
    "EspSize.C108_sizes_partial",
    "EspSize.C108_lto_option"
   ],
   "note": "Sizes as in the report of archives without --use-dwarf; the sentence on --lto is refuted by C108_lto_option. C108_text_partial for the link map files of MapFileText."
  },
  {
   "property": "C109",
   "status": "partial",
   "theorems": [
    "EspSize.C109_left",
    "EspSize.C109_all",
    "EspSize.C109_raised",
    "EspSize.C109_order",
    "EspSize.C109_finished",
    "EspSize.C109_open",
    "EspSize.C109_again_partial",
    "EspSize.C109_raises_once"
   ],
   "note": "Proved: what is left behind, for all bytes, tables and filters, and that a second call raises again if nothing was kept and the abbreviations could be read. Violated otherwise: the second call gives what was kept. Missing: RecursionError for deep nesting."
  },
  {
   "property": "C110",
   "status": "partial",
   "theorems": [
    "EspSize.C110_names",
    "EspSize.C110_same",
    "EspSize.C110_files",
    "EspSize.C110_depends",
    "EspSize.C110_get_errors_partial",
    "EspSize.C110_errors_partial",
    "EspSize.C110_kinds_partial",
    "EspSize.C110_not_dict",
    "EspSize.C110_deps_escape",
    "EspSize.C110_witness"
   ],
   "note": "Partial because the code violates the part on exceptions (witnesses). Nesting of JSON values beyond the recursion limit of Python and seeking beyond 2^63 are not modelled. The set order of Python is any permutation (SetOrder)."
  },
  {
   "property": "C111",
   "status": "proved",
   "theorems": [
    "EspSize.C111_show",
    "EspSize.C111_report",
    "EspSize.C111_exit",
    "EspSize.C111_ok",
    "EspSize.C111_default",
    "EspSize.C111_witness"
   ],
   "note": "Equivalence for runs over bytes (C111_exit); d is the compared and prepared memory map of the run (RunLoaded). If dependencies are asked for and the table of symbols of the ELF file cannot be read, the exception of C110 is raised instead of a report; C111_report excludes this by hypothesis."
  },
  {
   "property": "C112",
   "status": "partial",
   "theorems": [
    "EspSize.C112_steps",
    "EspSize.C112_ends_iff",
    "EspSize.C112_outcome",
    "EspSize.C112_chips_diverge",
    "EspSize.C112_diverges"
   ],
   "note": "The classification holds for all files; that every run ends is refuted for every chip (C112_chips_diverge) and by a file of 150 bytes (C112_diverges)."
  },
  {
   "property": "C113",
   "status": "partial",
   "theorems": [
    "EspSize.C113_message_partial",
    "EspSize.C113_run_partial",
    "EspSize.C113_numbers",
    "EspSize.C113_wrong_range",
    "EspSize.C113_hidden_name",
    "EspSize.C113_extra_backslash",
    "EspSize.C113_archive_iff",
    "EspSize.C113_column_iff",
    "EspSize.C113_raises"
   ],
   "note": "Messages and the equivalence with C111's reasons proved for all memory maps and options; names quoted as given are proved for names without markup, in the summary for names with any brackets (escape), without an escaped bracket and a backslash at the end. Violations proved: in tables of archives, files and symbols with n columns the message names 1..n-1 although n is accepted (C113_wrong_range); there the name is not escaped, so [x] is not shown (C113_hidden_name); escape doubles a backslash at the end (C113_extra_backslash). How log.die prints is inferred from the escape in the code. C113_archive_iff and C113_column_iff are exact: a name is shown as given exactly if it has neither a tag nor an escaped bracket. A name that looks like the end of a style raises an exception while the message is printed (C113_raises)."
  },
  {
   "property": "C114",
   "status": "partial",
   "theorems": [
    "EspSize.C114_iff",
    "EspSize.C114_line",
    "EspSize.C114_first",
    "EspSize.C114_no_config",
    "EspSize.C114_no_listing",
    "EspSize.C114_locates",
    "EspSize.C114_shown_partial",
    "EspSize.C114_script_unnamed",
    "EspSize.C114_hidden"
   ],
   "note": "The code violates the property: the message about a missing listing contains the text {self.fn} instead of the name of the file, and text in brackets is not shown. C114_shown_partial is for lines and names of files that do not look like markup; the rest holds for all files. Not covered: the message for a file that cannot be read."
  },
  {
   "property": "C115",
   "status": "partial",
   "theorems": [
    "EspSize.C115_validate_iff",
    "EspSize.C115_misplaced",
    "EspSize.C115_symbols",
    "EspSize.C115_texts",
    "EspSize.C115_shown_partial",
    "EspSize.C115_hidden",
    "EspSize.C115_elsewhere"
   ],
   "note": "The code violates the property: a symbol may be said not to fit into an input section in which it does not start (C115_elsewhere), and names in brackets are not shown (C115_hidden). C115_validate_iff, C115_misplaced, C115_symbols and C115_texts hold for all sections and symbols, with the section of the message being the first that ends behind the address of the symbol; C115_shown_partial is for names that do not look like markup."
  },
  {
   "property": "C116",
   "status": "partial",
   "theorems": [
    "EspSize.C116_known",
    "EspSize.C116_shown_partial",
    "EspSize.C116_names",
    "EspSize.C116_run_partial",
    "EspSize.C116_reads",
    "EspSize.C116_true",
    "EspSize.C116_exceeds",
    "EspSize.C116_not_preceding",
    "EspSize.C116_hidden",
    "EspSize.C116_shown_iff"
   ],
   "note": "The code violates the property: a part below all regions is said to be assigned to the preceding region although that is above it (C116_not_preceding); names in brackets are not shown and may stop the run (C116_hidden). C116_true holds for all regions, with that case as the only exception; C116_known, C116_reads and C116_exceeds hold for all messages; C116_names holds for all calls that return; C116_shown_partial and C116_run_partial are for names that do not look like markup. The texts of the messages that quote an exception are left out, see C115 and C117. C116_shown_iff is exact for the warnings without style."
  },
  {
   "property": "C117",
   "status": "partial",
   "theorems": [
    "EspSize.C117_iff",
    "EspSize.C117_says",
    "EspSize.C117_unique",
    "EspSize.C117_text",
    "EspSize.C117_repr",
    "EspSize.C117_printable",
    "EspSize.C117_shown_partial",
    "EspSize.C117_magic_raises",
    "EspSize.C117_same_offset",
    "EspSize.C117_shown_iff"
   ],
   "note": "The code violates the property: a file that begins with [/a] stops the run while the message is printed (C117_magic_raises). C117_iff, C117_says, C117_unique, C117_text, C117_repr and C117_printable hold for all files; C117_shown_partial is for paths that do not look like markup and magic numbers without an opening bracket. C117_same_offset records that the offset need not tell what was to be read. C117_shown_iff is exact."
  },
  {
   "property": "C118",
   "status": "partial",
   "theorems": [
    "EspSize.C118_unit",
    "EspSize.C118_unit_iff",
    "EspSize.C118_units",
    "EspSize.C118_units_iff",
    "EspSize.C118_form",
    "EspSize.C118_stack",
    "EspSize.C118_shown",
    "EspSize.C118_reads",
    "EspSize.C118_names",
    "EspSize.C118_known_form",
    "EspSize.C118_old_version",
    "EspSize.C118_empty"
   ],
   "note": "The code violates the property: the form addrx of DWARF 5 is called unknown together with its name (C118_known_form), units of version 0 and 1 are read (C118_old_version), and an empty expression, by which DWARF describes an object without location, is called invalid (C118_empty). The other theorems are exact, for all contents, forms and expressions."
  },
  {
   "property": "C119",
   "status": "partial",
   "theorems": [
    "EspSize.C119_iff",
    "EspSize.C119_true",
    "EspSize.C119_one",
    "EspSize.C119_message",
    "EspSize.C119_kinds",
    "EspSize.C119_shown_partial",
    "EspSize.C119_shown_iff",
    "EspSize.C119_target_unnamed",
    "EspSize.C119_hidden",
    "EspSize.C119_raises",
    "EspSize.C119_run_iff",
    "EspSize.C119_run_true",
    "EspSize.C119_run_exit",
    "EspSize.C119_run_ambiguous"
   ],
   "note": "exactly when, truth, uniqueness and difference for all files, exactly when the message is shown as it is, and for whole runs with one or two projects; partial: text in brackets is not shown (C119_hidden) or makes printing fail (C119_raises), the text of the operating system is a parameter"
  },
  {
   "property": "C120",
   "status": "partial",
   "theorems": [
    "EspSize.C120_entry_iff",
    "EspSize.C120_entry_true",
    "EspSize.C120_entry_crash",
    "EspSize.C120_elf_true",
    "EspSize.C120_elf_goes_on",
    "EspSize.C120_elf_told",
    "EspSize.C120_messages",
    "EspSize.C120_twice",
    "EspSize.C120_shown_partial",
    "EspSize.C120_shown_iff",
    "EspSize.C120_hidden"
   ],
   "note": "when, which, and going on without the ELF file for all files, and exactly when the message is shown as it is; partial: violated for entries of the cross reference table, after which IndexError ends the call (C120_entry_crash), for runs, which report an ELF file twice (C120_twice), and for text in brackets (C120_hidden)"
  },
  {
   "property": "C121",
   "status": "partial",
   "theorems": [
    "EspSize.C121_map_iff",
    "EspSize.C121_deps_iff",
    "EspSize.C121_noTag",
    "EspSize.C121_raises"
   ],
   "note": "Exactly when a tree is shown, for all trees: if every name in it can be rendered, in particular if it has no tag. Violated otherwise: a name that looks like the end of a style raises MarkupError and nothing is printed (C121_raises). The guides drawn by rich are not modelled."
  }
 ]
}