# A Lean 4 model of esp-idf-size

The model is a shallow, executable transcription of the Python sources in `/repo/esp_idf_size`,
function by function. Python exceptions are values (`Except Err`), in-place mutation is a returned
new value, loops are folds or recursions over lists (with an explicit fuel argument where Python's
termination is itself in question, which is the splitting of memory regions and so `get`).

Layout of `/verif/lean/Verif`:

| directory | contents |
|---|---|
| `Py/` | the Python run-time pieces the code uses: strings (`Str = List Char`), `split`, `strip`, `int(s, 0)`, insertion-ordered `dict`, stable `sorted(key, reverse)`, `fnmatch`, `os.path`, bytes, UTF-8, `rich` markup tags |
| `Model/` | the model; every definition cites file and lines of `/repo` |
| `Spec/` | small specifications, independent of the model's helpers |
| `Proofs/` | helper lemmas |
| `Props/` | the property theorems (`Cnn_...`), each with a non-vacuity example |

`MANIFEST.json` maps every property to its theorems; `seeded/LOG.jsonl` records the mutation tests.

## Representation choices (apply everywhere)

* `str` is a list of characters; keys of dictionaries are such lists.
* `dict` is an association list in insertion order. `d[k] = v` replaces in place or appends.
  Distinctness of keys is a separate, proved invariant (`KeysNodup`, `MemMap.WF`), not part of the type.
* Python `int` is `Int`. Python's missing value `None` is `Option.none`.
* Deep copies are the identity (values are immutable).
* `sorted(..., key, reverse)` is an insertion sort that is proved to be a stable sorted permutation
  (`reverse=True` keeps the order of ties, as in CPython).
* `log.debug` is dropped. Warnings and errors (`log.warn/err`) of completed runs are lists in
  `Model/Warnings.lean`, beside the functions that give them. `log.die` is the exception `Err.exit`.
* Memory-map trees: five levels, `Node α` with `abbrev_name, size, size_diff` and a dict of children.
* The outside world is a parameter: `World` gives the contents of map files, project descriptions, ELF
  files and chip tables at paths; set iteration orders and the float arithmetic of percentages are
  parameters with the weakest assumptions the claim needs.

## Trusted base

* The Lean 4.33.0 kernel. No `sorry`, no `native_decide`, no `bv_decide`, no own axioms, no
  `implemented_by`, no `unsafe`. The axioms of each property theorem are listed at the end of this file;
  they are at most `propext`, `Classical.choice`, `Quot.sound`.
* The reading of the Python sources recorded in the citations of `Model/`.
* The reading of CPython's `str`, `dict`, `sorted`, `int(s, 0)`, `struct`, `int.from_bytes`, `fnmatch`,
  `os.path`, `bytes.decode` in `Py/`.

### Modelled

| source | model |
|---|---|
| `memorymap.py:92-291` `get` and everything it calls (`get_proj_desc`, `get_elf`, target choice, `_get_memory_types`, region splitting, section filter, symbols, LTO expansion, section splitting, archives, memory type map, image size) | `Get`, `Regions`, `Sections`, `Expand`, `MemTypes`, `Chips` |
| `memorymap.py` `diff`, `unify`, `walk`, `trim`, `sort`, `remove_unused`, `ignore_flash_size`, the summaries, `get_summary_filtered` | `Diff`, `Unify`, `Ops`, `Summary`, `Deps` |
| `mapfile.py`, whole, at character level | `MapFile` |
| `deps.py`, `format_dot.py` | `Deps` |
| `format_table.py` cell contents and row order, `format_csv.py`, `format_json.py`, `format_tree.py`, `format_raw.py` | `Table`, `SummaryTable`, `Csv`, `Json`, `TreeFmt` |
| `main.py` `_run`, `_write_output_file`, the exception handling of `main` | `Run`, `Prepare`, `Args` |
| `elf.py` ELF headers, sections, symbols, strings, LEB128; DWARF units, abbreviations, forms, entries, evaluation, `add_cus_to_symbols` | `Elf`, `Dwarf`, `ElfView` (names evaluated when the file is opened), `Lazy` (`get` with names and symbols evaluated on first use; C104 relates the two) |
| `chip_info/*.yaml`, `_get_memory_types` | `Chips` (as data), `ChipText` (texts of the files and a reader of their format) |
| `main.py` options | `Cli` (with the parser of `click`) |
| `os.path.abspath` in `get` | `Py/Abspath`, `RunAt` |

### Not modelled, or simplified

* `click`: other theorems take the `args` dictionary as given (`Args`); C93 models the splitting of arguments as `click` documents it.
* `rich`: only markup tags are evaluated (`Py/Markup` for the text, `Py/Style` for the styles of characters); column
  layout, wrapping at the console width, removal of control characters and expansion of tabulators are not.  `json.dumps` is modelled for strings, integers, lists,
  dicts, `null` and booleans with `indent=4`.
  The guide lines `rich` draws for a tree are not modelled.
* YAML and `eval`: only the format of the chip tables (`ChipText`); the reader of other YAML texts and expressions is not modelled.
* JSON values of `project_description.json` and `sdkconfig.json` have the types the code expects (keys may be missing), except in `Model/DescJson`, where they are any JSON values; C105 relates the two. Nesting so deep that `json.load` raises `RecursionError` is not modelled.
* Paths in `project_description.json` and in DWARF are those of `PurePosixPath` (`Py/PurePath`).  Theorems about runs
  take the absolute path of the map file; C94 reduces other paths to it, without symbolic links.
* Printing of warnings is not part of the model of a run: the theorems about the outcome of runs take `log.warn` as returning.  C116 (`C116_run_partial`, `C116_hidden`) and C117 say when the text of a warning raises `MarkupError` instead.
* The properties of whole runs take map files by their lines; the decoding of bytes and the line ends are C87.
* The file system of a run is a function from paths to contents; directories are not recorded; the process is
  the only writer.
* Floating point: percentages are computed by a parameter (`FloatOps`); C91 instantiates it with the rounding of IEEE doubles and
  CPython's `round(x, 2)` and `repr`, with unbounded exponents (`Py/Float`).  The 53 bit rounding was compared with CPython on 400
  random inputs.
* `fnmatch` is modelled by tokens (`*`, `?`, `[...]`), not through the regular expression it builds; bracket
  expressions are those of CPython 3.11 and 3.12, including `[b-a!x]`, which is negated since empty ranges are removed first.
* `rich`: `Style.normalize` is a parameter of C98; parameters of `@` tags, and `@` tags themselves as event handlers, are not modelled.
* `elf.py`: location expressions other than a
  single `DW_OP_addr`; caches hold what the first access computed; what an exception leaves in them is modelled for symbols, units and abbreviations (C96), not for the entries of a unit;
  Python's recursion limit; offsets of `2^63` and more.
* `int()` of CPython refuses more than 4300 decimal digits; the model does not.
* Time, memory, signals other than an interrupt at a step of the run.

## How the properties are proved

| ids | modelled | proof |
|---|---|---|
| C01 C02 C03 | `diff` with both loops (merge, then fix-up) at all five levels | pointwise lookup characterisation per level, composed; key-order lemma for the merge |
| C04 C05 C06 | `unify`/`unify_items` at all levels | fold invariant: lookup in accumulator = sum over processed entries with the abbreviation; idempotence from distinct keys; commutation via the two lookup characterisations |
| C07 | `sort`, `sort_dict_by_key`, `get_summary_sorted` | insertion sort: permutation, sortedness, stability |
| C08 C09 C10 | `remove_unused`, `ignore_flash_size`, `trim`, and the way `_run` calls them | list lemmas; counterexamples where the expectation fails |
| C11 C12 C13 C54 | `walk`, `_get_summary_memory_types`, `get_*_summary` | fold invariants; counterexamples for `--unify` collisions |
| C14 C15 | `_split_memory_regions` with fuel; small-step view | loop invariant; divergence for every fuel of a concrete region; exact termination criterion |
| C16 C17 C18 C24 C25 | `_get_mem_type_map`, including warnings | fold invariants; counterexample for colliding names |
| C19 C20 C21 | `_split_map_sections` (well-founded), `_filter_map_sections`, `_get_image_size`, `_get_elf_sections_headers` | conservation invariants |
| C22 C55 C56 | `_add_symbols_to_sections` | invariant of the two-pointer sweep; exact result |
| C23 | `_add_archives_to_sections` | fold invariant |
| C26 C57 | `_expand_input_sections`, `pathlib` (`Py/PurePath`) | paths as lists of names (`Spec/PurePath`); telescoping invariant; counterexample for lost tails |
| C27–C34 | `MapFile` line parsers at character level | print/parse round trips; invariants over the line automaton; counterexamples (ValueError, NameError) |
| C35 C36 C37 C62 C65 | `deps.py`, `format_dot.py`, set iteration order as a parameter | edge relation characterisation; order counterexample |
| C38 | `fnmatch` patterns, `get_summary_filtered` | matcher semantics |
| C39–C42 C64 C68 C69 | `format_table.py`, `format_csv.py`, `format_json.py`, `format_raw.py`, `format_tree.py` | table invariants, CSV and JSON readers inverse, one tree node per entry |
| C43 C44 C63 | `_run` as a sequence of steps over a file system with failures injected at any step | case analysis over the steps |
| C45–C51 C66 C67 | `elf.py` byte decoders, CU headers, abbreviations, attribute forms, entries, evaluation | encoders per the standards in `Spec`, round trips; counterexamples |
| C52 | the YAML tables, as data | kernel evaluation over the whole finite table, lifted to all addresses |
| C53 C58–C61 | the whole of `get` | composition of the above |
| C70 C71 | `MapFile` as a whole; `_run` with `--archives --format csv` | composition from the text of the map file to the text of the report |
| C72 | `Elf` objects as `get` uses them (`ElfView`) | composition from the bytes of the ELF file to the image size |
| C73 | `run`, JSON and raw reports | composition from the lines of the map file to the report, file sums via `sum_by_key` |
| C74 | `_split_map_sections` | induction over the cuts; clipping to `[c, e)` and then to `[a, b)` is clipping to `[a, b)` |
| C75 C76 | `get` | intervals one behind the other in a range overlap with a part in at most as many bytes as the range (`SymChain.overlap`), composed with C74, C23, C55, C58 |
| C77 | whole runs with `--diff`, `--unify` | sizes and differences are linear functionals of the map (`DiffLaw`, `UniLaw` in Proofs/Linear), carried through `remove_unused`, `ignore_flash_size`, `diff`, `unify`, and composed with C70, C58, C11, C12, C07 |
| C78 | symbols of a map | names of symbols of a part are a sublist of those of its section (induction on splitting); sums over archives, object files and names regrouped by key; C22 for the link to the ELF file |
| C79 | symbol report of whole runs | as C77, one level deeper (`sumSyms_diff`, `sumSyms_unify` in Proofs/LinearSyms), composed with C78, C13, C07 |
| C80 | warnings and errors of completed runs | messages as a list beside the model of `get` and of the run; kinds of messages per step; section messages are read off the placement rule (C16), sums from C58, regions from C14, parts from C19; refuted for overlapping regions, missing table, order of targets, repeated ELF error |
| C81 | tables, CSV and JSON reports of whole runs, cell by cell | cells of `get` per part (`cell_map`), carried through `diff`, `unify`, removal of unused (`prepare_mid`, `midCells_unify`), composed with the summaries (C11-C13 by cell), the table (C39), filter (C38), CSV (C41); refuted for section columns of files with one name |
| C82 | what a run reads; archives of LTO projects | inversion of `load` against a specification of paths (`LoadedFrom`), equality of runs over file systems that agree on these files (`C82_frame`), bytes of `expand` per archive (`expandInput_bytes`, induction over sorted symbols) carried to the totals of C81; refuted for the tail behind the last symbol |
| C83 | listings under pairs of options | a run is `presented ∘ prepared`; two runs with the same preparation share their summary, the rows are a filter of a stable sort of it, and filters commute with stable sorting (`sortedBy_select`) |
| C84 | numbers, changes and colours of cells | markup is evaluated to characters with styles (`Py/Style`); the cell functions are specified by sign of the change and kind of column; rows of listings by `TableOf` |
| C85 | map of a whole run, summary, tree, JSON and raw reports | `Build` (types, regions, parts, where they go) is the specification of a project; `side_of` (one map), `midMap_diff`, `mapOf_unify`, `prepare_map` carry it through the steps of `_run`; `reports_map` combines C07, C10, C40, C42 |
| C86 | agreement of the reports of a project | `AddsUp` (an archive is its files, in every section) is kept by every step of `_run` (`keeps_addsUp`, `prepared_addsUp`); sums over the entries of both listings are sums over the same prepared map (`archives_shown`, `files_shown`); C85 gives the used bytes |
| C87 | reading the files of a project | `decodeUtf8_utf8`/`decodeUtf8_ok` (decoding is the inverse of encoding), `newlines_ended` (text mode removes the kind of line end), `splitlines_text`; the JSON reader accepts exactly the grammar (`reads` by induction on the grammar, `scan_sound` by induction on the steps of the reader); `jsonText_newlines_iff` |
| C88 | compilation units of symbols from the bytes of a file | `named_elf` (file to names), `lookup_named` (first section of a name), `units_ascending`/`found_get` (entries by offset), `plain_addr` (address found = address encoded, through values that are lost), `name_of`, `names_total` (the loop succeeds) and `names_fold` (last entry wins), by induction on the entries |
| C89 | `str.split`, `int(s, 0)`, `int(s)` | grammars of fields and of integer literals, equivalence by strong induction on the text; characters by a finite table |
| C90 | `_write_output_file`, `backslashreplace`, text mode, the text of each report, a run that writes a file | induction on the text; JSON text is ASCII (mutual induction on values) and in the grammar of RFC 8259; composed with C43, C87 |
| C91 | the arithmetic of percentages (`Py/Float`), `get_summary_table` | error and monotonicity of rounding to 53 bits (exponent by `log2`, nearest integer), propagated through division, product and difference; texts denote one number (`DecimalText.unique`); composed with C85 |
| C92 | `_get_memory_types` on the bytes of a file | a grammar of the documented format, read by the model by induction over its lines; kernel evaluation over the texts of all files of the package |
| C93 | the command line (`main`) | arguments are related to options by an inductive relation (`Written`); the parser computes it, both directions by induction on the arguments; storing is a fold, characterised per option |
| C94 | relative paths (`makeReportAt`, `abspath`) | a place is the list of names from the root, paths lead to places by an inductive relation on their parts; `normpath` follows it by induction; files next to the map file are found from either spelling |
| C95 | an object used again (`afterGet`, `afterGets`) | an input section is settled if another expansion returns it unchanged; the loop of the expansion only appends settled ones, dropping empty ones keeps that, so the expansion is idempotent; induction on the number of calls |
| C96 | state of an `Elf` object: caches of symbols, units, abbreviations, entries, evaluated attributes, unit names (`Model/ElfObj`) | every use keeps the invariant that a cache is empty or right where the file can be read (`GoodS`), by induction on the sequence of uses; `add_cus_to_symbols` refines the version without caches: the loop is a list of assignments (`asgAll`), the caches of names stay right, those of locations are filled once |
| C97 | `Elf.__init__` read backwards: the converse of C47; program headers (`Model/Phdrs`) | decoding is injective on bytes (`intBytes_fromBytes`), so the fields read encode to the bytes read; the record loop by induction on the bytes left (`records_inv`) |
| C98 | `format_table.show`, `show_diff_info`, `show_image_info`, the calls of `log.print`/`log.eprint` (`Model/Frame`); `MarkupError` of `rich` with its stack of open styles (`Py/MarkupErr`) | the stack of open styles composes over concatenation (`tags_neutral`, `tags_tag`, `tags_before`); number cells return to an empty error state whatever is open (`NeverRaises`); rows through the sort by membership; a quote behind a text changes none of its tags (`tags_quote`), which gives the exact criterion |
| C99 | the tables of constants and `get_*_name` (`Model/ElfNames`, `Model/OpNames`, generated from the text of `elf.py`); `type_name`, `bind_name`, `visibility_name` | `decide +kernel` over the whole tables, lifted to all codes by `names_agree`: outside of the keys both sides have no name |
| C100 | `dump_sections`, `dump_symbol_table`, `dump_symbol_cu` (`Model/Dump`) | the words of a concatenation with blanks (`words_join`, `words_pad`); padded numbers are `HexOf` their value (`hexOf_pad`, strong induction on the number); induction on the printed list (`listed_each`) |
| C101 | `_run` with an explicit number of steps for the one `while` loop that is not over a list | the number of steps does not matter; C15's criterion lifted to the run |
| C102 | `dump_debug_info`, `dump_abbrev_table`, the program at the end of `elf.py` (`Model/DumpDwarf`) | a listing of parts stops at the first exception (induction); one block of lines per entry; entries from `C66_entries_partial`, offsets of declarations by induction on their encoding |
| C103 | `makeReport` as a whole, no new model; `Spec/Influence` names the kinds of report | the steps of a run are followed for both option records; steps that read the option (`--use-flash-size`, sort, trim, filter) are shown to change only parts the report does not read (the `secsView` of a map) |
| C104 | `get` and the filter of the dependency report with names and tables of symbols evaluated where the code evaluates them (`Model/Lazy`) | refinement: step by step equal to `getMap` on a file with the needed names; exceptions of every step have a source (`Only`) |
| C105 | `get` with descriptions and configurations of any JSON values (`Model/DescJson`) | refinement to `getMap` for the expected types (`C105_same`), a relation between descriptions kept by every step (`C105_keys`), exceptions of every step have a source (`Only`) |
| C106 | `makeReport` run two or three times over the same files | both runs use one map per project (`GivesMap.unique`), cells of every run are those of C81, sums over the union of the names |
| C107 | `makeReport` with `--diff`, archives and files | C81_accounted turns what is shown into a sum over the input sections of the link map file; permutation invariance of sums cancels what both projects share |
| C108 | `makeReport` with `--archive-dependencies`, all formats | the prepared map of C85 tells which archives are shown, the cells of C81 their sizes, C35/C65/C37 what is made of them |
| C109 | `get_DIEs` as a writer: what is in `self._die` at every step | `Stopped` says what is left behind, and is exactly what the writer leaves; entries with a size are what reading there gives, entries without are nested |
| C110 | `main.py:99-152` and `get` with JSON values of any type, ELF attributes on first use, paths as given, all at once (`Model/RunFiles`) | refinement to `Model/RunAt` under what is needed of names and types; congruence for what is not looked at; all exceptions classified by place (`RunError`) and by kind for files of any bytes |
| C111 | `log.die` in `format_table.py:120-128,226-253`, `format_dot.py:52-55`, `deps.py:95-140`, `memorymap.py:767-768` as reached from `main.py:99-152` | equivalence between the runs ending in `exit` and the list of reasons `Refused`, by cases of format and options; `exit` excluded from loading by the classification of `C110` |
| C112 | as C110; `_split_memory_regions` (`memorymap.py:864-926`) with the bound on its iterations | monotonicity in the number of steps, exact criterion of termination from `C15_terminates_iff`; composition of C110 and C111; divergence for all chip tables from the criterion |
| C113 | the arguments of `log.die` (`Model/Die`: `format_table.py:112-134,226-253`, `memorymap.py:767-768`, `deps.py:100-127`, `format_dot.py:52-55`), `rich.markup.escape`, rendering of markup as in C98 | the reasons of C111 with the text for each; induction over the text for `render (escape s) = s`; case analysis of the options |
| C114 | the texts of `MapFileException` (`Model/MapMsg`: `mapfile.py:38-74,224-376`) next to the parser of C27-C33; rendering of markup as in C98 | the report agrees with the parser by induction over the lines; a reported line splits the file, and the state before it does not depend on what follows; word counts by `splitN_length` |
| C115 | the texts of `validate` and `_add_symbols_to_sections` (`Model/SymMsg`: `mapfile.py:385-405`, `memorymap.py:1105-1194`) next to the models of C32 and C22 | induction over the sections with the sections before as invariant; the sweep drops sections only that end before all later symbols; uniqueness of stable sorting links it to `addSymbols` |
| C116 | the texts given to `log.warn` (`Model/WarnText`: `main.py:103,108,133-136`, `mapfile.py:96`, `memorymap.py:919,1288,1291,1541-1545,1559-1564,1589-1592`) for the messages of C80 | rendering piece by piece, with the style `red` opened and closed; reading back by the first character that ends a name or number; induction over the sorted regions |
| C117 | the texts of `Elf.__init__` and `_load_elf_file` (`Model/ElfMsg`: `elf.py:1927-1987,2032-2037`, `memorymap.py:1099`) with `repr` of bytes, next to the model of C97 | case analysis in the order of reading against a list of what can be wrong, in both directions; the table of all bytes for `repr`, which is a prefix code |
| C118 | the `Elf_Exception` of `Dwarf_CU` with its text (`Model/DwarfMsg`: `elf.py:685-734,1565-1606,1759-1762,1785-1809,2022-2028`) | fields of the header by position; strong induction over the rest of the section and of the expression; all forms by the chain of conditions; texts read back by the first character that ends a number |
| C119 | the `MemMapException` of `get` with its text (`Model/GetMsg`: `memorymap.py:187-278,1140-1175,1431-1440`, `mapfile.py:34`) | step by step along `get`: each step raises something else, or exactly if its problem function has a result (C114, C115); causes stated on the files exclude each other; the first 13 characters tell the kind; for a run (`Model/RunMsg`: `main.py:118-126,159-160`) the same step by step, as preparing never raises |
| C120 | the errors reported by `log.err` (`Model/ErrMsg`: `mapfile.py:420-449`, `memorymap.py:1092-1102,1617-1627`) | induction on the lines; `IndexError` of the parser comes from nowhere else; the result in a world without the file |
| C121 | `log.print` of a tree: all labels are rendered, or `MarkupError` (`Model/TreeShow`: `format_tree.py:47,77`, on the trees of `Model/TreeFmt`) | a number behind a name neither begins nor ends a tag, so the stack of open styles composes (`tags_apart`); labels of nested nodes by the lists of children |

## Where the code violates a property

Each item has a theorem with a concrete witness (evaluated by the kernel) and a `_partial` theorem for the rest.

| property | what happens | witness |
|---|---|---|
| C08 | a memory type whose sections cancel to zero stays | `C08_zero_used_remains` |
| C63 | a listing of a project compared with itself has no rows, so sorting it by the name of a section or memory type fails although the report of the project does not | `C63_sort_fails` |
| C09 C63 | with `--diff`, `ignore_flash_size` is applied to the current map twice and never to the reference (`main.py:129-130`), so a project compared with itself shows a flash difference | `C09_self_diff_nonzero`, `C63_self_compare_nonzero` |
| C10 | changes below an entry whose total is unchanged are hidden | `C10_hidden_changes` |
| C12 C13 | under `--unify`, sections with the same abbreviated name overwrite each other in the reports | `C12_unify_section_lost`, `C13_unify_section_lost` |
| C13 | an archive present in the map without symbols is "not found" | `C13_present_not_found` |
| C15 | region splitting does not terminate for some Memory Configurations | `C15_diverges` |
| C16 | views of different length of the same memory are counted twice | `C16_partial_alias` |
| C18 | parts of one output section in the same memory type overwrite each other | `C18_same_name_lost` |
| C21 | loaded ELF sections with the same name are counted once | `C21_duplicate_names` |
| C25 | sections above all regions are not accounted; sections below all are accounted to a region above | `C25_above_all`, `C25_below_all` |
| C26 | the rest of an input section behind the last symbol is dropped; padding is overwritten | `C26_tail_lost`, `C26_fill_overwritten` |
| C28 | paths with `(` are split at the wrong place | `C28_parenthesis` |
| C29 | padding of input sections is lost or wrong (the variable `size` of the enclosing function is reused) | `C29_fill_lost`, `C29_fill_wrong`, `C29_unclosed_lost` |
| C30 C59 | `ValueError`, `TypeError`, `NameError`, `IndexError`, `KeyError` escape instead of the documented exception | `C30_*`, `C59_*` |
| C36 | the order of the dependency report follows the hash seed | `C36_order_visible` |
| C39 | an invalid sort column is accepted when the filter leaves no row | `C39_no_rows_accepts_invalid` |
| C40 | percentages are sorted by their integer part | `C40_percent_not_sorted` |
| C41 | quotes are not doubled in CSV cells | `C41_quote_breaks` |
| C42 | JSON parts are lost when sections are abbreviated alike | `C42_parts_lost` |
| C43 | a failure while writing leaves a truncated output file | `C43_truncated` |
| C44 | DWARF is consulted for a plain summary of a link-time optimised project | `C44_dwarf_for_summary` |
| C46 | the sign of a SLEB128 number is taken from the byte before it | `C46_sleb_wrong` |
| C47 | a complete ELF file shorter than the native header is rejected | `C47_short_file` |
| C49 | the first entry of type, skeleton and split units is looked for at the wrong offset | `C49_type_unit` |
| C50 | `ref_sig8` and DWARF 2 `ref_addr` consume the wrong number of bytes; numbers, references and blocks cut off at the end of the data are accepted, with the bytes there are | `C50_ref_sig8`, `C50_ref_addr_v2`, `C50_cut_number`, `C50_cut_ref`, `C50_cut_block`, `C50_cut_ublock` |
| C51 | the second evaluation of an attribute raises `KeyError`; an empty location raises | `C51_eval_twice`, `C51_empty_location` |
| C52 | ten memory types of seven chips can never receive a region; the size of external RAM is always 0 on four of them | `C52_shadowed`, `C52_s3_run` |
| C53 | the `elf` argument of `get` is overwritten | `C53_elf_ignored`, `C53_elf_lost` |
| C55 | symbols of the same name in one object file overwrite each other | `C55_same_name_lost` |
| C56 | input sections behind the last sized symbol have no symbol | `C56_tail_empty` |
| C57 | component directories are compared as string prefixes; the current directory `.` contains nothing | `C57_prefix`, `C57_dot` |
| C60 | a target with slashes in a map file names a YAML file outside the package | `C60_outside` |
| C62 | `--unify` empties the dependency report | `C62_unify_no_deps`, `C62_unify_hides` |
| C64 | text in names that looks like a markup tag is lost; exactly such names, and those with an escaped bracket, are not shown verbatim | `C64_brackets_lost`, `C64_report_loses_name`, `C64_verbatim_iff`, `C64_shorter` |
| C66 | abbreviation codes not numbered from 1 are misread; negative implicit constants | `C66_codes`, `C66_implicit_negative` |
| C67 | a partial unit without name raises `KeyError` | `C67_partial_unit` |
| C68 C69 | the same in the JSON and tree reports; after `unify` symbols have an undocumented member `null` | `C68_brackets_lost`, `C69_brackets_lost`, `C68_unify_null` |
| C74 | what starts exactly at a region boundary also leaves an empty piece in the part before | `C74_empty_piece` |
| C75 | two names of one function are both counted, the symbols of an object file exceed it | `C75_alias_twice` |
| C80 | a missing target is not reported without cross reference table; the target called that of the reference is that of the other project; an unreadable ELF file is reported twice; with overlapping regions a part that fits is reported to exceed | `C80_noTarget_silent`, `C80_targets_swapped`, `C80_badElf_twice`, `C80_exceeds_fits` |
| C81 | files that are reported under one name overwrite each other in the section columns | `C81_files_section_lost` |
| C82 | bytes behind the last symbol of an LTO section are in no archive | `C82_lto_lost` |
| C83 | a filter that leaves no row makes a run sorted by the name of a section fail, because the headers come from the rows left | `C83_filter_fails` |
| C37 | quotes in names are not escaped in DOT output | `C37_quotes_break` |
| C86 | with --diff an archive whose changes cancel is hidden while its files are listed, so the sizes shown differ | `C86_hidden_archive` |
| C87 | a line of the link map with U+2028 (or VT, FF, FS, GS, RS, NEL, PS) in a name is split in two | `C87_line_separator` |
| C90 | escape sequences are not marked: `é` and `\xe9` are the same bytes in ASCII | `C90_ambiguous` |
| C95 | a call of `get` with debug information changes what a later call without it gives for the same `MapFile` object; the warning about input section addresses is not repeated | `C95_dwarf_kept`, `C95_warning_lost` |
| C96 | an exception is raised only once, then a part of the list is given; `get_DIEs` ignores its filter once entries were read; a second `add_cus_to_symbols` raises `KeyError` (the key `eval` instead of `evaluated`) | `C96_raises_once`, `C96_filter_ignored`, `C96_twice_raises` |
| C97 | `e_shentsize`/`e_phentsize` give the size of the table, not the distance of two headers; 64-bit program headers are read in the order of the fields of 32-bit ones | `C97_entry_size`, `C97_entry_size_wrong`, `C97_phdrs64`, `C97_phdrs64_wrong` |
| C98 | a path or name such as `a[/b]c` raises `MarkupError` out of `generate`: the table is not shown and no output file is written; with --archive-dependencies a comparison is not announced | `C98_stray_raises`, `C98_path_raises`, `C98_cell_raises`, `C98_csv_raises`, `C98_name_raises`, `C98_deps_unannounced`, `C98_deps_symbols_lost` (two symbols shown as one) |
| C99 | section types 0x6fffffff (`GNU_versym`) and 0x6ffffffa, and binding 10 (`GNU_UNIQUE`) lose one of their names; `KeyError` for unnamed types and bindings | `C99_sections_wrong`, `C99_bindings_wrong`, `C99_symbols_raise` |
| C100 | `dump_symbol_table` uses the global `elf`, which only exists when the module is run as a program: `NameError`; `KeyError` for an unnamed type | `C100_imported`, `C100_imported_table`, `C100_unnamed_type` |
| C101 | a region that ends where an earlier one does and has an address outside all memory types makes the run loop for ever | `C101_diverges` |
| C102 | names of attributes of 30 characters or more are joined with the form; values of form `loclistx`/`rnglistx` (`TypeError`) and locations of no bytes (`ElfException`) end the listing | `C102_joined`, `C102_no_value`, `C102_empty_location` |
| C104 | an unreadable section name, symbol table or symbol name that is needed is not handled: `ValueError`, `UnicodeDecodeError`, `IndexError`, `Elf_Exception` or `struct.error` escape `get` and the dependency report, although an ELF file that cannot be opened only gives an error message | `C104_section_escapes`, `C104_table_escapes`, `C104_symbol_escapes`, `C104_deps_escapes`, `C104_witness` |
| C105 | a project description or configuration that is valid JSON but has values of other types is not treated as missing: `AttributeError`, `TypeError` or `KeyError` escape `get`, also for the description of another program | `C105_not_dict`, `C105_app_elf`, `C105_config`, `C105_target`, `C105_witness` |
| C106 | the total of a flash memory in a raw report shrinks in both directions of a comparison (as C63) | `C106_flash_not_opposite` |
| C108 | `--lto` loses the dependencies of a project configured for LTO, which are shown without the option | `C108_lto_option` |
| C109 | a second `get_DIEs` of a unit whose entries could not be read gives some of them, the outer ones without sizes, and no exception | `C109_raises_once`, `C109_again_partial` |
| C110 | `AttributeError` if a list or number is the description, whatever is asked for; the exception of an unreadable table of symbols ends a run that shows dependencies | `C110_not_dict`, `C110_deps_escape`, `C110_witness` |
| C112 | a run never ends for a link map file with two regions with a common end, one of which begins outside of the memory types; such regions exist for every chip | `C112_chips_diverge`, `C112_diverges` |
| C113 | for `--sort` with a number out of range, the message for tables of entries names `1..n-1` as usable although `n` is; a name that looks like markup is not shown there; in the summary a backslash at the end is doubled | `C113_wrong_range`, `C113_hidden_name`, `C113_extra_backslash`, `C113_raises` (`[/]` raises) |
| C114 | the message that the listing is missing says `{self.fn}` instead of the name of the file (no f-string); text in brackets in a quoted line is not shown | `C114_script_unnamed`, `C114_hidden` |
| C115 | a symbol that starts before an input section and ends behind it is said not to fit into it; names in brackets are not shown | `C115_elsewhere`, `C115_hidden` |
| C116 | a part below all regions is said to overflow and to be assigned to the preceding region, which is above it; names in brackets are not shown, and a name such as `.data[/]` stops the run while the warning is printed | `C116_not_preceding`, `C116_hidden` |
| C117 | a file that is no ELF file and begins with `[/a]` stops the run with a `MarkupError` while the message about it is printed | `C117_magic_raises` |
| C118 | the form `addrx` of DWARF 5 is called unknown although it is named in the same message; versions 0 and 1 are read; an empty expression, which DWARF defines, is called invalid | `C118_known_form`, `C118_old_version`, `C118_empty` |
| C119 | a file name in brackets is not shown, and with one that looks like the end of a style an exception is raised instead; the message about the target and those about symbols do not tell the project, so with two projects it is open which one is meant | `C119_hidden`, `C119_raises`, `C119_target_unnamed`, `C119_run_ambiguous` |
| C120 | after the message about an entry of the cross reference table the call ends with `IndexError` instead of going on; a run reports an ELF file that cannot be used twice; a part in brackets is not shown | `C120_entry_crash`, `C120_twice`, `C120_hidden` |
| C121 | a name such as `f[/x]` raises `MarkupError`: no tree is shown | `C121_raises` |
| C40 | (with Python floats) sorted by percentage, 50.1 comes before 50.59 in descending order | `C91_not_sorted` |

## Property by property

Status, what is missing from a partial one, and the theorems.

* **C01** diff is pointwise subtraction (proved). for all well-formed (distinct-key) maps; diff also shown never to raise Theorems: `C01_diff_pointwise`.
* **C02** diff result is the union of both maps (proved). key order and abbreviated names at every level; presence iff is part of DiffAt in C01 Theorems: `C02_diff_union`, `C01_diff_pointwise`.
* **C03** diff of a map with itself is all zeros, and diff is antisymmetric (proved). Theorems: `C03_diff_self`, `C03_diff_antisymm`.
* **C04** unify preserves sizes (proved). Theorems: `C04_unify_aggregates`, `C04_unify_totals`.
* **C05** unify is idempotent and keys are the abbreviated names (proved). Theorems: `C05_unify_keys`, `C05_unify_idem`.
* **C06** unify and diff commute (proved). hypothesis: abbreviated names are a function of full names (holds for maps built by get) Theorems: `C06_unify_diff_commute`.
* **C07** sorting only reorders (proved). Theorems: `C07_sort_stable`, `C07_summary_sorted`.
* **C08** remove_unused leaves used equal to the sum of the section sizes (partial). Proved: exactly the used types remain, with exactly their sections that have archives, used being their sum. Violated: the expectation that no remaining type has used = 0, and with it idempotence; a type all of whose sections have no archives remains with used = 0 (C08_zero_used_remains). Theorems: `C08_remove_unused_partial`, `C08_zero_used_remains`.
* **C09** flash totals are ignored on both sides of a comparison (partial). code violates: flash sizes are zeroed only in the current map when a reference is given Theorems: `C09_ignore_flash_size`, `C09_self_diff_partial`, `C09_self_diff_nonzero`.
* **C10** trim hides exactly the unchanged entries (partial). code violates: changes below an entry whose total is unchanged are dropped Theorems: `C10_trim_partial`, `C10_hidden_changes`.
* **C11** archive report accounts for every byte (proved). Theorems: `C11_archives_summary`, `C11_names`.
* **C12** object-file report accounts for every byte (partial). names, totals and sizes per memory type of every entry proved always; per-section sizes when report keys do not collide; code violates it for collisions under --unify Theorems: `C12_files_summary_partial`, `C12_entries`, `C12_unify_section_lost`.
* **C13** symbol report covers exactly the requested archive (partial). code violates: an archive in the map without symbols is reported as not found; sections of colliding keys under --unify Theorems: `C13_symbols_summary_partial`, `C13_entries`, `C13_present_not_found`, `C13_unify_section_lost`.
* **C14** a region is split without gap, overlap or loss (proved). regions of non-negative length Theorems: `C14_covered_region`, `C14_split_regions`.
* **C15** region splitting terminates (partial). code violates it: exact termination criterion proved, with a concrete non-terminating input Theorems: `C15_terminates_iff`, `C15_ends_iff`, `C15_terminates_partial`, `C15_diverges`.
* **C16** aliased regions are counted once (partial). Exact size and plain bound without conditions; physical bound needs physically disjoint regions: views of different length are counted twice (counterexample proved). Theorems: `C16_sizes_partial`, `C16_partial_alias`.
* **C17** every byte of output section is accounted exactly once (proved). Conservation through splitting and the memory type map. Theorems: `C17_accounted`.
* **C18** the sections of a memory type sum to its used value (partial). Parts of one output section in the same memory type overwrite each other while used counts all (counterexample proved). Theorems: `C18_used_partial`, `C18_entries`, `C18_same_name_lost`.
* **C19** splitting output sections conserves sizes and respects region boundaries (proved). Theorems: `C19_split_sections`, `C19_total`.
* **C20** section filter keeps exactly the loaded sections (proved). An ELF without any loaded named section falls back to the names, as the code does. Theorems: `C20_filter`.
* **C21** image size (partial). Loaded ELF sections with the same name are counted once (counterexample proved). Theorems: `C21_image_size_elf_partial`, `C21_image_size_no_elf`, `C21_duplicate_names`.
* **C22** symbols are attributed to the input section that contains them (proved). The exact result, including when it fails, is addSymbols_exact. Theorems: `C22_inside`, `C22_complete`, `addSymbols_exact`.
* **C23** archive, object file and input section sizes agree (proved). Sizes of archives and object files of every output section. Theorems: `C23_archives`.
* **C24** external RAM sections are routed by name (proved). Theorems: `C24_external_ram`, `C24_entry`.
* **C25** overflowing sections are still reported (partial). Needs a region above the section; sections above all regions are not accounted and sections below all are accounted to a region above (counterexamples proved). Theorems: `C25_overflow_partial`, `C25_above_all`, `C25_below_all`.
* **C26** LTO expansion conserves input section bytes (partial). Needs a symbol behind the input section; otherwise its rest is dropped (counterexample proved). An empty input section overwrites padding (counterexample proved). Theorems: `C26_expand_partial`, `C26_total_partial`, `C26_tail_lost`, `C26_fill_overwritten`, `expandSymbols_ok`.
* **C27** Memory Configuration round trip (proved). Memory Configuration text is read back; other field counts and missing headers are MapFileException. Theorems: `C27_round_trip`, `C27_rejected`, `C27_no_header`.
* **C28** archive(object) references are split correctly (partial). Exact for archive paths without '('; false for paths with '(' (C28_parenthesis). Theorems: `C28_split_partial`, `C28_no_paren`, `C28_parenthesis`.
* **C29** linker script section round trip (partial). Round trip for any listing in which an uncounted section has at most one *fill*; the closure variable bug breaks the rest (C29_fill_lost, C29_fill_wrong). Lines before the listing are ignored, files without one rejected. Theorems: `C29_sections_partial`, `C29_no_table_partial`, `C29_tidy`, `C29_padding_bound`, `C29_before`, `C29_no_listing`, `C29_fill_lost`, `C29_fill_expected`, `C29_fill_wrong`, `C29_unclosed_lost`.
* **C30** malformed map files are rejected with the documented exception (partial). Exactly five exception kinds are possible; the four undocumented ones are shown possible. Theorems: `C30_errors_partial`, `C30_regions_partial`, `C30_sections_partial`, `C30_value_error`, `C30_type_error`, `C30_name_error`, `C30_index_error`.
* **C31** parsed input sections are inside their output section and never double counted (proved). Invariant of the parser for all texts. Theorems: `C31_inside`, `C31_once`, `C31_padding`.
* **C32** validate accepts exactly contiguous sections (proved). C32_validate_all: for all lists of sections, with the exact exception; C32_validate is the form for known addresses. A first section printed without address gives TypeError (C32_parsed, C32_type_error). Theorems: `C32_validate_all`, `C32_parsed`, `C32_validate`, `C32_disjoint`, `C32_type_error`.
* **C33** cross reference table round trip (proved). Distinct symbols as in the property. Theorems: `C33_round_trip`, `C33_no_table`, `C33_duplicate_lost`.
* **C34** target selection (proved). target of the result, exception without target, detection in the three forms Theorems: `C34_target`, `C34_no_target`, `C34_error`, `C34_detect`, `C34_detect_none`, `C34_detect_cmake_any`, `C34_detect_cmake`, `C34_detect_make`.
* **C35** dependencies and reverse dependencies are dual (proved). complete description of the report up to key order, duality for independent set orders, assumptions hold for every parsed table Theorems: `C35_report`, `C35_dual`, `C35_requires`, `C35_table_ok`.
* **C36** dependency report is deterministic (partial). contents deterministic; the order of keys follows the set iteration order, witness for both directions (code violates the property) Theorems: `C36_deterministic_partial`, `C36_order_visible`.
* **C37** DOT output is a well-formed strict digraph (partial). Reading of the text printed proved for names (and paths) without a quote, a markup tag, a line break after a backslash and a backslash at the end; brackets such as operator[] and backslashes are allowed. Violation proved (C37_quotes_break): names are put between quotes without escaping, so a symbol with a quote in its name makes a text that is no graph. Theorems: `C37_dot`, `C37_dot_output`, `C37_text_partial`, `C37_graph_partial`, `C37_only_dependencies`, `C37_quotes_break`.
* **C38** filters are a logical OR and keep order (proved). fnmatch modelled as tokens, with the bracket expressions of CPython 3.11 and 3.12; its patterns are specified by a grammar of their own (GlobMatches) Theorems: `C38_fnmatch`, `C38_pattern`, `C38_substring`, `C38_filter`.
* **C39** table rows and columns line up (proved). cells in text table form (color/diff markup as produced by the formatter); an invalid column number is accepted when the filter leaves no row Theorems: `C39_archives_table`, `C39_files_table`, `C39_symbols_table`, `C39_no_rows_accepts_invalid`.
* **C40** summary table is sorted by the selected column (partial). proved for the used, remain and total columns; percentages are sorted only by their integer part (sort_dict_by_key truncates), which C40_percent_not_sorted shows; float arithmetic is a parameter Theorems: `C40_summary_table_partial`, `C40_sorted_by_value`, `C40_percent_not_sorted`, `C40_rows`.
* **C41** CSV output can be parsed back (partial). for names and titles with neither a quote nor markup (C64: brackets that can be taken for a tag); fails for names with quotes (not doubled in the output); console wrapping not modelled Theorems: `C41_csv_read_partial`, `C41_detail_csv_partial`, `C41_quote_breaks`.
* **C42** json2 summary parts sum to used (partial). holds when printed section names are distinct within each memory type (always with no_abbrev); fails for sections abbreviated alike Theorems: `C42_json_summary_partial`, `C42_json_no_abbrev`, `C42_parts_lost`.
* **C43** a failed run never damages an existing output file (partial). Holds for every failure before or while creating the directory and opening the file, and for every success. Violated for a failure while the bytes are written: the file is truncated when it is opened (C43_truncated). The file system is a function from paths to contents; directories are not recorded. Theorems: `C43_output_file_partial`, `C43_no_output_file`, `C43_truncated`, `C43_handled`.
* **C44** option conflicts are resolved consistently (partial). All parts proved, except that DWARF is not consulted for a summary when neither --lto nor --no-lto is given: violated for link-time optimised projects (C44_dwarf_for_summary). Theorems: `C44_unify_abbrev`, `C44_abbrev`, `C44_dependencies_no_diff`, `C44_dwarf_partial`, `C44_formatter`, `C44_dwarf_for_summary`, `C44_consulted`.
* **C45** ULEB128 decoding (proved). All numbers, paddings, positions; failure only when the data ends. Theorems: `C45_uleb_decode`, `C45_uleb_any`, `uleb_exists`, `uleb_unique`.
* **C46** SLEB128 decoding (partial). The offset is always right. The value is right exactly if bit 6 of the byte before the number (at the start the last byte of the data) is the sign, and off by a power of 2 otherwise; violated (C46_sleb_wrong). Theorems: `C46_sleb_partial`, `C46_sleb_start`, `C46_sleb_wrong`, `sleb_exists`.
* **C47** fixed-width integers and structures (partial). Proved for both classes and byte orders for files of at least the number of bytes the program needs: 76 where long has 8 bytes, 52 or 64 where it has 4 (C47_length, which also proves that every shorter file is rejected). So a shorter complete ELF file is rejected (C47_short_file). Section header entry size assumed to be the standard one; program headers and other entry sizes are in C97. Theorems: `C47_uint`, `C47_sint`, `C47_open_partial`, `C47_length`, `C47_symbols`, `symOf_enc`, `C47_short_file`.
* **C48** string tables (proved). All tables and indices, including UTF-8 decoding of names. Theorems: `C48_lookup`, `C48_fails`, `C48_name`.
* **C49** compilation units tile .debug_info (partial). Units are found and tile the section for all well-formed contents; the walk terminates for any contents. Violated: the position of the first entry of DWARF 5 type, skeleton and split units is wrong (C49_type_unit); C49_first_entry_partial covers the other units. Theorems: `C49_units`, `C49_tile`, `C49_any`, `C49_first_entry_partial`, `C49_type_unit`.
* **C50** every attribute form consumes its encoded size (partial). Proved for the supported forms, and for values cut off at the end of the data (C50_cut_*: numbers, references and blocks are not rejected). Violated for ref_sig8 (1 byte instead of 8) and ref_addr in DWARF 2. addrx and indirect are rejected. Theorems: `C50_form_partial`, `C50_implicit`, `C50_unsupported`, `C50_ref_sig8`, `C50_ref_addr_v2`, `C50_cut_number`, `C50_cut_ref`, `C50_cut_block`, `C50_cut_ublock`, `C50_cut_leb`, `C50_cut_string`.
* **C51** attribute evaluation is repeatable (partial). Violated: the second evaluation, and the text after an evaluation, raise KeyError (C51_eval_twice, C51_eval_then_text); the text is repeatable (C51_text_partial) and is exactly described (C51_shown). Evaluation of addresses and strings is right; an empty location raises Elf_Exception. Theorems: `C51_text_partial`, `C51_eval_twice`, `C51_eval_then_text`, `C51_address`, `C51_string`, `C51_strp`, `C51_empty_location`, `C51_shown`.
* **C52** chip tables are consistent (partial). Tables checked whole by decide +kernel, lifted to all addresses by findType_at and findType_before. Against the property: ten memory types of seven chips share all windows with an earlier entry, no address leads to them (C52_shadowed), so no region is ever theirs and their size is always 0 (C52_size_zero); on four chips this is the external RAM type, to which sections are moved by name (C52_ext_ram, C52_s3_run). Theorems: `C52_tables`, `C52_found_partial`, `C52_unique_partial`, `C52_shadowed`, `C52_listed`, `C52_no_region`, `C52_size_zero`, `C52_ext_ram`, `C52_s3_run`.
* **C53** supplied map file and ELF objects are used (partial). violated for elf: the argument is overwritten (line 198); proved for map_file Theorems: `C53_map_file_partial`, `C53_sections_partial`, `C53_elf_ignored`, `C53_elf_lost`.
* **C54** walk enumerates each entry exactly once (proved). Theorems: `C54_walk_order`, `C54_walk_mem`.
* **C55** symbols of an object file account for all symbols of its input sections (partial). Symbols with the same name in one object file overwrite each other (counterexample proved). Theorems: `C55_symbols_partial`, `C55_same_name_lost`.
* **C56** no input section is a hole in the symbol view (partial). Input sections behind the last sized symbol get none (counterexample proved). Theorems: `C56_no_holes_partial`, `C56_tail_empty`, `C56_no_elf`.
* **C57** LTO symbols go to the component that contains their compilation unit (partial). For all spellings of paths. Directories are compared as string prefixes of their texts, without separator, and '.' contains no path (counterexamples proved); the theorem needs that the texts tell the directories. Theorems: `C57_component_partial`, `C57_posix`, `C57_relative`, `C57_objectFile`, `C57_prefix`, `C57_dot`.
* **C58** the memory map of get() accounts for every kept output section (proved). composition of the whole pipeline of get Theorems: `C58_accounted`.
* **C59** get() raises only MemMapException (partial). violated: five other exceptions escape; proved that there are no more Theorems: `C59_errors_partial`, `C59_index_error`, `C59_key_error`, `C30_value_error`, `C30_type_error`, `C30_name_error`.
* **C60** the chip information file is one of the package (partial). violated: the target of a map file may contain slashes Theorems: `C60_inside_partial`, `C60_outside`.
* **C61** archive report equals the map file (partial). when no two parts collide and all are assigned Theorems: `C61_archive_report_partial`.
* **C62** --unify keeps the dependency report (partial). code violates the property; the general failure is proved Theorems: `C62_unify_no_deps`, `C62_unify_hides`.
* **C63** comparing a project with itself shows no difference (partial). C63_no_differences_partial: every format, listing and option; a report shows zero for every difference, and without --show-unchanged no row. Missing (violations): the raw report gives minus the total for the totals of flash types without --use-flash-size (C63_self_compare_nonzero); with no rows left, sorting by the name of a section or type fails (C63_sort_fails). A total that is ignored (size 0) is not printed by the tables, so its difference is left out. Theorems: `C63_no_differences_partial`, `C63_self_compare_partial`, `C63_self_compare_flash_size`, `C63_self_compare_nonzero`, `C63_sort_fails`.
* **C64** names are shown verbatim (partial). Exact: a name is shown verbatim if and only if it has neither text that looks like a markup tag nor an escaped bracket (C64_verbatim_iff), otherwise shorter (C64_shorter). Violated by the others, because the formatters do not escape names. Theorems: `C64_verbatim_partial`, `C64_brackets_lost`, `C64_report_loses_name`, `C64_verbatim_iff`, `C64_shorter`.
* **C65** dependency table lists the dependencies (proved). Theorems: `C65_dependency_table`, `C65_filter`.
* **C66** the tree of debugging entries is read back as encoded (partial). Round trip proved if codes are numbered 1, 2, 3, ... and forms are supported; for sdata the number read may have the other sign (C46), for loclistx and rnglistx None is read (ValueRead). Violated for other codes (C66_codes) and negative implicit constants. Theorems: `C66_abbrevs`, `C66_entries_partial`, `C66_dead_branch`, `C66_codes`, `C66_implicit_negative`.
* **C67** symbols get the name of the compilation unit that defines them (partial). C67_names holds for every ELF file on which the function returns; C67_entries_partial links the entries to encoded units. Violated: KeyError for partial units (C67_partial_unit). Theorems: `C67_names`, `C67_symbols`, `C67_entries_partial`, `C67_address`, `C67_unit_name`, `C67_partial_unit`.
* **C68** JSON output can be read back (partial). Names without markup (such as operator[] or a[1]). The text goes through rich markup, which removes what looks like a tag (violation, C68_brackets_lost). After unify every symbol has an undocumented member named null (C68_unify_null). Theorems: `C68_text_partial`, `C68_documents_partial`, `C68_distinct`, `C68_brackets_lost`, `C68_unify_null`, `C68_grammar_partial`.
* **C69** tree report shows every entry at its place (partial). Node by node for names without markup; other names lose what looks like a markup tag (violation, C69_brackets_lost). Type labels are unique for names without a slash. Drawing of the guides is not modelled. Theorems: `C69_map_tree_partial`, `C69_deps_tree_partial`, `C69_labels_distinct`, `C69_type_labels_distinct`, `C69_brackets_lost`.
* **C70** a link map file is read back as a whole (partial). for paddings of the form SimplePads (the code loses other paddings, see C29) Theorems: `C70_map_file_partial`, `C70_print_parse_partial`.
* **C71** the archive report in CSV shows the totals of the link map file (partial). if no two parts share an entry and every part is assigned to a memory type (see C24, C25), names without markup or quote (see C64), paddings as in C70, no debug information used Theorems: `C71_csv_archives_partial`.
* **C72** The image size comes from the bytes of the ELF file (partial). loaded sections have distinct names (see C21 for the violation otherwise); files of at least the native header size (see C47); C72_image_size_partial for names that can be read, C104_image_partial for every opened file with attributes read on first use Theorems: `C72_elf_view`, `C72_image_size_partial`, `C104_image_partial`.
* **C73** Reports of whole runs agree with the link map file (partial). Missing: runs with --diff or --unify, DWARF sections, name collisions of parts in one memory type (see C18), inputs with the padding shapes excluded by SimplePads. Theorems: `C73_json_archives_partial`, `C73_json_files_partial`, `C73_raw_used_partial`.
* **C74** parts of split output sections have what lies at their addresses (partial). Exact description of every part proved; violated in one respect: what starts exactly at a boundary also leaves an empty piece in the part before (C74_empty_piece). Theorems: `C74_pieces`, `C74_placed`, `C74_empty_piece`.
* **C75** symbols never exceed their object file (partial). Proved if no two functions or objects of the ELF file overlap. Violated otherwise: two names of one function are both counted (C75_alias_twice). Theorems: `C75_symbols_fit_partial`, `C75_alias_twice`.
* **C76** sizes nest in the returned map (proved). for input sections inside their output section that do not overlap; sizes of ELF symbols are not negative Theorems: `C76_nested`.
* **C77** JSON reports of whole runs, with --diff and --unify (partial). For link map files in the form of MapFileText (C70) whose padding lines are of the simple kind, and runs that do not read debug information. No condition on collisions or unassigned parts: what is not shown is a term of the statement. Theorems: `C77_archives_partial`, `C77_files_partial`, `C77_archives_diff_partial`, `C77_files_diff_partial`.
* **C78** origin and totals of the symbols of a map (partial). Origin without conditions. Totals if no two symbols of an object file in an output section have one name (such symbols overwrite each other, C55_same_name_lost); the link to the ELF file for disjoint input sections and names that are not those of input sections. Theorems: `C78_no_symbols`, `C78_origin`, `C78_totals_partial`, `C78_elf_totals_partial`.
* **C79** JSON symbol report of whole runs, with --diff and --unify (partial). If no two symbols of an object file in an output section have one name (see C55_same_name_lost), and output sections have non-negative sizes. No condition on the form of the link map file or on debug information. Theorems: `C79_symbols_partial`, `C79_symbols_diff_partial`.
* **C80** warnings of a run (partial). Violated in four ways: with overlapping regions a part that fits one is reported to exceed another (C80_exceeds_fits; never without overlap), a missing target is not reported without cross reference table (C80_noTarget_silent), the targets are named in the wrong order (C80_targets_swapped), an ELF error is reported twice (C80_badElf_twice). The rest holds as stated; messages of runs that raise are not modelled. Theorems: `C80_nowhere`, `C80_overflow`, `C80_accounted`, `C80_exceeds_partial`, `C80_exceeds_fits`, `C80_regions`, `C80_noTarget`, `C80_noTarget_partial`, `C80_noTarget_silent`, `C80_dwarf`, `C80_badElf`, `C80_badElf_twice`, `C80_options`, `C80_targets_partial`, `C80_targets_swapped`, `C80_noDesc`, `C80_noElf`, `C80_badElf_iff`, `C80_invalid`.
* **C81** tables, CSV and JSON reports of whole runs, cell by cell (partial). Archives completely, if output sections have non-negative sizes. Section columns of files and symbols if no two of them that stand for different ones have one name in the report: otherwise only the last is shown (counterexample proved). JSON reports ignore --filter. CSV text for names without quotes and markup (see C41, C64). Theorems: `C81_archives`, `C81_archives_diff`, `C81_files_partial`, `C81_files_diff_partial`, `C81_symbols_partial`, `C81_symbols_diff_partial`, `C81_accounted`, `C81_types`, `C81_files_section_lost`.
* **C82** What a run reads, and the archives of LTO projects (partial). What is read: completely (map file not in the root directory). Attribution: if symbols do not overlap, symbols that start in an input section end in it, something of a component follows its last symbol or the section ends there (otherwise the tail is lost, counterexample proved), and the texts tell the directories of components (see C57). Theorems: `C82_load`, `C82_lto_partial`, `C82_frame`, `C82_lto_lost`.
* **C83** Options that only choose, order or rename the rows of a listing (partial). Listings without dependencies. Violation proved (C83_filter_fails): a filter that leaves no row makes the run fail if rows are sorted by the name of a section; the partial theorems therefore allow failure or a report without rows in that case. C83_abbrev needs a sort column given by number and no filter, since names of sections and rows are what changes. Theorems: `C83_filter_partial`, `C83_unchanged_partial`, `C83_sort`, `C83_abbrev`, `C83_csv`, `C83_text`, `C83_filter_fails`.
* **C84** Numbers and colours of the cells (proved). Text and style of every character after the markup parser of rich; numbers formatted by the float operations are assumed to consist of digits, dot and sign (FloatOps.Plain). Theorems: `C84_size_cell`, `C84_space_cell`, `C84_percent_cell`, `C84_listing`.
* **C85** The memory map of a whole run and the summary, tree, JSON and raw reports that show it (proved). from the link map file to the report: types, used, sizes, sections and archives of the map that is shown, and what each format shows of it Theorems: `C85_map_plain`, `C85_map_diff`, `C85_used_total`, `C85_sections_add_up`.
* **C86** The reports of one project agree with one another (proved). For the quantifier as stated: format json2; rows of archives for names that the separator does not make ambiguous; used bytes of the summary for plain runs. Without --show-unchanged sizes need not agree (C86_hidden_archive is a witness). Theorems: `C86_archives_files`, `C86_archive_row`, `C86_used`, `C86_room`, `C86_hidden_archive`.
* **C87** A project is read from the bytes of its files (proved). Decoding is the inverse of UTF-8 encoding of the core library; the grammar of JSON is a relation in Spec/JsonText.lean and the reader is proved to accept exactly its texts (jsonLoads_iff). C87_csv_partial (not counted) carries C71 down to the bytes of the file. C87_line_separator is the witness for the excluded characters. Unpaired surrogates in JSON strings and members of other types are outside the model. Theorems: `C87_lines`, `C87_line_ends`, `C87_not_text`, `C87_json`, `C87_description`, `C87_sdkconfig`, `C87_no_json`, `C87_line_separator`.
* **C88** compilation units of symbols, from the bytes of an ELF file (partial). For files with named sections and symbols (C72) and units of types without extra header fields, declarations with sequential codes and supported forms (the violations otherwise are C49, C50, C66), addresses in the usual forms (C51), and a name for every unit of an entry at the address of a symbol (C67_partial_unit otherwise). Theorems: `C88_units_partial`.
* **C89** fields and numbers of map file lines (proved). digits outside ASCII are not modelled Theorems: `C89_white`, `C89_split`, `C89_maxsplit`, `C89_number`, `C89_sort_number`.
* **C90** bytes of the output file (partial). Violated for distinctness (C90_ambiguous: escape sequences are not marked). The JSON files: for values without markup (C64, C68); the CSV file: under the hypotheses of C87_csv_partial, for UTF-8 and Unix ends of lines. What rich draws for tables and trees is a parameter. Theorems: `C90_written`, `C90_utf8`, `C90_ascii`, `C90_run`, `C90_text`, `C90_json_partial`, `C90_csv_partial`, `C90_ambiguous`, `C90_unwritable`, `C90_not_opened`.
* **C91** percentages of the summary are accurate (proved). Floats are rational numbers rounded to 53 bits, ties to even (Py/Float); overflow, subnormal numbers and shares of 1e13 percent and more are not modelled. C91_not_sorted is the violation of C40 with these numbers. Theorems: `C91_percent`, `C91_cell`, `C91_monotone`, `C91_range`, `C91_run`, `C91_run_diff`, `C91_not_full`, `C91_minus_zero`, `C91_not_sorted`.
* **C92** chip tables are read as they are written (proved). PyYAML and eval are modelled on this format only; of other texts nothing is said. Theorems: `C92_value`, `C92_read`, `C92_missing`, `C92_package`.
* **C93** options mean what they say, in any order (proved). click is a dependency and not in the repository; its splitting of arguments is modelled as documented by it (no abbreviated names of options). Theorems: `C93_run`, `C93_accepted`, `C93_docs`, `C93_unique`, `C93_order`, `C93_status`.
* **C94** Relative and absolute paths of the projects (proved). For file systems in which a path is looked up by its place; os.path.abspath is modelled after the Python library. Theorems: `C94_abspath`, `C94_projectPath`, `C94_spelling`, `C94_reference`, `C94_run`, `C94_worlds`, `C94_example`.
* **C95** A MapFile object can be passed to get again (partial). Missing: calls that differ in use_dwarf (false: C95_dwarf_kept, a call without debug information gives the result of the former one with it), the warnings (false: C95_warning_lost), and input sections without address or size. Theorems: `C95_again_partial`, `C95_dwarf_kept`, `C95_warning_lost`.
* **C96** uses of an Elf object (partial). Violated: C96_raises_once, C96_filter_ignored, C96_twice_raises; C96_left_* tell what is kept after the exception. The rest holds for files that can be read, one filter per unit and one add_cus_to_symbols, after any sequence of uses. Which entries a get_DIEs that raises leaves behind is a parameter here (any); C109 says which. Theorems: `C96_symbols_partial`, `C96_units_partial`, `C96_abbrevs_partial`, `C96_entries_partial`, `C96_first`, `C96_add_partial`, `C96_twice_partial`, `C96_raises_once`, `C96_filter_ignored`, `C96_twice_raises`, `C96_left_symbols`, `C96_left_units`, `C96_left_abbrevs`.
* **C97** what an opened ELF file holds (partial). Proved for every opened file, of any content: the ELF header, every section header (at distance 40 or 64 bytes) and every program header are what the bytes say; with standard entry sizes a file is opened exactly if it has these headers and the bytes needed (C97_opened_partial). Violated: other entry sizes are taken for the size of the table only, so that the number of headers is never the one of the ELF header (C97_entry_size, with witness C97_entry_size_wrong); 64-bit program headers are read in the order of the fields of 32-bit ones (C97_phdrs64, with witness C97_phdrs64_wrong). The tool uses no program headers. Theorems: `C97_header`, `C97_sections`, `C97_opened_partial`, `C97_entry_size`, `C97_phdrs_opened`, `C97_phdrs_partial`, `C97_phdrs64`, `C97_entry_size_wrong`, `C97_phdrs64_wrong`.
* **C98** messages around a report, and names that stop it (partial). Tables: exactly when a report of sizes is shown (C98_shown_iff: paths, titles and names can be rendered, each for itself; in particular if they have no tag); the same for the table of dependencies (C98_deps_shown_iff), before which a comparison is not announced (C98_deps_unannounced). CSV of sizes: exactly when it is printed (C98_csv_iff: the line of titles as a whole, C98_csv_titles, and each name; C98_csv_summary_iff). CSV of dependencies: if names and lists of symbols have no markup. Violated: a text whose first tag is a closing one raises MarkupError, which is not caught. Theorems: `C98_comparison_partial`, `C98_image`, `C98_calls_partial`, `C98_cells`, `C98_report_partial`, `C98_csv_partial`, `C98_plain_partial`, `C98_stray_raises`, `C98_path_raises`, `C98_cell_raises`, `C98_csv_raises`, `C98_name_raises`, `C98_verbatim_iff`, `C98_shown_iff`, `C98_noTag_partial`, `C98_deps_shown_iff`, `C98_deps_unannounced`, `C98_deps_csv_partial`, `C98_deps_symbols_lost`, `C98_csv_iff`, `C98_csv_titles`, `C98_csv_summary_iff`.
* **C99** names of DWARF and ELF constants (partial). Violated for three codes: section types 0x6fffffff and 0x6ffffffa and binding 10 are shown under one of the names of their constants only; type_name and bind_name raise KeyError for values without a constant. Theorems: `C99_tags`, `C99_attributes`, `C99_forms`, `C99_operations`, `C99_operation_bytes`, `C99_numbered`, `C99_sections_partial`, `C99_sections_wrong`, `C99_symbol_types`, `C99_bindings_partial`, `C99_bindings_wrong`, `C99_visibility`, `C99_symbols_raise`, `C99_different`.
* **C100** listings of sections and symbols (partial). Sections: complete. Symbols: only when elf.py is run as a program and all types and bindings have a name; in an importing program dump_symbol_table raises NameError at the first symbol (global elf), and an unnamed type raises KeyError. Theorems: `C100_section_line`, `C100_sections`, `C100_all_sections`, `C100_symbol_line_partial`, `C100_symbols_partial`, `C100_symbol_table_partial`, `C100_symbol_cu_partial`, `C100_imported`, `C100_imported_table`, `C100_unnamed_type`.
* **C101** a run ends (partial). Violated: C101_diverges is a project for which the run never ends. C101_ends_iff: exact criterion, for all projects; C101_covered_partial: a run ends if all regions lie in memory types of the chip. Every other while loop advances by an element or a byte or raises, and is a recursion accepted by Lean. Theorems: `C101_steps`, `C101_ends_iff`, `C101_covered_partial`, `C101_diverges`.
* **C102** listings of abbreviations and debugging information (partial). Abbreviations: complete, from the encoded bytes. Debugging information: the listing and when it is complete are exact, and for encoded entries it has exactly their lines; violated for attribute names of 30 characters or more (joined with the form), for values of form loclistx and rnglistx and for empty locations, where the listing ends with an exception. Theorems: `C102_up_to_error`, `C102_complete_iff`, `C102_debug_info_partial`, `C102_entries_partial`, `C102_abbrevs`, `C102_program`, `C102_joined`, `C102_no_value`, `C102_empty_location`.
* **C103** Options that do not concern a report (proved). Equality of makeReport for two option records that differ in the options named, in every world. Theorems: `C103_listing`, `C103_json_listing`, `C103_deps`, `C103_json_deps`, `C103_tree_deps`, `C103_raw`, `C103_tree`, `C103_summary`, `C103_json_summary`, `C103_unchanged`.
* **C104** attributes of the ELF file are evaluated on first use (partial). independence of all names that are not needed, agreement with the model used elsewhere, and the complete list of sources of exceptions are proved for all files; the last part is violated: the exception of an attribute escapes get (general theorems and witness). C104_read: a call that returns has read all needed names of sections and symbols. Theorems: `C104_get`, `C104_same`, `C104_errors_partial`, `C104_kinds_partial`, `C104_section_escapes`, `C104_table_escapes`, `C104_symbol_escapes`, `C104_deps`, `C104_deps_escapes`, `C104_witness`, `C104_read`, `C104_image_partial`.
* **C105** project descriptions and configurations with values of any JSON type (partial). independence of all other keys and values, agreement with the model used elsewhere for files of the expected types, and the complete list of exceptions are proved; violated: AttributeError, TypeError and KeyError escape get (general theorems and witness). Which texts of floating point numbers are zero is a parameter. Theorems: `C105_same`, `C105_files`, `C105_keys`, `C105_errors_partial`, `C105_no_target`, `C105_not_dict`, `C105_app_elf`, `C105_config`, `C105_target`, `C105_truth`, `C105_lto`, `C105_components`, `C105_component`, `C105_component_error`, `C105_witness`.
* **C106** Comparisons in both directions and over several versions agree (proved). Lists of archives, files and symbols as JSON. C106_flash_not_opposite: the totals of flash memories in raw reports are not opposite (C63). Theorems: `C106_opposite`, `C106_chain`, `C106_compares`, `C106_flash_not_opposite`.
* **C107** A change of the inputs is shown where it is made (partial). JSON, tables and CSV. If the maps of both projects lack the same (LoseSame: parts in no memory type, or replaced by another part of the same name, see C18, C25); section columns of files if no two are reported under one name (C81). A change that keeps the total of an entry is hidden without --show-unchanged (C10). Theorems: `C107_archives_partial`, `C107_files_partial`, `C107_archive_rows_partial`, `C107_file_rows_partial`, `C107_one`, `C107_moved`, `C107_added`, `C107_archive_cells`, `C107_file_cells_partial`, `C107_one_cell`.
* **C108** The report of dependencies of a whole run (partial). Sizes as in the report of archives without --use-dwarf; the sentence on --lto is refuted by C108_lto_option. C108_text_partial for the link map files of MapFileText. Theorems: `C108_dependencies`, `C108_text_partial`, `C108_dual`, `C108_sizes_partial`, `C108_lto_option`.
* **C109** Entries left behind by an exception (partial). Proved: what is left behind, for all bytes, tables and filters, and that a second call raises again if nothing was kept and the abbreviations could be read. Violated otherwise: the second call gives what was kept. Missing: RecursionError for deep nesting. Theorems: `C109_left`, `C109_all`, `C109_raised`, `C109_order`, `C109_finished`, `C109_open`, `C109_again_partial`, `C109_raises_once`.
* **C110** Runs over the files as they are (partial). Partial because the code violates the part on exceptions (witnesses). Nesting of JSON values beyond the recursion limit of Python and seeking beyond 2^63 are not modelled. The set order of Python is any permutation (SetOrder). Theorems: `C110_names`, `C110_same`, `C110_files`, `C110_depends`, `C110_get_errors_partial`, `C110_errors_partial`, `C110_kinds_partial`, `C110_not_dict`, `C110_deps_escape`, `C110_witness`.
* **C111** Error messages instead of reports (proved). Equivalence for runs over bytes (C111_exit); d is the compared and prepared memory map of the run (RunLoaded). If dependencies are asked for and the table of symbols of the ELF file cannot be read, the exception of C110 is raised instead of a report; C111_report excludes this by hypothesis. Theorems: `C111_show`, `C111_report`, `C111_exit`, `C111_ok`, `C111_default`, `C111_witness`.
* **C112** Outcomes of a run over any files (partial). The classification holds for all files; that every run ends is refuted for every chip (C112_chips_diverge) and by a file of 150 bytes (C112_diverges). Theorems: `C112_steps`, `C112_ends_iff`, `C112_outcome`, `C112_chips_diverge`, `C112_diverges`.
* **C113** The error message states the reason (partial). Messages and the equivalence with C111's reasons proved for all memory maps and options; names quoted as given are proved for names without markup, in the summary for names with any brackets (escape), without an escaped bracket and a backslash at the end. Violations proved: in tables of archives, files and symbols with n columns the message names 1..n-1 although n is accepted (C113_wrong_range); there the name is not escaped, so [x] is not shown (C113_hidden_name); escape doubles a backslash at the end (C113_extra_backslash). How log.die prints is inferred from the escape in the code. C113_archive_iff and C113_column_iff are exact: a name is shown as given exactly if it has neither a tag nor an escaped bracket. A name that looks like the end of a style raises an exception while the message is printed (C113_raises). Theorems: `C113_message_partial`, `C113_run_partial`, `C113_numbers`, `C113_wrong_range`, `C113_hidden_name`, `C113_extra_backslash`, `C113_archive_iff`, `C113_column_iff`, `C113_raises`.
* **C114** Messages about a link map file locate the problem (partial). The code violates the property: the message about a missing listing contains the text {self.fn} instead of the name of the file, and text in brackets is not shown. C114_shown_partial is for lines and names of files that do not look like markup; the rest holds for all files. Not covered: the message for a file that cannot be read. Theorems: `C114_iff`, `C114_line`, `C114_first`, `C114_no_config`, `C114_no_listing`, `C114_locates`, `C114_shown_partial`, `C114_script_unnamed`, `C114_hidden`.
* **C115** Messages about sections and symbols name the one that is wrong (partial). The code violates the property: a symbol may be said not to fit into an input section in which it does not start (C115_elsewhere), and names in brackets are not shown (C115_hidden). C115_validate_iff, C115_misplaced, C115_symbols and C115_texts hold for all sections and symbols, with the section of the message being the first that ends behind the address of the symbol; C115_shown_partial is for names that do not look like markup. Theorems: `C115_validate_iff`, `C115_misplaced`, `C115_symbols`, `C115_texts`, `C115_shown_partial`, `C115_hidden`, `C115_elsewhere`.
* **C116** Warnings about memory say what is the case, with all names and numbers (partial). The code violates the property: a part below all regions is said to be assigned to the preceding region although that is above it (C116_not_preceding); names in brackets are not shown and may stop the run (C116_hidden). C116_true holds for all regions, with that case as the only exception; C116_known, C116_reads and C116_exceeds hold for all messages; C116_names holds for all calls that return; C116_shown_partial and C116_run_partial are for names that do not look like markup. The texts of the messages that quote an exception are left out, see C115 and C117. C116_shown_iff is exact for the warnings without style. Theorems: `C116_known`, `C116_shown_partial`, `C116_names`, `C116_run_partial`, `C116_reads`, `C116_true`, `C116_exceeds`, `C116_not_preceding`, `C116_hidden`, `C116_shown_iff`.
* **C117** The message about an ELF file that cannot be parsed tells what is wrong with it (partial). The code violates the property: a file that begins with [/a] stops the run while the message is printed (C117_magic_raises). C117_iff, C117_says, C117_unique, C117_text, C117_repr and C117_printable hold for all files; C117_shown_partial is for paths that do not look like markup and magic numbers without an opening bracket. C117_same_offset records that the offset need not tell what was to be read. C117_shown_iff is exact. Theorems: `C117_iff`, `C117_says`, `C117_unique`, `C117_text`, `C117_repr`, `C117_printable`, `C117_shown_partial`, `C117_magic_raises`, `C117_same_offset`, `C117_shown_iff`.
* **C118** The message about debugging information that cannot be read tells what is wrong with it (partial). The code violates the property: the form addrx of DWARF 5 is called unknown together with its name (C118_known_form), units of version 0 and 1 are read (C118_old_version), and an empty expression, by which DWARF describes an object without location, is called invalid (C118_empty). The other theorems are exact, for all contents, forms and expressions. Theorems: `C118_unit`, `C118_unit_iff`, `C118_units`, `C118_units_iff`, `C118_form`, `C118_stack`, `C118_shown`, `C118_reads`, `C118_names`, `C118_known_form`, `C118_old_version`, `C118_empty`.
* **C119** A project that is refused is refused with the one message that is true of it (partial). exactly when, truth, uniqueness and difference for all files, exactly when the message is shown as it is, and for whole runs with one or two projects; partial: text in brackets is not shown (C119_hidden) or makes printing fail (C119_raises), the text of the operating system is a parameter Theorems: `C119_iff`, `C119_true`, `C119_one`, `C119_message`, `C119_kinds`, `C119_shown_partial`, `C119_shown_iff`, `C119_target_unnamed`, `C119_hidden`, `C119_raises`, `C119_run_iff`, `C119_run_true`, `C119_run_exit`, `C119_run_ambiguous`.
* **C120** Errors that are reported while a project is read are true, and the call goes on without what could not be read (partial). when, which, and going on without the ELF file for all files, and exactly when the message is shown as it is; partial: violated for entries of the cross reference table, after which IndexError ends the call (C120_entry_crash), for runs, which report an ELF file twice (C120_twice), and for text in brackets (C120_hidden) Theorems: `C120_entry_iff`, `C120_entry_true`, `C120_entry_crash`, `C120_elf_true`, `C120_elf_goes_on`, `C120_elf_told`, `C120_messages`, `C120_twice`, `C120_shown_partial`, `C120_shown_iff`, `C120_hidden`.
* **C121** A tree is shown whatever the names in it are (partial). Exactly when a tree is shown, for all trees: if every name in it can be rendered, in particular if it has no tag. Violated otherwise: a name that looks like the end of a style raises MarkupError and nothing is printed (C121_raises). The guides drawn by rich are not modelled. Theorems: `C121_map_iff`, `C121_deps_iff`, `C121_noTag`, `C121_raises`.

## Axioms of the property theorems

No axioms: `C118_old_version`, `C99_operation_bytes`.

`propext`: `C105_truth`, `C107_added`, `C43_handled`, `C43_no_output_file`, `C44_abbrev`, `C44_unify_abbrev`, `C46_sleb_wrong`, `C49_first_entry_partial`, `C50_implicit`, `C50_unsupported`, `C64_verbatim_partial`, `C66_implicit_negative`, `C90_utf8`, `C98_plain_partial`.

`Quot.sound`, `propext`: `C01_diff_pointwise`, `C02_diff_union`, `C03_diff_antisymm`, `C04_unify_aggregates`, `C04_unify_totals`, `C05_unify_idem`, `C05_unify_keys`, `C07_sort_stable`, `C07_summary_sorted`, `C08_remove_unused_partial`, `C102_up_to_error`, `C107_moved`, `C107_one`, `C107_one_cell`, `C115_misplaced`, `C115_validate_iff`, `C121_noTag`, `C29_padding_bound`, `C29_tidy`, `C32_disjoint`, `C32_validate`, `C32_validate_all`, `C37_dot`, `C41_csv_read_partial`, `C43_output_file_partial`, `C43_truncated`, `C48_fails`, `C48_lookup`, `C49_any`, `C50_cut_string`, `C50_ref_addr_v2`, `C50_ref_sig8`, `C64_shorter`, `C64_verbatim_iff`, `C67_symbols`, `C81_types`, `C85_sections_add_up`, `C90_ascii`, `C98_cell_raises`, `C98_csv_raises`, `C98_stray_raises`, `C98_verbatim_iff`, `uleb_exists`.

`Classical.choice`, `Quot.sound`, `propext`: `C03_diff_self`, `C06_unify_diff_commute`, `C08_zero_used_remains`, `C09_ignore_flash_size`, `C09_self_diff_nonzero`, `C09_self_diff_partial`, `C100_all_sections`, `C100_imported`, `C100_imported_table`, `C100_section_line`, `C100_sections`, `C100_symbol_cu_partial`, `C100_symbol_line_partial`, `C100_symbol_table_partial`, `C100_symbols_partial`, `C100_unnamed_type`, `C101_covered_partial`, `C101_diverges`, `C101_ends_iff`, `C101_steps`, `C102_abbrevs`, `C102_complete_iff`, `C102_debug_info_partial`, `C102_empty_location`, `C102_entries_partial`, `C102_joined`, `C102_no_value`, `C102_program`, `C103_deps`, `C103_json_deps`, `C103_json_listing`, `C103_json_summary`, `C103_listing`, `C103_raw`, `C103_summary`, `C103_tree`, `C103_tree_deps`, `C103_unchanged`, `C104_deps`, `C104_deps_escapes`, `C104_errors_partial`, `C104_get`, `C104_image_partial`, `C104_kinds_partial`, `C104_read`, `C104_same`, `C104_section_escapes`, `C104_symbol_escapes`, `C104_table_escapes`, `C104_witness`, `C105_app_elf`, `C105_component`, `C105_component_error`, `C105_components`, `C105_config`, `C105_errors_partial`, `C105_files`, `C105_keys`, `C105_lto`, `C105_no_target`, `C105_not_dict`, `C105_same`, `C105_target`, `C105_witness`, `C106_chain`, `C106_compares`, `C106_flash_not_opposite`, `C106_opposite`, `C107_archive_cells`, `C107_archive_rows_partial`, `C107_archives_partial`, `C107_file_cells_partial`, `C107_file_rows_partial`, `C107_files_partial`, `C108_dependencies`, `C108_dual`, `C108_lto_option`, `C108_sizes_partial`, `C108_text_partial`, `C109_again_partial`, `C109_all`, `C109_finished`, `C109_left`, `C109_open`, `C109_order`, `C109_raised`, `C109_raises_once`, `C10_hidden_changes`, `C10_trim_partial`, `C110_depends`, `C110_deps_escape`, `C110_errors_partial`, `C110_files`, `C110_get_errors_partial`, `C110_kinds_partial`, `C110_names`, `C110_not_dict`, `C110_same`, `C110_witness`, `C111_default`, `C111_exit`, `C111_ok`, `C111_report`, `C111_show`, `C111_witness`, `C112_chips_diverge`, `C112_diverges`, `C112_ends_iff`, `C112_outcome`, `C112_steps`, `C113_archive_iff`, `C113_column_iff`, `C113_extra_backslash`, `C113_hidden_name`, `C113_message_partial`, `C113_numbers`, `C113_raises`, `C113_run_partial`, `C113_wrong_range`, `C114_first`, `C114_hidden`, `C114_iff`, `C114_line`, `C114_locates`, `C114_no_config`, `C114_no_listing`, `C114_script_unnamed`, `C114_shown_partial`, `C115_elsewhere`, `C115_hidden`, `C115_shown_partial`, `C115_symbols`, `C115_texts`, `C116_exceeds`, `C116_hidden`, `C116_known`, `C116_names`, `C116_not_preceding`, `C116_reads`, `C116_run_partial`, `C116_shown_iff`, `C116_shown_partial`, `C116_true`, `C117_iff`, `C117_magic_raises`, `C117_printable`, `C117_repr`, `C117_same_offset`, `C117_says`, `C117_shown_iff`, `C117_shown_partial`, `C117_text`, `C117_unique`, `C118_empty`, `C118_form`, `C118_known_form`, `C118_names`, `C118_reads`, `C118_shown`, `C118_stack`, `C118_unit`, `C118_unit_iff`, `C118_units`, `C118_units_iff`, `C119_hidden`, `C119_iff`, `C119_kinds`, `C119_message`, `C119_one`, `C119_raises`, `C119_run_ambiguous`, `C119_run_exit`, `C119_run_iff`, `C119_run_true`, `C119_shown_iff`, `C119_shown_partial`, `C119_target_unnamed`, `C119_true`, `C11_archives_summary`, `C11_names`, `C120_elf_goes_on`, `C120_elf_told`, `C120_elf_true`, `C120_entry_crash`, `C120_entry_iff`, `C120_entry_true`, `C120_hidden`, `C120_messages`, `C120_shown_iff`, `C120_shown_partial`, `C120_twice`, `C121_deps_iff`, `C121_map_iff`, `C121_raises`, `C12_entries`, `C12_files_summary_partial`, `C12_unify_section_lost`, `C13_entries`, `C13_present_not_found`, `C13_symbols_summary_partial`, `C13_unify_section_lost`, `C14_covered_region`, `C14_split_regions`, `C15_diverges`, `C15_ends_iff`, `C15_terminates_iff`, `C15_terminates_partial`, `C16_partial_alias`, `C16_sizes_partial`, `C17_accounted`, `C18_entries`, `C18_same_name_lost`, `C18_used_partial`, `C19_split_sections`, `C19_total`, `C20_filter`, `C21_duplicate_names`, `C21_image_size_elf_partial`, `C21_image_size_no_elf`, `C22_complete`, `C22_inside`, `C23_archives`, `C24_entry`, `C24_external_ram`, `C25_above_all`, `C25_below_all`, `C25_overflow_partial`, `C26_expand_partial`, `C26_fill_overwritten`, `C26_tail_lost`, `C26_total_partial`, `C27_no_header`, `C27_rejected`, `C27_round_trip`, `C28_no_paren`, `C28_parenthesis`, `C28_split_partial`, `C29_before`, `C29_fill_expected`, `C29_fill_lost`, `C29_fill_wrong`, `C29_no_listing`, `C29_no_table_partial`, `C29_sections_partial`, `C29_unclosed_lost`, `C30_errors_partial`, `C30_index_error`, `C30_name_error`, `C30_regions_partial`, `C30_sections_partial`, `C30_type_error`, `C30_value_error`, `C31_inside`, `C31_once`, `C31_padding`, `C32_parsed`, `C32_type_error`, `C33_duplicate_lost`, `C33_no_table`, `C33_round_trip`, `C34_detect`, `C34_detect_cmake`, `C34_detect_cmake_any`, `C34_detect_make`, `C34_detect_none`, `C34_error`, `C34_no_target`, `C34_target`, `C35_dual`, `C35_report`, `C35_requires`, `C35_table_ok`, `C36_deterministic_partial`, `C36_order_visible`, `C37_dot_output`, `C37_graph_partial`, `C37_only_dependencies`, `C37_quotes_break`, `C37_text_partial`, `C38_filter`, `C38_fnmatch`, `C38_pattern`, `C38_substring`, `C39_archives_table`, `C39_files_table`, `C39_no_rows_accepts_invalid`, `C39_symbols_table`, `C40_percent_not_sorted`, `C40_rows`, `C40_sorted_by_value`, `C40_summary_table_partial`, `C41_detail_csv_partial`, `C41_quote_breaks`, `C42_json_no_abbrev`, `C42_json_summary_partial`, `C42_parts_lost`, `C44_consulted`, `C44_dependencies_no_diff`, `C44_dwarf_for_summary`, `C44_dwarf_partial`, `C44_formatter`, `C45_uleb_any`, `C45_uleb_decode`, `C46_sleb_partial`, `C46_sleb_start`, `C47_length`, `C47_open_partial`, `C47_short_file`, `C47_sint`, `C47_symbols`, `C47_uint`, `C48_name`, `C49_tile`, `C49_type_unit`, `C49_units`, `C50_cut_block`, `C50_cut_leb`, `C50_cut_number`, `C50_cut_ref`, `C50_cut_ublock`, `C50_form_partial`, `C51_address`, `C51_empty_location`, `C51_eval_then_text`, `C51_eval_twice`, `C51_shown`, `C51_string`, `C51_strp`, `C51_text_partial`, `C52_ext_ram`, `C52_found_partial`, `C52_listed`, `C52_no_region`, `C52_s3_run`, `C52_shadowed`, `C52_size_zero`, `C52_tables`, `C52_unique_partial`, `C53_elf_ignored`, `C53_elf_lost`, `C53_map_file_partial`, `C53_sections_partial`, `C54_walk_mem`, `C54_walk_order`, `C55_same_name_lost`, `C55_symbols_partial`, `C56_no_elf`, `C56_no_holes_partial`, `C56_tail_empty`, `C57_component_partial`, `C57_dot`, `C57_objectFile`, `C57_posix`, `C57_prefix`, `C57_relative`, `C58_accounted`, `C59_errors_partial`, `C59_index_error`, `C59_key_error`, `C60_inside_partial`, `C60_outside`, `C61_archive_report_partial`, `C62_unify_hides`, `C62_unify_no_deps`, `C63_no_differences_partial`, `C63_self_compare_flash_size`, `C63_self_compare_nonzero`, `C63_self_compare_partial`, `C63_sort_fails`, `C64_brackets_lost`, `C64_report_loses_name`, `C65_dependency_table`, `C65_filter`, `C66_abbrevs`, `C66_codes`, `C66_dead_branch`, `C66_entries_partial`, `C67_address`, `C67_entries_partial`, `C67_names`, `C67_partial_unit`, `C67_unit_name`, `C68_brackets_lost`, `C68_distinct`, `C68_documents_partial`, `C68_grammar_partial`, `C68_text_partial`, `C68_unify_null`, `C69_brackets_lost`, `C69_deps_tree_partial`, `C69_labels_distinct`, `C69_map_tree_partial`, `C69_type_labels_distinct`, `C70_map_file_partial`, `C70_print_parse_partial`, `C71_csv_archives_partial`, `C72_elf_view`, `C72_image_size_partial`, `C73_json_archives_partial`, `C73_json_files_partial`, `C73_raw_used_partial`, `C74_empty_piece`, `C74_pieces`, `C74_placed`, `C75_alias_twice`, `C75_symbols_fit_partial`, `C76_nested`, `C77_archives_diff_partial`, `C77_archives_partial`, `C77_files_diff_partial`, `C77_files_partial`, `C78_elf_totals_partial`, `C78_no_symbols`, `C78_origin`, `C78_totals_partial`, `C79_symbols_diff_partial`, `C79_symbols_partial`, `C80_accounted`, `C80_badElf`, `C80_badElf_iff`, `C80_badElf_twice`, `C80_dwarf`, `C80_exceeds_fits`, `C80_exceeds_partial`, `C80_invalid`, `C80_noDesc`, `C80_noElf`, `C80_noTarget`, `C80_noTarget_partial`, `C80_noTarget_silent`, `C80_nowhere`, `C80_options`, `C80_overflow`, `C80_regions`, `C80_targets_partial`, `C80_targets_swapped`, `C81_accounted`, `C81_archives`, `C81_archives_diff`, `C81_files_diff_partial`, `C81_files_partial`, `C81_files_section_lost`, `C81_symbols_diff_partial`, `C81_symbols_partial`, `C82_frame`, `C82_load`, `C82_lto_lost`, `C82_lto_partial`, `C83_abbrev`, `C83_csv`, `C83_filter_fails`, `C83_filter_partial`, `C83_sort`, `C83_text`, `C83_unchanged_partial`, `C84_listing`, `C84_percent_cell`, `C84_size_cell`, `C84_space_cell`, `C85_map_diff`, `C85_map_plain`, `C85_used_total`, `C86_archive_row`, `C86_archives_files`, `C86_hidden_archive`, `C86_room`, `C86_used`, `C87_description`, `C87_json`, `C87_line_ends`, `C87_line_separator`, `C87_lines`, `C87_no_json`, `C87_not_text`, `C87_sdkconfig`, `C88_units_partial`, `C89_maxsplit`, `C89_number`, `C89_sort_number`, `C89_split`, `C89_white`, `C90_ambiguous`, `C90_csv_partial`, `C90_json_partial`, `C90_not_opened`, `C90_run`, `C90_text`, `C90_unwritable`, `C90_written`, `C91_cell`, `C91_minus_zero`, `C91_monotone`, `C91_not_full`, `C91_not_sorted`, `C91_percent`, `C91_range`, `C91_run`, `C91_run_diff`, `C92_missing`, `C92_package`, `C92_read`, `C92_value`, `C93_accepted`, `C93_docs`, `C93_order`, `C93_run`, `C93_status`, `C93_unique`, `C94_abspath`, `C94_example`, `C94_projectPath`, `C94_reference`, `C94_run`, `C94_spelling`, `C94_worlds`, `C95_again_partial`, `C95_dwarf_kept`, `C95_warning_lost`, `C96_abbrevs_partial`, `C96_add_partial`, `C96_entries_partial`, `C96_filter_ignored`, `C96_first`, `C96_left_abbrevs`, `C96_left_symbols`, `C96_left_units`, `C96_raises_once`, `C96_symbols_partial`, `C96_twice_partial`, `C96_twice_raises`, `C96_units_partial`, `C97_entry_size`, `C97_entry_size_wrong`, `C97_header`, `C97_opened_partial`, `C97_phdrs64`, `C97_phdrs64_wrong`, `C97_phdrs_opened`, `C97_phdrs_partial`, `C97_sections`, `C98_calls_partial`, `C98_cells`, `C98_comparison_partial`, `C98_csv_iff`, `C98_csv_partial`, `C98_csv_summary_iff`, `C98_csv_titles`, `C98_deps_csv_partial`, `C98_deps_shown_iff`, `C98_deps_symbols_lost`, `C98_deps_unannounced`, `C98_image`, `C98_name_raises`, `C98_noTag_partial`, `C98_path_raises`, `C98_report_partial`, `C98_shown_iff`, `C99_attributes`, `C99_bindings_partial`, `C99_bindings_wrong`, `C99_different`, `C99_forms`, `C99_numbered`, `C99_operations`, `C99_sections_partial`, `C99_sections_wrong`, `C99_symbol_types`, `C99_symbols_raise`, `C99_tags`, `C99_visibility`, `addSymbols_exact`, `expandSymbols_ok`, `sleb_exists`, `symOf_enc`, `uleb_unique`.
