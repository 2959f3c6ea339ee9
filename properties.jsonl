{"id": "C01", "title": "diff is pointwise subtraction", "statement": "For any two memory maps cur and ref, memorymap.diff(cur, ref) has, at every path (memory type / section / archive / object file / symbol) present in either map, size equal to the size in cur (0 if absent there) and size_diff equal to size in cur minus size in ref (0 where absent); the same for used/used_diff of memory types and for image_size_diff. target_diff and project_path_diff are those of ref.", "quantifier": "all pairs of memory maps with any number of entries at any of the five levels", "why_tests_cant": "needs every pair of trees, including entries present on one side only at any of the five levels", "anchors": ["esp_idf_size/memorymap.py:diff"]}
{"id": "C02", "title": "diff result is the union of both maps", "statement": "A path is present in diff(cur, ref) if and only if it is present in cur or in ref; entries of cur keep their order and their abbreviated name, and entries only in ref come after those of cur.", "quantifier": "all pairs of memory maps", "why_tests_cant": "one-sided entries may appear at any level and in any combination", "anchors": ["esp_idf_size/memorymap.py:diff"]}
{"id": "C03", "title": "diff of a map with itself is all zeros, and diff is antisymmetric", "statement": "diff(m, m) has every *_diff field equal to zero and otherwise equals m; size_diff at any path of diff(a, b) is minus the one of diff(b, a).", "quantifier": "all memory maps, all paths", "why_tests_cant": "universal over maps and paths", "anchors": ["esp_idf_size/memorymap.py:diff"]}
{"id": "C04", "title": "unify preserves sizes", "statement": "unify(m) leaves the memory types, their size, used and *_diff unchanged; for each memory type and each abbreviated section name, the unified section size (and size_diff) is the sum of the sizes (diffs) of all sections having that abbreviated name, and likewise for archives, object files and symbols grouped by the whole chain of abbreviated names; so every total is conserved.", "quantifier": "all memory maps with abbreviations colliding in any pattern", "why_tests_cant": "the collision patterns are unbounded", "anchors": ["esp_idf_size/memorymap.py:unify"]}
{"id": "C05", "title": "unify is idempotent and keys are the abbreviated names", "statement": "After unify(m) every key below the memory-type level equals the abbrev_name of its entry and keys are distinct at each level; applying unify a second time changes nothing.", "quantifier": "all memory maps", "why_tests_cant": "universal over trees", "anchors": ["esp_idf_size/memorymap.py:unify"]}
{"id": "C06", "title": "unify and diff commute", "statement": "unify(diff(a, b)) and diff(unify(a), unify(b)) report the same size and size_diff at every path, so the documented workflow (diff, then unify) gives the same numbers as unifying both projects first.", "quantifier": "all pairs of maps whose abbreviated names are a function of the full names at each level (as produced by get())", "why_tests_cant": "every pattern of collision and one-sidedness", "anchors": ["esp_idf_size/memorymap.py:diff", "esp_idf_size/memorymap.py:unify"]}
{"id": "C07", "title": "sorting only reorders", "statement": "sort() returns, at each of the five levels, a permutation of the entries, in non-increasing (non-decreasing with --sort-reverse) order of the selected key, equal keys keeping their previous order; no entry, size or name is changed.", "quantifier": "all memory maps, both directions, both keys", "why_tests_cant": "all sizes and all tie patterns", "anchors": ["esp_idf_size/memorymap.py:sort", "esp_idf_size/memorymap.py:sort_dict_by_key", "esp_idf_size/memorymap.py:get_summary_sorted"]}
{"id": "C08", "title": "remove_unused leaves used equal to the sum of the section sizes", "statement": "After remove_unused(m), every remaining memory type was used in m, every remaining section has at least one archive, every section with an archive of a used type remains, and used is exactly the sum of the sizes of the remaining sections. Expected also: no remaining memory type has used equal to zero.", "quantifier": "all memory maps", "why_tests_cant": "universal over trees", "anchors": ["esp_idf_size/memorymap.py:remove_unused"]}
{"id": "C09", "title": "flash totals are ignored on both sides of a comparison", "statement": "Unless --use-flash-size is given, every memory type whose name contains \"flash\" (any case) is reported with total size 0, all other sizes are unchanged, and with --diff the reference map is treated the same way, so comparing a project with itself reports zero differences everywhere.", "quantifier": "all memory maps / pairs of maps", "why_tests_cant": "universal over maps and names", "anchors": ["esp_idf_size/memorymap.py:ignore_flash_size", "esp_idf_size/main.py:_run"]}
{"id": "C10", "title": "trim hides exactly the unchanged entries", "statement": "Without --diff (or with --show-unchanged) trim removes no entry except below the requested depth; with --diff an entry is kept if and only if its own difference and those of all its ancestors are nonzero. Expected: no entry with a nonzero difference is hidden.", "quantifier": "all memory maps and option combinations", "why_tests_cant": "differences may cancel at any level", "anchors": ["esp_idf_size/memorymap.py:trim"]}
{"id": "C11", "title": "archive report accounts for every byte", "statement": "The per-archive summary has one entry per archive name; its size is the sum of the sizes of that archive in all sections of all memory types, its per-memory-type sizes sum to its size and its per-section sizes sum to the per-memory-type size; the sum over all entries is the sum over all archives of the tree. Same for size_diff.", "quantifier": "all memory maps", "why_tests_cant": "universal over trees", "anchors": ["esp_idf_size/memorymap.py:get_archives_summary", "esp_idf_size/memorymap.py:walk", "esp_idf_size/memorymap.py:_get_summary_memory_types"]}
{"id": "C12", "title": "object-file report accounts for every byte", "statement": "The per-file summary sizes sum to the sum of all object file sizes of the tree, each entry size is the sum of its per-memory-type sizes, and each of these is the sum of its per-section sizes; with and without --unify.", "quantifier": "all memory maps and both settings of --unify", "why_tests_cant": "name collisions between archives are unbounded", "anchors": ["esp_idf_size/memorymap.py:get_object_files_summary"]}
{"id": "C13", "title": "symbol report covers exactly the requested archive", "statement": "The --archive-details summary lists exactly the symbols of the archives whose abbreviated name is the requested one, with sizes summing to their sizes; if the archive is present in the map it is reported, if it is not present the tool exits with an error.", "quantifier": "all memory maps and archive names", "why_tests_cant": "universal over trees", "anchors": ["esp_idf_size/memorymap.py:get_symbols_summary"]}
{"id": "C14", "title": "a region is split without gap, overlap or loss", "statement": "For each linker memory region that the chip memory types cover, the pieces it is split into are consecutive, start at its origin, have lengths summing to its length, and each piece lies inside the primary or the secondary window of the memory type it is assigned to.", "quantifier": "all region lists and all memory-type tables", "why_tests_cant": "all alignments of regions against windows", "anchors": ["esp_idf_size/memorymap.py:_split_memory_regions"]}
{"id": "C15", "title": "region splitting terminates", "statement": "memorymap.get() terminates for every Memory Configuration; each region is either fully assigned or reported by a warning.", "quantifier": "all region lists and all memory-type tables", "why_tests_cant": "non-termination cannot be observed by a finite test", "anchors": ["esp_idf_size/memorymap.py:_split_memory_regions"]}
{"id": "C16", "title": "aliased regions are counted once", "statement": "The total size of a memory type is the sum of the lengths of the regions assigned to it, minus the lengths of those that alias an earlier one through the secondary address; it never exceeds the plain sum and, when each region is inside the window of the type and regions do not overlap, never exceeds the physical length.", "quantifier": "all region lists and memory-type tables", "why_tests_cant": "all orders and alias patterns", "anchors": ["esp_idf_size/memorymap.py:_get_mem_type_map"]}
{"id": "C17", "title": "every byte of output section is accounted exactly once", "statement": "The sum of used over all memory types plus the sizes of the output sections (or parts) reported by the \"cannot assign\" warning equals the sum of the sizes of the output sections kept by the section filter, whatever splitting, external-RAM routing or overflow handling took place.", "quantifier": "all section lists, region lists, memory-type tables", "why_tests_cant": "all placements, overlaps and overflows", "anchors": ["esp_idf_size/memorymap.py:_split_map_sections", "esp_idf_size/memorymap.py:_get_mem_type_map"]}
{"id": "C18", "title": "the sections of a memory type sum to its used value", "statement": "In the map returned by get(), used of each memory type is the sum of the sizes of its sections.", "quantifier": "all inputs", "why_tests_cant": "depends on key collisions between split parts and aliases", "anchors": ["esp_idf_size/memorymap.py:_get_mem_type_map"]}
{"id": "C19", "title": "splitting output sections conserves sizes and respects region boundaries", "statement": "Splitting terminates; each output section is replaced by consecutive parts with sizes summing to its size; each part either lies inside one region or starts in no region; the input section sizes, paddings and symbol sizes are conserved in total.", "quantifier": "all section lists and region lists", "why_tests_cant": "all alignments", "anchors": ["esp_idf_size/memorymap.py:_split_map_sections"]}
{"id": "C20", "title": "section filter keeps exactly the loaded sections", "statement": "An output section is kept iff it has nonzero size, is not a dummy/reserved_for_iram/noload gap, and is an allocated ELF section (or, without ELF information, has one of the listed names); kept sections are unchanged except that zero-size input sections are dropped, and order is preserved.", "quantifier": "all section lists and ELF header tables", "why_tests_cant": "universal over names and sizes", "anchors": ["esp_idf_size/memorymap.py:_filter_map_sections", "esp_idf_size/memorymap.py:_get_elf_sections_headers"]}
{"id": "C21", "title": "image size", "statement": "image_size is the sum of the sizes of the allocated PROGBITS sections of the ELF file; without ELF the sum of the kept output sections other than bss/noinit ones.", "quantifier": "all ELF header tables and section lists", "why_tests_cant": "universal; duplicate section names", "anchors": ["esp_idf_size/memorymap.py:_get_image_size", "esp_idf_size/memorymap.py:_get_elf_sections_headers"]}
{"id": "C22", "title": "symbols are attributed to the input section that contains them", "statement": "If get() succeeds with symbols loaded from ELF, every symbol attributed to an input section lies entirely inside its address range, and every sized function/object symbol that lies inside an input section (sections disjoint) is attributed to it exactly once.", "quantifier": "all ELF symbol tables and section lists", "why_tests_cant": "all orders and overlaps of symbols and sections", "anchors": ["esp_idf_size/memorymap.py:_add_symbols_to_sections"]}
{"id": "C23", "title": "archive, object file and input section sizes agree", "statement": "In the map, the size of an archive in a section is the sum of the sizes of its object files there, which is the sum of the sizes of its input sections there; and the sum over archives is the sum over the input sections of that section.", "quantifier": "all section lists", "why_tests_cant": "universal over lists", "anchors": ["esp_idf_size/memorymap.py:_add_archives_to_sections"]}
{"id": "C24", "title": "external RAM sections are routed by name", "statement": "On a chip with an external RAM memory type, every output section named .ext_ram.bss* or .ext_ram_noinit* is accounted to it whatever its address, and no other rule applies; on a chip without it, address lookup is used.", "quantifier": "all section lists, region lists, memory-type tables", "why_tests_cant": "shared address windows", "anchors": ["esp_idf_size/memorymap.py:_get_mem_type_map"]}
{"id": "C25", "title": "overflowing sections are still reported", "statement": "An output section (part) whose address is in no region but above some region is accounted to the closest region below it, under a name ending in _overflow, with a warning.", "quantifier": "all section and region lists", "why_tests_cant": "all overflow geometries", "anchors": ["esp_idf_size/memorymap.py:_get_mem_type_map"]}
{"id": "C26", "title": "LTO expansion conserves input section bytes", "statement": "Expanding archive-less input sections with DWARF information conserves, for every output section, the total size of its input sections.", "quantifier": "all section lists and symbol tables", "why_tests_cant": "all geometries of symbols against sections", "anchors": ["esp_idf_size/memorymap.py:_expand_input_sections"]}
{"id": "C27", "title": "Memory Configuration round trip", "statement": "For any list of memory regions (names and attributes without blanks), the Memory Configuration text the linker prints for it is parsed back to exactly this list; a non-blank line with a number of fields other than 3 or 4 is rejected with a MapFileException.", "quantifier": "all region lists, all texts", "why_tests_cant": "all texts", "anchors": ["esp_idf_size/mapfile.py:MapFile._get_memory_regions"]}
{"id": "C28", "title": "archive(object) references are split correctly", "statement": "For any archive path and member name, \"archive(member)\" is split into archive and member; a path without parenthesis is attributed to archive \"(exe)\".", "quantifier": "all paths", "why_tests_cant": "parentheses may occur anywhere in paths", "anchors": ["esp_idf_size/mapfile.py:MapFile._get_archive_object_file"]}
{"id": "C29", "title": "linker script section round trip", "statement": "For any list of output sections with input sections at increasing addresses inside them, printed by the linker in one-line or two-line form with *fill* padding lines, the parser returns exactly these sections with names, addresses, sizes, archives, objects and padding.", "quantifier": "all section lists", "why_tests_cant": "all layouts, name lengths, paddings", "anchors": ["esp_idf_size/mapfile.py:MapFile._get_sections"]}
{"id": "C30", "title": "malformed map files are rejected with the documented exception", "statement": "For any text, parsing it either succeeds or raises MapFileException (turned into a clean error message by the tool), never another exception.", "quantifier": "all texts", "why_tests_cant": "all texts", "anchors": ["esp_idf_size/mapfile.py:MapFile", "esp_idf_size/main.py:_run"]}
{"id": "C31", "title": "parsed input sections are inside their output section and never double counted", "statement": "In any parsed map, every input section but the first of an output section that has nonzero size starts inside the output section address range, and two consecutive input sections at the same address are not both counted.", "quantifier": "all texts", "why_tests_cant": "all texts", "anchors": ["esp_idf_size/mapfile.py:MapFile._get_sections"]}
{"id": "C32", "title": "validate accepts exactly contiguous sections", "statement": "validate() accepts a parsed map iff in each output section each nonzero input section starts where the previous nonzero ones (with padding) end, counting from the first input section; an accepted section never counts a byte twice.", "quantifier": "all parsed maps", "why_tests_cant": "all parsed maps", "anchors": ["esp_idf_size/mapfile.py:MapFile._validate_sections"]}
{"id": "C33", "title": "cross reference table round trip", "statement": "For any cross reference table (symbols without blanks, distinct), the text the linker prints is parsed back to the same table with the definition first and the references in order.", "quantifier": "all tables", "why_tests_cant": "all tables", "anchors": ["esp_idf_size/mapfile.py:MapFile._get_cross_reference_table"]}
{"id": "C34", "title": "target selection", "statement": "The chip target is the one of a project_description.json whose app_elf has the same stem as the map file; otherwise the one detected in the map file (lower-cased IDF_TARGET_x, or legacy forms); if none, MemMapException is raised.", "quantifier": "all project descriptions and texts", "why_tests_cant": "all texts", "anchors": ["esp_idf_size/memorymap.py:get", "esp_idf_size/memorymap.py:get_proj_desc", "esp_idf_size/mapfile.py:MapFile._get_target"]}
{"id": "C35", "title": "dependencies and reverse dependencies are dual", "statement": "Archive A depends on archive B through symbol s in the dependency report iff B has dependent A through s in the reverse report; an archive never depends on itself; every reported archive is in the memory map; the reported symbols are ELF function/object symbols defined in B and referenced by A in the cross reference table.", "quantifier": "all cross reference tables, maps and ELF symbol tables", "why_tests_cant": "all tables", "anchors": ["esp_idf_size/deps.py:get_archives_deps", "esp_idf_size/deps.py:get_archives_revdeps", "esp_idf_size/deps.py:_filter_crt"]}
{"id": "C36", "title": "dependency report is deterministic", "statement": "For the same input the dependency report is the same whatever the hash seed (set iteration order).", "quantifier": "all cross reference tables and all set iteration orders", "why_tests_cant": "iteration order is chosen by the runtime", "anchors": ["esp_idf_size/deps.py:get_archives_deps", "esp_idf_size/deps.py:get_archives_revdeps"]}
{"id": "C37", "title": "DOT output is a well-formed strict digraph", "statement": "The DOT output is the text of a strict directed graph that any reader of the DOT language can read. Each archive is declared at most once, every archive that occurs in an edge is declared before it, labelled with its name and total size, and there is one edge per dependency, directed from dependent to dependency in both modes and, with --dep-symbols, labelled with exactly the symbols that cause it.", "quantifier": "all dependency tables, all names of archives and symbols", "why_tests_cant": "all graphs and names: a test sees one graph, and names with quotes, backslashes or brackets do not occur in it", "anchors": ["esp_idf_size/format_dot.py:show_archives_dependencies"]}
{"id": "C38", "title": "filters are a logical OR and keep order", "statement": "--filter keeps exactly the entries whose displayed name matches at least one pattern as a substring pattern; order and contents of kept entries are unchanged; a pattern without wildcard characters matches iff it is a substring.", "quantifier": "all summaries, pattern lists, names", "why_tests_cant": "all strings", "anchors": ["esp_idf_size/memorymap.py:get_summary_filtered"]}
{"id": "C39", "title": "table rows and columns line up", "statement": "In the archive, file and symbol tables every row has exactly as many cells as there are columns, the k-th cell belongs to the k-th column (same memory type/section), the rows are the filtered entries sorted stably by the selected column (a number from 1, a negative number from the end, or a title); if there is any row, an invalid column is rejected with an error.", "quantifier": "all memory maps, all sort options", "why_tests_cant": "all trees, all column selectors", "anchors": ["esp_idf_size/format_table.py:_get_table_sorted", "esp_idf_size/format_table.py:get_archives_table", "esp_idf_size/format_table.py:get_object_files_table", "esp_idf_size/format_table.py:get_symbols_table"]}
{"id": "C40", "title": "summary table is sorted by the selected column", "statement": "In the summary table the memory types, and sections within them, are ordered by the column selected with --sort (number, negative number or name), including the percentage column; column 0 and out-of-range columns are rejected.", "quantifier": "all memory maps, all sort options", "why_tests_cant": "all sizes", "anchors": ["esp_idf_size/format_table.py:get_summary_table", "esp_idf_size/memorymap.py:sort_dict_by_key"]}
{"id": "C41", "title": "CSV output can be parsed back", "statement": "A standard CSV reader applied to the CSV output yields the cells of the table (stripped).", "quantifier": "all tables", "why_tests_cant": "all strings", "anchors": ["esp_idf_size/format_csv.py:show_table"]}
{"id": "C42", "title": "json2 summary parts sum to used", "statement": "In the json2 summary, total_size is the image size, free is total - used (0 when the total is unknown), and the parts of each memory type sum to its used value.", "quantifier": "all memory maps", "why_tests_cant": "all abbreviation collisions", "anchors": ["esp_idf_size/format_json.py:show_summary"]}
{"id": "C43", "title": "a failed run never damages an existing output file", "statement": "If a run with --output-file fails at any point (exception, exit, interrupt), the previous content of the output file, or its absence, is preserved; if it succeeds the file contains exactly the whole report.", "quantifier": "all runs, all crash points, all file system states", "why_tests_cant": "crash points", "anchors": ["esp_idf_size/main.py:_run", "esp_idf_size/main.py:_write_output_file"]}
{"id": "C44", "title": "option conflicts are resolved consistently", "statement": "With --unify abbreviated names are always used; with --archive-dependencies no diff is computed; DWARF is consulted only for detailed reports; a report is produced by exactly one formatter.", "quantifier": "all option combinations", "why_tests_cant": "2^n combinations", "anchors": ["esp_idf_size/main.py:_run"]}
{"id": "C45", "title": "ULEB128 decoding", "statement": "For every natural number and any surrounding data, decoding its ULEB128 encoding (any padding) gives the number and the offset just after it; decoding always advances.", "quantifier": "all numbers, paddings, offsets", "why_tests_cant": "unbounded numbers", "anchors": ["esp_idf_size/elf.py:Elf.get_uleb128"]}
{"id": "C46", "title": "SLEB128 decoding", "statement": "For every integer and any surrounding data, decoding its SLEB128 encoding gives the integer and the offset just after it.", "quantifier": "all integers, offsets", "why_tests_cant": "unbounded numbers and contexts", "anchors": ["esp_idf_size/elf.py:Elf.get_sleb128"]}
{"id": "C47", "title": "fixed-width integers and structures", "statement": "For every width, byte order and value in range, decoding the bytes of the value gives the value and the offset just after it; ELF headers, section headers and symbols written per the ELF specification for class 32/64 and either byte order are parsed back to the same field values.", "quantifier": "all values, both classes, both byte orders", "why_tests_cant": "all values", "anchors": ["esp_idf_size/elf.py:Elf.get_int", "esp_idf_size/elf.py:Elf.get_fmt", "esp_idf_size/elf.py:Elf_Ehdr", "esp_idf_size/elf.py:Elf_Shdr", "esp_idf_size/elf.py:Elf_Sym"]}
{"id": "C48", "title": "string tables", "statement": "Looking up an index in a string table returns the bytes up to the first NUL at or after the index; it fails only if there is none.", "quantifier": "all tables and indices", "why_tests_cant": "all data", "anchors": ["esp_idf_size/elf.py:Elf.lookup_string", "esp_idf_size/elf.py:Elf.get_string"]}
{"id": "C49", "title": "compilation units tile .debug_info", "statement": "The compilation units found are consecutive, start at 0 and end at the end of the section, in 32-bit and 64-bit DWARF, for every well-formed .debug_info; the walk terminates for every section contents.", "quantifier": "all section contents", "why_tests_cant": "all data", "anchors": ["esp_idf_size/elf.py:Elf.CUs", "esp_idf_size/elf.py:Dwarf_CU.__init__"]}
{"id": "C50", "title": "every attribute form consumes its encoded size", "statement": "Reading an attribute value of any supported form consumes exactly the number of bytes that the DWARF standard prescribes for the form, so the next attribute is read from the right place.", "quantifier": "all forms, values, unit parameters", "why_tests_cant": "all data", "anchors": ["esp_idf_size/elf.py:Dwarf_CU.get_attr_value"]}
{"id": "C51", "title": "attribute evaluation is repeatable", "statement": "Evaluating a DWARF attribute any number of times gives the same result.", "quantifier": "all attributes, any number of evaluations", "why_tests_cant": "histories of evaluations", "anchors": ["esp_idf_size/elf.py:Dwarf_CU.get_attr_eval"]}
{"id": "C52", "title": "chip tables are consistent", "statement": "For every supported chip, memory types have positive length and distinct aliases, and every address belongs to a deterministic memory type; each listed memory type can receive regions.", "quantifier": "all supported chips, all addresses", "why_tests_cant": "all addresses", "anchors": ["esp_idf_size/chip_info/*.yaml", "esp_idf_size/memorymap.py:_get_memory_types"]}
{"id": "C53", "title": "supplied map file and ELF objects are used", "statement": "memorymap.get() called with map_file and elf objects uses those objects.", "quantifier": "all calls", "why_tests_cant": "all argument combinations", "anchors": ["esp_idf_size/memorymap.py:get"]}
{"id": "C54", "title": "walk enumerates each entry exactly once", "statement": "walk() at a depth yields exactly the entries of that level, each once, in tree order, with its ancestors.", "quantifier": "all memory maps and depths", "why_tests_cant": "all trees", "anchors": ["esp_idf_size/memorymap.py:walk"]}
{"id": "C55", "title": "symbols of an object file account for all symbols of its input sections", "statement": "In the map returned by get(), the symbols of an object file of an output section are exactly the symbols attributed to its input sections, with their sizes summing to the same total.", "quantifier": "all sections, archives, object files and symbols", "why_tests_cant": "depends on collisions of symbol names inside one object file", "anchors": ["esp_idf_size/memorymap.py:_add_archives_to_sections"]}
{"id": "C56", "title": "no input section is a hole in the symbol view", "statement": "With symbols loaded, every input section has at least one symbol: an ELF symbol inside it, or an entry named after the section itself.", "quantifier": "all ELF symbol tables and section lists", "why_tests_cant": "depends on the order of sections against all symbols", "anchors": ["esp_idf_size/memorymap.py:_add_symbols_to_sections"]}
{"id": "C57", "title": "LTO symbols go to the component that contains their compilation unit", "statement": "With DWARF information, a symbol is attributed to the archive of the component whose directory is the innermost one containing the symbol's compilation unit, and to none if no component directory contains it.", "quantifier": "all project descriptions and compilation unit paths", "why_tests_cant": "all path prefixes", "anchors": ["esp_idf_size/memorymap.py:_expand_input_sections"]}
{"id": "C58", "title": "the memory map of get() accounts for every kept output section", "statement": "The map returned by memorymap.get() is made of dictionaries with distinct keys and zero diff fields; the used values of all memory types plus the sizes of the section parts that are reported as not assignable sum to the total size of the output sections that count; without colliding entries the archives of the map carry exactly the sizes of their input sections.", "quantifier": "all link map files, project descriptions, ELF section/symbol lists, chip tables and arguments for which get() returns", "why_tests_cant": "the composition of parsing, filtering, splitting and assignment over arbitrary files; tests compare a few reference outputs", "anchors": ["esp_idf_size/memorymap.py:92-291"]}
{"id": "C59", "title": "get() raises only MemMapException", "statement": "Whatever the content of the link map file, project description and ELF file, memorymap.get() either returns a map or raises MemMapException, as documented.", "quantifier": "all file contents for which reading fails only with the anticipated exceptions", "why_tests_cant": "needs all malformed inputs", "anchors": ["esp_idf_size/memorymap.py:92-291", "esp_idf_size/memorymap.py:181-185"]}
{"id": "C60", "title": "the chip information file is one of the package", "statement": "The YAML file whose entries are evaluated for a target is always a file directly in the chip_info directory of the package.", "quantifier": "all targets that can come from a map file or a project description", "why_tests_cant": "adversarial target names are not in the test data", "anchors": ["esp_idf_size/memorymap.py:1431-1449", "esp_idf_size/mapfile.py:82-121"]}
{"id": "C61", "title": "archive report equals the map file", "statement": "The size shown for an archive in the archive report of a map returned by get() is the sum of the sizes of the input sections of that archive in the output sections that count.", "quantifier": "all inputs for which get() returns a map in which no two section parts share an entry and all parts are assigned", "why_tests_cant": "end-to-end statement over all map files", "anchors": ["esp_idf_size/memorymap.py:92-291", "esp_idf_size/memorymap.py:1236-1278"]}
{"id": "C62", "title": "--unify keeps the dependency report", "statement": "Unifying names does not remove archive dependencies: two archives that depend on each other before --unify still do, under their abbreviated names. (Violated: the cross reference table keeps the full names, so with --unify nothing is reported for archives with a directory part.)", "quantifier": "all memory maps, cross reference tables and ELF symbol tables", "why_tests_cant": "Tests combine few options; that every table with directory parts gives an empty report is a statement about all tables.", "anchors": ["esp_idf_size/deps.py:_filter_crt", "esp_idf_size/memorymap.py:unify", "esp_idf_size/main.py:_run"]}
{"id": "C63", "title": "comparing a project with itself shows no difference", "statement": "A run that compares a project with itself (--diff naming the input itself) reports zero for every difference: total and usage of memory types, sections, archives, object files and symbols.", "quantifier": "all projects, all file contents, all option combinations without --archive-dependencies", "why_tests_cant": "all projects", "anchors": ["esp_idf_size/main.py:_run", "esp_idf_size/memorymap.py:ignore_flash_size", "esp_idf_size/memorymap.py:diff"]}
{"id": "C64", "title": "names are shown verbatim", "statement": "The text shown in a report for a name (symbol, object file, archive, section) is the name itself, so different names are shown differently.", "quantifier": "all names", "why_tests_cant": "all strings, including those that look like console markup", "anchors": ["esp_idf_size/format_csv.py:show_table", "esp_idf_size/format_table.py:_get_table_sorted", "esp_idf_size/log.py:print"]}
{"id": "C65", "title": "dependency table lists the dependencies", "statement": "The dependency table has, in order, one row for each dependency of each archive that passes the filter; with the archive cells carried down into rows that leave them empty, every row names its archive, its size, the dependency and its size; all rows have a cell for each column.", "quantifier": "all dependency reports, all options", "why_tests_cant": "all dependency graphs", "anchors": ["esp_idf_size/format_table.py:get_archives_dependencies_table", "esp_idf_size/memorymap.py:get_summary_filtered"]}
{"id": "C66", "title": "the tree of debugging entries is read back as encoded", "statement": "For every DWARF unit encoded according to the standard, with any abbreviation declarations and any tree of entries, parsing gives exactly the encoded entries (or those with a wanted tag) under their offsets, with tag, parent, depth, size and attributes; parsing ends for every section contents.", "quantifier": "all abbreviation tables, entry trees of any shape and depth, section contents, filters", "why_tests_cant": "unbounded trees and encodings", "anchors": ["esp_idf_size/elf.py:Dwarf_CU.get_DIEs", "esp_idf_size/elf.py:Dwarf_CU.abbrev_table", "esp_idf_size/elf.py:Dwarf_Abbrev_Entry", "esp_idf_size/elf.py:Dwarf_Abbrev_Attr"]}
{"id": "C67", "title": "symbols get the name of the compilation unit that defines them", "statement": "After add_cus_to_symbols, each function or object symbol with a size that is not absolute has the name of the compilation unit with an entry (function or variable) at its address, no name if there is no such entry, and nothing else of the symbols changes.", "quantifier": "all ELF files", "why_tests_cant": "all symbol tables and debug information", "anchors": ["esp_idf_size/elf.py:Elf.add_cus_to_symbols"]}
{"id": "C68", "title": "JSON output can be read back", "statement": "The text printed for the json2 and raw formats is a JSON document, no object in it has two members with the same name, and reading it by the documented keys gives back the report (memory map, summary, or dependencies) that was to be printed, with every name and number unchanged.", "quantifier": "all memory maps, summaries and dependency reports, of any size and with any names", "why_tests_cant": "names with brackets, quotes, control or non-ASCII characters in any place of a report of any size", "anchors": ["esp_idf_size/format_json.py:show_summary", "esp_idf_size/format_json.py:show_archives", "esp_idf_size/format_json.py:show_object_files", "esp_idf_size/format_json.py:show_symbols", "esp_idf_size/format_json.py:show_archives_dependencies", "esp_idf_size/format_raw.py"]}
{"id": "C69", "title": "tree report shows every entry at its place", "statement": "The tree report has exactly one node for each memory type, section, archive, object file and symbol of the sorted and trimmed memory map, in its order and below the node it belongs to, labelled with its name and its size (and with a reference map the difference); a label determines the name and the numbers. The dependency tree likewise has one node per archive, dependency and, if wanted, symbol.", "quantifier": "all memory maps and dependency reports, all options", "why_tests_cant": "maps of any size, names of any form", "anchors": ["esp_idf_size/format_tree.py:show_memmap", "esp_idf_size/format_tree.py:show_archives_dependencies"]}
{"id": "C70", "title": "a link map file is read back as a whole", "statement": "Reading a link map file, printed with any amount of blanks and leading zeros, with any lines the linker prints between the parts, on one or two lines per section, gives the memory regions, the target, all output sections with their input sections as they count, and the cross reference table. In particular what a printer of such files prints is read back.", "quantifier": "all regions, targets, section lists, tables and layouts", "why_tests_cant": "files of any length and layout", "anchors": ["esp_idf_size/mapfile.py:MapFile.__init__", "esp_idf_size/mapfile.py:_get_memory_regions", "esp_idf_size/mapfile.py:_get_sections", "esp_idf_size/mapfile.py:_get_crt"]}
{"id": "C71", "title": "the archive report in CSV shows the totals of the link map file", "statement": "A run with --archives --format csv on a link map file, without a comparison, prints text that a standard CSV reader reads as one row per archive, named by the archive (or its base name), whose total is the sum of the sizes of the input sections of the archive listed in the file over the output sections that count; every archive with a nonzero total has a row.", "quantifier": "all link map files in the linker's layout, all chip tables, all ELF files, all other options", "why_tests_cant": "whole program on files of any size", "anchors": ["esp_idf_size/main.py:_run", "esp_idf_size/memorymap.py:get", "esp_idf_size/format_csv.py:show", "esp_idf_size/format_table.py:get_archives_table"]}
{"id": "C72", "title": "The image size comes from the bytes of the ELF file", "statement": "For every well-formed ELF file of either class and byte order, with any section and symbol names, what the tool uses of it is exactly what the file says: all section names, types, flags and sizes and all symbol names, values, sizes and types, in order. When the project description next to the link map file names this ELF file, `image_size` of the map returned by `memorymap.get` is the sum of the sizes of the allocated PROGBITS sections of the file, and every section in the map has the name of an allocated, non-empty section of the file.", "quantifier": "all ELF files (any bytes consistent with the headers, any number of sections, symbol tables and symbols), all projects and link map files, all options of get", "why_tests_cant": "Tests use a handful of ELF files produced by one toolchain; the layout freedom of the format (order and place of tables, byte order, class, shared string tables) is unbounded.", "anchors": ["esp_idf_size/elf.py:1927-2047", "esp_idf_size/memorymap.py:1197-1236", "esp_idf_size/memorymap.py:1617-1627"]}
{"id": "C73", "title": "Reports of whole runs agree with the link map file", "statement": "For a run without --diff and --unify on a link map file with no duplicated (memory type, section) entries and every section part in some memory type: `--archives --format json2` has exactly one entry per archive and `--files --format json2` one per `archive:object`, sorted by size, whose size is the sum of the sizes listed in the map file for the input sections of that archive or file in the output sections that count; no archive or file with a nonzero sum is missing. `--format raw --show-unused` has `used` sizes which, with the parts that fit in no memory type, add up to the listed sizes of the output sections that count.", "quantifier": "all map files of the described syntax, all ELF headers, all targets and chip tables, all option values other than those named", "why_tests_cant": "Tests compare the output for a handful of stored map files with stored expectations; the sums must agree for every layout, however sections are split over regions or aliases.", "anchors": ["esp_idf_size/main.py:99-152", "esp_idf_size/format_json.py:63-73", "esp_idf_size/memorymap.py:562-672", "esp_idf_size/mapfile.py"]}
{"id": "C74", "title": "parts of split output sections have what lies at their addresses", "statement": "Each part of an output section that is split at region boundaries contains, in order, exactly the pieces of the input sections, paddings and symbols that lie at the addresses of the part: the sizes in the part are the numbers of their bytes in it, every piece lies inside the part, and nothing without a byte there appears in it.", "quantifier": "all section lists with input sections and symbols inside their sections, all region lists, any number of cuts", "why_tests_cant": "The stored projects have at most a few split sections; the result depends on how each input section and symbol lies relative to each boundary.", "anchors": ["esp_idf_size/memorymap.py:978-1073"]}
{"id": "C75", "title": "symbols never exceed their object file", "statement": "In the map returned by `memorymap.get`, the sizes of the symbols of an object file in a section add up to at most the size of the object file there.", "quantifier": "all link map files with input sections inside their output sections, all ELF symbol tables, all chip tables, with and without load_symbols", "why_tests_cant": "Tests use few ELF files; the claim depends on how symbols, input sections and region boundaries lie relative to each other.", "anchors": ["esp_idf_size/memorymap.py:1105-1194", "esp_idf_size/memorymap.py:978-1073", "esp_idf_size/memorymap.py:1236-1278"]}
{"id": "C76", "title": "sizes nest in the returned map", "statement": "In the map returned by `memorymap.get`, the sizes of the archives of a section add up to at most the size of the section, also for sections split over memory types, and the sizes of the object files of an archive add up to the size of the archive.", "quantifier": "all link map files (or LTO-expanded sections) whose input sections lie inside their output section and do not overlap, all ELF files, regions and chip tables", "why_tests_cant": "The claim must hold for every split of sections over regions.", "anchors": ["esp_idf_size/memorymap.py:92-291", "esp_idf_size/memorymap.py:978-1073", "esp_idf_size/memorymap.py:1236-1278"]}
{"id": "C77", "title": "JSON reports of whole runs, with --diff and --unify", "statement": "The run with `--archives` or `--files` and `--format json2` on a link map file has entries with distinct names whose size is the sum of the sizes with which the input sections of that archive or file are listed in the file, over the output sections that count, minus the parts that have no memory type or are replaced by a later part of the same key. With `--diff REF` the difference in an entry is this size minus the same size for REF; without `--show-unchanged` there is an entry exactly for every name whose two sizes differ. With `--unify` archives and files are named by the last component of their path, and those of the same name are added up on both sides. The entries are sorted by size, or by difference with --sort-diff, in the chosen direction.", "quantifier": "all pairs of link map files (any number of regions, output sections, input sections, cross references), all chip tables, ELF files and option values, with and without --diff, --unify, --show-unused, --show-unchanged, --use-flash-size, --sort-diff, --sort-reverse", "why_tests_cant": "The tests compare two fixed builds with stored output; a wrong term for some archive, file or combination of options shows only on other builds.", "anchors": ["esp_idf_size/main.py:74-162", "esp_idf_size/memorymap.py:92-291", "esp_idf_size/memorymap.py:294-600", "esp_idf_size/memorymap.py:674-850", "esp_idf_size/format_json.py:63-73"]}
{"id": "C78", "title": "origin and totals of the symbols of a map", "statement": "In the map returned by `memorymap.get`, object files have no symbols when `load_symbols` is False. Otherwise every symbol is named after an input section of its archive and object file that counts, or after a function or object of the ELF file that lies inside such an input section (functions with \"()\" appended), and has difference 0. The sizes of the symbols chosen by any criterion on archive, object file and name, together with those in parts that have no memory type or are replaced, add up to the sizes of the chosen symbols of the input sections, which are the sized ELF functions and objects that start in them.", "quantifier": "all link map files, ELF files, chip tables, regions, and all selections of archives, object files and names", "why_tests_cant": "A symbol that is invented, lost or counted in a wrong object file for some layout of sections shows only in builds with that layout.", "anchors": ["esp_idf_size/memorymap.py:92-291", "esp_idf_size/memorymap.py:978-1073", "esp_idf_size/memorymap.py:1236-1278"]}
{"id": "C79", "title": "JSON symbol report of whole runs, with --diff and --unify", "statement": "The run with `--archive_details A --format json2` has entries with distinct names, one for every symbol name with nonzero size in archives whose last path component is A; the size is the sum of the symbols of that name in the input sections, minus those in parts that are not shown. With `--diff REF` the difference is this size minus the same size for REF, and without `--show-unchanged` there is an entry exactly for every name whose two sizes differ. With `--unify` a symbol is named without its archive and object file and symbols of one name are added up on both sides. The entries are sorted by size, or by difference with --sort-diff.", "quantifier": "all pairs of projects (link map files, ELF files with or without debug information, chip tables), all option values", "why_tests_cant": "The tests compare fixed builds with stored output; a wrong term for some symbol or combination of options shows only on other builds.", "anchors": ["esp_idf_size/main.py:74-162", "esp_idf_size/memorymap.py:294-600", "esp_idf_size/memorymap.py:674-770", "esp_idf_size/format_json.py:63-73"]}
{"id": "C80", "title": "warnings of a run", "statement": "The warnings tell what is wrong, and only that. \"Cannot assign output section\" is given for exactly the parts of output sections that belong to no memory type, and their sizes plus the used bytes of all memory types make up the output sections that count; \"overflow detected\" is given for exactly the parts that start in no region and are accounted to one, under a name ending in `_overflow`; \"exceeds\" only for parts that exceed all regions they start in; \"cannot assign memory region\" for exactly the regions not covered by memory types; \"cannot find target\" whenever the map file names none. When DWARF information is said to be ignored, or the ELF file to be unreadable, the result is that without it. Conflicts of options are reported exactly when they occur, the ignored option has no effect, and differing targets of compared projects are reported under the right names, each problem once.", "quantifier": "all link map files, ELF files, project descriptions, chip tables, option values, and pairs of compared projects", "why_tests_cant": "Tests check few warnings on well-formed builds; a silent loss of bytes or a wrong warning shows only for unusual layouts.", "anchors": ["esp_idf_size/main.py:99-136", "esp_idf_size/mapfile.py:84-118", "esp_idf_size/memorymap.py:229-232", "esp_idf_size/memorymap.py:864-925", "esp_idf_size/memorymap.py:1092-1102", "esp_idf_size/memorymap.py:1281-1292", "esp_idf_size/memorymap.py:1495-1592"]}
{"id": "C81", "title": "tables, CSV and JSON reports of whole runs, cell by cell", "statement": "In the reports of archives, of object files and of the symbols of an archive, in the formats table, text, csv and json2, with or without --unify and --diff, every entry stands for the archives, files or symbols of that name and every cell holds their size in that memory type and section, as placed by the map from the inputs of the link map file, together with the difference to the reference. No name occurs twice; every entry with a size (with --diff: with a difference, or with --show-unchanged) that passes --filter is listed, and none that does not; every memory type and section with a size has a column; the rows are in the wanted order; headers, abbreviated names and the CSV text are right. The total column together with the parts that belong to no memory type makes up the inputs of the output sections that count, and is the sum of the columns of memory types.", "quantifier": "all link map files, ELF files, chip tables and project descriptions, all options of sorting, filtering, abbreviation, unification and comparison, all pairs of compared projects", "why_tests_cant": "Tests compare a few reports of well-formed builds with stored ones; a value lost or shown in the wrong cell on the way from the link map file to the report needs particular layouts, equal names or combinations of options.", "anchors": ["esp_idf_size/main.py:99-152", "esp_idf_size/memorymap.py:773-862", "esp_idf_size/format_table.py:189-332", "esp_idf_size/format_csv.py:12-47", "esp_idf_size/format_json.py:63-73"]}
{"id": "C82", "title": "What a run reads, and the archives of LTO projects", "statement": "The map of a link map file is made from that file, the project description and the configuration at their fixed places beside it, the ELF file named by the description if the description belongs to the map file, and the table of the chosen target; no other file has an influence on a report. With --lto, or if the project is configured for LTO and the option is not given, input sections without archive are attributed to the archives of components: every byte of a symbol of a compilation unit of a component counts, in the reports of archives and files, for the archive of the component with the longest directory that contains the unit; the remaining bytes count as before; all totals together with the parts of no memory type make up the bytes of the link map file. Otherwise the sections are those of the link map file.", "quantifier": "all link map files, project descriptions, configurations, ELF files with any symbols and compilation units, options; all pairs of file systems that agree about the files named", "why_tests_cant": "Tests run over one LTO project with stored output; gaps between symbols, tails behind the last one, nested component directories and additional files near the project need particular inputs, and influence of other files is a statement about pairs of file systems.", "anchors": ["esp_idf_size/memorymap.py:92-291", "esp_idf_size/memorymap.py:1281-1429", "esp_idf_size/memorymap.py:1597-1641", "esp_idf_size/main.py:74-152"]}
{"id": "C83", "title": "Options that only choose, order or rename the rows of a listing", "statement": "In a listing (archives, files, or symbols of an archive, as table) --filter gives exactly the rows of the report without it whose name contains a match of one of the patterns, in the same order and with the same cells; without --show-unchanged a difference report has exactly those rows of the full one whose total size changed; --sort, --sort-diff and --sort-reverse change the order of the rows only; --no-abbrev changes names only, the cells behind the names stay the same row by row; the format text shows what table shows, and csv shows the same header and cells with the terminal markup of differences taken away. If a filter or the unchanged rows leave no row, the report is empty.", "quantifier": "all projects and reference projects, all combinations of the other options, all patterns, sort columns and directions", "why_tests_cant": "Each clause relates two runs with different options over the same arbitrary project; tests compare single runs against stored text, so a filter applied before headers or widths are computed, an unstable order, or a row lost for particular names is not seen.", "anchors": ["esp_idf_size/main.py:74-152", "esp_idf_size/format_table.py:189-331", "esp_idf_size/format_csv.py:14-66", "esp_idf_size/memorymap.py:674-717"]}
{"id": "C84", "title": "Numbers and colours of the cells", "statement": "A cell of a table shows the number itself and, when comparing, the change after it with its sign, right aligned to six characters; a size that grew is red and one that shrank is green, while for totals and remaining space growth is green and shrinking red; without a change, or without --diff, nothing is coloured; percentages have two decimals and the same rule. Each row of the listings of archives, files and symbols shows the numbers of its entry this way.", "quantifier": "For all sizes and changes (integers), all percentages representable by the float operations, all tables of archives, files and symbols of all runs.", "why_tests_cant": "Sizes and changes are unbounded integers; the colour depends on the sign of the change and on the kind of column, and markup has to survive the markup parser for every number.", "anchors": ["esp_idf_size/format_table.py:33-54", "esp_idf_size/format_table.py:57-186", "esp_idf_size/format_table.py:189-331"]}
{"id": "C85", "title": "The memory map of a whole run and the summary, tree, JSON and raw reports that show it", "statement": "In a run that succeeds, the map that is shown is determined by the output sections of the link map file: a memory type is listed iff it belongs to the target and something goes to it (or unused ones are shown); its used bytes are the sizes of what goes there, its size the lengths of its regions, each counted once (0 for flash unless --use-flash-size); its sections and archives are exactly those of the parts that go there, with their sizes, under abbreviated names with --unify; with --diff every number also carries the difference to the reference, and types, sections and archives of either build are listed. The raw report shows this map; the tree shows it without unchanged entries, sorted; table, text and csv show a row for each memory type and section of it, and the JSON summary its types, sizes, used and free bytes and sections.", "quantifier": "All projects (input and reference) that can be read and whose section sizes are not negative, all chips, all options and output formats (the JSON layout when the displayed section names of a type are distinct; --diff without --archive-dependencies).", "why_tests_cant": "The claim relates link map, chip table, region splitting, unused and flash options, comparison, unification, trimming, sorting and formatting over arbitrary projects; tests compare a few stored reports of single projects.", "anchors": ["esp_idf_size/main.py:99-152", "esp_idf_size/memorymap.py:294-488", "esp_idf_size/memorymap.py:546-648", "esp_idf_size/memorymap.py:1458-1595", "esp_idf_size/format_table.py:57-186", "esp_idf_size/format_tree.py:13-47", "esp_idf_size/format_json.py:11-35", "esp_idf_size/format_raw.py:11-16"]}
{"id": "C86", "title": "The reports of one project agree with one another", "statement": "The archives report and the files report of the same project with the same preparation options show the same sums: the totals add up to the same number, and so does every memory type column and, with --diff, the differences. The row of an archive in the archives report is, in every column, the sum of the rows of its files in the files report (without --unify). What the summary report calls used in a memory type is the sum of that column of the archives report plus the bytes of the parts that belong to no input section; these are not negative if input sections lie in their output sections without overlapping.", "quantifier": "All projects that can be read, all chips, all options that prepare the map, format json2, all filters off; for the rows of archives, names of archives of which none is another one followed by ':' (the separator in the names of files); for --diff sizes agree with --show-unchanged and differences always (a hidden archive whose files changed is a witness that sizes need not agree otherwise); the summary for plain runs without --show-unused and explicit --lto, and section sizes that are not negative.", "why_tests_cant": "It relates the outputs of two or three separate runs with different options over arbitrary projects; tests compare each report with a stored copy and none compares two reports.", "anchors": ["esp_idf_size/memorymap.py:650-848", "esp_idf_size/memorymap.py:490-545", "esp_idf_size/format_json.py:11-60", "esp_idf_size/main.py:99-152"]}
{"id": "C87", "title": "A project is read from the bytes of its files", "statement": "The link map file is decoded as UTF-8 and its lines are the lines of that text, whether they end with LF, CR LF (also mixed) or CR; changing the ends of lines of text files changes nothing a run sees. A link map file that is missing or is not UTF-8 ends the run with a message and exit status 1 and no output file is touched. A project description or sdkconfig is read exactly if its file is the UTF-8 of a JSON text (RFC 8259 plus NaN and infinities), and its fields are what the members of the JSON object say (the last of equal names); a file that is missing, not UTF-8, no JSON text, or null counts as not there.", "quantifier": "All contents of all files (bytes of any length), all JSON texts with any nesting, escapes, blanks and ends of lines; link map lines without the other characters at which Python ends lines (VT, FF, FS, GS, RS, NEL, LS, PS; a witness shows that such a line is split); strings without unpaired surrogates; descriptions whose used members have the documented types.", "why_tests_cant": "The claim ranges over all byte sequences and all JSON texts, in both directions (what is accepted and what is refused); tests read a handful of well formed files with one kind of line end.", "anchors": ["esp_idf_size/mapfile.py:29-36", "esp_idf_size/memorymap.py:1081-1089", "esp_idf_size/memorymap.py:206-215", "esp_idf_size/memorymap.py:1597-1627", "esp_idf_size/main.py:99-162"]}
{"id": "C88", "title": "compilation units of symbols, from the bytes of an ELF file", "statement": "For an ELF file, `Elf(fn).add_cus_to_symbols()` returns one entry for exactly the addresses of function and object symbols with a size that are not absolute: the last such symbol of the symbol tables, with its name, value and size, and with the `DW_AT_name` of the compile unit of the last function (by `DW_AT_low_pc`) or variable (by a location `DW_OP_addr`) at that address, or of the unit of its abstract origin, read from the first sections called `.debug_info`, `.debug_abbrev`, `.debug_str` and `.debug_line_str`; without such an entry the symbol has no unit. It depends on the bytes of the file only.", "quantifier": "all ELF files of both classes and byte orders, with any number of symbols, units, abbreviations and entries nested to any depth", "why_tests_cant": "The result depends on several tables of the file at once; tests look at the files of one compiler, in which all names are found and no address occurs twice.", "anchors": ["esp_idf_size/elf.py:1997-2010", "esp_idf_size/elf.py:2011-2030", "esp_idf_size/elf.py:2104-2109", "esp_idf_size/elf.py:2139-2200"]}
{"id": "C89", "title": "fields and numbers of map file lines", "statement": "A line is split at the white space of Unicode and nothing else: line.split() gives exactly the fields between white space, line.split(maxsplit=n) the first n fields and the rest of the line. A field is accepted as a number exactly if it is a Python integer literal (decimal without leading zeros, 0x, 0o or 0b with digits of the base, single underscores between digits, one sign), it is read as the value of that literal, and any other field raises ValueError. The --sort option is a column number exactly if it is a decimal number with an optional sign.", "quantifier": "all lines, all fields of ASCII digits", "why_tests_cant": "all strings", "anchors": ["esp_idf_size/mapfile.py:MapFile._get_memory_regions", "esp_idf_size/mapfile.py:MapFile._get_sections", "esp_idf_size/format_table.py:Table"]}
{"id": "C90", "title": "bytes of the output file", "statement": "Whatever characters a report contains and whatever encoding of the locale is used (any that agrees with ASCII), a report that was made is written without an exception: characters the encoding has are written as their bytes, the others as \\x, \\u or \\U escape sequences of their number, and different reports give different files. In an encoding that does not agree with ASCII the run fails exactly if some character of the text has no bytes, with a ValueError and an empty file; if the file cannot be opened no file changes. In UTF-8 the file is exactly the text of the report. A file written with --format json2 or raw is JSON text for the report in UTF-8 whatever the locale and the ends of lines are, and a CSV report of archives written to a file gives, read as CSV, the totals that the link map lists for the archives. (Violated: escape sequences are not marked, so a name with a character outside the encoding and a name that spells its escape sequence give the same bytes.)", "quantifier": "all reports, all encodings that agree with ASCII, all runs", "why_tests_cant": "all strings and encodings", "anchors": ["esp_idf_size/main.py:_write_output_file", "esp_idf_size/main.py:_OutputBuffer", "esp_idf_size/main.py:_run", "esp_idf_size/format_json.py:show", "esp_idf_size/format_csv.py:show_table"]}
{"id": "C91", "title": "percentages of the summary are accurate", "statement": "With the floating point arithmetic of Python, every percentage in the summary table or CSV (of a memory type, or of a section in its memory type) is the text of a decimal number with one or two digits behind the point that differs from the exact share used/total*100 by at most half a hundredth and a relative error of 2^-51; in a comparison, the change shown beside it differs from the exact difference of both shares by at most half a hundredth and 2^-50 of their sum, with a plus sign and colour according to its sign. More bytes never show a smaller percentage, a full memory type shows 100.0, an empty one 0.0, and others a number between. (100.0 may also be shown for a memory type in which bytes remain, and a small loss as -0.0.)", "quantifier": "all sizes and totals, all projects, both builds of a comparison", "why_tests_cant": "all integers, and rounding of three float operations", "anchors": ["esp_idf_size/format_table.py:get_summary_table", "esp_idf_size/format_table.py:color_diff"]}
{"id": "C92", "title": "chip tables are read as they are written", "statement": "A chip information file in the documented format (comments, blank lines, a key for each memory type, and below it the fields primary_address, length, secondary_address and name in any order, each value an integer literal or a sum of products of them) gives one memory type for each key, in the order of the file, with the arithmetical values of its fields; its second address is 0 and its name is the key where these are not given. The files of the package give the tables of C52. A file that is missing or is not UTF-8 is an error that is handled.", "quantifier": "all files in that format: any number of memory types, fields in any order, any sums and products of decimal, hexadecimal, octal and binary literals with underscores, any comments, blanks and ends of lines; all files of the package", "why_tests_cant": "unbounded number of texts", "anchors": ["esp_idf_size/memorymap.py:_get_memory_types", "esp_idf_size/chip_info/*.yaml"]}
{"id": "C93", "title": "options mean what they say, in any order", "statement": "The arguments are read in one way as options and files: long options, their second names, values behind = or in the next argument, joined short options, -- before files. A run is made exactly if there is one file, no request for help or documentation, and the last format given is one of the seven, in small or capital letters; then a flag is set iff it is given, --lto/--no-lto and every option with a value take the last one given, -F collects all its values in order, and --sort-reverse turns the order around. The order and spelling of different options do not matter. Arguments that are not accepted give exit status 2 and touch no file; status 0 is left exactly after help or a report that was made (and written, if asked for), status 1 otherwise; no file but the output file is changed.", "quantifier": "all argument lists of any length, all runs", "why_tests_cant": "all sequences and spellings of options", "anchors": ["esp_idf_size/main.py:main", "esp_idf_size/main.py:_filter_callback", "esp_idf_size/main.py:_run"]}
{"id": "C94", "title": "Relative and absolute paths of the projects", "statement": "os.path.abspath as memorymap.get uses it gives the straight path (no empty part, '.' or '..') to the place the given path names from the current directory; it is the project_path of the memory map. Two paths, relative or not, with '.', '..' or repeated slashes, that name the same link map file give the same report, and so do two such paths given to --diff.", "quantifier": "all current directories, all paths not starting with exactly two slashes, all files and options, in file systems where the place decides the file (no symbolic links crossed by '..')", "why_tests_cant": "tests call the tool with a handful of paths", "anchors": ["esp_idf_size/memorymap.py:get", "esp_idf_size/main.py:_run"]}
{"id": "C95", "title": "A MapFile object can be passed to get again", "statement": "memorymap.get changes the MapFile object it is given (input sections are expanded with debug information, those without size are dropped). After any number of calls for the same project with the same use_dwarf, successful or not, a further call with the same object gives the memory map or exception the first call would have given with the unchanged object, with or without symbols.", "quantifier": "all projects and link maps in which every input section has an address and a size, all numbers of calls, all values of load_symbols and elf; debug symbols are stored under their addresses and have no negative sizes, no component archive is called '(exe)'", "why_tests_cant": "no test passes an object twice; the property depends on the expansion being idempotent for every set of symbols", "anchors": ["esp_idf_size/memorymap.py:get", "esp_idf_size/memorymap.py:_expand_input_sections", "esp_idf_size/memorymap.py:_filter_map_sections"]}
{"id": "C96", "title": "uses of an Elf object", "statement": "Whatever was done with an Elf object before, symbols, CUs and abbrev_table give what a new object gives for the file, get_DIEs gives the entries that pass the filter, and add_cus_to_symbols gives the unit names of the symbols, however often and in whatever order they are used. (Violated: after an exception the next access gives a part of the list without an exception; get_DIEs ignores the filter once entries were read; a second add_cus_to_symbols raises KeyError if a variable has a location.) A new object behaves as proved in C51, C67, C72 and C88, exceptions included.", "quantifier": "all ELF files, all sequences of uses of an object, all unit filters", "why_tests_cant": "all histories of an object", "anchors": ["esp_idf_size/elf.py:Elf.symbols", "esp_idf_size/elf.py:Elf.CUs", "esp_idf_size/elf.py:Dwarf_CU.abbrev_table", "esp_idf_size/elf.py:Dwarf_CU.get_DIEs", "esp_idf_size/elf.py:Dwarf_CU.get_attr_eval", "esp_idf_size/elf.py:Elf.add_cus_to_symbols"]}
{"id": "C97", "title": "what an opened ELF file holds", "statement": "For every file that Elf(...) opens: the ELF header is what the first bytes of the file encode in the byte order and class of e_ident; the i-th section header is what the bytes at e_shoff + i * e_shentsize encode and there are e_shnum of them; the i-th program header is what the bytes at e_phoff + i * e_phentsize encode and there are e_phnum. A file is opened exactly if its headers are in it.", "quantifier": "all files, both classes, both byte orders", "why_tests_cant": "the test data are a few 32-bit little-endian files of one linker, with standard entry sizes", "anchors": ["esp_idf_size/elf.py:Elf.__init__", "esp_idf_size/elf.py:Elf_Phdr", "esp_idf_size/elf.py:Elf_Shdr", "esp_idf_size/elf.py:Elf_Ehdr"]}
{"id": "C98", "title": "messages around a report, and names that stop it", "statement": "Showing a table with --format table or text prints, in this order: for a comparison three lines on standard error naming the current and the reference project file and the sign of differences; the table; and for the summary alone two lines on standard error, the size of the image (with its signed change in a comparison) and the note on totals. The CSV report prints its lines and nothing else. No project path, archive, file, section or symbol name makes this fail.", "quantifier": "all memory maps, options, paths and names", "why_tests_cant": "test projects have paths and names without square brackets, and the streams are compared for one project", "anchors": ["esp_idf_size/format_table.py:show", "esp_idf_size/format_table.py:show_diff_info", "esp_idf_size/format_table.py:show_image_info", "esp_idf_size/format_csv.py:show_table", "esp_idf_size/log.py:eprint", "esp_idf_size/main.py:generate"]}
{"id": "C99", "title": "names of DWARF and ELF constants", "statement": "get_tag_name, get_attr_name and get_form_name show a code under the name of the constant with this value, get_sht_name shows a section type likewise, and the code in hexadecimal as unknown when there is none; type_name, bind_name and visibility_name of a symbol are the name of its constant. DW_OP_NAME_MAP names the operations of DWARF expressions likewise. Constants with the same value are shown together.", "quantifier": "all codes", "why_tests_cant": "test files use a few dozen of the codes; processor and vendor codes do not occur in them", "anchors": ["esp_idf_size/elf.py:get_tag_name", "esp_idf_size/elf.py:get_attr_name", "esp_idf_size/elf.py:get_form_name", "esp_idf_size/elf.py:get_sht_name", "esp_idf_size/elf.py:Elf_Sym.type_name", "esp_idf_size/elf.py:Elf_Sym.bind_name", "esp_idf_size/elf.py:Elf_Sym.visibility_name", "esp_idf_size/elf.py:DW_OP_NAME_MAP"]}
{"id": "C100", "title": "listings of sections and symbols", "statement": "dump_sections prints a title and one line per section header in order, whose words are number, name, type and the hexadecimal address, offset and size, so that the numbers read back are those of the header; it ends only at a name that cannot be read. dump_symbol_table does the same for symbols: number, hexadecimal value, size, type, binding, visibility, index and name of the section, name and compilation unit or NOCU, for an Elf object of any program.", "quantifier": "all ELF files, all lists of symbols", "why_tests_cant": "no test calls the listings; numbers wider than a column and unusual types need a proof", "anchors": ["esp_idf_size/elf.py:Elf.dump_sections", "esp_idf_size/elf.py:Elf.dump_symbol_table", "esp_idf_size/elf.py:Elf.dump_symbol_cu"]}
{"id": "C101", "title": "a run ends", "statement": "For every project and every combination of options the program prints a report or fails; it does not loop, and the report does not depend on how long it may compute.", "quantifier": "all contents of the files of the project and of the reference, all options", "why_tests_cant": "all contents of map files and chip descriptions; a run that never ends cannot be observed", "anchors": ["esp_idf_size/main.py:_run", "esp_idf_size/memorymap.py:_split_memory_regions", "esp_idf_size/memorymap.py:get"]}
{"id": "C102", "title": "listings of abbreviations and debugging information", "statement": "dump_debug_info prints for every entry of every unit, in order, one line with its level, offset, abbreviation number, tag and size, and one line for each of its attributes with offset, name, form and value; dump_abbrev_table prints for every unit a line with its number and offsets, for each declaration its offset, number, tag and children flag, and for each attribute its offset, name and form, where the offsets are those of the encoded bytes. Each field is a word of its own, and a listing is only incomplete if the file cannot be read.", "quantifier": "all ELF files, all encodings of units, declarations and entries", "why_tests_cant": "no test calls the listings; every form, name and tree of entries needs a proof", "anchors": ["esp_idf_size/elf.py:Elf.dump_debug_info", "esp_idf_size/elf.py:Elf.dump_abbrev_table", "esp_idf_size/elf.py:Dwarf_CU.get_attr_str"]}
{"id": "C103", "title": "Options that do not concern a report", "statement": "An option has no influence on the report, in its content and in the way making it ends, when it does not concern the kind of report that is asked for. The flash size, the dependency options and the name of the output file concern no listing as table, text or csv; abbreviation, sort order and filter concern no JSON listing either. The flash size, the second map file, --show-unchanged and the sort options concern no dependency report in any format; --dep-symbols, --no-abbrev and the filter concern no dependency report in JSON, and the filter none drawn as tree. A raw dump is determined by --diff, --unify, --show-unused, --use-flash-size and the DWARF option alone. Filter and dependency options concern neither the summary nor the tree; sort options and --show-unchanged no JSON summary. Without --diff, --show-unchanged concerns no report.", "quantifier": "for every world (files, chip descriptions, ELF contents), every map file name, every options record of the kind named, and every pair of values of the option", "why_tests_cant": "The tests compare single runs with recorded outputs; that an option has no effect is a statement about all inputs and all values of the other options.", "anchors": ["esp_idf_size/main.py:_run", "esp_idf_size/format_table.py:show", "esp_idf_size/format_csv.py:show", "esp_idf_size/format_json.py:show", "esp_idf_size/format_raw.py:show", "esp_idf_size/format_tree.py:show", "esp_idf_size/memorymap.py:trim"]}
{"id": "C104", "title": "attributes of the ELF file are evaluated on first use", "statement": "Names of sections and symbols and the tables of symbols are read when they are needed. memorymap.get needs the names of the non-empty allocated sections; the tables of symbols and the names of the sized functions and objects only if symbols are loaded; the names of sized symbols with a compilation unit only if DWARF information is used. If these can be read, the result does not depend on any other name, and is the one for a file in which everything can be read. If one of them cannot be read, get() raises MemMapException or goes on without the ELF file, as it does for an ELF file that cannot be opened. (Violated: the exception of the attribute escapes - ValueError, UnicodeDecodeError, IndexError, Elf_Exception, struct.error - and there are no further exceptions.) The same holds for the filter of the dependency report.", "quantifier": "all ELF files (any bytes), all projects, link map files and options", "why_tests_cant": "all malformed files", "anchors": ["esp_idf_size/elf.py:Elf_Shdr.name", "esp_idf_size/elf.py:Elf_Sym.name", "esp_idf_size/elf.py:Elf.symbols", "esp_idf_size/memorymap.py:1092-1214", "esp_idf_size/memorymap.py:1281-1428", "esp_idf_size/deps.py:97-119"]}
{"id": "C105", "title": "project descriptions and configurations with values of any JSON type", "statement": "memorymap.get uses from project_description.json only the keys app_elf and target, and build_dir and build_component_info only if DWARF information may be used; from sdkconfig.json only COMPILER_LTO_LINKTIME, and only if the caller does not say whether to use DWARF. Nothing else in these files, of whatever type, changes the result. An empty or zero target counts as missing. A description or configuration that cannot be used because of the types of its values is treated like one that is not available, or get() raises MemMapException. (Violated: AttributeError for a file that is no dictionary or a build_component_info that is none, TypeError for an app_elf, target, build_dir or component of another type, KeyError for missing keys; no further exceptions arise.)", "quantifier": "all JSON values of both files, all projects, link map files, ELF files and options", "why_tests_cant": "all JSON values", "anchors": ["esp_idf_size/memorymap.py:1081-1089", "esp_idf_size/memorymap.py:205-252", "esp_idf_size/memorymap.py:1320-1335", "esp_idf_size/memorymap.py:1431-1440", "esp_idf_size/memorymap.py:1597-1627"]}
{"id": "C106", "title": "Comparisons in both directions and over several versions agree", "statement": "Lists of archives, of object files and of the symbols of an archive, as JSON: the report of project A compared with B and that of B compared with A show opposite differences for every entry; without --show-unchanged they list the same entries; with it, size minus difference in one is the size in the other. The differences between A and B and between B and C add up to those between A and C. The report of A compared with B shows the sizes that the reports of A and of B on their own show, lists exactly the entries that differ (or, with --show-unchanged, all that have a size), and its differences add up to the difference of the sums of both reports. The same holds in the columns of memory types and of sections for entries listed by all the reports concerned (sections of files and symbols: if no two are reported under one name). It does not hold for the totals of flash memories in summaries and raw reports, see C63.", "quantifier": "All projects A, B, C whose link map files can be read, all options with a list asked for, --format json2 and no dependency report, all successful runs.", "why_tests_cant": "The relations connect two to three whole runs on arbitrary projects; a test compares a few recorded projects, in one direction.", "anchors": ["esp_idf_size/main.py:119-139", "esp_idf_size/memorymap.py:294-424", "esp_idf_size/memorymap.py:711-848"]}
{"id": "C107", "title": "A change of the inputs is shown where it is made", "statement": "If the link map files of a project and of its reference have the same input sections except that the project has some where the reference has others, a comparison of archives or object files lists exactly those archives or files whose size differs between these two groups, each with this difference, wherever all the other input sections have been moved to. A single input section of another size is shown in exactly one entry and exactly the columns total, its memory type and its section; input sections that only moved are not shown.", "quantifier": "all pairs of projects that can be read, all groups of changed input sections, archives and files, with and without --unify", "why_tests_cant": "tests compare fixed pairs of map files; that no other entry changes has to hold for every pair and every way in which the other sections are moved", "anchors": ["esp_idf_size/memorymap.py:92-292", "esp_idf_size/memorymap.py:294-424", "esp_idf_size/memorymap.py:711-848", "esp_idf_size/main.py:119-139"]}
{"id": "C108", "title": "The report of dependencies of a whole run", "statement": "A run with --archive-dependencies lists exactly the archives that, by the cross reference table of the link map file, refer to a function or object of the ELF file defined in another archive (with --dep-reverse, those that define one), where both archives are shown in the memory map; under each it lists exactly the other archives with exactly the symbols concerned, in the order of the table. The sizes are those of the report of archives, hence of the input sections. JSON, raw and tree show all of it, table, CSV and DOT the archives that pass --filter, with every dependency in one row or edge. Both directions report the same dependencies. Giving --lto does not lose dependencies of a project configured for LTO.", "quantifier": "all projects that can be read, all formats, options and orders of set iteration", "why_tests_cant": "tests look at one project; the agreement of table, sizes and symbols with the link map file has to hold for every cross reference table and every assignment of sections", "anchors": ["esp_idf_size/deps.py:11-140", "esp_idf_size/main.py:105-119", "esp_idf_size/format_table.py:333-371", "esp_idf_size/format_dot.py:14-60", "esp_idf_size/memorymap.py:689-708"]}
{"id": "C109", "title": "Entries left behind by an exception", "statement": "When get_DIEs raises, the entries it keeps for the unit are exactly: the entries before the place of the exception, complete and at increasing offsets, and the entries that were being read there, each the parent of the next one, with their attributes up to that place and no size, all of them only if the filter wants their tag. Without an exception the entries kept are those returned. A later get_DIEs raises again. (Violated: if anything was kept, it returns that, for any filter.)", "quantifier": "all bytes of .debug_info, all abbreviation tables, filters and units, all earlier uses of the object", "why_tests_cant": "all places at which the bytes of a unit can be wrong", "anchors": ["esp_idf_size/elf.py:Dwarf_CU.get_DIEs", "esp_idf_size/elf.py:Dwarf_CU.DIEs", "esp_idf_size/elf.py:Dwarf_CU.abbrev_table"]}
{"id": "C110", "title": "Runs over the files as they are", "statement": "A run whose descriptions and configurations have the expected types and in which the needed names of the ELF files can be read prints the same report as if everything was read in advance; names that are not needed may be anything. The report depends only on the lines of the input and of the other link map file, on the needed keys of the descriptions and configurations beside them, on the ELF files named there and on the chip descriptions. For files with any bytes, every exception of a run is one of thirteen kinds and comes from the link map file, from the command line, from loading one of the projects, from the description or ELF file of the input, or, only if dependencies are shown, from its table of symbols; comparing, summaries, tables and the table of cross references raise nothing. (Violated: exceptions other than those of the map file and the memory map escape.)", "quantifier": "all bytes of all files, all current directories, paths and options", "why_tests_cant": "all files of all projects with all options; absence of other exceptions", "anchors": ["esp_idf_size/main.py:_run", "esp_idf_size/memorymap.py:get", "esp_idf_size/memorymap.py:get_elf", "esp_idf_size/memorymap.py:get_proj_desc", "esp_idf_size/deps.py:get_archives_dependencies"]}
{"id": "C111", "title": "Error messages instead of reports", "statement": "Once the link map file, the ELF file and the projects of a run are loaded, the report is printed, except in exactly these cases, in which the program ends with an error message: the format is dot and dependencies are not asked for; dependencies are shown and there is no table of cross references or no ELF file; symbols are listed and no archive of the given name has a symbol; --sort names no column of the table printed (a table without rows has only the column of total sizes, and any number but 0 is accepted). A run over files with any bytes ends with such a message if and only if the projects are loaded and one of these cases holds, and a run that prints a report has none of them. With the default of --sort, the summary and the listings of archives and files are always printed.", "quantifier": "all bytes of all files, all directories, paths and options with a known format", "why_tests_cant": "an equivalence over all projects and combinations of options", "anchors": ["esp_idf_size/main.py:_run", "esp_idf_size/format_table.py:_get_table_sorted", "esp_idf_size/format_table.py:get_summary_table", "esp_idf_size/format_dot.py:show", "esp_idf_size/deps.py:get_archives_dependencies", "esp_idf_size/deps.py:_filter_crt", "esp_idf_size/memorymap.py:get_symbols_summary"]}
{"id": "C112", "title": "Outcomes of a run over any files", "statement": "Whatever the bytes of the files and the options, a run has one outcome that does not depend on how long it may compute: it never ends, or it prints a report (then there is no reason of C111), or it ends with an error message (exactly for a reason of C111), or it raises one of the other exceptions of C110 at one of the places listed there. It ends if and only if no memory region of the input, nor of the other project if it comes to that, is stuck: partly outside of all memory types and ending where a piece of an earlier region ends. (Violated: for every chip of the package there are two regions for which the program never ends.)", "quantifier": "all bytes of all files, all directories, paths and options with a known format", "why_tests_cant": "a run that never ends cannot be observed; all files", "anchors": ["esp_idf_size/main.py:_run", "esp_idf_size/memorymap.py:get", "esp_idf_size/memorymap.py:_split_memory_regions"]}
{"id": "C113", "title": "The error message states the reason", "statement": "When everything has been loaded and no report can be printed, exactly one error message is printed. It states the reason: the DOT format without dependencies, no cross reference table, no ELF file, no symbols of the archive given, no such column for sorting, the first column, or a number that is no column. A column or archive given by the user is quoted as given, and the numbers that the message names as usable are exactly those that are accepted.", "quantifier": "all memory maps, options, names given with --sort and --archive-details, cross reference tables and ELF files", "why_tests_cant": "all names and numbers: tests look for part of a message for one bad option, not at the range it names for tables of any number of columns, nor at names with brackets", "anchors": ["esp_idf_size/format_table.py:get_summary_table", "esp_idf_size/format_table.py:_get_table_sorted", "esp_idf_size/format_dot.py:show", "esp_idf_size/deps.py:get_archives_dependencies", "esp_idf_size/memorymap.py:get_symbols_summary"]}
{"id": "C114", "title": "Messages about a link map file locate the problem", "statement": "A link map file is refused by the parser with a message exactly if there is a problem to report. If the message is about a line, the number in it is the number of a line of the file, the text in quotes is this line (without the space around it inside of an output section), the line does not have the number of words it should have, and it is the first such line: what follows it does not matter and no line is reported for the file cut off before it. A message that a section is missing is only printed if the section is missing. Every message contains the name of the file, and is shown as it is.", "quantifier": "all link map files (any lines), all names of files", "why_tests_cant": "all files: tests check that some malformed file is refused, not that the line and number in the message are those of the first malformed line in files of any length, nor lines and names with brackets", "anchors": ["esp_idf_size/mapfile.py:_get_memory_regions", "esp_idf_size/mapfile.py:_get_sections", "esp_idf_size/main.py:main"]}
{"id": "C115", "title": "Messages about sections and symbols name the one that is wrong", "statement": "The warning that the sections of a link map file are not contiguous is printed exactly if they are not, and names the first input section with contents that is not where the ones before it end, its address, and the address where they end. The error that symbols of the ELF file do not fit into the input sections is raised exactly if one does not fit, and names the first such symbol in the order of addresses: it lies behind all input sections, or it starts in the input section that is named and does not end in it. The messages are shown as they are.", "quantifier": "all lists of output sections, all symbol tables", "why_tests_cant": "all sections and symbols: tests use maps that fit; whether the section and the symbol in a message are the first wrong ones, with the right expected address, depends on all sections before them", "anchors": ["esp_idf_size/mapfile.py:_validate_sections", "esp_idf_size/memorymap.py:_add_symbols_to_sections", "esp_idf_size/memorymap.py:get"]}
{"id": "C116", "title": "Warnings about memory say what is the case, with all names and numbers", "statement": "The texts of the warnings of a run are shown with every name and number in them: the memory region that fits no memory type; the part of an output section with its address and size, and the memory region with its origin and length that it exceeds; the memory type that overflows and the memory region to which a part is assigned. Printing them raises nothing. The part, its address and size and the region can be read back from the text. A part that is said to exceed a region starts in it and ends behind it; the region that is said to precede a part ends at or before it, with no other region starting in between.", "quantifier": "all warnings, memory types, region lists and output sections", "why_tests_cant": "all names and numbers, and all arrangements of regions around a section: tests use one overflow", "anchors": ["esp_idf_size/memorymap.py:_get_mem_type_map", "esp_idf_size/memorymap.py:_split_memory_regions", "esp_idf_size/main.py:main", "esp_idf_size/log.py:warn"]}
{"id": "C117", "title": "The message about an ELF file that cannot be parsed tells what is wrong with it", "statement": "Elf(fn) raises Elf_Exception exactly if the file is too short for its identification or header, has not the magic number, names no known byte order or class, or has a table of program or section headers that ends behind the file; and the message says the first of these in this order, with the bytes, the number or the offset where reading failed. The bytes can be read back from the text. The message with the path of the file is shown as it is, and nothing is raised when it is printed.", "quantifier": "all files", "why_tests_cant": "all byte strings: tests have a few broken files, and none whose first bytes look like console markup", "anchors": ["esp_idf_size/elf.py:Elf.__init__", "esp_idf_size/elf.py:Elf.read", "esp_idf_size/memorymap.py:_load_elf_file"]}
{"id": "C118", "title": "The message about debugging information that cannot be read tells what is wrong with it", "statement": "Reading the units of .debug_info raises Elf_Exception exactly if going from unit to unit one gets to a unit whose version is above 5 or whose address size is neither 4 nor 8, and the message has this version or address size; an attribute is refused exactly if its form has no supported encoding, and the message has the form and its name; an expression is refused exactly if it is a list of addresses that are not one, and the message has these addresses. What is called unknown or invalid is not defined by DWARF. Two messages are the same only if what is wrong is the same, and none has anything that is taken for markup when it is printed.", "quantifier": "all section contents, both byte orders, all forms, all expressions", "why_tests_cant": "all byte strings and all form numbers; tests read the debugging information of the compilers at hand", "anchors": ["esp_idf_size/elf.py:Dwarf_CU.__init__", "esp_idf_size/elf.py:Dwarf_CU.get_attr_value", "esp_idf_size/elf.py:Dwarf_CU.get_attr_eval", "esp_idf_size/elf.py:Elf.CUs", "esp_idf_size/elf.py:DW_FORM_NAME_MAP"]}
{"id": "C119", "title": "A project that is refused is refused with the one message that is true of it", "statement": "memorymap.get raises MemMapException exactly if there is a problem to report: the link map file cannot be read, it has a line or lacks a section as the message says, neither project description nor map file names a target, there is no table of memory types for the target they name (the description first), or a symbol of the ELF file does not fit. At most one of these holds for given inputs, the message is about that one, messages about different kinds of problems are different, and the message is shown as it is.", "quantifier": "all files (reading them fails with OSError, ValueError or, for ELF files, Elf_Exception only, and the debugging information is readable), all link map files, project descriptions, options, all texts of the operating system", "why_tests_cant": "all combinations of files and all contents; tests check a few messages for a few files", "anchors": ["esp_idf_size/memorymap.py:get", "esp_idf_size/memorymap.py:_get_memory_types", "esp_idf_size/memorymap.py:_add_symbols_to_sections", "esp_idf_size/mapfile.py:MapFile._get_mapfile_lines"]}
{"id": "C120", "title": "Errors that are reported while a project is read are true, and the call goes on without what could not be read", "statement": "A call of memorymap.get reports at most one error by log.err. An entry of the cross reference table is reported exactly if reading the map file gets to it and it has a symbol without a definition; it is the first such line. An ELF file is reported with the path named by the project description, as unreadable or as of wrong format, exactly as it is; a project is read without ELF file in silence only if there is none. After the message the call goes on: its result is that without the ELF file. A run reports the ELF file once. The message is shown as it is.", "quantifier": "all link map files, project descriptions, ELF files, options, all texts of the operating system", "why_tests_cant": "all files; tests do not look at what is reported", "anchors": ["esp_idf_size/mapfile.py:MapFile._get_cross_reference_table", "esp_idf_size/memorymap.py:_load_elf_file", "esp_idf_size/memorymap.py:get_elf", "esp_idf_size/memorymap.py:get"]}
{"id": "C121", "title": "A tree is shown whatever the names in it are", "statement": "With --format tree the memory map or the dependencies are printed, whatever the names of memory types, sections, archives, object files and symbols are. Whether the tree is shown depends on the names alone, each for itself: not on sizes, changes, the order of entries or on what stands beside a name.", "quantifier": "all memory maps and tables of dependencies, all names, sizes and changes, with and without a comparison, abbreviations and --dep-symbols", "why_tests_cant": "whether a label is valid markup depends on every character of the names, and a bracket left open in one could be closed by what follows it; tests use names without brackets", "anchors": ["esp_idf_size/format_tree.py:show_memmap", "esp_idf_size/format_tree.py:show_archives_dependencies", "esp_idf_size/format_table.py:color_diff", "esp_idf_size/format_table.py:color_size"]}
