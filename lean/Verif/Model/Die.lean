import Verif.Model.RunFiles
import Verif.Py.Fmt
/-!
# What a run that ends with an error message says

The arguments of `log.die` in `format_table.py`, `format_dot.py`, `deps.py` and `memorymap.py`; `none` if it is not called.
`log.die` belongs to `esp_pylib`, which is not part of the repository; that it prints its arguments as markup is inferred from the
`escape` in `format_table.py:122`.
-/
namespace EspSize

/-- The substitution in `rich.markup.escape`, with at most `n` steps: the backslashes before a tag are doubled, and one is added. -/
def escapeTagsN : Nat → Str → Str
  | 0, s => s
  | n + 1, s =>
    match tagAt s with
    | some (k, tag, rest) => List.replicate (2 * k + 1) '\\' ++ '[' :: (tag ++ ']' :: escapeTagsN n rest)
    | none =>
      match s with
      | [] => []
      | c :: t => c :: escapeTagsN n t

/-- `rich.markup.escape`.  A single backslash at the end is doubled. -/
def escapeMarkup (s : Str) : Str :=
  let t := escapeTagsN s.length s
  if endsWith t ['\\'] && !endsWith t ['\\', '\\'] then t ++ ['\\'] else t

/-- `format_table.py:122,234`. -/
def noColumnText (name : Str) : Str := str "Column \"" ++ name ++ str "\" not found"

/-- `format_table.py:125,237`. -/
def firstColumnText : Str := str "Sorting based on column 0, which contains row description, is not supported."

/-- `format_table.py:131-134,250-253`. -/
def columnRangeText (k first last : Int) : List Str :=
  [str "Column index " ++ intStr k ++ str " is out of range.",
   str "Please use 1.." ++ intStr last ++ str " or " ++ intStr first ++ str "..-1 range."]

/-- `args['sort']` as a number or the arguments of `log.die`, `format_table.py:112-125,226-237`. -/
def sortSays (esc : Str → Str) (headers : List Str) (sort : Str) : Except (List Str) Int :=
  match pyInt10 sort with
  | some n => if n = 0 then .error [firstColumnText] else .ok n
  | none =>
    match headers.findIdx? (· = sort) with
    | none => .error [noColumnText (esc sort)]
    | some 0 => .error [firstColumnText]
    | some (i + 1) => .ok ((i : Int) + 1)

/-- `_get_table_sorted`, `format_table.py:226-253`; `columns` is the list of the last row. -/
def tableSays (summary : Dict Str Entry) (headers : List Str) (args : Args) : Option (List Str) :=
  match sortSays id headers args.sort with
  | .error t => some t
  | .ok n =>
    match sortRows args n (summary.map (entryRow args)) with
    | .ok _ => none
    | .error _ =>
      let columns := match (summary.map (entryRow args)).getLast? with
        | none => []
        | some r => r.2
      some (columnRangeText n (-columns.length) ((columns.length : Int) - 1))

/-- The three tables with entries, `format_table.py:264-330`. -/
def detailSays (title : Str) (summary : Dict Str Entry) (args : Args) : Option (List Str) :=
  tableSays summary ([title, str "Total Size"] ++
    (match summary with
     | [] => []
     | p :: _ => entryHeaders args p.2)) args

/-- `get_summary_table`, `format_table.py:112-134`. -/
def summarySays (args : Args) : Option (List Str) :=
  match sortSays escapeMarkup summaryTitles args.sort with
  | .error t => some t
  | .ok n =>
    match pyIndex sumKeys (if n > 0 then n - 1 else n) with
    | .ok _ => none
    | .error _ => some (columnRangeText n (-sumKeys.length) sumKeys.length)

/-- `get_symbols_summary`, `memorymap.py:767-768`. -/
def symbolsSay (m : MemMap) (args : Args) : Option (List Str) :=
  match getSymbolsSummary m args with
  | .ok _ => none
  | .error _ => some [str "Archive \"" ++ args.archiveDetails.getD (str "None") ++ str "\" not found."]

/-- `get_archives_dependencies`, `deps.py:100-103,125-127`. -/
def depsSay (crt : Option Crt) (elf : Option ElfFile) : Option (List Str) :=
  match crt, elf with
  | none, _ => some [str "The cross-reference table is not available."]
  | some _, none => some [str "Displaying archives dependencies requires an ELF file to work properly."]
  | some _, some _ => none

/-- The summary of the entries, if it can be made, and the table of it. -/
def listingSays (title : Str) (summary : Except Err (Dict Str Entry)) (args : Args) : Option (List Str) :=
  match summary with
  | .error _ => none
  | .ok s => detailSays title (getSummaryFiltered Entry.abb s args) args

/-- The table selected by the options, `format_table.py:413-423`, `format_csv.py:56-66`. -/
def selectSays (crt : Option Crt) (elf : Option ElfFile) (args : Args) (m : MemMap) : Option (List Str) :=
  if args.archives then listingSays (str "Archive File") (getArchivesSummary m args) args
  else if truthy args.archiveDetails then
    match symbolsSay m args with
    | some t => some t
    | none => listingSays (str "Symbol") (getSymbolsSummary m args) args
  else if args.archiveDependencies then depsSay crt elf
  else if args.files then listingSays (str "Object File") (getObjectFilesSummary m args) args
  else summarySays args

/-- The selection of the formatter, `main.py:141-152`; `format_json.py:63-73`, `format_raw.py:11-16`, `format_tree.py:80-84`,
`format_dot.py:52-55`. -/
def showSays (crt : Option Crt) (elf : Option ElfFile) (args : Args) (m : MemMap) : Option (List Str) :=
  if args.format = str "table" ∨ args.format = str "text" ∨ args.format = str "csv" then selectSays crt elf args m
  else if args.format = str "json2" then
    if args.archives then none
    else if truthy args.archiveDetails then symbolsSay m args
    else if args.archiveDependencies then depsSay crt elf
    else none
  else if args.format = str "raw" ∨ args.format = str "tree" then
    if args.archiveDependencies then depsSay crt elf else none
  else if args.format = str "dot" then
    if args.archiveDependencies then depsSay crt elf
    else some [str "The DOT output format is available only for the --archive-dependencies option."]
  else none

end EspSize
