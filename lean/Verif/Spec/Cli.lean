import Verif.Model.Cli
import Verif.Spec.Sort
/-! # The command line -/
namespace EspSize

/-- The ways to write a flag. -/
def flagNames : Flag → List String × List Char
  | .archives => (["--archives"], [])
  | .archiveDependencies => (["--archive-dependencies", "--archive-deps"], [])
  | .depSymbols => (["--dep-symbols", "--dep-syms"], [])
  | .depReverse => (["--dep-reverse", "--dep-rev"], [])
  | .files => (["--files"], [])
  | .noAbbrev => (["--no-abbrev"], [])
  | .unify => (["--unify"], [])
  | .showUnused => (["--show-unused"], [])
  | .showUnchanged => (["--show-unchanged"], [])
  | .useFlashSize => (["--use-flash-size"], [])
  | .lto => (["--lto"], [])
  | .noLto => (["--no-lto"], [])
  | .debug => (["--debug"], ['d'])
  | .sortDiff => (["--sort-diff"], [])
  | .sortReverse => (["--sort-reverse"], [])
  | .quiet => (["--quiet"], ['q'])
  | .noColor => (["--no-color"], [])
  | .forceTerminal => (["--force-terminal"], [])
  | .doc => (["--doc"], [])
  | .help => (["--help"], ['h'])

/-- The ways to write an option with a value. -/
def valuedNames : Valued → List String × List Char
  | .format => (["--format"], [])
  | .archiveDetails => (["--archive-details", "--archive_details"], [])
  | .diff => (["--diff"], [])
  | .outputFile => (["--output-file"], ['o'])
  | .sort => (["--sort"], ['s'])
  | .filter => (["--filter"], ['F'])

/-- A long name. -/
def LongName (names : List String × List Char) (n : Str) : Prop := ∃ s ∈ names.1, n = str s

/-- Joined short flags. -/
inductive ShortFlags : Str → List Flag → Prop
  | nil : ShortFlags [] []
  | cons {c f s fs} : c ∈ (flagNames f).2 → ShortFlags s fs → ShortFlags (c :: s) (f :: fs)

/-- The arguments, and the options and files they consist of. -/
inductive Written : List Str → List CliItem → Prop
  | nil : Written [] []
  /-- A file: anything that does not begin with a hyphen, or a hyphen alone. -/
  | file {a argv items} : (∀ s, a = '-' :: s → s = []) → Written argv items → Written (a :: argv) (.file a :: items)
  | flag {f n argv items} : LongName (flagNames f) n → Written argv items → Written (n :: argv) (.flag f :: items)
  /-- `--name=value`. -/
  | valueEq {v n s argv items} : LongName (valuedNames v) n → Written argv items → Written ((n ++ '=' :: s) :: argv) (.value v s :: items)
  /-- `--name value`. -/
  | value {v n s argv items} : LongName (valuedNames v) n → Written argv items → Written (n :: s :: argv) (.value v s :: items)
  /-- `-abc`. -/
  | short {s fs argv items} : s ≠ [] → ShortFlags s fs → Written argv items →
      Written (('-' :: s) :: argv) (fs.map .flag ++ items)
  /-- `-abcvalue`. -/
  | shortValue {s fs c v x argv items} : ShortFlags s fs → c ∈ (valuedNames v).2 → x ≠ [] → Written argv items →
      Written (('-' :: (s ++ c :: x)) :: argv) (fs.map .flag ++ .value v x :: items)
  /-- `-abc value`. -/
  | shortNext {s fs c v x argv items} : ShortFlags s fs → c ∈ (valuedNames v).2 → Written argv items →
      Written (('-' :: (s ++ [c])) :: x :: argv) (fs.map .flag ++ .value v x :: items)
  /-- Behind `--` there are only files. -/
  | rest {argv} : Written (str "--" :: argv) (argv.map .file)

/-- The last of these values, or a default. -/
def lastGiven {α : Type} (d : α) : List α → α
  | [] => d
  | x :: l => lastGiven x l

/-- The values given for an option, in order. -/
def valuesOf (v : Valued) (items : List CliItem) : List Str :=
  items.filterMap fun
    | .value w s => if w = v then some s else none
    | _ => none

/-- The files, in order. -/
def filesOf (items : List CliItem) : List Str :=
  items.filterMap fun
    | .file s => some s
    | _ => none

/-- The choices between `--lto` and `--no-lto`, in order. -/
def ltoChoices (items : List CliItem) : List Bool :=
  items.filterMap fun
    | .flag .lto => some true
    | .flag .noLto => some false
    | _ => none

/-- The options mean these arguments, up to the spelling of the format. -/
structure Means (items : List CliItem) (c : Cmd) : Prop where
  archives : c.args.archives = true ↔ .flag .archives ∈ items
  archiveDependencies : c.args.archiveDependencies = true ↔ .flag .archiveDependencies ∈ items
  depSymbols : c.args.depSymbols = true ↔ .flag .depSymbols ∈ items
  depReverse : c.args.depReverse = true ↔ .flag .depReverse ∈ items
  files : c.args.files = true ↔ .flag .files ∈ items
  noAbbrev : c.args.noAbbrev = true ↔ .flag .noAbbrev ∈ items
  unify : c.args.unify = true ↔ .flag .unify ∈ items
  showUnused : c.args.showUnused = true ↔ .flag .showUnused ∈ items
  showUnchanged : c.args.showUnchanged = true ↔ .flag .showUnchanged ∈ items
  useFlashSize : c.args.useFlashSize = true ↔ .flag .useFlashSize ∈ items
  useDwarf : c.args.useDwarf = lastGiven none ((ltoChoices items).map some)
  sortDiff : c.args.sortDiff = true ↔ .flag .sortDiff ∈ items
  sortReverse : c.args.sortReverse = false ↔ .flag .sortReverse ∈ items
  debug : c.debug = true ↔ .flag .debug ∈ items
  quiet : c.quiet = true ↔ .flag .quiet ∈ items
  noColor : c.noColor = true ↔ .flag .noColor ∈ items
  forceTerminal : c.forceTerminal = true ↔ .flag .forceTerminal ∈ items
  archiveDetails : c.args.archiveDetails = lastGiven none ((valuesOf .archiveDetails items).map some)
  diff : c.args.diff = lastGiven none ((valuesOf .diff items).map some)
  outputFile : c.args.outputFile = lastGiven none ((valuesOf .outputFile items).map some)
  sort : c.args.sort = lastGiven (str "1") (valuesOf .sort items)
  /-- Set later, from the option `--no-abbrev`. -/
  abbrev_ : c.args.abbrev_ = true
  filter : c.args.filter = if valuesOf .filter items = [] then none else some (valuesOf .filter items)

/-- The names of the formats. -/
def formatNames : List Str := [str "table", str "text", str "tree", str "csv", str "json2", str "raw", str "dot"]

/-- The letter, small or capital; `ſ` is a small s. -/
def SameLetter (c l : Char) : Prop := c.toLower = l ∨ (c = 'ſ' ∧ l = 's')

/-- A spelling of the format. -/
def SpellsFormat (s f : Str) : Prop := f ∈ formatNames ∧ All2 SameLetter s f

end EspSize
