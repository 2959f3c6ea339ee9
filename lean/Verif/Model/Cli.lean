import Verif.Model.Run
/-!
# The command line

The options of `/repo/esp_idf_size/main.py:165-312` and the way `click` (a dependency, not in `/repo`) splits the arguments: options may
stand before and behind the file, `--` ends the options, a long option takes its value behind `=` or from the next argument, short options
may be joined, and the rest of the argument or the next argument is the value of a short option.
-/
namespace EspSize

/-- The options without a value. -/
inductive Flag where
  | archives | archiveDependencies | depSymbols | depReverse | files | noAbbrev | unify | showUnused | showUnchanged | useFlashSize
  | lto | noLto | debug | sortDiff | sortReverse | quiet | noColor | forceTerminal | doc | help
deriving DecidableEq, Repr

/-- The options with a value. -/
inductive Valued where
  | format | archiveDetails | diff | outputFile | sort | filter
deriving DecidableEq, Repr

/-- An option. -/
inductive Opt where
  | flag (f : Flag)
  | valued (v : Valued)
deriving DecidableEq, Repr

/-- An option that is used, or a file. -/
inductive CliItem where
  | flag (f : Flag)
  | value (v : Valued) (s : Str)
  | file (s : Str)
deriving DecidableEq, Repr

/-- The long options, `main.py:172-310`; `main.py:166` for the help. -/
def longOpts : Dict Str Opt := [
  (str "--format", .valued .format),
  (str "--archives", .flag .archives),
  (str "--archive-dependencies", .flag .archiveDependencies),
  (str "--archive-deps", .flag .archiveDependencies),
  (str "--dep-symbols", .flag .depSymbols),
  (str "--dep-syms", .flag .depSymbols),
  (str "--dep-reverse", .flag .depReverse),
  (str "--dep-rev", .flag .depReverse),
  (str "--archive-details", .valued .archiveDetails),
  (str "--archive_details", .valued .archiveDetails),
  (str "--files", .flag .files),
  (str "--diff", .valued .diff),
  (str "--no-abbrev", .flag .noAbbrev),
  (str "--unify", .flag .unify),
  (str "--show-unused", .flag .showUnused),
  (str "--show-unchanged", .flag .showUnchanged),
  (str "--use-flash-size", .flag .useFlashSize),
  (str "--lto", .flag .lto),
  (str "--no-lto", .flag .noLto),
  (str "--debug", .flag .debug),
  (str "--output-file", .valued .outputFile),
  (str "--sort", .valued .sort),
  (str "--filter", .valued .filter),
  (str "--sort-diff", .flag .sortDiff),
  (str "--sort-reverse", .flag .sortReverse),
  (str "--quiet", .flag .quiet),
  (str "--no-color", .flag .noColor),
  (str "--force-terminal", .flag .forceTerminal),
  (str "--doc", .flag .doc),
  (str "--help", .flag .help)]

/-- The short options, `main.py:166,248,250,253,268,292`. -/
def shortOpts : Dict Char Opt := [
  ('d', .flag .debug),
  ('o', .valued .outputFile),
  ('s', .valued .sort),
  ('F', .valued .filter),
  ('q', .flag .quiet),
  ('h', .flag .help)]

/-- A long option, and its value behind `=`. -/
def matchLong (a : Str) : Option (Opt × Option Str) :=
  match cutAt '=' a with
  | some (n, v) => (dget longOpts n).map fun o => (o, some v)
  | none => (dget longOpts a).map fun o => (o, none)

/-- Joined short options; the last may have a value, which may be in the next argument. -/
def shortRun : Str → Option (List CliItem × Option (Valued × Option Str))
  | [] => some ([], none)
  | c :: s =>
    match dget shortOpts c with
    | none => none
    | some (.flag f) => (shortRun s).map fun p => (.flag f :: p.1, p.2)
    | some (.valued v) => some ([], some (v, if s = [] then none else some s))

/-- The options and files of the arguments; `none` is a usage error. -/
def cliItems : List Str → Option (List CliItem)
  | [] => some []
  | a :: rest =>
    if a = str "--" then some (rest.map .file)
    else match a with
      | '-' :: b :: s =>
        match matchLong a with
        | some (.flag f, none) => (cliItems rest).map (.flag f :: ·)
        | some (.flag _, some _) => none
        | some (.valued v, some x) => (cliItems rest).map (.value v x :: ·)
        | some (.valued v, none) =>
          match rest with
          | [] => none
          | x :: rest => (cliItems rest).map (.value v x :: ·)
        | none =>
          if b = '-' then none
          else match shortRun (b :: s) with
            | none => none
            | some (fs, none) => (cliItems rest).map (fs ++ ·)
            | some (fs, some (v, some x)) => (cliItems rest).map (fs ++ .value v x :: ·)
            | some (fs, some (v, none)) =>
              match rest with
              | [] => none
              | x :: rest => (cliItems rest).map (fs ++ .value v x :: ·)
      | _ => (cliItems rest).map (.file a :: ·)

/-- `str.casefold` for the characters that become letters of ASCII (but the Kelvin sign, as no format has a `k`). -/
def foldChar (c : Char) : Char := if c = Char.ofNat 0x17F then 's' else c.toLower

/-- The formats, `main.py:174`. -/
def formatChoices : List Str := [str "table", str "text", str "tree", str "csv", str "json2", str "raw", str "dot"]

/-- `click.Choice(formatChoices, case_sensitive=False)`. -/
def chooseFormat (s : Str) : Option Str := formatChoices.find? (· = s.map foldChar)

/-- What the options have set. -/
structure Cmd where
  args : Args := {}
  files : List Str := []
  debug : Bool := false
  quiet : Bool := false
  noColor : Bool := false
  forceTerminal : Bool := false
  docs : Bool := false
deriving DecidableEq, Repr

/-- A flag is stored. -/
def setFlag (c : Cmd) : Flag → Cmd
  | .archives => { c with args := { c.args with archives := true } }
  | .archiveDependencies => { c with args := { c.args with archiveDependencies := true } }
  | .depSymbols => { c with args := { c.args with depSymbols := true } }
  | .depReverse => { c with args := { c.args with depReverse := true } }
  | .files => { c with args := { c.args with files := true } }
  | .noAbbrev => { c with args := { c.args with noAbbrev := true } }
  | .unify => { c with args := { c.args with unify := true } }
  | .showUnused => { c with args := { c.args with showUnused := true } }
  | .showUnchanged => { c with args := { c.args with showUnchanged := true } }
  | .useFlashSize => { c with args := { c.args with useFlashSize := true } }
  | .lto => { c with args := { c.args with useDwarf := some true } }
  | .noLto => { c with args := { c.args with useDwarf := some false } }
  | .debug => { c with debug := true }
  | .sortDiff => { c with args := { c.args with sortDiff := true } }
  | .sortReverse => { c with args := { c.args with sortReverse := false } }
  | .quiet => { c with quiet := true }
  | .noColor => { c with noColor := true }
  | .forceTerminal => { c with forceTerminal := true }
  | .doc => { c with docs := true }
  | .help => { c with docs := true }

/-- A value is stored; `-F` collects its values, `main.py:44-49,267-283`. -/
def setValue (c : Cmd) (s : Str) : Valued → Cmd
  | .format => { c with args := { c.args with format := s } }
  | .archiveDetails => { c with args := { c.args with archiveDetails := some s } }
  | .diff => { c with args := { c.args with diff := some s } }
  | .outputFile => { c with args := { c.args with outputFile := some s } }
  | .sort => { c with args := { c.args with sort := s } }
  | .filter => { c with args := { c.args with filter := some (c.args.filter.getD [] ++ [s]) } }

/-- An option is stored; files are collected. -/
def setItem (c : Cmd) : CliItem → Cmd
  | .flag f => setFlag c f
  | .value v s => setValue c s v
  | .file s => { c with files := c.files ++ [s] }

/-- What a command line asks for. -/
inductive Asked where
  /-- A message about the usage; exit status 2. -/
  | usage
  /-- Help or documentation; exit status 0. -/
  | docs
  /-- `_run(args)`, `main.py:311-312`. -/
  | run (input : Str) (c : Cmd)
deriving DecidableEq, Repr

/-- `main`, `main.py:165-312`. -/
def askedBy (argv : List Str) : Asked :=
  match cliItems argv with
  | none => .usage
  | some items =>
    let c := items.foldl setItem {}
    if c.docs then .docs
    else match chooseFormat c.args.format, c.files with
      | some f, [input] => .run input { c with args := { c.args with format := f } }
      | _, _ => .usage

/-- Exit status of the interpreter: `log.die` and exceptions that are not handled give 1. -/
def exitStatus : Except Err Unit → Nat
  | .ok _ => 0
  | .error _ => 1

/-- The files and the exit status after `esp_idf_size argv`. -/
def mainRun (R : RunIn) (draw : Report → List UInt8) (wr : Writing) (fs : Files) (argv : List Str) : Option (Files × Nat) :=
  match askedBy argv with
  | .usage => some (fs, 2)
  | .docs => some (fs, 0)
  | .run input c => (makeReport R input c.args).map fun rep =>
      let x := finishRun rep none draw wr fs c.args
      (x.1, exitStatus x.2)

end EspSize
