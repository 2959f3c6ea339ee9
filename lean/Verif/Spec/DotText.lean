import Verif.Spec.Markup
/-!
# Specification of the DOT language, as far as reports need it

A scanner and a reader for graphs in the language of Graphviz (`https://graphviz.org/doc/info/lang.html`): names
are words or quoted strings, in which `\"` stands for a quote; node and edge statements with an optional list of
attributes.  Subgraphs, ports, comments, HTML strings and default attributes are left out.
-/
namespace EspSize

inductive DotTok where
  | id (s : Str)
  | arrow
  | line
  | sign (c : Char)
deriving DecidableEq, Repr

/-- What the scanner is reading. -/
inductive DotMode where
  | out
  | word (w : Str)
  | dash
  | quote (w : Str)
  | back (w : Str)
deriving DecidableEq

def wordChar (c : Char) : Bool :=
  (decide ('a' ≤ c) && decide (c ≤ 'z')) || (decide ('A' ≤ c) && decide (c ≤ 'Z')) || (decide ('0' ≤ c) && decide (c ≤ '9')) || c = '_'

def signChar (c : Char) : Bool := c = '{' || c = '}' || c = '[' || c = ']' || c = '=' || c = ',' || c = ';'

/-- A character outside of words and strings. -/
def dotOut (c : Char) : Option (List DotTok × DotMode) :=
  if c = '"' then some ([], .quote [])
  else if c = ' ' || c = '\n' || c = '\t' then some ([], .out)
  else if c = '-' then some ([], .dash)
  else if wordChar c then some ([], .word [c])
  else if signChar c then some ([.sign c], .out)
  else none

def dotStep (m : DotMode) (c : Char) : Option (List DotTok × DotMode) :=
  match m with
  | .out => dotOut c
  | .word w => if wordChar c then some ([], .word (w ++ [c])) else (dotOut c).map fun x => (.id w :: x.1, x.2)
  | .dash => if c = '>' then some ([.arrow], .out) else if c = '-' then some ([.line], .out) else none
  | .quote w => if c = '"' then some ([.id w], .out) else if c = '\\' then some ([], .back w) else some ([], .quote (w ++ [c]))
  | .back w =>
    if c = '"' then some ([], .quote (w ++ [c])) else if c = '\n' then some ([], .quote w) else some ([], .quote (w ++ ['\\', c]))

/-- The tokens of a text; `none` if it has no meaning. -/
def dotScan : DotMode → Str → Option (List DotTok)
  | .out, [] => some []
  | .word w, [] => some [.id w]
  | _, [] => none
  | m, c :: t =>
    match dotStep m c with
    | none => none
    | some (ts, m) => (dotScan m t).map fun x => ts ++ x

inductive DotStmt where
  | node (name : Str) (attrs : List (Str × Str))
  | edge (src dst : Str) (attrs : List (Str × Str))
deriving DecidableEq, Repr

/-- Attributes up to `]`, and what follows. -/
def dotAttrs : List DotTok → Option (List (Str × Str) × List DotTok)
  | .sign ']' :: r => some ([], r)
  | .id k :: .sign '=' :: .id v :: .sign ',' :: r => (dotAttrs r).map fun x => ((k, v) :: x.1, x.2)
  | .id k :: .sign '=' :: .id v :: r => (dotAttrs r).map fun x => ((k, v) :: x.1, x.2)
  | _ => none

/-- An optional list of attributes. -/
def dotOptAttrs : List DotTok → Option (List (Str × Str) × List DotTok)
  | .sign '[' :: r => dotAttrs r
  | r => some ([], r)

/-- Statements of a directed graph up to the last `}`; at most `n` of them. -/
def dotStmts : Nat → List DotTok → Option (List DotStmt)
  | _, [.sign '}'] => some []
  | 0, _ => none
  | n + 1, .id a :: .arrow :: .id b :: r =>
    match dotOptAttrs r with
    | none => none
    | some (as, r) => (dotStmts n r).map fun x => .edge a b as :: x
  | n + 1, .id a :: r =>
    match dotOptAttrs r with
    | none => none
    | some (as, r) => (dotStmts n r).map fun x => .node a as :: x
  | _, _ => none

/-- The statements of a strict directed graph without name. -/
def readDot (s : Str) : Option (List DotStmt) :=
  match dotScan .out s with
  | some (.id a :: .id b :: .sign '{' :: r) =>
    if a = str "strict" ∧ b = str "digraph" then dotStmts r.length r else none
  | _ => none

/-- The graph of a list of statements: its nodes and its edges. -/
def stmtNodes (l : List DotStmt) : List Str := l.filterMap fun
  | .node n _ => some n
  | .edge _ _ _ => none

def stmtEdges (l : List DotStmt) : List (Str × Str) := l.filterMap fun
  | .node _ _ => none
  | .edge a b _ => some (a, b)

/-- A name that can be put between quotes, and is no markup: without quotes, with no backslash at the end of the name or of a line. -/
structure DotSafe (s : Str) : Prop where
  quote : '"' ∉ s
  last : s.getLast? ≠ some '\\'
  line : ¬ ∃ a b : Str, s = a ++ '\\' :: '\n' :: b
  markup : NoMarkup s

end EspSize
