import Verif.Cli.Model
import Verif.Opts.Spec
import Verif.Types.Spec
/-!
# What a command line says

The options with their names and values as in the help; a command line is a list of items, each
spelled in one of the usual ways. Nothing here refers to the table or to the loop of the model.
-/
namespace Verif.Cli
open Verif.Opts Verif.Main Verif.Types

/-- The letter of an option, if it has one. -/
def letter : ArgId → Option String
  | .diff => some "d"
  | .format => some "o"
  | .category => some "c"
  | .print => some "p"
  | .filter => some "f"
  | .sort => some "s"
  | .ignore => some "i"
  | .bloat | .inlineDepth | .prefixMap => none

/-- The long name of an option. -/
def longName : ArgId → String
  | .diff => "diff"
  | .bloat => "bloat"
  | .format => "format"
  | .category => "category"
  | .print => "print"
  | .inlineDepth => "inline-depth"
  | .filter => "filter"
  | .sort => "sort"
  | .ignore => "ignore"
  | .prefixMap => "prefix-map"

/-- The number of values of one occurrence. -/
def arity : ArgId → Nat
  | .diff => 2
  | _ => 1

/-- Options that can be given several times, with several values separated by commas. -/
def isList : ArgId → Prop
  | .category | .print | .filter | .ignore | .prefixMap => True
  | _ => False

/-- The possible values, for options that have only some. -/
def choices : ArgId → Option (List String)
  | .format => some ["text", "html", "http"]
  | .category => some categoryNames
  | .print => some printNames
  | .sort => some ["name", "size"]
  | .ignore => some ignoreNames
  | _ => none

/-- One thing said on a command line: the file to print, or an option with its values. -/
inductive Item
  | file (path : Str)
  | opt (id : ArgId) (values : List Str)
deriving DecidableEq, Repr

/-- The argument does not look like an option: it is `-`, or does not begin with `-`. -/
def PlainArg (t : Str) : Prop := t = k "-" ∨ ∀ rest, t ≠ k "-" ++ rest

/-- The ways to spell an item: the file; `--name value…`; `-x value…`; `--name=value`; `-x=value`;
`-xvalue`. -/
inductive Spelled : Item → List Str → Prop
  | file {p} : PlainArg p → Spelled (.file p) [p]
  | long {id vs} : vs.length = arity id → (∀ v ∈ vs, PlainArg v) →
      Spelled (.opt id vs) ((k "--" ++ k (longName id)) :: vs)
  | short {id c vs} : letter id = some c → vs.length = arity id → (∀ v ∈ vs, PlainArg v) →
      Spelled (.opt id vs) ((k "-" ++ k c) :: vs)
  | longEq {id v} : Spelled (.opt id [v]) [k "--" ++ k (longName id) ++ k "=" ++ v]
  | shortEq {id c v} : letter id = some c → Spelled (.opt id [v]) [k "-" ++ k c ++ k "=" ++ v]
  | joined {id c v} : letter id = some c → v ≠ [] → (∀ rest, v ≠ k "=" ++ rest) →
      Spelled (.opt id [v]) [k "-" ++ k c ++ v]

/-- A command line that says the items in order. After `--` everything is a file. -/
inductive Says : List Item → List Str → Prop
  | done : Says [] []
  | item {i ts is rest} : Spelled i ts → Says is rest → Says (i :: is) (ts ++ rest)
  | escape {ps} : Says (ps.map .file) (k "--" :: ps)

/-- Parts joined with commas. -/
def joinCommas : List Str → Str
  | [] => []
  | [p] => p
  | p :: q :: ps => p ++ k "," ++ joinCommas (q :: ps)

/-- `parts` is `v` cut at every comma. -/
def CutAtCommas (v : Str) (parts : List Str) : Prop :=
  parts ≠ [] ∧ joinCommas parts = v ∧ ∀ p ∈ parts, 44 ∉ p

/-- The values meant by those of one occurrence: cut at commas for a list, else as they are. -/
def Meant (id : ArgId) (values meant : List Str) : Prop :=
  (isList id ∧ ∃ parts, All2 CutAtCommas values parts ∧ meant = parts.flatten) ∨
  (¬ isList id ∧ meant = values)

/-- The occurrences of an option. -/
def occurrences (id : ArgId) : List Item → List (List Str)
  | [] => []
  | .file _ :: is => occurrences id is
  | .opt j vs :: is => if j = id then vs :: occurrences id is else occurrences id is

/-- The files. -/
def filesOf : List Item → List Str
  | [] => []
  | .file p :: is => p :: filesOf is
  | .opt _ _ :: is => filesOf is

/-- What is said about an option: nothing, or all the values meant, in order. -/
def SaysOf (id : ArgId) (items : List Item) (r : Option (List Str)) : Prop :=
  (occurrences id items = [] ∧ r = none) ∨
  (occurrences id items ≠ [] ∧ ∃ ms, All2 (Meant id) (occurrences id items) ms ∧ r = some ms.flatten)

/-- Nothing is wrong with the items by themselves: the values are among the choices, an option that
is not a list occurs once, an occurrence has the right number of values, and there is one file at most. -/
def Proper (items : List Item) : Prop :=
  (filesOf items).length ≤ 1 ∧
  (∀ id, (∀ vs ∈ occurrences id items, vs.length = arity id) ∧
    (¬ isList id → (occurrences id items).length ≤ 1) ∧
    ∀ cs, choices id = some cs → ∀ vs ∈ occurrences id items, ∀ ms, Meant id vs ms → ∀ m ∈ ms, ∃ c ∈ cs, m = k c)

/-- The paths and settings that the items mean. -/
structure Meaning (items : List Item) (p : Paths) (a : Args) : Prop where
  file : filesOf items = p.file.toList
  diff : SaysOf .diff items (p.diff.map fun x => [x.1, x.2])
  bloat : SaysOf .bloat items (p.bloat.map fun x => [x])
  output : SaysOf .format items (a.output.map fun x => [x])
  inlineDepth : SaysOf .inlineDepth items (a.inlineDepth.map fun x => [x])
  sort : SaysOf .sort items (a.sort.map fun x => [x])
  category : SaysOf .category items a.category
  print : SaysOf .print items a.print
  filter : SaysOf .filter items a.filter
  ignore : SaysOf .ignore items a.ignore
  prefixMap : SaysOf .prefixMap items a.prefixMap

end Verif.Cli
