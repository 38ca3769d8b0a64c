import Verif.Main.Model
/-!
# Model of the command line: `cli` (main/src/main.rs:97-238) and `get_matches_mut` (248-249)

`cli` is a table for the library `clap` (4.6.1 in Cargo.lock). The table is modelled as it is; how
clap reads a command line with such a table is modelled from its documentation and the source of
`clap_builder::parser` (library code, part of the trusted base), for the features that `cli` uses:
options with values, repeated or not, values cut at a delimiter, lists of possible values, one
positional argument, and `--`. The rules between arguments (`required_unless_present_any`,
`conflicts_with_all`, `requires`) are `Main.accepted`.

* `none` is any end of the program inside clap: an error, or `--help`, `-h`, `--version`, `-V`.
* An argument is its bytes and is valid UTF-8 (clap rejects others, as all values are `String`).
* Not modelled: the texts of errors and help, suggestions.
-/
namespace Verif.Cli
open Verif.Opts Verif.Main

/-- The options of `cli` (main/src/main.rs:33-95, 107-229), without the positional `FILE`. -/
inductive ArgId
  | diff | bloat | format | category | print | inlineDepth | filter | sort | ignore | prefixMap
deriving DecidableEq, Repr

/-- What `cli` says about an option: `short`, `long`, the number of values (`num_args`; 1 unless
there are several `value_names`), whether it has `ArgAction::Append` (else the default `Set`),
`value_delimiter(',')`, and `value_parser([..])` (main/src/main.rs:107-229). -/
structure Flag where
  id : ArgId
  short : Option Nat
  long : Str
  count : Nat := 1
  many : Bool := false
  split : Bool := false
  values : Option (List Str) := none
deriving DecidableEq, Repr

/-- main/src/main.rs:107-114. -/
def diffFlag : Flag := { id := .diff, short := some 100, long := k "diff", count := 2 }
/-- main/src/main.rs:115-121. -/
def bloatFlag : Flag := { id := .bloat, short := none, long := k "bloat" }
/-- main/src/main.rs:122-130. -/
def formatFlag : Flag :=
  { id := .format, short := some 111, long := k "format", values := some [k "text", k "html", k "http"] }
/-- main/src/main.rs:131-147. -/
def categoryFlag : Flag :=
  { id := .category, short := some 99, long := k "category", many := true, split := true,
    values := some [k "file", k "unit", k "type", k "function", k "variable"] }
/-- main/src/main.rs:148-170. -/
def printFlag : Flag :=
  { id := .print, short := some 112, long := k "print", many := true, split := true,
    values := some [k "all", k "address", k "source", k "file-address", k "unit-address",
      k "function-calls", k "function-instructions", k "function-variables",
      k "function-stack-frame", k "inlined-function-parameters", k "variable-locations"] }
/-- main/src/main.rs:171-176. -/
def inlineDepthFlag : Flag := { id := .inlineDepth, short := none, long := k "inline-depth" }
/-- main/src/main.rs:177-186. -/
def filterFlag : Flag :=
  { id := .filter, short := some 102, long := k "filter", many := true, split := true }
/-- main/src/main.rs:187-195. -/
def sortFlag : Flag :=
  { id := .sort, short := some 115, long := k "sort", values := some [k "name", k "size"] }
/-- main/src/main.rs:196-219. -/
def ignoreFlag : Flag :=
  { id := .ignore, short := some 105, long := k "ignore", many := true, split := true,
    values := some [k "added", k "deleted", k "address", k "linkage-name", k "symbol-name",
      k "function-address", k "function-size", k "function-inline", k "function-symbol-name",
      k "variable-address", k "variable-symbol-name"] }
/-- main/src/main.rs:220-229. -/
def prefixMapFlag : Flag :=
  { id := .prefixMap, short := none, long := k "prefix-map", many := true, split := true }

/-- `cli` (main/src/main.rs:97-238): its options. -/
def cli : List Flag :=
  [diffFlag, bloatFlag, formatFlag, categoryFlag, printFlag, inlineDepthFlag, filterFlag, sortFlag,
   ignoreFlag, prefixMapFlag]

/-- `raw.split(',')` (clap, for `value_delimiter(',')`, main/src/main.rs:138, 155, 184, 204, 227). -/
def splitComma : Str → List Str
  | [] => [[]]
  | c :: t =>
    if c = 44 then [] :: splitComma t
    else
      match splitComma t with
      | h :: r => (c :: h) :: r
      | [] => [[c]]

/-- What clap has found so far (`ArgMatches`): the values of the options, and `FILE`. -/
structure Matches where
  opt : ArgId → Option (List Str) := fun _ => none
  file : Option Str := none

/-- clap, `Parser::react` for one occurrence of an option: the number of values must be right;
values are cut at the delimiter; each must be possible. -/
def Flag.accept (f : Flag) (raw : List Str) : Option (List Str) :=
  if raw.length = f.count then
    let vs := if f.split then raw.flatMap splitComma else raw
    if (match f.values with
        | none => true
        | some l => vs.all fun v => l.contains v) then some vs else none
  else none

/-- clap, `Parser::react`, the actions: `Append` adds to the values there are; with `Set` a second
occurrence is an error. -/
def Matches.react (m : Matches) (f : Flag) (raw : List Str) : Option Matches :=
  match f.accept raw with
  | none => none
  | some vs =>
    match m.opt f.id with
    | none => some { m with opt := fun i => if i = f.id then some vs else m.opt i }
    | some old =>
      if f.many then some { m with opt := fun i => if i = f.id then some (old ++ vs) else m.opt i }
      else none

/-- The kinds of argument (`clap_lex`): `--`; `--name` or `--name=value`; `-x…`; anything else,
which includes `-` and the empty argument. -/
inductive Token
  | escape
  | long (name : Str) (value : Option Str)
  | short (c : Nat) (rest : Str)
  | value
deriving DecidableEq, Repr

/-- `clap_lex::ParsedArg::{is_escape, to_long, to_short}`, in the order in which clap asks. -/
def classify : Str → Token
  | [] => .value
  | [_] => .value
  | c :: d :: rest =>
    if c = 45 then
      if d = 45 then
        if rest = [] then .escape
        else
          match splitEq rest with
          | some (n, v) => .long n (some v)
          | none => .long rest none
      else .short d rest
    else .value

/-- The state of clap's loop over the arguments: the matches, the option that still needs values
with those it has, and whether `--` was seen. -/
structure St where
  m : Matches := {}
  pending : Option (Flag × List Str) := none
  trailing : Bool := false

/-- clap, the value for `FILE` (main/src/main.rs:99-106); a second one is an error. -/
def St.positional (s : St) (t : Str) : Option St :=
  match s.m.file with
  | none => some { s with m := { s.m with file := some t } }
  | some _ => none

/-- clap, `parse_opt_value`: an option, with its value attached or with values to come. An earlier
option that still needs values is an error. -/
def St.option (s : St) (f : Flag) (attached : Option Str) : Option St :=
  match s.pending with
  | some _ => none
  | none =>
    match attached with
    | some v => (s.m.react f [v]).map fun m => { s with m }
    | none => some { s with pending := some (f, []) }

/-- clap, a value for an option. -/
def St.take (s : St) (f : Flag) (vs : List Str) : Option St :=
  if vs.length < f.count then some { s with pending := some (f, vs) }
  else (s.m.react f vs).map fun m => { s with m, pending := none }

/-- The text after the letter of a short option: nothing, or a value; a first `=` is dropped
(clap, `parse_short_arg`). -/
def attachedOf : Str → Option Str
  | [] => none
  | c :: rest => if c = 61 then some rest else some (c :: rest)

/-- One argument (clap, the loop of `Parser::get_matches_with`). -/
def step (s : St) (t : Str) : Option St :=
  if s.trailing then s.positional t
  else
    match classify t with
    | .escape =>
      match s.pending with
      | some _ => none
      | none => some { s with trailing := true }
    | .long name v =>
      match cli.find? (fun f => f.long == name) with
      | some f => s.option f v
      | none => none
    | .short c rest =>
      match cli.find? (fun f => f.short == some c) with
      | some f => s.option f (attachedOf rest)
      | none => none
    | .value =>
      match s.pending with
      | some (f, vs) => s.take f (vs ++ [t])
      | none => s.positional t

/-- The loop of `Parser::get_matches_with`. -/
def parseFrom (s : St) : List Str → Option Matches
  | [] =>
    match s.pending with
    | some _ => none
    | none => some s.m
  | t :: ts =>
    match step s t with
    | some s => parseFrom s ts
    | none => none

/-- `matches.get_many(OPT_DIFF)` and its two `next().unwrap()` (main/src/main.rs:456-458). -/
def two : Option (List Str) → Option (Str × Str)
  | some (a :: b :: _) => some (a, b)
  | _ => none

/-- `matches.get_one` (main/src/main.rs:256, 277, 393, 485, 501). -/
def one : Option (List Str) → Option Str
  | some (v :: _) => some v
  | _ => none

/-- The paths that `main` asks for (main/src/main.rs:456, 485, 501). -/
def Matches.paths (m : Matches) : Paths :=
  { diff := two (m.opt .diff), bloat := one (m.opt .bloat), file := m.file }

/-- The settings that `main` asks for (main/src/main.rs:256-454). -/
def Matches.args (m : Matches) : Args :=
  { output := one (m.opt .format), inlineDepth := one (m.opt .inlineDepth), category := m.opt .category,
    print := m.opt .print, filter := m.opt .filter, sort := one (m.opt .sort), ignore := m.opt .ignore,
    prefixMap := m.opt .prefixMap }

/-- `cmd.get_matches_mut()` (main/src/main.rs:248-249) without the rules between arguments, on the
arguments after the name of the program. -/
def getMatches (argv : List Str) : Option Matches := parseFrom {} argv

/-- The program (main/src/main.rs:245-515); `none` is an exit with help or a usage error. -/
def program {F : Type} (w : World F) (argv : List Str) : Option (Shown F) :=
  match getMatches argv with
  | some m => run w m.paths m.args
  | none => none

end Verif.Cli
