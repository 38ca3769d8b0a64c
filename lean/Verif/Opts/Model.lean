import Verif.Item.Model
import Verif.Base
import Verif.Num
/-!
# Model of the options: `main/src/lib.rs`, and of their construction in `main/src/main.rs`

`clap` (argument lexing, comma splitting, `value_parser` lists) is not modelled: `Args` is what
`matches.get_one` / `get_many` return. A value outside a `value_parser` list is rejected by clap
before the code runs, and by the code's own `_ =>` arms otherwise; both are `none` here.
-/
namespace Verif.Opts
open Verif.Namespace

/-- `Sort` (main/src/lib.rs:32-38). -/
inductive SortKey
  | none | name | size
deriving DecidableEq, Repr

/-- `Options` (main/src/lib.rs:40-78); defaults of `#[derive(Default)]`. -/
structure Options where
  printSource : Bool := false
  printFileAddress : Bool := false
  printUnitAddress : Bool := false
  printFunctionCalls : Bool := false
  printFunctionInstructions : Bool := false
  printFunctionVariables : Bool := false
  printFunctionStackFrame : Bool := false
  printInlinedFunctionParameters : Bool := false
  printVariableLocations : Bool := false
  inlineDepth : Nat := 0
  html : Bool := false
  http : Bool := false
  categoryFile : Bool := false
  categoryUnit : Bool := false
  categoryType : Bool := false
  categoryFunction : Bool := false
  categoryVariable : Bool := false
  filterFunctionInline : Option Bool := none
  filterName : Option Str := none
  filterNamespace : List Str := []
  filterUnit : Option Str := none
  sort : SortKey := .none
  ignoreAdded : Bool := false
  ignoreDeleted : Bool := false
  ignoreFunctionAddress : Bool := false
  ignoreFunctionSize : Bool := false
  ignoreFunctionInline : Bool := false
  ignoreFunctionLinkageName : Bool := false
  ignoreFunctionSymbolName : Bool := false
  ignoreVariableAddress : Bool := false
  ignoreVariableLinkageName : Bool := false
  ignoreVariableSymbolName : Bool := false
  prefixMap : List (Str × Str) := []
deriving DecidableEq, Repr

/-- `Options::filter_function_inline` (main/src/lib.rs:91-93). -/
def Options.okInline (o : Options) (inline : Bool) : Bool :=
  o.filterFunctionInline.isNone || o.filterFunctionInline == some inline

/-- `Options::filter_name` (main/src/lib.rs:95-97). -/
def Options.okName (o : Options) (name : Option Str) : Bool :=
  o.filterName.isNone || o.filterName == name

/-- `Options::filter_namespace` (main/src/lib.rs:99-106). -/
def Options.okNamespace (o : Options) (ns : Option Namespace) : Bool :=
  o.filterNamespace.isEmpty ||
    match ns with
    | some ns => ns.isWithin o.filterNamespace
    | none => false

/-- The loop of `Options::prefix_map` (main/src/lib.rs:108-115). -/
def prefixLoop (name : Str) : List (Str × Str) → Str × Str
  | [] => ([], name)
  | (old, new) :: rest =>
    if old.isPrefixOf name then (new, name.drop old.length) else prefixLoop name rest

/-- `Options::prefix_map` (main/src/lib.rs:108-115). -/
def Options.mapPrefix (o : Options) (name : Str) : Str × Str := prefixLoop name o.prefixMap

/-- What `matches.get_one` / `get_many` return for each option (main/src/main.rs:256-439). -/
structure Args where
  output : Option Str := none
  inlineDepth : Option Str := none
  category : Option (List Str) := none
  print : Option (List Str) := none
  filter : Option (List Str) := none
  sort : Option Str := none
  ignore : Option (List Str) := none
  prefixMap : Option (List Str) := none
deriving Repr

/-- ASCII constant (main/src/main.rs:33-95). -/
abbrev k (s : String) : Str := Str.ofString s

/-- main/src/main.rs:251-254. -/
def initOptions : Options := { inlineDepth := 1 }

/-- main/src/main.rs:256-275. -/
def applyOutput (o : Options) : Option Str → Option Options
  | none => some o
  | some v =>
    if v = k "text" then some { o with html := false }
    else if v = k "html" then some { o with html := true }
    else if v = k "http" then
      some { o with html := true, http := true, inlineDepth := 100, printSource := true,
                    printFunctionCalls := true, printFunctionInstructions := true }
    else none

/-- main/src/main.rs:277-288. -/
def applyDepth (o : Options) : Option Str → Option Options
  | none => some o
  | some v => (parseUsize v).map fun d => { o with inlineDepth := d }

/-- One iteration of main/src/main.rs:291-305. -/
def applyCategory1 (o : Options) (v : Str) : Option Options :=
  if v = k "file" then some { o with categoryFile := true }
  else if v = k "unit" then some { o with categoryUnit := true }
  else if v = k "type" then some { o with categoryType := true }
  else if v = k "function" then some { o with categoryFunction := true }
  else if v = k "variable" then some { o with categoryVariable := true }
  else none

/-- main/src/main.rs:290-312. -/
def applyCategory (o : Options) : Option (List Str) → Option Options
  | some vs => vs.foldlM applyCategory1 o
  | none => some { o with categoryFile := true, categoryUnit := true, categoryType := true,
                          categoryFunction := true, categoryVariable := true }

/-- One iteration of main/src/main.rs:315-350. -/
def applyPrint1 (o : Options) (v : Str) : Option Options :=
  if v = k "all" then
    some { o with printFileAddress := true, printUnitAddress := true, printSource := true,
                  printFunctionCalls := true, printFunctionInstructions := true,
                  printFunctionVariables := true, printFunctionStackFrame := true,
                  printInlinedFunctionParameters := true, printVariableLocations := true }
  else if v = k "address" then some { o with printFileAddress := true, printUnitAddress := true }
  else if v = k "source" then some { o with printSource := true }
  else if v = k "file-address" then some { o with printFileAddress := true }
  else if v = k "unit-address" then some { o with printUnitAddress := true }
  else if v = k "function-calls" then some { o with printFunctionCalls := true }
  else if v = k "function-instructions" then some { o with printFunctionInstructions := true }
  else if v = k "function-variables" then some { o with printFunctionVariables := true }
  else if v = k "function-stack-frame" then some { o with printFunctionStackFrame := true }
  else if v = k "inlined-function-parameters" then
    some { o with printInlinedFunctionParameters := true }
  else if v = k "variable-locations" then some { o with printVariableLocations := true }
  else none

/-- `value.split("::")` (main/src/main.rs:372; library): leftmost, non-overlapping separators;
always at least one part. -/
def splitColons : Str → List Str
  | [] => [[]]
  | 58 :: 58 :: t => [] :: splitColons t
  | c :: t =>
    match splitColons t with
    | h :: r => (c :: h) :: r
    | [] => [[c]]

/-- `value.bytes().position(|c| c == b'=')` and the two slices (main/src/main.rs:355-357,
441-443): the parts before and after the first `=`. -/
def splitEq : Str → Option (Str × Str)
  | [] => none
  | 61 :: t => some ([], t)
  | c :: t => (splitEq t).map fun (a, b) => (c :: a, b)

/-- One iteration of main/src/main.rs:354-390. -/
def applyFilter1 (o : Options) (v : Str) : Option Options :=
  match splitEq v with
  | none => none
  | some (key, value) =>
    if key = k "inline" ∨ key = k "function-inline" then
      if value = k "y" ∨ value = k "yes" then some { o with filterFunctionInline := some true }
      else if value = k "n" ∨ value = k "no" then some { o with filterFunctionInline := some false }
      else none
    else if key = k "name" then some { o with filterName := some value }
    else if key = k "namespace" then some { o with filterNamespace := splitColons value }
    else if key = k "unit" then some { o with filterUnit := some value }
    else none

/-- main/src/main.rs:393-404. -/
def applySort (o : Options) : Option Str → Option Options
  | none => some o
  | some v =>
    if v = k "name" then some { o with sort := .name }
    else if v = k "size" then some { o with sort := .size }
    else none

/-- One iteration of main/src/main.rs:407-436. -/
def applyIgnore1 (o : Options) (v : Str) : Option Options :=
  if v = k "added" then some { o with ignoreAdded := true }
  else if v = k "deleted" then some { o with ignoreDeleted := true }
  else if v = k "address" then
    some { o with ignoreFunctionAddress := true, ignoreVariableAddress := true }
  else if v = k "linkage-name" then
    some { o with ignoreFunctionLinkageName := true, ignoreVariableLinkageName := true }
  else if v = k "symbol-name" then
    some { o with ignoreFunctionSymbolName := true, ignoreVariableSymbolName := true }
  else if v = k "function-address" then some { o with ignoreFunctionAddress := true }
  else if v = k "function-size" then some { o with ignoreFunctionSize := true }
  else if v = k "function-inline" then some { o with ignoreFunctionInline := true }
  else if v = k "function-symbol-name" then some { o with ignoreFunctionSymbolName := true }
  else if v = k "variable-address" then some { o with ignoreVariableAddress := true }
  else if v = k "variable-symbol-name" then some { o with ignoreVariableSymbolName := true }
  else none

/-- One iteration of main/src/main.rs:440-452. -/
def applyPrefix1 (o : Options) (v : Str) : Option Options :=
  (splitEq v).map fun p => { o with prefixMap := o.prefixMap ++ [p] }

/-- `sort_by_key(|p| Reverse(p.0.len()))` (main/src/main.rs:453): longest `old` first, stable. -/
def sortPrefixes (l : List (Str × Str)) : List (Str × Str) :=
  stableSort (fun a b => decide (b.1.length ≤ a.1.length)) l

/-- main/src/main.rs:439-454. -/
def applyPrefixes (o : Options) : Option (List Str) → Option Options
  | none => some o
  | some vs => (vs.foldlM applyPrefix1 o).map fun o => { o with prefixMap := sortPrefixes o.prefixMap }

/-- A `get_many` loop (main/src/main.rs:314, 353, 406). -/
def applyMany (f : Options → Str → Option Options) (o : Options) : Option (List Str) → Option Options
  | none => some o
  | some vs => vs.foldlM f o

/-- The option processing of `main` (main/src/main.rs:251-454); `none` is an error exit. -/
def parseOptions (a : Args) : Option Options := do
  let o ← applyOutput initOptions a.output
  let o ← applyDepth o a.inlineDepth
  let o ← applyCategory o a.category
  let o ← applyMany applyPrint1 o a.print
  let o ← applyMany applyFilter1 o a.filter
  let o ← applySort o a.sort
  let o ← applyMany applyIgnore1 o a.ignore
  applyPrefixes o a.prefixMap

end Verif.Opts
