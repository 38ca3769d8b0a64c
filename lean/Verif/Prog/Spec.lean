import Verif.Prog.Model
import Verif.Main.Spec
import Verif.Cli.Spec
import Verif.Whole.DiffText
import Verif.Bloat.Spec
/-!
# What the program should show

Which runs a command line asks for, and what is assumed of the parts left open.
-/
namespace Verif.Prog
open Verif.Item Verif.Types Verif.Range Verif.File Verif.Show Verif.Opts Verif.Main Verif.Whole Verif.Cli Verif.Bloat Verif.Filter
  Verif.Namespace Verif.Dwarf Verif.Order
open Verif.Print (P D Line DiffPrefix render dec)

/-- The command line asks for mode `m` with the options `o`: it says items with nothing wrong in them that name exactly this mode,
with settings that give these options; `--ignore` and `--prefix-map` only come with `--diff`. -/
def Invoked (argv : List Str) (m : Mode Str) (o : Options) : Prop :=
  ∃ items p a, Says items argv ∧ Proper items ∧ Meaning items p a ∧ Names p m ∧ parseOptions a = some o ∧
    ((a.ignore ≠ none ∨ a.prefixMap ≠ none) → ∃ x y, m = .diff x y)

/-- The parts left open do what they are for: the search finds symbols, printing reads the file that was loaded, types are compared with
`Type::cmp_id`, a hash map is iterated in some order, and the pieces written make up the text. -/
structure Faithful (c : Parts) : Prop where
  search : ValidSearch c.search
  side : ∀ l, Whole.Reads l.raw l.file (c.side l)
  same : ∀ l l', SameIs (c.same l l') (c.side l).hash (c.side l').hash
  iter : ∀ l, (c.iter l).Perm l
  cut : ∀ t, (c.cut t).flatten = t

/-- The file at `path` can be read, has these contents, and its debug information has been parsed to this. -/
def Holds (c : Parts) (path : Str) (l : Loaded) : Prop :=
  ∃ r, c.disk path = .ok r ∧ l.raw = { r with path := path } ∧ parseObject c.search c.bound l.raw = some l.file

/-- The file at `path` cannot be opened or is no object file, or parsing its debug information fails. -/
def Unreadable (c : Parts) (path message : Str) : Prop :=
  c.disk path = .error message ∨
  ∃ r, c.disk path = .ok r ∧ parseObject c.search c.bound { r with path := path } = none ∧ message = c.badObject

/-- A run that read these files and printed this text on standard output, and did nothing else. -/
def printed (opened : List Str) (text : Str) : Main.Shown Loaded := { opened := opened, stdout := text, errors := [], served := none }

/-- Every entry of the debug information of two files that the user wants compared is accounted for in the text of the diff (C93): a
counterpart with the same name, in a unit with the same name, which has the same facts or whose comparison is in the text; or
the listing of the entry is in the text, marked as deleted or added, unless the user ignores that. -/
structure EntriesCompared (c : Parts) (n : Nat) (o : Options) (a b : Loaded) (text : Str) : Prop where
  oldTypes : o.categoryType = true → ∀ (k : Nat) u cu, a.raw.units[k]? = some u → a.file.units[k]? = some cu → WantedUnit o cu →
    ∀ ns die g, NamedType u cu ns die → typeAt a.raw u cu ns die = g → WantedType (c.side a).hash cu o true g →
    Accounted b.file.units (fun cv => WantedUnit o cv ∧ SameUnitName o cu cv) (wantedTypes o true (c.side b).hash)
      (fun _ g' => SameTypeIdent (c.side a).hash (c.side b).hash g g')
      (fun cv g' => SameType o (c.side a).toSide (c.side b).toSide cu.dir cv.dir ((c.side a).extra g.offset) ((c.side b).extra g'.offset) g.kind g'.kind)
      (fun cv g' t => ∃ f, typeD o ⟨(c.side a).toSide, (c.side b).toSide, c.same a b, c.heap⟩ cu.dir cv.dir n g g' = some f ∧
        t = render (f.lines (printOpts o) 0 .equal o.inlineDepth))
      (o.ignoreDeleted = true) (TypeText o (c.side a).toSide cu.dir .delete 0 ((c.side a).extra g.offset) g.kind) text
  newTypes : o.categoryType = true → ∀ (k : Nat) u cv, b.raw.units[k]? = some u → b.file.units[k]? = some cv → WantedUnit o cv →
    ∀ ns die g, NamedType u cv ns die → typeAt b.raw u cv ns die = g → WantedType (c.side b).hash cv o true g →
    Accounted a.file.units (fun cu => WantedUnit o cu ∧ SameUnitName o cu cv) (wantedTypes o true (c.side a).hash)
      (fun _ g' => SameTypeIdent (c.side a).hash (c.side b).hash g' g)
      (fun cu g' => SameType o (c.side a).toSide (c.side b).toSide cu.dir cv.dir ((c.side a).extra g'.offset) ((c.side b).extra g.offset) g'.kind g.kind)
      (fun cu g' t => ∃ f, typeD o ⟨(c.side a).toSide, (c.side b).toSide, c.same a b, c.heap⟩ cu.dir cv.dir n g' g = some f ∧
        t = render (f.lines (printOpts o) 0 .equal o.inlineDepth))
      (o.ignoreAdded = true) (TypeText o (c.side b).toSide cv.dir .add 0 ((c.side b).extra g.offset) g.kind) text
  oldFunctions : o.categoryFunction = true → ∀ (k : Nat) u cu, a.raw.units[k]? = some u → a.file.units[k]? = some cu → WantedUnit o cu →
    ∀ ns die g, FnEntry u cu ns die g → WantedFunction o g →
    Accounted b.file.units (fun cv => WantedUnit o cv ∧ SameUnitName o cu cv) (wantedFunctions o)
      (fun _ g' => qname g.ns g.name = qname g'.ns g'.name)
      (fun cv g' => SameFunction o (c.side a).toFnSide (c.side b).toFnSide cu.dir cv.dir o.inlineDepth g g')
      (fun cv g' t => ∃ f, functionD o ⟨(c.side a).toFnSide, (c.side b).toFnSide, c.same a b, c.heap⟩ ((c.side a).unitId cu) cu.dir cv.dir n g g' = some f ∧
        t = render (f.lines (printOpts o) 0 .equal o.inlineDepth))
      (o.ignoreDeleted = true) (FunctionText o (c.side a).toFnSide cu.dir .delete 0 o.inlineDepth g) text
  newFunctions : o.categoryFunction = true → ∀ (k : Nat) u cv, b.raw.units[k]? = some u → b.file.units[k]? = some cv → WantedUnit o cv →
    ∀ ns die g, FnEntry u cv ns die g → WantedFunction o g →
    Accounted a.file.units (fun cu => WantedUnit o cu ∧ SameUnitName o cu cv) (wantedFunctions o)
      (fun _ g' => qname g'.ns g'.name = qname g.ns g.name)
      (fun cu g' => SameFunction o (c.side a).toFnSide (c.side b).toFnSide cu.dir cv.dir o.inlineDepth g' g)
      (fun cu g' t => ∃ f, functionD o ⟨(c.side a).toFnSide, (c.side b).toFnSide, c.same a b, c.heap⟩ ((c.side a).unitId cu) cu.dir cv.dir n g' g = some f ∧
        t = render (f.lines (printOpts o) 0 .equal o.inlineDepth))
      (o.ignoreAdded = true) (FunctionText o (c.side b).toFnSide cv.dir .add 0 o.inlineDepth g) text
  oldVariables : o.categoryVariable = true → ∀ (k : Nat) u cu, a.raw.units[k]? = some u → a.file.units[k]? = some cu → WantedUnit o cu →
    ∀ ns die g, VarEntry u cu ns die g → WantedVariable o g →
    Accounted b.file.units (fun cv => WantedUnit o cv ∧ SameUnitName o cu cv) (wantedVariables o)
      (fun _ g' => qname g.ns g.name = qname g'.ns g'.name)
      (fun cv g' => SameVariable o (c.side a).toSide (c.side b).toSide cu.dir cv.dir g g')
      (fun cv g' t => ∃ f, variableD o ⟨(c.side a), (c.side b), c.same a b, c.heap⟩ cu.dir cv.dir g g' = f ∧
        t = render (f.lines (printOpts o) 0 .equal o.inlineDepth))
      (o.ignoreDeleted = true) (· = variableText o (c.side a).toSide cu.dir .delete 0 g) text
  newVariables : o.categoryVariable = true → ∀ (k : Nat) u cv, b.raw.units[k]? = some u → b.file.units[k]? = some cv → WantedUnit o cv →
    ∀ ns die g, VarEntry u cv ns die g → WantedVariable o g →
    Accounted a.file.units (fun cu => WantedUnit o cu ∧ SameUnitName o cu cv) (wantedVariables o)
      (fun _ g' => qname g'.ns g'.name = qname g.ns g.name)
      (fun cu g' => SameVariable o (c.side a).toSide (c.side b).toSide cu.dir cv.dir g' g)
      (fun cu g' t => ∃ f, variableD o ⟨(c.side a), (c.side b), c.same a b, c.heap⟩ cu.dir cv.dir g' g = f ∧
        t = render (f.lines (printOpts o) 0 .equal o.inlineDepth))
      (o.ignoreAdded = true) (· = variableText o (c.side b).toSide cv.dir .add 0 g) text

/-- The lines of the bloat report (C38): the functions of known size in groups by name and source, larger groups first, each function
followed by its callers. -/
def BloatLines (calls : Option (Range → List Call)) (us : List CompUnit) (lines : List Line) : Prop :=
  ∃ groups : List (FunctionId × FunctionTotal),
    (groups.map (·.1)).Nodup ∧ groups.Pairwise (fun a b => b.2.size ≤ a.2.size) ∧
    (∀ k t, (k, t) ∈ groups → t.functions ≠ [] ∧ t.functions.Pairwise Before ∧
      (∀ pos, pos ∈ t.functions ↔ ∃ n, SizedAt us pos k n) ∧ t.size = (sizesAt us t.functions).sum) ∧
    (∀ pos k n, SizedAt us pos k n → ∃ t, (k, t) ∈ groups) ∧
    lines = groups.flatMap fun (k, t) =>
      .line .none 0 [] (dec t.size ++ [32] ++ withSource k.name k.source) :: t.functions.flatMap (functionLines calls us .none)

end Verif.Prog
