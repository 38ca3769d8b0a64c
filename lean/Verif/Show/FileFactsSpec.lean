import Verif.Show.FnFactsSpec
import Verif.Show.FileSpec
import Verif.Show.FileRowsSpec
/-!
# The same facts about two files

As in `Verif.Show.FnFactsSpec`: these definitions compare the data of two files, and do not use the
printing functions.
-/
namespace Verif.Show
open Verif.Print Verif.Item Verif.Namespace Verif.Types Verif.Opts Verif.Range Verif.File

/-- The same facts about two variables, as far as the options have them shown and compared. -/
structure SameVariable (o : Options) (s s' : Side) (da db : Option Str) (v w : Variable) : Prop where
  name : titled v.ns v.name = titled w.ns w.name
  type : (s.tref v.ty).text' = (s'.tref w.ty).text'
  linkageName : o.ignoreVariableLinkageName = false → v.linkageName.getD [] = w.linkageName.getD []
  symbolName : o.ignoreVariableSymbolName = false → v.symbolName.getD [] = w.symbolName.getD []
  source : o.printSource = true → v.source.print da = w.source.print db
  address : o.ignoreVariableAddress = false → v.address = w.address
  size : v.size.or (s.tsz v.ty) = w.size.or (s'.tsz w.ty)
  declaration : v.declaration = w.declaration

/-- The same facts about two sections. -/
structure SameSection (x y : Section) : Prop where
  name : x.name = y.name
  segment : x.segment = y.segment
  address : x.address = y.address
  size : x.size = y.size

/-- The same facts about two units themselves. -/
structure SameUnitSelf (o : Options) (s s' : Side) (u v : CompUnit) : Prop where
  ranges : o.printUnitAddress = true → u.knownRanges s.tsz = v.knownRanges s'.tsz
  base : o.printUnitAddress = true → u.knownRanges s.tsz = [] → u.lowPc = v.lowPc
  unknown : o.printUnitAddress = true → u.unknownRanges s.tsz = v.unknownRanges s'.tsz
  functionSize : u.functionSize = v.functionSize
  variableSize : u.variableSize s.tsz = v.variableSize s'.tsz
  unknownSize : size? (u.unknownRanges s.tsz) = size? (v.unknownRanges s'.tsz)

/-- The same facts about two units: about themselves, and about the types, functions and variables to
list, of which each has a partner unless the user ignores deletions or additions. -/
structure SameUnitFacts (o : Options) (a b : FileSide) (d : Nat) (u v : CompUnit) : Prop where
  name : o.categoryUnit = true ∨ o.html = true → unitText u = unitText v
  itself : o.categoryUnit = true → SameUnitSelf o a.toSide b.toSide u v
  types : o.categoryType = true →
    Matched o (fun s t => SameType o a.toSide b.toSide u.dir v.dir (a.extra s.offset) (b.extra t.offset) s.kind t.kind)
      (wantedTypes o true a.hash u) (wantedTypes o true b.hash v)
  functions : o.categoryFunction = true →
    Matched o (SameFunction o a.toFnSide b.toFnSide u.dir v.dir d) (wantedFunctions o u) (wantedFunctions o v)
  variables : o.categoryVariable = true →
    Matched o (SameVariable o a.toSide b.toSide u.dir v.dir) (wantedVariables o u) (wantedVariables o v)

/-- The same facts about two files themselves. -/
structure SameFileSelf (o : Options) (a b : FileSide) : Prop where
  path : a.path = b.path
  ranges : o.printFileAddress = true → unitRanges a.tsz a.file.units = unitRanges b.tsz b.file.units
  size : size? (unitRanges a.tsz a.file.units) = size? (unitRanges b.tsz b.file.units)
  functionSize : a.file.functionSize = b.file.functionSize
  variableSize : a.file.variableSize a.tsz = b.file.variableSize b.tsz
  sections : All2 SameSection a.file.sections b.file.sections

/-- The same facts about two files. -/
structure SameFileFacts (o : Options) (a b : FileSide) (d : Nat) : Prop where
  itself : o.categoryFile = true → SameFileSelf o a b
  units : Matched o (SameUnitFacts o a b d) (wantedUnits o a.file) (wantedUnits o b.file)

/-! ## When a listing can be read -/

/-- The name of a section is not empty, has no comma, and is not what stands for no name; its segment
has no comma. -/
structure ReadableSection (x : Section) : Prop where
  name : ∀ n, x.name = some n → n ≠ [] ∧ 44 ∉ n ∧ n ≠ k "<anon-section>"
  segment : ∀ n, x.segment = some n → 44 ∉ n

/-- The name of a variable has no colon followed by a space. -/
def ReadableVariable (v : Variable) : Prop := ¬ [58, 32] <:+: titled v.ns v.name

/-- The names in a file are names as in source code. -/
structure ReadableFile (s : FileSide) : Prop where
  fns : ReadableFn s.toFnSide
  refs : ∀ o, (s.tref o).text' ≠ []
  members : PlainFile s.toSide
  types : ∀ u ∈ s.file.units, ∀ t ∈ u.types, PlainTy t.kind ∧ ∀ e ∈ (s.extra t.offset).enumerators, Plain e.name
  functions : ∀ u ∈ s.file.units, ∀ f ∈ u.functions, ReadableDetails (s.details f)
  variables : ∀ u ∈ s.file.units, ∀ v ∈ u.variables, ReadableVariable v
  sections : ∀ x ∈ s.file.sections, ReadableSection x

end Verif.Show
