import Verif.Page.DiffSpec
/-!
# What a page of a diff without marks should mean
-/
namespace Verif.Page
open Verif.Print Verif.Html Verif.Item Verif.Types Verif.Opts Verif.Show Verif.Order Verif.Filter Verif.Merge Verif.Range

/-- The same is said of two types (but for one base class against several). -/
def TypesSay (o : Options) (c : FilePair) (u v : CompUnit) (s t : TypeEntry) : Prop :=
  SameBaseForm s.kind t.kind → ∃ old new, TypeRows o c.a.toSide u.dir (c.a.extra s.offset) s.kind old ∧
    TypeRows o c.b.toSide v.dir (c.b.extra t.offset) t.kind new ∧ valued old = valued new

/-- The same is said of two functions: in the same order if their variables are in the order of their names. -/
def FunctionsSay (o : Options) (c : FilePair) (u v : CompUnit) (f g : Function) : Prop :=
  SameAddressForm f.ranges g.ranges → (o.printVariableLocations = true → OneLocation (c.a.details f)) →
    (o.printVariableLocations = true → OneLocation (c.b.details g)) →
    ∃ old new, FunctionRows {} o c.a.toFnSide u.dir o.inlineDepth f old ∧
      FunctionRows {} o c.b.toFnSide v.dir o.inlineDepth g new ∧ (valued old).Perm (valued new) ∧
      (VarsByName (c.a.details f) → VarsByName (c.b.details g) → valued old = valued new)

/-- The same is said of two variables. -/
def VariablesSay (o : Options) (c : FilePair) (u v : CompUnit) (x y : Item.Variable) : Prop :=
  valued (variableRows false false false o c.a.toSide u.dir x) = valued (variableRows false false false o c.b.toSide v.dir y)

/-- The same is said of two units: their names, sizes and addresses, and the types, functions and variables to list, of which
each has a partner unless the user ignores deletions or additions. -/
structure UnitsSay (o : Options) (c : FilePair) (u v : CompUnit) : Prop where
  name : unitText u = unitText v
  itself : o.categoryUnit = true →
    (o.printUnitAddress = true → (1 < (u.knownRanges c.a.tsz).length ↔ 1 < (v.knownRanges c.b.tsz).length)) →
    u.functionSize = v.functionSize ∧ u.variableSize c.a.tsz = v.variableSize c.b.tsz ∧
    size? (u.unknownRanges c.a.tsz) = size? (v.unknownRanges c.b.tsz) ∧
    (o.printUnitAddress = true → valued (unitAddressRows c.a.tsz u) = valued (unitAddressRows c.b.tsz v))
  types : o.categoryType = true →
    Matched o (TypesSay o c u v) (wantedTypes o true c.a.hash u) (wantedTypes o true c.b.hash v)
  functions : o.categoryFunction = true →
    Matched o (FunctionsSay o c u v) (wantedFunctions o u) (wantedFunctions o v)
  variables : o.categoryVariable = true →
    Matched o (VariablesSay o c u v) (wantedVariables o u) (wantedVariables o v)

/-- The same is said of two files: of the files themselves; and every unit to list has a
partner of which the same is said, unless the user ignores deletions or additions. -/
structure FilesSay (o : Options) (c : FilePair) : Prop where
  file : o.categoryFile = true → ∃ rows rows', FileRows o c.a rows ∧ FileRows o c.b rows' ∧ valued rows = valued rows'
  units : Matched o (UnitsSay o c) (wantedUnits o c.a.file) (wantedUnits o c.b.file)

end Verif.Page
