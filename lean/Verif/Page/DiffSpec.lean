import Verif.Page.Spec
import Verif.Web.PageSpec
import Verif.Show.TypeProps
import Verif.Show.FnProps
/-!
# What the page of a diff should show
-/
namespace Verif.Page
open Verif.Print Verif.Html Verif.Item Verif.Types Verif.Opts Verif.Show Verif.Order Verif.Filter Verif.Merge Verif.Range

/-- The mark of lines that are not of the version. -/
def otherMark (new : Bool) : Mark := if new then .del else .add

/-- The lines with a text that are shown for one version, from depth `i`. -/
def versionAt (new : Bool) (i : Nat) (ns : List Node) : List Row :=
  ((flats i ns).filter fun e => e.text ≠ [] ∧ e.mark ≠ otherMark new).map fun e => ⟨e.depth, e.label, e.text⟩

/-- The rows that have a text; the others are headings. -/
def valued (rows : List Row) : List Row := rows.filter (·.text ≠ [])

/-- The items show the rows of both versions: the lines that are not marked as the new version's are those of the old
one, and the other way round. -/
def Versions (old new : List Row) (ns : List Node) : Prop :=
  versionAt false 0 ns = valued old ∧ versionAt true 0 ns = valued new

/-- The same, up to the order of the rows. -/
def VersionsUpToOrder (old new : List Row) (ns : List Node) : Prop :=
  (versionAt false 0 ns).Perm (valued old) ∧ (versionAt true 0 ns).Perm (valued new)

/-- What is shown for one item of the pairing: a pair always, as one item; an item of one file unless the user ignores these. -/
inductive PairShown {α : Type} (o : Options) (Both : α → α → Node → Prop) (Old New : α → Node → Prop) :
    MergeResult α α → List Node → Prop
  | both {a b n} : Both a b n → PairShown o Both Old New (.both a b) [n]
  | old {a n} : o.ignoreDeleted = false → Old a n → PairShown o Both Old New (.left a) [n]
  | notOld {a} : o.ignoreDeleted = true → PairShown o Both Old New (.left a) []
  | new {b n} : o.ignoreAdded = false → New b n → PairShown o Both Old New (.right b) [n]
  | notNew {b} : o.ignoreAdded = true → PairShown o Both Old New (.right b) []

/-- The items of a pairing, one after the other, in the order `cmpBy`. -/
def PairsShown {α γ : Type} (o : Options) (cmpBy : α → γ → α → γ → Res Ordering) (ha hb : γ)
    (Both : α → α → Node → Prop) (Old New : α → Node → Prop) (order : List (MergeResult α α)) (ns : List Node) :
    Prop :=
  order.Pairwise (fun x y => ∃ c, cmpBy (shown ha hb x).1 (shown ha hb x).2 (shown ha hb y).1 (shown ha hb y).2 = .ok c ∧
    c ≠ .gt) ∧
  ∃ parts, All2 (PairShown o Both Old New) order parts ∧ ns = parts.flatten

/-- A type of both files. -/
def TypeBoth (o : Options) (c : FilePair) (u v : CompUnit) (s t : TypeEntry) (x : Node) : Prop :=
  SameBaseForm s.kind t.kind → ∃ old new, TypeRows o c.a.toSide u.dir (c.a.extra s.offset) s.kind old ∧
    TypeRows o c.b.toSide v.dir (c.b.extra t.offset) t.kind new ∧ Versions old new [x]

/-- A function of both files: in order if its variables are in the order of their names. -/
def FunctionBoth (o : Options) (c : FilePair) (u v : CompUnit) (f g : Function) (x : Node) : Prop :=
  SameAddressForm f.ranges g.ranges → (o.printVariableLocations = true → OneLocation (c.a.details f)) →
    (o.printVariableLocations = true → OneLocation (c.b.details g)) →
    ∃ old new, FunctionRows {} o c.a.toFnSide u.dir o.inlineDepth f old ∧
      FunctionRows {} o c.b.toFnSide v.dir o.inlineDepth g new ∧ VersionsUpToOrder old new [x] ∧
      (VarsByName (c.a.details f) → VarsByName (c.b.details g) → Versions old new [x])

/-- A variable of both files. -/
def VariableBoth (o : Options) (c : FilePair) (u v : CompUnit) (x y : Item.Variable) (z : Node) : Prop :=
  Versions (variableRows false false false o c.a.toSide u.dir x) (variableRows false false false o c.b.toSide v.dir y) [z]

/-- The text for a size that was `a` and is `b` now: the new size and, if it is another one, the difference (for sizes
below 2^63). -/
def SizeText (a b : Nat) (t : Str) : Prop :=
  if a = b then t = dec b
  else ∃ d, t = dec b ++ k " (" ++ d ++ k ")" ∧
    (a < 2 ^ 63 → b < 2 ^ 63 → d = if a < b then k "+" ++ dec (b - a) else k "-" ++ dec (a - b))

/-- The row, or a row for a size that says by how much it differs. -/
def Sized (r r' : Row) : Prop :=
  r'.depth = r.depth ∧ r'.label = r.label ∧ (r'.text = r.text ∨
    (r.label = k "size" ∨ r.label = k "fn size" ∨ r.label = k "var size" ∨ r.label = k "other size") ∧ ∃ a b, r.text = dec b ∧ SizeText a b r'.text)

/-- The rows for a size in both versions; none if it is 0 in both. -/
def SizePair (l : Str) (a b : Nat) (old new : List Row) : Prop :=
  if a = 0 ∧ b = 0 then old = [] ∧ new = [] else old = [⟨0, l, dec a⟩] ∧ ∃ t, SizeText a b t ∧ new = [⟨0, l, t⟩]

/-- The unit's own rows, of both versions; the addresses are compared in the form they are listed in unless only one
version has several. -/
def UnitRowsBoth (o : Options) (c : FilePair) (u v : CompUnit) (ns : List Node) : Prop :=
  (o.printUnitAddress = true → (1 < (u.knownRanges c.a.tsz).length ↔ 1 < (v.knownRanges c.b.tsz).length)) →
  ∃ f f' x x' w w' fo fn xo xn wo wn,
    u.functionSize = some f ∧ v.functionSize = some f' ∧ u.variableSize c.a.tsz = some x ∧
    v.variableSize c.b.tsz = some x' ∧ size? (u.unknownRanges c.a.tsz) = some w ∧
    size? (v.unknownRanges c.b.tsz) = some w' ∧
    SizePair (k "fn size") f f' fo fn ∧ SizePair (k "var size") x x' xo xn ∧ SizePair (k "unknown size") w w' wo wn ∧
    Versions (shownIf o.printUnitAddress (unitAddressRows c.a.tsz u) ++ fo ++ xo ++ wo)
      (shownIf o.printUnitAddress (unitAddressRows c.b.tsz v) ++ fn ++ xn ++ wn) ns

/-- A unit of both files: the names, and in it the unit's own rows and, under headings, its types, functions and variables. -/
def UnitBoth (o : Options) (c : FilePair) (n : Nat) (u v : CompUnit) (x : Node) : Prop :=
  ∃ names part types fns inl vars,
    x = .item names (some (part ++ headed (k "types") types ++ headed (k "functions") fns ++
      headed (k "inlined functions") inl ++ headed (k "variables") vars)) ∧
    Versions [⟨0, [], unitText u⟩] [⟨0, [], unitText v⟩] [.item names none] ∧
    (o.categoryUnit = false → part = []) ∧
    (o.categoryUnit = true → UnitRowsBoth o c u v part) ∧
    (o.categoryType = false → types = []) ∧
    (o.categoryType = true → ∃ order,
      Paired (SameTypeIdent c.a.hash c.b.hash) (wantedTypes o true c.a.hash u) (wantedTypes o true c.b.hash v) order ∧
      PairsShown o (typeCmpBy o n) c.a.hash c.b.hash (TypeBoth o c u v) (TypeItem .del o c.a u) (TypeItem .add o c.b v)
        order types) ∧
    (o.categoryFunction = false → fns = [] ∧ inl = []) ∧
    (o.categoryFunction = true → ∃ order order',
      Paired (fun f g : Function => qname f.ns f.name = qname g.ns g.name) (wantedFunctions o u) (wantedFunctions o v)
        (order ++ order') ∧
      (∀ x ∈ order, ¬ InlinedItem x) ∧ (∀ x ∈ order', InlinedItem x) ∧
      PairsShown o (functionCmpBy o n) c.a.hash c.b.hash (FunctionBoth o c u v) (FunctionItem .del o c.a u)
        (FunctionItem .add o c.b v) order fns ∧
      PairsShown o (functionCmpBy o n) c.a.hash c.b.hash (FunctionBoth o c u v) (FunctionItem .del o c.a u)
        (FunctionItem .add o c.b v) order' inl) ∧
    (o.categoryVariable = false → vars = []) ∧
    (o.categoryVariable = true → ∃ order,
      Paired (fun x y : Item.Variable => qname x.ns x.name = qname y.ns y.name) (wantedVariables o u)
        (wantedVariables o v) order ∧
      PairsShown o (variableCmpBy o n) c.a.hash c.b.hash (VariableBoth o c u v) (VariableItem .del o c.a u)
        (VariableItem .add o c.b v) order vars)

/-- The items of the diff of two files: the summaries if they are wanted, the lines not marked as added being the old one
and those not marked as deleted the new one, with the differences of the sizes; and every wanted unit of either file, once, paired by name. -/
def DiffPage (o : Options) (c : FilePair) (n : Nat) (ns : List Node) : Prop :=
  ∃ head units order, ns = head ++ units ∧
    (o.categoryFile = false → head = []) ∧
    (o.categoryFile = true → ∃ rows rows', FileRows o c.a rows ∧ FileRows o c.b rows' ∧
      versionAt false 0 head = valued rows ∧ All2 Sized (valued rows') (versionAt true 0 head)) ∧
    Paired (fun a b : CompUnit => ∃ k, UnitName o a k ∧ UnitName o b k) (wantedUnits o c.a.file)
      (wantedUnits o c.b.file) order ∧
    PairsShown o (unitCmpBy o n) c.a.tsz c.b.tsz (UnitBoth o c n) (UnitItem .del o c.a n) (UnitItem .add o c.b n)
      order units

end Verif.Page
