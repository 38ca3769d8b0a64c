import Verif.Show.RowsSpec
import Verif.File.Spec
/-!
# What the listings of types, variables, units, sections and files should say

As in `Verif.Show.RowsSpec`: which rows a listing consists of, without using the printing functions.
-/
namespace Verif.Show
open Verif.Print Verif.Item Verif.Namespace Verif.Types Verif.Layout Verif.Opts Verif.Range Verif.File

/-! ## Types -/

/-- The type whose items are listed below a member: its own type, if the member has no name, is the
encoding of a Rust enum, or has a type without name. -/
inductive Below (s : Side) (m : Member) : Option Ty → Prop
  | listed {t} : fromOffset s.hash m.ty = some t →
      (m.name = none ∨ (∃ r, m.name = some (k "RUST$ENCODED$ENUM$" ++ r)) ∨ t.isAnon = true) → Below s m (some t)
  | unknown : fromOffset s.hash m.ty = none → Below s m none
  | named {n t} : m.name = some n → (∀ r, n ≠ k "RUST$ENCODED$ENUM$" ++ r) → fromOffset s.hash m.ty = some t →
      t.isAnon = false → Below s m none

mutual
/-- The rows of the items of a struct or union. -/
inductive ItemsRows (s : Side) : List Layout → List Row → Prop
  | nil : ItemsRows s [] []
  | cons {l ls r rs} : ItemRows s l r → ItemsRows s ls rs → ItemsRows s (l :: ls) (r ++ rs)

/-- The rows of one item: its text, and below a member or a variant part what belongs to it. -/
inductive ItemRows (s : Side) : Layout → List Row → Prop
  | padding {l t} : l.item = .padding → ItemReads s l t → ItemRows s l [⟨0, [], t⟩]
  | base {l i t} : l.item = .inherit i → ItemReads s l t → ItemRows s l [⟨0, [], t⟩]
  | member {l m t ty rows} : l.item = .member m → ItemReads s l t → Below s m ty → ItemsRows s (itemsOf s ty) rows →
      ItemRows s l (⟨0, [], t⟩ :: rows.map Row.deeper)
  | variantPart {l v t rows} : l.item = .variantPart v → ItemReads s l t → VariantsRows s l v.variants rows →
      ItemRows s l (⟨0, [], t⟩ :: rows.map Row.deeper)

/-- The rows of the variants of a variant part. -/
inductive VariantsRows (s : Side) : Layout → List Variant → List Row → Prop
  | nil {l} : VariantsRows s l [] []
  | cons {l v vs t r rs} : VariantReads v t → ItemsRows s (Variant.layout v l.bitOffset l.bitSize.get s.tsz) r →
      VariantsRows s l vs rs → VariantsRows s l (v :: vs) (⟨0, [], t⟩ :: r.map Row.deeper ++ rs)
end

/-- The base classes: one on the line of the label, several in a section. -/
def inheritRows (s : Side) (is : List Inherit) : List Row :=
  if 1 < is.length then under (k "inherits") (is.flatMap fun i => oneRow [] (s.tref i.ty).text')
  else is.flatMap fun i => oneRow (k "inherits") (s.tref i.ty).text'

/-- The words for encodings. -/
def encodingText : Encoding → Str
  | .other => []
  | .boolean => k "boolean"
  | .address => k "address"
  | .signed => k "signed"
  | .signedChar => k "signed char"
  | .unsigned => k "unsigned"
  | .unsignedChar => k "unsigned char"
  | .float => k "floating-point"

/-- The words for byte orders. -/
def endianityText : Endianity → Str
  | .default_ => []
  | .big => k "big"
  | .little => k "little"

/-- A number of bytes; nothing if unknown. -/
def countRow (label : Str) (n : Option Nat) : List Row := oneRow label ((n.map dec).getD [])

/-- The source location of a type, if wanted. -/
def sourceRows (o : Options) (dir : Option Str) (x : Source) : List Row :=
  shownIf o.printSource (oneRow (k "source") (x.print dir))

/-- The type whose items are listed below a typedef: the type it stands for, if that has no name. -/
inductive BelowDef (s : Side) (t : TypeOffset) : Option Ty → Prop
  | listed {ty} : fromOffset s.hash t = some ty → ty.isAnon = true → BelowDef s t (some ty)
  | named {ty} : fromOffset s.hash t = some ty → ty.isAnon = false → BelowDef s t none
  | unknown : fromOffset s.hash t = none → BelowDef s t none

/-- The rows of a type; `x` holds what is known beside the `Ty`. -/
inductive TypeRows (o : Options) (s : Side) (dir : Option Str) (x : Extra) : Ty → List Row → Prop
  | base {n z} : TypeRows o s dir x (.base n z) (entry (k "base " ++ n.getD (k "<anon>"))
      (countRow (k "size") z.get ++ oneRow (k "encoding") (encodingText x.encoding) ++
        oneRow (k "endianity") (endianityText x.endianity)))
  | def_ {ns n t ty rows} : BelowDef s t ty → ItemsRows s (itemsOf s ty) rows →
      TypeRows o s dir x (.def_ ns n t)
        (entry (k "type " ++ scopeText ns ++ n.getD (k "<anon-typedef>") ++ k " = " ++ (s.tref t).text')
          (sourceRows o dir x.source ++ countRow (k "size") (s.tsz t) ++ under (k "members") rows))
  | struct_ {ns n z ms vs is rows} : ItemsRows s (itemsOf s (some (.struct_ ns n z ms vs is))) rows →
      TypeRows o s dir x (.struct_ ns n z ms vs is) (entry (k "struct " ++ titled ns n)
        (sourceRows o dir x.source ++ shownIf x.declaration (oneRow (k "declaration") (k "yes")) ++
          countRow (k "size") z.get ++ inheritRows s is ++ under (k "members") rows))
  | union_ {ns n z ms rows} : ItemsRows s (itemsOf s (some (.union_ ns n z ms))) rows →
      TypeRows o s dir x (.union_ ns n z ms) (entry (k "union " ++ titled ns n)
        (sourceRows o dir x.source ++ shownIf x.declaration (oneRow (k "declaration") (k "yes")) ++
          countRow (k "size") z.get ++ under (k "members") rows))
  | enum_ {ns n t z texts} : All2 EnumeratorReads x.enumerators texts →
      TypeRows o s dir x (.enum_ ns n t z) (entry (k "enum " ++ titled ns n)
        (sourceRows o dir x.source ++ shownIf x.declaration (oneRow (k "declaration") (k "yes")) ++
          countRow (k "size") (if z.isSome then z.get else s.tsz t) ++
          under (k "enumerators") (texts.flatMap fun t => oneRow [] t)))

/-! ## Variables -/

/-- The rows of a variable, without linkage name, symbol name or address if these are to be left out. -/
def variableRows (noLinkage noSymbol noAddress : Bool) (o : Options) (s : Side) (dir : Option Str) (v : Variable) :
    List Row :=
  entry (k "var " ++ titled v.ns v.name ++ k ": " ++ (s.tref v.ty).text')
    (shownIf (!noLinkage) (oneRow (k "linkage name") (v.linkageName.getD [])) ++
      shownIf (!noSymbol) (oneRow (k "symbol name") (v.symbolName.getD [])) ++
      sourceRows o dir v.source ++
      shownIf (!noAddress) (oneRow (k "address") ((v.address.map at0x).getD [])) ++
      countRow (k "size") (v.size.or (s.tsz v.ty)) ++
      shownIf v.declaration (oneRow (k "declaration") (k "yes")))

/-! ## Sections, units and files -/

/-- A section: segment and name, the addresses if it is loaded, and the size. -/
def sectionRows (x : Section) : List Row :=
  entry ((x.segment.map (· ++ k ",")).getD [] ++ x.name.getD (k "<anon-section>"))
    (oneRow (k "address") ((x.address.map fun a => spanText ⟨a, a + x.size⟩).getD []) ++
      countRow (k "size") (some x.size))

/-- Several ranges, with the number of bytes of each. -/
def spanRows (label : Str) (rs : List Range) : List Row :=
  under label (rs.flatMap fun r => oneRow [] (spanSizeText r))

/-- A size that is left out when it is 0. -/
def nonzeroRow (label : Str) (n : Nat) : List Row := if n = 0 then [] else countRow label (some n)

/-- The name of a unit, below its directory unless the name is absolute. -/
def unitText (u : CompUnit) : Str :=
  k "unit " ++
    (if u.dir.getD [] = [] ∨ (u.name.getD (k "<anon>")).head? = some 47 then u.name.getD (k "<anon>")
      else join (u.dir.getD []) (u.name.getD (k "<anon>")))

/-- The addresses of the functions and variables of a unit (C60), or its base address if there are
none; then the addresses of the unit that belong to neither. -/
def unitAddressRows (tsz : TypeOffset → Option Nat) (u : CompUnit) : List Row :=
  (if 1 < (u.knownRanges tsz).length then spanRows (k "addresses") (u.knownRanges tsz)
    else if u.knownRanges tsz = [] then oneRow (k "address") ((u.lowPc.map at0x).getD [])
    else (u.knownRanges tsz).flatMap fun r => oneRow (k "address") (spanText r)) ++
    spanRows (k "unknown addresses") (u.unknownRanges tsz)

/-- The rows for a unit itself. -/
def UnitRows (o : Options) (tsz : TypeOffset → Option Nat) (u : CompUnit) (rows : List Row) : Prop :=
  ∃ f v w, u.functionSize = some f ∧ u.variableSize tsz = some v ∧ size? (u.unknownRanges tsz) = some w ∧
    rows = shownIf o.printUnitAddress (unitAddressRows tsz u) ++ nonzeroRow (k "fn size") f ++
      nonzeroRow (k "var size") v ++ nonzeroRow (k "unknown size") w

/-- The rows of the summary of a file. -/
def FileRows (o : Options) (s : FileSide) (rows : List Row) : Prop :=
  ∃ total f v, size? (unitRanges s.tsz s.file.units) = some total ∧ s.file.functionSize = some f ∧
    s.file.variableSize s.tsz = some v ∧
    rows = entry (k "file " ++ s.path)
      (shownIf o.printFileAddress (spanRows (k "addresses") (unitRanges s.tsz s.file.units)) ++
        countRow (k "size") (some total) ++ countRow (k "fn size") (some f) ++ countRow (k "var size") (some v) ++
        countRow (k "other size") (some (total - (f + v))) ++
        under (k "sections") (s.file.sections.flatMap sectionRows))

end Verif.Show
