import Verif.Show.FnSpec
import Verif.Show.FileSpec
import Verif.Show.TypeRef
/-!
# Reading a listing

How the numbers in a listing are read, and which facts about a type its listing shows. The
definitions here do not use the printing functions of the model.
-/
namespace Verif.Show
open Verif.Print Verif.Item Verif.Namespace Verif.Types Verif.Layout Verif.Path Verif.Opts Verif.Merge

/-! ## Numbers -/

/-- The number written with these decimal digits. -/
def decimalValue (s : Str) : Nat := s.foldl (fun n c => 10 * n + (c - 48)) 0

/-- `s` is the number `n` in decimal. -/
structure Decimal (s : Str) (n : Nat) : Prop where
  nonempty : s ≠ []
  digits : ∀ c ∈ s, 48 ≤ c ∧ c ≤ 57
  value : decimalValue s = n

/-- The number of bits `n`, given in bytes, and as bytes and bits if it is not a number of bytes. -/
inductive BitText : Str → Nat → Prop
  | bytes {s q} : Decimal s q → BitText s (8 * q)
  | bits {s q t r} : Decimal s q → Decimal t r → 0 < r → r < 8 → BitText (s ++ k "." ++ t) (8 * q + r)

/-- An integer in decimal. -/
inductive IntText : Str → Int → Prop
  | pos {s n} : Decimal s n → IntText s (n : Int)
  | neg {s n} : Decimal s n → 0 < n → IntText (k "-" ++ s) (-(n : Int))

/-- A size in bits, or unknown. -/
inductive SizeText : Str → Option Nat → Prop
  | known {s n} : BitText s n → SizeText s (some n)
  | unknown : SizeText (k "??") none

/-! ## Members -/

/-- The text of an item of a struct: its offset and size, and what it is. -/
inductive ItemReads (s : Side) (l : Layout) : Str → Prop
  | padding {o z} : l.item = .padding → BitText o l.bitOffset → BitText z (l.bitSize.get.getD 0) →
      ItemReads s l (o ++ k "[" ++ z ++ k "]\t<padding>")
  | member {o z m} : l.item = .member m → BitText o m.bitOffset → SizeText z (memberBitSize s.tsz m) →
      ItemReads s l (o ++ k "[" ++ z ++ k "]\t" ++ m.name.getD (k "<anon>") ++ k ": " ++ (s.tref m.ty).text')
  | variantPart {o z v} : l.item = .variantPart v → BitText o l.bitOffset → BitText z (l.bitSize.get.getD 0) →
      ItemReads s l (o ++ k "[" ++ z ++ k "]\t<variant part>")
  | base {o z i} : l.item = .inherit i → BitText o l.bitOffset → BitText z (l.bitSize.get.getD 0) →
      ItemReads s l (o ++ k "[" ++ z ++ k "]\t<inherit>: " ++ (s.tref i.ty).text')

/-- The text of a variant. -/
inductive VariantReads (v : Variant) : Str → Prop
  | default : v.discrValue = none → VariantReads v ((v.name.map (· ++ k ": ")).getD [] ++ k "<default>")
  | value {t d} : v.discrValue = some d → Decimal t d →
      VariantReads v ((v.name.map (· ++ k ": ")).getD [] ++ k "<" ++ t ++ k ">")

/-- The text of an enumerator: name and value. -/
inductive EnumeratorReads (e : Enumerator) : Str → Prop
  | unknown : e.value = .other → EnumeratorReads e (e.name.getD (k "<anon>"))
  | signed {t v} : e.value = .signed v → IntText t v →
      EnumeratorReads e (e.name.getD (k "<anon>") ++ k "(" ++ t ++ k ")")
  | unsigned {t v} : e.value = .unsigned v → IntText t (v : Int) →
      EnumeratorReads e (e.name.getD (k "<anon>") ++ k "(" ++ t ++ k ")")

/-! ## Facts -/

/-- A name as in source code: not empty and without the characters `:`, `<` and `(`. -/
def Plain (name : Option Str) : Prop := ∀ s, name = some s → s ≠ [] ∧ 58 ∉ s ∧ 60 ∉ s ∧ 40 ∉ s

/-- The number that is the value of an enumerator. -/
def EnumValue.number : EnumValue → Option Int
  | .other => none
  | .signed v => some v
  | .unsigned v => some v

/-- The items listed below a type: for a union, its members. -/
def itemsOf (s : Side) : Option Ty → List Layout
  | some (.struct_ _ _ size ms vps inh) => structLayout ms inh vps size s.tsz
  | some (.union_ _ _ _ ms) => ms.map fun m => ⟨m.bitOffset, .ofOption (memberBitSize s.tsz m), .member m⟩
  | _ => []

/-- The same facts about two items; `S` compares the types that are listed below two members and `V`
the variants of two variant parts. -/
inductive SameItem (s s' : Side) (S : Option Ty → Option Ty → Prop)
    (V : Layout → List Variant → Layout → List Variant → Prop) (l l' : Layout) : Prop
  | padding : l.item = .padding → l'.item = .padding → l.bitOffset = l'.bitOffset →
      l.bitSize.get.getD 0 = l'.bitSize.get.getD 0 → SameItem s s' S V l l'
  | member {m m'} : l.item = .member m → l'.item = .member m' → m.bitOffset = m'.bitOffset →
      memberBitSize s.tsz m = memberBitSize s'.tsz m' → m.name = m'.name →
      (s.tref m.ty).text' = (s'.tref m'.ty).text' → S (inlineTy s m) (inlineTy s' m') → SameItem s s' S V l l'
  | variantPart {v v'} : l.item = .variantPart v → l'.item = .variantPart v' → l.bitOffset = l'.bitOffset →
      l.bitSize.get.getD 0 = l'.bitSize.get.getD 0 → V l v.variants l' v'.variants → SameItem s s' S V l l'
  | base {i i'} : l.item = .inherit i → l'.item = .inherit i' → l.bitOffset = l'.bitOffset →
      l.bitSize.get.getD 0 = l'.bitSize.get.getD 0 → (s.tref i.ty).text' = (s'.tref i'.ty).text' → SameItem s s' S V l l'

/-- The same facts about two variants. -/
structure SameVariant (s s' : Side) (S : Option Ty → Option Ty → Prop) (l l' : Layout) (v v' : Variant) : Prop where
  name : v.name = v'.name
  discr : v.discrValue = v'.discrValue
  items : All2 (SameItem s s' S fun _ _ _ _ => True)
    (Variant.layout v l.bitOffset l.bitSize.get s.tsz) (Variant.layout v' l'.bitOffset l'.bitSize.get s'.tsz)

/-- The same facts about the items listed below two types, to the given depth. -/
def SameItems (s s' : Side) : Nat → Option Ty → Option Ty → Prop
  | 0, _, _ => True
  | n + 1, t, t' => 
    All2 (SameItem s s' (SameItems s s' n) fun l v l' v' => All2 (SameVariant s s' (SameItems s s' n) l l') v v')
      (itemsOf s t) (itemsOf s' t')

/-- The names in a type are names as in source code, and there is no `=` in the name of a typedef. -/
def PlainTy : Ty → Prop
  | .struct_ _ _ _ ms vps _ => (∀ m ∈ ms, Plain m.name) ∧
      ∀ vp ∈ vps, ∀ v ∈ vp.variants, Plain v.name ∧ ∀ m ∈ v.members, Plain m.name
  | .union_ _ _ _ ms => ∀ m ∈ ms, Plain m.name
  | .def_ ns name _ => 61 ∉ scopeText ns ++ name.getD (k "<anon-typedef>")
  | _ => True

/-- The names in all types of the file are names as in source code. -/
def PlainFile (s : Side) : Prop := ∀ o t, fromOffset s.hash o = some t → PlainTy t

/-- The qualified name of a type. -/
def titled (ns : Option Namespace) (name : Option Str) : Str := scopeText ns ++ name.getD (k "<anon>")

/-- The same facts about two types; `x` and `y` hold what is known beside the `Ty`. -/
inductive SameType (o : Options) (s s' : Side) (da db : Option Str) (x y : Extra) : Ty → Ty → Prop
  | base {n n' z z'} : n.getD (k "<anon>") = n'.getD (k "<anon>") → z.get = z'.get → x.encoding = y.encoding →
      x.endianity = y.endianity → SameType o s s' da db x y (.base n z) (.base n' z')
  | def_ {ns n t ns' n' t'} :
      scopeText ns ++ n.getD (k "<anon-typedef>") = scopeText ns' ++ n'.getD (k "<anon-typedef>") →
      (s.tref t).text' = (s'.tref t').text' → s.tsz t = s'.tsz t' →
      (o.printSource = true → x.source.print da = y.source.print db) →
      (∀ depth, SameItems s s' depth (defInline s t) (defInline s' t')) →
      SameType o s s' da db x y (.def_ ns n t) (.def_ ns' n' t')
  | struct_ {ns n z ms vs is ns' n' z' ms' vs' is'} : titled ns n = titled ns' n' → z.get = z'.get →
      x.declaration = y.declaration → (o.printSource = true → x.source.print da = y.source.print db) →
      is.map (fun i => (s.tref i.ty).text') = is'.map (fun i => (s'.tref i.ty).text') →
      (∀ depth, SameItems s s' depth (some (.struct_ ns n z ms vs is)) (some (.struct_ ns' n' z' ms' vs' is'))) →
      SameType o s s' da db x y (.struct_ ns n z ms vs is) (.struct_ ns' n' z' ms' vs' is')
  | union_ {ns n z ms ns' n' z' ms'} : titled ns n = titled ns' n' → z.get = z'.get →
      x.declaration = y.declaration → (o.printSource = true → x.source.print da = y.source.print db) →
      (∀ depth, SameItems s s' depth (some (.union_ ns n z ms)) (some (.union_ ns' n' z' ms'))) →
      SameType o s s' da db x y (.union_ ns n z ms) (.union_ ns' n' z' ms')
  | enum_ {ns n t z ns' n' t' z'} : titled ns n = titled ns' n' →
      (if z.isSome then z.get else s.tsz t) = (if z'.isSome then z'.get else s'.tsz t') →
      x.declaration = y.declaration → (o.printSource = true → x.source.print da = y.source.print db) →
      All2 (fun e e' : Enumerator => e.name = e'.name ∧ e.value.number = e'.value.number) x.enumerators y.enumerators →
      SameType o s s' da db x y (.enum_ ns n t z) (.enum_ ns' n' t' z')

end Verif.Show
