import Verif.Show.FileModel
import Verif.Path.Spec
import Verif.Types.Spec
import Verif.Namespace.Spec
/-!
# Which items of two lists belong together

Price lists, independent of the code: what it costs to show an item alone and to show two items as
one. `Best` says that a presentation of two lists is one of least cost.
-/
namespace Verif.Show
open Verif.Print Verif.Item Verif.Namespace Verif.Types Verif.Layout Verif.Path Verif.Opts Verif.Merge
  Verif.Namespace.Namespace

/-- What it costs to show an item alone, and two items as one. -/
structure Prices (α : Type) where
  alone : α → Nat
  pair : α → α → Nat

/-- The cost of a presentation. -/
def Prices.cost (w : Prices α) (items : List (MergeResult α α)) : Nat := totalCost w.alone w.alone w.pair items

/-- `items` shows every item of `la` and `lb` once and in order, shows two as one only where that is
cheaper than showing both alone, and no other presentation is cheaper. -/
structure Best (w : Prices α) (la lb : List α) (items : List (MergeResult α α)) : Prop where
  old : oldItems items = la
  new : newItems items = lb
  worth : ∀ a b, .both a b ∈ items → w.pair a b < w.alone a + w.alone b
  least : ∀ other, oldItems other = la → newItems other = lb → w.cost items ≤ w.cost other

/-- `e` shows `items` one after the other: what is only in the old list as deleted, what is only in
the new one as added, the others with `diff`. -/
def Presents (printOld printNew : α → Option P) (diff : α → α → Option D) (items : List (MergeResult α α)) (e : D) :
    Prop :=
  ∃ ds : List D, e = .seqs ds ∧ All2 (fun it d =>
    (∀ a, it = .left a → ∃ p, printOld a = some p ∧ d = .prefixDelete p) ∧
    (∀ b, it = .right b → ∃ p, printNew b = some p ∧ d = .prefixAdd p) ∧
    (∀ a b, it = .both a b → diff a b = some d)) items ds

open Classical in
/-- `n` points if the two disagree in something. -/
noncomputable def points (n : Nat) (p : Prop) : Nat := if p then n else 0

/-- The types at two offsets are identified alike, or neither is known. -/
def SameTy (c : Pair) (a b : TypeOffset) : Prop :=
  (∃ x y, fromOffset c.a.hash a = some x ∧ fromOffset c.b.hash b = some y ∧ c.same x y = true) ∨
    (fromOffset c.a.hash a = none ∧ fromOffset c.b.hash b = none)

/-- Two functions have the same scopes around them and the same name. -/
def SameFn (f g : Function) : Prop := f.ns.map path = g.ns.map path ∧ f.name = g.name

/-- The same function, or unknown in both files. -/
def SameFnOpt : Option Function → Option Function → Prop
  | some f, some g => SameFn f g
  | none, none => True
  | _, _ => False

/-- Members. -/
noncomputable def memberPrices (c : Pair) : Prices Member where
  alone _ := 1
  pair a b := points 1 (a.name ≠ b.name) + points 1 (¬ SameTy c a.ty b.ty)

/-- Base classes. -/
noncomputable def inheritPrices (c : Pair) : Prices Inherit where
  alone _ := 1
  pair a b := points 2 (¬ SameTy c a.ty b.ty)

/-- Padding, members, variant parts and base classes in a layout. -/
noncomputable def layoutPrices (c : Pair) : Prices Layout where
  alone _ := 1
  pair a b := match a.item, b.item with
    | .padding, .padding => 0
    | .variantPart _, .variantPart _ => 0
    | .member x, .member y => (memberPrices c).pair x y
    | .inherit x, .inherit y => (inheritPrices c).pair x y
    | _, _ => 2

/-- Variants. -/
noncomputable def variantPrices : Prices Variant where
  alone _ := 1
  pair a b := points 1 (a.name ≠ b.name) + points 1 (a.discrValue ≠ b.discrValue)

/-- Enumerators. -/
noncomputable def enumeratorPrices : Prices Enumerator where
  alone _ := 3
  pair a b := points 4 (a.name ≠ b.name) + points 2 (a.value ≠ b.value)

/-- Parameters. -/
noncomputable def paramPrices (c : FnPair) : Prices Parameter where
  alone _ := 1
  pair a b := points 1 (a.name ≠ b.name) + points 1 (¬ SameTy c.toPair a.ty b.ty)

/-- Local variables. -/
noncomputable def localPrices (c : FnPair) : Prices LocalVariable where
  alone _ := 1
  pair a b := points 1 (a.name ≠ b.name) + points 1 (¬ SameTy c.toPair a.ty b.ty)

/-- Registers and locations: anything may be shown as changed. -/
noncomputable def changePrices (α : Type) : Prices α where
  alone _ := 1
  pair a b := points 1 (a ≠ b)

/-- The sort of place an indirect call goes through. -/
def placeOf : IndirectOrigin → Nat
  | .variable_ _ => 0
  | .localVariable _ => 1
  | .parameter _ => 2
  | .member _ => 3

/-- Where two calls go to. -/
noncomputable def originPoints : Option CallOrigin → Option CallOrigin → Nat
  | some (.direct f), some (.direct g) => points 1 (¬ SameFn f g)
  | some (.indirect p), some (.indirect q) => points 1 (placeOf p ≠ placeOf q)
  | some (.direct _), some (.indirect _) => 2
  | some (.indirect _), some (.direct _) => 2
  | some _, none => 1
  | none, some _ => 1
  | none, none => 0

/-- Call sites. -/
noncomputable def callSitePrices : Prices FunctionCall where
  alone _ := 1
  pair a b := points 1 (a.kind ≠ b.kind) + points 1 (a.callAddress ≠ b.callAddress) +
    points 1 (a.returnAddress ≠ b.returnAddress) + originPoints a.origin b.origin

/-- Calls found in the code: from an address, to an address. -/
noncomputable def callPrices (c : FnPair) : Prices (Nat × Nat) where
  alone _ := 1
  pair a b := points 1 (¬ SameFnOpt (c.a.fnByAddress a.2) (c.b.fnByAddress b.2))

/-- The place an inlined call was written at: file, line and column. -/
def SamePlace (da db : Option Str) (x y : Source) : Prop :=
  x.path da = y.path db ∧ x.line = y.line ∧ x.column = y.column

/-- Inlined functions: the larger, the more a difference weighs. -/
noncomputable def inlinedPrices (c : FnPair) (da db : Option Str) : Prices InlinedFunction where
  alone f := 2 + 4 * f.size.getD 0
  pair a b := (points 3 (¬ SameFnOpt (c.a.fnAt a.origin) (c.b.fnAt b.origin)) +
    points 1 (¬ SamePlace da db a.callSource b.callSource)) * (1 + a.size.getD 0 + b.size.getD 0)

/-- Sections. -/
noncomputable def sectionPrices : Prices File.Section where
  alone _ := 1
  pair x y := points 2 (x.name ≠ y.name ∨ x.segment ≠ y.segment)

/-- `sub` shows the two lists in a best way. -/
def BestShown (w : Prices α) (printOld printNew : α → Option P) (diff : α → α → Option D) (la lb : List α) (sub : D) : Prop :=
  ∃ items, Best w la lb items ∧ Presents printOld printNew diff items sub

/-- `x` is a part of the diff `e`. -/
inductive PartOf (x : D) : D → Prop
  | here : PartOf x x
  | first {a b : D} : PartOf x a → PartOf x (.seq a b)
  | rest {a b : D} : PartOf x b → PartOf x (.seq a b)
  | indent {c : Bool} {h b : D} : PartOf x b → PartOf x (.indent c h b)
  | field {c : Bool} {l : Str} {b : D} : PartOf x b → PartOf x (.field c l b)
  | id {n : Nat} {h b : D} : PartOf x b → PartOf x (.id n h b)
  | inline {b : D} : PartOf x b → PartOf x (.inline b)

end Verif.Show
