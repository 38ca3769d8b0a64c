import Verif.File.Model
import Verif.Item.Spec
import Verif.Range.Spec
/-! # Specification vocabulary for files -/
namespace Verif.File
open Verif.Item Verif.Types Verif.Range

/-- The documented contract of a binary search by address in a list sorted by address: an index
of an element with that address (any one), or none if there is no such element. -/
def ValidSearch (search : Search) : Prop :=
  ∀ l a, l.Pairwise (fun x y => x.address ≤ y.address) →
    (∀ i, search l a = some i → ∃ s, l[i]? = some s ∧ s.address = a) ∧
    (search l a = none → ∀ s ∈ l, s.address ≠ a)

/-- Debug information claims the symbols at address `a`: some function or variable of the units
starts there, or a further range of a placed function does. -/
def Claimed (us : List CompUnit) (a : Nat) : Prop :=
  ∃ u ∈ us,
    (∃ f ∈ u.functions, f.address = some a ∨
      (f.address.isSome = true ∧ ∃ r ∈ f.ranges.drop 1, r.lo = a)) ∨
    (∃ v ∈ u.variables, v.address = some a)

/-- The symbol name recorded for an item at address `a` that calls itself `own`, given its
previous `old` one: no symbol is at that address, or one of them has exactly that name: `old`; and
otherwise the name of the first symbol at that address. -/
inductive SymbolNameFor (symbols : List Symbol) (a : Nat) (own old : Option Str) :
    Option Str → Prop
  | nothingThere : (∀ s ∈ symbols, s.address ≠ a) → SymbolNameFor symbols a own old old
  | agrees {s} : s ∈ symbols → s.address = a → s.name = own → SymbolNameFor symbols a own old old
  | differs {before s after} : symbols = before ++ s :: after → s.address = a →
      (∀ t ∈ before, t.address ≠ a) → (∀ t ∈ symbols, t.address = a → t.name ≠ own) →
      SymbolNameFor symbols a own old s.name

/-- Two lists related element by element. -/
inductive EachRel {α β : Type} (R : α → β → Prop) : List α → List β → Prop
  | nil : EachRel R [] []
  | cons {a b as bs} : R a b → EachRel R as bs → EachRel R (a :: as) (b :: bs)

/-- `f'` is `f` with nothing but its symbol name changed, and that as `SymbolNameFor` says. -/
def FunctionNamed (symbols : List Symbol) (f f' : Function) : Prop :=
  ∃ n, f' = { f with symbolName := n } ∧
    (∀ a, f.address = some a → SymbolNameFor symbols a (f.linkageName.or f.name) f.symbolName n) ∧
    (f.address = none → n = f.symbolName)

/-- See `FunctionNamed`. -/
def VariableNamed (symbols : List Symbol) (v v' : Variable) : Prop :=
  ∃ n, v' = { v with symbolName := n } ∧
    (∀ a, v.address = some a → SymbolNameFor symbols a (v.linkageName.or v.name) v.symbolName n) ∧
    (v.address = none → n = v.symbolName)

/-- `u'` is `u` with the symbol names of its items set. -/
def UnitNamed (symbols : List Symbol) (u u' : CompUnit) : Prop :=
  ∃ fs vs, u' = { u with functions := fs, variables := vs } ∧
    EachRel (FunctionNamed symbols) u.functions fs ∧
    EachRel (VariableNamed symbols) u.variables vs

/-- Address `x` belongs to a section loaded at a known address. -/
def InSection (sections : List Section) (x : Nat) : Prop :=
  ∃ s ∈ sections, ∃ a, s.address = some a ∧ a ≤ x ∧ x < a + s.size

/-- `v` is the entry of the last pair with key `key`. -/
def LastWith {κ α : Type} (entries : List (κ × α)) (key : κ) (v : α) : Prop :=
  ∃ l1 l2, entries = l1 ++ (key, v) :: l2 ∧ ∀ e ∈ l2, e.1 ≠ key

/-- The byte loaded at an address by a segment. -/
def ByteAt (s : Segment) (a : Nat) (b : Nat) : Prop :=
  s.address ≤ a ∧ s.bytes[a - s.address]? = some b

end Verif.File
