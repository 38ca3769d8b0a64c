import Verif.Layout.Model
/-! # Specification vocabulary for layouts -/
namespace Verif.Layout
open Verif.Sentinel Verif.Types

/-- `l` starts at `start`, each entry has a known size and starts where the one before it ends,
and the last one ends at `stop`. -/
def Tiles : Nat → List Layout → Nat → Prop
  | start, [], stop => start = stop
  | start, x :: xs, stop => x.bitOffset = start ∧ ∃ n, x.bitSize.get = some n ∧
      Tiles (start + n) xs stop

/-- Two entries of known size do not overlap. -/
def Disjoint (a b : Layout) : Prop :=
  ∀ n m, a.bitSize.get = some n → b.bitSize.get = some m →
    a.bitOffset + n ≤ b.bitOffset ∨ b.bitOffset + m ≤ a.bitOffset

/-- Every padding entry has positive size, and begins exactly where the item before it (or, for the
first entry, the struct) ends, and ends where the item after it (or the struct) begins. -/
def PaddingExact (total : Option Nat) (l : List Layout) : Prop :=
  ∀ pre p post, l = pre ++ p :: post → p.item = .padding →
    ∃ n, p.bitSize.get = some n ∧ 0 < n ∧
      (match pre.getLast? with
        | none => p.bitOffset = 0
        | some a => a.item ≠ .padding ∧ ∃ k, a.bitSize.get = some k ∧
            p.bitOffset = a.bitOffset + k) ∧
      (match post.head? with
        | none => total = some (p.bitOffset + n)
        | some b => b.item ≠ .padding ∧ b.bitOffset = p.bitOffset + n)

/-- `m` occupies `n` bits: as many as it declares, or else as many as its type. -/
def MemberBits (sz : TypeOffset → Option Nat) (m : Member) (n : Nat) : Prop :=
  m.bitSize.get = some n ∨ (m.bitSize.get = none ∧ ∃ k, sz m.ty = some k ∧ n = 8 * k)

/-- Bits `[o, o + n)` that an item of a struct occupies, relative to `base`. -/
inductive Occupies (ms : List Member) (is : List Inherit) (vs : List VariantPart) (base : Nat)
    (sz : TypeOffset → Option Nat) : LayoutItem → Nat → Nat → Prop
  | member {m n} : m ∈ ms → MemberBits sz m n →
      Occupies ms is vs base sz (.member m) (m.bitOffset - base) n
  | inherit {i k} : i ∈ is → sz i.ty = some k →
      Occupies ms is vs base sz (.inherit i) (i.bitOffset - base) (8 * k)
  | variantPart {v n} : v ∈ vs → VariantPart.bitSize sz v = some n →
      Occupies ms is vs base sz (.variantPart v) (VariantPart.bitOffset v - base) n

end Verif.Layout
