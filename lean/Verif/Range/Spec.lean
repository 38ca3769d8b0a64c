import Verif.Range.Model
/-!
# Vocabulary for the range properties (independent of push/sort/subtract)
-/
namespace Verif.Range

/-- Address `x` lies in one of the ranges. -/
def Covers (l : List Range) (x : Nat) : Prop := ∃ r ∈ l, r.lo ≤ x ∧ x < r.hi

/-- The gap between `a` and `b` cannot be explained by alignment padding: `b` starts
after the end of `a`, and if `b` starts on a 16-byte boundary there are more than 15
bytes between them. -/
def Separated (a b : Range) : Prop :=
  a.hi < b.lo ∧ (b.lo % 16 = 0 → a.hi + 15 < b.lo)

/-- Canonical range list: non-empty ranges, increasing, disjoint, not even adjacent, and
with no alignment-padding gap left between neighbours. -/
def Canonical (l : List Range) : Prop :=
  (∀ r ∈ l, r.lo < r.hi) ∧ l.Pairwise Separated

/-- Sorted and disjoint, possibly adjacent: what the argument of `subtract` must be. -/
def Ordered (l : List Range) : Prop :=
  (∀ r ∈ l, r.lo < r.hi) ∧ l.Pairwise (fun a b => a.hi ≤ b.lo)

/-- `x` is an alignment padding byte for the address set `S`: it lies strictly between
an address `p` of `S` and a 16-byte-aligned address `r` of `S` with at most 15
bytes in between. -/
def PadGap (S : Nat → Prop) (x : Nat) : Prop :=
  ∃ p r, S p ∧ S r ∧ p < x ∧ x < r ∧ r % 16 = 0 ∧ r ≤ p + 16

/-- Number of covered addresses below `n`. -/
def coveredBelow (l : List Range) (n : Nat) : Nat :=
  (List.range n).countP (fun x => l.any (fun r => decide (r.lo ≤ x ∧ x < r.hi)))

end Verif.Range
