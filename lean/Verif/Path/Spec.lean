import Verif.Path.Model
import Verif.Merge.Spec
/-!
# What an alignment of two lists is, and what it costs
-/
namespace Verif.Path
open Verif.Merge

variable {α : Type}

/-- Cost of showing one item. -/
def itemCost (c1 c2 : α → Nat) (d : α → α → Nat) : MergeResult α α → Nat
  | .left a => c1 a
  | .right b => c2 b
  | .both a b => d a b

/-- Total cost of a presentation. -/
def totalCost (c1 c2 : α → Nat) (d : α → α → Nat) (items : List (MergeResult α α)) : Nat :=
  (items.map (itemCost c1 c2 d)).sum

/-- `items` presents the change from `l1` to `l2`: it mentions every old item once, in order,
every new item once, in order, and pairs two items only if their difference costs less than
deleting the one and adding the other. -/
structure IsAlignment (c1 c2 : α → Nat) (d : α → α → Nat) (l1 l2 : List α)
    (items : List (MergeResult α α)) : Prop where
  old : oldItems items = l1
  new : newItems items = l2
  pairs : ∀ a b, .both a b ∈ items → d a b < c1 a + c2 b

/-- Cost of deleting everything and adding everything. -/
def replaceCost (c1 c2 : α → Nat) (l1 l2 : List α) : Nat :=
  (l1.map c1).sum + (l2.map c2).sum

/-- A step budget that suffices for lists of these lengths. -/
def enoughFuel (l1 l2 : List α) : Nat := 6 * ((l1.length + 1) * (l2.length + 1)) + 2

end Verif.Path
