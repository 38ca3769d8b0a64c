import Verif.Merge.Model
/-!
# What it means for a merge to be right

Independent of how the iterator works: the old items and new items mentioned by a result list.
-/
namespace Verif.Merge

variable {α : Type u} {β : Type v}

/-- The old-side item of a result. -/
def oldItem : MergeResult α β → Option α
  | .left a => some a
  | .both a _ => some a
  | .right _ => none

/-- The new-side item of a result. -/
def newItem : MergeResult α β → Option β
  | .right b => some b
  | .both _ b => some b
  | .left _ => none

/-- All old items of a result list, in order. -/
def oldItems (l : List (MergeResult α β)) : List α := l.filterMap oldItem
/-- All new items of a result list, in order. -/
def newItems (l : List (MergeResult α β)) : List β := l.filterMap newItem

/-- The key a result is ordered by: the key of (one of) its items. -/
def keyOf (kl : α → κ) (kr : β → κ) : MergeResult α β → κ
  | .left a => kl a
  | .both a _ => kl a
  | .right b => kr b

/-- `l` is in (weakly) increasing key order. -/
def SortedBy (cmp : κ → κ → Ordering) (k : α → κ) (l : List α) : Prop :=
  l.Pairwise (fun x y => cmp (k x) (k y) ≠ .gt)

/-- `l` is in strictly increasing key order (no two items have equal keys). -/
def StrictSortedBy (cmp : κ → κ → Ordering) (k : α → κ) (l : List α) : Prop :=
  l.Pairwise (fun x y => cmp (k x) (k y) = .lt)

/-- Number of items of `l` whose key equals `c`. -/
def countKey (cmp : κ → κ → Ordering) (k : α → κ) (c : κ) (l : List α) : Nat :=
  (l.filter (fun x => cmp (k x) c == .eq)).length

/-- Number of pairs whose key equals `c`. -/
def countBoth (cmp : κ → κ → Ordering) (kl : α → κ) (c : κ) (l : List (MergeResult α β)) : Nat :=
  (l.filter (fun x => match x with | .both a _ => cmp (kl a) c == .eq | _ => false)).length

/-- The item a merged result is sorted by, with the file it belongs to: the new one when there
is one. -/
def shown (argLeft argRight : γ) : MergeResult α α → α × γ
  | .left a => (a, argLeft)
  | .right b => (b, argRight)
  | .both _ b => (b, argRight)

end Verif.Merge
