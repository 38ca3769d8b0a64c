import Verif.Base
/-!
# Model of `MergeResult` and `MergeIterator` (`main/src/print/mod.rs:947-1049`)
-/
namespace Verif.Merge

/-- `MergeResult` (main/src/print/mod.rs:947-951). -/
inductive MergeResult (α : Type u) (β : Type v)
  | left (a : α)
  | right (b : β)
  | both (a : α) (b : β)
deriving DecidableEq, Repr

/-- `MergeIterator` (main/src/print/mod.rs:979-990) without the comparison function, which
never changes and is passed separately. The underlying iterators are the lists of items they
still have to yield. -/
structure MergeIterator (α : Type u) (β : Type v) where
  iterLeft : List α
  iterRight : List β
  itemLeft : Option α
  itemRight : Option β

/-- `MergeIterator::new` (main/src/print/mod.rs:998-1008). `Iterator::next` on a list is
`head?` and leaves `tail`. -/
def MergeIterator.new (l : List α) (r : List β) : MergeIterator α β :=
  { iterLeft := l.tail, iterRight := r.tail, itemLeft := l.head?, itemRight := r.head? }

/-- `MergeIterator::next` (main/src/print/mod.rs:1019-1048). -/
def MergeIterator.next (cmp : α → β → Ordering) (s : MergeIterator α β) :
    Option (MergeResult α β × MergeIterator α β) :=
  match s.itemLeft, s.itemRight with
  | some left, some right =>
    match cmp left right with
    | .eq => some (.both left right,
        { iterLeft := s.iterLeft.tail, iterRight := s.iterRight.tail,
          itemLeft := s.iterLeft.head?, itemRight := s.iterRight.head? })
    | .lt => some (.left left,
        { iterLeft := s.iterLeft.tail, iterRight := s.iterRight,
          itemLeft := s.iterLeft.head?, itemRight := some right })
    | .gt => some (.right right,
        { iterLeft := s.iterLeft, iterRight := s.iterRight.tail,
          itemLeft := some left, itemRight := s.iterRight.head? })
  | some left, none => some (.left left,
      { iterLeft := s.iterLeft.tail, iterRight := s.iterRight,
        itemLeft := s.iterLeft.head?, itemRight := none })
  | none, some right => some (.right right,
      { iterLeft := s.iterLeft, iterRight := s.iterRight.tail,
        itemLeft := none, itemRight := s.iterRight.head? })
  | none, none => none

/-- Calling `next` at most `n` times, collecting what it yields (the `for` loops and
`collect` calls over a `MergeIterator`, e.g. main/src/print/mod.rs:795,
main/src/print/unit.rs:22-25). -/
def MergeIterator.take (cmp : α → β → Ordering) :
    Nat → MergeIterator α β → List (MergeResult α β)
  | 0, _ => []
  | n + 1, s =>
    match s.next cmp with
    | some (x, s') => x :: MergeIterator.take cmp n s'
    | none => []

/-- Iterating a fresh `MergeIterator` (main/src/print/unit.rs:22-25) up to `n` times. -/
def merged (cmp : α → β → Ordering) (l : List α) (r : List β) (n : Nat) :
    List (MergeResult α β) :=
  (MergeIterator.new l r).take cmp n

/-- `MergeResult::cmp` (main/src/print/mod.rs:954-976). `f x argX y argY`; the result type is left
open so that a comparison that may not return can be used too. -/
def MergeResult.cmp (f : α → γ → α → γ → ω) (argLeft argRight : γ)
    (x y : MergeResult α α) : ω :=
  match x with
  | .both _ xr =>
    match y with
    | .both _ yr => f xr argRight yr argRight
    | .left yl => f xr argRight yl argLeft
    | .right yr => f xr argRight yr argRight
  | .left xl =>
    match y with
    | .both _ yr => f xl argLeft yr argRight
    | .left yl => f xl argLeft yl argLeft
    | .right yr => f xl argLeft yr argRight
  | .right xr =>
    match y with
    | .both _ yr => f xr argRight yr argRight
    | .left yl => f xr argRight yl argLeft
    | .right yr => f xr argRight yr argRight

/-- The sort at the start of `DiffState::sort_list` (main/src/print/mod.rs:827-831). -/
def sortMerged (f : α → γ → α → γ → Ordering) (argLeft argRight : γ)
    (l : List (MergeResult α α)) : List (MergeResult α α) :=
  stableSort (fun x y => MergeResult.cmp f argLeft argRight x y != .gt) l

/-- `merged_types`, `merged_variables`, `merged_units` (main/src/print/unit.rs:11-26, 61-76,
main/src/print/file.rs:305-323): sort each side with `cmp_id_for_sort`, then merge with
`cmp_id`. `key` stands for the pair (file hash, item). -/
def mergeSorted (cmpSort cmp : κ → κ → Ordering) (kl : α → κ) (kr : β → κ)
    (l : List α) (r : List β) (n : Nat) : List (MergeResult α β) :=
  merged (fun a b => cmp (kl a) (kr b))
    (stableSort (fun x y => cmpSort (kl x) (kl y) != .gt) l)
    (stableSort (fun x y => cmpSort (kr x) (kr y) != .gt) r) n

end Verif.Merge
