import Verif.Merge.Model
/-!
# Model of `shortest_path` and `DiffState::list` (`main/src/print/mod.rs`)

Costs are natural numbers; every `usize` addition the code performs is checked and a sum above
`usize::MAX` is the outcome `panic` (debug builds; a release build would wrap). Array accesses
out of bounds and the final `panic!` are also the outcome `panic`. Loops carry a step budget
`fuel`; running out of it is the separate outcome `outOfFuel`, so that a theorem saying the
result is `ok` for a large enough budget is a termination proof.
-/
namespace Verif.Path
open Verif.Merge

/-- `usize::MAX` on a 64-bit host. -/
def usizeMax : Nat := 2 ^ 64 - 1

/-- Outcome of running a function. -/
inductive Out (α : Type u)
  | ok (a : α)
  | panic
  | outOfFuel
deriving DecidableEq, Repr

/-- Checked `usize` addition. -/
def addUsize (a b : Nat) : Out Nat := if a + b ≤ usizeMax then .ok (a + b) else .panic

/-- Sequencing of outcomes. -/
def Out.bind (x : Out α) (f : α → Out β) : Out β :=
  match x with
  | .ok a => f a
  | .panic => .panic
  | .outOfFuel => .outOfFuel

instance : Monad Out where
  pure := .ok
  bind := Out.bind

/-- Slice indexing. -/
def idx (l : List α) (i : Nat) : Out α :=
  match l[i]? with
  | some a => .ok a
  | none => .panic

/-- `Direction` (main/src/print/mod.rs:1051-1057). -/
inductive Direction
  | none | diagonal | horizontal | vertical
deriving DecidableEq, Repr

/-- `Node` (main/src/print/mod.rs:1059-1064). -/
structure Node where
  cost : Nat
  from_ : Direction
  done : Bool
deriving DecidableEq, Repr

/-- `State` (main/src/print/mod.rs:1066-1071). -/
structure HState where
  cost : Nat
  index1 : Nat
  index2 : Nat
deriving DecidableEq, Repr

/-- `BinaryHeap<State>` with `State`'s reversed order (main/src/print/mod.rs:1073-1084,1120):
any priority queue. `items` is its contents; `pop` returns some element of least cost (which of
several is not specified by `std`, so the theorems hold for every choice), and `none` only when
empty. -/
structure Heap where
  H : Type
  items : H → List HState
  empty : H
  push : H → HState → H
  pop : H → Option (HState × H)
  items_empty : items empty = []
  items_push : ∀ h x, (items (push h x)).Perm (x :: items h)
  pop_none : ∀ h, pop h = none → items h = []
  pop_some : ∀ h x h', pop h = some (x, h') →
    (items h).Perm (x :: items h') ∧ ∀ y ∈ items h, x.cost ≤ y.cost

/-- Local variables of `shortest_path`: the node table and the heap. -/
structure Vars (Q : Heap) where
  node : List Node
  heap : Q.H

/-- The nested function `push` (main/src/print/mod.rs:1122-1139) applied to
`&mut node[i]`. -/
def push (Q : Heap) (v : Vars Q) (i index1 index2 cost : Nat) (from_ : Direction) :
    Out (Vars Q) := do
  let n ← idx v.node i
  if cost < n.cost then
    .ok { node := v.node.set i { n with cost := cost, from_ := from_ },
          heap := Q.push v.heap { cost := cost, index1 := index1, index2 := index2 } }
  else
    .ok v

/-- The backtracking loop (main/src/print/mod.rs:1154-1176). -/
def backtrack (node : List Node) (len1 : Nat) : Nat → Nat → Nat → List Direction →
    Out (List Direction)
  | 0, _, _, _ => .outOfFuel
  | fuel + 1, index1, index2, result => do
    let n ← idx node (index1 + index2 * len1)
    match n.from_ with
    | .none => .ok result
    | .diagonal => backtrack node len1 fuel (index1 + 1) (index2 + 1) (result ++ [.diagonal])
    | .horizontal => backtrack node len1 fuel (index1 + 1) index2 (result ++ [.horizontal])
    | .vertical => backtrack node len1 fuel index1 (index2 + 1) (result ++ [.vertical])

variable {α : Type}

/-- The part of the main loop that tries adding the previous item of the second list
(main/src/print/mod.rs:1185-1199). -/
def stepVertical (Q : Heap) (item2 : List α) (len1 : Nat) (c2 : α → Nat)
    (index1 index2 : Nat) (v : Vars Q) : Out (Vars Q) :=
  let index := index1 + index2 * len1
  if index2 > 0 then do
    let next2 := index2 - 1
    let next := index - len1
    let n ← idx v.node next
    if !n.done then do
      let cur ← idx v.node index
      let b ← idx item2 next2
      let cost ← addUsize cur.cost (c2 b)
      push Q v next index1 next2 cost .vertical
    else .ok v
  else .ok v

/-- The part of the main loop that tries deleting the previous item of the first list
(main/src/print/mod.rs:1200-1214). -/
def stepHorizontal (Q : Heap) (item1 : List α) (len1 : Nat) (c1 : α → Nat)
    (index1 index2 : Nat) (v : Vars Q) : Out (Vars Q) :=
  let index := index1 + index2 * len1
  if index1 > 0 then do
    let next1 := index1 - 1
    let next := index - 1
    let n ← idx v.node next
    if !n.done then do
      let cur ← idx v.node index
      let a ← idx item1 next1
      let cost ← addUsize cur.cost (c1 a)
      push Q v next next1 index2 cost .horizontal
    else .ok v
  else .ok v

/-- The part of the main loop that tries pairing the previous items of both lists
(main/src/print/mod.rs:1215-1234). -/
def stepDiagonal (Q : Heap) (item1 item2 : List α) (len1 : Nat) (c1 c2 : α → Nat)
    (d : α → α → Nat) (index1 index2 : Nat) (v : Vars Q) : Out (Vars Q) :=
  let index := index1 + index2 * len1
  if index1 > 0 ∧ index2 > 0 then do
    let next1 := index1 - 1
    let next2 := index2 - 1
    let next := index - len1 - 1
    let n ← idx v.node next
    if !n.done then do
      let a ← idx item1 next1
      let b ← idx item2 next2
      let stepCost ← addUsize (c1 a) (c2 b)
      let diffCost := d a b
      if diffCost < stepCost then do
        let cur ← idx v.node index
        let cost ← addUsize cur.cost diffCost
        push Q v next next1 next2 cost .diagonal
      else .ok v
    else .ok v
  else .ok v

/-- The main loop (main/src/print/mod.rs:1152-1237). -/
def mainLoop (Q : Heap) (item1 item2 : List α) (c1 c2 : α → Nat) (d : α → α → Nat) :
    Nat → Vars Q → Out (List Direction)
  | 0, _ => .outOfFuel
  | fuel + 1, v =>
    let len1 := item1.length + 1
    match Q.pop v.heap with
    | none => .panic
    | some (s, heap) => do
      let v := { v with heap := heap }
      if s.index1 = 0 ∧ s.index2 = 0 then
        backtrack v.node len1 fuel 0 0 []
      else do
        let index := s.index1 + s.index2 * len1
        let n ← idx v.node index
        if n.done then
          mainLoop Q item1 item2 c1 c2 d fuel v
        else do
          let v := { v with node := v.node.set index { n with done := true } }
          let v ← stepVertical Q item2 len1 c2 s.index1 s.index2 v
          let v ← stepHorizontal Q item1 len1 c1 s.index1 s.index2 v
          let v ← stepDiagonal Q item1 item2 len1 c1 c2 d s.index1 s.index2 v
          mainLoop Q item1 item2 c1 c2 d fuel v

/-- `shortest_path` (main/src/print/mod.rs:1095-1238). -/
def shortestPath (Q : Heap) (item1 item2 : List α) (c1 c2 : α → Nat) (d : α → α → Nat)
    (fuel : Nat) : Out (List Direction) := do
  let len1 := item1.length + 1
  let len2 := item2.length + 1
  let len := len1 * len2
  let v : Vars Q :=
    { node := List.replicate len { cost := usizeMax, from_ := .none, done := false }
      heap := Q.empty }
  let v ← push Q v (len - 1) (len1 - 1) (len2 - 1) 0 .none
  mainLoop Q item1 item2 c1 c2 d fuel v

/-- The loop of `DiffState::list` (main/src/print/mod.rs:759-781): which items are shown as a
modification (`both`), a deletion (`left`) or an addition (`right`). -/
def listItems : List Direction → List α → List α → List (MergeResult α α)
  | [], _, _ => []
  | .none :: _, _, _ => []
  | .diagonal :: p, a :: l1, b :: l2 => .both a b :: listItems p l1 l2
  | .diagonal :: p, l1, l2 => listItems p l1.tail l2.tail
  | .horizontal :: p, a :: l1, l2 => .left a :: listItems p l1 l2
  | .horizontal :: p, [], l2 => listItems p [] l2
  | .vertical :: p, l1, b :: l2 => .right b :: listItems p l1 l2
  | .vertical :: p, l1, [] => listItems p l1 []

/-- `DiffState::list` (main/src/print/mod.rs:745-782) as the sequence of items it shows. -/
def diffList (Q : Heap) (listA listB : List α) (c1 c2 : α → Nat) (d : α → α → Nat)
    (fuel : Nat) : Out (List (MergeResult α α)) := do
  let path ← shortestPath Q listA listB c1 c2 d fuel
  .ok (listItems path listA listB)

end Verif.Path
