import Verif.Filter.Model
import Verif.Merge.Model
/-!
# Model of the id part of `main/src/print/file.rs`: assigning ids, resolving them

The id cell of an item (`set_id`/`id`, an `AtomicUsize` that starts at 0) is modelled as a map from
the position of the item in its file to the stored number. The comparison functions are parameters
(`Cmps`); `Verif.Order` models them. `CompUnit` positions are list indices.
-/
namespace Verif.Ids
open Verif.Item Verif.Opts Verif.Types Verif.Filter Verif.Merge

/-- `Id` (main/src/print/mod.rs:50-68). -/
inductive Id
  | none
  | unit (u : Nat)
  | type (u t : Nat)
  | function (u f : Nat)
  | var (u v : Nat)
deriving DecidableEq, Repr

/-- The vector `ids` and the id cells of the file's items. -/
structure Assigned where
  ids : List Id := []
  store : Id → Nat := fun _ => 0

/-- `item.set_id(ids.len()); ids.push(id)` (main/src/print/file.rs:16-17, 25-29, 32-36, 39-43). -/
def Assigned.record (s : Assigned) (i : Id) : Assigned :=
  ⟨s.ids ++ [i], fun k => if k = i then s.ids.length else s.store k⟩

/-- A loop `for (index, item) in list.iter().enumerate()` that records one id per item
(main/src/print/file.rs:24-30, 31-37, 38-44). -/
def recordAll {α : Type} (mk : Nat → Id) (l : List α) (s : Assigned) : Assigned :=
  l.zipIdx.foldl (fun s x => s.record (mk x.2)) s

/-- `assign_ids_in_unit` (main/src/print/file.rs:23-45). -/
def assignInUnit (ui : Nat) (u : CompUnit) (s : Assigned) : Assigned :=
  let s := recordAll (Id.type ui) u.types s
  let s := recordAll (Id.function ui) u.functions s
  recordAll (Id.var ui) u.variables s

/-- `assign_ids` (main/src/print/file.rs:13-21), called by `print_index` (326-329). -/
def assignIds (us : List CompUnit) : Assigned :=
  us.zipIdx.foldl (fun s x => assignInUnit x.2 x.1 (s.record (.unit x.2))) {}

/-- `print_parent` (main/src/print/file.rs:371-382). -/
def printParent (us : List CompUnit) (s : Assigned) (n : Nat) : Option Nat :=
  match s.ids[n]? with
  | some (.type u _) | some (.function u _) | some (.var u _) =>
    (us[u]?).map fun _ => s.store (.unit u)
  | _ => .none

/-- What a request for one id displays. -/
inductive Shown
  | unit (u : CompUnit)
  | type (u : CompUnit) (t : TypeEntry)
  | function (u : CompUnit) (f : Function)
  | code (f : Function)
  | var (u : CompUnit) (v : Variable)
deriving DecidableEq, Repr

/-- `print::types::kind` succeeds (main/src/print/types.rs:12-27). -/
def printable : Ty → Bool
  | .base .. | .def_ .. | .struct_ .. | .union_ .. | .enum_ .. => true
  | _ => false

/-- `print_id` (main/src/print/file.rs:384-444): what is displayed, `none` for nothing. `detail` is
the further path segment. -/
def printId (us : List CompUnit) (ids : List Id) (n : Nat) (detail : Option Str) : Option Shown := do
  match ← ids[n]? with
  | .unit u => pure (.unit (← us[u]?))
  | .type u t =>
    let unit ← us[u]?
    let ty ← unit.types[t]?
    if printable ty.kind then pure (.type unit ty) else .none
  | .function u f =>
    let unit ← us[u]?
    let f ← unit.functions[f]?
    match detail with
    | .none => pure (.function unit f)
    | some d => if d = Str.ofString "code" then pure (.code f) else .none
  | .var u v =>
    let unit ← us[u]?
    pure (.var unit (← unit.variables[v]?))
  | .none => .none

/-! ### Two files -/

/-- One item of one of the two files: `inl` old, `inr` new. -/
abbrev Sided (α : Type) := α ⊕ α

/-- The comparison functions (`SortList::cmp_id`, `cmp_id_for_sort`) with the file hash and the
options already applied. -/
structure Cmps where
  unit : Sided CompUnit → Sided CompUnit → Ordering
  typeSort : Sided TypeEntry → Sided TypeEntry → Ordering
  type : Sided TypeEntry → Sided TypeEntry → Ordering
  functionSort : Sided Function → Sided Function → Ordering
  function : Sided Function → Sided Function → Ordering
  varSort : Sided Variable → Sided Variable → Ordering
  var : Sided Variable → Sided Variable → Ordering

/-- Sort both numbered lists and merge them (main/src/print/file.rs:52-58, 153-159, 199-207,
258-264). -/
def mergeIdx {α : Type} (cmpSort cmp : Sided α → Sided α → Ordering) (la lb : List (Nat × α)) :
    List (MergeResult (Nat × α) (Nat × α)) :=
  mergeSorted cmpSort cmp (fun x => .inl x.2) (fun x => .inr x.2) la lb (la.length + lb.length)

/-- The pair pushed for one merge result (main/src/print/file.rs:61-93, 161-196, 220-255,
266-301). -/
def pairIds {α : Type} (mkA mkB : Nat → Id) : MergeResult (Nat × α) (Nat × α) → Id × Id
  | .both a b => (mkA a.1, mkB b.1)
  | .left a => (mkA a.1, .none)
  | .right b => (.none, mkB b.1)

/-- `inline` of main/src/print/file.rs:208-212 (and main/src/print/unit.rs:47-51). -/
def isInlined (a b : Function → Bool) : MergeResult (Nat × Function) (Nat × Function) → Bool
  | .both x y => a x.2 || b y.2
  | .left x => a x.2
  | .right y => b y.2

/-- The ids pushed by `assign_merged_ids_in_unit` (main/src/print/file.rs:143-303). -/
def mergedInUnit (c : Cmps) (o : Options) (ha hb : Hash) (ia ib : Nat) (ua ub : CompUnit) :
    List (Id × Id) :=
  let types := mergeIdx c.typeSort c.type (enumFilterTypes ha ua o true) (enumFilterTypes hb ub o true)
  let fns := mergeIdx c.functionSort c.function (enumFilterFunctions ua o) (enumFilterFunctions ub o)
  let inlined := isInlined (fun f => f.size.isNone) (fun f => f.size.isNone)
  let vars := mergeIdx c.varSort c.var (enumFilterVariables ua o) (enumFilterVariables ub o)
  types.map (pairIds (.type ia) (.type ib)) ++
    (fns.filter (fun f => !inlined f) ++ fns.filter inlined).map (pairIds (.function ia) (.function ib)) ++
    vars.map (pairIds (.var ia) (.var ib))

/-- The ids pushed by `assign_unmerged_ids_in_unit` (main/src/print/file.rs:98-141). -/
def unmergedInUnit (i : Nat) (u : CompUnit) (left : Bool) : List (Id × Id) :=
  ((List.range u.types.length).map (Id.type i) ++ (List.range u.functions.length).map (Id.function i) ++
    (List.range u.variables.length).map (Id.var i)).map fun id =>
      if left then (id, .none) else (.none, id)

/-- The ids pushed by one iteration of main/src/print/file.rs:59-94. -/
def mergedUnit (c : Cmps) (o : Options) (ha hb : Hash) :
    MergeResult (Nat × CompUnit) (Nat × CompUnit) → List (Id × Id)
  | .both (ia, ua) (ib, ub) => (.unit ia, .unit ib) :: mergedInUnit c o ha hb ia ib ua ub
  | .left (i, u) => (.unit i, .none) :: unmergedInUnit i u true
  | .right (i, u) => (.none, .unit i) :: unmergedInUnit i u false

/-- All ids pushed by `assign_merged_ids` (main/src/print/file.rs:47-96), called by `diff_index`
(450-453). -/
def mergedIds (c : Cmps) (o : Options) (ha hb : Hash) (a b : List CompUnit) : List (Id × Id) :=
  (mergeIdx c.unit c.unit (enumFilterUnits a o) (enumFilterUnits b o)).flatMap (mergedUnit c o ha hb)

/-- The vector of pairs and the id cells of both files. -/
structure AssignedPair where
  ids : List (Id × Id) := []
  storeA : Id → Nat := fun _ => 0
  storeB : Id → Nat := fun _ => 0

/-- `a.set_id(ids.len()); b.set_id(ids.len()); ids.push(..)`
(main/src/print/file.rs:62-71, 84-85, 89-90 and the like): a side that is absent is not set. -/
def AssignedPair.record (s : AssignedPair) (i : Id × Id) : AssignedPair where
  ids := s.ids ++ [i]
  storeA := fun k => if k ≠ .none ∧ k = i.1 then s.ids.length else s.storeA k
  storeB := fun k => if k ≠ .none ∧ k = i.2 then s.ids.length else s.storeB k

/-- `assign_merged_ids` (main/src/print/file.rs:47-96): the pushes of `mergedIds`, each with its
`set_id`s. -/
def assignMerged (c : Cmps) (o : Options) (ha hb : Hash) (a b : List CompUnit) : AssignedPair :=
  (mergedIds c o ha hb a b).foldl AssignedPair.record {}

/-- What `diff_id` does. -/
inductive DiffShown
  | diff (a b : Shown)
  | onlyA (a : Shown)
  | onlyB (b : Shown)
  | nothing
  | panic
deriving DecidableEq, Repr

/-- `print::types::diff_body` succeeds in starting a body (main/src/print/types.rs:216-232). -/
def diffable : Ty → Ty → Bool
  | .base .., .base .. | .def_ .., .def_ .. | .struct_ .., .struct_ .. | .union_ .., .union_ ..
  | .enum_ .., .enum_ .. => true
  | _, _ => false

/-- Looking up the item at a position (the `get`s of main/src/print/file.rs:538-739). -/
def item (us : List CompUnit) : Id → Option Shown
  | .none => .none
  | .unit u => (us[u]?).map .unit
  | .type u t => do let unit ← us[u]?; pure (.type unit (← unit.types[t]?))
  | .function u f => do let unit ← us[u]?; pure (.function unit (← unit.functions[f]?))
  | .var u v => do let unit ← us[u]?; pure (.var unit (← unit.variables[v]?))

/-- Printing one item on its own (main/src/print/file.rs:554-567, 596-627, 656-683, 712-739): only
types can fail. -/
def canPrint : Shown → Bool
  | .type _ t => printable t.kind
  | _ => true

/-- Diffing two items (main/src/print/file.rs:530-553, 568-595, 628-655, 684-711). -/
def canDiff : Shown → Shown → Bool
  | .unit _, .unit _ => true
  | .type _ a, .type _ b => diffable a.kind b.kind
  | .function .., .function .. => true
  | .var .., .var .. => true
  | _, _ => false

/-- `diff_id` (main/src/print/file.rs:520-742). -/
def diffId (a b : List CompUnit) (ids : List (Id × Id)) (n : Nat) : DiffShown :=
  match ids[n]? with
  | .none => .panic
  | some (ia, ib) =>
    match ia, ib with
    | .none, .none => .nothing
    | ia, .none =>
      match item a ia with
      | some x => if canPrint x then .onlyA x else .nothing
      | .none => .nothing
    | .none, ib =>
      match item b ib with
      | some x => if canPrint x then .onlyB x else .nothing
      | .none => .nothing
    | ia, ib =>
      match item a ia, item b ib with
      | some x, some y => if canDiff x y then .diff x y else .nothing
      | _, _ => .nothing

end Verif.Ids
