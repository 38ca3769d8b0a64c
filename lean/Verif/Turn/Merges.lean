import Verif.Show.Align
import Verif.Show.FileLemmas
import Verif.Types.Props
import Verif.Order.Props
/-!
# C104: merges the other way round
-/
namespace Verif.Turn
open Verif.Print Verif.Item Verif.Namespace Verif.Types Verif.Layout Verif.Path Verif.Opts Verif.Merge Verif.Range
  Verif.File Verif.Show Verif.Order Verif.Namespace.Namespace

/-- The iterator with its two sides exchanged. -/
def turnIt (s : MergeIterator α α) : MergeIterator α α := ⟨s.iterRight, s.iterLeft, s.itemRight, s.itemLeft⟩

theorem next_turn {cmp cmp' : α → α → Ordering} (h : ∀ a b, cmp' b a = (cmp a b).swap) (s : MergeIterator α α) :
    (turnIt s).next cmp' = (s.next cmp).map fun p => (flipItem p.1, turnIt p.2) := by
  obtain ⟨l, r, a, b⟩ := s
  cases a with
  | none => cases b <;> rfl
  | some a =>
    cases b with
    | none => rfl
    | some b =>
      simp only [turnIt, MergeIterator.next, h]
      cases cmp a b <;> rfl

theorem take_turn {cmp cmp' : α → α → Ordering} (h : ∀ a b, cmp' b a = (cmp a b).swap) (n : Nat) :
    ∀ s : MergeIterator α α, (turnIt s).take cmp' n = (s.take cmp n).map flipItem := by
  induction n with
  | zero => intro s; rfl
  | succ n ih =>
    intro s
    simp only [MergeIterator.take, next_turn h s]
    cases s.next cmp with
    | none => rfl
    | some p => simp only [Option.map_some, List.map_cons, ih]

/-- Merging the other way round yields the same items, the other way round. -/
theorem merged_turn {cmp cmp' : α → α → Ordering} (h : ∀ a b, cmp' b a = (cmp a b).swap) (l r : List α) (n : Nat) :
    merged cmp' r l n = (merged cmp l r n).map flipItem := take_turn h n (MergeIterator.new l r)

/-- The answer to the question asked the other way round. -/
def back : Res Ordering → Res Ordering
  | .ok o => .ok o.swap
  | .diverge => .diverge
  | .panic => .panic

theorem theOrd_back (r : Res Ordering) : theOrd (back r) = (theOrd r).swap := by cases r <;> rfl

theorem mergeWith_turn {r r' : α → α → Res Ordering} (h : ∀ a b, r' b a = back (r a b)) (l l' : List α) :
    mergeWith r' l' l = (mergeWith r l l').map (·.map flipItem) := by
  have hc : (l'.all fun y => l.all fun x => r' y x != .diverge && r' y x != .panic) =
      (l.all fun x => l'.all fun y => r x y != .diverge && r x y != .panic) := by
    have e : ∀ x y, (r' y x != .diverge && r' y x != .panic) = (r x y != .diverge && r x y != .panic) := by
      intro x y
      rw [h]
      cases r x y <;> rfl
    rw [Bool.eq_iff_iff]
    simp only [List.all_eq_true, e]
    exact ⟨fun g x hx y hy => g y hy x hx, fun g y hy x hx => g x hx y hy⟩
  unfold mergeWith
  rw [hc]
  split
  · rw [Option.map_some, Nat.add_comm l'.length, merged_turn (cmp := fun x y => theOrd (r x y))]
    intro a b
    rw [h, theOrd_back]
  · rfl

theorem mergedTypes_turn (n : Nat) (ha : Hash) (la : List TypeEntry) (hb : Hash) (lb : List TypeEntry) :
    mergedTypes n hb lb ha la = (mergedTypes n ha la hb lb).map (·.map flipItem) := by
  unfold mergedTypes
  cases h1 : sortWith (fun x y : TypeEntry => cmpId false n ha x.kind ha y.kind) la with
  | none => cases h2 : sortWith (fun x y : TypeEntry => cmpId false n hb x.kind hb y.kind) lb <;> rfl
  | some sa =>
    cases h2 : sortWith (fun x y : TypeEntry => cmpId false n hb x.kind hb y.kind) lb with
    | none => rfl
    | some sb =>
      refine mergeWith_turn (fun a b => ?_) sa sb
      rw [C10_cmpId_swap]
      rfl

theorem nsName_swap (a b : Option Namespace × Option Str) :
    cmpNsAndName b.1 b.2 a.1 a.2 = (cmpNsAndName a.1 a.2 b.1 b.2).swap :=
  (C09_cmpNsAndName_laws a b b).1

theorem mergedFunctionsAll_turn (n : Nat) (ha : Hash) (la : List Function) (hb : Hash) (lb : List Function) :
    mergedFunctionsAll n hb lb ha la = (mergedFunctionsAll n ha la hb lb).map (·.map flipItem) := by
  unfold mergedFunctionsAll
  cases h1 : sortWith (fun x y => functionCmpIdForSort n x ha y ha) la with
  | none => cases h2 : sortWith (fun x y => functionCmpIdForSort n x hb y hb) lb <;> rfl
  | some sa =>
    cases h2 : sortWith (fun x y => functionCmpIdForSort n x hb y hb) lb with
    | none => rfl
    | some sb =>
      refine mergeWith_turn (fun a b => ?_) sa sb
      exact congrArg Res.ok (nsName_swap (a.ns, a.name) (b.ns, b.name))

theorem mergedInline_flip (x : MergeResult Function Function) : mergedInline (flipItem x) = mergedInline x := by
  cases x <;> simp only [flipItem, mergedInline]
  exact Bool.or_comm _ _

theorem mergedFunctions_turn (n : Nat) (ha : Hash) (la : List Function) (hb : Hash) (lb : List Function) :
    mergedFunctions n hb lb ha la = (mergedFunctions n ha la hb lb).map fun m => (m.1.map flipItem, m.2.map flipItem) := by
  unfold mergedFunctions
  rw [mergedFunctionsAll_turn n ha la hb lb]
  cases mergedFunctionsAll n ha la hb lb with
  | none => rfl
  | some m =>
    simp only [Option.map_some, Option.bind_eq_bind, Option.bind_some, Option.pure_def, List.filter_map, Function.comp_def, mergedInline_flip]

theorem mergedVariables_turn (la lb : List Variable) :
    mergedVariables lb la = (mergedVariables la lb).map (·.map flipItem) := by
  unfold mergedVariables
  cases h1 : sortWith (fun x y => .ok (variableCmpId x y)) la with
  | none => cases h2 : sortWith (fun x y => .ok (variableCmpId x y)) lb <;> rfl
  | some sa =>
    cases h2 : sortWith (fun x y => .ok (variableCmpId x y)) lb with
    | none => rfl
    | some sb =>
      refine mergeWith_turn (fun a b => ?_) sa sb
      exact congrArg Res.ok (nsName_swap (a.ns, a.name) (b.ns, b.name))

theorem mergedUnits_turn (o : Options) (la lb : List CompUnit) :
    mergedUnits o lb la = (mergedUnits o la lb).map (·.map flipItem) := by
  unfold mergedUnits
  cases h1 : sortWith (fun x y => .ok (unitCmpId o x y)) la with
  | none => cases h2 : sortWith (fun x y => .ok (unitCmpId o x y)) lb <;> rfl
  | some sa =>
    cases h2 : sortWith (fun x y => .ok (unitCmpId o x y)) lb with
    | none => rfl
    | some sb =>
      refine mergeWith_turn (fun a b => ?_) sa sb
      exact congrArg Res.ok (Std.OrientedCmp.eq_swap (cmp := compare) (a := unitKey o b) (b := unitKey o a))

theorem cmpRange_turn (a b : Range) : cmpRange b a = (cmpRange a b).swap := by
  unfold cmpRange
  rw [Ordering.swap_then, Nat.compare_swap, Nat.compare_swap]

end Verif.Turn
