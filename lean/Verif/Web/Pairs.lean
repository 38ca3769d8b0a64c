import Verif.Web.DiffModel
import Verif.Ids.Props
import Verif.Merge.Lemmas
import Verif.Show.FileItems
/-!
# The pairs on the page of a diff are the pairs of its index
-/
namespace Verif.Web
open Verif.Item Verif.Opts Verif.Show Verif.Ids Verif.Types Verif.Order Verif.Merge Verif.Filter

/-- A merge result without positions. -/
def bare : MergeResult (Nat × α) (Nat × α) → MergeResult α α
  | .left a => .left a.2
  | .right b => .right b.2
  | .both a b => .both a.2 b.2

theorem insertBy_map (f : α → β) (le : β → β → Bool) (x : α) (l : List α) :
    (insertBy (fun a b => le (f a) (f b)) x l).map f = insertBy le (f x) (l.map f) := by
  induction l with
  | nil => rfl
  | cons y l ih =>
    simp only [insertBy, List.map_cons]
    split
    · rfl
    · rw [List.map_cons, ih]

theorem stableSort_map (f : α → β) (le : β → β → Bool) (l : List α) :
    (stableSort (fun a b => le (f a) (f b)) l).map f = stableSort le (l.map f) := by
  induction l with
  | nil => rfl
  | cons x l ih => rw [stableSort, insertBy_map, ih]; rfl

theorem merged_bare (cmp : α → α → Ordering) (l r : List (Nat × α)) (n : Nat) :
    (merged (fun x y => cmp x.2 y.2) l r n).map bare = merged cmp (l.map (·.2)) (r.map (·.2)) n := by
  induction n generalizing l r with
  | zero => simp [merged_zero]
  | succ n ih =>
    cases l with
    | nil =>
      cases r with
      | nil => simp [merged_nil_nil]
      | cons b r =>
        have := ih [] r
        simp only [List.map_cons, List.map_nil] at this ⊢
        rw [merged_nil_cons, merged_nil_cons, List.map_cons, this]; rfl
    | cons a l =>
      cases r with
      | nil =>
        have := ih l []
        simp only [List.map_cons, List.map_nil] at this ⊢
        rw [merged_cons_nil, merged_cons_nil, List.map_cons, this]; rfl
      | cons b r =>
        have h1 := ih l r
        have h2 := ih l (b :: r)
        have h3 := ih (a :: l) r
        simp only [List.map_cons] at h1 h2 h3 ⊢
        rw [merged_cons_cons, merged_cons_cons]
        cases cmp a.2 b.2
        · simp only [List.map_cons, h2]; rfl
        · simp only [List.map_cons, h1]; rfl
        · simp only [List.map_cons, h3]; rfl

theorem enumFilter_map {α : Type} (p : α → Bool) (l : List α) : (enumFilter p l).map (·.2) = l.filter p := by
  unfold enumFilter
  have : ∀ k, (((l.zipIdx k).map fun (a, i) => (i, a)).filter (fun a => p a.2)).map (·.2) = l.filter p := by
    induction l with
    | nil => intro k; rfl
    | cons x l ih =>
      intro k
      simp only [List.zipIdx_cons, List.map_cons, List.filter_cons]
      split
      · simp only [List.map_cons, ih]
      · exact ih _
  exact this 0

theorem theOrd_ne (r : Res Ordering) : (r != .ok .gt) = (theOrd r != .gt) := by
  cases r with
  | ok o => cases o <;> rfl
  | _ => rfl

/-- Sorting and merging with and without positions. -/
theorem mergeIdx_bare {rs : Sided α → Sided α → Res Ordering} {rc : α → α → Res Ordering} {c cs : Sided α → Sided α → Ordering}
    {la lb : List (Nat × α)} {sa sb : List α} {m : List (MergeResult α α)}
    (hs : ∀ x y, cs x y = theOrd (rs x y)) (hc : ∀ x y : α, c (.inl x) (.inr y) = theOrd (rc x y))
    (h1 : sortWith (fun x y => rs (.inl x) (.inl y)) (la.map (·.2)) = some sa)
    (h2 : sortWith (fun x y => rs (.inr x) (.inr y)) (lb.map (·.2)) = some sb)
    (h3 : mergeWith rc sa sb = some m) : (mergeIdx cs c la lb).map bare = m := by
  unfold sortWith at h1 h2
  unfold mergeWith at h3
  split at h1
  · split at h2
    · split at h3
      · simp only [Option.some.injEq] at h1 h2 h3
        rw [← h3, mergeIdx, mergeSorted]
        simp only [hc, hs]
        have e1 := stableSort_map (α := Nat × α) (·.2) (fun x y : α => theOrd (rs (.inl x) (.inl y)) != .gt) la
        have e2 := stableSort_map (α := Nat × α) (·.2) (fun x y : α => theOrd (rs (.inr x) (.inr y)) != .gt) lb
        rw [merged_bare (fun x y => theOrd (rc x y)), e1, e2]
        simp only [theOrd_ne] at h1 h2
        rw [h1, h2, ← h1, ← h2]
        simp
      · cases h3
    · cases h2
  · cases h1

variable {o : Options} {c : FilePair} {n : Nat}

theorem pairs_units {m : List (MergeResult CompUnit CompUnit)}
    (h : mergedUnits o (filterUnits c.a.file.units o) (filterUnits c.b.file.units o) = some m) (cm : Cmps)
    (hcm : cm = realCmps o n c.a.hash c.b.hash) :
    (unitMerge cm o c.a.file.units c.b.file.units).map bare = m := by
  simp only [mergedUnits, Option.bind_eq_bind, Option.bind_eq_some_iff] at h
  obtain ⟨sa, h1, sb, h2, h3⟩ := h
  subst hcm
  exact mergeIdx_bare (rs := fun x y => .ok (unitCmpId o (sideItem x) (sideItem y))) (fun x y => rfl) (fun x y => rfl)
    (by rw [enumFilterUnits, enumFilter_map]; exact h1) (by rw [enumFilterUnits, enumFilter_map]; exact h2) h3

theorem pairs_types {u v : CompUnit} {m : List (MergeResult TypeEntry TypeEntry)}
    (h : mergedTypes n c.a.hash (filterTypes c.a.hash u o true) c.b.hash (filterTypes c.b.hash v o true) = some m) (cm : Cmps)
    (hcm : cm = realCmps o n c.a.hash c.b.hash) :
    (mergeIdx cm.typeSort cm.type (enumFilterTypes c.a.hash u o true) (enumFilterTypes c.b.hash v o true)).map bare = m := by
  simp only [mergedTypes, Option.bind_eq_bind, Option.bind_eq_some_iff] at h
  obtain ⟨sa, h1, sb, h2, h3⟩ := h
  subst hcm
  exact mergeIdx_bare (rs := fun x y => cmpId false n (sideHash c.a.hash c.b.hash x) (sideItem x).kind
      (sideHash c.a.hash c.b.hash y) (sideItem y).kind) (fun x y => rfl) (fun x y => rfl)
    (by rw [enumFilterTypes, enumFilter_map]; exact h1) (by rw [enumFilterTypes, enumFilter_map]; exact h2) h3

theorem pairs_functions {u v : CompUnit} {m : List (MergeResult Function Function)}
    (h : mergedFunctionsAll n c.a.hash (filterFunctions u o) c.b.hash (filterFunctions v o) = some m) (cm : Cmps)
    (hcm : cm = realCmps o n c.a.hash c.b.hash) :
    (mergeIdx cm.functionSort cm.function (enumFilterFunctions u o) (enumFilterFunctions v o)).map bare = m := by
  simp only [mergedFunctionsAll, Option.bind_eq_bind, Option.bind_eq_some_iff] at h
  obtain ⟨sa, h1, sb, h2, h3⟩ := h
  subst hcm
  exact mergeIdx_bare (rs := fun x y => functionCmpIdForSort n (sideItem x) (sideHash c.a.hash c.b.hash x) (sideItem y)
      (sideHash c.a.hash c.b.hash y)) (fun x y => rfl) (fun x y => rfl)
    (by rw [enumFilterFunctions, enumFilter_map]; exact h1) (by rw [enumFilterFunctions, enumFilter_map]; exact h2) h3

theorem pairs_variables {u v : CompUnit} {m : List (MergeResult Item.Variable Item.Variable)}
    (h : mergedVariables (filterVariables u o) (filterVariables v o) = some m) (cm : Cmps)
    (hcm : cm = realCmps o n c.a.hash c.b.hash) :
    (mergeIdx cm.varSort cm.var (enumFilterVariables u o) (enumFilterVariables v o)).map bare = m := by
  simp only [mergedVariables, Option.bind_eq_bind, Option.bind_eq_some_iff] at h
  obtain ⟨sa, h1, sb, h2, h3⟩ := h
  subst hcm
  exact mergeIdx_bare (rs := fun x y => .ok (variableCmpId (sideItem x) (sideItem y))) (fun x y => rfl) (fun x y => rfl)
    (by rw [enumFilterVariables, enumFilter_map]; exact h1) (by rw [enumFilterVariables, enumFilter_map]; exact h2) h3

end Verif.Web
