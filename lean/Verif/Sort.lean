import Verif.Base
/-!
# Sorting without duplicates, and lexicographic comparison

`slice::sort_unstable` followed by `Vec::dedup`, for element types whose `Ord` is a total order
consistent with `Eq`. For such an order an unstable sort has only one possible result.
-/
namespace Verif

/-- `Vec::dedup` (library; called at main/src/print/function.rs:638,
main/src/print/frame_location.rs:13, 30, 32): drop elements equal to the element kept before. -/
def dedup [DecidableEq α] : List α → List α
  | [] => []
  | [x] => [x]
  | x :: y :: l => if x = y then dedup (y :: l) else x :: dedup (y :: l)

/-- `sort_unstable(); dedup()` (main/src/print/function.rs:637-638,
main/src/print/frame_location.rs:12-13, 29-32). Simplification: the stable sort stands for the
unstable one; `sortDedup_unique` shows the result does not depend on the algorithm. -/
def sortDedup [DecidableEq α] (cmp : α → α → Ordering) (l : List α) : List α :=
  dedup (stableSort (fun a b => cmp a b != .gt) l)

/-- Comparison of `Option<_>` sentinels with `None` encoded as the largest number
(`Size`, `TypeOffset`: derived `Ord` on the raw value, parser/src/lib.rs:173,
parser/src/types.rs:60). -/
def cmpNoneLast : Option Nat → Option Nat → Ordering
  | none, none => .eq
  | none, some _ => .gt
  | some _, none => .lt
  | some a, some b => compare a b

instance : Std.OrientedCmp cmpNoneLast where
  eq_swap := by
    intro a b
    cases a <;> cases b <;> simp only [cmpNoneLast, Ordering.swap]
    exact Std.OrientedOrd.eq_swap

instance : Std.TransCmp cmpNoneLast where
  isLE_trans := by
    intro a b c
    cases a <;> cases b <;> cases c <;> simp only [cmpNoneLast] <;> try simp
    exact Std.TransOrd.isLE_trans

instance : Std.LawfulEqCmp cmpNoneLast where
  eq_of_compare := by
    intro a b h
    cases a <;> cases b <;> simp [cmpNoneLast] at h ⊢
    exact h
  compare_self := by intro a; cases a <;> simp [cmpNoneLast]

/-- `a.x.cmp(&b.x).then_with(|| ...)`: the comparison by two keys of a total order is a total
order on pairs. -/
theorem transCmp_then {α : Type u} (f g : α → α → Ordering) [Std.TransCmp f] [Std.TransCmp g] :
    Std.TransCmp (fun a b => (f a b).then (g a b)) :=
  (inferInstance : Std.TransCmp (compareLex f g))

theorem transCmp_on {α : Type u} {β : Type v} (f : β → β → Ordering) [Std.TransCmp f] (k : α → β) :
    Std.TransCmp (fun a b => f (k a) (k b)) where
  eq_swap := Std.OrientedCmp.eq_swap
  isLE_trans := Std.TransCmp.isLE_trans

section
variable [DecidableEq α]

@[simp] theorem mem_dedup (l : List α) (x : α) : x ∈ dedup l ↔ x ∈ l := by
  fun_induction dedup l with
  | case1 => rfl
  | case2 => rfl
  | case3 l y ih => rw [ih]; simp
  | case4 y z l h ih => simp only [List.mem_cons, ih]

theorem head_dedup (x : α) (l : List α) : ∃ t, dedup (x :: l) = x :: t := by
  induction l generalizing x with
  | nil => exact ⟨[], rfl⟩
  | cons y l ih =>
    simp only [dedup]
    split
    · rename_i h; subst h; exact ih x
    · exact ⟨_, rfl⟩

variable {cmp : α → α → Ordering} [Std.TransCmp cmp] [Std.LawfulEqCmp cmp]

theorem totalPreorder_cmp : TotalPreorder (fun a b => cmp a b != .gt) where
  total a b := by
    rw [Std.OrientedCmp.eq_swap (cmp := cmp) (a := b) (b := a)]
    cases cmp a b <;> simp
  trans a b c h1 h2 := by
    have h1' : (cmp a b).isLE := by cases h : cmp a b <;> simp_all
    have h2' : (cmp b c).isLE := by cases h : cmp b c <;> simp_all
    have := Std.TransCmp.isLE_trans h1' h2'
    cases h : cmp a c <;> simp_all

/-- The result is strictly increasing and has the same elements. -/
theorem dedup_strict (l : List α) (hl : l.Pairwise (fun a b => (cmp a b != .gt) = true)) :
    (dedup l).Pairwise (fun a b => cmp a b = .lt) := by
  fun_induction dedup l with
  | case1 => simp
  | case2 => simp
  | case3 l y ih => exact ih (List.pairwise_cons.1 hl).2
  | case4 x y l h ih =>
    obtain ⟨h1, h2⟩ := List.pairwise_cons.1 hl
    refine List.pairwise_cons.2 ⟨fun z hz => ?_, ih h2⟩
    rw [mem_dedup] at hz
    have hxy : cmp x y = .lt := by
      have := h1 y (by simp)
      cases hc : cmp x y with
      | lt => rfl
      | eq => exact absurd (Std.LawfulEqCmp.eq_of_compare hc) h
      | gt => rw [hc] at this; cases this
    rcases List.mem_cons.1 hz with rfl | hz
    · exact hxy
    · have := (List.pairwise_cons.1 h2).1 z hz
      refine Std.TransCmp.lt_of_lt_of_isLE hxy ?_
      cases hc : cmp y z <;> simp_all

theorem mem_sortDedup (l : List α) (x : α) : x ∈ sortDedup cmp l ↔ x ∈ l := by
  simp [sortDedup]

theorem sortDedup_strict (l : List α) : (sortDedup cmp l).Pairwise (fun a b => cmp a b = .lt) :=
  dedup_strict _ (stableSort_sorted totalPreorder_cmp l)

/-- A strictly increasing list is determined by its elements. -/
theorem strict_unique (l l' : List α) (h : l.Pairwise (fun a b => cmp a b = .lt))
    (h' : l'.Pairwise (fun a b => cmp a b = .lt)) (hm : ∀ x, x ∈ l ↔ x ∈ l') : l = l' := by
  induction l generalizing l' with
  | nil =>
    cases l' with
    | nil => rfl
    | cons y l' => exact absurd ((hm y).2 (by simp)) (by simp)
  | cons x l ih =>
    cases l' with
    | nil => exact absurd ((hm x).1 (by simp)) (by simp)
    | cons y l' =>
      rw [List.pairwise_cons] at h h'
      have irr : ∀ a, cmp a a ≠ .lt := fun a e => by rw [Std.ReflCmp.compare_self (cmp := cmp)] at e; cases e
      have hxy : x = y := by
        rcases List.mem_cons.1 ((hm x).1 (by simp)) with e | h1
        · exact e
        · rcases List.mem_cons.1 ((hm y).2 (by simp)) with e | h2
          · exact e.symm
          · have a1 := h'.1 x h1
            have a2 := h.1 y h2
            exact absurd (Std.TransCmp.lt_trans a1 a2) (irr y)
      subst hxy
      congr 1
      refine ih l' h.2 h'.2 fun z => ?_
      have hz := hm z
      simp only [List.mem_cons] at hz
      constructor
      · intro h3
        rcases hz.1 (.inr h3) with e | h4
        · subst e; exact absurd (h.1 z h3) (irr z)
        · exact h4
      · intro h3
        rcases hz.2 (.inr h3) with e | h4
        · subst e; exact absurd (h'.1 z h3) (irr z)
        · exact h4

/-- Whatever sorting algorithm is used: any sorted rearrangement gives the same list after
`dedup`. -/
theorem sortDedup_unique (l l' : List α) (hp : l'.Perm l)
    (hs : l'.Pairwise (fun a b => (cmp a b != .gt) = true)) : dedup l' = sortDedup cmp l :=
  strict_unique (cmp := cmp) _ _ (dedup_strict _ hs) (sortDedup_strict l) fun x => by
    rw [mem_dedup, mem_sortDedup, hp.mem_iff]

theorem sortDedup_congr (l l' : List α) (h : ∀ x, x ∈ l ↔ x ∈ l') : sortDedup cmp l = sortDedup cmp l' :=
  strict_unique (cmp := cmp) _ _ (sortDedup_strict l) (sortDedup_strict l') fun x => by
    rw [mem_sortDedup, mem_sortDedup, h]

theorem sortDedup_nodup (l : List α) : (sortDedup cmp l).Nodup :=
  (sortDedup_strict (cmp := cmp) l).imp fun {a b} h e => by
    subst e; rw [Std.ReflCmp.compare_self (cmp := cmp)] at h; cases h

end
end Verif
