/-!
# Shared vocabulary

Library behaviour of Rust's `std` that several modelled functions rely on:
stable sorting of slices (`slice::sort_by`, `slice::sort_by_key`).
-/

namespace Verif

/-- Insert `x` before the first element `y` with `le x y`.
Helper of `stableSort`. -/
def insertBy {α : Type u} (le : α → α → Bool) (x : α) : List α → List α
  | [] => [x]
  | y :: ys => if le x y then x :: y :: ys else y :: insertBy le x ys

/-- Rust's `slice::sort_by` / `sort_by_key` (e.g. `parser/src/range.rs:85`,
`main/src/print/mod.rs:350`): a *stable* sort. Simplification: insertion sort; a stable
sort under a total preorder has only one possible result (`stableSort_unique`), so the
algorithm does not matter. `le a b` is `cmp(a,b) != Greater`. -/
def stableSort {α : Type u} (le : α → α → Bool) : List α → List α
  | [] => []
  | x :: xs => insertBy le x (stableSort le xs)

section
variable {α : Type u} (le : α → α → Bool)

theorem insertBy_perm (x : α) (l : List α) : (insertBy le x l).Perm (x :: l) := by
  induction l with
  | nil => simp [insertBy]
  | cons y ys ih =>
    simp only [insertBy]
    split
    · exact List.Perm.refl _
    · exact (List.Perm.cons y ih).trans (List.Perm.swap x y ys)

theorem stableSort_perm (l : List α) : (stableSort le l).Perm l := by
  induction l with
  | nil => simp [stableSort]
  | cons x xs ih => exact (insertBy_perm le x _).trans (List.Perm.cons x ih)

@[simp] theorem mem_stableSort {l : List α} {x : α} : x ∈ stableSort le l ↔ x ∈ l :=
  (stableSort_perm le l).mem_iff

@[simp] theorem length_stableSort {l : List α} : (stableSort le l).length = l.length :=
  (stableSort_perm le l).length_eq

/-- `le` is the decision procedure of a total preorder. -/
structure TotalPreorder : Prop where
  total : ∀ a b, le a b = true ∨ le b a = true
  trans : ∀ a b c, le a b = true → le b c = true → le a c = true

variable {le}

theorem TotalPreorder.refl (h : TotalPreorder le) (a : α) : le a a = true := by
  rcases h.total a a with h | h <;> exact h

theorem insertBy_sorted (h : TotalPreorder le) (x : α) (l : List α)
    (hl : l.Pairwise (fun a b => le a b = true)) :
    (insertBy le x l).Pairwise (fun a b => le a b = true) := by
  induction l with
  | nil => simp [insertBy]
  | cons y ys ih =>
    simp only [insertBy]
    rw [List.pairwise_cons] at hl
    split
    · rename_i hxy
      refine List.pairwise_cons.2 ⟨?_, List.pairwise_cons.2 hl⟩
      intro z hz
      rcases List.mem_cons.1 hz with rfl | hz
      · exact hxy
      · exact h.trans _ _ _ hxy (hl.1 z hz)
    · rename_i hxy
      refine List.pairwise_cons.2 ⟨?_, ih hl.2⟩
      intro z hz
      rcases List.mem_cons.1 ((insertBy_perm le x ys).mem_iff.1 hz) with rfl | hz
      · rcases h.total z y with h' | h'
        · exact absurd h' hxy
        · exact h'
      · exact hl.1 z hz

theorem stableSort_sorted (h : TotalPreorder le) (l : List α) :
    (stableSort le l).Pairwise (fun a b => le a b = true) := by
  induction l with
  | nil => simp [stableSort]
  | cons x xs ih => exact insertBy_sorted h x _ ih

theorem insertBy_of_le_all (x : α) (l : List α) (h : ∀ y ∈ l, le x y = true) :
    insertBy le x l = x :: l := by
  cases l with
  | nil => rfl
  | cons y ys => simp [insertBy, h y (by simp)]

theorem stableSort_of_sorted (l : List α)
    (hl : l.Pairwise (fun a b => le a b = true)) : stableSort le l = l := by
  induction l with
  | nil => rfl
  | cons x xs ih =>
    rw [List.pairwise_cons] at hl
    rw [stableSort, ih hl.2, insertBy_of_le_all _ _ hl.1]

/-- Stability: the elements of each class of mutually `le` elements keep their
relative order. -/
theorem insertBy_filter (h : TotalPreorder le) (c x : α) (l : List α) :
    (insertBy le x l).filter (fun y => le y c && le c y) =
      (x :: l).filter (fun y => le y c && le c y) := by
  induction l with
  | nil => simp [insertBy]
  | cons y ys ih =>
    simp only [insertBy]
    split
    · rfl
    · rename_i hxy
      rw [List.filter_cons, ih]
      by_cases hx : (le x c && le c x) = true
      · by_cases hy : (le y c && le c y) = true
        · exfalso
          simp only [Bool.and_eq_true] at hx hy
          exact hxy (h.trans _ _ _ hx.1 hy.2)
        · simp [hx, hy]
      · simp [List.filter_cons, hx]

theorem stableSort_stable (h : TotalPreorder le) (c : α) (l : List α) :
    (stableSort le l).filter (fun y => le y c && le c y) =
      l.filter (fun y => le y c && le c y) := by
  induction l with
  | nil => rfl
  | cons x xs ih => rw [stableSort, insertBy_filter h, List.filter_cons, ih, List.filter_cons]

/-- A list sorted by a total preorder is determined by its equivalence classes
(in order): so *any* stable sort returns what `stableSort` returns. -/
theorem stableSort_unique (h : TotalPreorder le) (l l' : List α)
    (hp : l'.Perm l) (hs : l'.Pairwise (fun a b => le a b = true))
    (hst : ∀ c, l'.filter (fun y => le y c && le c y) = l.filter (fun y => le y c && le c y)) :
    l' = stableSort le l := by
  have key : ∀ (a b : List α), a.Pairwise (fun a b => le a b = true) →
      b.Pairwise (fun a b => le a b = true) → a.Perm b →
      (∀ c, a.filter (fun y => le y c && le c y) = b.filter (fun y => le y c && le c y)) →
      a = b := by
    intro a
    induction a with
    | nil => intro b _ _ hp _; exact (List.nil_perm.1 hp).symm
    | cons x xs ih =>
      intro b ha hb hp hf
      cases b with
      | nil => exact absurd hp.length_eq (by simp)
      | cons y ys =>
        have hxx := h.refl x
        rw [List.pairwise_cons] at ha hb
        have hxy : le x y = true := by
          rcases List.mem_cons.1 (hp.mem_iff.2 (List.mem_cons_self)) with he | hm
          · rw [he]; exact h.refl x
          · exact ha.1 _ hm
        have hyx : le y x = true := by
          rcases List.mem_cons.1 (hp.mem_iff.1 (List.mem_cons_self)) with he | hm
          · rw [he]; exact h.refl y
          · exact hb.1 _ hm
        have h1 := hf x
        simp only [List.filter_cons, hxx, hxy, hyx, Bool.and_self, if_true] at h1
        have hxe : x = y := (List.cons.inj h1).1
        subst hxe
        congr 1
        apply ih ys ha.2 hb.2 (List.Perm.cons_inv hp)
        intro c
        have := hf c
        simp only [List.filter_cons] at this
        split at this
        · exact (List.cons.inj this).2
        · exact this
  apply key l' (stableSort le l) hs (stableSort_sorted h l)
    (hp.trans (stableSort_perm le l).symm)
  intro c
  rw [hst, stableSort_stable h]

end

end Verif
