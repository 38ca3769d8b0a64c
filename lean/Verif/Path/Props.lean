import Verif.Path.Lemmas3
/-!
# C19, C20, C21: the edit path used to diff unordered lists

`diffList` is what `DiffState::list` shows. The theorems hold for every priority queue `Q` that
meets `BinaryHeap`'s contract (any tie-breaking), every cost function and every pair of lists
whose total replacement cost fits in a `usize`.
-/
namespace Verif.Path
open Verif.Merge

variable {α : Type}

/-- A concrete priority queue: a list kept sorted by cost. It shows that the contract `Heap` can
be met. -/
def listHeap : Heap where
  H := { l : List HState // l.Pairwise (fun a b => a.cost ≤ b.cost) }
  items h := h.1
  empty := ⟨[], .nil⟩
  push h x := ⟨insertBy (fun a b => decide (a.cost ≤ b.cost)) x h.1, by
    have hp : TotalPreorder (fun a b : HState => decide (a.cost ≤ b.cost)) :=
      ⟨fun a b => by simp; omega, fun a b c h1 h2 => by simp at *; omega⟩
    have := insertBy_sorted hp x h.1 (h.2.imp (fun h => by simpa using h))
    exact this.imp (fun h => by simpa using h)⟩
  pop h := match h with
    | ⟨[], _⟩ => none
    | ⟨x :: xs, hx⟩ => some (x, ⟨xs, hx.of_cons⟩)
  items_empty := rfl
  items_push h x := insertBy_perm _ _ _
  pop_none h hp := by
    obtain ⟨l, hl⟩ := h
    cases l with
    | nil => rfl
    | cons x xs => simp at hp
  pop_some h x h' hp := by
    obtain ⟨l, hl⟩ := h
    cases l with
    | nil => simp at hp
    | cons y ys =>
      simp only [Option.some.injEq, Prod.mk.injEq] at hp
      obtain ⟨rfl, rfl⟩ := hp
      refine ⟨.refl _, ?_⟩
      intro z hz
      rcases List.mem_cons.1 hz with rfl | hz
      · exact Nat.le_refl _
      · exact (List.pairwise_cons.1 hl).1 z hz

/-- C19: diffing two lists always returns: no panic, no index out of bounds, no overflow, no
endless loop; and what it shows is a complete alignment of the two lists. -/
theorem C19_alignment (Q : Heap) (l1 l2 : List α) (c1 c2 : α → Nat) (d : α → α → Nat)
    (htot : replaceCost c1 c2 l1 l2 < usizeMax) (fuel : Nat) (hf : enoughFuel l1 l2 ≤ fuel) :
    ∃ items, diffList Q l1 l2 c1 c2 d fuel = .ok items ∧ IsAlignment c1 c2 d l1 l2 items := by
  obtain ⟨p, C, h1, h2, _⟩ := shortestPath_ok Q l1 l2 c1 c2 d htot fuel hf
  refine ⟨listItems p l1 l2, ?_, ?_⟩
  · unfold diffList; rw [h1]; rfl
  · simpa using (walk_alignment h2).1

/-- C20: no presentation of the change that pairs only allowed items costs less than the one
shown. -/
theorem C20_minimal (Q : Heap) (l1 l2 : List α) (c1 c2 : α → Nat) (d : α → α → Nat)
    (htot : replaceCost c1 c2 l1 l2 < usizeMax) (fuel : Nat) (hf : enoughFuel l1 l2 ≤ fuel)
    (items : List (MergeResult α α)) (h : diffList Q l1 l2 c1 c2 d fuel = .ok items)
    (other : List (MergeResult α α)) (ho : IsAlignment c1 c2 d l1 l2 other) :
    totalCost c1 c2 d items ≤ totalCost c1 c2 d other := by
  obtain ⟨p, C, h1, h2, h3⟩ := shortestPath_ok Q l1 l2 c1 c2 d htot fuel hf
  have hi : items = listItems p l1 l2 := by
    unfold diffList at h; rw [h1] at h
    simpa [bind, Out.bind] using h.symm
  have hC := (walk_alignment h2).2
  simp only [List.drop_zero] at hC
  obtain ⟨p', hw'⟩ := alignment_walk (l1 := l1) (l2 := l2) (c1 := c1) (c2 := c2) (d := d) other
    0 0 (Nat.zero_le _) (Nat.zero_le _) (by simpa using ho)
  rw [hi, hC]
  exact h3 _ _ hw'

/-- C20: the restriction to allowed pairs is harmless: among all presentations, with any
pairing whatsoever, none costs less. -/
theorem C20_minimal_any (Q : Heap) (l1 l2 : List α) (c1 c2 : α → Nat) (d : α → α → Nat)
    (htot : replaceCost c1 c2 l1 l2 < usizeMax) (fuel : Nat) (hf : enoughFuel l1 l2 ≤ fuel)
    (items : List (MergeResult α α)) (h : diffList Q l1 l2 c1 c2 d fuel = .ok items)
    (other : List (MergeResult α α)) (ho : oldItems other = l1) (hn : newItems other = l2) :
    totalCost c1 c2 d items ≤ totalCost c1 c2 d other := by
  -- replace each forbidden pair of `other` by a deletion and an addition
  have key : ∀ other : List (MergeResult α α), ∃ other', oldItems other' = oldItems other ∧
      newItems other' = newItems other ∧ totalCost c1 c2 d other' ≤ totalCost c1 c2 d other ∧
      ∀ a b, .both a b ∈ other' → d a b < c1 a + c2 b := by
    intro other
    induction other with
    | nil => exact ⟨[], rfl, rfl, Nat.le_refl _, by simp⟩
    | cons x xs ih =>
      obtain ⟨ys, h1, h2, h3, h4⟩ := ih
      have plain : (∀ a b, x = .both a b → d a b < c1 a + c2 b) →
          ∃ other', oldItems other' = oldItems (x :: xs) ∧
            newItems other' = newItems (x :: xs) ∧
            totalCost c1 c2 d other' ≤ totalCost c1 c2 d (x :: xs) ∧
            ∀ a b, .both a b ∈ other' → d a b < c1 a + c2 b := by
        intro hx
        refine ⟨x :: ys, ?_, ?_, ?_, ?_⟩
        · simp only [oldItems, List.filterMap_cons] at h1 ⊢
          cases oldItem x <;> simp [h1]
        · simp only [newItems, List.filterMap_cons] at h2 ⊢
          cases newItem x <;> simp [h2]
        · simp only [totalCost, List.map_cons, List.sum_cons] at h3 ⊢; omega
        · intro a b hab
          rcases List.mem_cons.1 hab with hab | hab
          · exact hx a b hab.symm
          · exact h4 a b hab
      cases x with
      | left a => exact plain (by simp)
      | right b => exact plain (by simp)
      | both a b =>
        by_cases hlt : d a b < c1 a + c2 b
        · exact plain (by rintro _ _ ⟨⟩; exact hlt)
        · refine ⟨.left a :: .right b :: ys, ?_, ?_, ?_, ?_⟩
          · rw [show oldItems (.left a :: .right b :: ys) = a :: oldItems ys from rfl, h1]; rfl
          · rw [show newItems (.left a :: .right b :: ys) = b :: newItems ys from rfl, h2]; rfl
          · simp only [totalCost, List.map_cons, List.sum_cons, itemCost] at h3 ⊢; omega
          · intro a b hab; simp at hab; exact h4 a b hab
  obtain ⟨other', g1, g2, g3, g4⟩ := key other
  have := C20_minimal Q l1 l2 c1 c2 d htot fuel hf items h other' ⟨by rw [g1, ho], by rw [g2, hn], g4⟩
  omega

/-- C21: if the lists have the same length, corresponding items differ by cost 0 and adding or
deleting an item costs something, then the diff pairs every item with its counterpart: nothing
is shown as added or deleted. -/
theorem C21_self (Q : Heap) (pairs : List (α × α)) (c1 c2 : α → Nat) (d : α → α → Nat)
    (hd : ∀ p ∈ pairs, d p.1 p.2 = 0)
    (h1 : ∀ p ∈ pairs, 0 < c1 p.1) (h2 : ∀ p ∈ pairs, 0 < c2 p.2)
    (htot : replaceCost c1 c2 (pairs.map (·.1)) (pairs.map (·.2)) < usizeMax)
    (fuel : Nat) (hf : enoughFuel (pairs.map (·.1)) (pairs.map (·.2)) ≤ fuel) :
    diffList Q (pairs.map (·.1)) (pairs.map (·.2)) c1 c2 d fuel =
      .ok (pairs.map (fun p => .both p.1 p.2)) := by
  obtain ⟨items, hi, ha⟩ := C19_alignment Q (pairs.map (·.1)) (pairs.map (·.2)) c1 c2 d htot fuel hf
  have hz : totalCost c1 c2 d (pairs.map (fun p => .both p.1 p.2)) = 0 := by
    clear hi ha hf htot h1 h2
    induction pairs with
    | nil => rfl
    | cons p ps ih =>
      have := ih (fun q hq => hd q (List.mem_cons_of_mem _ hq))
      simp only [totalCost, List.map_cons, List.sum_cons, itemCost] at this ⊢
      rw [this, hd p (List.mem_cons_self ..)]
  have ho : IsAlignment c1 c2 d (pairs.map (·.1)) (pairs.map (·.2))
      (pairs.map (fun p => .both p.1 p.2)) := by
    refine ⟨?_, ?_, ?_⟩
    · clear hi ha hf htot h1 h2 hd hz
      induction pairs with
      | nil => rfl
      | cons p ps ih => exact congrArg (p.1 :: ·) ih
    · clear hi ha hf htot h1 h2 hd hz
      induction pairs with
      | nil => rfl
      | cons p ps ih => exact congrArg (p.2 :: ·) ih
    · intro a b hab
      simp only [List.mem_map] at hab
      obtain ⟨p, hp, he⟩ := hab
      cases he
      have := hd p hp; have := h1 p hp; omega
  have hmin := C20_minimal Q _ _ c1 c2 d htot fuel hf items hi _ ho
  rw [hz] at hmin
  rw [hi]
  congr 1
  clear hi hf htot ho hz
  have a1 := ha.old
  have a2 := ha.new
  clear ha
  induction items generalizing pairs with
  | nil =>
    cases pairs with
    | nil => rfl
    | cons p ps => simp [oldItems] at a1
  | cons x xs ih =>
    cases x with
    | left a =>
      exfalso
      cases pairs with
      | nil => simp [oldItems, oldItem] at a1
      | cons p ps =>
        have : a = p.1 := by simp [oldItems, oldItem] at a1; exact a1.1
        have := h1 p (List.mem_cons_self ..)
        simp only [totalCost, List.map_cons, List.sum_cons, itemCost] at hmin
        subst a; omega
    | right b =>
      exfalso
      cases pairs with
      | nil => simp [newItems, newItem] at a2
      | cons p ps =>
        have : b = p.2 := by simp [newItems, newItem] at a2; exact a2.1
        have := h2 p (List.mem_cons_self ..)
        simp only [totalCost, List.map_cons, List.sum_cons, itemCost] at hmin
        subst b; omega
    | both a b =>
      cases pairs with
      | nil => simp [oldItems, oldItem] at a1
      | cons p ps =>
        have e1 : a = p.1 ∧ oldItems xs = ps.map (·.1) := by
          simpa [oldItems, oldItem] using a1
        have e2 : b = p.2 ∧ newItems xs = ps.map (·.2) := by
          simpa [newItems, newItem] using a2
        rw [List.map_cons, ← ih ps (fun q hq => hd q (List.mem_cons_of_mem _ hq))
          (fun q hq => h1 q (List.mem_cons_of_mem _ hq))
          (fun q hq => h2 q (List.mem_cons_of_mem _ hq)) ?_ e1.2 e2.2, e1.1, e2.1]
        simp only [totalCost, List.map_cons, List.sum_cons] at hmin ⊢
        omega

/-- The hypotheses are met by a concrete list pair: with add/delete cost 1 and pairing cost 0 for
equal items, 2 otherwise, `[1,2,3]` against `[2,3,4]`. -/
example : replaceCost (fun _ => 1) (fun _ => 1) [1, 2, 3] [2, 3, 4] < usizeMax ∧
    diffList listHeap [1, 2, 3] [2, 3, 4] (fun _ => 1) (fun _ => 1)
      (fun a b => if a = b then 0 else 2) 200 =
    .ok [.left 1, .both 2 2, .both 3 3, .right 4] := by
  refine ⟨by simp [replaceCost, usizeMax], by decide +kernel⟩

example : diffList listHeap [1, 2] [1, 2] (fun _ => 1) (fun _ => 1)
      (fun a b => if a = b then 0 else 2) 60 = .ok [.both 1 1, .both 2 2] := by
  decide +kernel

end Verif.Path
