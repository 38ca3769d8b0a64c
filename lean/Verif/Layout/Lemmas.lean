import Verif.Layout.Spec
/-! # Lemmas about layouts -/
namespace Verif.Layout
open Verif.Sentinel Verif.Types

theorem get_new {n : Nat} (h : n ≠ top) : (Opt64.new n).get = some n := by
  simp [Opt64.get, Opt64.isNone, Opt64.new, Opt64.none, h]

/-- Offset of the item after the current one, or the struct's size. -/
def nextOf (l : List Layout) (total : Option Nat) : Option Nat :=
  match l with
  | [] => total
  | x :: _ => some x.bitOffset

/-- The layout in forward order. -/
def fwd : List Layout → Option Nat → List Layout
  | [], _ => []
  | x :: xs, total => x :: (gapAfter x (nextOf xs total) ++ fwd xs total)

theorem fwd_concat (l : List Layout) (m : Layout) (total : Option Nat) :
    fwd (l ++ [m]) total = fwd l (some m.bitOffset) ++ m :: gapAfter m total := by
  induction l with
  | nil => simp [fwd, nextOf]
  | cons x xs ih =>
    simp only [List.cons_append, fwd, ih, List.append_assoc]
    congr 2
    cases xs <;> rfl

theorem gap_reverse (m : Layout) (n : Option Nat) : (gapAfter m n).reverse = gapAfter m n := by
  unfold gapAfter
  split
  · split <;> rfl
  · rfl

theorem loop_eq (rl : List Layout) (next : Option Nat) (acc : List Layout) :
    (layoutLoop rl next acc).reverse = fwd rl.reverse next ++ acc.reverse := by
  induction rl generalizing next acc with
  | nil => simp [layoutLoop, fwd]
  | cons m rest ih =>
    simp only [layoutLoop, ih, List.reverse_append, List.reverse_cons, List.reverse_nil,
      List.nil_append, fwd_concat, gap_reverse, List.append_assoc, List.cons_append]

/-- The leading padding. -/
def lead (l : List Layout) : List Layout :=
  match l with
  | [] => []
  | x :: _ => if x.bitOffset > 0 then [⟨0, .new x.bitOffset, .padding⟩] else []

theorem leading_eq (acc : List Layout) : (leading acc).reverse = lead acc.reverse ++ acc.reverse := by
  rcases List.eq_nil_or_concat acc with rfl | ⟨l, x, rfl⟩
  · rfl
  · simp only [leading, List.concat_eq_append, List.getLast?_append, List.getLast?_singleton,
      Option.or_some, List.reverse_append, List.reverse_cons, List.reverse_nil, List.nil_append,
      List.cons_append, lead, Option.getD]
    cases l.getLast? <;> simp only [Option.some_or, Option.none_or] <;> split <;> simp_all

theorem layoutItems_eq (items : List Layout) (total : Option Nat) :
    layoutItems items total =
      lead (stableSort itemLe items) ++ fwd (stableSort itemLe items) total := by
  unfold layoutItems
  rw [leading_eq, loop_eq]
  simp only [List.reverse_reverse, List.reverse_nil, List.append_nil]
  congr 1
  cases stableSort itemLe items <;> simp [lead, fwd]

theorem itemLe_total : TotalPreorder itemLe := by
  have key : ∀ a b, itemLe a b = true ↔ a.bitOffset < b.bitOffset ∨
      (a.bitOffset = b.bitOffset ∧ a.bitSize.raw ≤ b.bitSize.raw) := by
    intro a b
    simp only [itemLe, Opt64.cmp, Ordering.then]
    rcases Nat.lt_trichotomy a.bitOffset b.bitOffset with h | h | h
    · simp [Nat.compare_eq_lt.2 h, h]
    · simp only [Nat.compare_eq_eq.2 h, Nat.isLE_compare]
      simp [h]
    · simp [Nat.compare_eq_gt.2 h]; omega
  constructor
  · intro a b; rw [key, key]; omega
  · intro a b c; rw [key, key, key]; omega

theorem itemLe_iff (a b : Layout) : itemLe a b = true ↔ a.bitOffset < b.bitOffset ∨
      (a.bitOffset = b.bitOffset ∧ a.bitSize.raw ≤ b.bitSize.raw) := by
  simp only [itemLe, Opt64.cmp, Ordering.then]
  rcases Nat.lt_trichotomy a.bitOffset b.bitOffset with h | h | h
  · simp [Nat.compare_eq_lt.2 h, h]
  · simp only [Nat.compare_eq_eq.2 h, Nat.isLE_compare]
    simp [h]
  · simp [Nat.compare_eq_gt.2 h]; omega

theorem gap_mem {m : Layout} {n : Option Nat} {p : Layout} (h : p ∈ gapAfter m n) :
    ∃ s k, m.bitSize.get = some s ∧ n = some k ∧ m.bitOffset + s < k ∧
      p = ⟨m.bitOffset + s, .new (k - (m.bitOffset + s)), .padding⟩ := by
  unfold gapAfter at h
  split at h
  · rename_i s k hs
    split at h
    · simp only [List.mem_singleton] at h
      exact ⟨s, k, hs, rfl, by omega, h⟩
    · simp at h
  · simp at h

theorem filter_gap (m : Layout) (n : Option Nat) :
    (gapAfter m n).filter (fun x => decide (x.item ≠ .padding)) = [] := by
  rw [List.filter_eq_nil_iff]
  intro p hp
  obtain ⟨s, k, _, _, _, rfl⟩ := gap_mem hp
  simp

theorem filter_lead (l : List Layout) :
    (lead l).filter (fun x => decide (x.item ≠ .padding)) = [] := by
  unfold lead
  split
  · rfl
  · split <;> simp

theorem filter_fwd (l : List Layout) (total : Option Nat) (h : ∀ x ∈ l, x.item ≠ .padding) :
    (fwd l total).filter (fun x => decide (x.item ≠ .padding)) = l := by
  induction l with
  | nil => rfl
  | cons x xs ih =>
    have hx := h x (by simp)
    simp only [fwd, List.filter_cons, hx, ne_eq, not_false_eq_true, decide_true, if_true,
      List.filter_append]
    have := filter_gap x (nextOf xs total)
    simp only [ne_eq] at this
    rw [this, List.nil_append]
    have := ih (fun y hy => h y (by simp [hy]))
    simp only [ne_eq] at this
    rw [this]

theorem inputs_not_padding {ms is vs base sz x} (h : x ∈ inputs ms is vs base sz) :
    x.item ≠ .padding := by
  simp only [inputs, List.mem_append, List.mem_map] at h
  rcases h with (⟨_, _, rfl⟩ | ⟨_, _, rfl⟩) | ⟨_, _, rfl⟩ <;> simp

/-- Tiling of the forward layout. -/
theorem tiles_fwd (x : Layout) (l : List Layout) (total : Option Nat) (stop : Nat)
    (hk : ∀ y ∈ x :: l, ∃ n, y.bitSize.get = some n)
    (hs : (x :: l).Pairwise (fun a b => ∀ n, a.bitSize.get = some n → a.bitOffset + n ≤ b.bitOffset))
    (hstop : match total with
      | some t => stop = t ∧ t < top ∧ ∀ y ∈ x :: l, ∀ n, y.bitSize.get = some n → y.bitOffset + n ≤ t
      | none => ∃ y n, (x :: l).getLast? = some y ∧ y.bitSize.get = some n ∧ stop = y.bitOffset + n)
    (hb : ∀ y ∈ x :: l, y.bitOffset < top) :
    Tiles x.bitOffset (fwd (x :: l) total) stop := by
  induction l generalizing x with
  | nil =>
    obtain ⟨n, hn⟩ := hk x (by simp)
    simp only [fwd, nextOf, List.append_nil, Tiles, gapAfter, hn]
    refine ⟨trivial, n, rfl, ?_⟩
    cases total with
    | none =>
      obtain ⟨y, m, h1, h2, h3⟩ := hstop
      simp at h1
      subst h1
      rw [hn] at h2; cases h2
      simp [Tiles, h3]
    | some t =>
      obtain ⟨rfl, h2, h3⟩ := hstop
      have := h3 x (by simp) n hn
      simp only []
      split
      · simp only [Tiles, true_and]
        refine ⟨_, get_new (by omega), by omega⟩
      · simp only [Tiles]; omega
  | cons y ys ih =>
    obtain ⟨n, hn⟩ := hk x (by simp)
    have ih := ih y (fun z hz => hk z (by simp [hz])) (List.pairwise_cons.1 hs).2
      (by
        cases total with
        | none =>
          obtain ⟨z, m, h1, h2, h3⟩ := hstop
          exact ⟨z, m, by simpa using h1, h2, h3⟩
        | some t =>
          obtain ⟨h1, h2, h3⟩ := hstop
          exact ⟨h1, h2, fun z hz => h3 z (by simp [hz])⟩)
      (fun z hz => hb z (by simp [hz]))
    have hxy := (List.pairwise_cons.1 hs).1 y (by simp) n hn
    have hby := hb y (by simp)
    rw [fwd]
    simp only [Tiles, gapAfter, hn, nextOf]
    refine ⟨trivial, n, rfl, ?_⟩
    split
    · simp only [List.cons_append, List.nil_append, Tiles, true_and]
      refine ⟨_, get_new (by omega), ?_⟩
      have : x.bitOffset + n + (y.bitOffset - (x.bitOffset + n)) = y.bitOffset := by omega
      rw [this]; exact ih
    · have : x.bitOffset + n = y.bitOffset := by omega
      rw [this]; exact ih

/-- Sorted disjoint items end before the next begins. -/
theorem ends_before {l : List Layout}
    (hk : ∀ y ∈ l, ∃ n, y.bitSize.get = some n)
    (hs : l.Pairwise (fun a b => itemLe a b = true)) (hd : l.Pairwise Disjoint) :
    l.Pairwise (fun a b => ∀ n, a.bitSize.get = some n → a.bitOffset + n ≤ b.bitOffset) := by
  induction l with
  | nil => exact .nil
  | cons x xs ih =>
    rw [List.pairwise_cons] at hs hd ⊢
    refine ⟨?_, ih (fun y hy => hk y (by simp [hy])) hs.2 hd.2⟩
    intro y hy n hn
    obtain ⟨m, hm⟩ := hk y (by simp [hy])
    have h1 := (itemLe_iff x y).1 (hs.1 y hy)
    have h2 := hd.1 y hy n m hn hm
    have raw : ∀ (z : Size) k, z.get = some k → z.raw = k := by
      intro z k h
      simp only [Opt64.get] at h
      split at h
      · cases h
      · simpa using h
    have := raw _ _ hn
    have := raw _ _ hm
    omega

end Verif.Layout
