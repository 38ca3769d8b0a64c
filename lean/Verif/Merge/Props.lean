import Verif.Merge.Lemmas
/-!
# C18: merging two lists

The iterator is run for any number `n` of steps that is at least the total number of items; the
result does not depend on `n` beyond that (`C18_steps`).
-/
namespace Verif.Merge

variable {α : Type u} {β : Type v} {κ : Type w}

/-- The concrete instance used by the examples below: two sorted lists with a duplicate. -/
def exL : List Nat := [1, 3, 3, 5]
/-- The other side. -/
def exR : List Nat := [2, 3, 5, 7]

/-- C18: the iterator stops by itself after at most `|l| + |r|` results; asking further adds
nothing. -/
theorem C18_steps (cmp : α → β → Ordering) (l : List α) (r : List β) (n : Nat)
    (hn : l.length + r.length ≤ n) :
    merged cmp l r n = merged cmp l r (l.length + r.length) := by
  have key : ∀ n l r, l.length + r.length ≤ n → ∀ m, l.length + r.length ≤ m →
      merged cmp l r m = merged cmp l r n := by
    apply merged_ind cmp
      (fun l r out => ∀ m, l.length + r.length ≤ m → merged cmp l r m = out)
    · intro m _; exact merged_nil_nil _ _
    · intro a l out ih m hm
      obtain ⟨m, rfl⟩ : ∃ k, m = k + 1 := ⟨m - 1, by simp at hm; omega⟩
      rw [merged_cons_nil, ih m (by simp at hm ⊢; omega)]
    · intro b r out ih m hm
      obtain ⟨m, rfl⟩ : ∃ k, m = k + 1 := ⟨m - 1, by simp at hm; omega⟩
      rw [merged_nil_cons, ih m (by simp at hm ⊢; omega)]
    · intro a l b r out hc ih m hm
      obtain ⟨m, rfl⟩ : ∃ k, m = k + 1 := ⟨m - 1, by simp at hm; omega⟩
      rw [merged_cons_cons, hc]; simp only; rw [ih m (by simp at hm ⊢; omega)]
    · intro a l b r out hc ih m hm
      obtain ⟨m, rfl⟩ : ∃ k, m = k + 1 := ⟨m - 1, by simp at hm; omega⟩
      rw [merged_cons_cons, hc]; simp only; rw [ih m (by simp at hm ⊢; omega)]
    · intro a l b r out hc ih m hm
      obtain ⟨m, rfl⟩ : ∃ k, m = k + 1 := ⟨m - 1, by simp at hm; omega⟩
      rw [merged_cons_cons, hc]; simp only; rw [ih m (by simp at hm ⊢; omega)]
  exact key _ l r (Nat.le_refl _) n hn

/-- C18: whatever the comparison and however unsorted the lists, every old item and every new
item is yielded exactly once, and in its original order. -/
theorem C18_complete (cmp : α → β → Ordering) (l : List α) (r : List β) (n : Nat)
    (hn : l.length + r.length ≤ n) :
    oldItems (merged cmp l r n) = l ∧ newItems (merged cmp l r n) = r := by
  apply merged_ind cmp (fun l r out => oldItems out = l ∧ newItems out = r) ?_ ?_ ?_ ?_ ?_ ?_ n l r hn
  · exact ⟨rfl, rfl⟩
  · intro a l out h; exact ⟨by rw [← h.1]; rfl, by rw [← h.2]; rfl⟩
  · intro a l out h; exact ⟨by rw [← h.1]; rfl, by rw [← h.2]; rfl⟩
  · intro a l b r out _ h
    exact ⟨by conv => rhs; rw [← h.1]
              rfl, by conv => rhs; rw [← h.2]
                      rfl⟩
  · intro a l b r out _ h
    exact ⟨by conv => rhs; rw [← h.1]
              rfl, by conv => rhs; rw [← h.2]
                      rfl⟩
  · intro a l b r out _ h
    exact ⟨by conv => rhs; rw [← h.1]
              rfl, by conv => rhs; rw [← h.2]
                      rfl⟩

example : merged compare exL exR 8 =
    [.left 1, .right 2, .both 3 3, .left 3, .both 5 5, .right 7] := by decide

/-- C18: two items are reported as a pair only if they compare equal. -/
theorem C18_pair_equal (cmp : α → β → Ordering) (l : List α) (r : List β) (n : Nat)
    (hn : l.length + r.length ≤ n) (a : α) (b : β) (h : .both a b ∈ merged cmp l r n) :
    cmp a b = .eq := by
  revert h
  apply merged_ind cmp (fun _ _ out => .both a b ∈ out → cmp a b = .eq) ?_ ?_ ?_ ?_ ?_ ?_ n l r hn
  · simp
  · intro _ _ _ ih h; simp at h; exact ih h
  · intro _ _ _ ih h; simp at h; exact ih h
  · intro a' _ b' _ _ hc ih h
    simp at h
    rcases h with ⟨rfl, rfl⟩ | h
    · exact hc
    · exact ih h
  · intro _ _ _ _ _ _ ih h; simp at h; exact ih h
  · intro _ _ _ _ _ _ ih h; simp at h; exact ih h

section keys
variable (cmp : κ → κ → Ordering) [Std.TransCmp cmp] (kl : α → κ) (kr : β → κ)

/-- C18: for two lists sorted by the same order (duplicates allowed) the number of pairs with a
given key is the smaller of the numbers of old and new items with that key: a deletion is
reported only when the old side has more items with that key, an addition only when the new
side has. -/
theorem C18_pair_count (l : List α) (r : List β) (n : Nat) (hn : l.length + r.length ≤ n)
    (hl : SortedBy cmp kl l) (hr : SortedBy cmp kr r) (c : κ) :
    countBoth cmp kl c (merged (fun a b => cmp (kl a) (kr b)) l r n) =
      min (countKey cmp kl c l) (countKey cmp kr c r) := by
  revert hl hr
  apply merged_ind (fun a b => cmp (kl a) (kr b))
    (fun l r out => SortedBy cmp kl l → SortedBy cmp kr r →
      countBoth cmp kl c out = min (countKey cmp kl c l) (countKey cmp kr c r))
    ?_ ?_ ?_ ?_ ?_ ?_ n l r hn
  · intro _ _; rfl
  · intro a l out ih hl hr
    rw [countBoth_left, ih (List.Pairwise.of_cons hl) hr]
    simp [countKey]
  · intro b r out ih hl hr
    rw [countBoth_right, ih hl (List.Pairwise.of_cons hr)]
    simp [countKey]
  · intro a l b r out hc ih hl hr
    rw [countBoth_both, ih (List.Pairwise.of_cons hl) (List.Pairwise.of_cons hr),
      countKey_cons, countKey_cons, eq_congr hc c]
    omega
  · intro a l b r out hc ih hl hr
    rw [countBoth_left, ih (List.Pairwise.of_cons hl) hr, countKey_cons cmp kl]
    by_cases h : cmp (kl a) c = .eq
    · have hz : countKey cmp kr c (b :: r) = 0 := by
        apply countKey_eq_zero
        intro x hx hxc
        have hbx : cmp (kr b) (kr x) ≠ .gt := by
          rcases List.mem_cons.1 hx with rfl | hx
          · exact not_gt_self _
          · exact (List.pairwise_cons.1 hr).1 x hx
        have h1 : cmp (kl a) (kr x) = .lt := lt_of_lt_le hc hbx
        have h2 : cmp (kl a) (kr x) = .eq := by
          rw [eq_congr h]; exact eq_symm hxc
        rw [h1] at h2; cases h2
      rw [hz]; omega
    · simp [h]
  · intro a l b r out hc ih hl hr
    rw [countBoth_right, ih hl (List.Pairwise.of_cons hr), countKey_cons cmp kr]
    by_cases h : cmp (kr b) c = .eq
    · have hz : countKey cmp kl c (a :: l) = 0 := by
        apply countKey_eq_zero
        intro x hx hxc
        have hax : cmp (kl a) (kl x) ≠ .gt := by
          rcases List.mem_cons.1 hx with rfl | hx
          · exact not_gt_self _
          · exact (List.pairwise_cons.1 hl).1 x hx
        have h1 : cmp (kr b) (kl x) = .lt := lt_of_lt_le (lt_of_gt hc) hax
        have h2 : cmp (kr b) (kl x) = .eq := by
          rw [eq_congr h]; exact eq_symm hxc
        rw [h1] at h2; cases h2
      rw [hz]; omega
    · simp [h]

example : SortedBy compare id exL ∧ SortedBy compare id exR := by
  unfold SortedBy exL exR; decide

/-- C18: the results come out in key order. -/
theorem C18_sorted (l : List α) (r : List β) (n : Nat) (hn : l.length + r.length ≤ n)
    (hl : SortedBy cmp kl l) (hr : SortedBy cmp kr r) :
    SortedBy cmp (keyOf kl kr) (merged (fun a b => cmp (kl a) (kr b)) l r n) := by
  have main : (SortedBy cmp kl l → SortedBy cmp kr r →
      SortedBy cmp (keyOf kl kr) (merged (fun a b => cmp (kl a) (kr b)) l r n) ∧
      (∀ x ∈ merged (fun a b => cmp (kl a) (kr b)) l r n,
        (∃ a ∈ l, cmp (keyOf kl kr x) (kl a) = .eq) ∨
        (∃ b ∈ r, cmp (keyOf kl kr x) (kr b) = .eq))) := by
    apply merged_ind (fun a b => cmp (kl a) (kr b))
      (fun l r out => SortedBy cmp kl l → SortedBy cmp kr r →
        SortedBy cmp (keyOf kl kr) out ∧
        ∀ x ∈ out, (∃ a ∈ l, cmp (keyOf kl kr x) (kl a) = .eq) ∨
          (∃ b ∈ r, cmp (keyOf kl kr x) (kr b) = .eq))
      ?_ ?_ ?_ ?_ ?_ ?_ n l r hn
    · intro _ _; exact ⟨List.Pairwise.nil, by simp⟩
    · intro a l out ih hl hr
      obtain ⟨i1, i2⟩ := ih (List.Pairwise.of_cons hl) hr
      refine ⟨List.pairwise_cons.2 ⟨?_, i1⟩, ?_⟩
      · intro x hx
        rcases i2 x hx with ⟨a', ha', he⟩ | ⟨b, hb, _⟩
        · have := (List.pairwise_cons.1 hl).1 a' ha'
          intro hg
          rw [Std.TransCmp.congr_right he] at hg
          exact this hg
        · simp at hb
      · intro x hx
        rcases List.mem_cons.1 hx with rfl | hx
        · exact .inl ⟨a, by simp, Std.ReflCmp.compare_self⟩
        · rcases i2 x hx with ⟨a', ha', he⟩ | h
          · exact .inl ⟨a', by simp [ha'], he⟩
          · exact .inr h
    · intro b r out ih hl hr
      obtain ⟨i1, i2⟩ := ih hl (List.Pairwise.of_cons hr)
      refine ⟨List.pairwise_cons.2 ⟨?_, i1⟩, ?_⟩
      · intro x hx
        rcases i2 x hx with ⟨a', ha', he⟩ | ⟨b', hb', he⟩
        · simp at ha'
        · have := (List.pairwise_cons.1 hr).1 b' hb'
          intro hg
          rw [Std.TransCmp.congr_right he] at hg
          exact this hg
      · intro x hx
        rcases List.mem_cons.1 hx with rfl | hx
        · exact .inr ⟨b, by simp, Std.ReflCmp.compare_self⟩
        · rcases i2 x hx with h | ⟨b', hb', he⟩
          · exact .inl h
          · exact .inr ⟨b', by simp [hb'], he⟩
    · intro a l b r out hc ih hl hr
      obtain ⟨i1, i2⟩ := ih (List.Pairwise.of_cons hl) (List.Pairwise.of_cons hr)
      refine ⟨List.pairwise_cons.2 ⟨?_, i1⟩, ?_⟩
      · intro x hx hg
        rcases i2 x hx with ⟨a', ha', he⟩ | ⟨b', hb', he⟩
        · rw [Std.TransCmp.congr_right he] at hg
          exact (List.pairwise_cons.1 hl).1 a' ha' hg
        · rw [Std.TransCmp.congr_right he] at hg
          rw [show keyOf kl kr (MergeResult.both a b) = kl a from rfl, eq_congr hc] at hg
          exact (List.pairwise_cons.1 hr).1 b' hb' hg
      · intro x hx
        rcases List.mem_cons.1 hx with rfl | hx
        · exact .inl ⟨a, by simp, Std.ReflCmp.compare_self⟩
        · rcases i2 x hx with ⟨a', ha', he⟩ | ⟨b', hb', he⟩
          · exact .inl ⟨a', by simp [ha'], he⟩
          · exact .inr ⟨b', by simp [hb'], he⟩
    · intro a l b r out hc ih hl hr
      obtain ⟨i1, i2⟩ := ih (List.Pairwise.of_cons hl) hr
      refine ⟨List.pairwise_cons.2 ⟨?_, i1⟩, ?_⟩
      · intro x hx hg
        rcases i2 x hx with ⟨a', ha', he⟩ | ⟨b', hb', he⟩
        · rw [Std.TransCmp.congr_right he] at hg
          exact (List.pairwise_cons.1 hl).1 a' ha' hg
        · rw [Std.TransCmp.congr_right he] at hg
          have hb : cmp (kr b) (kr b') ≠ .gt := by
            rcases List.mem_cons.1 hb' with rfl | hb'
            · exact not_gt_self _
            · exact (List.pairwise_cons.1 hr).1 b' hb'
          have : cmp (kl a) (kr b') = .lt := lt_of_lt_le hc hb
          rw [show keyOf kl kr (MergeResult.left a) = kl a from rfl, this] at hg
          cases hg
      · intro x hx
        rcases List.mem_cons.1 hx with rfl | hx
        · exact .inl ⟨a, by simp, Std.ReflCmp.compare_self⟩
        · rcases i2 x hx with ⟨a', ha', he⟩ | h
          · exact .inl ⟨a', by simp [ha'], he⟩
          · exact .inr h
    · intro a l b r out hc ih hl hr
      obtain ⟨i1, i2⟩ := ih hl (List.Pairwise.of_cons hr)
      refine ⟨List.pairwise_cons.2 ⟨?_, i1⟩, ?_⟩
      · intro x hx hg
        rcases i2 x hx with ⟨a', ha', he⟩ | ⟨b', hb', he⟩
        · rw [Std.TransCmp.congr_right he] at hg
          have ha : cmp (kl a) (kl a') ≠ .gt := by
            rcases List.mem_cons.1 ha' with rfl | ha'
            · exact not_gt_self _
            · exact (List.pairwise_cons.1 hl).1 a' ha'
          have : cmp (kr b) (kl a') = .lt := lt_of_lt_le (lt_of_gt hc) ha
          rw [show keyOf kl kr (MergeResult.right b) = kr b from rfl, this] at hg
          cases hg
        · rw [Std.TransCmp.congr_right he] at hg
          exact (List.pairwise_cons.1 hr).1 b' hb' hg
      · intro x hx
        rcases List.mem_cons.1 hx with rfl | hx
        · exact .inr ⟨b, by simp, Std.ReflCmp.compare_self⟩
        · rcases i2 x hx with h | ⟨b', hb', he⟩
          · exact .inl h
          · exact .inr ⟨b', by simp [hb'], he⟩
  exact (main hl hr).1

/-- C18: for lists without duplicate keys, an old item is reported as deleted exactly when no
new item has an equal key. -/
theorem C18_deleted_iff (l : List α) (r : List β) (n : Nat) (hn : l.length + r.length ≤ n)
    (hl : StrictSortedBy cmp kl l) (hr : StrictSortedBy cmp kr r) (a : α) :
    .left a ∈ merged (fun a b => cmp (kl a) (kr b)) l r n ↔
      a ∈ l ∧ ∀ b ∈ r, cmp (kl a) (kr b) ≠ .eq := by
  revert hl hr
  apply merged_ind (fun a b => cmp (kl a) (kr b))
    (fun l r out => StrictSortedBy cmp kl l → StrictSortedBy cmp kr r →
      (.left a ∈ out ↔ a ∈ l ∧ ∀ b ∈ r, cmp (kl a) (kr b) ≠ .eq))
    ?_ ?_ ?_ ?_ ?_ ?_ n l r hn
  · simp
  · intro a' l out ih hl hr
    have := ih (List.Pairwise.of_cons hl) hr
    simp only [List.mem_cons, MergeResult.left.injEq, this]
    simp
  · intro b r out ih hl hr
    have := ih hl (List.Pairwise.of_cons hr)
    simp [this]
  · intro a' l b r out hc ih hl hr
    have := ih (List.Pairwise.of_cons hl) (List.Pairwise.of_cons hr)
    simp only [List.mem_cons, this]
    constructor
    · rintro (h | ⟨h1, h2⟩)
      · cases h
      · refine ⟨.inr h1, ?_⟩
        rintro b' (rfl | hb') he
        · have h3 := (List.pairwise_cons.1 hl).1 a h1
          rw [eq_congr hc, eq_symm he] at h3; cases h3
        · exact h2 b' hb' he
    · rintro ⟨rfl | h1, h2⟩
      · exact absurd hc (h2 b (.inl rfl))
      · exact .inr ⟨h1, fun b' hb' => h2 b' (.inr hb')⟩
  · intro a' l b r out hc ih hl hr
    have := ih (List.Pairwise.of_cons hl) hr
    simp only [List.mem_cons, MergeResult.left.injEq, this]
    constructor
    · rintro (rfl | ⟨h1, h2⟩)
      · refine ⟨.inl rfl, ?_⟩
        rintro b' (rfl | hb') he
        · rw [hc] at he; cases he
        · have h3 := (List.pairwise_cons.1 hr).1 b' hb'
          have h4 : cmp (kl a) (kr b') = .lt := lt_of_lt_le hc (by rw [h3]; simp)
          rw [h4] at he; cases he
      · exact ⟨.inr h1, h2⟩
    · rintro ⟨rfl | h1, h2⟩
      · exact .inl rfl
      · exact .inr ⟨h1, h2⟩
  · intro a' l b r out hc ih hl hr
    have := ih hl (List.Pairwise.of_cons hr)
    simp only [List.mem_cons, this]
    constructor
    · rintro (h | ⟨h1, h2⟩)
      · cases h
      · refine ⟨h1, ?_⟩
        rintro b' (rfl | hb') he
        · have h3 : cmp (kl a') (kl a) ≠ .gt := by
            rcases h1 with rfl | h1
            · exact not_gt_self _
            · rw [(List.pairwise_cons.1 hl).1 a h1]; simp
          have h4 : cmp (kr b') (kl a) = .lt := lt_of_lt_le (lt_of_gt hc) h3
          rw [eq_symm he] at h4; cases h4
        · exact h2 b' hb' he
    · rintro ⟨h1, h2⟩
      exact .inr ⟨h1, fun b' hb' => h2 b' (.inr hb')⟩

/-- C18: for lists without duplicate keys, a new item is reported as added exactly when no old
item has an equal key. -/
theorem C18_added_iff (l : List α) (r : List β) (n : Nat) (hn : l.length + r.length ≤ n)
    (hl : StrictSortedBy cmp kl l) (hr : StrictSortedBy cmp kr r) (b : β) :
    .right b ∈ merged (fun a b => cmp (kl a) (kr b)) l r n ↔
      b ∈ r ∧ ∀ a ∈ l, cmp (kl a) (kr b) ≠ .eq := by
  revert hl hr
  apply merged_ind (fun a b => cmp (kl a) (kr b))
    (fun l r out => StrictSortedBy cmp kl l → StrictSortedBy cmp kr r →
      (.right b ∈ out ↔ b ∈ r ∧ ∀ a ∈ l, cmp (kl a) (kr b) ≠ .eq))
    ?_ ?_ ?_ ?_ ?_ ?_ n l r hn
  · simp
  · intro a' l out ih hl hr
    have := ih (List.Pairwise.of_cons hl) hr
    simp [this]
  · intro b' r out ih hl hr
    have := ih hl (List.Pairwise.of_cons hr)
    simp only [List.mem_cons, MergeResult.right.injEq, this]
    simp
  · intro a' l b' r out hc ih hl hr
    have := ih (List.Pairwise.of_cons hl) (List.Pairwise.of_cons hr)
    simp only [List.mem_cons, this]
    constructor
    · rintro (h | ⟨h1, h2⟩)
      · cases h
      · refine ⟨.inr h1, ?_⟩
        rintro x (rfl | hx) he
        · have h3 := (List.pairwise_cons.1 hr).1 b h1
          rw [← eq_congr hc, he] at h3; cases h3
        · exact h2 x hx he
    · rintro ⟨rfl | h1, h2⟩
      · exact absurd hc (h2 a' (.inl rfl))
      · exact .inr ⟨h1, fun x hx => h2 x (.inr hx)⟩
  · intro a' l b' r out hc ih hl hr
    have := ih (List.Pairwise.of_cons hl) hr
    simp only [List.mem_cons, this]
    constructor
    · rintro (h | ⟨h1, h2⟩)
      · cases h
      · refine ⟨h1, ?_⟩
        rintro x (rfl | hx) he
        · have h3 : cmp (kr b') (kr b) ≠ .gt := by
            rcases h1 with rfl | h1
            · exact not_gt_self _
            · rw [(List.pairwise_cons.1 hr).1 b h1]; simp
          have h4 : cmp (kl x) (kr b) = .lt := lt_of_lt_le hc h3
          rw [he] at h4; cases h4
        · exact h2 x hx he
    · rintro ⟨h1, h2⟩
      exact .inr ⟨h1, fun x hx => h2 x (.inr hx)⟩
  · intro a' l b' r out hc ih hl hr
    have := ih hl (List.Pairwise.of_cons hr)
    simp only [List.mem_cons, MergeResult.right.injEq, this]
    constructor
    · rintro (rfl | ⟨h1, h2⟩)
      · refine ⟨.inl rfl, ?_⟩
        rintro x (rfl | hx) he
        · rw [hc] at he; cases he
        · have h3 := (List.pairwise_cons.1 hl).1 x hx
          have h4 : cmp (kr b) (kl x) = .lt := lt_of_lt_le (lt_of_gt hc) (by rw [h3]; simp)
          rw [eq_symm he] at h4; cases h4
      · exact ⟨.inr h1, h2⟩
    · rintro ⟨rfl | h1, h2⟩
      · exact .inl rfl
      · exact .inr ⟨h1, h2⟩

example : StrictSortedBy compare id [1, 3, 5] ∧ StrictSortedBy compare id exR ∧
    merged (fun a b => compare a b) [1, 3, 5] exR 7 =
      [.left 1, .right 2, .both 3 3, .both 5 5, .right 7] := by
  unfold StrictSortedBy exR; decide

/-- C18 for the whole "sort both sides, then merge" step that the diff performs on types,
functions, variables and units: the items are sorted with an order `cmpSort` that refines the
order `cmp` used for pairing (functions are sorted by parameters too); then every item of each
side occurs exactly once, and the number of pairs with a given key is the smaller of the numbers
of old and new items with that key. No assumption on the input lists. -/
theorem C18_sort_then_merge (cmpSort : κ → κ → Ordering) [Std.TransCmp cmpSort]
    (href : ∀ x y, cmpSort x y ≠ .gt → cmp x y ≠ .gt)
    (l : List α) (r : List β) (n : Nat) (hn : l.length + r.length ≤ n) :
    (oldItems (mergeSorted cmpSort cmp kl kr l r n)).Perm l ∧
    (newItems (mergeSorted cmpSort cmp kl kr l r n)).Perm r ∧
    (∀ a b, .both a b ∈ mergeSorted cmpSort cmp kl kr l r n → cmp (kl a) (kr b) = .eq) ∧
    (∀ c, countBoth cmp kl c (mergeSorted cmpSort cmp kl kr l r n) =
      min (countKey cmp kl c l) (countKey cmp kr c r)) := by
  have hlen : (stableSort (fun x y => cmpSort (kl x) (kl y) != .gt) l).length +
      (stableSort (fun x y => cmpSort (kr x) (kr y) != .gt) r).length ≤ n := by
    simpa using hn
  obtain ⟨h1, h2⟩ := C18_complete (fun a b => cmp (kl a) (kr b)) _ _ n hlen
  refine ⟨?_, ?_, ?_, ?_⟩
  · unfold mergeSorted; rw [h1]; exact stableSort_perm _ _
  · unfold mergeSorted; rw [h2]; exact stableSort_perm _ _
  · intro a b h; exact C18_pair_equal _ _ _ n hlen a b h
  · intro c
    unfold mergeSorted
    rw [C18_pair_count cmp kl kr _ _ n hlen (sortedBy_stableSort _ _ href kl l)
      (sortedBy_stableSort _ _ href kr r) c, countKey_stableSort, countKey_stableSort]

theorem count_old (c : κ) (out : List (MergeResult α β)) :
    countKey cmp kl c (oldItems out) = countBoth cmp kl c out +
      (out.filter (fun x => match x with | .left a => cmp (kl a) c == .eq | _ => false)).length := by
  unfold countKey countBoth oldItems
  induction out with
  | nil => rfl
  | cons x out ih =>
    cases x <;> simp only [List.filterMap_cons, oldItem, List.filter_cons] <;> (try exact ih)
    · split <;> simp_all <;> omega
    · split <;> simp_all <;> omega

theorem count_new (c : κ) (out : List (MergeResult α β))
    (h : ∀ a b, .both a b ∈ out → cmp (kl a) (kr b) = .eq) :
    countKey cmp kr c (newItems out) = countBoth cmp kl c out +
      (out.filter (fun x => match x with | .right b => cmp (kr b) c == .eq | _ => false)).length := by
  unfold countKey countBoth newItems
  induction out with
  | nil => rfl
  | cons x out ih =>
    have ih := ih (fun a b hm => h a b (by simp [hm]))
    cases x with
    | left a =>
      simp only [List.filterMap_cons, newItem, List.filter_cons, Bool.false_eq_true, if_false]
      exact ih
    | right b =>
      simp only [List.filterMap_cons, newItem, List.filter_cons]
      split <;> simp_all <;> omega
    | both a b =>
      simp only [List.filterMap_cons, newItem, List.filter_cons]
      have hab := h a b (by simp)
      have : cmp (kl a) c = cmp (kr b) c := Std.TransCmp.congr_left hab
      by_cases hx : cmp (kr b) c = .eq
      · have hx' : cmp (kl a) c = .eq := this.trans hx
        simp [hx, hx']; omega
      · have hx' : cmp (kl a) c ≠ .eq := fun h => hx (this.symm.trans h)
        simp [hx, hx']; omega

/-- **C18 (no missed pair).** On sorted lists, also with duplicates, an item is never reported as
deleted while an equal item is reported as added. -/
theorem C18_no_missed_pair (l : List α) (r : List β) (n : Nat) (hn : l.length + r.length ≤ n)
    (hl : SortedBy cmp kl l) (hr : SortedBy cmp kr r) (a : α) (b : β)
    (ha : .left a ∈ merged (fun a b => cmp (kl a) (kr b)) l r n)
    (hb : .right b ∈ merged (fun a b => cmp (kl a) (kr b)) l r n) :
    cmp (kl a) (kr b) ≠ .eq := by
  intro he
  have hc := C18_pair_count cmp kl kr l r n hn hl hr (kr b)
  have hco := C18_complete (fun a b => cmp (kl a) (kr b)) l r n hn
  have h1 := count_old cmp kl (kr b) (merged (fun a b => cmp (kl a) (kr b)) l r n)
  have h2 := count_new cmp kl kr (kr b) (merged (fun a b => cmp (kl a) (kr b)) l r n)
    (fun x y h => C18_pair_equal _ l r n hn x y h)
  rw [hco.1] at h1
  rw [hco.2] at h2
  have p1 : 0 < ((merged (fun a b => cmp (kl a) (kr b)) l r n).filter (fun x => match x with
      | .left a => cmp (kl a) (kr b) == .eq | _ => false)).length :=
    List.length_pos_of_mem (List.mem_filter.2 ⟨ha, by simp [he]⟩)
  have p2 : 0 < ((merged (fun a b => cmp (kl a) (kr b)) l r n).filter (fun x => match x with
      | .right b' => cmp (kr b') (kr b) == .eq | _ => false)).length :=
    List.length_pos_of_mem (List.mem_filter.2 ⟨hb, by
      simp [Std.ReflCmp.compare_self (cmp := cmp)]⟩)
  omega

example : merged compare [1, 2, 2, 5] [2, 3] 6 =
    [.left 1, .both 2 2, .left 2, .right 3, .left 5] := by decide

example : mergeSorted compare compare id id [3, 1] [2, 3] 4 =
    [.left 1, .right 2, .both 3 3] := by decide

end keys

/-- **C53 (merged items).** Two merged items are compared by the items they show (the new one if
there is one), each with the file it comes from. -/
theorem C53_cmp_shown (f : α → γ → α → γ → ω) (ha hb : γ) (x y : MergeResult α α) :
    MergeResult.cmp f ha hb x y =
      f (shown ha hb x).1 (shown ha hb x).2 (shown ha hb y).1 (shown ha hb y).2 := by
  cases x <;> cases y <;> rfl

end Verif.Merge
