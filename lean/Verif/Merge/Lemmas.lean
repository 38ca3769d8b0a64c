import Verif.Merge.Spec
namespace Verif.Merge

variable {α : Type u} {β : Type v} {κ : Type w}

theorem merged_zero (cmp : α → β → Ordering) (l : List α) (r : List β) :
    merged cmp l r 0 = [] := rfl

theorem merged_nil_nil (cmp : α → β → Ordering) (n : Nat) :
    merged cmp [] ([] : List β) n = [] := by
  cases n <;> rfl

theorem merged_cons_nil (cmp : α → β → Ordering) (a : α) (l : List α) (n : Nat) :
    merged cmp (a :: l) ([] : List β) (n + 1) = .left a :: merged cmp l [] n := rfl

theorem merged_nil_cons (cmp : α → β → Ordering) (b : β) (r : List β) (n : Nat) :
    merged cmp ([] : List α) (b :: r) (n + 1) = .right b :: merged cmp [] r n := rfl

theorem merged_cons_cons (cmp : α → β → Ordering) (a : α) (l : List α) (b : β) (r : List β)
    (n : Nat) :
    merged cmp (a :: l) (b :: r) (n + 1) =
      match cmp a b with
      | .eq => .both a b :: merged cmp l r n
      | .lt => .left a :: merged cmp l (b :: r) n
      | .gt => .right b :: merged cmp (a :: l) r n := by
  unfold merged
  rw [MergeIterator.take]
  simp only [MergeIterator.next, MergeIterator.new, List.head?_cons, List.tail_cons]
  cases cmp a b <;> rfl

/-- Induction principle: every property of the merge of two lists with enough steps. -/
theorem merged_ind (cmp : α → β → Ordering)
    (P : List α → List β → List (MergeResult α β) → Prop)
    (h0 : P [] [] [])
    (h1 : ∀ a l out, P l [] out → P (a :: l) [] (.left a :: out))
    (h2 : ∀ b r out, P [] r out → P [] (b :: r) (.right b :: out))
    (heq : ∀ a l b r out, cmp a b = .eq → P l r out → P (a :: l) (b :: r) (.both a b :: out))
    (hlt : ∀ a l b r out, cmp a b = .lt → P l (b :: r) out →
      P (a :: l) (b :: r) (.left a :: out))
    (hgt : ∀ a l b r out, cmp a b = .gt → P (a :: l) r out →
      P (a :: l) (b :: r) (.right b :: out)) :
    ∀ n l r, l.length + r.length ≤ n → P l r (merged cmp l r n) := by
  intro n
  induction n with
  | zero =>
    intro l r h
    have h1 : l = [] := List.eq_nil_of_length_eq_zero (by omega)
    have h2 : r = [] := List.eq_nil_of_length_eq_zero (by omega)
    subst h1 h2
    exact h0
  | succ n ih =>
    intro l r h
    cases l with
    | nil =>
      cases r with
      | nil => rw [merged_nil_nil]; exact h0
      | cons b r =>
        rw [merged_nil_cons]
        exact h2 _ _ _ (ih _ _ (by simp at h ⊢; omega))
    | cons a l =>
      cases r with
      | nil =>
        rw [merged_cons_nil]
        exact h1 _ _ _ (ih _ _ (by simp at h ⊢; omega))
      | cons b r =>
        rw [merged_cons_cons]
        simp only [List.length_cons] at h
        cases hc : cmp a b
        · exact hlt _ _ _ _ _ hc (ih _ _ (by simp; omega))
        · exact heq _ _ _ _ _ hc (ih _ _ (by omega))
        · exact hgt _ _ _ _ _ hc (ih _ _ (by simp; omega))

section keys
variable {cmp : κ → κ → Ordering} [Std.TransCmp cmp] {kl : α → κ} {kr : β → κ}

theorem lt_of_lt_le {a b c : κ} (h1 : cmp a b = .lt) (h2 : cmp b c ≠ .gt) : cmp a c = .lt := by
  have : (cmp b c).isLE := by cases h : cmp b c <;> simp_all
  exact Std.TransCmp.lt_of_lt_of_isLE h1 this

theorem le_trans {a b c : κ} (h1 : cmp a b ≠ .gt) (h2 : cmp b c ≠ .gt) : cmp a c ≠ .gt := by
  have h1' : (cmp a b).isLE := by cases h : cmp a b <;> simp_all
  have h2' : (cmp b c).isLE := by cases h : cmp b c <;> simp_all
  have := Std.TransCmp.isLE_trans h1' h2'
  intro h; rw [h] at this; cases this

theorem lt_of_gt {a b : κ} (h1 : cmp a b = .gt) : cmp b a = .lt :=
  Std.OrientedCmp.lt_of_gt h1

theorem gt_of_lt {a b : κ} (h1 : cmp a b = .lt) : cmp b a = .gt :=
  Std.OrientedCmp.gt_of_lt h1

theorem eq_symm {a b : κ} (h1 : cmp a b = .eq) : cmp b a = .eq :=
  Std.OrientedCmp.eq_symm h1

theorem eq_congr {a b : κ} (h1 : cmp a b = .eq) (c : κ) : cmp a c = cmp b c :=
  Std.TransCmp.congr_left h1

theorem cmp_self (a : κ) : cmp a a = .eq := Std.ReflCmp.compare_self

theorem not_gt_self (a : κ) : cmp a a ≠ .gt := by
  have h : cmp a a = .eq := cmp_self a
  rw [h]; simp

theorem totalPreorder_key {γ : Type x} (k : γ → κ) :
    TotalPreorder (fun x y : γ => cmp (k x) (k y) != .gt) := by
  constructor
  · intro a b
    by_cases h : cmp (k a) (k b) = .gt
    · right; simp [lt_of_gt h]
    · left; simp [h]
  · intro a b c h1 h2
    simp at h1 h2 ⊢
    exact le_trans h1 h2

end keys

section counts
variable (cmp : κ → κ → Ordering)

theorem countKey_cons {γ : Type x} (k : γ → κ) (c : κ) (a : γ) (l : List γ) :
    countKey cmp k c (a :: l) = (if cmp (k a) c = .eq then 1 else 0) + countKey cmp k c l := by
  unfold countKey
  by_cases h : cmp (k a) c = .eq
  · simp [h]; omega
  · simp [h]

theorem countBoth_left (kl : α → κ) (c : κ) (a : α) (l : List (MergeResult α β)) :
    countBoth cmp kl c (.left a :: l) = countBoth cmp kl c l := by
  simp [countBoth]

theorem countBoth_right (kl : α → κ) (c : κ) (b : β) (l : List (MergeResult α β)) :
    countBoth cmp kl c (.right b :: l) = countBoth cmp kl c l := by
  simp [countBoth]

theorem countBoth_both (kl : α → κ) (c : κ) (a : α) (b : β) (l : List (MergeResult α β)) :
    countBoth cmp kl c (.both a b :: l) =
      (if cmp (kl a) c = .eq then 1 else 0) + countBoth cmp kl c l := by
  unfold countBoth
  by_cases h : cmp (kl a) c = .eq
  · simp [h]; omega
  · simp [h]

theorem countKey_stableSort {γ : Type x} (k : γ → κ) (le : γ → γ → Bool) (xs : List γ) (c : κ) :
    countKey cmp k c (stableSort le xs) = countKey cmp k c xs :=
  ((stableSort_perm le xs).filter _).length_eq

theorem countKey_eq_zero {γ : Type x} (k : γ → κ) (c : κ) (l : List γ)
    (h : ∀ x ∈ l, cmp (k x) c ≠ .eq) : countKey cmp k c l = 0 := by
  unfold countKey
  rw [List.length_eq_zero_iff, List.filter_eq_nil_iff]
  intro x hx hxc
  exact h x hx (by simpa using hxc)

end counts

theorem sortedBy_stableSort {γ : Type x} (cmpSort cmp : κ → κ → Ordering) [Std.TransCmp cmpSort]
    (href : ∀ x y, cmpSort x y ≠ .gt → cmp x y ≠ .gt) (k : γ → κ) (xs : List γ) :
    SortedBy cmp k (stableSort (fun x y => cmpSort (k x) (k y) != .gt) xs) := by
  refine (stableSort_sorted (totalPreorder_key k) xs).imp ?_
  intro a b h
  exact href _ _ (by simpa using h)

end Verif.Merge
