import Verif.Turn.Twin
import Verif.Turn.Merges
import Verif.Turn.Spec
/-!
# C104: lists of items the other way round
-/
namespace Verif.Turn
open Verif.Print Verif.Item Verif.Namespace Verif.Types Verif.Layout Verif.Path Verif.Opts Verif.Merge Verif.Range
  Verif.File Verif.Show Verif.Order

variable {po : Print.Opts}

/-! ### Merged lists -/

theorem sortListD_twin {γ : Type} (ho : po.html = false) {o : Options} {r r' : α → γ → α → γ → Res Ordering} {ha hb : γ}
    {p q : α → Option P} {diff diff' : α → α → Option D} {items : List (MergeResult α α)} {e e' : D}
    (h : sortListD o r ha hb p q diff items = some e)
    (h' : sortListD (turnOptions o) r' hb ha q p diff' (items.map flipItem) = some e')
    (hd : ∀ a b, .both a b ∈ items → ∀ x y, diff a b = some x → diff' b a = some y → Twin po x y) : Twin po e e' := by
  simp only [sortListD, Option.bind_eq_bind, Option.bind_eq_some_iff, Option.map_eq_some_iff, diffOrder] at h h'
  obtain ⟨l, hl, ds, hds, rfl⟩ := h
  obtain ⟨l', hl', ds', hds', rfl⟩ := h'
  have key : ∀ it ∈ items, ∀ x y, sortItemD o p q diff it = some x →
      sortItemD (turnOptions o) q p diff' (flipItem it) = some y → Twin po x y := by
    intro it hit x y hx hy
    cases it with
    | both a b =>
      simp only [flipItem, sortItemD, Option.map_eq_some_iff] at hx hy
      obtain ⟨x, hx, rfl⟩ := hx
      obtain ⟨y, hy, rfl⟩ := hy
      exact Twin.printIfDiff ho (hd a b hit x y hx hy)
    | left a =>
      simp only [flipItem, sortItemD, turnOptions] at hx hy
      cases ho : o.ignoreDeleted
      · simp only [ho, Bool.false_eq_true, if_false, Option.map_eq_some_iff] at hx hy
        obtain ⟨x, hx, rfl⟩ := hx
        obtain ⟨y, hy, rfl⟩ := hy
        rw [hx] at hy
        cases hy
        exact Twin.deleted x
      · simp only [ho, if_true, Option.some.injEq] at hx hy
        subst hx hy
        exact Twin.skip
    | right b =>
      simp only [flipItem, sortItemD, turnOptions] at hx hy
      cases ho : o.ignoreAdded
      · simp only [ho, Bool.false_eq_true, if_false, Option.map_eq_some_iff] at hx hy
        obtain ⟨x, hx, rfl⟩ := hx
        obtain ⟨y, hy, rfl⟩ := hy
        rw [hx] at hy
        cases hy
        exact (Twin.deleted x).symm
      · simp only [ho, if_true, Option.some.injEq] at hx hy
        subst hx hy
        exact Twin.skip
  refine Twin.seqs_mem ho ?_ ?_
  · intro x hx
    obtain ⟨it, hit, hf⟩ := mapM_mem hds x hx
    have hit := (sortWith_perm hl).mem_iff.1 hit
    obtain ⟨y, hy, hg⟩ := mapM_image hds' (flipItem it) ((sortWith_perm hl').mem_iff.2 (List.mem_map_of_mem hit))
    exact ⟨y, hy, key it hit x y hf hg⟩
  · intro y hy
    obtain ⟨it, hit, hg⟩ := mapM_mem hds' y hy
    obtain ⟨it, hit', rfl⟩ := List.mem_map.1 ((sortWith_perm hl').mem_iff.1 hit)
    obtain ⟨x, hx, hf⟩ := mapM_image hds it ((sortWith_perm hl).mem_iff.2 hit')
    exact ⟨x, hx, key it hit' x y hf hg⟩

/-! ### Lists with shortest differences -/

theorem all_both {items : List (MergeResult α α)} (h : ∀ it ∈ items, ∃ a b, it = .both a b) :
    items = List.zipWith MergeResult.both (oldItems items) (newItems items) := by
  induction items with
  | nil => rfl
  | cons x xs ih =>
    obtain ⟨a, b, rfl⟩ := h x (by simp)
    have := ih fun it hit => h it (by simp [hit])
    simp only [oldItems, newItems, List.filterMap_cons, oldItem, newItem, List.zipWith_cons_cons]
    exact congrArg _ this

theorem cost_zero {w : Prices α} (hw : ∀ a, 0 < w.alone a) (items : List (MergeResult α α)) :
    w.cost items = 0 ↔ ∀ it ∈ items, ∃ a b, it = .both a b ∧ w.pair a b = 0 := by
  induction items with
  | nil => simp [Prices.cost, totalCost]
  | cons x xs ih =>
    have e : w.cost (x :: xs) = itemCost w.alone w.alone w.pair x + w.cost xs := by
      simp only [Prices.cost, totalCost, List.map_cons, List.sum_cons]
    rw [e, Nat.add_eq_zero_iff, ih]
    simp only [List.mem_cons, forall_eq_or_imp]
    refine and_congr ?_ Iff.rfl
    cases x with
    | left a => simp only [itemCost, reduceCtorEq, false_and, exists_false, iff_false]; have := hw a; omega
    | right a => simp only [itemCost, reduceCtorEq, false_and, exists_false, iff_false]; have := hw a; omega
    | both a b =>
      simp only [itemCost]
      refine ⟨fun h => ⟨a, b, rfl, h⟩, ?_⟩
      rintro ⟨x, y, h, h0⟩
      cases h
      exact h0

theorem both_mem {items : List (MergeResult α α)} {a b : α} (h : .both a b ∈ items) :
    a ∈ oldItems items ∧ b ∈ newItems items :=
  ⟨List.mem_filterMap.2 ⟨_, h, rfl⟩, List.mem_filterMap.2 ⟨_, h, rfl⟩⟩

/-- The diffs of a list. -/
theorem presents_mem {p q : α → Option P} {diff : α → α → Option D} {items : List (MergeResult α α)} {ds : List D}
    (h : All2 (fun it d =>
      (∀ a, it = .left a → ∃ x, p a = some x ∧ d = .prefixDelete x) ∧
      (∀ b, it = .right b → ∃ x, q b = some x ∧ d = .prefixAdd x) ∧
      (∀ a b, it = .both a b → diff a b = some d)) items ds) :
    (∀ it ∈ items, ∃ d ∈ ds, itemD p q diff it = some d) ∧ (∀ d ∈ ds, ∃ it ∈ items, itemD p q diff it = some d) := by
  induction h with
  | nil => simp
  | @cons it d items ds hd _ ih =>
    have hi : itemD p q diff it = some d := by
      cases it with
      | left a => obtain ⟨x, hx, rfl⟩ := hd.1 a rfl; simp [itemD, hx]
      | right b => obtain ⟨x, hx, rfl⟩ := hd.2.1 b rfl; simp [itemD, hx]
      | both a b => exact hd.2.2 a b rfl
    constructor
    · intro it' h'
      rcases List.mem_cons.1 h' with rfl | h'
      · exact ⟨d, by simp, hi⟩
      · obtain ⟨d', hd', hi'⟩ := ih.1 it' h'
        exact ⟨d', by simp [hd'], hi'⟩
    · intro d' h'
      rcases List.mem_cons.1 h' with rfl | h'
      · exact ⟨it, by simp, hi⟩
      · obtain ⟨it', hit', hi'⟩ := ih.2 d' h'
        exact ⟨it', by simp [hit'], hi'⟩

/-- What is known of the two diffs of lists. -/
structure Lists (po : Print.Opts) (p q : α → Option P) (diff diff' : α → α → Option D) (c : α → Nat)
    (cost cost' : α → α → Nat) (A B : α → Nat → Nat → Prop) (la lb : List α) : Prop where
  pos : ∀ a, 0 < c a
  costs : ∀ a b, cost' b a = cost a b
  old : ∀ a ∈ la, ∀ x, p a = some x → ∀ i m d, x.ls po.http i m d = [] ↔ A a i d
  new : ∀ b ∈ lb, ∀ x, q b = some x → ∀ i m d, x.ls po.http i m d = [] ↔ B b i d
  empty : ∀ a ∈ la, ∀ b ∈ lb, ∀ x, diff a b = some x → ∀ i m d, (x.den po i m d).1 = [] ↔ A a i d ∧ B b i d
  empty' : ∀ a ∈ la, ∀ b ∈ lb, ∀ x, diff' b a = some x → ∀ i m d, (x.den po i m d).1 = [] ↔ A a i d ∧ B b i d
  twin : ∀ a ∈ la, ∀ b ∈ lb, ∀ x y, diff a b = some x → diff' b a = some y → Twin po x y
  quiet : ∀ a ∈ la, ∀ b ∈ lb, ∀ x, diff a b = some x → cost a b < c a + c b → ∀ i m d, (x.den po i m d).2.1 = false →
    cost a b = 0
  quiet' : ∀ a ∈ la, ∀ b ∈ lb, ∀ x, diff' b a = some x → cost a b < c a + c b → ∀ i m d, (x.den po i m d).2.1 = false →
    cost a b = 0

theorem Lists.turn {p q : α → Option P} {diff diff' : α → α → Option D} {c : α → Nat}
    {cost cost' : α → α → Nat} {A B : α → Nat → Nat → Prop} {la lb : List α}
    (h : Lists po p q diff diff' c cost cost' A B la lb) : Lists po q p diff' diff c cost' cost B A lb la where
  pos := h.pos
  costs a b := (h.costs b a).symm
  old := h.new
  new := h.old
  empty a ha b hb x hx i m d := (h.empty' b hb a ha x hx i m d).trans And.comm
  empty' a ha b hb x hx i m d := (h.empty b hb a ha x hx i m d).trans And.comm
  twin a ha b hb x y hx hy := (h.twin b hb a ha y x hy hx).symm
  quiet a ha b hb x hx hc i m d hq := by
    rw [h.costs] at hc ⊢
    exact h.quiet' b hb a ha x hx (by omega) i m d hq
  quiet' a ha b hb x hx hc i m d hq := by
    rw [h.costs] at hc ⊢
    exact h.quiet b hb a ha x hx (by omega) i m d hq

theorem list_empty (ho : po.html = false) {Q : Heap} {p q : α → Option P} {diff diff' : α → α → Option D} {c : α → Nat}
    {cost cost' : α → α → Nat} {A B : α → Nat → Nat → Prop} {la lb : List α} {e : D}
    (h : Lists po p q diff diff' c cost cost' A B la lb) (he : listD Q p q diff c c cost la lb = some e)
    (i : Nat) (m : DiffPrefix) (d : Nat) :
    (e.den po i m d).1 = [] ↔ (∀ a ∈ la, A a i d) ∧ (∀ b ∈ lb, B b i d) := by
  obtain ⟨items, hb, ds, rfl, hp⟩ := listD_best (w := ⟨c, cost⟩) he rfl rfl rfl
  have hm := presents_mem hp
  rw [(seqs_den po ho ds i m m d).1]
  constructor
  · intro hds
    constructor
    · intro a ha
      have ha' : a ∈ oldItems items := hb.old.symm ▸ ha
      obtain ⟨it, hit, hi⟩ := List.mem_filterMap.1 ha'
      obtain ⟨x, hx, hx'⟩ := hm.1 it hit
      have hx0 := hds x hx
      cases it with
      | left a' =>
        cases hi
        simp only [itemD, Option.map_eq_some_iff] at hx'
        obtain ⟨y, hy, rfl⟩ := hx'
        exact (h.old a ha y hy i .delete d).1 hx0
      | right b => cases hi
      | both a' b =>
        cases hi
        exact ((h.empty a ha b (hb.new ▸ (both_mem hit).2) x hx' i m d).1 hx0).1
    · intro b hb'
      have hb'' : b ∈ newItems items := hb.new.symm ▸ hb'
      obtain ⟨it, hit, hi⟩ := List.mem_filterMap.1 hb''
      obtain ⟨x, hx, hx'⟩ := hm.1 it hit
      have hx0 := hds x hx
      cases it with
      | left a' => cases hi
      | right b' =>
        cases hi
        simp only [itemD, Option.map_eq_some_iff] at hx'
        obtain ⟨y, hy, rfl⟩ := hx'
        exact (h.new b hb' y hy i .add d).1 hx0
      | both a' b' =>
        cases hi
        exact ((h.empty a' (hb.old ▸ (both_mem hit).1) b hb' x hx' i m d).1 hx0).2
  · rintro ⟨hA, hB⟩ x hx
    obtain ⟨it, hit, hx'⟩ := hm.2 x hx
    cases it with
    | left a =>
      have ha : a ∈ la := hb.old ▸ List.mem_filterMap.2 ⟨_, hit, rfl⟩
      simp only [itemD, Option.map_eq_some_iff] at hx'
      obtain ⟨y, hy, rfl⟩ := hx'
      exact (h.old a ha y hy i .delete d).2 (hA a ha)
    | right b =>
      have hb' : b ∈ lb := hb.new ▸ List.mem_filterMap.2 ⟨_, hit, rfl⟩
      simp only [itemD, Option.map_eq_some_iff] at hx'
      obtain ⟨y, hy, rfl⟩ := hx'
      exact (h.new b hb' y hy i .add d).2 (hB b hb')
    | both a b =>
      have ha : a ∈ la := hb.old ▸ (both_mem hit).1
      have hb' : b ∈ lb := hb.new ▸ (both_mem hit).2
      exact (h.empty a ha b hb' x hx' i m d).2 ⟨hA a ha, hB b hb'⟩

theorem list_quiet (ho : po.html = false) {Q Q' : Heap} {p q : α → Option P} {diff diff' : α → α → Option D} {c : α → Nat}
    {cost cost' : α → α → Nat} {A B : α → Nat → Nat → Prop} {la lb : List α} {e e' : D}
    (h : Lists po p q diff diff' c cost cost' A B la lb) (he : listD Q p q diff c c cost la lb = some e)
    (he' : listD Q' q p diff' c c cost' lb la = some e')
    (i : Nat) (m : DiffPrefix) (d : Nat) (hq : (e.den po i m d).2.1 = false) : (e'.den po i m d).2.1 = false := by
  obtain ⟨items, hb, ds, rfl, hp⟩ := listD_best (w := ⟨c, cost⟩) he rfl rfl rfl
  obtain ⟨items', hb', ds', rfl, hp'⟩ := listD_best (w := ⟨c, cost'⟩) he' rfl rfl rfl
  have hm := presents_mem hp
  have hm' := presents_mem hp'
  have hds : ∀ x ∈ ds, (x.den po i m d).2.1 = false := by
    intro x hx
    cases hx' : (x.den po i m d).2.1
    · rfl
    · exact absurd ((seqs_den po ho ds i m m d).2.2 ⟨x, hx, hx'⟩) (by rw [hq]; simp)
  have hz : ∀ it ∈ items, ∃ a b, it = .both a b ∧ cost a b = 0 := by
    intro it hit
    obtain ⟨x, hx, hx'⟩ := hm.1 it hit
    have hx0 := hds x hx
    cases it with
    | left a =>
      simp only [itemD, Option.map_eq_some_iff] at hx'
      obtain ⟨y, hy, rfl⟩ := hx'
      simp [D.den] at hx0
    | right b =>
      simp only [itemD, Option.map_eq_some_iff] at hx'
      obtain ⟨y, hy, rfl⟩ := hx'
      simp [D.den] at hx0
    | both a b =>
      have ha : a ∈ la := hb.old ▸ (both_mem hit).1
      have hb'' : b ∈ lb := hb.new ▸ (both_mem hit).2
      exact ⟨a, b, rfl, h.quiet a ha b hb'' x hx' (hb.worth a b hit) i m d hx0⟩
  have hw : (⟨c, cost'⟩ : Prices α) = (⟨c, cost⟩ : Prices α).flip := by
    simp only [Prices.flip, Prices.mk.injEq, true_and]
    funext b a
    exact h.costs a b
  have c0 : (⟨c, cost⟩ : Prices α).cost items = 0 := (cost_zero h.pos items).2 hz
  have c1 : (⟨c, cost'⟩ : Prices α).cost (items.map flipItem) = 0 := by rw [hw, cost_flip]; exact c0
  have c2 : (⟨c, cost'⟩ : Prices α).cost items' = 0 := by
    have := hb'.least (items.map flipItem) ((oldItems_flip items).trans hb.new) ((newItems_flip items).trans hb.old)
    omega
  have hz' := (cost_zero (w := ⟨c, cost'⟩) h.pos items').1 c2
  have e1 : items' = items.map flipItem := by
    rw [all_both (items := items') fun it hit => by obtain ⟨a, b, r, -⟩ := hz' it hit; exact ⟨a, b, r⟩,
      all_both (items := items.map flipItem) fun it hit => by
        obtain ⟨it, hit', rfl⟩ := List.mem_map.1 hit
        obtain ⟨a, b, rfl, -⟩ := hz it hit'
        exact ⟨b, a, rfl⟩, hb'.old, hb'.new, oldItems_flip, newItems_flip, hb.old, hb.new]
  cases hf : ((D.seqs ds').den po i m d).2.1
  · rfl
  · exfalso
    obtain ⟨y, hy, hy'⟩ := (seqs_den po ho ds' i m m d).2.1 hf
    obtain ⟨it, hit, hyi⟩ := hm'.2 y hy
    rw [e1] at hit
    obtain ⟨it, hit', rfl⟩ := List.mem_map.1 hit
    obtain ⟨a, b, rfl, -⟩ := hz it hit'
    obtain ⟨x, hx, hx'⟩ := hm.1 _ hit'
    have ha : a ∈ la := hb.old ▸ (both_mem hit').1
    have hb'' : b ∈ lb := hb.new ▸ (both_mem hit').2
    have ht := (h.twin a ha b hb'' x y hx' hyi i d m m).2
    rw [hds x hx, hy'] at ht
    cases ht

theorem listD_twin (ho : po.html = false) {Q Q' : Heap} {p q : α → Option P} {diff diff' : α → α → Option D} {c : α → Nat}
    {cost cost' : α → α → Nat} {A B : α → Nat → Nat → Prop} {la lb : List α} {e e' : D}
    (h : Lists po p q diff diff' c cost cost' A B la lb) (he : listD Q p q diff c c cost la lb = some e)
    (he' : listD Q' q p diff' c c cost' lb la = some e') : Twin po e e' := by
  intro i d x y
  refine ⟨?_, ?_⟩
  · rw [list_empty ho h he, list_empty ho h.turn he']
    exact And.comm
  · rw [(steady po ho e' i y x d).2]
    cases h1 : (e.den po i x d).2.1
    · exact (list_quiet ho h he he' i x d h1).symm
    · cases h2 : (e'.den po i x d).2.1
      · rw [list_quiet ho h.turn he' he i x d h2] at h1
        exact h1.symm
      · rfl

/-! ### Numbers and ranges -/

theorem fieldU64_den (l : Str) {a b : Nat} {e : D} (h : D.fieldU64 l a b = some e) (i : Nat) (x : DiffPrefix) (d : Nat) :
    (e.den po i x d).1 ≠ [] ∧ (e.den po i x d).2.1 = decide (a ≠ b) := by
  unfold D.fieldU64 at h
  cases ha : fieldU64Val a a with
  | none => simp [ha] at h
  | some va =>
    cases hb : fieldU64Val a b with
    | none => simp [ha, hb] at h
    | some vb =>
      rw [ha, hb] at h
      cases h
      have hne : va.text' ≠ [] := by
        unfold fieldU64Val at ha
        rw [if_neg (by simp)] at ha
        cases ha
        exact dec_ne_nil a
      have hnb : vb.text' ≠ [] := by
        unfold fieldU64Val at hb
        split at hb
        · simp only [Option.map_eq_some_iff] at hb
          obtain ⟨z, -, rfl⟩ := hb
          simp [Val.text', dec_ne_nil]
        · cases hb
          exact dec_ne_nil b
      by_cases hab : a = b
      · subst hab
        rw [ha] at hb
        cases hb
        simp [D.den, hne]
      · have hv : va.text' ≠ vb.text' := fun hv => hab (fieldU64Val_eq ha hb hv)
        simp [D.den, hv, hne, hnb, hab]

theorem fieldU64_twin (l : Str) {a b : Nat} {e e' : D} (h : D.fieldU64 l a b = some e) (h' : D.fieldU64 l b a = some e') :
    Twin po e e' := by
  intro i d x y
  have h1 := fieldU64_den (po := po) l h i x d
  have h2 := fieldU64_den (po := po) l h' i y d
  refine ⟨iff_of_false h1.1 h2.1, ?_⟩
  rw [h1.2, h2.2, Bool.eq_iff_iff]
  simp only [decide_eq_true_eq]
  exact ⟨Ne.symm, Ne.symm⟩

theorem rangeItemsD_twin (ra rb : List Range) : Twin po (rangeItemsD ra rb) (rangeItemsD rb ra) := by
  unfold rangeItemsD D.ofItems
  rw [Nat.add_comm rb.length, merged_turn (cmp := cmpRange) cmpRange_turn ra rb]
  induction merged cmpRange ra rb (ra.length + rb.length) with
  | nil => exact Twin.skip
  | cons x xs ih =>
    refine Twin.seq ?_ ih
    cases x with
    | left a => exact Twin.deleted _
    | right a => exact (Twin.deleted _).symm
    | both a b => exact Twin.lineSwap _ _ _

end Verif.Turn
