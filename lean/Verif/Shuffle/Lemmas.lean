import Verif.Shuffle.Spec
import Verif.Show.FileItems
/-!
# Lemmas for C102
-/
namespace Verif.Shuffle
open Verif.Types Verif.Item Verif.Opts Verif.Order Verif.Show Verif.Merge

variable {α β : Type}

/-- The laws of a comparison for a fixed bound. -/
structure Laws (r : α → α → Res Ordering) : Prop where
  swap : ∀ {x y o}, r x y = .ok o → r y x = .ok o.swap
  trans : ∀ x y z, T3 (r x y) (r y z) (r x z)

theorem Laws.refl {r : α → α → Res Ordering} (h : Laws r) {x : α} {o : Ordering} (hx : r x x = .ok o) : r x x = .ok .eq := by
  have := h.swap hx
  rw [hx] at this
  cases o
  · cases this
  · exact hx
  · cases this

theorem Reordered.refl (r : α → α → Res Ordering) (l : List α) : Reordered r l l := ⟨.refl _, fun _ _ => rfl⟩

theorem Reordered.filter {r : α → α → Res Ordering} {l l' : List α} (h : Reordered r l l') (p : α → Bool) :
    Reordered r (l.filter p) (l'.filter p) := by
  refine ⟨h.perm.filter p, fun x hx => ?_⟩
  have := h.ties x (List.mem_filter.1 hx).1
  rw [List.filter_filter, List.filter_filter]
  have e : ∀ m : List α, m.filter (fun a => decide (r x a = .ok .eq) && p a) =
      (m.filter fun a => decide (r x a = .ok .eq)).filter p := by
    intro m; rw [List.filter_filter]; congr 1; funext a; exact Bool.and_comm _ _
  rw [e, e, this]

theorem sorted_unique {r : α → α → Res Ordering} (hr : Laws r) : ∀ (a b : List α),
    (∀ x ∈ a, r x x = .ok .eq) →
    a.Pairwise (fun x y => ∃ o, r x y = .ok o ∧ o ≠ .gt) → b.Pairwise (fun x y => ∃ o, r x y = .ok o ∧ o ≠ .gt) → a.Perm b →
    (∀ c ∈ a, a.filter (fun y => decide (r c y = .ok .eq)) = b.filter (fun y => decide (r c y = .ok .eq))) → a = b := by
  intro a
  induction a with
  | nil => intro b _ _ _ hp _; exact (List.nil_perm.1 hp).symm
  | cons x xs ih =>
    intro b hrefl ha hb hp hf
    cases b with
    | nil => exact absurd hp.length_eq (by simp)
    | cons y ys =>
      have hxx := hrefl x (by simp)
      rw [List.pairwise_cons] at ha hb
      have hyy : r y y = .ok .eq := hrefl y (hp.mem_iff.2 (by simp))
      have hxy : ∃ o, r x y = .ok o ∧ o ≠ .gt := by
        rcases List.mem_cons.1 (hp.mem_iff.2 (List.mem_cons_self)) with he | hm
        · rw [he]; exact ⟨_, hxx, by simp⟩
        · exact ha.1 _ hm
      have hyx : ∃ o, r y x = .ok o ∧ o ≠ .gt := by
        rcases List.mem_cons.1 (hp.mem_iff.1 (List.mem_cons_self)) with he | hm
        · rw [he]; exact ⟨_, hyy, by simp⟩
        · exact hb.1 _ hm
      have heq : r x y = .ok .eq := by
        obtain ⟨o, h1, h2⟩ := hxy
        obtain ⟨o', h3, h4⟩ := hyx
        have := hr.swap h1
        rw [h3] at this
        cases this
        cases o
        · simp at h4
        · exact h1
        · simp at h2
      have h1 := hf x (by simp)
      simp only [List.filter_cons, hxx, heq, decide_true, if_true] at h1
      have hxe : x = y := (List.cons.inj h1).1
      subst hxe
      congr 1
      refine ih ys (fun z hz => hrefl z (by simp [hz])) ha.2 hb.2 (List.Perm.cons_inv hp) fun c hc => ?_
      have := hf c (by simp [hc])
      simp only [List.filter_cons] at this
      split at this
      · exact (List.cons.inj this).2
      · exact this

theorem sortWith_none_perm {r : α → α → Res Ordering} {l l' : List α} (hp : l.Perm l') (h : sortWith r l = none) :
    sortWith r l' = none := by
  cases h' : sortWith r l' with
  | none => rfl
  | some m =>
    have hok := sortWith_ok h'
    unfold sortWith at h
    rw [if_pos] at h
    · cases h
    · simp only [List.all_eq_true]
      intro x hx y hy
      obtain ⟨o, ho⟩ := hok x (hp.mem_iff.1 hx) y (hp.mem_iff.1 hy)
      simp [ho]

/-- Sorting forgets the order. -/
theorem sortWith_reordered {r : α → α → Res Ordering} (hr : Laws r) {l l' : List α} (h : Reordered r l l') :
    sortWith r l = sortWith r l' := by
  cases e : sortWith r l with
  | none => exact (sortWith_none_perm h.perm e).symm
  | some m =>
    have hok := sortWith_ok e
    have hok' : OkOn r l' l' := fun x hx y hy => hok x (h.perm.mem_iff.2 hx) y (h.perm.mem_iff.2 hy)
    obtain ⟨m1, e1, a1⟩ := sortWith_spec hok (fun h => hr.swap h) hr.trans
    obtain ⟨m2, e2, a2⟩ := sortWith_spec hok' (fun h => hr.swap h) hr.trans
    rw [e] at e1; cases e1
    rw [e2]
    congr 1
    have hcls : ∀ c : α, ∀ x y, r c x = .ok .eq → r c y = .ok .eq → r x y = .ok .eq := by
      intro c x y hx hy
      obtain ⟨o, ho, -, h3⟩ := hr.trans x c y _ _ (hr.swap hx) hy rfl rfl
      rw [ho, h3.2 ⟨rfl, rfl⟩]
    refine sorted_unique hr m m2 (fun x hx => ?_) a1.sorted a2.sorted (a1.perm.trans (h.perm.trans a2.perm.symm)) fun c hc => ?_
    · obtain ⟨o, ho⟩ := hok x (a1.perm.mem_iff.1 hx) x (a1.perm.mem_iff.1 hx)
      exact hr.refl ho
    · have hcl := a1.perm.mem_iff.1 hc
      rw [a1.stable _ (fun x _ y _ h1 h2 => hcls c x y (of_decide_eq_true h1) (of_decide_eq_true h2)),
        a2.stable _ (fun x _ y _ h1 h2 => hcls c x y (of_decide_eq_true h1) (of_decide_eq_true h2))]
      exact h.ties c hcl

/-! ## Related lists -/

theorem insertBy_all2 {R : α → β → Prop} {le : α → α → Bool} {le' : β → β → Bool}
    (hle : ∀ a b a' b', R a b → R a' b' → le a a' = le' b b') {x : α} {y : β} (hxy : R x y) {l : List α} {m : List β}
    (h : All2 R l m) : All2 R (insertBy le x l) (insertBy le' y m) := by
  induction h with
  | nil => exact .cons hxy .nil
  | cons h1 h2 ih =>
    simp only [insertBy]
    rw [hle _ _ _ _ hxy h1]
    split
    · exact .cons hxy (.cons h1 h2)
    · exact .cons h1 ih

theorem stableSort_all2 {R : α → β → Prop} {le : α → α → Bool} {le' : β → β → Bool}
    (hle : ∀ a b a' b', R a b → R a' b' → le a a' = le' b b') {l : List α} {m : List β}
    (h : All2 R l m) : All2 R (stableSort le l) (stableSort le' m) := by
  induction h with
  | nil => exact .nil
  | cons h1 _ ih => exact insertBy_all2 hle h1 ih

theorem all_all2 {R : α → β → Prop} {p : α → Bool} {q : β → Bool} (hpq : ∀ a b, R a b → p a = q b) {l : List α} {m : List β}
    (h : All2 R l m) : l.all p = m.all q := by
  induction h with
  | nil => rfl
  | cons h1 _ ih => rw [List.all_cons, List.all_cons, hpq _ _ h1, ih]

/-- Two optional results are both missing or both there and related. -/
def OptAll {γ δ : Type} (R : γ → δ → Prop) : Option γ → Option δ → Prop
  | some a, some b => R a b
  | none, none => True
  | _, _ => False

theorem sortWith_all2 {R : α → β → Prop} {r : α → α → Res Ordering} {r' : β → β → Res Ordering}
    (hr : ∀ a b a' b', R a b → R a' b' → r a a' = r' b b') {l : List α} {m : List β}
    (h : All2 R l m) : OptAll (All2 R) (sortWith r l) (sortWith r' m) := by
  have e : (l.all fun x => l.all fun y => r x y != .diverge && r x y != .panic) =
      (m.all fun x => m.all fun y => r' x y != .diverge && r' x y != .panic) :=
    all_all2 (fun a b hab => all_all2 (fun a' b' hab' => by rw [hr _ _ _ _ hab hab']) h) h
  unfold sortWith
  rw [e]
  split
  · exact stableSort_all2 (fun a b a' b' h1 h2 => by rw [hr _ _ _ _ h1 h2]) h
  · trivial

/-- Related results of a merge. -/
inductive RelM {α' β' : Type} (R : α → α' → Prop) (S : β → β' → Prop) : MergeResult α β → MergeResult α' β' → Prop
  | left {a a'} : R a a' → RelM R S (.left a) (.left a')
  | right {b b'} : S b b' → RelM R S (.right b) (.right b')
  | both {a a' b b'} : R a a' → S b b' → RelM R S (.both a b) (.both a' b')

/-- Related iterators. -/
structure RelIt {α' β' : Type} (R : α → α' → Prop) (S : β → β' → Prop) (s : MergeIterator α β) (t : MergeIterator α' β') : Prop where
  left : All2 R s.iterLeft t.iterLeft
  right : All2 S s.iterRight t.iterRight
  itemLeft : OptAll R s.itemLeft t.itemLeft
  itemRight : OptAll S s.itemRight t.itemRight

theorem all2_head {R : α → β → Prop} {l : List α} {m : List β} (h : All2 R l m) : OptAll R l.head? m.head? := by
  cases h with
  | nil => trivial
  | cons h _ => exact h

theorem all2_tail {R : α → β → Prop} {l : List α} {m : List β} (h : All2 R l m) : All2 R l.tail m.tail := by
  cases h with
  | nil => exact .nil
  | cons _ h => exact h

theorem take_all2 {α' β' : Type} {R : α → α' → Prop} {S : β → β' → Prop} {cmp : α → β → Ordering} {cmp' : α' → β' → Ordering}
    (hc : ∀ a a' b b', R a a' → S b b' → cmp a b = cmp' a' b') (n : Nat) :
    ∀ {s : MergeIterator α β} {t : MergeIterator α' β'}, RelIt R S s t → All2 (RelM R S) (s.take cmp n) (t.take cmp' n) := by
  induction n with
  | zero => intro s t _; exact .nil
  | succ n ih =>
    intro s t h
    obtain ⟨sl, sr, si, sj⟩ := s
    obtain ⟨tl, tr, ti, tj⟩ := t
    obtain ⟨h1, h2, h3, h4⟩ := h
    simp only at h1 h2 h3 h4
    cases si <;> cases ti <;> simp only [OptAll] at h3 <;> cases sj <;> cases tj <;> simp only [OptAll] at h4
    · simp only [MergeIterator.take, MergeIterator.next]; exact .nil
    · simp only [MergeIterator.take, MergeIterator.next]
      exact .cons (.right h4) (ih ⟨h1, all2_tail h2, trivial, all2_head h2⟩)
    · simp only [MergeIterator.take, MergeIterator.next]
      exact .cons (.left h3) (ih ⟨all2_tail h1, h2, all2_head h1, trivial⟩)
    · simp only [MergeIterator.take, MergeIterator.next]
      rw [hc _ _ _ _ h3 h4]
      split <;> rename_i heq
      · split at heq
        all_goals
          rename_i hcmp
          simp only [Option.some.injEq, Prod.mk.injEq] at heq
          obtain ⟨rfl, rfl⟩ := heq
          simp only [hcmp]
        · exact .cons (.both h3 h4) (ih ⟨all2_tail h1, all2_tail h2, all2_head h1, all2_head h2⟩)
        · exact .cons (.left h3) (ih ⟨all2_tail h1, h2, all2_head h1, h4⟩)
        · exact .cons (.right h4) (ih ⟨h1, all2_tail h2, h3, all2_head h2⟩)
      · split at heq <;> cases heq

theorem all2_length {R : α → β → Prop} {l : List α} {m : List β} (h : All2 R l m) : l.length = m.length := by
  induction h with
  | nil => rfl
  | cons _ _ ih => simp [ih]

theorem mergeWith_all2 {α' β' : Type} {R : α → α' → Prop} {S : β → β' → Prop} {r : α → β → Res Ordering} {r' : α' → β' → Res Ordering}
    (hr : ∀ a a' b b', R a a' → S b b' → r a b = r' a' b') {l : List α} {l' : List α'} {m : List β} {m' : List β'}
    (h : All2 R l l') (g : All2 S m m') : OptAll (All2 (RelM R S)) (mergeWith r l m) (mergeWith r' l' m') := by
  have e : (l.all fun x => m.all fun y => r x y != .diverge && r x y != .panic) =
      (l'.all fun x => m'.all fun y => r' x y != .diverge && r' x y != .panic) :=
    all_all2 (fun a b hab => all_all2 (fun a' b' hab' => by rw [hr _ _ _ _ hab hab']) g) h
  unfold mergeWith
  rw [e]
  split
  · show All2 (RelM R S) _ _
    rw [all2_length h, all2_length g]
    exact take_all2 (fun a a' b b' h1 h2 => by rw [hr _ _ _ _ h1 h2]) _
      ⟨all2_tail h, all2_tail g, all2_head h, all2_head g⟩
  · trivial

theorem mapM_all2_eq {γ : Type} {R : α → β → Prop} {f : α → Option γ} {g : β → Option γ} (hfg : ∀ a b, R a b → f a = g b)
    {l : List α} {m : List β} (h : All2 R l m) : l.mapM f = m.mapM g := by
  induction h with
  | nil => rfl
  | cons h1 _ ih => rw [List.mapM_cons, List.mapM_cons, hfg _ _ h1, ih]

theorem all2_refl {R : α → α → Prop} (h : ∀ a, R a a) : ∀ l : List α, All2 R l l
  | [] => .nil
  | a :: l => .cons (h a) (all2_refl h l)

theorem all2_filter {R : α → β → Prop} {p : α → Bool} {q : β → Bool} (hpq : ∀ a b, R a b → p a = q b) {l : List α} {m : List β}
    (h : All2 R l m) : All2 R (l.filter p) (m.filter q) := by
  induction h with
  | nil => exact .nil
  | cons h1 _ ih =>
    rw [List.filter_cons, List.filter_cons, hpq _ _ h1]
    split
    · exact .cons h1 ih
    · exact ih

end Verif.Shuffle
