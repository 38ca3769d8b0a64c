import Verif.Range.Spec
/-! Helper lemmas for the range properties. -/
namespace Verif.Range

theorem push_nil (r : Range) : push [] r = if r.hi ≤ r.lo then [] else [r] := by
  simp [push]

theorem push_concat (l : List Range) (p r : Range) :
    push (l ++ [p]) r =
      if r.hi ≤ r.lo then l ++ [p]
      else if p.lo ≤ r.lo ∧ r.lo ≤ p.hi + padding r.lo then
        l ++ [⟨p.lo, max p.hi r.hi⟩]
      else l ++ [p] ++ [r] := by
  simp only [push, mergeable]
  split
  · rfl
  · simp only [List.getLast?_append, List.getLast?_singleton, Option.some_or]
    simp only [Bool.and_eq_true, decide_eq_true_eq, List.dropLast_concat]
    split
    · congr 2
      split
      · rw [Nat.max_eq_right (by omega)]
      · rw [Nat.max_eq_left (by omega)]
    · rfl

theorem eq_nil_or_concat (l : List Range) : l = [] ∨ ∃ l' p, l = l' ++ [p] := by
  rcases List.eq_nil_or_concat l with h | ⟨l', p, h⟩
  · exact .inl h
  · exact .inr ⟨l', p, by simpa using h⟩

theorem covers_append {l₁ l₂ : List Range} {x : Nat} :
    Covers (l₁ ++ l₂) x ↔ Covers l₁ x ∨ Covers l₂ x := by
  simp [Covers, or_and_right, exists_or]

@[simp] theorem covers_nil {x : Nat} : ¬ Covers [] x := by simp [Covers]

@[simp] theorem covers_cons {r : Range} {l : List Range} {x : Nat} :
    Covers (r :: l) x ↔ (r.lo ≤ x ∧ x < r.hi) ∨ Covers l x := by
  simp [Covers]

theorem covers_push_of_covers {l : List Range} {r : Range} {x : Nat} (h : Covers l x) :
    Covers (push l r) x := by
  rcases eq_nil_or_concat l with rfl | ⟨l, p, rfl⟩
  · simp at h
  · rw [push_concat]
    rw [covers_append] at h
    split
    · exact covers_append.2 h
    · split
      · refine covers_append.2 (h.imp id ?_)
        simp only [covers_cons, covers_nil, or_false]
        omega
      · exact covers_append.2 (.inl (covers_append.2 h))

theorem covers_push_of_mem {l : List Range} {r : Range} {x : Nat} (h : r.lo ≤ x ∧ x < r.hi) :
    Covers (push l r) x := by
  rcases eq_nil_or_concat l with rfl | ⟨l, p, rfl⟩
  · rw [push_nil, if_neg (by omega)]; simpa using h
  · rw [push_concat, if_neg (by omega)]
    split
    · refine covers_append.2 (.inr ?_)
      simp only [covers_cons, covers_nil, or_false]
      omega
    · exact covers_append.2 (.inr (by simpa using h))

theorem covers_pushAll {l rs : List Range} {x : Nat} (h : Covers l x ∨ Covers rs x) :
    Covers (pushAll l rs) x := by
  induction rs generalizing l with
  | nil => simpa [pushAll] using h
  | cons r rs ih =>
    apply ih
    rcases h with h | h
    · exact .inl (covers_push_of_covers h)
    · rcases covers_cons.1 h with h | h
      · exact .inl (covers_push_of_mem h)
      · exact .inr h

theorem covers_perm {l l' : List Range} (h : l.Perm l') {x : Nat} : Covers l x ↔ Covers l' x := by
  simp [Covers, h.mem_iff]

/-- Bookkeeping invariant: begins satisfy `B`, ends satisfy `E`, and coverage is `S` plus
alignment padding between an `E` and a 16-aligned `B`. -/
structure Inv (B E S : Nat → Prop) (l : List Range) : Prop where
  ok : ∀ r ∈ l, r.lo < r.hi ∧ B r.lo ∧ E r.hi
  sound : ∀ x, Covers l x →
    S x ∨ ∃ e b, E e ∧ B b ∧ e ≤ x ∧ x < b ∧ b % 16 = 0 ∧ b ≤ e + 15

theorem padding_le {lo hi : Nat} (h : lo ≤ hi + padding lo) (h' : hi < lo) :
    lo % 16 = 0 ∧ lo ≤ hi + 15 := by
  unfold padding at h
  split at h <;> omega

theorem Inv.nil {B E S : Nat → Prop} : Inv B E S [] :=
  ⟨by simp, fun x h => absurd h covers_nil⟩

theorem Inv.push {B E S : Nat → Prop} {l : List Range} {r : Range} (h : Inv B E S l)
    (hr : r.lo < r.hi → B r.lo ∧ E r.hi ∧ ∀ x, r.lo ≤ x → x < r.hi → S x) :
    Inv B E S (push l r) := by
  rcases eq_nil_or_concat l with rfl | ⟨l, p, rfl⟩
  · rw [push_nil]
    split
    · exact Inv.nil
    · rename_i hlt
      have hr := hr (by omega)
      refine ⟨by simp; exact ⟨by omega, hr.1, hr.2.1⟩, fun x hx => .inl ?_⟩
      simp at hx
      exact hr.2.2 x hx.1 hx.2
  · rw [push_concat]
    split
    · exact h
    · rename_i hlt
      have hr := hr (by omega)
      have hp := h.ok p (by simp)
      split
      · rename_i hm
        refine ⟨?_, ?_⟩
        · intro q hq
          rcases List.mem_append.1 hq with hq | hq
          · exact h.ok q (by simp [hq])
          · simp only [List.mem_singleton] at hq
            subst hq
            refine ⟨by simp only; omega, hp.2.1, ?_⟩
            by_cases hh : p.hi ≤ r.hi
            · simpa only [Nat.max_eq_right hh] using hr.2.1
            · simpa only [Nat.max_eq_left (by omega : r.hi ≤ p.hi)] using hp.2.2
        · intro x hx
          rcases covers_append.1 hx with hx | hx
          · exact h.sound x (covers_append.2 (.inl hx))
          · simp only [covers_cons, covers_nil, or_false] at hx
            by_cases h1 : x < p.hi
            · exact h.sound x (covers_append.2 (.inr (by simp; omega)))
            · by_cases h2 : r.lo ≤ x
              · exact .inl (hr.2.2 x h2 (by omega))
              · right
                have := padding_le hm.2 (by omega)
                exact ⟨p.hi, r.lo, hp.2.2, hr.1, by omega, by omega, this⟩
      · refine ⟨?_, ?_⟩
        · intro q hq
          rcases List.mem_append.1 hq with hq | hq
          · exact h.ok q hq
          · simp only [List.mem_singleton] at hq
            subst hq
            exact ⟨by omega, hr.1, hr.2.1⟩
        · intro x hx
          rcases covers_append.1 hx with hx | hx
          · exact h.sound x hx
          · simp only [covers_cons, covers_nil, or_false] at hx
            exact .inl (hr.2.2 x hx.1 hx.2)

theorem Inv.pushAll {B E S : Nat → Prop} {l rs : List Range} (h : Inv B E S l)
    (hr : ∀ r ∈ rs, r.lo < r.hi → B r.lo ∧ E r.hi ∧ ∀ x, r.lo ≤ x → x < r.hi → S x) :
    Inv B E S (pushAll l rs) := by
  induction rs generalizing l with
  | nil => exact h
  | cons r rs ih =>
    exact ih (h.push (hr r (by simp))) (fun q hq => hr q (by simp [hq]))

/-- Re-pushing a list whose own coverage already satisfies `Inv`. -/
theorem Inv.repush {B E S : Nat → Prop} {l : List Range} (h : Inv B E S l) (l' : List Range)
    (hp : l'.Perm l) : Inv B E S (Range.pushAll [] l') := by
  have hT : Inv B E (fun x => Covers l x) (Range.pushAll [] l') := by
    apply Inv.pushAll Inv.nil
    intro r hr _
    have hr' := hp.mem_iff.1 hr
    exact ⟨(h.ok r hr').2.1, (h.ok r hr').2.2, fun x h1 h2 => ⟨r, hr', h1, h2⟩⟩
  refine ⟨hT.ok, fun x hx => ?_⟩
  rcases hT.sound x hx with hx | hx
  · exact h.sound x hx
  · exact .inr hx

theorem Inv.sort {B E S : Nat → Prop} {l : List Range} (h : Inv B E S l) : Inv B E S (sort l) :=
  h.repush _ (stableSort_perm _ _)

theorem loLe_total : TotalPreorder (fun a b : Range => decide (a.lo ≤ b.lo)) :=
  ⟨fun a b => by simp; omega, fun a b c => by simp; omega⟩

theorem covers_sort_of_covers {l : List Range} {x : Nat} (h : Covers l x) : Covers (sort l) x :=
  covers_pushAll (.inr ((covers_perm (stableSort_perm _ _)).2 h))

theorem separated_of_not_mergeable {p r : Range} (h1 : p.lo ≤ r.lo)
    (h : ¬ (p.lo ≤ r.lo ∧ r.lo ≤ p.hi + padding r.lo)) : Separated p r := by
  have : p.hi + padding r.lo < r.lo := by
    refine Nat.lt_of_not_le fun hh => h ⟨h1, hh⟩
  unfold padding at this
  constructor
  · split at this <;> omega
  · intro h16; rw [if_pos h16] at this; omega

theorem canonical_push {l : List Range} {r : Range} (h : Canonical l) (hl : ∀ q ∈ l, q.lo ≤ r.lo) :
    Canonical (push l r) ∧ ∀ q ∈ push l r, q.lo ≤ r.lo := by
  rcases eq_nil_or_concat l with rfl | ⟨l, p, rfl⟩
  · rw [push_nil]
    split
    · exact ⟨h, hl⟩
    · exact ⟨⟨by simp; omega, by simp⟩, by simp⟩
  · rw [push_concat]
    split
    · exact ⟨h, hl⟩
    · obtain ⟨h1, h2⟩ := h
      rw [List.pairwise_append] at h2
      split
      · rename_i hm
        refine ⟨⟨?_, ?_⟩, ?_⟩
        · intro q hq
          rcases List.mem_append.1 hq with hq | hq
          · exact h1 q (by simp [hq])
          · simp only [List.mem_singleton] at hq
            subst hq
            have := h1 p (by simp)
            simp only; omega
        · rw [List.pairwise_append]
          refine ⟨h2.1, by simp, ?_⟩
          intro a ha b hb
          simp only [List.mem_singleton] at hb
          subst hb
          exact h2.2.2 a ha p (by simp)
        · intro q hq
          rcases List.mem_append.1 hq with hq | hq
          · exact hl q (by simp [hq])
          · simp only [List.mem_singleton] at hq
            subst hq
            exact hm.1
      · rename_i hm
        have hp := hl p (by simp)
        have hsep := separated_of_not_mergeable hp hm
        refine ⟨⟨?_, ?_⟩, ?_⟩
        · intro q hq
          rcases List.mem_append.1 hq with hq | hq
          · exact h1 q hq
          · simp only [List.mem_singleton] at hq
            subst hq; omega
        · rw [List.pairwise_append]
          refine ⟨List.pairwise_append.2 h2, by simp, ?_⟩
          intro a ha b hb
          simp only [List.mem_singleton] at hb
          subst hb
          rcases List.mem_append.1 ha with ha | ha
          · have hap := h2.2.2 a ha p (by simp)
            have hp' := h1 p (by simp)
            exact ⟨by have := hap.1; omega, fun h16 => by
              have := hap.1; have := hsep.1; have := hsep.2 h16; omega⟩
          · simp only [List.mem_singleton] at ha
            subst ha; exact hsep
        · intro q hq
          rcases List.mem_append.1 hq with hq | hq
          · exact hl q hq
          · simp only [List.mem_singleton] at hq
            subst hq; omega

theorem canonical_pushAll {l rs : List Range} (h : Canonical l)
    (hrs : rs.Pairwise (fun a b => a.lo ≤ b.lo)) (hl : ∀ r ∈ rs, ∀ q ∈ l, q.lo ≤ r.lo) :
    Canonical (pushAll l rs) := by
  induction rs generalizing l with
  | nil => exact h
  | cons r rs ih =>
    rw [List.pairwise_cons] at hrs
    have hc := canonical_push h (hl r (by simp))
    exact ih hc.1 hrs.2 (fun s hs q hq => Nat.le_trans (hc.2 q hq) (hrs.1 s hs))

theorem canonical_nil : Canonical [] := ⟨by simp, by simp⟩

theorem canonical_sort (l : List Range) : Canonical (sort l) := by
  apply canonical_pushAll canonical_nil
  · have := stableSort_sorted loLe_total l
    exact this.imp (by simp)
  · simp

theorem pushAll_of_canonical {l rs : List Range} (h : Canonical (l ++ rs)) :
    pushAll l rs = l ++ rs := by
  induction rs generalizing l with
  | nil => simp [pushAll]
  | cons r rs ih =>
    have hpush : push l r = l ++ [r] := by
      have hr := h.1 r (by simp)
      rcases eq_nil_or_concat l with rfl | ⟨l, p, rfl⟩
      · rw [push_nil, if_neg (by omega)]; rfl
      · rw [push_concat, if_neg (by omega), if_neg]
        have := (List.pairwise_append.1 h.2).2.2 p (by simp) r (by simp)
        intro hm
        have h2 := padding_le hm.2 this.1
        have := this.2 h2.1
        omega
    show pushAll (push l r) rs = _
    rw [hpush, ih (by simpa using h)]
    simp

theorem sort_of_canonical {l : List Range} (h : Canonical l) : sort l = l := by
  unfold sort
  rw [stableSort_of_sorted]
  · simpa using pushAll_of_canonical (l := []) (rs := l) (by simpa using h)
  · refine List.Pairwise.imp_of_mem ?_ h.2
    intro a b ha _ hab
    have := h.1 a ha
    have := hab.1
    simp; omega

theorem Canonical.tail {r : Range} {l : List Range} (h : Canonical (r :: l)) : Canonical l :=
  ⟨fun q hq => h.1 q (by simp [hq]), (List.pairwise_cons.1 h.2).2⟩

/-- Two canonical lists covering the same addresses are equal. -/
theorem canonical_ext {l l' : List Range} (h : Canonical l) (h' : Canonical l')
    (hc : ∀ x, Covers l x ↔ Covers l' x) : l = l' := by
  induction l generalizing l' with
  | nil =>
    cases l' with
    | nil => rfl
    | cons b bs =>
      have hb := h'.1 b (by simp)
      exact absurd ((hc b.lo).2 (by simp; omega)) covers_nil
  | cons a as ih =>
    cases l' with
    | nil =>
      have ha := h.1 a (by simp)
      exact absurd ((hc a.lo).1 (by simp; omega)) covers_nil
    | cons b bs =>
      have ha := h.1 a (by simp)
      have hb := h'.1 b (by simp)
      have hsa := (List.pairwise_cons.1 h.2).1
      have hsb := (List.pairwise_cons.1 h'.2).1
      have outA : ∀ x, Covers as x → a.hi < x := by
        rintro x ⟨r, hr, h1, h2⟩
        have := (hsa r hr).1; omega
      have outB : ∀ x, Covers bs x → b.hi < x := by
        rintro x ⟨r, hr, h1, h2⟩
        have := (hsb r hr).1; omega
      have l1 : b.lo ≤ a.lo := by
        rcases covers_cons.1 ((hc a.lo).1 (by simp; omega)) with h | h
        · omega
        · have := outB _ h; omega
      have l2 : a.lo ≤ b.lo := by
        rcases covers_cons.1 ((hc b.lo).2 (by simp; omega)) with h | h
        · omega
        · have := outA _ h; omega
      have u1 : ¬ a.hi < b.hi := by
        intro hlt
        rcases covers_cons.1 ((hc a.hi).2 (by simp; omega)) with h | h
        · omega
        · have := outA _ h; omega
      have u2 : ¬ b.hi < a.hi := by
        intro hlt
        rcases covers_cons.1 ((hc b.hi).1 (by simp; omega)) with h | h
        · omega
        · have := outB _ h; omega
      have hab : a = b := by
        cases a; cases b; simp at *; omega
      subst hab
      congr 1
      apply ih h.tail h'.tail
      intro x
      constructor
      · intro hx
        rcases covers_cons.1 ((hc x).1 (covers_cons.2 (.inr hx))) with h | h
        · have := outA _ hx; omega
        · exact h
      · intro hx
        rcases covers_cons.1 ((hc x).2 (covers_cons.2 (.inr hx))) with h | h
        · have := outB _ hx; omega
        · exact h

/-! ### size -/

theorem countP_range_interval (lo hi n : Nat) (h : hi ≤ n) :
    (List.range n).countP (fun x => decide (lo ≤ x ∧ x < hi)) = hi - lo := by
  induction n generalizing hi with
  | zero => simp; omega
  | succ n ih =>
    rw [List.range_succ, List.countP_append, List.countP_singleton]
    by_cases hh : hi ≤ n
    · rw [ih hi hh]
      simp; omega
    · have : hi = n + 1 := by omega
      subst this
      have e : (List.range n).countP (fun x => decide (lo ≤ x ∧ x < n + 1)) =
          (List.range n).countP (fun x => decide (lo ≤ x ∧ x < n)) := by
        apply List.countP_congr
        intro x hx
        have := List.mem_range.1 hx
        simp; omega
      rw [e, ih n (Nat.le_refl n)]
      by_cases h1 : lo ≤ n
      · simp [h1]; omega
      · simp [h1]; omega

theorem countP_or_disjoint {α : Type _} (l : List α) (p q : α → Bool)
    (h : ∀ x ∈ l, ¬ (p x = true ∧ q x = true)) :
    l.countP (fun x => p x || q x) = l.countP p + l.countP q := by
  induction l with
  | nil => rfl
  | cons a as ih =>
    have ih := ih (fun x hx => h x (by simp [hx]))
    have ha := h a (by simp)
    simp only [List.countP_cons, ih]
    cases hp : p a <;> cases hq : q a <;> simp_all <;> omega

theorem covers_iff_any {l : List Range} {x : Nat} :
    (l.any (fun r => decide (r.lo ≤ x ∧ x < r.hi))) = true ↔ Covers l x := by
  simp [Covers]

theorem size_eq_covered {l : List Range} (h : Canonical l) (n : Nat) (hn : ∀ r ∈ l, r.hi ≤ n) :
    size? l = some (coveredBelow l n) := by
  induction l with
  | nil => simp [size?, coveredBelow]
  | cons r rs ih =>
    have hr := h.1 r (by simp)
    rw [size?, ih h.tail (fun q hq => hn q (by simp [hq]))]
    simp only [Range.size?, if_pos (Nat.le_of_lt hr)]
    have : coveredBelow (r :: rs) n = (r.hi - r.lo) + coveredBelow rs n := by
      unfold coveredBelow
      simp only [List.any_cons]
      rw [countP_or_disjoint, countP_range_interval _ _ _ (hn r (by simp))]
      intro x _ ⟨h1, h2⟩
      rw [covers_iff_any] at h2
      obtain ⟨q, hq, h3, h4⟩ := h2
      have := ((List.pairwise_cons.1 h.2).1 q hq).1
      simp at h1; omega
    rw [this]; rfl

/-! ### subtract -/

/-- The ranges that `subtractLoop` pushes, in order. -/
def pieces : List Range → List Range → List Range
  | [], _ => []
  | r :: rs, [] => r :: pieces rs []
  | r :: rs, o :: os =>
    if o.hi ≤ r.lo then pieces (r :: rs) os
    else if r.hi ≤ o.lo then r :: pieces rs (o :: os)
    else if o.hi < r.hi then
      (if r.lo < o.lo then [⟨r.lo, o.lo⟩] else []) ++ pieces ({ r with lo := o.hi } :: rs) os
    else (if r.lo < o.lo then [⟨r.lo, o.lo⟩] else []) ++ pieces rs (o :: os)
  termination_by rs os => rs.length + os.length

theorem subtractLoop_eq (rs os acc : List Range) :
    subtractLoop rs os acc = pushAll acc (pieces rs os) := by
  fun_induction subtractLoop rs os acc with
  | case1 => simp [pieces, pushAll]
  | case2 r rs acc ih => rw [ih, pieces]; rfl
  | case3 r rs o os acc h ih => rw [ih, pieces, if_pos h]
  | case4 r rs o os acc h h2 ih => rw [ih, pieces, if_neg h, if_pos h2]; rfl
  | case5 r rs o os acc h h2 acc' h3 ih =>
    rw [ih, pieces, if_neg h, if_neg h2, if_pos h3]
    simp only [acc']
    split <;> simp [pushAll]
  | case6 r rs o os acc h h2 acc' h3 ih =>
    rw [ih, pieces, if_neg h, if_neg h2, if_neg h3]
    simp only [acc']
    split <;> simp [pushAll]

theorem Ordered.tail {r : Range} {l : List Range} (h : Ordered (r :: l)) : Ordered l :=
  ⟨fun q hq => h.1 q (by simp [hq]), (List.pairwise_cons.1 h.2).2⟩

theorem Ordered.lt {r : Range} {l : List Range} (h : Ordered (r :: l)) : r.lo < r.hi :=
  h.1 r (by simp)

theorem Ordered.out {r : Range} {l : List Range} (h : Ordered (r :: l)) {x : Nat}
    (hx : Covers l x) : r.hi ≤ x := by
  obtain ⟨q, hq, h1, h2⟩ := hx
  have := (List.pairwise_cons.1 h.2).1 q hq
  omega

theorem Ordered.trim {r : Range} {l : List Range} (h : Ordered (r :: l)) {v : Nat}
    (h2 : v < r.hi) : Ordered ({ r with lo := v } :: l) := by
  refine ⟨?_, ?_⟩
  · intro q hq
    rcases List.mem_cons.1 hq with rfl | hq
    · exact h2
    · exact h.1 q (by simp [hq])
  · rw [List.pairwise_cons]
    exact List.pairwise_cons.1 h.2

theorem pieces_covers (rs os : List Range) (hr : Ordered rs) (ho : Ordered os) (x : Nat) :
    Covers (pieces rs os) x ↔ Covers rs x ∧ ¬ Covers os x := by
  fun_induction pieces rs os with
  | case1 => simp
  | case2 r rs ih => simp [ih hr.tail ho]
  | case3 r rs o os h ih =>
    rw [ih hr ho.tail]
    constructor
    · rintro ⟨h1, h2⟩
      refine ⟨h1, fun hh => ?_⟩
      rcases covers_cons.1 hh with hh | hh
      · rcases covers_cons.1 h1 with h1 | h1
        · omega
        · have := hr.out h1; have := hr.lt; omega
      · exact h2 hh
    · rintro ⟨h1, h2⟩
      exact ⟨h1, fun hh => h2 (covers_cons.2 (.inr hh))⟩
  | case4 r rs o os h h2 ih =>
    simp only [covers_cons, ih hr.tail ho]
    constructor
    · rintro (h1 | ⟨h1, h3⟩)
      · refine ⟨.inl h1, fun hh => ?_⟩
        rcases hh with hh | hh
        · omega
        · have := ho.out hh; have := ho.lt; omega
      · exact ⟨.inr h1, h3⟩
    · rintro ⟨h1 | h1, h3⟩
      · exact .inl h1
      · exact .inr ⟨h1, h3⟩
  | case5 r rs o os h h2 h3 ih =>
    have hlt := ho.lt
    rw [covers_append, ih (hr.trim h3) ho.tail]
    have hhead : Covers (if r.lo < o.lo then [(⟨r.lo, o.lo⟩ : Range)] else []) x ↔
        r.lo ≤ x ∧ x < o.lo := by
      split <;> simp <;> omega
    rw [hhead]
    simp only [covers_cons]
    constructor
    · rintro (h1 | ⟨h1 | h1, h4⟩)
      · refine ⟨.inl (by omega), fun hh => ?_⟩
        rcases hh with hh | hh
        · omega
        · have := ho.out hh; omega
      · exact ⟨.inl (by omega), fun hh => hh.elim (by omega) h4⟩
      · have := hr.out h1
        exact ⟨.inr h1, fun hh => hh.elim (by omega) h4⟩
    · rintro ⟨h1 | h1, h4⟩
      · by_cases hx : x < o.lo
        · exact .inl ⟨h1.1, hx⟩
        · right
          refine ⟨.inl ?_, fun hh => h4 (.inr hh)⟩
          have : ¬ (o.lo ≤ x ∧ x < o.hi) := fun hh => h4 (.inl hh)
          omega
      · right
        exact ⟨.inr h1, fun hh => h4 (.inr hh)⟩
  | case6 r rs o os h h2 h3 ih =>
    have hlt := ho.lt
    rw [covers_append, ih hr.tail ho]
    have hhead : Covers (if r.lo < o.lo then [(⟨r.lo, o.lo⟩ : Range)] else []) x ↔
        r.lo ≤ x ∧ x < o.lo := by
      split <;> simp <;> omega
    rw [hhead]
    simp only [covers_cons]
    constructor
    · rintro (h1 | ⟨h1, h4⟩)
      · refine ⟨.inl (by omega), fun hh => ?_⟩
        rcases hh with hh | hh
        · omega
        · have := ho.out hh; omega
      · exact ⟨.inr h1, h4⟩
    · rintro ⟨h1 | h1, h4⟩
      · left
        have : ¬ (o.lo ≤ x ∧ x < o.hi) := fun hh => h4 (.inl hh)
        omega
      · exact .inr ⟨h1, h4⟩

theorem pieces_nonempty (rs os : List Range) (hr : Ordered rs) : ∀ r ∈ pieces rs os, r.lo < r.hi := by
  fun_induction pieces rs os with
  | case1 => simp
  | case2 r rs ih =>
    intro q hq
    rcases List.mem_cons.1 hq with rfl | hq
    · exact hr.lt
    · exact ih hr.tail q hq
  | case3 r rs o os h ih => exact ih hr
  | case4 r rs o os h h2 ih =>
    intro q hq
    rcases List.mem_cons.1 hq with rfl | hq
    · exact hr.lt
    · exact ih hr.tail q hq
  | case5 r rs o os h h2 h3 ih =>
    intro q hq
    rcases List.mem_append.1 hq with hq | hq
    · split at hq
      · simp only [List.mem_singleton] at hq; subst hq; assumption
      · simp at hq
    · exact ih (hr.trim h3) q hq
  | case6 r rs o os h h2 h3 ih =>
    intro q hq
    rcases List.mem_append.1 hq with hq | hq
    · split at hq
      · simp only [List.mem_singleton] at hq; subst hq; assumption
      · simp at hq
    · exact ih hr.tail q hq

theorem Canonical.ordered {l : List Range} (h : Canonical l) : Ordered l :=
  ⟨h.1, h.2.imp (fun h => Nat.le_of_lt h.1)⟩

end Verif.Range
