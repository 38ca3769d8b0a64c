import Verif.Range.Lemmas
/-!
# Property theorems C01-C05, C61 (address ranges)
-/
namespace Verif.Range

/-- **C01.** After any pushes and a sort, the list is canonical: non-empty ranges, increasing,
disjoint, not adjacent, no alignment-padding gap left; sorting again changes nothing. -/
theorem C01_sort_canonical (rs : List Range) :
    Canonical (sort (pushAll [] rs)) ∧
      sort (sort (pushAll [] rs)) = sort (pushAll [] rs) :=
  ⟨canonical_sort _, sort_of_canonical (canonical_sort _)⟩

/-- Non-vacuity of C01: overlapping, inverted, adjacent and padded ranges. -/
example : sort (pushAll [] [⟨40, 50⟩, ⟨9, 3⟩, ⟨0, 1⟩, ⟨16, 20⟩, ⟨20, 22⟩]) =
    [⟨0, 22⟩, ⟨40, 50⟩] := by decide

/-- **C02 (completeness).** No address of a pushed range is lost, before or after sorting. -/
theorem C02_no_address_lost (rs : List Range) (x : Nat) (h : Covers rs x) :
    Covers (pushAll [] rs) x ∧ Covers (sort (pushAll [] rs)) x :=
  ⟨covers_pushAll (.inr h), covers_sort_of_covers (covers_pushAll (.inr h))⟩

/-- **C02 (soundness).** A covered address is in a pushed range, or is one of at most 15
padding bytes between the end of a pushed range and the 16-byte-aligned begin of another
(non-empty) pushed range. -/
theorem C02_only_padding_invented (rs : List Range) (x : Nat)
    (h : Covers (sort (pushAll [] rs)) x) :
    Covers rs x ∨
      ∃ p ∈ rs, ∃ r ∈ rs, p.lo < p.hi ∧ r.lo < r.hi ∧
        p.hi ≤ x ∧ x < r.lo ∧ r.lo % 16 = 0 ∧ r.lo ≤ p.hi + 15 := by
  have hi : Inv (fun b => ∃ r ∈ rs, r.lo < r.hi ∧ r.lo = b) (fun e => ∃ r ∈ rs, r.lo < r.hi ∧ r.hi = e)
      (Covers rs) (pushAll [] rs) := by
    apply Inv.pushAll Inv.nil
    intro r hr hne
    exact ⟨⟨r, hr, hne, rfl⟩, ⟨r, hr, hne, rfl⟩, fun x h1 h2 => ⟨r, hr, h1, h2⟩⟩
  rcases hi.sort.sound x h with h | ⟨e, b, ⟨p, hp, hpn, rfl⟩, ⟨r, hr, hrn, rfl⟩, h1, h2, h3, h4⟩
  · exact .inl h
  · exact .inr ⟨p, hp, r, hr, hpn, hrn, h1, h2, h3, h4⟩

/-- Non-vacuity of C02: padding really is invented. -/
example : Covers (sort (pushAll [] [⟨0, 1⟩, ⟨16, 20⟩])) 7 ∧ ¬ Covers [⟨0, 1⟩, ⟨16, 20⟩] 7 := by
  constructor
  · exact ⟨⟨0, 20⟩, by decide, by decide⟩
  · simp

/-- **C03 (nothing lost).** Subtraction keeps every address of `a` outside `b`; the result is
canonical. -/
theorem C03_subtract_keeps (a b : List Range) (ha : Ordered a) (hb : Ordered b) :
    Canonical (subtract a b) ∧
      ∀ x, Covers a x → ¬ Covers b x → Covers (subtract a b) x := by
  refine ⟨canonical_sort _, fun x h1 h2 => ?_⟩
  unfold subtract
  rw [subtractLoop_eq]
  exact covers_sort_of_covers (covers_pushAll (.inr ((pieces_covers a b ha hb x).2 ⟨h1, h2⟩)))

/-- **C03 (exact up to padding).** Every address of the result is in `a` and outside `b`, or is an
alignment padding byte of that difference. -/
theorem C03_subtract_exact_up_to_padding_partial (a b : List Range) (ha : Ordered a)
    (hb : Ordered b) (x : Nat) (h : Covers (subtract a b) x) :
    (Covers a x ∧ ¬ Covers b x) ∨ PadGap (fun y => Covers a y ∧ ¬ Covers b y) x := by
  have hi : Inv (fun y => Covers a y ∧ ¬ Covers b y)
      (fun e => 0 < e ∧ (Covers a (e - 1) ∧ ¬ Covers b (e - 1)))
      (fun y => Covers a y ∧ ¬ Covers b y) (pushAll [] (pieces a b)) := by
    apply Inv.pushAll Inv.nil
    intro r hr hne
    have hin : ∀ x, r.lo ≤ x → x < r.hi → Covers a x ∧ ¬ Covers b x := fun x h1 h2 =>
      (pieces_covers a b ha hb x).1 ⟨r, hr, h1, h2⟩
    exact ⟨hin _ (Nat.le_refl _) hne, ⟨by omega, hin _ (by omega) (by omega)⟩, hin⟩
  unfold subtract at h
  rw [subtractLoop_eq] at h
  rcases hi.sort.sound x h with h | ⟨e, b', ⟨he0, he⟩, hb', h1, h2, h3, h4⟩
  · exact .inl h
  · exact .inr ⟨e - 1, b', he, hb', by omega, h2, h3, by omega⟩

/-- **C03 (exactness).** Away from alignment padding, subtraction is exactly set difference. -/
theorem C03_subtract_exact_partial (a b : List Range) (ha : Ordered a) (hb : Ordered b) (x : Nat)
    (hx : ¬ PadGap (fun y => Covers a y ∧ ¬ Covers b y) x) :
    Covers (subtract a b) x ↔ (Covers a x ∧ ¬ Covers b x) :=
  ⟨fun h => (C03_subtract_exact_up_to_padding_partial a b ha hb x h).resolve_right hx,
   fun h => (C03_subtract_keeps a b ha hb).2 x h.1 h.2⟩

/-- **C03 (the full claim fails).** A subtracted address can survive: removing `[10,16)` from
`[0,32)` gives back `[0,32)`, because the remainder `[16,32)` is re-merged as alignment
padding. -/
theorem C03_subtract_not_exact :
    ∃ a b : List Range, Canonical a ∧ Canonical b ∧
      ∃ x, Covers b x ∧ Covers (subtract a b) x := by
  refine ⟨[⟨0, 32⟩], [⟨10, 16⟩], ⟨by simp, by simp⟩, ⟨by simp, by simp⟩, 12, by simp, ?_⟩
  unfold subtract
  rw [subtractLoop_eq]
  exact ⟨⟨0, 32⟩, by simp [pieces]; decide, by simp⟩

/-- Likewise an address outside `a` can be added. -/
theorem C03_subtract_can_add :
    ∃ a b : List Range, Canonical a ∧ Canonical b ∧
      ∃ x, ¬ Covers a x ∧ Covers (subtract a b) x := by
  refine ⟨[⟨0, 10⟩, ⟨12, 40⟩], [⟨12, 16⟩], ⟨by simp, by simp [Separated]⟩, ⟨by simp, by simp⟩, 11,
    by simp, ?_⟩
  unfold subtract
  rw [subtractLoop_eq]
  exact ⟨⟨0, 40⟩, by simp [pieces]; decide, by simp⟩

/-- Non-vacuity of C03: unaligned partial overlaps are exact. -/
example : Ordered [⟨0, 100⟩] ∧ Ordered [⟨10, 21⟩, ⟨90, 200⟩] ∧
    subtract [⟨0, 100⟩] [⟨10, 21⟩, ⟨90, 200⟩] = [⟨0, 10⟩, ⟨21, 90⟩] := by
  refine ⟨⟨by simp, by simp⟩, ⟨by simp, by simp⟩, ?_⟩
  unfold subtract
  rw [subtractLoop_eq]
  simp [pieces]; decide

/-- **C04.** The size of a sorted list is the number of addresses it covers (below any bound on
its ends); in particular no subtraction underflows and the total stays below that bound. -/
theorem C04_size_counts_addresses (rs : List Range) (n : Nat)
    (hn : ∀ r ∈ sort (pushAll [] rs), r.hi ≤ n) :
    size? (sort (pushAll [] rs)) = some (coveredBelow (sort (pushAll [] rs)) n) ∧
      coveredBelow (sort (pushAll [] rs)) n ≤ n := by
  refine ⟨size_eq_covered (canonical_sort _) n hn, ?_⟩
  unfold coveredBelow
  exact Nat.le_trans List.countP_le_length (by simp)

/-- **C04 (any list).** The size of any list of ranges is the sum of the lengths of its ranges, and
it is an error only if one of them ends before it begins. -/
theorem C04_size_of_list (l : List Range) (n : Nat) :
    size? l = some n ↔ (∀ r ∈ l, r.lo ≤ r.hi) ∧ n = (l.map fun r => r.hi - r.lo).sum := by
  induction l generalizing n with
  | nil => simp [size?, eq_comm]
  | cons r l ih =>
    simp only [size?, Range.size?, bind, Option.bind_eq_some_iff, List.mem_cons, forall_eq_or_imp, List.map_cons,
      List.sum_cons]
    constructor
    · rintro ⟨s, hs, t, ht, e⟩
      split at hs
      · cases hs
        cases e
        obtain ⟨h1, h2⟩ := (ih t).1 ht
        exact ⟨⟨by assumption, h1⟩, by rw [h2]⟩
      · cases hs
    · rintro ⟨⟨h0, h1⟩, rfl⟩
      exact ⟨_, if_pos h0, _, (ih _).2 ⟨h1, rfl⟩, rfl⟩

example : size? [⟨3, 7⟩, ⟨9, 8⟩] = none ∧ size? [⟨3, 7⟩, ⟨3, 8⟩] = some 9 := by decide

/-- `coveredBelow` counts exactly the addresses satisfying `Covers`. -/
theorem C04_coveredBelow_spec (l : List Range) (n : Nat) :
    coveredBelow l n = ((List.range n).filter (fun x => l.any (fun r => r.contains x))).length ∧
    ∀ x, x ∈ (List.range n).filter (fun x => l.any (fun r => r.contains x)) ↔
      x < n ∧ Covers l x := by
  constructor
  · unfold coveredBelow
    rw [List.countP_eq_length_filter]
    congr 2
    funext x
    congr 1
    funext r
    simp [Range.contains]
  · intro x
    simp [Covers, Range.contains]

example : size? (sort (pushAll [] [⟨3, 7⟩, ⟨100, 200⟩, ⟨5, 9⟩])) = some 106 := by decide

/-- **C05 (true part).** If no pushed range begins on a 16-byte boundary, the resulting list does
not depend on the order of pushes (equal lists, hence equal coverage). -/
theorem C05_order_independent_partial (rs rs' : List Range) (hp : rs.Perm rs')
    (ha : ∀ r ∈ rs, r.lo % 16 ≠ 0) :
    sort (pushAll [] rs) = sort (pushAll [] rs') := by
  apply canonical_ext (canonical_sort _) (canonical_sort _)
  have exact : ∀ rs : List Range, (∀ r ∈ rs, r.lo % 16 ≠ 0) → ∀ x,
      Covers (sort (pushAll [] rs)) x ↔ Covers rs x := by
    intro rs ha x
    constructor
    · intro h
      rcases C02_only_padding_invented rs x h with h | ⟨p, _, r, hr, _, _, _, _, h3, _⟩
      · exact h
      · exact absurd h3 (ha r hr)
    · exact fun h => (C02_no_address_lost rs x h).2
  intro x
  rw [exact rs ha, exact rs' (fun r hr => ha r (hp.mem_iff.2 hr)), covers_perm hp]

/-- **C05 (the full claim fails).** With aligned begins, the coverage depends on push order. -/
theorem C05_order_dependent :
    ∃ rs rs' : List Range, rs.Perm rs' ∧
      ∃ x, Covers (sort (pushAll [] rs)) x ∧ ¬ Covers (sort (pushAll [] rs')) x := by
  refine ⟨[⟨0, 1⟩, ⟨16, 17⟩, ⟨5, 6⟩], [⟨0, 1⟩, ⟨5, 6⟩, ⟨16, 17⟩], ?_, 3, ?_, ?_⟩
  · exact List.Perm.cons _ (List.Perm.swap _ _ _)
  · exact ⟨⟨0, 17⟩, by decide, by decide⟩
  · have : sort (pushAll [] [⟨0, 1⟩, ⟨5, 6⟩, ⟨16, 17⟩]) = [⟨0, 1⟩, ⟨5, 17⟩] := by decide
    rw [this]; simp

example : [(⟨5, 9⟩ : Range), ⟨1, 6⟩].Perm [⟨1, 6⟩, ⟨5, 9⟩] ∧
    ∀ r ∈ [(⟨5, 9⟩ : Range), ⟨1, 6⟩], r.lo % 16 ≠ 0 :=
  ⟨List.Perm.swap _ _ _, by decide⟩

/-- **C61.** With 64-bit arithmetic `push` does not overflow as long as no range ends in the last
15 bytes of the address space, and keeps that bound. -/
theorem C61_push_no_overflow (rs : List Range) (l : RangeList)
    (hl : ∀ r ∈ l, r.hi + 15 < 2 ^ 64) (hr : ∀ r ∈ rs, r.hi + 15 < 2 ^ 64) :
    rs.foldlM pushU64 l = some (pushAll l rs) ∧ ∀ r ∈ pushAll l rs, r.hi + 15 < 2 ^ 64 := by
  induction rs generalizing l with
  | nil => exact ⟨rfl, hl⟩
  | cons r rs ih =>
    have hrr := hr r (by simp)
    have hstep : pushU64 l r = some (push l r) := by
      unfold pushU64 push
      split
      · rfl
      · split
        · rfl
        · rename_i prev hprev
          have := hl prev (List.mem_of_getLast? hprev)
          rw [if_neg]
          · split <;> rfl
          · unfold padding
            simp only [Bool.and_eq_true, decide_eq_true_eq]
            split <;> omega
    have hb : ∀ q ∈ push l r, q.hi + 15 < 2 ^ 64 := by
      rcases eq_nil_or_concat l with rfl | ⟨l, p, rfl⟩
      · rw [push_nil]; split <;> simp; omega
      · rw [push_concat]
        have hp := hl p (by simp)
        split
        · exact hl
        · split
          · intro q hq
            rcases List.mem_append.1 hq with hq | hq
            · exact hl q (by simp [hq])
            · simp only [List.mem_singleton] at hq
              subst hq; simp only; omega
          · intro q hq
            rcases List.mem_append.1 hq with hq | hq
            · exact hl q hq
            · simp only [List.mem_singleton] at hq
              subst hq; exact hrr
    have := ih (push l r) hb (fun q hq => hr q (by simp [hq]))
    refine ⟨?_, this.2⟩
    rw [List.foldlM_cons, hstep]
    exact this.1

/-- **C61 (exactly when).** Pushing one range overflows iff the range is not empty, begins at a
16-byte boundary at or after the beginning of the last range of the list, and that range ends in the
last 15 bytes; in all other cases it does what `push` does. -/
theorem C61_push_exact (l : RangeList) (r : Range) (hl : ∀ p ∈ l, p.hi < 2 ^ 64) :
    (pushU64 l r = none ↔ r.lo < r.hi ∧ r.lo % 16 = 0 ∧
      ∃ p, l.getLast? = some p ∧ p.lo ≤ r.lo ∧ 2 ^ 64 ≤ p.hi + 15) ∧
    (pushU64 l r ≠ none → pushU64 l r = some (push l r)) := by
  unfold pushU64 push
  split
  · refine ⟨⟨(by simp), fun h => ?_⟩, fun _ => rfl⟩
    omega
  · rename_i hne
    cases hg : l.getLast? with
    | none => simp
    | some p =>
      have hp := hl p (List.mem_of_getLast? hg)
      simp only [Bool.and_eq_true, decide_eq_true_eq]
      split
      · rename_i hc
        refine ⟨⟨fun _ => ?_, fun _ => rfl⟩, fun h => absurd rfl h⟩
        unfold padding at hc
        split at hc
        · exact ⟨by omega, by assumption, p, rfl, hc.1, hc.2⟩
        · omega
      · rename_i hc
        have : ¬ (r.lo < r.hi ∧ r.lo % 16 = 0 ∧ ∃ q, some p = some q ∧ q.lo ≤ r.lo ∧ 2 ^ 64 ≤ q.hi + 15) := by
          rintro ⟨_, h16, q, hq, h1, h2⟩
          cases hq
          exact hc ⟨h1, by rw [padding, if_pos h16]; exact h2⟩
        split
        · exact ⟨⟨(fun h => by cases h), fun h => absurd h this⟩, fun _ => rfl⟩
        · exact ⟨⟨(fun h => by cases h), fun h => absurd h this⟩, fun _ => rfl⟩

/-- Non-vacuity of C61 (exactly when): a range that begins before the last one is compared with
nothing, so it does not overflow. -/
example : pushU64 [⟨32, 2 ^ 64 - 2⟩] ⟨16, 24⟩ = some [⟨32, 2 ^ 64 - 2⟩, ⟨16, 24⟩] ∧
    pushU64 [⟨32, 2 ^ 64 - 2⟩] ⟨48, 64⟩ = none := by decide

/-- **C61 (the overflow is real).** Two valid 64-bit ranges whose push overflows. -/
theorem C61_push_overflows :
    ∃ p r : Range, p.lo < p.hi ∧ p.hi < 2 ^ 64 ∧ r.lo < r.hi ∧ r.hi < 2 ^ 64 ∧
      [p, r].foldlM pushU64 [] = none :=
  ⟨⟨0, 2 ^ 64 - 2⟩, ⟨16, 32⟩, by decide⟩

example : ∀ r ∈ [(⟨0, 10⟩ : Range), ⟨16, 2 ^ 64 - 16⟩], r.hi + 15 < 2 ^ 64 := by decide

end Verif.Range
