import Verif.Range.Props
/-!
# Exact characterisation of `RangeList::sort`, and what push order can change (C05)
-/
namespace Verif.Range

/-- `x` lies in a gap of the range set `l` that sorting fills: between the end of one range and
the 16-byte-aligned begin of another at most 15 bytes later, with no range beginning in between. -/
def Filled (l : List Range) (x : Nat) : Prop :=
  ∃ p ∈ l, ∃ r ∈ l, p.lo < p.hi ∧ r.lo < r.hi ∧ p.hi ≤ x ∧ x < r.lo ∧ r.lo % 16 = 0 ∧
    r.lo ≤ p.hi + 15 ∧ ∀ q ∈ l, q.lo < q.hi → x < q.lo → r.lo ≤ q.lo

/-- What `acc` says about the pushed prefix `s`. -/
structure Exact (s acc : List Range) : Prop where
  cov : ∀ x, Covers acc x ↔ Covers s x ∨ Filled s x
  nil : acc = [] → ∀ q ∈ s, q.hi ≤ q.lo
  lastEnd : ∀ l p, acc = l ++ [p] → (∃ q ∈ s, q.lo < q.hi ∧ q.hi = p.hi) ∧
    (∀ q ∈ s, q.lo < q.hi → q.hi ≤ p.hi) ∧ (∃ q ∈ s, q.lo = p.lo) ∧ p.lo < p.hi

theorem filled_snoc {s : List Range} {r : Range} {x : Nat} (hs : ∀ q ∈ s, q.lo ≤ r.lo) :
    Filled (s ++ [r]) x ↔ Filled s x ∨
      ∃ p ∈ s, p.lo < p.hi ∧ r.lo < r.hi ∧ p.hi ≤ x ∧ x < r.lo ∧ r.lo % 16 = 0 ∧
        r.lo ≤ p.hi + 15 ∧ ∀ q ∈ s, q.lo < q.hi → x < q.lo → r.lo ≤ q.lo := by
  constructor
  · rintro ⟨p, hp, r', hr', h1, h2, h3, h4, h5, h6, h7⟩
    rcases List.mem_append.1 hr' with hr' | hr'
    · have := hs r' hr'
      rcases List.mem_append.1 hp with hp | hp
      · exact .inl ⟨p, hp, r', hr', h1, h2, h3, h4, h5, h6, fun q hq => h7 q (by simp [hq])⟩
      · simp at hp; subst hp; omega
    · simp at hr'; subst hr'
      rcases List.mem_append.1 hp with hp | hp
      · exact .inr ⟨p, hp, h1, h2, h3, h4, h5, h6, fun q hq => h7 q (by simp [hq])⟩
      · simp at hp; subst hp; omega
  · rintro (⟨p, hp, r', hr', h1, h2, h3, h4, h5, h6, h7⟩ | ⟨p, hp, h1, h2, h3, h4, h5, h6, h7⟩)
    · refine ⟨p, by simp [hp], r', by simp [hr'], h1, h2, h3, h4, h5, h6, fun q hq => ?_⟩
      rcases List.mem_append.1 hq with hq | hq
      · exact h7 q hq
      · simp at hq; subst hq; have := hs r' hr'; omega
    · refine ⟨p, by simp [hp], r, by simp, h1, h2, h3, h4, h5, h6, fun q hq => ?_⟩
      rcases List.mem_append.1 hq with hq | hq
      · exact h7 q hq
      · simp at hq; subst hq; omega

theorem Exact.push {s acc : List Range} {r : Range} (h : Exact s acc)
    (hs : ∀ q ∈ s, q.lo ≤ r.lo) : Exact (s ++ [r]) (push acc r) := by
  have hcs : ∀ x, Covers (s ++ [r]) x ↔ Covers s x ∨ (r.lo ≤ x ∧ x < r.hi) := by
    intro x; rw [covers_append]; simp
  rcases eq_nil_or_concat acc with rfl | ⟨l, p, rfl⟩
  · -- nothing pushed so far
    have hn := h.nil rfl
    rw [push_nil]
    have hc0 : ∀ x, ¬ Covers s x := by
      rintro x ⟨q, hq, h1, h2⟩; have := hn q hq; omega
    have hf0 : ∀ x, ¬ Filled (s ++ [r]) x := by
      intro x
      rw [filled_snoc hs]
      rintro (⟨p, hp, _, _, h1, _⟩ | ⟨p, hp, h1, _⟩) <;> (have := hn p hp; omega)
    split
    · rename_i hr
      refine ⟨fun x => ?_, fun _ q hq => ?_, fun l p hl => by simp at hl⟩
      · rw [hcs]
        constructor
        · intro hx; exact absurd hx covers_nil
        · rintro ((hx | hx) | hx)
          · exact absurd hx (hc0 x)
          · omega
          · exact absurd hx (hf0 x)
      · rcases List.mem_append.1 hq with hq | hq
        · exact hn q hq
        · simp at hq; subst hq; exact hr
    · rename_i hr
      refine ⟨fun x => ?_, fun hx => (by simp at hx), fun l p hl => ?_⟩
      · rw [hcs]
        have := hc0 x
        have := hf0 x
        simp [*]
      · have : l = [] ∧ r = p := by
          rcases l with _ | ⟨a, l⟩
          · simpa using hl
          · simp at hl
        obtain ⟨rfl, rfl⟩ := this
        refine ⟨⟨r, by simp, by omega, rfl⟩, fun q hq hq' => ?_, ⟨r, by simp, rfl⟩, by omega⟩
        rcases List.mem_append.1 hq with hq | hq
        · have := hn q hq; omega
        · simp at hq; subst hq; omega
  · obtain ⟨⟨m, hm, hm1, hm2⟩, hmax, ⟨b, hb, hb'⟩, hpp⟩ := h.lastEnd l p rfl
    have hplo : p.lo ≤ r.lo := by have := hs b hb; omega
    have hcov := h.cov
    rw [push_concat]
    split
    · -- empty range
      rename_i hr
      refine ⟨fun x => ?_, fun hx => (by simp at hx), fun l' p' hl => ?_⟩
      · rw [hcov, hcs, filled_snoc hs]
        constructor
        · rintro (hx | hx)
          · exact .inl (.inl hx)
          · exact .inr (.inl hx)
        · rintro ((hx | hx) | (hx | ⟨_, _, _, hx, _⟩))
          · exact .inl hx
          · omega
          · exact .inr hx
          · omega
      · have := h.lastEnd l' p' hl
        obtain ⟨⟨m, hm, hm1, hm2⟩, hmax, ⟨b, hb, hb'⟩, hpp⟩ := this
        refine ⟨⟨m, by simp [hm], hm1, hm2⟩, fun q hq hq' => ?_, ⟨b, by simp [hb], hb'⟩, hpp⟩
        rcases List.mem_append.1 hq with hq | hq
        · exact hmax q hq hq'
        · simp at hq; subst hq; omega
    · rename_i hr
      split
      · -- merged into the last range
        rename_i hmg
        have hlast : ∀ x, Covers (l ++ [⟨p.lo, max p.hi r.hi⟩]) x ↔
            Covers (l ++ [p]) x ∨ (r.lo ≤ x ∧ x < r.hi) ∨ (p.hi ≤ x ∧ x < r.lo) := by
          intro x
          rw [covers_append, covers_append]
          simp only [covers_cons, covers_nil, or_false]
          constructor
          · rintro (hx | hx)
            · exact .inl (.inl hx)
            · omega
          · rintro ((hx | hx) | hx)
            · exact .inl hx
            · right; omega
            · right; omega
        refine ⟨fun x => ?_, fun hx => (by simp at hx), fun l' p' hl => ?_⟩
        · rw [hlast, hcov, hcs, filled_snoc hs]
          constructor
          · rintro ((hx | hx) | hx | ⟨hx, hx'⟩)
            · exact .inl (.inl hx)
            · exact .inr (.inl hx)
            · exact .inl (.inr hx)
            · have hpad := padding_le hmg.2 (by omega)
              refine .inr (.inr ⟨m, hm, hm1, by omega, by omega, hx', hpad.1, by omega, ?_⟩)
              intro q hq hq' hq''
              have := hmax q hq hq'
              omega
          · rintro ((hx | hx) | (hx | ⟨p1, hp1, h1, h2, h3, h4, h5, h6, h7⟩))
            · exact .inl (.inl hx)
            · exact .inr (.inl hx)
            · exact .inl (.inr hx)
            · by_cases hx : p.hi ≤ x
              · exact .inr (.inr ⟨hx, h4⟩)
              · by_cases hmx : m.lo ≤ x
                · exact .inl (.inl ⟨m, hm, hmx, by omega⟩)
                · have h8 := h7 m hm hm1 (by omega)
                  have h9 := hs m hm
                  have h10 : m.lo = r.lo := by omega
                  exact .inl (.inr ⟨p1, hp1, m, hm, h1, hm1, h3, by omega, by omega, by omega,
                    fun q hq hq' hq'' => by have := h7 q hq hq' hq''; omega⟩)
        · have : p' = ⟨p.lo, max p.hi r.hi⟩ := by
            have := congrArg List.getLast? hl
            simpa using this.symm
          subst this
          refine ⟨?_, fun q hq hq' => ?_, ⟨b, by simp [hb], hb'⟩, by simp; omega⟩
          · by_cases hle : p.hi ≤ r.hi
            · exact ⟨r, by simp, by omega, by simp; omega⟩
            · exact ⟨m, by simp [hm], hm1, by simp; omega⟩
          · show q.hi ≤ max p.hi r.hi
            rcases List.mem_append.1 hq with hq | hq
            · have := hmax q hq hq'; omega
            · simp at hq; subst hq; omega
      · -- a new range
        rename_i hmg
        have hsep := separated_of_not_mergeable hplo hmg
        refine ⟨fun x => ?_, fun hx => (by simp at hx), fun l' p' hl => ?_⟩
        · rw [covers_append, hcov, hcs, filled_snoc hs]
          simp only [covers_cons, covers_nil, or_false]
          constructor
          · rintro ((hx | hx) | hx)
            · exact .inl (.inl hx)
            · exact .inr (.inl hx)
            · exact .inl (.inr hx)
          · rintro ((hx | hx) | (hx | ⟨p1, hp1, h1, h2, h3, h4, h5, h6, h7⟩))
            · exact .inl (.inl hx)
            · exact .inr hx
            · exact .inl (.inr hx)
            · have := hmax p1 hp1 h1
              have := hsep.2 h5
              omega
        · have : p' = r := by
            have := congrArg List.getLast? hl
            simpa using this.symm
          subst this
          refine ⟨⟨p', by simp, by omega, rfl⟩, fun q hq hq' => ?_, ⟨p', by simp, rfl⟩, by omega⟩
          rcases List.mem_append.1 hq with hq | hq
          · have := hmax q hq hq'; have := hsep.1; omega
          · simp at hq; subst hq; omega

theorem Exact.pushAll {s acc rs : List Range} (h : Exact s acc)
    (hs : (s ++ rs).Pairwise (fun a b => a.lo ≤ b.lo)) : Exact (s ++ rs) (pushAll acc rs) := by
  induction rs generalizing s acc with
  | nil => simpa [Range.pushAll] using h
  | cons r rs ih =>
    have h1 : ∀ q ∈ s, q.lo ≤ r.lo := by
      intro q hq
      exact (List.pairwise_append.1 hs).2.2 q hq r (by simp)
    have := ih (h.push h1) (by simpa using hs)
    simpa [Range.pushAll] using this

theorem exact_nil : Exact [] [] :=
  ⟨fun x => by simp [Filled], by simp, fun l p h => by simp at h⟩

theorem filled_mem {l l' : List Range} (h : ∀ r, r ∈ l ↔ r ∈ l') {x : Nat} :
    Filled l x ↔ Filled l' x := by
  simp only [Filled, h]

/-- **C02 (exact).** What a list covers after `sort`: its own addresses and the filled gaps,
nothing more and nothing less. -/
theorem C02_sort_exact (l : List Range) (x : Nat) :
    Covers (sort l) x ↔ Covers l x ∨ Filled l x := by
  have hp := stableSort_perm (fun a b : Range => decide (a.lo ≤ b.lo)) l
  have hs := stableSort_sorted loLe_total l
  have := (exact_nil.pushAll (rs := stableSort (fun a b : Range => decide (a.lo ≤ b.lo)) l)
    (by simpa using hs.imp (by simp))).cov x
  simp only [List.nil_append] at this
  unfold sort
  rw [this, covers_perm hp, filled_mem (fun r => hp.mem_iff)]

/-- Concrete gap: `[0,10)` and `[16,20)` leave `12` to padding. -/
example : Filled [⟨16, 20⟩, ⟨0, 10⟩] 12 ∧ ¬ Covers [⟨16, 20⟩, ⟨0, 10⟩] 12 := by
  refine ⟨⟨⟨0, 10⟩, by simp, ⟨16, 20⟩, by simp, by decide, by decide, by decide, by decide,
    by decide, by decide, by simp⟩, by simp⟩

/-- **C05 (the part that holds for every input).** `sort` of a list of ranges depends on the set
of ranges only: neither order nor repetition matters. -/
theorem C05_sort_set_partial (l l' : List Range) (h : ∀ r, r ∈ l ↔ r ∈ l') : sort l = sort l' := by
  apply canonical_ext (canonical_sort _) (canonical_sort _)
  intro x
  rw [C02_sort_exact, C02_sort_exact, filled_mem h]
  simp only [Covers, h]

/-- A canonical list that covers `l` and begins ranges only where `l` does, or outside of
`sort l`, covers `sort l`. -/
theorem sort_covers_le {l C : List Range} (hC : Canonical C) (hcov : ∀ x, Covers l x → Covers C x)
    (hb : ∀ c ∈ C, (∃ r ∈ l, r.lo < r.hi ∧ r.lo = c.lo) ∨ ¬ Covers (sort l) c.lo) {x : Nat}
    (hx : Covers (sort l) x) : Covers C x := by
  rcases (C02_sort_exact l x).1 hx with hx | ⟨p, hp, r, hr, h1, h2, h3, h4, h5, h6, h7⟩
  · exact hcov x hx
  · by_cases hxc : Covers C x
    · exact hxc
    · exfalso
      obtain ⟨a, ha, ha1, ha2⟩ := hcov (p.hi - 1) ⟨p, hp, by omega, by omega⟩
      obtain ⟨b, hb', hb1, hb2⟩ := hcov r.lo ⟨r, hr, by omega, by omega⟩
      have hbx : x < b.lo := by
        refine Nat.lt_of_not_le fun hh => hxc ⟨b, hb', hh, by omega⟩
      have hax : a.hi ≤ x := by
        refine Nat.le_of_not_lt fun hh => hxc ⟨a, ha, by omega, hh⟩
      have hab : Separated a b := by
        have hne : a ≠ b := by rintro rfl; omega
        rcases List.mem_iff_getElem.1 ha with ⟨i, hi, rfl⟩
        rcases List.mem_iff_getElem.1 hb' with ⟨j, hj, rfl⟩
        have hpw := List.pairwise_iff_getElem.1 hC.2
        rcases Nat.lt_trichotomy i j with hij | hij | hij
        · exact hpw i j hi hj hij
        · subst hij; exact absurd rfl hne
        · have := (hpw j i hj hi hij).1; omega
      rcases Nat.lt_or_ge b.lo r.lo with hlt | hge
      · rcases hb b hb' with ⟨q, hq, hq1, hq2⟩ | hno
        · have := h7 q hq hq1 (by omega); omega
        · refine hno ((C02_sort_exact l b.lo).2 (.inr ⟨p, hp, r, hr, h1, h2, by omega, hlt, h5, h6,
            fun q hq hq' hq'' => h7 q hq hq' (by omega)⟩))
      · have : b.lo = r.lo := by omega
        have := hab.2 (by omega)
        omega

theorem begins_pushAll (rs : List Range) :
    ∀ c ∈ sort (pushAll [] rs), ∃ r ∈ rs, r.lo < r.hi ∧ r.lo = c.lo := by
  have hi : Inv (fun b => ∃ r ∈ rs, r.lo < r.hi ∧ r.lo = b) (fun _ => True)
      (fun _ => True) (pushAll [] rs) := by
    apply Inv.pushAll Inv.nil
    intro r hr hne
    exact ⟨⟨r, hr, hne, rfl⟩, trivial, fun _ _ _ => trivial⟩
  intro c hc
  exact (hi.sort.ok c hc).2.1

/-- **C05 (how far order matters).** Pushing in whatever order covers at least what pushing in
address order covers: an unlucky order adds padding, it never loses an address. -/
theorem C05_any_order_covers_sorted_partial (rs : List Range) (x : Nat)
    (h : Covers (sort rs) x) : Covers (sort (pushAll [] rs)) x :=
  sort_covers_le (canonical_sort _) (fun _ hx => covers_sort_of_covers (covers_pushAll (.inr hx)))
    (fun c hc => .inl (begins_pushAll rs c hc)) h

/-- **C05 (address order).** Two lists pushed in address order, with the same ranges, give the
same list: this is what `sort` relies on. -/
theorem C05_sorted_pushes_agree_partial (rs rs' : List Range) (h : ∀ r, r ∈ rs ↔ r ∈ rs')
    (hs : rs.Pairwise (fun a b => a.lo ≤ b.lo)) (hs' : rs'.Pairwise (fun a b => a.lo ≤ b.lo)) :
    sort (pushAll [] rs) = sort (pushAll [] rs') ∧ sort (pushAll [] rs) = sort rs := by
  have key : ∀ rs : List Range, rs.Pairwise (fun a b => a.lo ≤ b.lo) →
      sort (pushAll [] rs) = sort rs := by
    intro rs hs
    have h1 : Canonical (pushAll [] rs) := canonical_pushAll canonical_nil hs (by simp)
    rw [sort_of_canonical h1]
    unfold sort
    rw [stableSort_of_sorted]
    exact hs.imp (by simp)
  rw [key rs hs, key rs' hs']
  exact ⟨C05_sort_set_partial rs rs' h, rfl⟩

/-- Non-vacuity: two address orders of the same ranges (equal begins exchanged). -/
example : ([⟨0, 3⟩, ⟨16, 20⟩, ⟨16, 18⟩] : List Range).Pairwise (fun a b => a.lo ≤ b.lo) ∧
    ([⟨0, 3⟩, ⟨16, 18⟩, ⟨16, 20⟩] : List Range).Pairwise (fun a b => a.lo ≤ b.lo) := by decide

end Verif.Range
