import Verif.Cfi.Spec
import Verif.Print.Lemmas
/-!
# Property theorems: C48 (frame entry lookup), C49 (CFI listings), C41 (interleaving)
-/
namespace Verif.Cfi
open Verif.Range Verif.Frame Verif.Print

/-! ### C48 -/

theorem rangeLe_preorder : TotalPreorder rangeLe where
  trans := by intro a b c; simp only [rangeLe, decide_eq_true_eq]; omega
  total := by intro a b; simp only [rangeLe, decide_eq_true_eq]; omega

theorem mem_collect {l t} (h : collect l = some t) (r : Range) (o : Nat) :
    (r, o) ∈ t ↔ (r.lo ≤ r.hi ∧ (r.lo, r.hi - r.lo, o) ∈ l) := by
  induction l generalizing t with
  | nil => simp [collect] at h; subst h; simp
  | cons e l ih =>
    obtain ⟨i, n, p⟩ := e
    simp only [collect] at h
    split at h
    · cases hc : collect l with
      | none => rw [hc] at h; cases h
      | some t' =>
        rw [hc] at h; simp at h; subst h
        have := ih hc
        simp only [List.mem_cons, this]
        constructor
        · rintro (e | ⟨h1, h2⟩)
          · cases e; simp
          · exact ⟨h1, .inr h2⟩
        · rintro ⟨h1, e | h2⟩
          · left
            simp only [Prod.mk.injEq] at e ⊢
            obtain ⟨e1, e2, e3⟩ := e
            refine ⟨?_, e3⟩
            cases r; simp only [Range.mk.injEq] at *; omega
          · exact .inr ⟨h1, h2⟩
    · cases h

theorem mem_table {l t} (h : tableNew l = some t) (r : Range) (o : Nat) :
    (r, o) ∈ t ↔ (r.lo ≤ r.hi ∧ (r.lo, r.hi - r.lo, o) ∈ l) := by
  unfold tableNew at h
  cases hc : collect l with
  | none => rw [hc] at h; cases h
  | some t' =>
    rw [hc] at h; simp at h; subst h
    rw [(stableSort_perm _ t').mem_iff]
    exact mem_collect hc r o

/-- **C48 (failure).** Building the table panics exactly if some entry ends beyond the 64-bit
address space. -/
theorem C48_panics_iff (entries : List (Nat × Nat × Nat)) :
    tableNew entries = none ↔ ∃ e ∈ entries, 2 ^ 64 ≤ e.1 + e.2.1 := by
  unfold tableNew
  rw [Option.map_eq_none_iff]
  induction entries with
  | nil => simp [collect]
  | cons e l ih =>
    obtain ⟨i, n, p⟩ := e
    simp only [collect, List.mem_cons, exists_eq_or_imp]
    split
    · rw [Option.map_eq_none_iff, ih]
      constructor
      · exact fun h => .inr h
      · rintro (h | h)
        · omega
        · exact h
    · simp; left; omega

/-- **C48 (what is found covers the address).** Whatever the search algorithm and whatever the
entries (overlapping or not), the entry returned for an address covers it; so nothing is returned
if no entry covers it. -/
theorem C48_sound (search : Search) (entries : List (Nat × Nat × Nat)) (t : Table)
    (h : tableNew entries = some t) (a o : Nat) (hf : find search t a = some o) :
    ∃ e ∈ entries, e.2.2 = o ∧ Covers e a := by
  unfold find at hf
  simp only at hf
  split at hf
  · split at hf
    · rename_i r o' hg
      split at hf
      · rename_i hc
        cases hf
        have hm := (mem_table h r o).1 (List.mem_of_getElem? hg)
        exact ⟨_, hm.2, rfl, hc.1, by simp only [Covers]; omega⟩
      · cases hf
    · cases hf
  · cases hf

/-- **C48 (a covering entry is found).** If the entries are non-empty and no two of them cover the
same address, the lookup of an address returns the entry that covers it. -/
theorem C48_complete (search : Search) (hs : ValidSearch search) (entries : List (Nat × Nat × Nat)) (t : Table)
    (h : tableNew entries = some t) (hne : ∀ e ∈ entries, 0 < e.2.1)
    (hd : entries.Pairwise Disjoint) (e : Nat × Nat × Nat) (he : e ∈ entries) (a : Nat) (hc : Covers e a) :
    find search t a = some e.2.2 := by
  obtain ⟨i, n, o⟩ := e
  simp only [Covers] at hc
  have hmem : ((⟨i, i + n⟩ : Range), o) ∈ t := (mem_table h _ _).2 ⟨by simp, by simpa using he⟩
  -- two entries covering a common address are the same
  have hsame : ∀ e ∈ entries, ∀ f ∈ entries, (∃ x, Covers e x ∧ Covers f x) → e = f := by
    intro e he f hf ⟨x, hx⟩
    refine Classical.byContradiction fun hn => ?_
    have : ∀ l : List (Nat × Nat × Nat), l.Pairwise Disjoint → e ∈ l → f ∈ l → Disjoint e f ∨ Disjoint f e := by
      intro l hl he hf
      induction l with
      | nil => cases he
      | cons g l ih =>
        obtain ⟨h1, h2⟩ := List.pairwise_cons.1 hl
        rcases List.mem_cons.1 he with e1 | e1 <;> rcases List.mem_cons.1 hf with e2 | e2
        · exact absurd (e1.trans e2.symm) hn
        · exact .inl (e1 ▸ h1 _ e2)
        · exact .inr (e2 ▸ h1 _ e1)
        · exact ih h2 e1 e2
    rcases this entries hd he hf with hh | hh
    · exact hh x hx
    · exact hh x ⟨hx.2, hx.1⟩
  have hsort : t.Pairwise fun a b => rangeLe a b = true := by
    unfold tableNew at h
    cases hc : collect entries with
    | none => rw [hc] at h; cases h
    | some t' => rw [hc] at h; simp at h; subst h; exact stableSort_sorted rangeLe_preorder t'
  have hkeys : (t.map (·.1.lo)).Pairwise (· ≤ ·) := by
    rw [List.pairwise_map]
    exact hsort.imp fun h => by simp only [rangeLe, decide_eq_true_eq] at h; omega
  obtain ⟨k, hk⟩ := List.mem_iff_getElem?.1 hmem
  have hkk : (t.map (·.1.lo))[k]? = some i := by simp [hk]
  have hv := hs _ a hkeys
  -- the entry at any index whose begin is the last one ≤ a
  have concl : ∀ j : Nat, (∃ x, (t.map (·.1.lo))[j]? = some x ∧ x ≤ a ∧ i ≤ x) →
      ∃ r : Range, t[j]? = some (r, o) ∧ r.lo ≤ a ∧ r.hi > a := by
    rintro j ⟨x, hx, hxa, hix⟩
    simp only [List.getElem?_map, Option.map_eq_some_iff] at hx
    obtain ⟨⟨r, o'⟩, hr, rfl⟩ := hx
    have hrm := (mem_table h r o').1 (List.mem_of_getElem? hr)
    have hpos := hne _ hrm.2
    simp only at hpos hix hxa
    -- r.lo is covered by both
    have := hsame _ he _ hrm.2 ⟨r.lo, ⟨by simp only [Covers]; omega, by simp only [Covers]; omega⟩⟩
    simp only [Prod.mk.injEq] at this
    obtain ⟨e1, e2, e3⟩ := this
    subst e3
    exact ⟨r, hr, hxa, by omega⟩
  unfold find
  simp only
  split at hv
  · rename_i j hj
    rw [hj]
    obtain ⟨r, hr, h1, h2⟩ := concl j ⟨a, hv, Nat.le_refl _, hc.1⟩
    simp [hr, h1, h2]
  · rename_i j hj
    obtain ⟨hlen, hb, ha⟩ := hv
    rw [hj]
    have hkj : k < j := by
      rcases Nat.lt_or_ge k j with hlt | hge
      · exact hlt
      · exact absurd (ha k i hge hkk) (by omega)
    simp only [if_pos (show j > 0 by omega)]
    have hjl : j - 1 < (t.map (·.1.lo)).length := by omega
    have hx : (t.map (·.1.lo))[j - 1]? = some ((t.map (·.1.lo))[j - 1]) := List.getElem?_eq_getElem hjl
    have hle := Nat.le_of_lt (hb _ _ (by omega) hx)
    have hik : i ≤ (t.map (·.1.lo))[j - 1] := by
      rcases Nat.lt_or_ge k (j - 1) with hlt | hge
      · obtain ⟨hkb, hke⟩ := List.getElem?_eq_some_iff.1 hkk
        have := List.pairwise_iff_getElem.1 hkeys k (j - 1) hkb hjl hlt
        rw [hke] at this; exact this
      · have : k = j - 1 := by omega
        subst this
        rw [hkk] at hx
        exact Nat.le_of_eq (Option.some.inj hx)
    obtain ⟨r, hr, h1, h2⟩ := concl (j - 1) ⟨_, hx, hle, hik⟩
    simp [hr, h1, h2]

/-- Finding (C48): the code says "doesn't handle overlapping"; indeed an address covered only by
the outer of two nested entries is not found, whatever the search algorithm. -/
theorem C48_overlap_witness : ∃ entries t, tableNew entries = some t ∧ ∃ a, (∃ e ∈ entries, Covers e a) ∧
    ∀ search, ValidSearch search → find search t a = none := by
  refine ⟨[(0, 100, 1), (10, 10, 2)], [(⟨0, 100⟩, 1), (⟨10, 20⟩, 2)], by decide +kernel, 50,
    ⟨(0, 100, 1), by simp, by decide, by decide⟩, fun search hs => ?_⟩
  have := hs [0, 10] 50 (by simp)
  unfold find
  simp only [List.map_cons, List.map_nil]
  split at this
  · rename_i i hi
    match i with
    | 0 => simp at this
    | 1 => simp at this
    | i + 2 => simp at this
  · rename_i i hi
    obtain ⟨h1, h2, h3⟩ := this
    have : i = 2 := by
      match i with
      | 0 => exact absurd (h3 0 0 (by omega) rfl) (by decide)
      | 1 => exact absurd (h3 1 10 (by omega) rfl) (by decide)
      | 2 => rfl
      | i + 3 => simp at h1
    subst this
    simp [hi]

/-- Finding (C48): an empty entry hides the entry that covers its address. -/
theorem C48_empty_witness : ∃ entries t, tableNew entries = some t ∧ entries.Pairwise Disjoint ∧
    ∃ a, (∃ e ∈ entries, Covers e a) ∧ ∀ search, ValidSearch search → find search t a = none := by
  refine ⟨[(0, 100, 1), (10, 0, 2)], [(⟨0, 100⟩, 1), (⟨10, 10⟩, 2)], by decide +kernel, ?_, 50,
    ⟨(0, 100, 1), by simp, by decide, by decide⟩, fun search hs => ?_⟩
  · simp only [List.pairwise_cons, List.mem_cons, List.not_mem_nil, or_false, forall_eq, false_implies,
      implies_true, List.Pairwise.nil, and_true, Disjoint, Covers]
    intro a; omega
  have := hs [0, 10] 50 (by simp)
  unfold find
  simp only [List.map_cons, List.map_nil]
  split at this
  · rename_i i hi
    match i with
    | 0 => simp at this
    | 1 => simp at this
    | i + 2 => simp at this
  · rename_i i hi
    obtain ⟨h1, h2, h3⟩ := this
    have : i = 2 := by
      match i with
      | 0 => exact absurd (h3 0 0 (by omega) rfl) (by decide)
      | 1 => exact absurd (h3 1 10 (by omega) rfl) (by decide)
      | 2 => rfl
      | i + 3 => simp at h1
    subst this
    simp [hi]

/-- **C48 (which section).** The entry of `.eh_frame` that covers the start of the range is
used; `.debug_frame` only if there is none there (or it cannot be read); otherwise nothing is
listed. -/
theorem C48_sections (search : Search) (eh debug : Section) (r : Range) (hr : r.lo ≤ r.hi) :
    (∀ f, (find search eh.table r.lo).bind eh.parse = some f → fileCfi search eh debug r = cfiOf f) ∧
    ((find search eh.table r.lo).bind eh.parse = none →
      (∀ f, (find search debug.table r.lo).bind debug.parse = some f → fileCfi search eh debug r = cfiOf f) ∧
      ((find search debug.table r.lo).bind debug.parse = none → fileCfi search eh debug r = some [])) := by
  have key : ∀ s : Section, getCfi search s r =
      (match (find search s.table r.lo).bind s.parse with | none => some none | some f => (cfiOf f).map some) := by
    intro s
    unfold getCfi
    rw [if_pos hr]
    cases find search s.table r.lo with
    | none => rfl
    | some o => cases h : s.parse o <;> simp [h]
  unfold fileCfi
  rw [key, key]
  refine ⟨fun f hf => ?_, fun h0 => ⟨fun f hf => ?_, fun hf => ?_⟩⟩
  · rw [hf]; cases h : cfiOf f <;> simp [h]
  · rw [h0, hf]; cases h : cfiOf f <;> simp [h]
  · rw [h0, hf]; rfl

/-- A search that meets the contract: count the smaller keys. -/
def linear : Search := fun keys k =>
  let i := (keys.takeWhile (· < k)).length
  if keys[i]? = some k then .inl i else .inr i

theorem linear_valid : ValidSearch linear := by
  intro keys k hk
  unfold linear
  simp only
  have hsplit := List.takeWhile_append_dropWhile (p := (· < k)) (l := keys)
  split
  · rename_i h
    split at h
    · cases h; assumption
    · cases h
  · rename_i i h
    split at h
    · cases h
    · rename_i hne
      cases h
      have hle : (keys.takeWhile (· < k)).length ≤ keys.length := by
        have := congrArg List.length hsplit
        simp only [List.length_append] at this; omega
      refine ⟨hle, fun j x hj hx => ?_, fun j x hj hx => ?_⟩
      · rw [← hsplit, List.getElem?_append_left hj] at hx
        have := List.all_takeWhile (p := (· < k)) (l := keys)
        have := List.all_eq_true.1 this x (List.mem_of_getElem? hx)
        simpa using this
      · have hd : ∀ y, (keys.dropWhile (· < k)).head? = some y → ¬ y < k := by
          intro y hy hlt
          have := List.head?_dropWhile_not (p := (· < k)) (l := keys)
          rw [hy] at this; simp at this; omega
        cases hdw : keys.dropWhile (· < k) with
        | nil =>
          rw [hdw, List.append_nil] at hsplit
          have := (List.getElem?_eq_some_iff.1 hx).1
          have h2 := congrArg List.length hsplit
          omega
        | cons y t =>
          have hy := hd y (by rw [hdw]; rfl)
          have h0 : keys[(keys.takeWhile (· < k)).length]? = some y := by
            have : (keys.takeWhile (· < k) ++ keys.dropWhile (· < k))[(keys.takeWhile (· < k)).length]? = some y := by
              rw [List.getElem?_append_right (Nat.le_refl _)]; simp [hdw]
            rwa [hsplit] at this
          have hyk : k ≠ y := fun e => hne (by rw [h0, e])
          obtain ⟨hb1, he1⟩ := List.getElem?_eq_some_iff.1 h0
          obtain ⟨hb2, he2⟩ := List.getElem?_eq_some_iff.1 hx
          rcases Nat.eq_or_lt_of_le hj with e | hlt
          · subst e; rw [h0] at hx; cases hx; omega
          · have := List.pairwise_iff_getElem.1 hk _ _ hb1 hb2 hlt
            rw [he1, he2] at this; omega

/-- Non-vacuity of C48: three entries out of order, with a valid search; lookups inside, at a gap
and past the end. -/
example : ValidSearch linear ∧
    let es : List (Nat × Nat × Nat) := [(100, 10, 1), (0, 20, 2), (20, 5, 3)]
    es.Pairwise Disjoint ∧ ∃ t, tableNew es = some t ∧
      find linear t 20 = some 3 ∧ find linear t 19 = some 2 ∧ find linear t 50 = none ∧ find linear t 110 = none := by
  refine ⟨linear_valid, ?_, _, rfl, by decide +kernel⟩
  simp only [List.pairwise_cons, List.mem_cons, List.not_mem_nil, or_false, forall_eq_or_imp, forall_eq,
    false_implies, implies_true, List.Pairwise.nil, and_true, Disjoint, Covers]
  refine ⟨⟨fun a => ?_, fun a => ?_⟩, fun a => ?_⟩ <;> omega

end Verif.Cfi
