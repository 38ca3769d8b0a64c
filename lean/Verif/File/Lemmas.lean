import Verif.File.Spec
/-! # Lemmas about symbol attachment -/
namespace Verif.File
open Verif.Item Verif.Types Verif.Range

/-- Sorted by address. -/
abbrev SortedSyms (l : List Symbol) : Prop := l.Pairwise (fun x y => x.address ≤ y.address)

/-- Flags with those of every symbol at one of the addresses set. -/
def markAll (as : List Nat) (symbols : List Symbol) (used : List Bool) : List Bool :=
  List.zipWith (fun s u => u || decide (s.address ∈ as)) symbols used

theorem length_markAll (as : List Nat) (l : List Symbol) (used : List Bool)
    (h : used.length = l.length) : (markAll as l used).length = l.length := by
  simp [markAll, h]

theorem markAll_nil (l : List Symbol) (used : List Bool) (h : used.length = l.length) :
    markAll [] l used = used := by
  induction l generalizing used with
  | nil => cases used <;> simp_all [markAll]
  | cons s l ih =>
    cases used with
    | nil => simp at h
    | cons u us =>
      have := ih us (by simpa using h)
      simp [markAll] at this ⊢
      exact this

theorem markAll_markAll (as bs : List Nat) (l : List Symbol) (used : List Bool) :
    markAll bs l (markAll as l used) = markAll (as ++ bs) l used := by
  induction l generalizing used with
  | nil => simp [markAll]
  | cons s l ih =>
    cases used with
    | nil => simp [markAll]
    | cons u us =>
      have := ih us
      simp [markAll] at this ⊢
      exact ⟨by rw [Bool.or_assoc], this⟩

theorem walkBack_spec (l : List Symbol) (a i : Nat) :
    walkBack l a i ≤ i ∧
    (∀ k, walkBack l a i ≤ k → k < i → ∃ s, l[k]? = some s ∧ s.address = a) ∧
    (∀ k, walkBack l a i = k + 1 → ∀ s, l[k]? = some s → s.address ≠ a) := by
  induction i with
  | zero => simp [walkBack]
  | succ i ih =>
    unfold walkBack
    cases hi : l[i]? with
    | none =>
      refine ⟨Nat.le_refl _, fun k h1 h2 => by simp only at h1; omega, ?_⟩
      intro k hk s hs
      cases hk; rw [hi] at hs; cases hs
    | some s =>
      simp only
      by_cases h : s.address = a
      · rw [if_pos h]
        obtain ⟨h1, h2, h3⟩ := ih
        refine ⟨Nat.le_succ_of_le h1, fun k hk1 hk2 => ?_, h3⟩
        rcases Nat.lt_succ_iff_lt_or_eq.1 hk2 with hk | rfl
        · exact h2 k hk1 hk
        · exact ⟨s, hi, h⟩
      · rw [if_neg h]
        refine ⟨Nat.le_refl _, fun k h1 h2 => by omega, ?_⟩
        intro k hk t ht
        cases hk; rw [hi] at ht; cases ht; exact h

theorem markLoop_spec (a : Nat) (name : Option Str) (l : List Symbol) (used : List Bool)
    (hs : SortedSyms l) (hge : ∀ s ∈ l, a ≤ s.address) (hlen : used.length = l.length) :
    markLoop a name l used =
      (markAll [a] l used, l.any fun s => decide (s.address = a) && s.name == name) := by
  induction l generalizing used with
  | nil =>
    cases used with
    | nil => rfl
    | cons => simp at hlen
  | cons s l ih =>
    cases used with
    | nil => simp at hlen
    | cons u us =>
      have hs' := List.pairwise_cons.1 hs
      unfold markLoop
      by_cases h : s.address = a
      · rw [if_neg (by simpa using h), ih us hs'.2 (fun t ht => hge t (by simp [ht])) (by simpa using hlen)]
        simp [markAll, h]
      · have hno : ∀ t ∈ s :: l, t.address ≠ a := by
          intro t ht hta
          rcases List.mem_cons.1 ht with rfl | ht
          · exact h hta
          · have := hs'.1 t ht
            have := hge s (by simp)
            omega
        rw [if_pos (by simpa using h)]
        have e1 : markAll [a] (s :: l) (u :: us) = u :: us := by
          rw [← markAll_nil (s :: l) (u :: us) hlen]
          unfold markAll
          have : ∀ (m : List Symbol) (v : List Bool), (∀ t ∈ m, t.address ≠ a) →
              List.zipWith (fun s u => u || decide (s.address ∈ [a])) m
                (List.zipWith (fun s u => u || decide (s.address ∈ ([] : List Nat))) m v) =
              List.zipWith (fun s u => u || decide (s.address ∈ ([] : List Nat))) m v := by
            intro m
            induction m with
            | nil => intro v _; simp
            | cons t m ihm =>
              intro v hm
              cases v with
              | nil => simp
              | cons w v =>
                have h1 := hm t (by simp)
                have h2 := ihm v (fun t ht => hm t (by simp [ht]))
                simp only [List.zipWith_cons_cons, h2]
                simp [h1]
          exact this _ _ hno
        rw [e1]
        congr 1
        symm
        rw [List.any_eq_false]
        intro t ht
        simp [hno t ht]

theorem markAll_append (as : List Nat) (l1 l2 : List Symbol) (u1 u2 : List Bool)
    (h : u1.length = l1.length) :
    markAll as (l1 ++ l2) (u1 ++ u2) = markAll as l1 u1 ++ markAll as l2 u2 := by
  unfold markAll
  rw [List.zipWith_append]
  exact h.symm

theorem markAll_none (a : Nat) (l : List Symbol) (used : List Bool) (hlen : used.length = l.length)
    (hno : ∀ t ∈ l, t.address ≠ a) : markAll [a] l used = used := by
  induction l generalizing used with
  | nil => cases used <;> simp_all [markAll]
  | cons t l ih =>
    cases used with
    | nil => simp at hlen
    | cons u us =>
      have := ih us (by simpa using hlen) (fun t ht => hno t (by simp [ht]))
      have h1 := hno t (by simp)
      simp [markAll] at this ⊢
      exact ⟨fun e => absurd e h1, this⟩

/-- What `get_symbol` does: it flags all symbols at the address, and returns the first of them
unless one has the given name. -/
theorem getSymbol_spec (search : Search) (hv : ValidSearch search) (l : List Symbol)
    (used : List Bool) (a : Nat) (name : Option Str) (hs : SortedSyms l)
    (hlen : used.length = l.length) :
    getSymbol search l used a name =
      (markAll [a] l used,
       if l.any (fun s => decide (s.address = a) && s.name == name) then none
       else l.find? (fun s => decide (s.address = a))) := by
  unfold getSymbol
  obtain ⟨h1, h2⟩ := hv l a hs
  cases hsr : search l a with
  | none =>
    have hno := h2 hsr
    simp only
    rw [markAll_none a l used hlen hno]
    have e1 : l.any (fun s => decide (s.address = a) && s.name == name) = false := by
      rw [List.any_eq_false]; intro s h; simp [hno s h]
    have e2 : l.find? (fun s => decide (s.address = a)) = none := by
      rw [List.find?_eq_none]; intro s h; simp [hno s h]
    rw [e1, e2]; simp
  | some i =>
    obtain ⟨si, hi, hai⟩ := h1 i hsr
    simp only
    obtain ⟨w1, w2, w3⟩ := walkBack_spec l a i
    generalize walkBack l a i = j at w1 w2 w3
    have hj : ∃ s, l[j]? = some s ∧ s.address = a := by
      rcases Nat.lt_or_ge j i with h | h
      · exact w2 j (Nat.le_refl _) h
      · have : j = i := by omega
        subst this; exact ⟨si, hi, hai⟩
    obtain ⟨sj, hj, haj⟩ := hj
    have hjlt : j < l.length := (List.getElem?_eq_some_iff.1 hj).1
    have hsplit : l = l.take j ++ l.drop j := (List.take_append_drop j l).symm
    have hdrop : l.drop j = sj :: l.drop (j + 1) := by
      rw [List.drop_eq_getElem_cons hjlt]
      congr 1
      exact (List.getElem?_eq_some_iff.1 hj).2
    -- nothing before j has the address
    have hpre : ∀ t ∈ l.take j, t.address ≠ a := by
      intro t ht hta
      cases j with
      | zero => simp at ht
      | succ k =>
        obtain ⟨n, hn, rfl⟩ := List.mem_iff_getElem.1 ht
        have hn1 : n < k + 1 := by simp at hn; omega
        have hk : k < l.length := by omega
        have hn2 : n < l.length := by omega
        have hlk := w3 k rfl l[k] (by simp [hk])
        rw [List.getElem_take] at hta
        have hsk : l[k].address ≤ a := by
          have := (List.pairwise_iff_getElem.1 hs) k (k+1) hk hjlt (by omega)
          have e : l[k+1] = sj := (List.getElem?_eq_some_iff.1 hj).2
          rw [e, haj] at this; exact this
        rcases Nat.lt_or_ge n k with h | h
        · have := (List.pairwise_iff_getElem.1 hs) n k hn2 hk h
          omega
        · have : n = k := by omega
          subst this; exact hlk hta
    have hge : ∀ s ∈ l.drop j, a ≤ s.address := by
      rw [hdrop]
      intro s hsm
      have hp : (sj :: l.drop (j+1)).Pairwise (fun x y => x.address ≤ y.address) := by
        rw [← hdrop]; exact hs.sublist (List.drop_sublist _ _)
      rcases List.mem_cons.1 hsm with rfl | hm
      · omega
      · have := (List.pairwise_cons.1 hp).1 s hm; omega
    have hlen' : (used.drop j).length = (l.drop j).length := by simp [hlen]
    rw [markLoop_spec a name _ _ (hs.sublist (List.drop_sublist _ _)) hge hlen']
    simp only
    have e1 : markAll [a] l used = used.take j ++ markAll [a] (l.drop j) (used.drop j) := by
      conv => lhs; rw [hsplit, ← List.take_append_drop j used]
      rw [markAll_append _ _ _ _ _ (by simp [hlen]), markAll_none a _ _ (by simp [hlen]) hpre]
    rw [e1]
    have e2 : l.any (fun s => decide (s.address = a) && s.name == name) =
        (l.drop j).any (fun s => decide (s.address = a) && s.name == name) := by
      conv => lhs; rw [hsplit]
      rw [List.any_append]
      have : (l.take j).any (fun s => decide (s.address = a) && s.name == name) = false := by
        rw [List.any_eq_false]; intro s h; simp [hpre s h]
      rw [this, Bool.false_or]
    have e3 : l.find? (fun s => decide (s.address = a)) = l[j]? := by
      conv => lhs; rw [hsplit]
      rw [List.find?_append]
      have : (l.take j).find? (fun s => decide (s.address = a)) = none := by
        rw [List.find?_eq_none]; intro s h; simp [hpre s h]
      rw [this, hdrop, hj]
      simp [haj]
    rw [e2, e3]

theorem getSymbol_name (l : List Symbol) (a : Nat) (own old : Option Str) :
    SymbolNameFor l a own old
      (match (if l.any (fun s => decide (s.address = a) && s.name == own) then none
        else l.find? (fun s => decide (s.address = a))) with
      | some s => s.name
      | none => old) := by
  by_cases h : l.any (fun s => decide (s.address = a) && s.name == own) = true
  · rw [if_pos h]
    obtain ⟨s, hs, hp⟩ := List.any_eq_true.1 h
    simp at hp
    exact .agrees hs hp.1 hp.2
  · rw [if_neg h]
    cases hf : l.find? (fun s => decide (s.address = a)) with
    | none =>
      rw [List.find?_eq_none] at hf
      exact .nothingThere fun s hs => by simpa using hf s hs
    | some s =>
      obtain ⟨hp, before, after, hl, hb⟩ := List.find?_eq_some_iff_append.1 hf
      refine .differs hl (by simpa using hp) (fun t ht => by simpa using hb t ht) ?_
      intro t ht hta htn
      exact h (List.any_eq_true.2 ⟨t, ht, by simp [hta, htn]⟩)

theorem markRanges_spec (search : Search) (hv : ValidSearch search) (l : List Symbol)
    (hs : SortedSyms l) (rs : List Range) (used : List Bool) (hlen : used.length = l.length) :
    markRanges search l used rs = markAll (rs.map (·.lo)) l used := by
  induction rs generalizing used with
  | nil => simp [markRanges, markAll_nil l used hlen]
  | cons r rs ih =>
    unfold markRanges
    rw [getSymbol_spec search hv l used r.lo none hs hlen, ih _ (length_markAll _ _ _ hlen),
      markAll_markAll]
    rfl

/-- The addresses whose symbols a function claims. -/
def functionClaims (f : Function) : List Nat :=
  match f.address with
  | some a => a :: (f.ranges.drop 1).map (·.lo)
  | none => []

theorem normFunction_spec (search : Search) (hv : ValidSearch search) (l : List Symbol)
    (hs : SortedSyms l) (used : List Bool) (hlen : used.length = l.length) (f : Function) :
    (normFunction search l used f).1 = markAll (functionClaims f) l used ∧
      FunctionNamed l f (normFunction search l used f).2 := by
  unfold normFunction functionClaims
  cases ha : f.address with
  | none =>
    refine ⟨(markAll_nil l used hlen).symm, f.symbolName, rfl, ?_, fun _ => rfl⟩
    intro a h; rw [ha] at h; cases h
  | some a =>
    simp only
    rw [getSymbol_spec search hv l used a _ hs hlen]
    simp only
    refine ⟨?_, ?_⟩
    · rw [markRanges_spec search hv l hs _ _ (length_markAll _ _ _ hlen), markAll_markAll]
      rfl
    · have := getSymbol_name l a (f.linkageName.or f.name) f.symbolName
      split
      · rename_i s hsym
        rw [hsym] at this
        refine ⟨s.name, by rw [ha], ?_, ?_⟩
        · intro a' h; rw [ha] at h; cases h; exact this
        · intro h; rw [ha] at h; cases h
      · rename_i hsym
        rw [hsym] at this
        refine ⟨f.symbolName, rfl, ?_, fun _ => rfl⟩
        intro a' h; rw [ha] at h; cases h; exact this

theorem normVariable_spec (search : Search) (hv : ValidSearch search) (l : List Symbol)
    (hs : SortedSyms l) (used : List Bool) (hlen : used.length = l.length) (v : Variable) :
    (normVariable search l used v).1 = markAll v.address.toList l used ∧
      VariableNamed l v (normVariable search l used v).2 := by
  unfold normVariable
  cases ha : v.address with
  | none =>
    refine ⟨(markAll_nil l used hlen).symm, v.symbolName, rfl, ?_, fun _ => rfl⟩
    intro a h; rw [ha] at h; cases h
  | some a =>
    simp only
    rw [getSymbol_spec search hv l used a _ hs hlen]
    simp only
    refine ⟨rfl, ?_⟩
    · have := getSymbol_name l a (v.linkageName.or v.name) v.symbolName
      split
      · rename_i s hsym
        rw [hsym] at this
        refine ⟨s.name, by rw [ha], ?_, ?_⟩
        · intro a' h; rw [ha] at h; cases h; exact this
        · intro h; rw [ha] at h; cases h
      · rename_i hsym
        rw [hsym] at this
        refine ⟨v.symbolName, rfl, ?_, fun _ => rfl⟩
        intro a' h; rw [ha] at h; cases h; exact this

theorem mapUsed_spec {α : Type} (l : List Symbol) (g : List Bool → α → List Bool × α)
    (claims : α → List Nat) (R : α → α → Prop)
    (hg : ∀ used x, used.length = l.length →
      (g used x).1 = markAll (claims x) l used ∧ R x (g used x).2)
    (xs : List α) (used : List Bool) (hlen : used.length = l.length) :
    (mapUsed g used xs).1 = markAll (xs.flatMap claims) l used ∧ EachRel R xs (mapUsed g used xs).2 := by
  induction xs generalizing used with
  | nil => exact ⟨(markAll_nil l used hlen).symm, .nil⟩
  | cons x xs ih =>
    obtain ⟨h1, h2⟩ := hg used x hlen
    have hl : (g used x).1.length = l.length := by rw [h1]; exact length_markAll _ _ _ hlen
    obtain ⟨h3, h4⟩ := ih _ hl
    unfold mapUsed
    refine ⟨?_, .cons h2 h4⟩
    simp only [List.flatMap_cons]
    rw [h3, h1, markAll_markAll]

/-- The addresses whose symbols a unit claims. -/
def unitClaims (u : CompUnit) : List Nat :=
  u.functions.flatMap functionClaims ++ u.variables.flatMap (fun v => v.address.toList)

theorem normUnit_spec (search : Search) (hv : ValidSearch search) (l : List Symbol)
    (hs : SortedSyms l) (used : List Bool) (u : CompUnit) (hlen : used.length = l.length) :
    (normUnit search l used u).1 = markAll (unitClaims u) l used ∧
      UnitNamed l u (normUnit search l used u).2 := by
  obtain ⟨h1, h2⟩ := mapUsed_spec l (normFunction search l) functionClaims (FunctionNamed l)
    (fun used x hl => normFunction_spec search hv l hs used hl x) u.functions used hlen
  have hl1 : (mapUsed (normFunction search l) used u.functions).1.length = l.length := by
    rw [h1]; exact length_markAll _ _ _ hlen
  obtain ⟨h3, h4⟩ := mapUsed_spec l (normVariable search l) (fun v => v.address.toList)
    (VariableNamed l) (fun used x hl => normVariable_spec search hv l hs used hl x) u.variables _ hl1
  refine ⟨?_, _, _, rfl, h2, h4⟩
  unfold normUnit unitClaims
  simp only
  rw [h3, h1, markAll_markAll]

theorem mem_unitClaims (us : List CompUnit) (a : Nat) : a ∈ us.flatMap unitClaims ↔ Claimed us a := by
  unfold Claimed unitClaims
  simp only [List.mem_flatMap, List.mem_append, Option.mem_toList]
  refine exists_congr fun u => and_congr Iff.rfl (or_congr (exists_congr fun f => and_congr Iff.rfl ?_) Iff.rfl)
  unfold functionClaims
  cases f.address with
  | none => simp
  | some b =>
    simp only [List.mem_cons, List.mem_map, Option.some.injEq, Option.isSome_some, true_and]
    exact or_congr eq_comm Iff.rfl

theorem symtab_fold (zs : List (Symbol × Bool)) (u : CompUnit) :
    (zs.foldl symtabStep u).functions = u.functions ++ (zs.filterMap fun z =>
      if z.2 = false ∧ z.1.kind = .function then some (symFunction z.1) else none) ∧
    (zs.foldl symtabStep u).variables = u.variables ++ (zs.filterMap fun z =>
      if z.2 = false ∧ z.1.kind = .variable then some (symVariable z.1) else none) ∧
    (zs.foldl symtabStep u).ranges = pushAll u.ranges (zs.filterMap fun z =>
      if z.2 = false then some ⟨z.1.address, z.1.address + z.1.size⟩ else none) ∧
    (zs.foldl symtabStep u).name = u.name ∧ (zs.foldl symtabStep u).types = u.types ∧
    (zs.foldl symtabStep u).dir = u.dir ∧ (zs.foldl symtabStep u).lowPc = u.lowPc := by
  induction zs generalizing u with
  | nil => simp [pushAll]
  | cons z zs ih =>
    obtain ⟨s, b⟩ := z
    rw [List.foldl_cons]
    obtain ⟨h1, h2, h3, h4, h5, h6, h7⟩ := ih (symtabStep u (s, b))
    rw [h1, h2, h3, h4, h5, h6, h7]
    cases b with
    | true => simp [symtabStep]
    | false => cases hk : s.kind <;> simp [symtabStep, hk, pushAll]

end Verif.File
