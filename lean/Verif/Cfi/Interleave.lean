import Verif.Cfi.Listing
/-!
# Property theorems: C41 (instructions and CFI directives interleaved)
-/
namespace Verif.Cfi
open Verif.Range Verif.Frame Verif.Print

/-- **C41 (nothing lost, nothing invented).** Each instruction and each directive is printed
exactly once, each kind in its original order. -/
theorem C41_all {I : Type} (addr : I → Nat) (n : Nat) (is : List I) (cs : List Cfi)
    (hn : is.length + cs.length ≤ n) :
    insnsOf (interleave addr n is cs) = is ∧ cfisOf (interleave addr n is cs) = cs := by
  induction n generalizing is cs with
  | zero =>
    cases is <;> cases cs <;> simp at hn
    exact ⟨rfl, rfl⟩
  | succ n ih =>
    match is, cs with
    | [], [] => exact ⟨rfl, rfl⟩
    | [], c :: cs =>
      have := ih [] cs (by simp at hn ⊢; omega)
      simp only [interleave, insnsOf, cfisOf, List.filterMap_cons, Sum.getLeft?, Sum.getRight?] at this ⊢
      exact ⟨this.1, by rw [this.2]⟩
    | i :: is, [] =>
      have := ih is [] (by simp at hn ⊢; omega)
      simp only [interleave, insnsOf, cfisOf, List.filterMap_cons, Sum.getLeft?, Sum.getRight?] at this ⊢
      exact ⟨by rw [this.1], this.2⟩
    | i :: is, c :: cs =>
      have hc : insnsOf (.inr c :: interleave addr n (i :: is) cs) = i :: is ∧
          cfisOf (.inr c :: interleave addr n (i :: is) cs) = c :: cs := by
        have := ih (i :: is) cs (by simp at hn ⊢; omega)
        simp only [insnsOf, cfisOf, List.filterMap_cons, Sum.getLeft?, Sum.getRight?] at this ⊢
        exact ⟨this.1, by rw [this.2]⟩
      have hi : insnsOf (.inl i :: interleave addr n is (c :: cs)) = i :: is ∧
          cfisOf (.inl i :: interleave addr n is (c :: cs)) = c :: cs := by
        have := ih is (c :: cs) (by simp at hn ⊢; omega)
        simp only [insnsOf, cfisOf, List.filterMap_cons, Sum.getLeft?, Sum.getRight?] at this ⊢
        exact ⟨by rw [this.1], this.2⟩
      simp only [interleave]
      split
      · exact hc
      · split
        · exact hc
        · exact hi

/-- **C41 (placement).** With instructions in address order and directives in the order they take
effect, the directives printed before an instruction are exactly those that take effect at or
before its address (or for the whole function). -/
theorem C41_placed {I : Type} (addr : I → Nat) (n : Nat) (is : List I) (cs : List Cfi)
    (hn : is.length + cs.length ≤ n) (hi : is.Pairwise fun a b => addr a ≤ addr b) (hc : Ordered cs)
    (pre post : List (I ⊕ Cfi)) (i : I) (he : interleave addr n is cs = pre ++ .inl i :: post) :
    (∀ c ∈ cfisOf pre, Due c (addr i)) ∧ (∀ c ∈ cfisOf post, ¬ Due c (addr i)) := by
  induction n generalizing is cs pre with
  | zero => simp [interleave] at he
  | succ n ih =>
    have memCs : ∀ is' cs', is'.length + cs'.length ≤ n → ∀ p q, interleave addr n is' cs' = p ++ q →
        ∀ c ∈ cfisOf q, c ∈ cs' := by
      intro is' cs' hn' p q e c hc
      have := (C41_all addr n is' cs' hn').2
      rw [← this, e]
      simp only [cfisOf, List.filterMap_append, List.mem_append]
      exact .inr hc
    match is, cs with
    | [], [] => simp [interleave] at he
    | [], c :: cs =>
      -- no instruction left
      exfalso
      have := (C41_all addr (n + 1) [] (c :: cs) hn).1
      rw [he] at this
      simp [insnsOf, List.filterMap_append, Sum.getLeft?] at this
    | j :: is, [] =>
      simp only [interleave] at he
      have hn' : is.length + ([] : List Cfi).length ≤ n := by simp at hn ⊢; omega
      cases pre with
      | nil =>
        simp at he
        obtain ⟨rfl, rfl⟩ := he
        exact ⟨by simp [cfisOf], fun c hc => by cases memCs _ _ hn' [] _ rfl c hc⟩
      | cons x pre =>
        simp at he
        obtain ⟨rfl, he⟩ := he
        have := ih is [] hn' (List.pairwise_cons.1 hi).2 (by simp [Ordered]) pre he
        simpa [cfisOf, Sum.getRight?] using this
    | j :: is, c :: cs =>
      -- the next instruction of the listing, and everything after it, is at or after `j`
      have hji : ∀ n', (j :: is).length + (c :: cs).length ≤ n' + 1 → ∀ l pre',
          insnsOf l = j :: is → l = pre' ++ Sum.inl i :: post → addr j ≤ addr i := by
        intro n' _ l pre' hl e
        have : i ∈ j :: is := by rw [← hl, e]; simp [insnsOf, List.filterMap_append, Sum.getLeft?]
        rcases List.mem_cons.1 this with rfl | hm
        · exact Nat.le_refl _
        · exact (List.pairwise_cons.1 hi).1 _ hm
      have hge : addr j ≤ addr i := hji n hn _ pre (C41_all addr (n + 1) _ _ hn).1 he
      have caseC : Due c (addr j) → interleave addr (n + 1) (j :: is) (c :: cs) =
          .inr c :: interleave addr n (j :: is) cs →
          (∀ c ∈ cfisOf pre, Due c (addr i)) ∧ (∀ c ∈ cfisOf post, ¬ Due c (addr i)) := by
        intro hd e
        rw [e] at he
        cases pre with
        | nil => simp at he
        | cons x pre =>
          simp at he
          obtain ⟨rfl, he⟩ := he
          obtain ⟨h1, h2⟩ := ih (j :: is) cs (by simp at hn ⊢; omega) hi (List.pairwise_cons.1 hc).2 pre he
          refine ⟨fun c' hc' => ?_, h2⟩
          have hc'' : c' = c ∨ c' ∈ cfisOf pre := by
            simp only [cfisOf, List.filterMap_cons, Sum.getRight?] at hc' ⊢
            exact List.mem_cons.1 hc'
          rcases hc'' with rfl | hc'
          · exact fun x hx => Nat.le_trans (hd x hx) hge
          · exact h1 c' hc'
      have caseI : ∀ x, c.1 = some x → ¬ x ≤ addr j → interleave addr (n + 1) (j :: is) (c :: cs) =
          .inl j :: interleave addr n is (c :: cs) →
          (∀ c ∈ cfisOf pre, Due c (addr i)) ∧ (∀ c ∈ cfisOf post, ¬ Due c (addr i)) := by
        intro x hx hlt e
        rw [e] at he
        have hn' : is.length + (c :: cs).length ≤ n := by simp at hn ⊢; omega
        cases pre with
        | nil =>
          simp at he
          obtain ⟨rfl, rfl⟩ := he
          refine ⟨by simp [cfisOf], fun c' hc' hdue => ?_⟩
          rcases List.mem_cons.1 (memCs _ _ hn' [] _ rfl c' hc') with rfl | hm
          · exact hlt (hdue x hx)
          · obtain ⟨y, hy, hxy⟩ := (List.pairwise_cons.1 hc).1 c' hm x hx
            have := hdue y hy
            omega
        | cons z pre =>
          simp at he
          obtain ⟨rfl, he⟩ := he
          have := ih is (c :: cs) hn' (List.pairwise_cons.1 hi).2 hc pre he
          simpa [cfisOf, Sum.getRight?] using this
      cases hcx : c.1 with
      | none => exact caseC (fun x hx => by rw [hcx] at hx; cases hx) (by simp [interleave, hcx])
      | some x =>
        by_cases hle : x ≤ addr j
        · exact caseC (fun y hy => by rw [hcx] at hy; cases hy; exact hle) (by simp [interleave, hcx, hle])
        · exact caseI x hcx hle (by simp [interleave, hcx, hle])

/-- **C41 (whole listing).** The listing is the ranges' listings one after the other, each headed
by its `.org` line, up to the first range that cannot be disassembled, of which only the `.org`
line is printed. -/
theorem C41_listing {I : Type} (addr : I → Nat) (disasm : Range → Option (List I)) (cfi : Range → List Cfi)
    (ranges : List Range) : ∃ k, k ≤ ranges.length ∧
      (∀ r ∈ ranges.take k, (disasm r).isSome) ∧ (∀ r, ranges[k]? = some r → disasm r = none) ∧
      listingRows addr disasm cfi ranges =
        ((ranges.take k).flatMap fun r => .org r :: (interleave addr (((disasm r).getD []).length + (cfi r).length)
          ((disasm r).getD []) (cfi r)).map (Sum.elim (Row.insn r) (Row.cfi r))) ++
        (match ranges[k]? with | some r => [.org r] | none => []) := by
  induction ranges with
  | nil => exact ⟨0, by simp, by simp, by simp, rfl⟩
  | cons r rs ih =>
    cases hd : disasm r with
    | none => exact ⟨0, by simp, by simp, by simpa using hd, by simp [listingRows, rangeRows, hd]⟩
    | some is =>
      obtain ⟨k, hk, h1, h2, h3⟩ := ih
      refine ⟨k + 1, by simpa using hk, ?_, ?_, ?_⟩
      · intro x hx
        rcases List.mem_cons.1 hx with rfl | hx
        · simp [hd]
        · exact h1 x hx
      · simpa using h2
      · simp only [listingRows, rangeRows, hd, Option.map_some, h3, List.take_succ_cons, List.flatMap_cons,
          Option.getD_some, List.getElem?_cons_succ, List.append_assoc]
        congr 1
        congr 1
        refine List.map_congr_left fun x _ => ?_
        cases x <;> rfl

/-- **C41 (failure).** Printing the listing panics exactly if some row's printing does: an
instruction's, or that of a directive located before the start of the range (the address shown is
relative to the range) or whose offset is the least 64-bit number. -/
theorem C41_panics_iff {I : Type} (rn : Nat → Option Str) (addr : I → Nat) (disasm : Range → Option (List I))
    (cfi : Range → List Cfi) (pi : Range → I → Option P) (ranges : List Range) :
    printInstructions rn addr disasm cfi pi ranges = none ↔
      ∃ row ∈ listingRows addr disasm cfi ranges,
        (∃ r i, row = .insn r i ∧ pi r i = none) ∨
        (∃ r c, row = .cfi r c ∧ ((∃ x, c.1 = some x ∧ x < r.lo) ∨ directiveText rn c.2 = none)) := by
  have hrow : ∀ row : Row I, Row.print rn pi row = none ↔ (∃ r i, row = .insn r i ∧ pi r i = none) ∨
        (∃ r c, row = .cfi r c ∧ ((∃ x, c.1 = some x ∧ x < r.lo) ∨ directiveText rn c.2 = none)) := by
    intro row
    cases row with
    | org r =>
      constructor
      · intro h; cases h
      · rintro (⟨_, _, e, _⟩ | ⟨_, _, e, _⟩) <;> cases e
    | insn r i =>
      constructor
      · intro h; exact .inl ⟨r, i, rfl, h⟩
      · rintro (⟨_, _, e, h⟩ | ⟨_, _, e, _⟩) <;> cases e
        exact h
    | cfi r c =>
      simp only [Row.print, printCfi]
      constructor
      · intro h
        refine .inr ⟨r, c, rfl, ?_⟩
        split at h
        · rename_i x hx
          split at h
          · exact .inr (Option.map_eq_none_iff.1 h)
          · exact .inl ⟨x, hx, by omega⟩
        · exact .inr (Option.map_eq_none_iff.1 h)
      · rintro (⟨_, _, e, _⟩ | ⟨_, _, e, h⟩) <;> cases e
        rcases h with ⟨x, hx, hlt⟩ | h
        · rw [hx]; simp only; rw [if_neg (by omega)]
        · rw [h]; split <;> simp
  unfold printInstructions
  rw [Option.map_eq_none_iff]
  generalize listingRows addr disasm cfi ranges = rows
  induction rows with
  | nil => simp
  | cons row rows ih =>
    simp only [List.mapM_cons, List.mem_cons, exists_eq_or_imp, ← hrow row]
    cases h : Row.print rn pi row with
    | none => simp
    | some p =>
      simp only [Option.bind_eq_bind, Option.bind_some, reduceCtorEq, false_or]
      refine Iff.trans ?_ ih
      cases List.mapM (Row.print rn pi) rows <;> simp

theorem directiveText_eq {rn : Nat → Option Str} {d : Directive} {t : Str} (h : directiveText rn d = some t) :
    t = directiveNote rn d := by
  have hr : ∀ n, regText rn n = regNote rn n := by
    intro n; unfold regText regNote; cases rn n <;> rfl
  have ho : ∀ o t, ofsText o = some t → t = offNote o := by
    intro o t ht
    unfold ofsText at ht
    unfold offNote
    split at ht
    · rename_i hlt
      split at ht
      · cases ht
        rw [if_pos hlt, show (-o).toNat = o.natAbs by omega]; rfl
      · cases ht
    · rename_i hge
      cases ht
      rw [if_neg hge, show o.toNat = o.natAbs by omega]; rfl
  have hi : ∀ o, hexI64 o = hex (if 0 ≤ o then o else 2 ^ 64 + o).toNat := by
    intro o; unfold hexI64; congr 1; split <;> split <;> omega
  cases d <;> simp only [directiveText, Option.some.injEq, Option.map_eq_some_iff] at h
  case defCfa => obtain ⟨w, hw, rfl⟩ := h; rw [ho _ _ hw, hr]; rfl
  case offset => obtain ⟨w, hw, rfl⟩ := h; rw [ho _ _ hw, hr]; rfl
  case valOffset => obtain ⟨w, hw, rfl⟩ := h; rw [ho _ _ hw, hr]; rfl
  all_goals subst h; simp only [directiveNote, hr, hi]

/-- **C41 (lines).** The printed lines are those of the rows, in order; a directive's line shows its
address relative to the start of the range, 0 if it has none. -/
theorem C41_lines {I : Type} (rn : Nat → Option Str) (addr : I → Nat) (disasm : Range → Option (List I))
    (cfi : Range → List Cfi) (pi : Range → I → Option P) (ranges : List Range) (p : P)
    (h : printInstructions rn addr disasm cfi pi ranges = some p) (http : Bool) (ind : Nat) (x : DiffPrefix) (dp : Nat) :
    p.lines http ind x dp = (listingRows addr disasm cfi ranges).flatMap fun row =>
      match row with
      | .org r => [orgLine x ind r]
      | .insn r i => ((pi r i).getD .skip).lines http ind x dp
      | .cfi r c => [cfiLine rn x ind r c] := by
  unfold printInstructions at h
  obtain ⟨ps, hps, rfl⟩ := Option.map_eq_some_iff.1 h
  clear h
  generalize listingRows addr disasm cfi ranges = rows at hps ⊢
  induction rows generalizing ps with
  | nil =>
    simp at hps; subst hps
    rw [P.lines_eq]; rfl
  | cons row rows ih =>
    rw [List.mapM_cons] at hps
    cases hr : Row.print rn pi row with
    | none => rw [hr] at hps; simp at hps
    | some pr =>
      cases hm : rows.mapM (Row.print rn pi) with
      | none => rw [hr, hm] at hps; simp at hps
      | some ps' =>
        rw [hr, hm] at hps
        simp at hps; subst hps
        have := ih ps' hm
        rw [P.lines_eq] at this ⊢
        simp only [P.seqs, P.ls, this, List.flatMap_cons]
        congr 1
        cases row with
        | org r => simp only [Row.print, Option.some.injEq] at hr; subst hr; rfl
        | insn r i => simp only [Row.print] at hr; simp only [hr, P.lines_eq]; rfl
        | cfi r c =>
          simp only [Row.print, printCfi] at hr
          split at hr
          · rename_i y hy
            split at hr
            · obtain ⟨t, ht, rfl⟩ := Option.map_eq_some_iff.1 hr
              simp [P.ls, cfiLine, hy, directiveText_eq ht, Val.text']
            · cases hr
          · rename_i hy
            obtain ⟨t, ht, rfl⟩ := Option.map_eq_some_iff.1 hr
            simp [P.ls, cfiLine, hy, directiveText_eq ht, Val.text']

/-- Finding (C41): a function that starts inside a frame entry (here 16 bytes after its start) is
given that entry's directives, and printing the listing panics on the first one located before the
function: the code only logs the mismatch. -/
theorem C41_mismatch_witness : ∃ (eh debug : Section) (r : Range) (l : List Cfi),
    (∀ search, ValidSearch search → fileCfi search eh debug r = some l) ∧
    ∀ rn (addr : Nat → Nat) pi, printInstructions rn addr (fun _ => some [r.lo]) (fun _ => l) pi [r] = none := by
  refine ⟨⟨[(⟨0, 64⟩, 0)], fun _ => some { initial := 0, len := 64, insns := [.advanceLoc 1, .defCfaOffset 16] }⟩,
    ⟨[], fun _ => none⟩, ⟨16, 64⟩,
    [(none, .startProc), (some 1, .defCfaOffset 16), (some 64, .endProc)], fun search hs => ?_, fun rn addr pi => ?_⟩
  · have hf : find search [(⟨0, 64⟩, 0)] 16 = some 0 := by
      have := C48_complete search hs [(0, 64, 0)] [(⟨0, 64⟩, 0)] (by decide +kernel) (by simp) (by simp) (0, 64, 0)
        (by simp) 16 ⟨by decide, by decide⟩
      exact this
    have := (C48_sections search ⟨[(⟨0, 64⟩, 0)], fun _ => some { initial := 0, len := 64, insns := [.advanceLoc 1, .defCfaOffset 16] }⟩
      ⟨[], fun _ => none⟩ ⟨16, 64⟩ (by decide)).1 _ (by simp only; rw [hf]; rfl)
    rw [this]
    decide +kernel
  · rw [C41_panics_iff]
    refine ⟨.cfi ⟨16, 64⟩ (some 1, .defCfaOffset 16), ?_, .inr ⟨_, _, rfl, .inl ⟨1, rfl, by decide⟩⟩⟩
    simp only [listingRows, rangeRows, Option.map_some, List.append_nil]
    refine List.mem_cons_of_mem _ (List.mem_map.2 ⟨.inr (some 1, .defCfaOffset 16), ?_, rfl⟩)
    have := (C41_all addr (1 + 3) [16] [(none, .startProc), (some 1, .defCfaOffset 16), (some 64, .endProc)] (by simp)).2
    have hm : (some 1, Directive.defCfaOffset 16) ∈ cfisOf (interleave addr (1 + 3) [16]
        [(none, .startProc), (some 1, .defCfaOffset 16), (some 64, .endProc)]) := by rw [this]; simp
    obtain ⟨y, hy, e⟩ := List.mem_filterMap.1 hm
    cases y with
    | inl i => cases e
    | inr c => simp [Sum.getRight?] at e; subst e; exact hy

/-- Non-vacuity of C41: three instructions and five directives. -/
example :
    let cs : List Cfi := [(none, .startProc), (none, .defCfa 7 8), (some 1, .defCfaOffset 16), (some 2, .defCfaRegister 6),
      (some 5, .endProc)]
    Ordered cs ∧ interleave (I := Nat) id (3 + cs.length) [0, 1, 4] cs =
      [.inr (none, .startProc), .inr (none, .defCfa 7 8), .inl 0, .inr (some 1, .defCfaOffset 16), .inl 1,
       .inr (some 2, .defCfaRegister 6), .inl 4, .inr (some 5, .endProc)] := by
  refine ⟨?_, by rfl⟩
  simp [Ordered]

end Verif.Cfi
