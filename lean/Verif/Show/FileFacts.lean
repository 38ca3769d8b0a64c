import Verif.Show.FileFactsSpec
import Verif.Show.FnFacts2
import Verif.Show.FactsProps
import Verif.Show.FileRows
import Verif.Range.Props
/-! # What the listings of variables, sections, units and files determine -/
namespace Verif.Show
open Verif.Print Verif.Item Verif.Namespace Verif.Types Verif.Opts Verif.Range Verif.File

/-! ## Rows from lines -/

theorem rows_of_lines {p q : P} {r s : List Row} {http : Bool} {d : Nat} (hp : ∀ i x, p.ls http i x d = r.map (Row.line x i) ++ [.brk])
    (hq : ∀ i x, q.ls http i x d = s.map (Row.line x i) ++ [.brk])
    (e : ∀ i, p.lines http i .none d = q.lines http i .none d) : r = s := by
  have := e 0
  rw [P.lines_eq, P.lines_eq, hp, hq] at this
  exact map_row_line_inj (List.append_cancel_right this)

/-! ## Variables -/

theorem colonSpace_cut : ∀ {a b r r' : Str}, ¬ [58, 32] <:+: a → ¬ [58, 32] <:+: b →
    a ++ 58 :: 32 :: r = b ++ 58 :: 32 :: r' → a = b ∧ r = r'
  | [], [], r, r', _, _, e => by simpa using e
  | [], [y], r, r', _, _, e => by simp at e
  | [], y :: z :: b, r, r', _, hb, e => by
    exfalso
    simp only [List.nil_append, List.cons_append, List.cons.injEq] at e
    exact hb ⟨[], b, by simp [← e.1, ← e.2.1]⟩
  | [y], [], r, r', _, _, e => by simp at e
  | y :: z :: a, [], r, r', ha, _, e => by
    exfalso
    simp only [List.nil_append, List.cons_append, List.cons.injEq] at e
    exact ha ⟨[], a, by simp [e.1, e.2.1]⟩
  | x :: a, y :: b, r, r', ha, hb, e => by
    simp only [List.cons_append, List.cons.injEq] at e
    obtain ⟨h1, h2⟩ := colonSpace_cut (fun h => ha (h.trans (List.suffix_cons x a).isInfix))
      (fun h => hb (h.trans (List.suffix_cons y b).isInfix)) e.2
    exact ⟨by rw [e.1, h1], h2⟩

theorem variable_eq {o : Options} {s s' : Side} {da db : Option Str} {v w : Variable} (hv : ReadableVariable v)
    (hw : ReadableVariable w)
    (e : variableRows o.ignoreVariableLinkageName o.ignoreVariableSymbolName o.ignoreVariableAddress o s da v =
      variableRows o.ignoreVariableLinkageName o.ignoreVariableSymbolName o.ignoreVariableAddress o s' db w) :
    SameVariable o s s' da db v w := by
  have kv : ∀ r, k "var " ++ r ≠ [] := by intro r; simp [k, Str.ofString]
  obtain ⟨e1, e2⟩ := entry_eq (by simp only [List.append_assoc]; exact kv _) (by simp only [List.append_assoc]; exact kv _) e
  simp only [List.append_assoc, List.append_cancel_left_eq] at e1
  rw [k_colon] at e1
  obtain ⟨h1, h2⟩ := colonSpace_cut hv hw e1
  have := blocks_eq (Ls := [k "linkage name", k "symbol name", k "source", k "address", k "size", k "declaration"])
    (Bs := [_, _, _, _, _, _]) (Bs' := [_, _, _, _, _, _]) (by decide)
    (.cons (block_shownIf _ (block_oneRow _ _)) (.cons (block_shownIf _ (block_oneRow _ _)) (.cons (block_shownIf _ (block_oneRow _ _))
      (.cons (block_shownIf _ (block_oneRow _ _)) (.cons (block_oneRow _ _) (.cons (block_shownIf _ (block_oneRow _ _)) .nil))))))
    (.cons (block_shownIf _ (block_oneRow _ _)) (.cons (block_shownIf _ (block_oneRow _ _)) (.cons (block_shownIf _ (block_oneRow _ _))
      (.cons (block_shownIf _ (block_oneRow _ _)) (.cons (block_oneRow _ _) (.cons (block_shownIf _ (block_oneRow _ _)) .nil))))))
    (by simpa only [List.flatten_cons, List.flatten_nil, List.append_nil, List.append_assoc, sourceRows, countRow] using e2)
  simp only [List.cons.injEq, and_true] at this
  obtain ⟨a1, a2, a3, a4, a5, a6⟩ := this
  exact ⟨h1, h2, fun h => oneRow_eq (shownIf_eq a1 (by simp [h])), fun h => oneRow_eq (shownIf_eq a2 (by simp [h])),
    fun h => oneRow_eq (shownIf_eq a3 h), fun h => optAddress_eq (oneRow_eq (shownIf_eq a4 (by simp [h]))),
    optDec_eq (oneRow_eq a5), yes_eq a6⟩

/-! ## Sections -/

theorem sectionTitle_ne {x : Section} (hx : ReadableSection x) :
    (x.segment.map (· ++ k ",")).getD [] ++ x.name.getD (k "<anon-section>") ≠ [] := by
  have : x.name.getD (k "<anon-section>") ≠ [] := by
    cases h : x.name with
    | none => decide
    | some n => exact (hx.name n h).1
  simp [this]

theorem sectionTitle_eq {x y : Section} (hx : ReadableSection x) (hy : ReadableSection y)
    (e : (x.segment.map (· ++ k ",")).getD [] ++ x.name.getD (k "<anon-section>") =
      (y.segment.map (· ++ k ",")).getD [] ++ y.name.getD (k "<anon-section>")) :
    x.name = y.name ∧ x.segment = y.segment := by
  have comma : k "," = [44] := by decide
  have nc : ∀ {x : Section}, ReadableSection x → 44 ∉ x.name.getD (k "<anon-section>") := by
    intro x hx
    cases h : x.name with
    | none => decide
    | some n => exact (hx.name n h).2.1
  have nm : x.name.getD (k "<anon-section>") = y.name.getD (k "<anon-section>") → x.name = y.name := by
    intro e
    cases h : x.name <;> cases h' : y.name <;> rw [h, h'] at e
    · exact absurd e.symm (hy.name _ h').2.2
    · exact absurd e (hx.name _ h).2.2
    · exact congrArg some e
  have key : ∀ {a b : Str} {x : Section}, ReadableSection x → a ++ [44] ++ b ≠ x.name.getD (k "<anon-section>") := by
    intro a b x hx e
    exact nc hx (e ▸ by simp)
  cases h : x.segment with
  | none =>
    cases h' : y.segment with
    | none =>
      rw [h, h'] at e
      exact ⟨nm e, rfl⟩
    | some m =>
      rw [h, h'] at e
      exact absurd (by simpa [comma] using e.symm) (key (a := m) (b := y.name.getD (k "<anon-section>")) hx)
  | some m =>
    cases h' : y.segment with
    | none =>
      rw [h, h'] at e
      exact absurd (by simpa [comma] using e) (key (a := m) (b := x.name.getD (k "<anon-section>")) hy)
    | some m' =>
      rw [h, h'] at e
      simp only [Option.map_some, Option.getD_some, comma, List.append_assoc, List.cons_append, List.nil_append] at e
      obtain ⟨e1, e2⟩ := cut_at (hx.segment m h) (hy.segment m' h') e
      exact ⟨nm e2, by rw [e1]⟩

theorem section_eq {x y : Section} (hx : ReadableSection x) (hy : ReadableSection y) (e : sectionRows x = sectionRows y) :
    SameSection x y := by
  obtain ⟨e1, e2⟩ := entry_eq (sectionTitle_ne hx) (sectionTitle_ne hy) e
  obtain ⟨h1, h2⟩ := sectionTitle_eq hx hy e1
  have := blocks_eq (Ls := [k "address", k "size"]) (Bs := [_, _]) (Bs' := [_, _]) (by decide)
    (.cons (block_oneRow _ _) (.cons (block_oneRow _ _) .nil)) (.cons (block_oneRow _ _) (.cons (block_oneRow _ _) .nil))
    (by simpa only [List.flatten_cons, List.flatten_nil, List.append_nil, List.append_assoc, countRow] using e2)
  simp only [List.cons.injEq, and_true] at this
  obtain ⟨a1, a2⟩ := this
  refine ⟨h1, h2, ?_, by simpa using optDec_eq (oneRow_eq a2)⟩
  have a1 := oneRow_eq a1
  cases h : x.address <;> cases h' : y.address <;> rw [h, h'] at a1
  · exact absurd a1.symm (spanText_ne _)
  · exact absurd a1 (spanText_ne _)
  · exact congrArg some (spanText_inj a1).1

/-! ## Addresses -/

theorem spans_eq {rs rs' : List Range} (h : All2 SameSpan rs rs') (hr : ∀ r ∈ rs, r.lo < r.hi) : rs = rs' := by
  induction h with
  | nil => rfl
  | @cons a b _ _ h _ ih =>
    have h1 := hr a (List.mem_cons_self ..)
    rw [ih fun r hr' => hr r (List.mem_cons_of_mem _ hr')]
    have : a = b := by
      obtain ⟨lo, hi⟩ := a
      obtain ⟨lo', hi'⟩ := b
      have e1 := h.1
      have e2 := h.2 (.inl h1)
      simp only at e1 e2
      rw [e1, e2]
    rw [this]

theorem spanRows_eq {L : Str} {rs rs' : List Range} (e : spanRows L rs = spanRows L rs') (hr : ∀ r ∈ rs, r.lo < r.hi) :
    rs = rs' := by
  have e := under_eq e
  rw [flatMap_oneRow [] spanSizeText rs, flatMap_oneRow [] spanSizeText rs'] at e
  have e := oneRows_eq (ts := rs.map spanSizeText) (ts' := rs'.map spanSizeText) (by simp [spanSizeText_ne])
    (by simp [spanSizeText_ne]) e
  exact spans_eq (all2_imp (all2_of_map_eq e) fun a b h => spanSizeText_inj h.2.2) hr

theorem known_pos (tsz : TypeOffset → Option Nat) (u : CompUnit) : ∀ r ∈ u.knownRanges tsz, r.lo < r.hi :=
  (canonical_sort _).1

theorem unknown_pos (tsz : TypeOffset → Option Nat) (u : CompUnit) : ∀ r ∈ u.unknownRanges tsz, r.lo < r.hi :=
  (canonical_sort _).1

/-- Several addresses of a unit. -/
def unitMany (rs : List Range) : List Row := if 1 < rs.length then spanRows (k "addresses") rs else []

/-- At most one address range of a unit, else its base address. -/
def unitFew (rs : List Range) (low : Option Nat) : List Row :=
  if 1 < rs.length then [] else if rs = [] then oneRow (k "address") ((low.map at0x).getD [])
    else rs.flatMap fun r => oneRow (k "address") (spanText r)

theorem block_unitMany (rs : List Range) : Block (k "addresses") (unitMany rs) := by
  unfold unitMany
  split
  · exact block_under _ _
  · exact block_nil _

theorem block_unitFew (rs : List Range) (low : Option Nat) : Block (k "address") (unitFew rs low) := by
  unfold unitFew
  split
  · exact block_nil _
  · split
    · exact block_oneRow _ _
    · exact block_flatMap (fun r => block_oneRow _ _) rs

theorem unitSpans_eq {rs rs' : List Range} {low low' : Option Nat} (hr : ∀ r ∈ rs, r.lo < r.hi) (hr' : ∀ r ∈ rs', r.lo < r.hi)
    (h1 : unitMany rs = unitMany rs') (h2 : unitFew rs low = unitFew rs' low') : rs = rs' ∧ (rs = [] → low = low') := by
  have ne : ∀ {rs : List Range}, 1 < rs.length → unitMany rs ≠ [] := by
    intro rs h e
    cases rs with
    | nil => simp at h
    | cons r rs =>
      rw [unitMany, if_pos h] at e
      simp [spanRows, under, oneRow, spanSizeText_ne] at e
  have base : ∀ {r : Range} {low : Option Nat}, r.lo < r.hi →
      ([r].flatMap fun r => oneRow (k "address") (spanText r)) ≠ oneRow (k "address") ((low.map at0x).getD []) := by
    intro r low hr e
    have e : oneRow (k "address") (spanText r) = oneRow (k "address") ((low.map at0x).getD []) := by simpa using e
    have e := oneRow_eq e
    cases low with
    | none => exact spanText_ne _ e
    | some a =>
      rw [spanText, if_pos hr] at e
      have := (at0x_cut (r := k "-" ++ at0x (r.hi - 1)) (r' := []) (by simpa using e)
        (by intro c hc; have : k "-" = [45] := by decide
            rw [this] at hc; simp at hc; omega) (by simp)).2
      simp [at0x, k_0x] at this
  by_cases hl : 1 < rs.length
  · have hl' : 1 < rs'.length := by
      apply Classical.byContradiction
      intro hl'
      exact ne hl (h1.trans (by simp [unitMany, hl']))
    simp only [unitMany, hl, hl', if_true] at h1
    exact ⟨spanRows_eq h1 hr, fun h => by rw [h] at hl; simp at hl⟩
  · have hl' : ¬ 1 < rs'.length := by
      intro hl'
      exact ne hl' (h1.symm.trans (by simp [unitMany, hl]))
    simp only [unitFew, hl, hl', if_false] at h2
    match rs, rs', hl, hl' with
    | [], [], _, _ => exact ⟨rfl, fun _ => optAddress_eq (oneRow_eq (by simpa using h2))⟩
    | [], [r], _, _ =>
      simp only [if_true, List.cons_ne_nil, if_false] at h2
      exact absurd h2.symm (base (hr' r (by simp)))
    | [r], [], _, _ =>
      simp only [if_true, List.cons_ne_nil, if_false] at h2
      exact absurd h2 (base (hr r (by simp)))
    | [r], [r'], _, _ =>
      simp only [List.cons_ne_nil, if_false, List.flatMap_cons, List.flatMap_nil, List.append_nil] at h2
      exact ⟨spans_eq (.cons (spanText_inj (oneRow_eq h2)) .nil) hr, nofun⟩
    | _ :: _ :: _, _, hl, _ => exact absurd (by simp) hl
    | _, _ :: _ :: _, _, hl' => exact absurd (by simp) hl'

/-! ## Units and files -/

theorem block_nonzero (L : Str) (n : Nat) : Block L (nonzeroRow L n) := by
  unfold nonzeroRow
  split
  · exact block_nil _
  · exact block_oneRow _ _

theorem nonzero_eq {L : Str} {m n : Nat} (h : nonzeroRow L m = nonzeroRow L n) : m = n := by
  unfold nonzeroRow at h
  split at h <;> split at h
  · omega
  · exact absurd h.symm (by simp [countRow, oneRow, dec_ne_nil])
  · exact absurd h (by simp [countRow, oneRow, dec_ne_nil])
  · simpa using optDec_eq (oneRow_eq h)

theorem unit_eq {o : Options} {s s' : Side} {u v : CompUnit} {rows : List Row} (h : UnitRows o s.tsz u rows)
    (h' : UnitRows o s'.tsz v rows) : SameUnitSelf o s s' u v := by
  obtain ⟨f, w, z, h1, h2, h3, h4⟩ := h
  obtain ⟨f', w', z', h1', h2', h3', h4'⟩ := h'
  have three : ∀ (tsz : TypeOffset → Option Nat) (u : CompUnit), shownIf o.printUnitAddress (unitAddressRows tsz u) =
      shownIf o.printUnitAddress (unitMany (u.knownRanges tsz)) ++
      (shownIf o.printUnitAddress (unitFew (u.knownRanges tsz) u.lowPc) ++
      shownIf o.printUnitAddress (spanRows (k "unknown addresses") (u.unknownRanges tsz))) := by
    intro tsz u
    cases o.printUnitAddress
    · rfl
    · simp only [shownIf, if_true, unitAddressRows, unitMany, unitFew]
      split <;> simp
  have e := h4.symm.trans h4'
  rw [three, three] at e
  have bs : ∀ (tsz : TypeOffset → Option Nat) (u : CompUnit) (f w z : Nat),
      All2 Block [k "addresses", k "address", k "unknown addresses", k "fn size", k "var size", k "unknown size"]
      [shownIf o.printUnitAddress (unitMany (u.knownRanges tsz)), shownIf o.printUnitAddress (unitFew (u.knownRanges tsz) u.lowPc),
        shownIf o.printUnitAddress (spanRows (k "unknown addresses") (u.unknownRanges tsz)), nonzeroRow (k "fn size") f,
        nonzeroRow (k "var size") w, nonzeroRow (k "unknown size") z] := fun tsz u f w z =>
    .cons (block_shownIf _ (block_unitMany _)) (.cons (block_shownIf _ (block_unitFew _ _)) (.cons (block_shownIf _ (block_under _ _))
      (.cons (block_nonzero _ _) (.cons (block_nonzero _ _) (.cons (block_nonzero _ _) .nil)))))
  have := blocks_eq (by decide) (bs s.tsz u f w z) (bs s'.tsz v f' w' z')
    (by simpa only [List.flatten_cons, List.flatten_nil, List.append_nil, List.append_assoc] using e)
  simp only [List.cons.injEq, and_true] at this
  obtain ⟨a1, a2, a3, a4, a5, a6⟩ := this
  have key := fun h => unitSpans_eq (known_pos s.tsz u) (known_pos s'.tsz v) (shownIf_eq a1 h) (shownIf_eq a2 h)
  exact ⟨fun h => (key h).1, fun h => (key h).2, fun h => spanRows_eq (shownIf_eq a3 h) (unknown_pos _ _),
    by rw [h1, h1', nonzero_eq a4], by rw [h2, h2', nonzero_eq a5], by rw [h3, h3', nonzero_eq a6]⟩

theorem file_eq {o : Options} {a b : FileSide} {rows : List Row} (ha : ∀ x ∈ a.file.sections, ReadableSection x)
    (hb : ∀ x ∈ b.file.sections, ReadableSection x) (h : FileRows o a rows) (h' : FileRows o b rows) : SameFileSelf o a b := by
  obtain ⟨t, f, v, h1, h2, h3, h4⟩ := h
  obtain ⟨t', f', v', h1', h2', h3', h4'⟩ := h'
  have ne : ∀ p : Str, k "file " ++ p ≠ [] := by intro p; simp [k, Str.ofString]
  obtain ⟨e1, e2⟩ := entry_eq (ne _) (ne _) (h4.symm.trans h4')
  have := blocks_eq (Ls := [k "addresses", k "size", k "fn size", k "var size", k "other size", k "sections"])
    (Bs := [_, _, _, _, _, _]) (Bs' := [_, _, _, _, _, _]) (by decide)
    (.cons (block_shownIf _ (block_under _ _)) (.cons (block_oneRow _ _) (.cons (block_oneRow _ _) (.cons (block_oneRow _ _)
      (.cons (block_oneRow _ _) (.cons (block_under _ _) .nil))))))
    (.cons (block_shownIf _ (block_under _ _)) (.cons (block_oneRow _ _) (.cons (block_oneRow _ _) (.cons (block_oneRow _ _)
      (.cons (block_oneRow _ _) (.cons (block_under _ _) .nil))))))
    (by simpa only [List.flatten_cons, List.flatten_nil, List.append_nil, List.append_assoc, countRow, spanRows] using e2)
  simp only [List.cons.injEq, and_true] at this
  obtain ⟨a1, a2, a3, a4, -, a6⟩ := this
  refine ⟨List.append_cancel_left e1, fun h => ?_, ?_, ?_, ?_, ?_⟩
  · exact spanRows_eq (L := k "addresses") (shownIf_eq a1 h) (canonical_sort _).1
  · rw [h1, h1']; exact optDec_eq (oneRow_eq a2)
  · rw [h2, h2']; exact optDec_eq (oneRow_eq a3)
  · rw [h3, h3']; exact optDec_eq (oneRow_eq a4)
  · have E : Each (fun x g => g = sectionRows x) b.file.sections (a.file.sections.flatMap sectionRows) := by
      rw [under_eq a6]; exact each_flatMap _ _
    refine all2_imp (each_eq (each_flatMap sectionRows a.file.sections) E
      (fun x hx g hg => hg ▸ group_entry (sectionTitle_ne (ha x hx)) _)
      (fun x hx g hg => hg ▸ group_entry (sectionTitle_ne (hb x hx)) _)) ?_
    rintro x y ⟨m, m', g, r, r'⟩
    exact section_eq (ha x m) (hb y m') (r.symm.trans r')

/-! ## Functions, from listings -/

theorem functionText_eq {o : Options} {s s' : FnSide} {da db : Option Str} {n d : Nat} {f g : Function} {p q : P}
    (hs : ReadableFn s) (hs' : ReadableFn s') (hf : ReadableDetails (s.details f)) (hg : ReadableDetails (s'.details g))
    (hp : functionHiding (ignoredBy o) o s da n f = some p) (hq : functionHiding (ignoredBy o) o s' db n g = some q)
    {http : Bool} {i : Nat} (e : p.lines http i .none d = q.lines http i .none d) : SameFunction o s s' da db d f g := by
  obtain ⟨rows, t, h1, h2, h3⟩ := functionP_rows (http := http) (d := d) hp
  obtain ⟨rows', t', h1', h2', h3'⟩ := functionP_rows (http := http) (d := d) hq
  have sk : ∀ {s : FnSide} {f : Function} {t : P}, insnsPart (ignoredBy o) o s f = some t → t = .skip := by
    intro s f t h
    simp only [insnsPart, ignoredBy, Bool.not_true, Bool.false_and, whenP] at h
    simpa using h.symm
  rw [P.lines_eq, P.lines_eq, h3, h3', sk h2, sk h2'] at e
  simp only [P.ls, List.append_nil] at e
  have e := map_row_line_inj (List.append_cancel_right e)
  subst e
  exact functionRows_eq hs hs' hf hg h1 h1'

/-! ## Matched items -/

theorem matched_imp {α : Type} {o : Options} {R S : α → α → Prop} {la lb : List α} (h : Matched o R la lb)
    (hRS : ∀ a ∈ la, ∀ b ∈ lb, R a b → S a b) : Matched o S la lb := by
  obtain ⟨ps, gone, new, h1, h2, h3, h4, h5⟩ := h
  refine ⟨ps, gone, new, h1, h2, fun p hp => ?_, h4, h5⟩
  exact hRS p.1 (h1.mem_iff.1 (List.mem_append_left _ (List.mem_map_of_mem hp))) p.2
    (h2.mem_iff.1 (List.mem_append_left _ (List.mem_map_of_mem hp))) (h3 p hp)

theorem mem_of_wanted {α : Type} {W : α → Prop} {l : List α} {a : α} (h : a ∈ wanted W l) : a ∈ l :=
  (List.mem_filter.1 h).1

end Verif.Show
