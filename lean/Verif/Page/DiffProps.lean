import Verif.Page.DiffLemmas
import Verif.Web.DiffModel
/-!
# C106: what the page of a diff shows
-/
namespace Verif.Page
open Verif.Print Verif.Html Verif.Item Verif.Types Verif.Opts Verif.Show Verif.Order Verif.Filter Verif.Web Verif.Merge Verif.Range

variable {o : Options} {c : FilePair} {n : Nat} {same : Val → Val → Bool}

theorem named_headed (l : Str) (ns : List Node) : named l ns = headed l ns := by cases ns <;> rfl

theorem versions_of {e : D} {p q : P} (hsame : ∀ a b, same a b = true → a.text' = b.text') (ht : TreeD e) {d : Nat}
    {old new : List Row} (h1 : ∀ i x, (e.side false).ls false i x d = p.ls false i x d)
    (h2 : ∀ i x, (e.side true).ls false i x d = q.ls false i x d)
    (r1 : p.ls false 0 .none d = old.map (Row.line .none 0) ++ [.brk])
    (r2 : q.ls false 0 .none d = new.map (Row.line .none 0) ++ [.brk]) : Versions old new (pageD same false e d) := by
  refine ⟨?_, ?_⟩
  · refine (pageD_ver hsame false e ht 0 .none d).trans ?_
    rw [h1, r1, values_brk, values_rows]
  · refine (pageD_ver hsame true e ht 0 .none d).trans ?_
    rw [h2, r2, values_brk, values_rows]

/-- An entity with an id and a line break: one item. -/
theorem page_id (i : Nat) (h b : D) (d : Nat) : ∃ x, pageD same false (.seq (.id i h b) .lineBreak) d = [x] :=
  ⟨_, List.append_nil _⟩

theorem type_both (hsame : ∀ a b, same a b = true → a.text' = b.text') (hins : o.printFunctionInstructions = false)
    {u v : CompUnit} {s t : TypeEntry} {e : D} (he : typeD o c.toFnPair.toPair u.dir v.dir n s t = some e) (d : Nat) :
    ∃ x, pageD same false e d = [x] ∧ TypeBoth o c u v s t x := by
  obtain ⟨x, hx⟩ : ∃ x, pageD same false e d = [x] := by
    have he := he
    simp only [typeD, Option.bind_eq_bind, Option.bind_eq_some_iff, Option.some.injEq] at he
    obtain ⟨h, _, b, _, rfl⟩ := he
    exact page_id ..
  refine ⟨x, hx, ?_⟩
  intro hform
  obtain ⟨p, q, hp, hq, hs⟩ := typeD_ok hform he
  obtain ⟨old, h1, r1⟩ := C85_type o c.a.toSide u.dir n s p hp false 0 .none d
  obtain ⟨new, h2, r2⟩ := C85_type o c.b.toSide v.dir n t q hq false 0 .none d
  rw [P.lines_eq] at r1 r2
  rw [← hx]
  exact ⟨old, new, h1, h2, versions_of hsame (closedD_type (closedD_tree hins) he) (fun i x => hs.old false i x d)
    (fun i x => hs.new false i x d) r1 r2⟩

theorem function_both (hsame : ∀ a b, same a b = true → a.text' = b.text') (hins : o.printFunctionInstructions = false)
    {u v : CompUnit} {f g : Function} {e : D} {uid : Nat}
    (he : functionD o c.toFnPair uid u.dir v.dir n f g = some e) :
    ∃ x, pageD same false e o.inlineDepth = [x] ∧ FunctionBoth o c u v f g x := by
  obtain ⟨x, hx⟩ : ∃ x, pageD same false e o.inlineDepth = [x] := by
    have he := he
    simp only [functionD, Option.bind_eq_bind, Option.bind_eq_some_iff, Option.some.injEq] at he
    obtain ⟨b, _, rfl⟩ := he
    exact page_id ..
  refine ⟨x, hx, ?_⟩
  intro hform hla hlb
  rw [← hx]
  have hR := made_fn perm_linesRel false o (by simp) (fun _ => True)
    (fun vs _ F => List.Perm.flatMap_right F (stableSort_perm _ vs)) (fun _ _ _ h h' => h.trans h')
  obtain ⟨p, q, hp, hq, h⟩ := hR.function c.toFnPair uid u.dir v.dir n f g (.of hla trivial fun _ _ => trivial)
    (.of hlb trivial fun _ _ => trivial) hform e he
  rw [functionHiding_nothing] at hp hq
  obtain ⟨old, code, h1, hc, r1⟩ := C85_function o c.a.toFnSide u.dir n f p hp false 0 .none o.inlineDepth
  obtain ⟨new, code', h2, hc', r2⟩ := C85_function o c.b.toFnSide v.dir n g q hq false 0 .none o.inlineDepth
  rw [P.lines_eq, hc.1 (.inr (.inl hins)), List.append_nil] at r1
  rw [P.lines_eq, hc'.1 (.inr (.inl hins)), List.append_nil] at r2
  have ht : TreeD e := closedD_function (closedD_tree hins) he
  refine ⟨old, new, h1, h2, ⟨?_, ?_⟩, fun hva hvb => ?_⟩
  · show (ver false (flats 0 (pageD same false e o.inlineDepth))).Perm _
    rw [pageD_ver hsame false e ht 0 .none o.inlineDepth]
    refine ((h.old 0 .none o.inlineDepth).filterMap _).trans ?_
    show (values (p.ls false 0 .none o.inlineDepth)).Perm _
    rw [r1, values_brk, values_rows]
  · show (ver true (flats 0 (pageD same false e o.inlineDepth))).Perm _
    rw [pageD_ver hsame true e ht 0 .none o.inlineDepth]
    refine ((h.new 0 .none o.inlineDepth).filterMap _).trans ?_
    show (values (q.ls false 0 .none o.inlineDepth)).Perm _
    rw [r2, values_brk, values_rows]
  · have hR := made_fn eq_linesRel false o (by simp) (fun vs => vs.Pairwise fun a b => compare a.name b.name ≠ .gt)
      (fun vs h F => by rw [sortLocals_sorted h]) (fun _ _ _ h h' => h.trans h')
    obtain ⟨p', q', hp', hq', h'⟩ := hR.function c.toFnPair uid u.dir v.dir n f g (.of hla hva.1 hva.2)
      (.of hlb hvb.1 hvb.2) hform e he
    rw [functionHiding_nothing] at hp' hq'
    rw [hp] at hp'; rw [hq] at hq'
    cases hp'; cases hq'
    exact versions_of hsame ht (fun i x => h'.old i x _) (fun i x => h'.new i x _) r1 r2

theorem variable_made (da db : Option Str) (x y : Item.Variable) :
    Made (· = ·) false (variableD o c da db x y) (variableP o c.a da x) (variableP o c.b db y) := by
  have hR := made_closed eq_linesRel false
  have hb : Made (· = ·) false (variableBodyD o c.a.toSide c.b.toSide da db x y) (variableBodyP o c.a.toSide da x)
      (variableBodyP o c.b.toSide db y) :=
    hR.seq ((hR.line _ _ _).ignore _) (hR.seq ((hR.line _ _ _).ignore _) (hR.seq (hR.source _ _ _ _ _)
      (hR.seq ((hR.line _ _ _).ignore _) (hR.seq (hR.line _ _ _) (hR.seq (hR.line _ _ _) hR.skip)))))
  exact hR.congr (hR.seq (hR.indent true (hR.line _ _ _) hb) hR.lineBreak) (fun _ _ _ => rfl) fun _ _ _ => rfl

theorem variable_both (hsame : ∀ a b, same a b = true → a.text' = b.text') (hins : o.printFunctionInstructions = false)
    (u v : CompUnit) (x y : Item.Variable) (d : Nat) :
    ∃ z, pageD same false (variableD o c u.dir v.dir x y) d = [z] ∧ VariableBoth o c u v x y z := by
  have one : ∀ a b : Val, a.text' ≠ [] → ∃ g, lineGroup same [] a b = [g] := by
    intro a b ha
    have : blank a = false := by
      cases hb : blank a with
      | false => rfl
      | true => exact absurd (text_of_blank hb) ha
    unfold lineGroup
    rw [this]
    split
    · exact ⟨_, rfl⟩
    · split
      · exact ⟨_, rfl⟩
      · split
        · exact ⟨_, rfl⟩
        · exact ⟨_, rfl⟩
  obtain ⟨z, hz⟩ : ∃ z, pageD same false (variableD o c u.dir v.dir x y) d = [z] := by
    obtain ⟨g, hg⟩ := one (variableName c.a.toSide x) (variableName c.b.toSide y)
      (by rw [variable_text]; simp [k, Str.ofString])
    simp only [variableD, pageD, headsD, section_, hg, List.append_nil]
    split
    · exact ⟨_, rfl⟩
    · exact ⟨_, rfl⟩
  refine ⟨z, hz, ?_⟩
  unfold VariableBoth
  rw [← hz]
  have h := variable_made (o := o) (c := c) u.dir v.dir x y
  have r1 := C85_variable o c.a u.dir x false 0 .none d
  have r2 := C85_variable o c.b v.dir y false 0 .none d
  rw [P.lines_eq] at r1 r2
  exact versions_of hsame (closedD_variable (closedD_tree hins) _ _ _ _) (fun i x => h.old i x d)
    (fun i x => h.new i x d) r1 r2

/-! ### Sizes -/

theorem sizeText_of {a b : Nat} {v : Val} (h : fieldU64Val a b = some v) : SizeText a b v.text' := by
  unfold SizeText
  unfold fieldU64Val at h
  by_cases hab : a = b
  · rw [if_pos hab]
    rw [if_neg (by simp [hab])] at h
    cases h; rfl
  · rw [if_neg hab]
    rw [if_pos (fun e => hab e.symm)] at h
    obtain ⟨d, hd, rfl⟩ := Option.map_eq_some_iff.1 h
    refine ⟨signedDec d, by simp [Val.text', k], fun ha hb => ?_⟩
    rw [(C59_delta_exact_iff a b (by omega) (by omega)).2 ⟨fun _ => hb, fun _ => ha⟩] at hd
    cases hd
    unfold signedDec
    by_cases hlt : a < b
    · rw [if_pos hlt, if_pos (by omega)]
      have : ((b : Int) - (a : Int)).toNat = b - a := by omega
      rw [this]
    · rw [if_neg hlt, if_neg (by omega)]
      have : (-((b : Int) - (a : Int))).toNat = a - b := by omega
      rw [this]

theorem fieldU64_parts {l : Str} {a b : Nat} {e : D} (he : D.fieldU64 l a b = some e) :
    ∃ v, fieldU64Val a b = some v ∧ e = .line l (.text (dec a)) v := by
  simp only [D.fieldU64, fieldU64Val, ne_eq, not_true_eq_false, if_false] at he
  split at he
  · rename_i va vb ha hb
    cases ha; cases he
    exact ⟨vb, hb, rfl⟩
  · cases he

/-- A line, or a line with a size and the difference. -/
def SizedLine (l' l : Line) : Prop :=
  l' = l ∨ ∃ x i L a b v, L ∈ sizeLabels ∧ fieldU64Val a b = some v ∧ l = .line x i L (dec b) ∧ l' = .line x i L v.text'

theorem sized_linesRel : LinesRel (All2 SizedLine) where
  refl l := by
    induction l with
    | nil => exact .nil
    | cons a l ih => exact .cons (.inl rfl) ih
  append h h' := by
    induction h with
    | nil => exact h'
    | cons h1 _ ih => exact .cons h1 ih
  nil h := by cases h <;> simp

theorem sized_u64 (l : Str) (hL : l ∈ sizeLabels) (a b : Nat) (e : D) (he : D.fieldU64 l a b = some e) :
    Made (All2 SizedLine) false e (P.fieldU64 l a) (P.fieldU64 l b) := by
  obtain ⟨v, hv, rfl⟩ := fieldU64_parts he
  refine ⟨fun _ _ _ => sized_linesRel.refl _, fun i x d => ?_, trivial⟩
  have hd : ∀ n, dec n ≠ [] := fun n => dec_ne_nil n
  have hv' : v.text' ≠ [] := by
    have := sizeText_of hv
    unfold SizeText at this
    split at this
    · rw [this]; exact hd _
    · obtain ⟨d, h, _⟩ := this
      rw [h]; simp [hd]
  simp only [D.side, P.fieldU64, P.ls, if_true, hv', if_false, Val.text', hd]
  exact .cons (.inr ⟨_, _, _, _, _, _, hL, hv, rfl, rfl⟩) .nil

theorem sized_values {l' l : List Line} (h : All2 SizedLine l' l) : All2 Sized (values l) (values l') := by
  induction h with
  | nil => exact .nil
  | cons h1 _ ih =>
    rename_i a b as bs _
    have e : ∀ (a : Line) as, values (a :: as) = values [a] ++ values as := fun a as => values_append [a] as
    rw [e a, e b]
    rcases h1 with rfl | ⟨x, i, L, m, n, v, hL, hv, rfl, rfl⟩
    · have app : ∀ l : List Row, All2 Sized (l ++ values bs) (l ++ values as) := by
        intro l
        induction l with
        | nil => exact ih
        | cons a l ih => exact .cons ⟨rfl, rfl, .inl rfl⟩ ih
      exact app _
    · have hs := sizeText_of hv
      have hv' : v.text' ≠ [] := by
        have := hs
        unfold SizeText at this
        split at this
        · rw [this]; exact dec_ne_nil _
        · obtain ⟨d, h, _⟩ := this
          rw [h]; simp [dec_ne_nil]
      simp only [values, List.filterMap_cons, List.filterMap_nil, lineRow, dec_ne_nil, hv', if_false]
      exact .cons ⟨rfl, rfl, .inr ⟨by simpa [sizeLabels] using hL, m, n, rfl, hs⟩⟩ ih

/-! ### The unit's own rows -/

theorem unitRanges_made (u v : CompUnit) 
    (h : 1 < (u.knownRanges c.a.tsz).length ↔ 1 < (v.knownRanges c.b.tsz).length) :
    Made (· = ·) false (unitRangesD c.a.toSide c.b.toSide u v) (unitRangesP c.a.toSide u) (unitRangesP c.b.toSide v) := by
  have hR := made_closed eq_linesRel false
  refine hR.seq ?_ (hR.field _ _ (hR.rangeItems _ _))
  by_cases hm : 1 < (u.knownRanges c.a.tsz).length
  · rw [if_pos (.inl hm), if_pos hm, if_pos (h.1 hm)]
    exact hR.field _ _ (hR.rangeItems _ _)
  · have hm' : ¬ 1 < (v.knownRanges c.b.tsz).length := fun h' => hm (h.2 h')
    rw [if_neg (fun h => h.elim hm hm'), if_neg hm, if_neg hm']
    exact hR.line ..

theorem sizeLine_pair {l : Str} {a b : Nat} {e : D} (h : sizeLineD l a b = some e) (d : Nat) :
    ∃ old new, SizePair l a b old new ∧ (∀ i x, (e.side false).ls false i x d = old.map (Row.line x i)) ∧
      ∀ i x, (e.side true).ls false i x d = new.map (Row.line x i) := by
  unfold sizeLineD at h
  unfold SizePair
  by_cases hab : a = 0 ∧ b = 0
  · rw [if_neg (by omega)] at h
    cases h
    exact ⟨[], [], by rw [if_pos hab]; exact ⟨rfl, rfl⟩, fun _ _ => rfl, fun _ _ => rfl⟩
  · rw [if_pos (by omega)] at h
    obtain ⟨v, hv, rfl⟩ := fieldU64_parts h
    have hs := sizeText_of hv
    have hv' : v.text' ≠ [] := by
      have := hs
      unfold SizeText at this
      split at this
      · rw [this]; exact dec_ne_nil _
      · obtain ⟨d, h, _⟩ := this
        rw [h]; simp [dec_ne_nil]
    refine ⟨_, _, by rw [if_neg hab]; exact ⟨rfl, _, hs, rfl⟩, fun i x => ?_, fun i x => ?_⟩
    · simp [D.side, P.ls, Val.text', dec_ne_nil, Row.line]
    · simp [D.side, P.ls, hv', Row.line]

theorem unitPart_both (hsame : ∀ a b, same a b = true → a.text' = b.text') {u v : CompUnit} {e : D}
    (he : unitPartD o c.a.toSide c.b.toSide u v = some e) (d : Nat) : UnitRowsBoth o c u v (pageD same false e d) := by
  intro hform
  have ht : TreeD e := (cleanD_unitPart he).tree
  simp only [unitPartD, Option.bind_eq_bind, Option.bind_eq_some_iff, Option.some.injEq] at he
  obtain ⟨f, hf, f', hf', x, hx, x', hx', w, hw, w', hw', ef, hef, ex, hex, ew, hew, rfl⟩ := he
  obtain ⟨fo, fn, hfp, f1, f2⟩ := sizeLine_pair hef d
  obtain ⟨xo, xn, hxp, x1, x2⟩ := sizeLine_pair hex d
  obtain ⟨wo, wn, hwp, w1, w2⟩ := sizeLine_pair hew d
  refine ⟨f, f', x, x', w, w', fo, fn, xo, xn, wo, wn, hf, hf', hx, hx', hw, hw', hfp, hxp, hwp, ?_⟩
  have key : (∀ i x, ((if o.printUnitAddress then unitRangesD c.a.toSide c.b.toSide u v else .skip).side false).ls false i x d =
        (shownIf o.printUnitAddress (unitAddressRows c.a.tsz u)).map (Row.line x i)) ∧
      ∀ i x, ((if o.printUnitAddress then unitRangesD c.a.toSide c.b.toSide u v else .skip).side true).ls false i x d =
        (shownIf o.printUnitAddress (unitAddressRows c.b.tsz v)).map (Row.line x i) := by
    cases hp : o.printUnitAddress with
    | false => exact ⟨fun _ _ => rfl, fun _ _ => rfl⟩
    | true =>
      have hm := unitRanges_made (c := c) u v (hform hp)
      refine ⟨fun i x => ?_, fun i x => ?_⟩
      · refine (hm.old i x d).trans ?_
        exact unitRanges_rows (http := false) (d := d) c.a.toSide u i x
      · refine (hm.new i x d).trans ?_
        exact unitRanges_rows (http := false) (d := d) c.b.toSide v i x
  have cat : ∀ (l1 l2 l3 l4 : List Row) (x : DiffPrefix), values (l1.map (Row.line x 0) ++ (l2.map (Row.line x 0) ++
      (l3.map (Row.line x 0) ++ (l4.map (Row.line x 0) ++ ([Line.brk] ++ []))))) = valued (l1 ++ l2 ++ l3 ++ l4) := by
    intro l1 l2 l3 l4 x
    have := values_brk ((l1 ++ l2 ++ l3 ++ l4).map (Row.line x 0))
    rw [values_rows] at this
    rw [← this]
    simp
  refine ⟨?_, ?_⟩
  · refine (pageD_ver hsame false _ ht 0 .none d).trans ?_
    simp only [D.seqs, D.side, P.ls, key.1, f1, x1, w1]
    exact cat ..
  · refine (pageD_ver hsame true _ ht 0 .none d).trans ?_
    simp only [D.seqs, D.side, P.ls, key.2, f2, x2, w2]
    exact cat ..

/-- From what C82 says of a list of pairs to what it shows. -/
theorem pairs_shown {α γ : Type} {cmpBy : α → γ → α → γ → Res Ordering} {ha hb : γ} {print print' : α → Option P}
    {diff : α → α → Option D} {d : Nat} {order : List (MergeResult α α)} {ns : List Node}
    {Both : α → α → Node → Prop} {Old New : α → Node → Prop} (hh : o.http = false)
    (hb' : ∀ a b e, .both a b ∈ order → diff a b = some e → ∃ x, pageD same false e d = [x] ∧ Both a b x)
    (ho : ∀ a p, print a = some p → ∃ x, pageP false .del p d = [x] ∧ Old a x)
    (hn : ∀ a p, print' a = some p → ∃ x, pageP false .add p d = [x] ∧ New a x)
    (h : PageDiffItems same o cmpBy ha hb print print' diff d order ns) :
    PairsShown o cmpBy ha hb Both Old New order ns := by
  obtain ⟨h1, parts, h2, h3⟩ := h
  refine ⟨h1, parts, ?_, h3⟩
  clear h1 h3
  induction h2 with
  | nil => exact .nil
  | cons hx _ ih =>
    refine .cons ?_ (ih fun a b e hm => hb' a b e (List.mem_cons_of_mem _ hm))
    cases hx with
    | pair hd =>
      obtain ⟨x, hx, hr⟩ := hb' _ _ _ (List.mem_cons_self ..) hd
      rw [hh, hx]; exact .both hr
    | deleted hi hp =>
      obtain ⟨x, hx, hr⟩ := ho _ _ hp
      rw [hh, hx]; exact .old hi hr
    | notDeleted hi => exact .notOld hi
    | added hi hp =>
      obtain ⟨x, hx, hr⟩ := hn _ _ hp
      rw [hh, hx]; exact .new hi hr
    | notAdded hi => exact .notNew hi

theorem unit_both (hsame : ∀ a b, same a b = true → a.text' = b.text') (hins : o.printFunctionInstructions = false)
    (hhttp : o.http = false) (hhtml : o.html = true) {u v : CompUnit} {e : D} (he : unitD o c n u v = some e)
    (ga : ∀ t ∈ u.types, Acc (IdRef c.a.hash) t.kind) : 
    ∃ x, pageD same false e o.inlineDepth = [x] ∧ UnitBoth o c n u v x := by
  obtain ⟨body, ⟨part, types, fns, inl, vars, rfl, hp, hp', ht, ht', hf, hf', hv, hv'⟩, hpage⟩ :=
    C82_unit_page_diff same o hhtml c n u v e he ga o.inlineDepth
  rw [hhttp] at hpage
  refine ⟨_, hpage, (lineGroup same [] (unitName u) (unitName v)).flatten, part, types, fns, inl, vars, ?_, ?_, hp, ?_, ht, ?_, hf, ?_,
    hv, ?_⟩
  · simp only [named_headed, Bool.false_eq_true, if_false]
  · have hne : ∀ u : CompUnit, unitText u ≠ [] := fun u => by simp [unitText, k, Str.ofString]
    have key : ∀ (new : Bool) (w : CompUnit), (if new then unitName v else unitName u) = unitName w →
        versionAt new 0 [.item (lineGroup same [] (unitName u) (unitName v)).flatten none] = valued [⟨0, [], unitText w⟩] := by
      intro new w hw
      have := lineGroup_ver hsame new [] (unitName u) (unitName v) 0 .none 0
      rw [hw] at this
      simp only [P.ls, unit_text, hne, if_false] at this
      show ver new (flats 0 _) = _
      have e2 : flats 0 [Node.item (lineGroup same [] (unitName u) (unitName v)).flatten none] =
          headEntries 0 (lineGroup same [] (unitName u) (unitName v)) := by
        simp [flats, Node.flat, flatKids, headEntries]
      rw [e2, this]
      simp [values, lineRow, hne, valued]
    exact ⟨key false u rfl, key true v rfl⟩
  · intro h
    obtain ⟨q, hq, rfl⟩ := hp' h
    rw [hhttp]
    exact unitPart_both hsame hq _
  · intro h
    obtain ⟨order, h1, h2⟩ := ht' h
    exact ⟨order, h1, pairs_shown hhttp (fun a b e _ h => type_both hsame hins h _)
      (fun a p h => type_item (x := .delete) rfl _ h) (fun a p h => type_item (x := .add) rfl _ h) h2⟩
  · intro h
    obtain ⟨order, order', h1, h2, h3, h4, h5⟩ := hf' h
    exact ⟨order, order', h1, h2, h3,
      pairs_shown hhttp (fun a b e _ h => function_both hsame hins h)
        (fun a p h => function_item hins (x := .delete) rfl _ h) (fun a p h => function_item hins (x := .add) rfl _ h) h4,
      pairs_shown hhttp (fun a b e _ h => function_both hsame hins h)
        (fun a p h => function_item hins (x := .delete) rfl _ h) (fun a p h => function_item hins (x := .add) rfl _ h) h5⟩
  · intro h
    obtain ⟨order, h1, h2⟩ := hv' h
    refine ⟨order, h1, pairs_shown hhttp (fun a b e _ h => ?_) (fun a p h => ?_) (fun a p h => ?_) h2⟩
    · simp only [Option.some.injEq] at h
      subst h; exact variable_both hsame hins u v a b _
    · simp only [Option.some.injEq] at h
      subst h; exact variable_item (x := .delete) rfl _ _ _
    · simp only [Option.some.injEq] at h
      subst h; exact variable_item (x := .add) rfl _ _ _

theorem mem_oldItems {α : Type} {a b : α} {l : List (MergeResult α α)} (h : .both a b ∈ l) : a ∈ oldItems l :=
  List.mem_filterMap.2 ⟨_, h, rfl⟩

theorem file_diff (hsame : ∀ a b, same a b = true → a.text' = b.text') (hins : o.printFunctionInstructions = false)
    (hhttp : o.http = false) (hhtml : o.html = true) {e : D} (he : fileD o c n = some e)
    (ga : ∀ u ∈ c.a.file.units, ∀ t ∈ u.types, Acc (IdRef c.a.hash) t.kind) :
    DiffPage o c n (pageD same false e o.inlineDepth) := by
  obtain ⟨head, units, order, h1, h2, h3, h4, h5⟩ := C82_page_diff same o c n e he o.inlineDepth
  rw [hhttp] at h1 h3
  refine ⟨head, units, order, h1, h2, fun h => ?_, h4, ?_⟩
  · obtain ⟨q, hq, rfl⟩ := h3 h
    obtain ⟨p, _, hp, _, hs⟩ := (oldSide_closed false).filePart (fun l _ => oldSide_u64 false l) o c q hq
    obtain ⟨rows, hr, hl⟩ := filePartP_rows (http := false) (d := o.inlineDepth) hp
    obtain ⟨p', q', _, hq', hs'⟩ := (made_closed sized_linesRel false).filePart sized_u64 o c q hq
    obtain ⟨rows', hr', hl'⟩ := filePartP_rows (http := false) (d := o.inlineDepth) hq'
    refine ⟨rows, rows', hr, hr', ?_, ?_⟩
    · refine (pageD_ver hsame false q (cleanD_filePart hq).tree 0 .none o.inlineDepth).trans ?_
      rw [hs.2, hl, values_brk, values_rows]
    · have h1 := sized_values (hs'.new 0 .none o.inlineDepth)
      rw [hl', values_brk, values_rows] at h1
      rw [show versionAt true 0 (pageD same false q o.inlineDepth) = _ from
        pageD_ver hsame true q (cleanD_filePart hq).tree 0 .none o.inlineDepth]
      exact h1
  · refine pairs_shown hhttp (fun a b e hm h => ?_) (fun a p h => unit_item hins hhtml (x := .delete) rfl h)
      (fun a p h => unit_item hins hhtml (x := .add) rfl h) h5
    refine unit_both hsame hins hhttp hhtml h (ga a ?_)
    have := (h4.old.mem_iff).1 (mem_oldItems hm)
    rw [wantedUnits_eq] at this
    exact (List.mem_filter.1 this).1

/-- **C106 (diff).** The page of the diff of two files shows the summaries if they are wanted and, paired by name, every
wanted unit of either file; in a unit of both, under headings, its types, functions with code, inlined functions and
variables, paired by identity and in the order that was asked for; a pair is one item, in which the lines that are not
marked as added show the rows of the old version, and those that are not marked as deleted the rows of the new one; an
item of one file shows its rows, all marked, unless the user ignores these. -/
theorem C106_diff (t : EntityTable) (alnum : Nat → Bool) (fr : Frame) (o : Options) (c : FilePair) (n : Nat)
    (hhttp : o.http = false) (hhtml : o.html = true) (hins : o.printFunctionInstructions = false)
    (ga : ∀ u ∈ c.a.file.units, ∀ t ∈ u.types, Acc (IdRef c.a.hash) t.kind) (page : Str)
    (h : diffPage t alnum fr o c n = some page) :
    ∃ items ns, page = fr.header ++ items ++ fr.footer ∧ Html.Reads t alnum items ns ∧ DiffPage o c n ns := by
  simp only [diffPage, Option.map_eq_some_iff] at h
  obtain ⟨e, he, rfl⟩ := h
  have := (C82_diff_reads t alnum o hhtml hins c n e he).2
  rw [hhttp] at this
  refine ⟨_, _, rfl, ?_, file_diff (same := fun a b => decide (valueHtml t alnum a = valueHtml t alnum b))
    (fun a b h => text_of_html (of_decide_eq_true h)) hins hhttp hhtml he ga⟩
  unfold freshD
  rw [hhttp]
  exact this

end Verif.Page
