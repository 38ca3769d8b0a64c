import Verif.Show.FnFacts
/-! # What the rows of the listing of a function determine: frames, inlined functions, functions -/
namespace Verif.Show
open Verif.Print Verif.Item Verif.Namespace Verif.Types Verif.Opts Verif.Range Verif.Frame

/-! ## The stack frame -/

/-- The text of the gap before an entry. -/
def gapTexts (v : Option Int × Entry) : List Str :=
  match v.1 with
  | some e => if e < v.2.offset then [decInt e ++ k "[" ++ decInt (v.2.offset - e) ++ k "]\t<unknown>"] else []
  | none => []

theorem k_gap : k "]\t<unknown>" = [93, 9, 60, 117, 110, 107, 110, 111, 119, 110, 62] := by decide

theorem gap_colon (v : Option Int × Entry) : ∀ t ∈ gapTexts v, 58 ∉ t ∧ t ≠ [] := by
  intro t ht
  unfold gapTexts at ht
  split at ht
  · split at ht
    · rw [List.mem_singleton] at ht
      subst ht
      have h1 : ∀ z : Int, 58 ∉ decInt z := fun z => (intText_decInt z).not_mem (by omega)
      simp [k_gap, k_open, h1]
    · cases ht
  · cases ht

theorem entryText_colon (s : FnSide) (e : Entry) : 58 ∈ frameEntryText s e := by
  simp [frameEntryText, k_colon]

theorem entryText_inj {s s' : FnSide} {e e' : Entry} (hn : Plain e.name) (hn' : Plain e'.name)
    (h : frameEntryText s e = frameEntryText s' e') : SameEntry s s' e e' := by
  unfold frameEntryText at h
  simp only [List.append_assoc] at h
  have hd : ∀ (n : Option Nat) (r : Str) (c : Nat), (sizeBracket n ++ r).head? = some c → ¬ c ≠ 91 := by
    intro n r c hc
    have : (sizeBracket n).head? = some 91 := by
      cases n with
      | none => decide
      | some n => simp [sizeBracket, k_open]
    rw [List.head?_append, this] at hc
    simp at hc
    simp [← hc]
  obtain ⟨h1, h2⟩ := cut_eq (p := fun c : Nat => c ≠ 91) h (fun c hc e => decInt_open _ (e ▸ hc))
    (fun c hc e => decInt_open _ (e ▸ hc)) (hd _ _) (hd _ _)
  obtain ⟨h3, h4⟩ := sizeBracket_cut (by simpa only [List.append_assoc] using h2)
  obtain ⟨h5, h6⟩ := named_decl hn hn' (by simpa only [List.append_assoc] using h4)
  exact ⟨decInt_inj h1, h3, h5, h6⟩

theorem frameEntry_plain {tsz : TypeOffset → Option Nat} {d : FunctionDetails} (hd : ReadableDetails d) {e : Entry}
    (h : FrameEntry tsz d e) : Plain e.name := by
  rcases h with ⟨p, _, hp, -, hn, -, -⟩ | ⟨v, _, hv, -, hn, -, -⟩
  · exact hn ▸ hd.parameters p hp
  · exact hn ▸ hd.variables v hv

theorem stack_texts (s : FnSide) (l : List (Option Int × Entry)) :
    (l.flatMap fun v =>
      (match v.1 with
        | some e => if e < v.2.offset then
            oneRow [] (decInt e ++ k "[" ++ decInt (v.2.offset - e) ++ k "]\t<unknown>") else []
        | none => []) ++ oneRow [] (frameEntryText s v.2)) =
      (l.flatMap fun v => gapTexts v ++ [frameEntryText s v.2]).flatMap (oneRow []) := by
  induction l with
  | nil => rfl
  | cons v l ih =>
    rw [List.flatMap_cons, List.flatMap_cons, List.flatMap_append, ih, List.flatMap_append]
    congr 2
    · obtain ⟨o, e⟩ := v
      cases o with
      | none => rfl
      | some o =>
        simp only [gapTexts]
        split <;> simp
    · simp

theorem entries_of_texts (s : FnSide) (l : List (Option Int × Entry)) :
    (l.flatMap fun v => gapTexts v ++ [frameEntryText s v.2]).filter (fun t => decide (58 ∈ t)) =
      (l.map Prod.snd).map (frameEntryText s) := by
  induction l with
  | nil => rfl
  | cons v l ih =>
    rw [List.flatMap_cons, List.filter_append, ih, List.filter_append]
    have h1 : (gapTexts v).filter (fun t => decide (58 ∈ t)) = [] := by
      rw [List.filter_eq_nil_iff]
      intro t ht
      simp [(gap_colon v t ht).1]
    have h2 := entryText_colon s v.2
    rw [h1, List.filter_cons_of_pos (by simpa using h2)]
    rfl

theorem stack_eq {s s' : FnSide} {d d' : FunctionDetails} (hd : ReadableDetails d) (hd' : ReadableDetails d')
    {rows : List Row} (h : StackRows s d rows) (h' : StackRows s' d' rows) : SameFrame s s' d d' := by
  obtain ⟨l, h1, h2, -, -, -, h3⟩ := h
  obtain ⟨l', h1', h2', -, -, -, h3'⟩ := h'
  have e := (h3.trans (stack_texts s l)).symm.trans (h3'.trans (stack_texts s' l'))
  have ne : ∀ (s : FnSide) (l : List (Option Int × Entry)), ∀ t ∈ l.flatMap (fun v => gapTexts v ++ [frameEntryText s v.2]), t ≠ [] := by
    intro s l t ht
    obtain ⟨v, -, hv⟩ := List.mem_flatMap.1 ht
    rcases List.mem_append.1 hv with hv | hv
    · exact (gap_colon v t hv).2
    · rw [List.mem_singleton] at hv
      subst hv
      exact List.ne_nil_of_mem (entryText_colon s v.2)
  have e := oneRows_eq (ne s l) (ne s' l') e
  have e := congrArg (List.filter fun t => decide (58 ∈ t)) e
  rw [entries_of_texts, entries_of_texts] at e
  refine ⟨l.map Prod.snd, l'.map Prod.snd, h1, h1', h2, h2', ?_⟩
  refine all2_imp (all2_of_map_eq e) ?_
  rintro a b ⟨m, m', r⟩
  exact entryText_inj (frameEntry_plain hd ((h1 a).1 m)) (frameEntry_plain hd' ((h1' b).1 m')) r

/-! ## Inlined functions -/

/-- The rows of an inlined function, apart from its heading. -/
theorem inlinedRows_form {m : Hidden} {o : Options} {s : FnSide} {dir : Option Str} {d : Nat} {f : InlinedFunction}
    {rows : List Row} (h : InlinedRows m o s dir d f rows) :
    ∃ ps vs inl, Each (ParameterRows o s) f.parameters ps ∧ LocalsRows m o s f.variables vs ∧
      (d = 0 → inl = []) ∧ (∀ e, d = e + 1 → Each (InlinedRows m o s dir e) f.inlined inl) ∧
      rows = entry (sizeBracket f.size ++ k "\t" ++ originText s f)
        (shownIf o.printSource (oneRow (k "call source") (f.callSource.print dir)) ++
          shownIf o.printInlinedFunctionParameters (under (k "parameters") ps) ++
          shownIf o.printFunctionVariables (under (k "variables") vs) ++
          shownIf o.printFunctionCalls (under (k "call sites") (f.calls.flatMap (siteRows o s dir))) ++ inl) := by
  cases d with
  | zero =>
    obtain ⟨ps, vs, h1, h2, h3⟩ := h
    exact ⟨ps, vs, [], h1, h2, fun _ => rfl, (fun e he => by cases he), by simpa [originText] using h3⟩
  | succ d =>
    obtain ⟨ps, vs, inl, h1, h2, h3, h4⟩ := h
    exact ⟨ps, vs, inl, h1, h2, (fun e => by cases e), (fun e he => by cases he; exact h3), h4⟩

theorem inlined_entry {m : Hidden} {o : Options} {s : FnSide} {dir : Option Str} {d : Nat} {f : InlinedFunction}
    {rows : List Row} (h : InlinedRows m o s dir d f rows) : ∃ t body, t ≠ [] ∧ rows = entry t body := by
  obtain ⟨_, _, _, -, -, -, -, rfl⟩ := inlinedRows_form h
  exact ⟨_, _, by simp [sizeBracket_ne], rfl⟩

theorem inlined_group {m : Hidden} {o : Options} {s : FnSide} {dir : Option Str} {d : Nat} {f : InlinedFunction}
    {rows : List Row} (h : InlinedRows m o s dir d f rows) : RowGroup rows := by
  obtain ⟨t, b, ht, rfl⟩ := inlined_entry h
  exact group_entry ht b

/-- The names in an inlined function and in what is inlined into it can be read. -/
structure ReadableInl (f : InlinedFunction) : Prop where
  parameters : ∀ p ∈ f.parameters, Plain p.name
  variables : ∀ v ∈ f.variables, Plain v.name
  calls : ∀ c ∈ f.calls, ReadableCall c

theorem inlined_eq {o : Options} {s s' : FnSide} (hs : ReadableFn s) (hs' : ReadableFn s') {da db : Option Str} :
    ∀ (d : Nat) {f f' : InlinedFunction}, (ReadableInl f ∧ ∀ i, Frame.Within f.inlined i → ReadableInl i) →
    (ReadableInl f' ∧ ∀ i, Frame.Within f'.inlined i → ReadableInl i) → ∀ {rows : List Row},
    InlinedRows (ignoredBy o) o s da d f rows → InlinedRows (ignoredBy o) o s' db d f' rows →
    SameInlined o s s' da db d f f' := by
  intro d
  induction d with
  | zero =>
    intro f f' hf hf' rows h h'
    obtain ⟨ps, vs, inl, h1, h2, h3, -, h5⟩ := inlinedRows_form h
    obtain ⟨ps', vs', inl', h1', h2', h3', -, h5'⟩ := inlinedRows_form h'
    cases h3 rfl
    cases h3' rfl
    obtain ⟨e1, e2⟩ := entry_eq (by simp [sizeBracket_ne]) (by simp [sizeBracket_ne]) (h5.symm.trans h5')
    obtain ⟨z, n⟩ := sizeBracket_cut e1
    have := blocks_eq (Ls := [k "call source", k "parameters", k "variables", k "call sites"]) (Bs := [_, _, _, _])
      (Bs' := [_, _, _, _]) (by decide)
      (.cons (block_shownIf _ (block_oneRow _ _)) (.cons (block_shownIf _ (block_under _ _)) (.cons (block_shownIf _ (block_under _ _))
        (.cons (block_shownIf _ (block_under _ _)) .nil))))
      (.cons (block_shownIf _ (block_oneRow _ _)) (.cons (block_shownIf _ (block_under _ _)) (.cons (block_shownIf _ (block_under _ _))
        (.cons (block_shownIf _ (block_under _ _)) .nil))))
      (by simpa using e2)
    simp only [List.cons.injEq, and_true] at this
    obtain ⟨a, b, c, e⟩ := this
    exact ⟨z, n, fun hv => oneRow_eq (shownIf_eq a hv),
      fun hv => parameters_eq hs hs' hf.1.parameters hf'.1.parameters h1 (under_eq (shownIf_eq b hv) ▸ h1'),
      fun hv => locals_eq hs hs' hf.1.variables hf'.1.variables h2 (under_eq (shownIf_eq c hv) ▸ h2'),
      fun hv => sites_eq hs hs' hf.1.calls hf'.1.calls (under_eq (shownIf_eq e hv))⟩
  | succ d ih =>
    intro f f' hf hf' rows h h'
    obtain ⟨ps, vs, inl, h1, h2, -, h4, h5⟩ := inlinedRows_form h
    obtain ⟨ps', vs', inl', h1', h2', -, h4', h5'⟩ := inlinedRows_form h'
    have h4 := h4 d rfl
    have h4' := h4' d rfl
    obtain ⟨e1, e2⟩ := entry_eq (by simp [sizeBracket_ne]) (by simp [sizeBracket_ne]) (h5.symm.trans h5')
    obtain ⟨z, n⟩ := sizeBracket_cut e1
    have bl : ∀ {s : FnSide} {dir : Option Str} {l : List InlinedFunction} {rows : List Row},
        Each (InlinedRows (ignoredBy o) o s dir d) l rows → Block [] rows := fun h =>
      block_each h fun a _ g hg => by
        obtain ⟨t, b, ht, rfl⟩ := inlined_entry hg
        exact block_entry t b ht
    have := blocks_eq (Ls := [k "call source", k "parameters", k "variables", k "call sites", []]) (Bs := [_, _, _, _, _])
      (Bs' := [_, _, _, _, _]) (by decide)
      (.cons (block_shownIf _ (block_oneRow _ _)) (.cons (block_shownIf _ (block_under _ _)) (.cons (block_shownIf _ (block_under _ _))
        (.cons (block_shownIf _ (block_under _ _)) (.cons (bl h4) .nil)))))
      (.cons (block_shownIf _ (block_oneRow _ _)) (.cons (block_shownIf _ (block_under _ _)) (.cons (block_shownIf _ (block_under _ _))
        (.cons (block_shownIf _ (block_under _ _)) (.cons (bl h4') .nil)))))
      (by simpa using e2)
    simp only [List.cons.injEq, and_true] at this
    obtain ⟨a, b, c, e, g⟩ := this
    refine ⟨⟨z, n, fun hv => oneRow_eq (shownIf_eq a hv),
      fun hv => parameters_eq hs hs' hf.1.parameters hf'.1.parameters h1 (under_eq (shownIf_eq b hv) ▸ h1'),
      fun hv => locals_eq hs hs' hf.1.variables hf'.1.variables h2 (under_eq (shownIf_eq c hv) ▸ h2'),
      fun hv => sites_eq hs hs' hf.1.calls hf'.1.calls (under_eq (shownIf_eq e hv))⟩, ?_⟩
    refine all2_imp (each_eq h4 (g ▸ h4') (fun _ _ _ h => inlined_group h) (fun _ _ _ h => inlined_group h)) ?_
    rintro i i' ⟨m, m', r, hr, hr'⟩
    exact ih ⟨hf.2 i (.here m), fun j hj => hf.2 j (.deeper m hj)⟩ ⟨hf'.2 i' (.here m'), fun j hj => hf'.2 j (.deeper m' hj)⟩ hr hr'

/-! ## Functions -/

/-- Several addresses. -/
def manyRows (rs : List Range) : List Row :=
  if 1 < rs.length then under (k "addresses") (rs.flatMap fun r => oneRow [] (spanSizeText r)) else []

/-- At most one address. -/
def fewRows (rs : List Range) : List Row :=
  if 1 < rs.length then [] else rs.flatMap fun r => oneRow (k "address") (spanText r)

theorem addressRows_split (rs : List Range) : addressRows rs = manyRows rs ++ fewRows rs := by
  unfold addressRows manyRows fewRows
  split <;> simp

theorem block_many (rs : List Range) : Block (k "addresses") (manyRows rs) := by
  unfold manyRows
  split
  · exact block_under _ _
  · exact block_nil _

theorem block_few (rs : List Range) : Block (k "address") (fewRows rs) := by
  unfold fewRows
  split
  · exact block_nil _
  · exact block_flatMap (fun r => block_oneRow _ _) rs

theorem addresses_eq {rs rs' : List Range} (h1 : manyRows rs = manyRows rs') (h2 : fewRows rs = fewRows rs') :
    All2 SameSpan rs rs' := by
  have ne : ∀ {rs : List Range}, 1 < rs.length → manyRows rs ≠ [] := by
    intro rs h e
    cases rs with
    | nil => simp at h
    | cons r rs =>
      rw [manyRows, if_pos h] at e
      simp [under, oneRow, spanSizeText_ne] at e
  by_cases hl : 1 < rs.length
  · have hl' : 1 < rs'.length := by
      apply Classical.byContradiction
      intro hl'
      refine ne hl (h1.trans ?_)
      simp [manyRows, hl']
    simp only [manyRows, hl, hl', if_true] at h1
    have e := under_eq h1
    rw [flatMap_oneRow [] spanSizeText rs, flatMap_oneRow [] spanSizeText rs'] at e
    have e := oneRows_eq (ts := rs.map spanSizeText) (ts' := rs'.map spanSizeText) (by simp [spanSizeText_ne])
      (by simp [spanSizeText_ne]) e
    exact all2_imp (all2_of_map_eq e) fun a b h => spanSizeText_inj h.2.2
  · have hl' : ¬ 1 < rs'.length := by
      intro hl'
      refine ne hl' (h1.symm.trans ?_)
      simp [manyRows, hl]
    simp only [fewRows, hl, hl', if_false] at h2
    rw [flatMap_oneRow (k "address") spanText rs, flatMap_oneRow (k "address") spanText rs'] at h2
    have e := oneRows_eq (ts := rs.map spanText) (ts' := rs'.map spanText) (by simp [spanText_ne]) (by simp [spanText_ne]) h2
    exact all2_imp (all2_of_map_eq e) fun a b h => spanText_inj h.2.2

theorem return_eq {s s' : FnSide} {t t' : TypeOffset} (h : returnText s t = returnText s' t') : SameReturn s s' t t' := by
  unfold returnText at h
  split at h <;> split at h
  · rename_i h1 h2; exact ⟨by simp [h1, h2], fun h => absurd h1 h⟩
  · exact absurd h.symm (by simp [sizeBracket_ne])
  · exact absurd h (by simp [sizeBracket_ne])
  · rename_i h1 h2
    exact ⟨by simp [h1, h2], fun _ => sizeBracket_cut h⟩

theorem yes_eq {L : Str} {a b : Bool} (h : shownIf a (oneRow L (k "yes")) = shownIf b (oneRow L (k "yes"))) : a = b := by
  have e : k "yes" ≠ [] := by decide
  cases a <;> cases b <;> simp [shownIf, oneRow, e] at h ⊢

theorem found_list {o : Options} {s s' : FnSide} (hs : ReadableFn s) (hs' : ReadableFn s') {l l' : List (Nat × Nat)}
    (h : (l.flatMap fun c => oneRow [] (foundText o s c)) = l'.flatMap fun c => oneRow [] (foundText o s' c)) :
    All2 (fun c c' => foundText o s c = foundText o s' c' ∧ (o.ignoreFunctionAddress = false → c = c')) l l' := by
  rw [flatMap_oneRow [] (foundText o s), flatMap_oneRow [] (foundText o s')] at h
  have e := oneRows_eq
    (by intro t ht; obtain ⟨r, -, rfl⟩ := List.mem_map.1 ht; exact found_ne hs r)
    (by intro t ht; obtain ⟨r, -, rfl⟩ := List.mem_map.1 ht; exact found_ne hs' r) h
  exact all2_imp (all2_of_map_eq e) fun a b h => ⟨h.2.2, fun ho => found_eq h.2.2 ho⟩

theorem ReadableDetails.inl {d : FunctionDetails} (h : ReadableDetails d) {i : InlinedFunction} (hi : Frame.Within d.inlined i) :
    ReadableInl i :=
  ⟨fun p hp => h.parameters p (.inr ⟨i, hi, hp⟩), fun v hv => h.variables v (.inr ⟨i, hi, hv⟩),
    fun c hc => h.calls c (.inr ⟨i, hi, hc⟩)⟩

theorem fnHeading_ne (n : Str) : k "fn " ++ n ≠ [] := by simp [k, Str.ofString]

/-- Two functions with the same rows have the same facts. -/
theorem functionRows_eq {o : Options} {s s' : FnSide} (hs : ReadableFn s) (hs' : ReadableFn s') {da db : Option Str} {d : Nat}
    {f g : Function} (hf : ReadableDetails (s.details f)) (hg : ReadableDetails (s'.details g)) {rows : List Row}
    (h : FunctionRows (ignoredBy o) o s da d f rows) (h' : FunctionRows (ignoredBy o) o s' db d g rows) :
    SameFunction o s s' da db d f g := by
  obtain ⟨ps, vs, fr, inl, cs, h1, h2, h3, h4, h5, h6⟩ := h
  obtain ⟨ps', vs', fr', inl', cs', h1', h2', h3', h4', h5', h6'⟩ := h'
  obtain ⟨e1, e2⟩ := entry_eq (fnHeading_ne _) (fnHeading_ne _) (h6.symm.trans h6')
  have two : ∀ (b : Bool) (rs : List Range), shownIf b (addressRows rs) = shownIf b (manyRows rs) ++ shownIf b (fewRows rs) := by
    intro b rs
    cases b
    · rfl
    · exact addressRows_split rs
  have inline2 : ∀ f : Function, shownIf (!(ignoredBy o).inline && f.inline) (oneRow (k "inline") (k "yes")) =
      shownIf (!(ignoredBy o).inline) (shownIf f.inline (oneRow (k "inline") (k "yes"))) := by
    intro f
    cases (ignoredBy o).inline <;> cases f.inline <;> rfl
  rw [two, two, inline2, inline2] at e2
  have bs : ∀ (s : FnSide) (dir : Option Str) (f : Function) (ps vs fr inl : List Row) (cs : List (List (Nat × Nat))),
      All2 Block [k "linkage name", k "symbol name", k "source", k "addresses", k "address", k "size", k "inline",
        k "declaration", k "return type", k "parameters", k "variables", k "stack frame", k "inlined functions",
        k "call sites", k "calls"]
      [shownIf (!(ignoredBy o).linkageName) (oneRow (k "linkage name") (f.linkageName.getD [])),
        shownIf (!(ignoredBy o).symbolName) (oneRow (k "symbol name") (f.symbolName.getD [])),
        shownIf o.printSource (oneRow (k "source") (f.source.print dir)),
        shownIf (!(ignoredBy o).address) (manyRows f.ranges), shownIf (!(ignoredBy o).address) (fewRows f.ranges),
        shownIf (!(ignoredBy o).size) (oneRow (k "size") ((f.size.map dec).getD [])),
        shownIf (!(ignoredBy o).inline) (shownIf f.inline (oneRow (k "inline") (k "yes"))),
        shownIf f.declaration (oneRow (k "declaration") (k "yes")),
        under (k "return type") (oneRow [] (returnText s f.returnType)),
        under (k "parameters") ps,
        shownIf o.printFunctionVariables (under (k "variables") vs),
        shownIf o.printFunctionStackFrame (under (k "stack frame") fr),
        shownIf (d != 0) (under (k "inlined functions") inl),
        shownIf o.printFunctionCalls (under (k "call sites") ((s.details f).calls.flatMap (siteRows o s dir))),
        shownIf o.printFunctionCalls
          (under (k "calls") (cs.flatten.flatMap fun c => oneRow [] (foundText o s c)))] := by
    intro s dir f ps vs fr inl cs
    refine .cons ?_ (.cons ?_ (.cons ?_ (.cons ?_ (.cons ?_ (.cons ?_ (.cons ?_ (.cons ?_ (.cons ?_ (.cons ?_ (.cons ?_
      (.cons ?_ (.cons ?_ (.cons ?_ (.cons ?_ .nil))))))))))))))
    all_goals first
      | exact block_under _ _
      | exact block_shownIf _ (block_under _ _)
      | exact block_shownIf _ (block_oneRow _ _)
      | exact block_shownIf _ (block_many _)
      | exact block_shownIf _ (block_few _)
      | exact block_shownIf _ (block_shownIf _ (block_oneRow _ _))
  have e := blocks_eq (by decide) (bs s da f ps vs fr inl cs) (bs s' db g ps' vs' fr' inl' cs')
    (by simpa only [List.flatten_cons, List.flatten_nil, List.append_nil, List.append_assoc] using e2)
  simp only [List.cons.injEq, and_true] at e
  obtain ⟨a1, a2, a3, a4, a5, a6, a7, a8, a9, a10, a11, a12, a13, a14, a15⟩ := e
  exact {
    name := List.append_cancel_left e1
    linkageName := fun hv => oneRow_eq (shownIf_eq a1 (by simp [ignoredBy, hv]))
    symbolName := fun hv => oneRow_eq (shownIf_eq a2 (by simp [ignoredBy, hv]))
    source := fun hv => oneRow_eq (shownIf_eq a3 hv)
    ranges := fun hv => addresses_eq (shownIf_eq a4 (by simp [ignoredBy, hv])) (shownIf_eq a5 (by simp [ignoredBy, hv]))
    size := fun hv => optDec_eq (oneRow_eq (shownIf_eq a6 (by simp [ignoredBy, hv])))
    inline := fun hv => yes_eq (shownIf_eq a7 (by simp [ignoredBy, hv]))
    declaration := yes_eq a8
    returnType := return_eq (oneRow_eq (under_eq a9))
    parameters := parameters_eq hs hs' (fun p hp => hf.parameters p (.inl hp)) (fun p hp => hg.parameters p (.inl hp)) h1
      (under_eq a10 ▸ h1')
    variables := fun hv => locals_eq hs hs' (fun p hp => hf.variables p (.inl hp)) (fun p hp => hg.variables p (.inl hp)) h2
      (under_eq (shownIf_eq a11 hv) ▸ h2')
    frame := fun hv => stack_eq hf hg (h3 hv) (under_eq (shownIf_eq a12 hv) ▸ h3' hv)
    inlined := fun hd => all2_imp (each_eq (h4 hd) (under_eq (shownIf_eq a13 (by simpa using hd)) ▸ h4' hd)
      (fun _ _ _ h => inlined_group h) (fun _ _ _ h => inlined_group h)) fun i i' ⟨m, m', _, hr, hr'⟩ =>
        inlined_eq hs hs' (d - 1) ⟨hf.inl (.here m), fun j hj => hf.inl (.deeper m hj)⟩
          ⟨hg.inl (.here m'), fun j hj => hg.inl (.deeper m' hj)⟩ hr hr'
    sites := fun hv => sites_eq hs hs' (fun c hc => hf.calls c (.inl hc)) (fun c hc => hg.calls c (.inl hc))
      (under_eq (shownIf_eq a14 hv))
    calls := fun hv => ⟨cs, cs', h5 hv, h5' hv, found_list hs hs' (under_eq (shownIf_eq a15 hv))⟩ }

end Verif.Show
