import Verif.Opts.Lemmas2
/-!
# Property theorems: C31 (command-line options) and C32 (prefix maps)
-/
namespace Verif.Opts

theorem all_iff (names : List String) (vs : List Str) :
    (vs.all fun v => names.any fun n => decide (v = k n)) = true ↔
      ∀ v ∈ vs, ∃ n ∈ names, v = k n := by
  simp

/-- A text is a 64-bit decimal number, optionally signed `+` (see `parseUsize_iff`). -/
def IsNumber (s : Str) (n : Nat) : Prop :=
  ∃ ds, (s = ds ∨ s = 43 :: ds) ∧ ds ≠ [] ∧ (∀ c ∈ ds, 48 ≤ c ∧ c ≤ 57) ∧
    digitsValue 0 ds = n ∧ n < 2 ^ 64

/-- **C31 (what is rejected).** The command line is accepted exactly when every value is one of
the documented ones for its option: otherwise the program stops with an error. -/
theorem C31_accepts (a : Args) : (parseOptions a).isSome = true ↔
    (∀ v, a.output = some v → v = k "text" ∨ v = k "html" ∨ v = k "http") ∧
    (∀ v, a.inlineDepth = some v → ∃ n, IsNumber v n) ∧
    OnlyFrom a.category categoryNames ∧ OnlyFrom a.print printNames ∧
    (∀ vs, a.filter = some vs → ∀ v ∈ vs, FilterOk v) ∧
    (∀ v, a.sort = some v → v = k "name" ∨ v = k "size") ∧
    OnlyFrom a.ignore ignoreNames ∧
    (∀ vs, a.prefixMap = some vs → ∀ v ∈ vs, 61 ∈ v) := by
  have bind : ∀ {α β : Type} (x : Option α) (f : α → Option β) (P Q : Prop),
      (x.isSome = true ↔ P) → (∀ y, x = some y → ((f y).isSome = true ↔ Q)) →
      ((x >>= f).isSome = true ↔ P ∧ Q) := by
    intro α β x f P Q h1 h2
    cases x with
    | none => simp at h1; simp [h1]
    | some y =>
      simp at h1
      show (f y).isSome = true ↔ _
      rw [h2 y rfl]; simp [h1]
  unfold parseOptions
  refine bind _ _ _ _ ?_ fun o1 _ => bind _ _ _ _ ?_ fun o2 _ => bind _ _ _ _ ?_ fun o3 _ =>
    bind _ _ _ _ ?_ fun o4 _ => bind _ _ _ _ ?_ fun o5 _ => bind _ _ _ _ ?_ fun o6 _ =>
    bind _ _ _ _ ?_ fun o7 _ => ?_
  · cases h : a.output with
    | none => simp [applyOutput]
    | some v =>
      simp only [applyOutput, Option.some.injEq, forall_eq']
      by_cases h1 : v = k "text"
      · rw [if_pos h1]; exact ⟨fun _ => .inl h1, fun _ => rfl⟩
      rw [if_neg h1]
      by_cases h2 : v = k "html"
      · rw [if_pos h2]; exact ⟨fun _ => .inr (.inl h2), fun _ => rfl⟩
      rw [if_neg h2]
      by_cases h3 : v = k "http"
      · rw [if_pos h3]; exact ⟨fun _ => .inr (.inr h3), fun _ => rfl⟩
      rw [if_neg h3]
      exact ⟨fun h => (by cases h), fun h => absurd h (by simp [h1, h2, h3])⟩
  · cases h : a.inlineDepth with
    | none => simp [applyDepth]
    | some v =>
      simp only [applyDepth, Option.isSome_map, Option.some.injEq, forall_eq']
      rw [Option.isSome_iff_exists]
      exact exists_congr fun n => parseUsize_iff v n
  · cases h : a.category with
    | none => simp [applyCategory, OnlyFrom]
    | some vs =>
      simp only [applyCategory, category_fold, OnlyFrom, Option.some.injEq, forall_eq']
      rw [← all_iff]
      split <;> simp_all
  · cases h : a.print with
    | none => simp [applyMany, OnlyFrom]
    | some vs =>
      simp only [applyMany, print_fold, OnlyFrom, Option.some.injEq, forall_eq']
      rw [← all_iff]
      split <;> simp_all
  · cases h : a.filter with
    | none => simp [applyMany]
    | some vs =>
      simp only [applyMany, Option.some.injEq, forall_eq']
      exact filter_accepts vs _
  · cases h : a.sort with
    | none => simp [applySort]
    | some v =>
      simp only [applySort, Option.some.injEq, forall_eq']
      by_cases h1 : v = k "name"
      · rw [if_pos h1]; exact ⟨fun _ => .inl h1, fun _ => rfl⟩
      rw [if_neg h1]
      by_cases h2 : v = k "size"
      · rw [if_pos h2]; exact ⟨fun _ => .inr h2, fun _ => rfl⟩
      rw [if_neg h2]
      exact ⟨fun h => (by cases h), fun h => absurd h (by simp [h1, h2])⟩
  · cases h : a.ignore with
    | none => simp [applyMany, OnlyFrom]
    | some vs =>
      simp only [applyMany, ignore_fold, OnlyFrom, Option.some.injEq, forall_eq']
      rw [← all_iff]
      split <;> simp_all
  · cases h : a.prefixMap with
    | none => simp [applyPrefixes]
    | some vs =>
      simp only [applyPrefixes, Option.isSome_map, prefix_fold, Option.some.injEq, forall_eq']
      clear h
      induction vs with
      | nil => simp
      | cons v vs ih =>
        rw [List.mapM_cons, List.forall_mem_cons, ← ih, ← splitEq_isSome]
        cases splitEq v with
        | none => simp
        | some x => cases List.mapM splitEq vs <;> simp

/-- A `get_many` option in effect: the step of `main` that processes it. -/
theorem given_iff (vals : Option (List Str)) (names : List String) (vs : List Str)
    (h : vals = some vs) : Given vals names ↔ en names vs = true := by
  rw [en_iff]
  simp [Given, h]

theorem not_given_none (names : List String) : ¬ Given none names := by simp [Given]

/-- The options after `-o`, `--inline-depth` and `--category`. -/
abbrev base (b1 b2 : Bool) (d : Nat) (c1 c2 c3 c4 c5 : Bool) : Options :=
  { html := b1, http := b2, printSource := b2, printFunctionCalls := b2,
    printFunctionInstructions := b2, inlineDepth := d, categoryFile := c1,
    categoryUnit := c2, categoryType := c3, categoryFunction := c4,
    categoryVariable := c5 }

/-- **C31 (what each value does).** For an accepted command line every option is set exactly as
documented: a flag is on iff one of the values that enable it was given (in any position, among
any others), category flags also when no category was given; `-o http` implies `html`, source,
calls and instructions and an inline depth of 100 unless a depth is given; the depth defaults to
1; each filter has the value given last; mappings are those given. -/
theorem C31_settings (a : Args) (o : Options) (h : parseOptions a = some o) :
    -- output
    (o.html = true ↔ a.output = some (k "html") ∨ a.output = some (k "http")) ∧
    (o.http = true ↔ a.output = some (k "http")) ∧
    -- inline depth
    ((∀ v, a.inlineDepth = some v → IsNumber v o.inlineDepth) ∧
      (a.inlineDepth = none → o.inlineDepth = if a.output = some (k "http") then 100 else 1)) ∧
    -- categories
    (o.categoryFile = true ↔ a.category = none ∨ Given a.category ["file"]) ∧
    (o.categoryUnit = true ↔ a.category = none ∨ Given a.category ["unit"]) ∧
    (o.categoryType = true ↔ a.category = none ∨ Given a.category ["type"]) ∧
    (o.categoryFunction = true ↔ a.category = none ∨ Given a.category ["function"]) ∧
    (o.categoryVariable = true ↔ a.category = none ∨ Given a.category ["variable"]) ∧
    -- fields to print
    (o.printFileAddress = true ↔ Given a.print ["all", "address", "file-address"]) ∧
    (o.printUnitAddress = true ↔ Given a.print ["all", "address", "unit-address"]) ∧
    (o.printSource = true ↔ a.output = some (k "http") ∨ Given a.print ["all", "source"]) ∧
    (o.printFunctionCalls = true ↔
      a.output = some (k "http") ∨ Given a.print ["all", "function-calls"]) ∧
    (o.printFunctionInstructions = true ↔
      a.output = some (k "http") ∨ Given a.print ["all", "function-instructions"]) ∧
    (o.printFunctionVariables = true ↔ Given a.print ["all", "function-variables"]) ∧
    (o.printFunctionStackFrame = true ↔ Given a.print ["all", "function-stack-frame"]) ∧
    (o.printInlinedFunctionParameters = true ↔
      Given a.print ["all", "inlined-function-parameters"]) ∧
    (o.printVariableLocations = true ↔ Given a.print ["all", "variable-locations"]) ∧
    -- filters
    LastSetting (SetsTo "name") none (a.filter.getD []) o.filterName ∧
    LastSetting (SetsTo "unit") none (a.filter.getD []) o.filterUnit ∧
    LastSetting SetsNamespace [] (a.filter.getD []) o.filterNamespace ∧
    LastSetting SetsInline none (a.filter.getD []) o.filterFunctionInline ∧
    -- sorting
    (o.sort = .name ↔ a.sort = some (k "name")) ∧ (o.sort = .size ↔ a.sort = some (k "size")) ∧
    -- changes to ignore
    (o.ignoreAdded = true ↔ Given a.ignore ["added"]) ∧
    (o.ignoreDeleted = true ↔ Given a.ignore ["deleted"]) ∧
    (o.ignoreFunctionAddress = true ↔ Given a.ignore ["address", "function-address"]) ∧
    (o.ignoreFunctionSize = true ↔ Given a.ignore ["function-size"]) ∧
    (o.ignoreFunctionInline = true ↔ Given a.ignore ["function-inline"]) ∧
    (o.ignoreFunctionLinkageName = true ↔ Given a.ignore ["linkage-name"]) ∧
    (o.ignoreFunctionSymbolName = true ↔ Given a.ignore ["symbol-name", "function-symbol-name"]) ∧
    (o.ignoreVariableAddress = true ↔ Given a.ignore ["address", "variable-address"]) ∧
    (o.ignoreVariableLinkageName = true ↔ Given a.ignore ["linkage-name"]) ∧
    (o.ignoreVariableSymbolName = true ↔ Given a.ignore ["symbol-name", "variable-symbol-name"]) ∧
    -- prefix maps
    (∃ ps, (a.prefixMap.getD []).mapM splitEq = some ps ∧ o.prefixMap = sortPrefixes ps) := by
  unfold parseOptions at h
  obtain ⟨o1, h1, h⟩ := Option.bind_eq_some_iff.1 h
  obtain ⟨o2, h2, h⟩ := Option.bind_eq_some_iff.1 h
  obtain ⟨o3, h3, h⟩ := Option.bind_eq_some_iff.1 h
  obtain ⟨o4, h4, h⟩ := Option.bind_eq_some_iff.1 h
  obtain ⟨o5, h5, h⟩ := Option.bind_eq_some_iff.1 h
  obtain ⟨o6, h6, h⟩ := Option.bind_eq_some_iff.1 h
  obtain ⟨o7, h7, h8⟩ := Option.bind_eq_some_iff.1 h
  -- output
  have e1 : ∃ b1 b2 : Bool, (b1 = true ↔ a.output = some (k "html") ∨ a.output = some (k "http")) ∧
      (b2 = true ↔ a.output = some (k "http")) ∧
      o1 = { html := b1, http := b2, printSource := b2, printFunctionCalls := b2,
             printFunctionInstructions := b2, inlineDepth := if b2 then 100 else 1 } := by
    cases ho : a.output with
    | none => rw [ho] at h1; cases h1; exact ⟨false, false, by simp, by simp, rfl⟩
    | some v =>
      rw [ho] at h1
      simp only [applyOutput] at h1
      split at h1
      · rename_i hv; subst hv; cases h1; exact ⟨false, false, by decide, by decide, rfl⟩
      split at h1
      · rename_i hv; subst hv; cases h1; exact ⟨true, false, by decide, by decide, rfl⟩
      split at h1
      · rename_i hv; subst hv; cases h1; exact ⟨true, true, by decide, by decide, rfl⟩
      · cases h1
  obtain ⟨b1, b2, hb1, hb2, rfl⟩ := e1
  -- depth
  have e2 : ∃ d, ((∀ v, a.inlineDepth = some v → IsNumber v d) ∧
      (a.inlineDepth = none → d = if a.output = some (k "http") then 100 else 1)) ∧
      o2 = { html := b1, http := b2, printSource := b2, printFunctionCalls := b2,
             printFunctionInstructions := b2, inlineDepth := d } := by
    cases hd : a.inlineDepth with
    | none =>
      rw [hd] at h2; cases h2
      refine ⟨_, ⟨by simp, fun _ => rfl⟩, ?_⟩
      congr 1
      by_cases hh : b2 = true
      · simp [hh, hb2.1 hh]
      · have : ¬ a.output = some (k "http") := fun hx => hh (hb2.2 hx)
        simp [this, hh]
    | some v =>
      rw [hd] at h2
      obtain ⟨d, hd1, hd2⟩ := Option.map_eq_some_iff.1 h2
      refine ⟨d, ⟨fun v' hv' => ?_, by simp⟩, hd2.symm⟩
      cases hv'
      exact (parseUsize_iff v d).1 hd1
  obtain ⟨d, hd, rfl⟩ := e2
  -- categories
  have e3 : ∃ c1 c2 c3 c4 c5 : Bool, ((c1 = true ↔ a.category = none ∨ Given a.category ["file"]) ∧
      (c2 = true ↔ a.category = none ∨ Given a.category ["unit"]) ∧
      (c3 = true ↔ a.category = none ∨ Given a.category ["type"]) ∧
      (c4 = true ↔ a.category = none ∨ Given a.category ["function"]) ∧
      (c5 = true ↔ a.category = none ∨ Given a.category ["variable"])) ∧
      o3 = (base b1 b2 d c1 c2 c3 c4 c5) := by
    cases hc : a.category with
    | none => rw [hc] at h3; cases h3; exact ⟨true, true, true, true, true, by simp, rfl⟩
    | some vs =>
      rw [hc] at h3
      simp only [applyCategory, category_fold] at h3
      split at h3
      · cases h3
        refine ⟨_, _, _, _, _, ?_, rfl⟩
        simp only [Bool.false_or, reduceCtorEq, false_or]
        refine ⟨?_, ?_, ?_, ?_, ?_⟩ <;> exact (given_iff _ _ vs rfl).symm
      · cases h3
  obtain ⟨c1, c2, c3, c4, c5, hc, rfl⟩ := e3
  -- print
  have e4 : ∃ vs, (∀ names, Given a.print names ↔ en names vs = true) ∧
      o4 = printEff (base b1 b2 d c1 c2 c3 c4 c5) vs := by
    cases hp : a.print with
    | none =>
      rw [hp] at h4; cases h4
      refine ⟨[], fun names => ⟨fun h => absurd h (not_given_none _), fun h => by simp [en_nil] at h⟩, ?_⟩
      simp [printEff, en_nil]
    | some vs =>
      rw [hp] at h4
      simp only [applyMany, print_fold] at h4
      split at h4
      · cases h4
        exact ⟨vs, fun names => given_iff _ _ vs rfl, rfl⟩
      · cases h4
  obtain ⟨pv, hpv, rfl⟩ := e4
  -- filters
  have e5 : SameButFilters (printEff (base b1 b2 d c1 c2 c3 c4 c5) pv) o5 ∧
      LastSetting (SetsTo "name") none (a.filter.getD []) o5.filterName ∧
      LastSetting (SetsTo "unit") none (a.filter.getD []) o5.filterUnit ∧
      LastSetting SetsNamespace [] (a.filter.getD []) o5.filterNamespace ∧
      LastSetting SetsInline none (a.filter.getD []) o5.filterFunctionInline := by
    have hf : (a.filter.getD []).foldlM applyFilter1
        (printEff (base b1 b2 d c1 c2 c3 c4 c5) pv) = some o5 := by
      cases hf : a.filter with
      | none => rw [hf] at h5; exact h5
      | some vs => rw [hf] at h5; exact h5
    refine ⟨filter_frame _ _ _ hf, ?_, ?_, ?_, ?_⟩
    · exact foldlM_last applyFilter1 (·.filterName) _
        (fun o v o' b h hr => (filter1_name o v o' h).1 b hr)
        (fun o v o' h hr => (filter1_name o v o' h).2 hr) _ _ _ hf
    · exact foldlM_last applyFilter1 (·.filterUnit) _
        (fun o v o' b h hr => (filter1_unit o v o' h).1 b hr)
        (fun o v o' h hr => (filter1_unit o v o' h).2 hr) _ _ _ hf
    · exact foldlM_last applyFilter1 (·.filterNamespace) _
        (fun o v o' b h hr => (filter1_namespace o v o' h).1 b hr)
        (fun o v o' h hr => (filter1_namespace o v o' h).2 hr) _ _ _ hf
    · exact foldlM_last applyFilter1 (·.filterFunctionInline) _
        (fun o v o' b h hr => (filter1_inline o v o' h).1 b hr)
        (fun o v o' h hr => (filter1_inline o v o' h).2 hr) _ _ _ hf
  obtain ⟨hframe, hf⟩ := e5
  unfold SameButFilters at hframe
  generalize o5.filterName = f1, o5.filterUnit = f2, o5.filterNamespace = f3,
    o5.filterFunctionInline = f4 at hframe hf
  subst hframe
  -- sort
  have e6 : ∃ s : SortKey, ((s = .name ↔ a.sort = some (k "name")) ∧
      (s = .size ↔ a.sort = some (k "size"))) ∧ o6 = { printEff
        (base b1 b2 d c1 c2 c3 c4 c5) pv with
        filterName := f1, filterUnit := f2, filterNamespace := f3, filterFunctionInline := f4,
        sort := s } := by
    cases hs : a.sort with
    | none => rw [hs] at h6; cases h6; exact ⟨.none, by simp, rfl⟩
    | some v =>
      rw [hs] at h6
      simp only [applySort] at h6
      split at h6
      · rename_i hv; subst hv; cases h6; exact ⟨.name, by decide, rfl⟩
      split at h6
      · rename_i hv; subst hv; cases h6; exact ⟨.size, by decide, rfl⟩
      · cases h6
  obtain ⟨s, hs, rfl⟩ := e6
  -- ignore
  have e7 : ∃ vs, (∀ names, Given a.ignore names ↔ en names vs = true) ∧
      o7 = ignoreEff { printEff
        (base b1 b2 d c1 c2 c3 c4 c5) pv with
        filterName := f1, filterUnit := f2, filterNamespace := f3, filterFunctionInline := f4,
        sort := s } vs := by
    cases hp : a.ignore with
    | none =>
      rw [hp] at h7; cases h7
      refine ⟨[], fun names => ⟨fun h => absurd h (not_given_none _), fun h => by simp [en_nil] at h⟩, ?_⟩
      simp [ignoreEff, printEff, en_nil]
    | some vs =>
      rw [hp] at h7
      simp only [applyMany, ignore_fold] at h7
      split at h7
      · cases h7
        exact ⟨vs, fun names => given_iff _ _ vs rfl, rfl⟩
      · cases h7
  obtain ⟨iv, hiv, rfl⟩ := e7
  -- prefix map
  have e8 : ∃ ps, (a.prefixMap.getD []).mapM splitEq = some ps ∧
      o = { ignoreEff { printEff
        (base b1 b2 d c1 c2 c3 c4 c5) pv with
        filterName := f1, filterUnit := f2, filterNamespace := f3, filterFunctionInline := f4,
        sort := s } iv with prefixMap := sortPrefixes ps } := by
    cases hp : a.prefixMap with
    | none =>
      rw [hp] at h8; cases h8
      exact ⟨[], rfl, rfl⟩
    | some vs =>
      rw [hp] at h8
      simp only [applyPrefixes, prefix_fold] at h8
      obtain ⟨o9, h9, h10⟩ := Option.map_eq_some_iff.1 h8
      obtain ⟨ps, hps, h11⟩ := Option.map_eq_some_iff.1 h9
      refine ⟨ps, hps, ?_⟩
      rw [← h10, ← h11]
      rfl
  obtain ⟨ps, hps, rfl⟩ := e8
  refine ⟨hb1, hb2, hd, hc.1, hc.2.1, hc.2.2.1, hc.2.2.2.1, hc.2.2.2.2, ?_, ?_, ?_, ?_, ?_, ?_, ?_, ?_,
    ?_, hf.1, hf.2.1, hf.2.2.1, hf.2.2.2, hs.1, hs.2, ?_, ?_, ?_, ?_, ?_, ?_, ?_, ?_, ?_, ?_,
    ps, hps, rfl⟩ <;>
    simp [printEff, ignoreEff, hpv, hiv, hb2]

/-- Non-vacuity of C31: a command line with several options is accepted and has its effect; a
misspelt one is not. -/
example :
    let a : Args := { output := some (k "http"), inlineDepth := some (k "7"),
                      print := some [k "source", k "address"], category := some [k "unit"],
                      filter := some [k "name=x", k "namespace=a::b", k "name=y=z", k "inline=n"],
                      sort := some (k "size"), ignore := some [k "address"],
                      prefixMap := some [k "/a=/b", k "/a/c="] }
    parseOptions a = some
      { html := true, http := true, inlineDepth := 7, printSource := true, printFunctionCalls := true,
        printFunctionInstructions := true, printFileAddress := true, printUnitAddress := true,
        categoryUnit := true, filterName := some (k "y=z"), filterNamespace := [k "a", k "b"],
        filterFunctionInline := some false, sort := .size, ignoreFunctionAddress := true,
        ignoreVariableAddress := true, prefixMap := [(k "/a/c", []), (k "/a", k "/b")] } ∧
    parseOptions { a with print := some [k "sources"] } = none := by decide +kernel

/-! ### C32: prefix maps -/

/-- `old` is a prefix of `path`, and `rest` is what follows it. -/
def StartsWith (path old rest : Str) : Prop := path = old ++ rest

theorem prefixLoop_spec (name : Str) (l : List (Str × Str)) :
    ((∀ p ∈ l, ∀ r, ¬ StartsWith name p.1 r) ∧ prefixLoop name l = ([], name)) ∨
    (∃ l1 p l2 r, l = l1 ++ p :: l2 ∧ (∀ q ∈ l1, ∀ r, ¬ StartsWith name q.1 r) ∧
      StartsWith name p.1 r ∧ prefixLoop name l = (p.2, r)) := by
  induction l with
  | nil => exact .inl ⟨by simp, rfl⟩
  | cons p l ih =>
    obtain ⟨old, new⟩ := p
    by_cases h : old.isPrefixOf name = true
    · obtain ⟨r, hr⟩ := List.isPrefixOf_iff_prefix.1 h
      refine .inr ⟨[], (old, new), l, r, rfl, by simp, hr.symm, ?_⟩
      simp [prefixLoop, ← hr]
    · have hno : ∀ r, ¬ StartsWith name old r := fun r hr =>
        h (List.isPrefixOf_iff_prefix.2 ⟨r, hr.symm⟩)
      have he : prefixLoop name ((old, new) :: l) = prefixLoop name l := by simp [prefixLoop, h]
      rw [he]
      rcases ih with ⟨h1, h2⟩ | ⟨l1, p, l2, r, h1, h2, h3, h4⟩
      · refine .inl ⟨?_, h2⟩
        intro q hq
        rcases List.mem_cons.1 hq with rfl | hq
        · exact hno
        · exact h1 q hq
      · refine .inr ⟨(old, new) :: l1, p, l2, r, by simp [h1], ?_, h3, h4⟩
        intro q hq
        rcases List.mem_cons.1 hq with rfl | hq
        · exact hno
        · exact h2 q hq

theorem lenLe_total : TotalPreorder (fun a b : Str × Str => decide (b.1.length ≤ a.1.length)) :=
  ⟨fun a b => by simp; omega, fun a b c => by simp; omega⟩

/-- **C32.** With mappings as given on the command line (in that order), a path is rewritten by a
mapping whose old prefix it starts with: one of greatest length, and of several with that same
old prefix, the first given; and it is unchanged exactly when no mapping applies. -/
theorem C32_longest_prefix (ps : List (Str × Str)) (name : Str) :
    let o : Options := { prefixMap := sortPrefixes ps }
    ((∀ p ∈ ps, ∀ r, ¬ StartsWith name p.1 r) ∧ o.mapPrefix name = ([], name)) ∨
    (∃ l1 p l2 r, ps = l1 ++ p :: l2 ∧ StartsWith name p.1 r ∧ o.mapPrefix name = (p.2, r) ∧
      (∀ q ∈ ps, ∀ r', StartsWith name q.1 r' → q.1.length ≤ p.1.length) ∧
      (∀ q ∈ l1, q.1 ≠ p.1)) := by
  intro o
  have hmem : ∀ x, x ∈ sortPrefixes ps ↔ x ∈ ps := fun x => mem_stableSort _
  rcases prefixLoop_spec name (sortPrefixes ps) with ⟨h1, h2⟩ | ⟨l1, p, l2, r, h1, h2, h3, h4⟩
  · exact .inl ⟨fun p hp => h1 p ((hmem p).2 hp), h2⟩
  · right
    have hsorted := stableSort_sorted lenLe_total ps
    have hstable := stableSort_stable lenLe_total p ps
    change (sortPrefixes ps).Pairwise _ at hsorted
    change List.filter _ (sortPrefixes ps) = _ at hstable
    rw [h1] at hsorted hstable
    have hmax : ∀ q ∈ ps, ∀ r', StartsWith name q.1 r' → q.1.length ≤ p.1.length := by
      intro q hq r' hr'
      rw [← hmem, h1] at hq
      rcases List.mem_append.1 hq with hq | hq
      · exact absurd hr' (h2 q hq r')
      · rcases List.mem_cons.1 hq with rfl | hq
        · exact Nat.le_refl _
        · have := (List.pairwise_cons.1 (List.pairwise_append.1 hsorted).2.1).1 q hq
          simpa using this
    -- the first given mapping with this old prefix
    have key : ∃ a b, ps = a ++ p :: b ∧ ∀ q ∈ a, q.1 ≠ p.1 := by
      -- p heads the filter of its length class restricted to its own prefix
      have hf : (ps.filter (fun y => decide (y.1 = p.1))) =
          ((l1 ++ p :: l2).filter (fun y => decide (y.1 = p.1))) := by
        have := congrArg (List.filter (fun y : Str × Str => decide (y.1 = p.1))) hstable
        rw [List.filter_filter, List.filter_filter] at this
        have e : (fun a : Str × Str => decide (a.1 = p.1) &&
            (decide (p.1.length ≤ a.1.length) && decide (a.1.length ≤ p.1.length))) =
            fun y => decide (y.1 = p.1) := by
          funext y
          by_cases hy : y.1 = p.1 <;> simp [hy]
        rw [e] at this
        exact this.symm
      have hl1 : l1.filter (fun y => decide (y.1 = p.1)) = [] := by
        rw [List.filter_eq_nil_iff]
        intro q hq hqp
        simp at hqp
        exact h2 q hq r (by rw [hqp]; exact h3)
      rw [List.filter_append, hl1, List.nil_append, List.filter_cons_of_pos (by simp)] at hf
      obtain ⟨a, b, hab, hna, -⟩ := List.filter_eq_cons_iff.1 hf
      exact ⟨a, b, hab, fun q hq => by simpa using hna q hq⟩
    obtain ⟨a, b, hab, hna⟩ := key
    exact ⟨a, p, b, r, hab, h3, h4, hmax, hna⟩

/-- **C32 (library use).** Mappings not sorted by the command line are tried in the order given:
the first that matches wins, even if a longer one follows. -/
theorem C32_unsorted_first_match (o : Options) (name : Str) :
    ((∀ p ∈ o.prefixMap, ∀ r, ¬ StartsWith name p.1 r) ∧ o.mapPrefix name = ([], name)) ∨
    (∃ l1 p l2 r, o.prefixMap = l1 ++ p :: l2 ∧ (∀ q ∈ l1, ∀ r, ¬ StartsWith name q.1 r) ∧
      StartsWith name p.1 r ∧ o.mapPrefix name = (p.2, r)) :=
  prefixLoop_spec name o.prefixMap

/-- Non-vacuity of C32. -/
example :
    let o : Options := { prefixMap := sortPrefixes [(k "/a", k "X"), (k "/a/b", k "Y"), (k "/a/b", k "Z")] }
    o.mapPrefix (k "/a/b/c") = (k "Y", k "/c") ∧ o.mapPrefix (k "/a/d") = (k "X", k "/d") ∧
    o.mapPrefix (k "/q") = ([], k "/q") := by decide +kernel

end Verif.Opts
