import Verif.Select.Spec
import Verif.Opts.Lemmas2
import Verif.Opts.Lemmas
/-!
# Lemmas: option processing keeps one set of options narrower than another
-/
namespace Verif.Select
open Verif.Opts

/-- Which differences are ignored. -/
def ignored (o : Options) : List Bool :=
  [o.ignoreAdded, o.ignoreDeleted, o.ignoreFunctionAddress, o.ignoreFunctionSize, o.ignoreFunctionInline,
    o.ignoreFunctionLinkageName, o.ignoreFunctionSymbolName, o.ignoreVariableAddress, o.ignoreVariableLinkageName,
    o.ignoreVariableSymbolName]

/-- Narrower, and ignoring the same differences. -/
structure Strict (o o' : Options) : Prop extends Narrower o o' where
  same : ignored o = ignored o'

theorem Strict.address {o o' : Options} (h : Strict o o') : o.ignoreFunctionAddress = o'.ignoreFunctionAddress := by
  have := h.same
  simp only [ignored, List.cons.injEq] at this
  exact this.2.2.1

/-- Options that ask for less, ignore the same differences and have the same filter for inline functions give a part of a
diff. -/
theorem Strict.diff {o o' : Options} (h : Strict o o') (hi : o.filterFunctionInline = o'.filterFunctionInline) :
    DiffNarrower o o' := by
  have := h.same
  simp only [ignored, List.cons.injEq, and_true] at this
  obtain ⟨h1, h2, h3, h4, h5, h6, h7, h8, h9, h10⟩ := this
  exact { h.toNarrower with
    sameInline := hi, added := by rw [h1]; exact id, deleted := by rw [h2]; exact id
    functionAddress := by rw [h3]; exact id, functionSize := by rw [h4]; exact id
    functionInline := by rw [h5]; exact id, functionLinkageName := by rw [h6]; exact id
    functionSymbolName := by rw [h7]; exact id, variableAddress := by rw [h8]; exact id
    variableLinkageName := by rw [h9]; exact id, variableSymbolName := by rw [h10]; exact id }

theorem Narrower.refl (o : Options) : Narrower o o := by
  constructor <;> first | exact id | exact fun _ => rfl | exact Nat.le_refl _ | exact .inr rfl | exact List.prefix_refl _ | rfl

theorem fold_narrower {f : Options → Str → Option Options}
    (hf : ∀ {o o' p p' v}, Strict o o' → f o v = some p → f o' v = some p' → Strict p p')
    (vs : List Str) {o o' p p' : Options} (h : Strict o o') (hp : vs.foldlM f o = some p)
    (hp' : vs.foldlM f o' = some p') : Strict p p' := by
  induction vs generalizing o o' with
  | nil =>
    simp only [List.foldlM_nil, pure, Option.some.injEq] at hp hp'
    subst hp hp'; exact h
  | cons v vs ih =>
    simp only [List.foldlM_cons, bind, Option.bind_eq_some_iff] at hp hp'
    obtain ⟨q, h1, h2⟩ := hp
    obtain ⟨q', h1', h2'⟩ := hp'
    exact ih (hf h h1 h1') h2 h2'

theorem or_mono {a a' b b' : Bool} (h : a = true → a' = true) (h' : b = true → b' = true) :
    (a || b) = true → (a' || b') = true := by
  cases a <;> cases b <;> simp_all

theorem en_mono (names : List String) {vs ws : List Str} (h : ∀ v ∈ vs, v ∈ ws) :
    en names vs = true → en names ws = true := by
  rw [en_iff, en_iff]
  rintro ⟨n, hn, hv⟩
  exact ⟨n, hn, h _ hv⟩

theorem applyMany_given (f : Options → Str → Option Options) (o : Options) (vs : Option (List Str)) :
    applyMany f o vs = (given vs).foldlM f o := by cases vs <;> rfl

theorem print_narrower {o o' p p' : Options} {vs ws : Option (List Str)} (hv : ∀ v ∈ given vs, v ∈ given ws)
    (h : Strict o o') (hp : applyMany applyPrint1 o vs = some p)
    (hp' : applyMany applyPrint1 o' ws = some p') : Strict p p' := by
  rw [applyMany_given, print_fold] at hp hp'
  split at hp <;> simp only [Option.some.injEq, reduceCtorEq] at hp
  split at hp' <;> simp only [Option.some.injEq, reduceCtorEq] at hp'
  subst hp hp'
  exact { h with
    source := or_mono h.source (en_mono _ hv)
    fileAddress := or_mono h.fileAddress (en_mono _ hv)
    unitAddress := or_mono h.unitAddress (en_mono _ hv)
    calls := or_mono h.calls (en_mono _ hv)
    instructions := or_mono h.instructions (en_mono _ hv)
    variables := or_mono h.variables (en_mono _ hv)
    stackFrame := or_mono h.stackFrame (en_mono _ hv)
    inlinedParameters := or_mono h.inlinedParameters (en_mono _ hv)
    locations := or_mono h.locations (en_mono _ hv)
    callAddresses := fun _ => h.address }

theorem ignore_narrower {o o' p p' : Options} {vs : Option (List Str)}
    (h : Strict o o') (hp : applyMany applyIgnore1 o vs = some p)
    (hp' : applyMany applyIgnore1 o' vs = some p') : Strict p p' := by
  rw [applyMany_given, ignore_fold] at hp hp'
  split at hp <;> simp only [Option.some.injEq, reduceCtorEq] at hp
  rename_i hc
  rw [if_pos hc, Option.some.injEq] at hp'
  subst hp hp'
  exact { h with
    same := by
      have := h.same
      simp only [ignored, List.cons.injEq, and_true] at this
      obtain ⟨h1, h2, h3, h4, h5, h6, h7, h8, h9, h10⟩ := this
      simp only [ignored, ignoreEff, h1, h2, h3, h4, h5, h6, h7, h8, h9, h10]
    callAddresses := fun _ => by simp only [ignoreEff]; rw [h.address] }

theorem category_narrower {o o' p p' : Options} {c c' : Option (List Str)}
    (hc : c' = none ∨ ∃ cs cs', c = some cs ∧ c' = some cs' ∧ ∀ v ∈ cs, v ∈ cs')
    (h : Strict o o') (hp : applyCategory o c = some p) (hp' : applyCategory o' c' = some p') :
    Strict p p' := by
  rcases hc with rfl | ⟨cs, cs', rfl, rfl, hv⟩
  · simp only [applyCategory, Option.some.injEq] at hp'
    subst hp'
    cases c with
    | none =>
      simp only [applyCategory, Option.some.injEq] at hp
      subst hp
      exact { h with
        categoryFile := id, categoryUnit := id, categoryType := id, categoryFunction := id
        categoryVariable := id }
    | some cs =>
      simp only [applyCategory] at hp
      rw [category_fold] at hp
      split at hp <;> simp only [Option.some.injEq, reduceCtorEq] at hp
      subst hp
      exact { h with
        categoryFile := fun _ => rfl, categoryUnit := fun _ => rfl, categoryType := fun _ => rfl
        categoryFunction := fun _ => rfl, categoryVariable := fun _ => rfl }
  · simp only [applyCategory] at hp hp'
    rw [category_fold] at hp hp'
    split at hp <;> simp only [Option.some.injEq, reduceCtorEq] at hp
    split at hp' <;> simp only [Option.some.injEq, reduceCtorEq] at hp'
    subst hp hp'
    exact { h with
      categoryFile := or_mono h.categoryFile (en_mono _ hv)
      categoryUnit := or_mono h.categoryUnit (en_mono _ hv)
      categoryType := or_mono h.categoryType (en_mono _ hv)
      categoryFunction := or_mono h.categoryFunction (en_mono _ hv)
      categoryVariable := or_mono h.categoryVariable (en_mono _ hv) }

theorem filter1_narrower {o o' p p' : Options} {v : Str} (h : Strict o o')
    (hp : applyFilter1 o v = some p) (hp' : applyFilter1 o' v = some p') : Strict p p' := by
  unfold applyFilter1 at hp hp'
  cases hs : splitEq v with
  | none => rw [hs] at hp; cases hp
  | some e =>
    obtain ⟨key, value⟩ := e
    rw [hs] at hp hp'
    simp only at hp hp'
    by_cases c1 : key = k "inline" ∨ key = k "function-inline"
    · rw [if_pos c1] at hp hp'
      by_cases c2 : value = k "y" ∨ value = k "yes"
      · rw [if_pos c2] at hp hp'
        cases hp; cases hp'
        exact { h with inlineFilter := .inr rfl }
      · rw [if_neg c2] at hp hp'
        by_cases c3 : value = k "n" ∨ value = k "no"
        · rw [if_pos c3] at hp hp'
          cases hp; cases hp'
          exact { h with inlineFilter := .inr rfl }
        · rw [if_neg c3] at hp; cases hp
    · rw [if_neg c1] at hp hp'
      by_cases c2 : key = k "name"
      · rw [if_pos c2] at hp hp'
        cases hp; cases hp'
        exact { h with nameFilter := .inr rfl }
      · rw [if_neg c2] at hp hp'
        by_cases c3 : key = k "namespace"
        · rw [if_pos c3] at hp hp'
          cases hp; cases hp'
          exact { h with namespaceFilter := List.prefix_refl _ }
        · rw [if_neg c3] at hp hp'
          by_cases c4 : key = k "unit"
          · rw [if_pos c4] at hp hp'
            cases hp; cases hp'
            exact { h with unitFilter := .inr rfl }
          · rw [if_neg c4] at hp; cases hp

/-- No filter is set. -/
def NoFilter (o : Options) : Prop :=
  o.filterFunctionInline = none ∧ o.filterName = none ∧ o.filterNamespace = [] ∧ o.filterUnit = none

theorem filter1_more {o o' p : Options} {v : Str} (h : Strict o o') (hn : NoFilter o')
    (hp : applyFilter1 o v = some p) : Strict p o' := by
  obtain ⟨h1, h2, h3, h4⟩ := hn
  unfold applyFilter1 at hp
  repeat' split at hp
  all_goals first | (cases hp; done) | skip
  all_goals simp only [Option.some.injEq] at hp
  all_goals subst hp
  all_goals first
    | exact { h with inlineFilter := .inl h1 }
    | exact { h with nameFilter := .inl h2 }
    | exact { h with namespaceFilter := h3 ▸ List.nil_prefix }
    | exact { h with unitFilter := .inl h4 }

theorem filter_narrower {o o' p p' : Options} {fs gs : Option (List Str)} (hf : gs = none ∨ gs = fs)
    (h : Strict o o') (hn : NoFilter o') (hp : applyMany applyFilter1 o fs = some p)
    (hp' : applyMany applyFilter1 o' gs = some p') : Strict p p' := by
  rw [applyMany_given] at hp hp'
  rcases hf with rfl | rfl
  · simp only [given, List.foldlM_nil, pure, Option.some.injEq] at hp'
    subst hp'
    generalize given fs = l at hp
    induction l generalizing o with
    | nil =>
      simp only [List.foldlM_nil, pure, Option.some.injEq] at hp
      subst hp; exact h
    | cons v vs ih =>
      simp only [List.foldlM_cons, bind, Option.bind_eq_some_iff] at hp
      obtain ⟨q, h1, h2⟩ := hp
      exact ih (filter1_more h hn h1) h2
  · exact fold_narrower (f := applyFilter1) filter1_narrower _ h hp hp'

theorem sort_narrower {o o' p p' : Options} {s : Option Str} (h : Strict o o')
    (hp : applySort o s = some p) (hp' : applySort o' s = some p') : Strict p p' := by
  unfold applySort at hp hp'
  cases s with
  | none => cases hp; cases hp'; exact h
  | some v =>
    simp only at hp hp'
    repeat' split at hp
    all_goals first | (cases hp; done) | skip
    all_goals simp_all only [reduceCtorEq, Option.some.injEq, if_true, if_false]
    all_goals subst hp hp'
    all_goals exact { h with sort := rfl }

theorem prefix1_narrower {o o' p p' : Options} {v : Str} (h : Strict o o')
    (hp : applyPrefix1 o v = some p) (hp' : applyPrefix1 o' v = some p') : Strict p p' := by
  unfold applyPrefix1 at hp hp'
  cases hs : splitEq v with
  | none => rw [hs] at hp; cases hp
  | some e =>
    rw [hs] at hp hp'
    simp only [Option.map_some, Option.some.injEq] at hp hp'
    subst hp hp'
    exact { h with prefixMap := by simp only; rw [h.prefixMap] }

theorem prefixes_narrower {o o' p p' : Options} {vs : Option (List Str)} (h : Strict o o')
    (hp : applyPrefixes o vs = some p) (hp' : applyPrefixes o' vs = some p') : Strict p p' := by
  cases vs with
  | none => cases hp; cases hp'; exact h
  | some vs =>
    simp only [applyPrefixes, Option.map_eq_some_iff] at hp hp'
    obtain ⟨q, h1, rfl⟩ := hp
    obtain ⟨q', h1', rfl⟩ := hp'
    have := fold_narrower (f := applyPrefix1) prefix1_narrower vs h h1 h1'
    exact { this with prefixMap := by simp only; rw [this.prefixMap] }

theorem depth_narrower {o o' p p' : Options} {a b : Option Str}
    (hd : a = b ∨ ∃ v w d e, a = some v ∧ b = some w ∧ parseUsize v = some d ∧ parseUsize w = some e ∧ d ≤ e)
    (h : Strict o o') (hp : applyDepth o a = some p) (hp' : applyDepth o' b = some p') : Strict p p' := by
  rcases hd with rfl | ⟨v, w, d, e, rfl, rfl, hv, hw, hle⟩
  · cases a with
    | none => cases hp; cases hp'; exact h
    | some v =>
      simp only [applyDepth, Option.map_eq_some_iff] at hp hp'
      obtain ⟨d, hd, rfl⟩ := hp
      obtain ⟨e, he, rfl⟩ := hp'
      rw [hd] at he
      cases he
      exact { h with depth := Nat.le_refl _ }
  · simp only [applyDepth, hv, hw, Option.map_some, Option.some.injEq] at hp hp'
    subst hp hp'
    exact { h with depth := hle }

theorem noFilter_start {a : Args} {o1 o2 o3 o4 : Options} (h1 : applyOutput initOptions a.output = some o1)
    (h2 : applyDepth o1 a.inlineDepth = some o2) (h3 : applyCategory o2 a.category = some o3)
    (h4 : applyMany applyPrint1 o3 a.print = some o4) : NoFilter o4 := by
  have n1 : NoFilter o1 := by
    unfold applyOutput at h1
    repeat' split at h1
    all_goals first | (cases h1; done) | skip
    all_goals simp only [Option.some.injEq] at h1
    all_goals subst h1
    all_goals exact ⟨rfl, rfl, rfl, rfl⟩
  have n2 : NoFilter o2 := by
    unfold applyDepth at h2
    split at h2
    · cases h2; exact n1
    · obtain ⟨d, _, rfl⟩ := Option.map_eq_some_iff.1 h2; exact n1
  have n3 : NoFilter o3 := by
    unfold applyCategory at h3
    split at h3
    · rw [category_fold] at h3
      split at h3 <;> simp only [Option.some.injEq, reduceCtorEq] at h3
      subst h3; exact n2
    · cases h3; exact n2
  rw [applyMany_given, print_fold] at h4
  split at h4 <;> simp only [Option.some.injEq, reduceCtorEq] at h4
  subst h4; exact n3

theorem args_narrower {a a' : Args} {o o' : Options} (h : AsksLess a a') (hp : parseOptions a = some o)
    (hp' : parseOptions a' = some o') : Strict o o' := by
  simp only [parseOptions, bind, Option.bind_eq_some_iff] at hp hp'
  obtain ⟨o1, h1, o2, h2, o3, h3, o4, h4, o5, h5, o6, h6, o7, h7, h8⟩ := hp
  obtain ⟨p1, g1, p2, g2, p3, g3, p4, g4, p5, g5, p6, g6, p7, g7, g8⟩ := hp'
  have n4 := noFilter_start g1 g2 g3 g4
  rw [← h.output, h1] at g1
  cases g1
  rw [← h.sort] at g6
  rw [← h.ignore] at g7
  rw [← h.prefixMap] at g8
  exact prefixes_narrower (ignore_narrower (sort_narrower (filter_narrower h.filter
    (print_narrower h.print (category_narrower h.category (depth_narrower h.depth ⟨.refl o1, rfl⟩ h2 g2) h3 g3) h4 g4)
    n4 h5 g5) h6 g6) h7 g7) h8 g8

end Verif.Select
