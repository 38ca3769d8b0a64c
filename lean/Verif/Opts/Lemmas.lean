import Verif.Opts.Spec
namespace Verif.Opts

/-- Boolean form of "one of `names` occurs in `vs`". -/
def en (names : List String) (vs : List Str) : Bool := vs.any fun v => names.any fun n => decide (v = k n)

theorem en_nil (names : List String) : en names [] = false := rfl
theorem en_cons (names : List String) (v : Str) (vs : List Str) :
    en names (v :: vs) = ((names.any fun n => decide (v = k n)) || en names vs) := rfl

theorem en_iff (names : List String) (vs : List Str) :
    en names vs = true ↔ ∃ n ∈ names, k n ∈ vs := by
  simp only [en, List.any_eq_true, decide_eq_true_eq]
  constructor
  · rintro ⟨v, hv, n, hn, rfl⟩; exact ⟨n, hn, hv⟩
  · rintro ⟨n, hn, hv⟩; exact ⟨_, hv, n, hn, rfl⟩

/-- Effect of a list of `--print` values. -/
def printEff (o : Options) (vs : List Str) : Options :=
  { o with
    printFileAddress :=
      o.printFileAddress || en ["all", "address", "file-address"] vs
    printUnitAddress :=
      o.printUnitAddress || en ["all", "address", "unit-address"] vs
    printSource :=
      o.printSource || en ["all", "source"] vs
    printFunctionCalls :=
      o.printFunctionCalls || en ["all", "function-calls"] vs
    printFunctionInstructions :=
      o.printFunctionInstructions || en ["all", "function-instructions"] vs
    printFunctionVariables :=
      o.printFunctionVariables || en ["all", "function-variables"] vs
    printFunctionStackFrame :=
      o.printFunctionStackFrame || en ["all", "function-stack-frame"] vs
    printInlinedFunctionParameters :=
      o.printInlinedFunctionParameters || en ["all", "inlined-function-parameters"] vs
    printVariableLocations :=
      o.printVariableLocations || en ["all", "variable-locations"] vs }

theorem print_fold (vs : List Str) (o : Options) :
    vs.foldlM applyPrint1 o = if (vs.all fun v => printNames.any fun n => decide (v = k n)) then
      some (printEff o vs) else none := by
  induction vs generalizing o with
  | nil => simp [printEff, en_nil]
  | cons v vs ih =>
    rw [List.foldlM_cons, List.all_cons]
    by_cases hv : (printNames.any fun n => decide (v = k n)) = true
    · rw [hv, Bool.true_and]
      simp only [printNames, List.any_cons, List.any_nil, Bool.or_false, Bool.or_eq_true,
        decide_eq_true_eq] at hv
      rcases hv with h | h | h | h | h | h | h | h | h | h | h <;> subst h <;>
      · simp +decide only [applyPrint1, if_true, if_false, Option.bind_eq_bind, Option.bind_some, ih,
          printEff, en_cons, List.any_cons, List.any_nil, Bool.or_false, Bool.true_or, Bool.or_true,
          Bool.false_or, decide_true, decide_false]
    · have : applyPrint1 o v = none := by
        simp only [printNames, List.any_cons, List.any_nil, Bool.or_false, Bool.or_eq_true,
          decide_eq_true_eq, not_or] at hv
        simp [applyPrint1, hv]
      rw [this]
      simp only [Bool.not_eq_true] at hv
      simp [hv]

/-- Effect of a list of `--category` values. -/
def categoryEff (o : Options) (vs : List Str) : Options :=
  { o with
    categoryFile :=
      o.categoryFile || en ["file"] vs
    categoryUnit :=
      o.categoryUnit || en ["unit"] vs
    categoryType :=
      o.categoryType || en ["type"] vs
    categoryFunction :=
      o.categoryFunction || en ["function"] vs
    categoryVariable :=
      o.categoryVariable || en ["variable"] vs }

theorem category_fold (vs : List Str) (o : Options) :
    vs.foldlM applyCategory1 o = if (vs.all fun v => categoryNames.any fun n => decide (v = k n)) then
      some (categoryEff o vs) else none := by
  induction vs generalizing o with
  | nil => simp [categoryEff, en_nil]
  | cons v vs ih =>
    rw [List.foldlM_cons, List.all_cons]
    by_cases hv : (categoryNames.any fun n => decide (v = k n)) = true
    · rw [hv, Bool.true_and]
      simp only [categoryNames, List.any_cons, List.any_nil, Bool.or_false, Bool.or_eq_true,
        decide_eq_true_eq] at hv
      rcases hv with h | h | h | h | h <;> subst h <;>
      · simp +decide only [applyCategory1, if_true, if_false, Option.bind_eq_bind, Option.bind_some, ih,
          categoryEff, en_cons, List.any_cons, List.any_nil, Bool.or_false, Bool.true_or, Bool.or_true,
          Bool.false_or, decide_true, decide_false]
    · have : applyCategory1 o v = none := by
        simp only [categoryNames, List.any_cons, List.any_nil, Bool.or_false, Bool.or_eq_true,
          decide_eq_true_eq, not_or] at hv
        simp [applyCategory1, hv]
      rw [this]
      simp only [Bool.not_eq_true] at hv
      simp [hv]

/-- Effect of a list of `--ignore` values. -/
def ignoreEff (o : Options) (vs : List Str) : Options :=
  { o with
    ignoreAdded :=
      o.ignoreAdded || en ["added"] vs
    ignoreDeleted :=
      o.ignoreDeleted || en ["deleted"] vs
    ignoreFunctionAddress :=
      o.ignoreFunctionAddress || en ["address", "function-address"] vs
    ignoreFunctionSize :=
      o.ignoreFunctionSize || en ["function-size"] vs
    ignoreFunctionInline :=
      o.ignoreFunctionInline || en ["function-inline"] vs
    ignoreFunctionLinkageName :=
      o.ignoreFunctionLinkageName || en ["linkage-name"] vs
    ignoreFunctionSymbolName :=
      o.ignoreFunctionSymbolName || en ["symbol-name", "function-symbol-name"] vs
    ignoreVariableAddress :=
      o.ignoreVariableAddress || en ["address", "variable-address"] vs
    ignoreVariableLinkageName :=
      o.ignoreVariableLinkageName || en ["linkage-name"] vs
    ignoreVariableSymbolName :=
      o.ignoreVariableSymbolName || en ["symbol-name", "variable-symbol-name"] vs }

theorem ignore_fold (vs : List Str) (o : Options) :
    vs.foldlM applyIgnore1 o = if (vs.all fun v => ignoreNames.any fun n => decide (v = k n)) then
      some (ignoreEff o vs) else none := by
  induction vs generalizing o with
  | nil => simp [ignoreEff, en_nil]
  | cons v vs ih =>
    rw [List.foldlM_cons, List.all_cons]
    by_cases hv : (ignoreNames.any fun n => decide (v = k n)) = true
    · rw [hv, Bool.true_and]
      simp only [ignoreNames, List.any_cons, List.any_nil, Bool.or_false, Bool.or_eq_true,
        decide_eq_true_eq] at hv
      rcases hv with h | h | h | h | h | h | h | h | h | h | h <;> subst h <;>
      · simp +decide only [applyIgnore1, if_true, if_false, Option.bind_eq_bind, Option.bind_some, ih,
          ignoreEff, en_cons, List.any_cons, List.any_nil, Bool.or_false, Bool.true_or, Bool.or_true,
          Bool.false_or, decide_true, decide_false]
    · have : applyIgnore1 o v = none := by
        simp only [ignoreNames, List.any_cons, List.any_nil, Bool.or_false, Bool.or_eq_true,
          decide_eq_true_eq, not_or] at hv
        simp [applyIgnore1, hv]
      rw [this]
      simp only [Bool.not_eq_true] at hv
      simp [hv]

end Verif.Opts
