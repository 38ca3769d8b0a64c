import Verif.Select.Lemmas
/-!
# Lemmas: every part of a listing under narrower options
-/
namespace Verif.Select
open Verif.Print Verif.Item Verif.Namespace Verif.Types Verif.Opts Verif.Merge Verif.Order Verif.Show
  Verif.Range Verif.Frame Verif.File

variable {o o' : Options}

theorem sourceP_sub (h : Narrower o o') (dir : Option Str) (s : Source) :
    Sub (sourceP o dir s) (sourceP o' dir s) := Sub.ite h.source (.refl _)

/-- Pieces of a sequence, one by one. -/
macro "pieces" : tactic => `(tactic| (simp only [P.seqs]; repeat' apply Sub.seq; all_goals try exact Sub.refl _))

theorem bodyP_sub (h : Narrower o o') (s : Side) (dir : Option Str) (n : Nat) (x : Extra) (t : Ty) :
    OSub (bodyP o s dir n x t) (bodyP o' s dir n x t) := by
  cases t with
  | base => exact .refl _
  | def_ ns name ty =>
    simp only [bodyP]
    split
    · refine OSub.same fun ms => .some ?_
      pieces
      exact sourceP_sub h dir _
    · refine .some ?_
      pieces
      exact sourceP_sub h dir _
  | struct_ ns name size ms vps inh =>
    refine OSub.same fun ms => .some ?_
    pieces
    exact sourceP_sub h dir _
  | union_ ns name size ms =>
    refine OSub.same fun ms => .some ?_
    pieces
    exact sourceP_sub h dir _
  | enum_ ns name ty size =>
    refine .some ?_
    pieces
    exact sourceP_sub h dir _
  | _ => exact .refl _

theorem typeP_sub (h : Narrower o o') (s : Side) (dir : Option Str) (n : Nat) (t : TypeEntry) :
    OSub (typeP o s dir n t) (typeP o' s dir n t) := by
  refine OSub.same fun hd => OSub.bind (bodyP_sub h s dir n _ _) fun p q hpq => .some ?_
  exact (Sub.id _ (.refl _) hpq).seq (.refl _)

theorem paramP_sub (h : Narrower o o') (s : FnSide) (p : Parameter) : Sub (paramP o s p) (paramP o' s p) :=
  Sub.indent _ (.refl _) (Sub.ite h.locations (.refl _))

theorem paramsP_sub (h : Narrower o o') (s : FnSide) (ps : List Parameter) :
    Sub (paramsP o s ps) (paramsP o' s ps) := Sub.map (paramP_sub h s) ps

theorem localP_sub (h : Narrower o o') (s : FnSide) (v : LocalVariable) : Sub (localP o s v) (localP o' s v) :=
  Sub.indent _ (.refl _) (Sub.ite h.locations (.refl _))

theorem localsP_sub (h : Narrower o o') (s : FnSide) (vs : List LocalVariable) :
    Sub (localsP o s vs) (localsP o' s vs) := Sub.map (localP_sub h s) vs

theorem callParamP_sub (h : Narrower o o') (s : FnSide) (p : CallParameter) :
    OSub (callParamP o s p) (callParamP o' s p) :=
  OSub.bind (OSub.when h.locations (.refl _)) fun _ _ hb => .some (Sub.indent _ (.refl _) hb)

theorem callSiteP_sub (h : Narrower o o') (s : FnSide) (dir : Option Str) (f : FunctionCall) :
    OSub (callSiteP o s dir f) (callSiteP o' s dir f) := by
  refine OSub.bind (OSub.when h.locations (.refl _)) fun p q ht => ?_
  refine OSub.bind (OSub.list (callParamP_sub h s) _) fun p' q' hp => .some (Sub.indent _ (.refl _) ?_)
  pieces
  · exact ht
  · exact sourceP_sub h dir _
  · exact hp.field _ _

theorem callSitesP_sub (h : Narrower o o') (s : FnSide) (dir : Option Str) (l : List FunctionCall) :
    OSub (callSitesP o s dir l) (callSitesP o' s dir l) := OSub.list (callSiteP_sub h s dir) l

theorem inlinedP_sub (h : Narrower o o') (s : FnSide) (dir : Option Str) (n : Nat) (f : InlinedFunction) :
    OSub (inlinedP o s dir n f) (inlinedP o' s dir n f) := by
  induction n generalizing f with
  | zero => exact .refl _
  | succ n ih =>
    rw [inlinedP, inlinedP]
    refine OSub.bind (OSub.when h.calls ((callSitesP_sub h s dir _).mapP fun p q hp => hp.field _ _)) fun c c' hc => ?_
    refine OSub.bind (OSub.list ih _) fun i i' hi => .some (Sub.indent _ (.refl _) ?_)
    pieces
    · exact Sub.ite h.source (.refl _)
    · exact Sub.ite h.inlinedParameters ((paramsP_sub h s _).field _ _)
    · exact Sub.ite h.variables ((localsP_sub h s _).field _ _)
    · exact hc
    · exact hi.inline

theorem callVal_eq (h : Narrower o o') (hc : o.printFunctionCalls = true) (s : FnSide) :
    callVal o s = callVal o' s := by
  funext c
  unfold callVal
  rw [h.callAddresses hc]

theorem fnBodyP_sub (h : Narrower o o') (s : FnSide) (dir : Option Str) (n : Nat) (f : Function) :
    OSub (fnBodyP o s dir n f) (fnBodyP o' s dir n f) := by
  unfold fnBodyP
  refine OSub.bind (OSub.when h.stackFrame (.refl _)) fun fr fr' hfr => ?_
  refine OSub.bind (OSub.list (inlinedP_sub h s dir n) _) fun i i' hi => ?_
  refine OSub.bind (OSub.when h.calls ((callSitesP_sub h s dir _).mapP fun p q hp => hp.field _ _)) fun c c' hc => ?_
  refine OSub.bind (OSub.whenTrue h.calls (fun hc => by rw [callVal_eq h hc]; exact .refl _)) fun ca ca' hca => ?_
  refine OSub.bind (OSub.when (fun hb => ?_) (.refl _)) fun ins ins' hins => .some ?_
  · simp only [Bool.and_eq_true] at hb ⊢
    exact ⟨h.instructions hb.1, hb.2⟩
  pieces
  · exact sourceP_sub h dir _
  · exact (paramsP_sub h s _).field _ _
  · exact Sub.ite h.variables ((localsP_sub h s _).field _ _)
  · exact hfr
  · exact (hi.field _ _).inline
  · exact hc
  · exact hca
  · exact hins

theorem functionP_sub (h : Narrower o o') (s : FnSide) (dir : Option Str) (n : Nat) (f : Function) :
    OSub (functionP o s dir n f) (functionP o' s dir n f) :=
  OSub.bind (fnBodyP_sub h s dir n f) fun _ _ hb => .some ((Sub.id _ (.refl _) hb).seq (.refl _))

theorem variableP_sub (h : Narrower o o') (s : FileSide) (dir : Option Str) (v : Variable) :
    Sub (variableP o s dir v) (variableP o' s dir v) := by
  refine (Sub.id _ (.refl _) ?_).seq (.refl _)
  unfold variableBodyP
  pieces
  exact sourceP_sub h dir _

theorem unitPartP_sub (h : Narrower o o') (s : Side) (u : CompUnit) :
    OSub (unitPartP o s u) (unitPartP o' s u) := by
  refine OSub.same fun f => OSub.same fun v => OSub.same fun w => .some ?_
  pieces
  exact Sub.ite h.unitAddress (.refl _)

theorem typeCmpBy_eq (h : Narrower o o') : typeCmpBy o = typeCmpBy o' := by
  funext n a ha b hb; unfold typeCmpBy; rw [h.sort]

theorem functionCmpBy_eq (h : Narrower o o') : functionCmpBy o = functionCmpBy o' := by
  funext n a ha b hb; unfold functionCmpBy; rw [h.sort]

theorem variableCmpBy_eq (h : Narrower o o') : variableCmpBy o = variableCmpBy o' := by
  funext n a ha b hb; unfold variableCmpBy; rw [h.sort]

theorem unitCmpBy_eq (h : Narrower o o') : unitCmpBy o = unitCmpBy o' := by
  funext n a ha b hb
  unfold unitCmpBy unitCmpId unitKey Options.mapPrefix
  rw [h.sort, h.prefixMap]

theorem unitTypesP_sub (h : Narrower o o') (s : Side) (n : Nat) (u : CompUnit) :
    OSub (unitTypesP o s n u) (unitTypesP o' s n u) := by
  refine OSub.when h.categoryType ?_
  rw [typeCmpBy_eq h]
  exact OSub.sorted (lawful_types o') n s.hash (typeP_sub h s u.dir n) u.types _ _
    (okType_mono h s.hash u)

theorem fnListP_sub (h : Narrower o o') (s : FnSide) (n : Nat) (u : CompUnit) (p q : Function → Bool)
    (hpq : ∀ f, p f = true → q f = true) :
    OSub (fnListP o s n u (u.functions.filter p)) (fnListP o' s n u (u.functions.filter q)) := by
  unfold fnListP
  rw [functionCmpBy_eq h]
  exact OSub.sorted (lawful_functions o') n s.hash (functionP_sub h s u.dir n) u.functions _ _ hpq

theorem unitVariablesP_sub (h : Narrower o o') (s : FileSide) (n : Nat) (u : CompUnit) :
    OSub (unitVariablesP o s n u) (unitVariablesP o' s n u) := by
  refine OSub.when h.categoryVariable ?_
  rw [variableCmpBy_eq h]
  exact OSub.sorted (lawful_variables o') n s.hash (fun v => .some (variableP_sub h s u.dir v))
    u.variables _ _ (okVariable_mono h)

theorem unitBodyP_sub (h : Narrower o o') (s : FileSide) (n : Nat) (u : CompUnit) :
    OSub (unitBodyP o s n u) (unitBodyP o' s n u) := by
  unfold unitBodyP
  rw [h.html]
  by_cases hh : o'.html = true
  · simp only [hh, if_true]
    refine OSub.bind (OSub.when h.categoryUnit (unitPartP_sub h s.toSide u)) fun a a' ha => ?_
    refine OSub.bind (unitTypesP_sub h s.toSide n u) fun b b' hb => ?_
    have hm : ∀ r : Function → Bool, OSub
        (whenP o.categoryFunction (fnListP o s.toFnSide n u ((Filter.filterFunctions u o).filter r)))
        (whenP o'.categoryFunction (fnListP o' s.toFnSide n u ((Filter.filterFunctions u o').filter r))) := by
      intro r
      refine OSub.when h.categoryFunction ?_
      unfold Filter.filterFunctions
      rw [List.filter_filter, List.filter_filter]
      refine fnListP_sub h s.toFnSide n u _ _ fun f hf => ?_
      simp only [Bool.and_eq_true] at hf ⊢
      exact ⟨hf.1, okFunction_mono h f hf.2⟩
    refine OSub.bind (hm _) fun c c' hc => ?_
    refine OSub.bind (hm _) fun d d' hd => ?_
    refine OSub.bind (unitVariablesP_sub h s n u) fun e e' he => .some ?_
    pieces
    · exact ha
    · exact hb.field _ _
    · exact Sub.ite h.categoryFunction ((hc.field _ _).seq (hd.field _ _))
    · exact he.field _ _
  · simp only [hh, Bool.false_eq_true, if_false]
    refine OSub.bind (OSub.when h.categoryUnit ((unitPartP_sub h s.toSide u).mapP fun p q hp =>
      Sub.indent _ (.refl _) hp)) fun a a' ha => ?_
    refine OSub.bind (unitTypesP_sub h s.toSide n u) fun b b' hb => ?_
    refine OSub.bind (OSub.when h.categoryFunction
      (fnListP_sub h s.toFnSide n u _ _ (okFunction_mono h))) fun c c' hc => ?_
    refine OSub.bind (unitVariablesP_sub h s n u) fun e e' he => .some ?_
    pieces
    · exact ha
    · exact hb
    · exact hc
    · exact he

theorem unitP_sub (h : Narrower o o') (s : FileSide) (n : Nat) (u : CompUnit) :
    OSub (unitP o s n u) (unitP o' s n u) := by
  refine OSub.bind (unitBodyP_sub h s n u) fun p q hp => .some ?_
  rw [h.html]
  split
  · exact Sub.id _ (.refl _) hp
  · exact hp

theorem filePartP_sub (h : Narrower o o') (s : FileSide) : OSub (filePartP o s) (filePartP o' s) := by
  refine OSub.same fun m => .some ((Sub.indent _ (.refl _) ?_).seq (.refl _))
  pieces
  exact Sub.ite h.fileAddress (.refl _)

theorem fileP_sub (h : Narrower o o') (s : FileSide) (n : Nat) : OSub (fileP o s n) (fileP o' s n) := by
  refine OSub.bind (OSub.when h.categoryFile (filePartP_sub h s)) fun p q hp => ?_
  have hu : OSub (unitsP o s n) (unitsP o' s n) := by
    unfold unitsP
    rw [unitCmpBy_eq h]
    exact OSub.sorted (lawful_units o') n s.tsz (unitP_sub h s n) s.file.units _ _ (okUnit_mono h)
  exact OSub.bind hu fun p' q' hp' => .some (hp.seq hp')

end Verif.Select
