import Verif.Move.Types
/-!
# C95: functions
-/
namespace Verif.Move
open Verif.Print Verif.Item Verif.Namespace Verif.Types Verif.Layout Verif.Path Verif.Opts Verif.Merge Verif.Range
  Verif.File Verif.Show Verif.Frame

variable {ρ : Nat → Nat}

theorem inlinedAll_eq (l : List InlinedFunction) : inlinedAll ρ l = l.map (inlined ρ) := by
  induction l with
  | nil => rfl
  | cons i is ih => simp [inlinedAll, ih]

theorem fnSame_moved (f : Function) : fnSame f (function ρ f) = true := by
  have := fnSame_self f
  simpa [fnSame, function] using this

theorem fnRef_moved (i j : Nat) (f : Function) : (fnRef i (function ρ f)).text' = (fnRef j f).text' := rfl

theorem stableSort_moved {α : Type} (f : α → α) (le : α → α → Bool) (h : ∀ x y, le (f x) (f y) = le x y) (l : List α) :
    stableSort le (l.map f) = (stableSort le l).map f := by
  rw [← Web.stableSort_map f le l]
  have : (fun a b => le (f a) (f b)) = le := by funext a b; exact h a b
  rw [this]

theorem sortLocals_moved (l : List LocalVariable) : sortLocals (l.map (localVar ρ)) = (sortLocals l).map (localVar ρ) :=
  stableSort_moved (localVar ρ) _ (fun _ _ => rfl) l

section
variable {c : FnPair} (hm : Fns ρ c.a c.b) (hs : SameMoved ρ c.same c.a.hash)
include hm

theorem regVal_moved (r : Nat) : Code.regVal c.b.regName r = Code.regVal c.a.regName r := by rw [hm.regs]

theorem regsD_moved (l : List Nat) : RelS (regsD c l l) :=
  mapField_same _ _ (listD_self (by simp) (by simp) (by simp) fun a _ e he => by
    cases he; simp [D.Same, hm.regs])

theorem locationVal_moved (l : Location) : locationVal c.b l = locationVal c.a l := by
  cases l <;> simp [locationVal, hm.regs]

theorem piecesD_moved (l : List Piece) : RelS (piecesD c l l) :=
  listD_self (by simp) (by simp) (by simp) fun a _ e he => by
    simp only [locationD, Option.bind_eq_bind, Option.bind_eq_some_iff, Option.some.injEq, locationVal_moved hm] at he
    obtain ⟨x, hx, y, hy, rfl⟩ := he
    rw [hx] at hy
    cases hy
    exact rfl

theorem paramVal_moved (p : Parameter) : (paramVal c.b (param ρ p)).text' = (paramVal c.a p).text' := by
  simp only [paramVal, vals, Val.text', Parameter.byteSize, Code.paramDecl, param, hm.size, hm.ref]

theorem localVal_moved (v : LocalVariable) : (localVal c.b (localVar ρ v)).text' = (localVal c.a v).text' := by
  simp only [localVal, vals, Val.text', LocalVariable.byteSize, Code.varDecl, localVar, hm.size, hm.ref]

include hs in
theorem paramsD_moved (o : Options) (l : List Parameter) : RelS (paramsD o c l (l.map (param ρ))) := by
  refine listD_map (param ρ) (fun a _ => ?_) (by simp) (by simp) fun a _ e he => ?_
  · have := tyCost_moved (c := c.toPair) hm.toTypes hs 1 a.ty
    simp [paramCost, param, this]
  · simp only [paramD, Option.bind_eq_bind, Option.bind_eq_some_iff, Option.some.injEq] at he
    obtain ⟨body, hbody, rfl⟩ := he
    refine ⟨(paramVal_moved hm a).symm, ?_⟩
    refine whenD_same (fun e he => ?_) body hbody
    simp only [Option.bind_eq_some_iff, Option.some.injEq] at he
    obtain ⟨rs, hrs, rfl⟩ := he
    exact ⟨regsD_moved hm _ rs hrs, diffLocs_self _⟩

include hs in
theorem localsD_moved (o : Options) (l : List LocalVariable) : RelS (localsD o c l (l.map (localVar ρ))) := by
  unfold localsD
  rw [sortLocals_moved]
  refine listD_map (localVar ρ) (fun a _ => ?_) (by simp) (by simp) fun a _ e he => ?_
  · have := tyCost_moved (c := c.toPair) hm.toTypes hs 1 a.ty
    simp [localCost, localVar, this]
  · simp only [localD, Option.bind_eq_bind, Option.bind_eq_some_iff, Option.some.injEq] at he
    obtain ⟨body, hbody, rfl⟩ := he
    refine ⟨(localVal_moved hm a).symm, ?_⟩
    refine whenD_same (fun e he => ?_) body hbody
    simp only [Option.bind_eq_some_iff, Option.some.injEq] at he
    obtain ⟨rs, hrs, rfl⟩ := he
    exact ⟨rfl, regsD_moved hm _ rs hrs, diffLocs_self _, trivial⟩

theorem callParamVal_moved (p : CallParameter) :
    (callParamVal c.b (callParam ρ p)).text' = (callParamVal c.a p).text' := by
  simp only [callParamVal, callParam, vals, Val.text']
  cases p.ty with
  | none => rfl
  | some t =>
    simp only [Option.map_some, hm.hash, Option.isSome_map]
    split
    · simp [Val.text', hm.ref]
    · rfl

theorem callParamsD_moved (o : Options) (l : List CallParameter) : RelS (callParamsD o c l (l.map (callParam ρ))) := by
  induction l with
  | nil => intro e he; simp only [List.map_nil, callParamsD, callParamsAddD, Option.some.injEq] at he; subst he; trivial
  | cons a l ih =>
    intro e he
    simp only [List.map_cons, callParamsD, Option.bind_eq_bind, Option.bind_eq_some_iff, Option.some.injEq] at he
    obtain ⟨f, hf, r, hr, rfl⟩ := he
    refine ⟨?_, ih r hr⟩
    simp only [callParamD, Option.bind_eq_bind, Option.bind_eq_some_iff, Option.some.injEq] at hf
    obtain ⟨body, hbody, rfl⟩ := hf
    refine ⟨(callParamVal_moved hm a).symm, ?_⟩
    refine whenD_same (fun e he => ?_) body hbody
    simp only [Option.bind_eq_some_iff, Option.some.injEq] at he
    obtain ⟨l, hl, v, hv', dl, hdl, dv, hdv, rfl⟩ := he
    exact ⟨piecesD_moved hm _ l hl, piecesD_moved hm _ v hv', piecesD_moved hm _ dl hdl, piecesD_moved hm _ dv hdv, trivial⟩

omit hm in
theorem originVal_moved (s t : FnSide) (x : Option CallOrigin) :
    (originVal t (x.map (origin ρ))).text' = (originVal s x).text' := by
  cases x with
  | none => rfl
  | some x =>
    cases x with
    | direct f => rfl
    | indirect f => cases f <;> rfl

omit hm in
theorem callHeader_moved (s t : FnSide) (f : FunctionCall) :
    (callHeader t (call ρ f)).text' = (callHeader s f).text' := by
  have := originVal_moved (ρ := ρ) s t f.origin
  simp only [callHeader, vals, Val.text', call, this]
  rfl

omit hm in
theorem originCost_moved (x : Option CallOrigin) : originCost x (x.map (origin ρ)) = 0 := by
  cases x with
  | none => rfl
  | some x =>
    cases x with
    | direct f => simp [originCost, origin, fnSame_moved]
    | indirect f => cases f <;> rfl

theorem callSitesD_moved (o : Options) (dir : Option Str) (l : List FunctionCall) :
    RelS (callSitesD o c dir dir l (l.map (call ρ))) := by
  refine listD_map (call ρ) (fun a _ => ?_) (by simp) (by simp) fun a _ e he => ?_
  · have := originCost_moved (ρ := ρ) a.origin
    simp [callSiteCost, call, this]
  · simp only [callSiteD, Option.bind_eq_bind, Option.bind_eq_some_iff, Option.some.injEq] at he
    obtain ⟨t, ht, ps, hps, rfl⟩ := he
    refine ⟨(callHeader_moved c.a c.b a).symm, rfl, ?_, sourceD_self .., ?_, trivial⟩
    · exact whenD_same (mapField_same _ _ (piecesD_moved hm _)) t ht
    · exact whenD_same (mapField_same _ _ (callParamsD_moved hm o _)) ps hps

theorem inlinedCost_moved (dir : Option Str) (f : InlinedFunction) : inlinedCost c dir dir f (inlined ρ f) = 0 := by
  cases f with
  | mk o size ranges ps vs is cs src =>
    simp only [inlinedCost, inlined, InlinedFunction.origin, InlinedFunction.callSource, InlinedFunction.size,
      and_self, if_true, Nat.add_zero, hm.fnAt]
    cases c.a.fnAt o <;> simp [inlinedOriginCost, fnSame_moved]

theorem inlinedVal_moved (f : InlinedFunction) : (inlinedVal c.b (inlined ρ f)).text' = (inlinedVal c.a f).text' := by
  cases f with
  | mk o size ranges ps vs is cs src =>
    simp only [inlinedVal, vals, Val.text', inlined, InlinedFunction.origin, InlinedFunction.size, hm.fnAt]
    cases c.a.fnAt o with
    | none => rfl
    | some g => simp only [Option.map_some, fnRef_moved (ρ := ρ) _ (c.a.fnId g)]

include hs in
theorem inlinedD_moved (o : Options) (dir : Option Str) (n : Nat) (l : List InlinedFunction) :
    RelS (listD c.heap (inlinedP o c.a dir n) (inlinedP o c.b dir n) (inlinedD o c dir dir n)
      inlinedStep inlinedStep (inlinedCost c dir dir) l (inlinedAll ρ l)) := by
  rw [inlinedAll_eq]
  induction n generalizing l with
  | zero =>
    exact listD_map (inlined ρ) (fun a _ => inlinedCost_moved hm dir a) (by simp [inlinedStep]; omega)
      (by simp [inlinedStep]; omega) fun a _ e he => by cases he
  | succ n ih =>
    refine listD_map (inlined ρ) (fun a _ => inlinedCost_moved hm dir a) (by simp [inlinedStep]; omega)
      (by simp [inlinedStep]; omega) fun a _ e he => ?_
    have hv := inlinedVal_moved hm a
    cases a with
    | mk org size ranges ps vs is cs src =>
      simp only [inlinedD, Option.bind_eq_bind, Option.bind_eq_some_iff, Option.some.injEq] at he
      obtain ⟨qs, hqs, ws, hws, ds, hds, inl, hinl, rfl⟩ := he
      simp only [inlined, InlinedFunction.parameters, InlinedFunction.variables, InlinedFunction.calls,
        InlinedFunction.inlined, inlinedAll_eq] at hqs hws hds hinl
      refine ⟨hv.symm, ?_, whenD_same (mapField_same _ _ (paramsD_moved hm hs o _)) qs hqs,
        whenD_same (mapField_same _ _ (localsD_moved hm hs o _)) ws hws,
        whenD_same (mapField_same _ _ (callSitesD_moved hm o dir _)) ds hds, ih _ inl hinl, trivial⟩
      split
      · exact rfl
      · trivial

theorem callVal_moved (o : Options) (x : Nat × Nat) : (callVal o c.b x).text' = (callVal o c.a x).text' := by
  simp only [callVal, Val.text', hm.byAddress, hm.plt]
  cases c.a.fnByAddress x.2 with
  | none => rfl
  | some f => simp only [Option.map_some, fnRef_moved (ρ := ρ) _ (c.a.fnId f)]

theorem callsD_moved (o : Options) (l : List (Nat × Nat)) : RelS (callsD o c l l) := by
  refine listD_self (fun a _ => ?_) (by simp) (by simp) fun a _ e he => by
    cases he; exact (callVal_moved hm o a).symm
  simp only [callCost, hm.byAddress]
  cases c.a.fnByAddress a.2 <;> simp [fnSame_moved]

theorem returnVal_moved (t : TypeOffset) : (returnVal c.b.toSide (off ρ t)).text' = (returnVal c.a.toSide t).text' := by
  simp only [returnVal, hm.hash]
  have : ((fromOffset c.a.hash t).map (ty ρ) = some .void) ↔ fromOffset c.a.hash t = some .void := by
    cases fromOffset c.a.hash t with
    | none => simp
    | some t => cases t <;> simp [ty]
  by_cases h : fromOffset c.a.hash t = some .void
  · rw [if_pos (this.2 h), if_pos h]
  · rw [if_neg (mt this.1 h), if_neg h]
    simp [vals, Val.text', hm.size, hm.ref]

omit hm in
/-- A variable in a stack frame, its type moved. -/
def frameEntry (ρ : Nat → Nat) (e : Entry) : Entry := { e with ty := off ρ e.ty }

section
variable {sa sb : TypeOffset → Option Nat}
omit hm

theorem parameterEntries_moved (hsz : ∀ o, sb (off ρ o) = sa o) (p : Parameter) :
    parameterEntries sb (param ρ p) = (parameterEntries sa p).map (frameEntry ρ) := by
  simp only [parameterEntries, List.map_map, Function.comp_def, param, Parameter.byteSize, hsz]
  rfl

theorem variableEntries_moved (hsz : ∀ o, sb (off ρ o) = sa o) (v : LocalVariable) :
    variableEntries sb (localVar ρ v) = (variableEntries sa v).map (frameEntry ρ) := by
  simp only [variableEntries, List.map_map, Function.comp_def, localVar, LocalVariable.byteSize, hsz]
  rfl

mutual
theorem inlinedEntries_moved (hsz : ∀ o, sb (off ρ o) = sa o) : (i : InlinedFunction) →
    inlinedEntries sb (inlined ρ i) = (inlinedEntries sa i).map (frameEntry ρ)
  | .mk org size ranges ps vs is cs src => by
    simp only [inlined, inlinedEntries, List.map_append, inlinedListEntries_moved hsz is, List.flatMap_map,
      List.map_flatMap, parameterEntries_moved hsz, variableEntries_moved hsz]
theorem inlinedListEntries_moved (hsz : ∀ o, sb (off ρ o) = sa o) : (l : List InlinedFunction) →
    inlinedListEntries sb (inlinedAll ρ l) = (inlinedListEntries sa l).map (frameEntry ρ)
  | [] => rfl
  | i :: is => by
    simp only [inlinedAll, inlinedListEntries, List.map_append, inlinedEntries_moved hsz i,
      inlinedListEntries_moved hsz is]
end

theorem entries_moved (hsz : ∀ o, sb (off ρ o) = sa o) (d : FunctionDetails)
    (hd : ∀ e ∈ entries sa d, off ρ e.ty = e.ty) : entries sb (Move.details ρ d) = entries sa d := by
  have hraw : ∀ l : List Entry, (∀ e ∈ sortDedup Entry.cmp l, off ρ e.ty = e.ty) →
      sortDedup Entry.cmp (l.map (frameEntry ρ)) = sortDedup Entry.cmp l := by
    intro l hl
    have : l.map (frameEntry ρ) = l := by
      have : l.map (frameEntry ρ) = l.map id := by
        refine List.map_congr_left fun e he => ?_
        have := hl e ((mem_sortDedup (cmp := Entry.cmp) l e).2 he)
        simp only [frameEntry, this, id]
      simpa using this
    rw [this]
  unfold entries at hd ⊢
  rw [← hraw _ hd]
  simp only [Move.details, List.map_append, inlinedListEntries_moved hsz, List.flatMap_map, List.map_flatMap,
    parameterEntries_moved hsz, variableEntries_moved hsz]

end

omit hm in
theorem link_mem {prev : Option Int} {l : List Entry} {m : List (Option Int × Entry)} (h : link prev l = some m) :
    ∀ v ∈ m, v.2 ∈ l := by
  induction l generalizing prev m with
  | nil => cases h; simp
  | cons e es ih =>
    simp only [link] at h
    split at h
    · cases h
    · simp only [Option.map_eq_some_iff] at h
      obtain ⟨m', h', rfl⟩ := h
      intro v hv
      rcases List.mem_cons.1 hv with rfl | hv
      · simp
      · exact List.mem_cons_of_mem _ (ih h' v hv)

theorem frameD_moved (d : FunctionDetails) (hd : ∀ e ∈ entries c.a.tsz d, off ρ e.ty = e.ty) :
    RelS (frameD c d (Move.details ρ d)) := by
  intro e he
  simp only [frameD, frameVariables, entries_moved hm.size d hd, Option.bind_eq_bind, Option.bind_eq_some_iff, ordListD,
    Option.map_eq_some_iff] at he
  obtain ⟨va, hva, vb, hvb, es, hes, rfl⟩ := he
  rw [hva] at hvb
  cases hvb
  rw [merged_self (fun x y : Option Int × Entry => Entry.cmp x.2 y.2)
    (fun a => Std.ReflCmp.compare_self (cmp := Entry.cmp)) _ _ (by omega)] at hes
  refine D.same_seqs fun e he => ?_
  obtain ⟨it, hit, hie⟩ := mapM_mem hes e he
  obtain ⟨a, ha, rfl⟩ := List.mem_map.1 hit
  simp only [itemD, frameEntryD, Option.bind_eq_bind, Option.bind_eq_some_iff, Option.some.injEq] at hie
  obtain ⟨x, hx, y, hy, rfl⟩ := hie
  rw [hx] at hy
  cases hy
  refine ⟨rfl, ?_⟩
  have h1 := hm.ref a.2.ty
  rw [hd a.2 (link_mem hva a ha)] at h1
  simp only [D.Same, entryVal, Val.text', h1]

theorem fnCalls_moved (f : Function) : fnCalls c.b (function ρ f) = fnCalls c.a f := by
  simp [fnCalls, function, hm.calls]

include hs in
theorem functionD_moved (o : Options) (ho : o.printFunctionStackFrame = true → FramesFixed ρ c.a) (uid : Nat) (dir : Option Str) (n : Nat)
    (f : Function) (e : D) (he : functionD o c uid dir dir n f (function ρ f) = some e) :
    e.dropIgnored.Same ∧ (o.printFunctionInstructions = false → e.Same) := by
  simp only [functionD, Option.bind_eq_bind, Option.bind_eq_some_iff, Option.some.injEq] at he
  obtain ⟨b, hb, rfl⟩ := he
  simp only [fnBodyD, Option.bind_eq_bind, Option.bind_eq_some_iff, Option.some.injEq, hm.details] at hb
  obtain ⟨ps, hps, vs, hvs, fr, hfr, inl, hinl, st, hst, cs, hcs, is, his, rfl⟩ := hb
  simp only [Move.details] at hps hvs hinl hst
  have h1 := paramsD_moved hm hs o _ ps hps
  have h2 := whenD_same (mapField_same _ _ (localsD_moved hm hs o _)) vs hvs
  have h3 : fr.Same := by
    unfold whenD at hfr
    split at hfr
    · rename_i hon
      exact mapField_same _ _ (frameD_moved hm _ (ho hon f)) fr hfr
    · cases hfr; trivial
  have h4 := inlinedD_moved hm hs o dir n _ inl hinl
  have h5 := whenD_same (mapField_same _ _ (callSitesD_moved hm o dir _)) st hst
  have h6 : cs.Same := by
    refine whenD_same (fun e he => ?_) cs hcs
    simp only [Option.bind_eq_some_iff, fnCalls_moved hm] at he
    obtain ⟨la, hla, lb, hlb, he⟩ := he
    rw [hla] at hlb
    cases hlb
    exact mapField_same _ _ (callsD_moved hm o la) e he
  have hret := (returnVal_moved hm f.returnType).symm
  refine ⟨⟨⟨rfl, ?_⟩, trivial⟩, fun hi => ⟨⟨rfl, ?_⟩, trivial⟩⟩
  · have hline : ∀ (b : Bool) (l : Str) (v : Val), (D.ignoreDiff b (.line l v v)).dropIgnored.Same :=
      fun b l v => D.Same.drop (e := .ignoreDiff b (.line l v v)) rfl
    refine ⟨hline .., hline .., D.Same.drop (sourceD_self ..), ?_, hline .., hline .., rfl, hret, D.Same.drop h1,
      D.Same.drop h2, D.Same.drop h3, D.Same.drop h4, D.Same.drop h5, D.Same.drop h6, ?_, trivial⟩
    · exact D.Same.drop (e := .ignoreDiff _ _) (rangesD_self f.ranges)
    · unfold whenD at his
      split at his
      · simp only [Option.bind_eq_some_iff, Option.some.injEq] at his
        obtain ⟨p, -, q, -, rfl⟩ := his
        trivial
      · cases his; trivial
  · refine ⟨rfl, rfl, sourceD_self .., rangesD_self _, rfl, rfl, rfl, hret, h1, h2, h3, h4, h5, h6, ?_, trivial⟩
    rw [whenD, hi, if_neg (by simp)] at his
    cases his
    trivial

end

end Verif.Move
