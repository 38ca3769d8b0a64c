import Verif.Select.MergeFilter
/-!
# Lemmas: every part of a diff under options that ask for less or ignore more
-/
namespace Verif.Select
open Verif.Print Verif.Item Verif.Namespace Verif.Types Verif.Opts Verif.Merge Verif.Order Verif.Show
  Verif.Range Verif.Frame Verif.File

variable {o o' : Options}

/-- Pieces of a sequence, one by one. -/
macro "dpieces" : tactic => `(tactic| (simp only [D.seqs]; repeat' apply DSub.seq; all_goals try exact DSub.refl _))

theorem sourceD_sub (h : Narrower o o') (da db : Option Str) (a b : Source) :
    DSub (sourceD o da a db b) (sourceD o' da a db b) := DSub.ite h.source (.refl _)

theorem bodyD_sub (h : Narrower o o') (c : Pair) (da db : Option Str) (n : Nat) (x y : Extra) (s t : Ty) :
    ODSub (bodyD o c da db n x y s t) (bodyD o' c da db n x y s t) := by
  unfold bodyD
  split
  · exact .refl _
  · refine ODSub.same fun ms => .some ?_
    dpieces
    exact sourceD_sub h _ _ _ _
  · refine ODSub.same fun ms => ODSub.same fun inh => .some ?_
    dpieces
    exact sourceD_sub h _ _ _ _
  · refine ODSub.same fun ms => .some ?_
    dpieces
    exact sourceD_sub h _ _ _ _
  · refine ODSub.same fun ms => .some ?_
    dpieces
    exact sourceD_sub h _ _ _ _
  · exact .refl _

theorem typeD_sub (h : Narrower o o') (c : Pair) (da db : Option Str) (n : Nat) (a b : TypeEntry) :
    ODSub (typeD o c da db n a b) (typeD o' c da db n a b) := by
  refine ODSub.same fun hd => ODSub.bind (bodyD_sub h c da db n _ _ _ _) fun p q hpq => .some ?_
  exact (DSub.id _ _ (.refl _) hpq).seq (.refl _)

theorem paramD_sub (h : Narrower o o') (c : FnPair) (a b : Parameter) :
    ODSub (paramD o c a b) (paramD o' c a b) :=
  ODSub.bind (ODSub.when h.locations fun _ => .refl _) fun _ _ hb => .some (DSub.indent _ (.refl _) hb)

theorem paramsD_sub (h : Narrower o o') (c : FnPair) (a b : List Parameter) :
    ODSub (paramsD o c a b) (paramsD o' c a b) :=
  ODSub.list (fun p => .some (paramP_sub h c.a p)) (fun p => .some (paramP_sub h c.b p)) (paramD_sub h c) _ _ _ _ _ _

theorem localD_sub (h : DiffNarrower o o') (c : FnPair) (a b : LocalVariable) :
    ODSub (localD o c a b) (localD o' c a b) := by
  refine ODSub.bind (ODSub.when h.locations fun _ => ?_) fun _ _ hb => .some (DSub.indent _ (.refl _) hb)
  refine ODSub.same fun rs => .some ?_
  dpieces
  exact DSub.ignoreDiff h.variableAddress (.refl _)

theorem localsD_sub (h : DiffNarrower o o') (c : FnPair) (a b : List LocalVariable) :
    ODSub (localsD o c a b) (localsD o' c a b) :=
  ODSub.list (fun p => .some (localP_sub h.toNarrower c.a p)) (fun p => .some (localP_sub h.toNarrower c.b p))
    (localD_sub h c) _ _ _ _ _ _

theorem callParamD_sub (h : Narrower o o') (c : FnPair) (a b : CallParameter) :
    ODSub (callParamD o c a b) (callParamD o' c a b) :=
  ODSub.bind (ODSub.when h.locations fun _ => .refl _) fun _ _ hb => .some (DSub.indent _ (.refl _) hb)

theorem callParamsAddD_sub (h : Narrower o o') (c : FnPair) (l : List CallParameter) :
    ODSub (callParamsAddD o c l) (callParamsAddD o' c l) := by
  induction l with
  | nil => exact .refl _
  | cons b l ih =>
    exact ODSub.bindP (callParamP_sub h c.b b) fun p q hp => ODSub.bind ih fun r r' hr =>
      .some ((DSub.prefixAdd hp).seq hr)

theorem callParamsD_sub (h : Narrower o o') (c : FnPair) (la lb : List CallParameter) :
    ODSub (callParamsD o c la lb) (callParamsD o' c la lb) := by
  induction la generalizing lb with
  | nil =>
    rw [callParamsD, callParamsD]
    exact callParamsAddD_sub h c lb
  | cons a l ih =>
    cases lb with
    | nil =>
      exact ODSub.bindP (callParamP_sub h c.a a) fun p q hp => ODSub.bind (ih []) fun r r' hr =>
        .some ((DSub.prefixDelete hp).seq hr)
    | cons b lb =>
      exact ODSub.bind (callParamD_sub h c a b) fun p q hp => ODSub.bind (ih lb) fun r r' hr =>
        .some (hp.seq hr)

theorem callSiteD_sub (h : Narrower o o') (c : FnPair) (da db : Option Str) (a b : FunctionCall) :
    ODSub (callSiteD o c da db a b) (callSiteD o' c da db a b) := by
  refine ODSub.bind (ODSub.when h.locations fun _ => .refl _) fun t t' ht => ?_
  refine ODSub.bind (ODSub.when (fun h => h) fun _ => (callParamsD_sub h c _ _).mapD fun p q hp => hp.field _ _)
    fun p q hp => .some (DSub.indent _ (.refl _) ?_)
  dpieces
  · exact ht
  · exact sourceD_sub h _ _ _ _
  · exact hp

theorem callSitesD_sub (h : Narrower o o') (c : FnPair) (da db : Option Str) (la lb : List FunctionCall) :
    ODSub (callSitesD o c da db la lb) (callSitesD o' c da db la lb) :=
  ODSub.list (callSiteP_sub h c.a da) (callSiteP_sub h c.b db) (callSiteD_sub h c da db) _ _ _ _ _ _

theorem inlinedD_sub (h : DiffNarrower o o') (c : FnPair) (da db : Option Str) (n : Nat) (f g : InlinedFunction) :
    ODSub (inlinedD o c da db n f g) (inlinedD o' c da db n f g) := by
  induction n generalizing f g with
  | zero => exact .refl _
  | succ n ih =>
    rw [inlinedD, inlinedD]
    refine ODSub.bind (ODSub.when h.inlinedParameters fun _ =>
      (paramsD_sub h.toNarrower c _ _).mapD fun p q hp => hp.field _ _) fun ps ps' hps => ?_
    refine ODSub.bind (ODSub.when h.variables fun _ =>
      (localsD_sub h c _ _).mapD fun p q hp => hp.field _ _) fun vs vs' hvs => ?_
    refine ODSub.bind (ODSub.when h.calls fun _ =>
      (callSitesD_sub h.toNarrower c da db _ _).mapD fun p q hp => hp.field _ _) fun cs cs' hcs => ?_
    refine ODSub.bind (ODSub.list (inlinedP_sub h.toNarrower c.a da n) (inlinedP_sub h.toNarrower c.b db n) ih
      _ _ _ _ _ _) fun i i' hi => .some (DSub.indent _ (.refl _) ?_)
    dpieces
    · exact DSub.ite h.source (.refl _)
    · exact hps
    · exact hvs
    · exact hcs
    · exact hi.inline

theorem fnBodyD_sub (h : DiffNarrower o o') (c : FnPair) (da db : Option Str) (n : Nat) (f g : Function) :
    ODSub (fnBodyD o c da db n f g) (fnBodyD o' c da db n f g) := by
  unfold fnBodyD
  refine ODSub.bind (paramsD_sub h.toNarrower c _ _) fun ps ps' hps => ?_
  refine ODSub.bind (ODSub.when h.variables fun _ =>
    (localsD_sub h c _ _).mapD fun p q hp => hp.field _ _) fun vs vs' hvs => ?_
  refine ODSub.bind (ODSub.when h.stackFrame fun _ => .refl _) fun fr fr' hfr => ?_
  refine ODSub.bind (ODSub.list (inlinedP_sub h.toNarrower c.a da n) (inlinedP_sub h.toNarrower c.b db n)
    (inlinedD_sub h c da db n) _ _ _ _ _ _) fun i i' hi => ?_
  refine ODSub.bind (ODSub.when h.calls fun _ =>
    (callSitesD_sub h.toNarrower c da db _ _).mapD fun p q hp => hp.field _ _) fun cs cs' hcs => ?_
  refine ODSub.bind (ODSub.when h.calls fun hc => ?_) fun ca ca' hca => ?_
  · refine ODSub.same fun la => ODSub.same fun lb => ?_
    unfold callsD
    rw [callVal_eq h.toNarrower hc c.a, callVal_eq h.toNarrower hc c.b]
    exact .refl _
  refine ODSub.bind (ODSub.when h.instructions fun _ => .refl _) fun ins ins' hins => .some ?_
  dpieces
  · exact DSub.ignoreDiff h.functionLinkageName (.refl _)
  · exact DSub.ignoreDiff h.functionSymbolName (.refl _)
  · exact sourceD_sub h.toNarrower _ _ _ _
  · exact DSub.ignoreDiff h.functionAddress (.refl _)
  · exact DSub.ignoreDiff h.functionSize (.refl _)
  · exact DSub.ignoreDiff h.functionInline (.refl _)
  · exact hps.field _ _
  · exact hvs
  · exact hfr
  · exact (hi.field _ _).inline
  · exact hcs
  · exact hca
  · exact hins

theorem functionD_sub (h : DiffNarrower o o') (c : FnPair) (uid : Nat) (da db : Option Str) (n : Nat)
    (f g : Function) : ODSub (functionD o c uid da db n f g) (functionD o' c uid da db n f g) :=
  ODSub.bind (fnBodyD_sub h c da db n f g) fun _ _ hb => .some ((DSub.id _ _ (.refl _) hb).seq (.refl _))

theorem variableD_sub (h : DiffNarrower o o') (c : FilePair) (da db : Option Str) (v w : Variable) :
    DSub (variableD o c da db v w) (variableD o' c da db v w) := by
  refine (DSub.indent _ (.refl _) ?_).seq (.refl _)
  unfold variableBodyD
  dpieces
  · exact DSub.ignoreDiff h.variableLinkageName (.refl _)
  · exact DSub.ignoreDiff h.variableSymbolName (.refl _)
  · exact sourceD_sub h.toNarrower _ _ _ _
  · exact DSub.ignoreDiff h.variableAddress (.refl _)

theorem unitPartD_sub (h : Narrower o o') (a b : Side) (u v : CompUnit) :
    ODSub (unitPartD o a b u v) (unitPartD o' a b u v) := by
  unfold unitPartD
  refine ODSub.same fun _ => ODSub.same fun _ => ODSub.same fun _ => ODSub.same fun _ => ODSub.same fun _ =>
    ODSub.same fun _ => ODSub.same fun _ => ODSub.same fun _ => ODSub.same fun _ => .some ?_
  dpieces
  exact DSub.ite h.unitAddress (.refl _)

/-! ## Filters -/

theorem DSub.tail {d e : D} (x : D) (h : DSub d e) : DSub d (.seq x e) := by
  intro o o' h1 h2 i y z n m hn
  simp only [D.den, List.map_append, Bool.or_eq_true]
  have a := h o o' h1 h2 i y (x.den o' i z m).2.2 n m hn
  exact ⟨a.1.trans (List.sublist_append_right _ _), fun f => .inr (a.2 f)⟩

theorem ODSub.mapMS {α : Type} {f g : α → Option D} (h : ∀ a, ODSub (f a) (g a)) {l l' : List α} (hs : l.Sublist l') :
    ODSub ((l.mapM f).map D.seqs) ((l'.mapM g).map D.seqs) := by
  induction hs with
  | slnil => exact .refl _
  | cons a _ ih =>
    intro q hq
    rw [List.mapM_cons] at hq
    obtain ⟨ps, hps, rfl⟩ := Option.map_eq_some_iff.1 hq
    simp only [Bind.bind, Option.bind_eq_some_iff, pure, Option.some.injEq] at hps
    obtain ⟨p, hp, ps, hps, rfl⟩ := hps
    obtain ⟨p', h1, h2⟩ := ih (D.seqs ps) (by simp [hps])
    exact ⟨p', h1, h2.tail p⟩
  | cons_cons a _ ih =>
    intro q hq
    rw [List.mapM_cons] at hq
    obtain ⟨ps, hps, rfl⟩ := Option.map_eq_some_iff.1 hq
    simp only [Bind.bind, Option.bind_eq_some_iff, pure, Option.some.injEq] at hps
    obtain ⟨p, hp, ps, hps, rfl⟩ := hps
    obtain ⟨p', h1, h2⟩ := ih (D.seqs ps) (by simp [hps])
    obtain ⟨p'', h3, h4⟩ := h a p hp
    obtain ⟨ms, h5, rfl⟩ := Option.map_eq_some_iff.1 h1
    exact ⟨.seq p'' (D.seqs ms), by simp [List.mapM_cons, h3, h5, D.seqs], h4.seq h2⟩

theorem sortItemD_sub {α : Type} (h : DiffNarrower o o') {f f' g g' : α → Option P} {d e : α → α → Option D}
    (hf : ∀ a, OSub (f a) (g a)) (hf' : ∀ a, OSub (f' a) (g' a)) (hd : ∀ a b, ODSub (d a b) (e a b))
    (r : MergeResult α α) : ODSub (sortItemD o f f' d r) (sortItemD o' g g' e r) := by
  cases r with
  | both a b => exact (hd a b).mapD fun _ _ h => h.printIfDiff
  | left a =>
    simp only [sortItemD]
    by_cases c : o.ignoreDeleted = true
    · rw [if_pos c]; intro q _; exact ⟨.skip, rfl, .skip _⟩
    · rw [if_neg c, if_neg (fun c' => c (h.deleted c'))]
      exact ODSub.mapPD (hf a) fun _ _ h => .prefixDelete h
  | right b =>
    simp only [sortItemD]
    by_cases c : o.ignoreAdded = true
    · rw [if_pos c]; intro q _; exact ⟨.skip, rfl, .skip _⟩
    · rw [if_neg c, if_neg (fun c' => c (h.added c'))]
      exact ODSub.mapPD (hf' b) fun _ _ h => .prefixAdd h

/-- Merged items that are left out leave out their lines. -/
theorem ODSub.sorted {α γ : Type} (h : DiffNarrower o o')
    {f f' g g' : α → Option P} {d e : α → α → Option D}
    (hf : ∀ a, OSub (f a) (g a)) (hf' : ∀ a, OSub (f' a) (g' a)) (hd : ∀ a b, ODSub (d a b) (e a b))
    {cmpBy : Nat → α → γ → α → γ → Res Ordering} {G : α × γ → Prop}
    (hl : Lawful (fun n x y => cmpBy n x.1 x.2 y.1 y.2) G) (n : Nat) (ha hb : γ) (p : MergeResult α α → Bool)
    (items : List (MergeResult α α)) :
    ODSub (sortListD o (cmpBy n) ha hb f f' d (items.filter p)) (sortListD o' (cmpBy n) ha hb g g' e items) := by
  intro q hq
  simp only [sortListD, Bind.bind, Option.bind_eq_some_iff] at hq ⊢
  obtain ⟨l, h1, h2⟩ := hq
  have hsort : diffOrder (cmpBy n) ha hb (items.filter p) = Option.some (l.filter p) := by
    have he : MergeResult.cmp (cmpBy n) ha hb = fun x y => cmpBy n (shown ha hb x).1 (shown ha hb x).2
        (shown ha hb y).1 (shown ha hb y).2 := by
      funext x y; exact C53_cmp_shown (cmpBy n) ha hb x y
    unfold diffOrder at h1 ⊢
    rw [he] at h1 ⊢
    exact sortWith_filter (fun hxy => hl.swap (x := shown ha hb _) (y := shown ha hb _) hxy)
      (fun x y z => hl.trans n (shown ha hb x) (shown ha hb y) (shown ha hb z)) p h1
  obtain ⟨p', h3, h4⟩ := ODSub.mapMS (sortItemD_sub h hf hf' hd) (List.filter_sublist (p := p)) q h2
  exact ⟨p', ⟨_, hsort, h3⟩, h4⟩

/-- The filters by name and namespace. -/
def byName (o : Options) (name : Option Str) (ns : Option Namespace) : Bool := o.okName name && o.okNamespace ns

theorem byName_iff (o : Options) (name : Option Str) (ns : Option Namespace) :
    byName o name ns = true ↔ Filter.NameOk o name ∧ Filter.NamespaceOk o ns := by
  unfold byName
  rw [Bool.and_eq_true, Filter.okName_iff, Filter.okNamespace_iff]

theorem byName_congr (o : Options) {a b : Option Str} {s t : Option Namespace}
    (h : qname s a = qname t b) : byName o a s = byName o b t := by
  simp only [qname, Prod.mk.injEq] at h
  obtain ⟨h1, rfl⟩ := h
  rw [Bool.eq_iff_iff, byName_iff, byName_iff]
  refine and_congr Iff.rfl ?_
  unfold Filter.NamespaceOk
  refine forall_congr' fun _ => ?_
  cases s <;> cases t <;> simp_all

theorem filter_of_mono {α : Type} {p q r : α → Bool} (l : List α) (h : ∀ a ∈ l, p a = (r a && q a)) :
    l.filter p = (l.filter q).filter r := by
  rw [List.filter_filter]
  exact List.filter_congr h

theorem filterFunctions_eq (h : DiffNarrower o o') (u : CompUnit) :
    Filter.filterFunctions u o = (Filter.filterFunctions u o').filter fun f => byName o f.name f.ns := by
  refine filter_of_mono _ fun f _ => ?_
  rw [Bool.eq_iff_iff, Bool.and_eq_true, Filter.okFunction_iff, byName_iff, Filter.okFunction_iff]
  constructor
  · rintro ⟨h1, h2, h3, h4⟩
    exact ⟨⟨h2, h3⟩, h1, nameOk_mono h.toNarrower h2, namespaceOk_mono h.toNarrower h3, inlineOk_mono h.toNarrower h4⟩
  · rintro ⟨⟨h2, h3⟩, h1, _, _, h4⟩
    refine ⟨h1, h2, h3, ?_⟩
    unfold Filter.InlineOk at h4 ⊢
    rw [h.sameInline]; exact h4

theorem filterVariables_eq (h : DiffNarrower o o') (u : CompUnit) :
    Filter.filterVariables u o = (Filter.filterVariables u o').filter fun f => byName o f.name f.ns := by
  refine filter_of_mono _ fun f _ => ?_
  rw [Bool.eq_iff_iff, Bool.and_eq_true, Filter.okVariable_iff, byName_iff, Filter.okVariable_iff]
  constructor
  · rintro ⟨h1, h2, h3⟩
    exact ⟨⟨h2, h3⟩, h1, nameOk_mono h.toNarrower h2, namespaceOk_mono h.toNarrower h3⟩
  · rintro ⟨⟨h2, h3⟩, h1, _, _⟩
    exact ⟨h1, h2, h3⟩

theorem okTypeOptions_mono (h : Narrower o o') (t : Ty) (ht : Filter.okTypeOptions o t = true) :
    Filter.okTypeOptions o' t = true := by
  have key : ∀ a s, (o.okName a && o.okNamespace s) = true → (o'.okName a && o'.okNamespace s) = true := by
    intro a s hs
    have := (byName_iff o a s).1 hs
    exact (byName_iff o' a s).2 ⟨nameOk_mono h this.1, namespaceOk_mono h this.2⟩
  have none_ : o.filterName.isNone = true → o'.filterName.isNone = true := by
    intro hn
    rcases h.nameFilter with e | e
    · rw [e]; rfl
    · rw [e]; exact hn
  cases t <;> first | exact key _ _ ht | exact none_ ht

theorem filterTypes_eq (h : DiffNarrower o o') (c : Hash) (u : CompUnit) (d : Bool) :
    Filter.filterTypes c u o d = (Filter.filterTypes c u o' d).filter fun t => Filter.okTypeOptions o t.kind := by
  refine filter_of_mono _ fun t _ => ?_
  unfold Filter.okType
  cases hc : Filter.okTypeOptions o t.kind with
  | false => simp
  | true => rw [okTypeOptions_mono h.toNarrower _ hc]; simp

theorem okTypeOptions_congr {n : Nat} {ha hb : Hash} {s t : Ty} (h : cmpId false n ha s hb t = .ok .eq) :
    Filter.okTypeOptions o s = Filter.okTypeOptions o t := by
  have key : ∀ a b x y, Namespace.cmpNsAndName a x b y = .eq →
      (o.okName x && o.okNamespace a) = (o.okName y && o.okNamespace b) := fun a b x y e =>
    byName_congr o ((sameQName (a, x) (b, y)).1 e)
  cases n with
  | zero => cases h
  | succ n =>
    unfold cmpId cmpStep at h
    split at h
    · rename_i n1 _ n2 _
      have : n1 = n2 := by simpa using h
      subst this; rfl
    · exact key _ _ _ _ (Res.ok.inj h)
    · exact key _ _ _ _ (Res.ok.inj h)
    · exact key _ _ _ _ (Res.ok.inj h)
    · exact key _ _ _ _ (Res.ok.inj h)
    · rfl
    · rfl
    · exact key _ _ _ _ (Res.ok.inj h)
    · rfl
    · rfl
    · rfl
    · rename_i h1 h2 h3 h4 h5 h6 h7 h8 h9 h10 h11
      cases s <;> cases t <;> first
        | rfl
        | (exact absurd rfl (h1 _ _ _ _ rfl))
        | (simp [Ty.discr] at h; done)
        | (exfalso; first
          | exact h1 _ _ _ _ rfl rfl
          | exact h2 _ _ _ _ _ _ rfl rfl
          | exact h3 _ _ _ _ _ _ _ _ _ _ _ _ rfl rfl
          | exact h4 _ _ _ _ _ _ _ _ rfl rfl
          | exact h5 _ _ _ _ _ _ _ _ rfl rfl
          | exact h8 _ _ _ _ rfl rfl)

theorem unitTypesD_sub (h : DiffNarrower o o') (c : Pair) (n : Nat) (u v : CompUnit) :
    ODSub (unitTypesD o c n u v) (unitTypesD o' c n u v) := by
  refine ODSub.when h.categoryType fun _ => ?_
  intro q hq
  simp only [Bind.bind, Option.bind_eq_some_iff] at hq ⊢
  obtain ⟨m, h1, h2⟩ := hq
  rw [← typeCmpBy_eq h.toNarrower] at h2
  obtain ⟨p, h3, h4⟩ := ODSub.sorted h (typeP_sub h.toNarrower c.a u.dir n) (typeP_sub h.toNarrower c.b v.dir n)
    (typeD_sub h.toNarrower c u.dir v.dir n) (lawful_types o) n _ _ _ m q h2
  refine ⟨p, ⟨_, ?_, h3⟩, h4⟩
  rw [filterTypes_eq h, filterTypes_eq h]
  exact mergedTypes_filter _ (fun x y e => okTypeOptions_congr e) h1

theorem fnListD_sub (h : DiffNarrower o o') (c : FilePair) (n : Nat) (u v : CompUnit)
    (p : MergeResult Function Function → Bool)
    (m : List (MergeResult Function Function)) : ODSub (fnListD o c n u v (m.filter p)) (fnListD o' c n u v m) := by
  unfold fnListD
  rw [← functionCmpBy_eq h.toNarrower]
  exact ODSub.sorted h (functionP_sub h.toNarrower _ u.dir n) (functionP_sub h.toNarrower _ v.dir n)
    (functionD_sub h _ _ u.dir v.dir n) (lawful_functions o) n _ _ _ _

theorem unitFnsD_sub (h : DiffNarrower o o') (c : FilePair) (n : Nat) (u v : CompUnit) (wrap : Str → D → D)
    (hw : ∀ l p q, DSub p q → DSub (wrap l p) (wrap l q)) :
    ODSub (unitFnsD o c n u v wrap) (unitFnsD o' c n u v wrap) := by
  refine ODSub.when h.categoryFunction fun _ => ?_
  unfold unitMergedFns
  intro q hq
  simp only [Bind.bind, Option.bind_eq_some_iff] at hq
  obtain ⟨m, h1, h2⟩ := hq
  have hm := mergedFunctions_filter (fun f : Function => byName o f.name f.ns)
    (fun x y e => byName_congr o ((sameQName (x.ns, x.name) (y.ns, y.name)).1 e)) h1
  rw [filterFunctions_eq h, filterFunctions_eq h, hm]
  have := ODSub.bind (fnListD_sub h c n u v (onEither (fun f : Function => byName o f.name f.ns)
      (fun f : Function => byName o f.name f.ns)) m.1) (fun f f' hf =>
    ODSub.bind (fnListD_sub h c n u v (onEither (fun f : Function => byName o f.name f.ns)
      (fun f : Function => byName o f.name f.ns)) m.2) (fun i i' hi =>
    ODSub.some (DSub.seq (hw (k "functions") _ _ hf) (hw (k "inlined functions") _ _ hi))))
  refine this q ?_
  simp only [Option.bind_eq_some_iff]
  exact h2

theorem unitVariablesD_sub (h : DiffNarrower o o') (c : FilePair) (n : Nat) (u v : CompUnit) :
    ODSub (unitVariablesD o c n u v) (unitVariablesD o' c n u v) := by
  refine ODSub.when h.categoryVariable fun _ => ?_
  intro q hq
  simp only [Bind.bind, Option.bind_eq_some_iff] at hq ⊢
  obtain ⟨m, h1, h2⟩ := hq
  rw [← variableCmpBy_eq h.toNarrower] at h2
  obtain ⟨p, h3, h4⟩ := ODSub.sorted h (fun x => .some (variableP_sub h.toNarrower c.a u.dir x))
    (fun x => .some (variableP_sub h.toNarrower c.b v.dir x))
    (fun x y => .some (variableD_sub h c u.dir v.dir x y)) (lawful_variables o) n _ _ _ m q h2
  refine ⟨p, ⟨_, ?_, h3⟩, h4⟩
  rw [filterVariables_eq h, filterVariables_eq h]
  exact mergedVariables_filter _ (fun x y e => byName_congr o ((sameQName (x.ns, x.name) (y.ns, y.name)).1 e)) h1

theorem unitBodyD_sub (h : DiffNarrower o o') (c : FilePair) (n : Nat) (u v : CompUnit) :
    ODSub (unitBodyD o c n u v) (unitBodyD o' c n u v) := by
  unfold unitBodyD
  rw [h.html]
  by_cases hh : o'.html = true
  · simp only [hh, if_true]
    refine ODSub.bind (ODSub.when h.categoryUnit fun _ => unitPartD_sub h.toNarrower _ _ u v) fun a a' ha => ?_
    refine ODSub.bind (unitTypesD_sub h _ n u v) fun b b' hb => ?_
    refine ODSub.bind (unitFnsD_sub h c n u v _ fun l p q hp => hp.field _ _) fun d d' hd => ?_
    refine ODSub.bind (unitVariablesD_sub h c n u v) fun e e' he => .some ?_
    dpieces
    · exact ha
    · exact hb.field _ _
    · exact hd
    · exact he.field _ _
  · simp only [hh, Bool.false_eq_true, if_false]
    refine ODSub.bind (ODSub.when h.categoryUnit fun _ => (unitPartD_sub h.toNarrower _ _ u v).mapD fun p q hp =>
      DSub.indent _ (.refl _) hp) fun a a' ha => ?_
    refine ODSub.bind (unitTypesD_sub h _ n u v) fun b b' hb => ?_
    refine ODSub.bind (unitFnsD_sub h c n u v _ fun l p q hp => hp) fun d d' hd => ?_
    refine ODSub.bind (unitVariablesD_sub h c n u v) fun e e' he => .some ?_
    dpieces
    · exact ha
    · exact hb
    · exact hd
    · exact he

theorem unitD_sub (h : DiffNarrower o o') (c : FilePair) (n : Nat) (u v : CompUnit) :
    ODSub (unitD o c n u v) (unitD o' c n u v) := by
  refine ODSub.bind (unitBodyD_sub h c n u v) fun p q hp => .some ?_
  rw [h.html]
  split
  · exact DSub.id _ _ (.refl _) hp
  · exact hp

theorem filePartD_sub (h : Narrower o o') (c : FilePair) : ODSub (filePartD o c) (filePartD o' c) := by
  unfold filePartD
  refine ODSub.same fun _ => ODSub.same fun _ => ODSub.same fun _ => ODSub.same fun _ => ODSub.same fun _ =>
    ODSub.same fun _ => .some ((DSub.indent _ (.refl _) ?_).seq (.refl _))
  dpieces
  exact DSub.ite h.fileAddress (.refl _)

theorem mergedUnits_eq (h : Narrower o o') (la lb : List CompUnit) : mergedUnits o la lb = mergedUnits o' la lb := by
  unfold mergedUnits unitCmpId unitKey Options.mapPrefix
  rw [h.prefixMap]

theorem filterUnits_eq (h : Narrower o o') (us : List CompUnit) :
    Filter.filterUnits us o = (Filter.filterUnits us o').filter (Filter.okUnit o) := by
  refine filter_of_mono _ fun u _ => ?_
  cases hc : Filter.okUnit o u with
  | false => rfl
  | true => rw [okUnit_mono h u hc]; rfl

theorem cutAt_of_not_mem {s : Str} (h : 64 ∉ s) : cutAt s = s := by
  unfold cutAt
  induction s with
  | nil => rfl
  | cons c s ih =>
    simp only [List.mem_cons, not_or] at h
    rw [List.takeWhile_cons, if_pos (by simpa using fun e => h.1 e.symm), ih h.2]

/-- If the names of units have no `@`, units that are compared with each other have the same name. -/
theorem okUnit_congr {u v : CompUnit} (hu : 64 ∉ u.name.getD []) (hv : 64 ∉ v.name.getD [])
    (h : unitCmpId o u v = .eq) : Filter.okUnit o u = Filter.okUnit o v := by
  have key : ∀ w : CompUnit, 64 ∉ w.name.getD [] →
      (o.mapPrefix (w.name.getD [])).1 ++ (o.mapPrefix (w.name.getD [])).2 = unitKey o w := by
    intro w hw
    unfold unitKey
    have : 64 ∉ (o.mapPrefix (w.name.getD [])).2 := by
      have hsub : ∀ l : List (Str × Str), ∀ x ∈ (prefixLoop (w.name.getD []) l).2, x ∈ w.name.getD [] := by
        intro l
        induction l with
        | nil => intro x hx; exact hx
        | cons e l ih =>
          intro x hx
          unfold prefixLoop at hx
          split at hx
          · exact List.mem_of_mem_drop hx
          · exact ih x hx
      intro hm
      exact hw (hsub _ _ hm)
    show _ = (o.mapPrefix (w.name.getD [])).1 ++ cutAt (o.mapPrefix (w.name.getD [])).2
    rw [cutAt_of_not_mem this]
  have e : unitKey o u = unitKey o v := by
    have := h
    unfold unitCmpId at this
    exact Std.LawfulEqOrd.compare_eq_iff_eq.1 this
  unfold Filter.okUnit
  cases o.filterUnit with
  | none => rfl
  | some f =>
    show (compare ((o.mapPrefix (u.name.getD [])).1 ++ (o.mapPrefix (u.name.getD [])).2) f == .eq) =
      (compare ((o.mapPrefix (v.name.getD [])).1 ++ (o.mapPrefix (v.name.getD [])).2) f == .eq)
    rw [key u hu, key v hv, e]

theorem fileD_sub (h : DiffNarrower o o') (c : FilePair) (n : Nat)
    (hn : o.filterUnit = o'.filterUnit ∨ ∀ u ∈ c.a.file.units ++ c.b.file.units, 64 ∉ u.name.getD []) :
    ODSub (fileD o c n) (fileD o' c n) := by
  refine ODSub.bind (ODSub.when h.categoryFile fun _ => filePartD_sub h.toNarrower c) fun p q hp => ?_
  have hu : ODSub (unitsD o c n) (unitsD o' c n) := by
    intro q hq
    simp only [unitsD, Bind.bind, Option.bind_eq_some_iff] at hq ⊢
    obtain ⟨m, h1, h2⟩ := hq
    rw [← unitCmpBy_eq h.toNarrower] at h2
    obtain ⟨p, h3, h4⟩ := ODSub.sorted h (unitP_sub h.toNarrower c.a n) (unitP_sub h.toNarrower c.b n)
      (unitD_sub h c n) (lawful_units o) n _ _ _ m q h2
    refine ⟨p, ⟨_, ?_, h3⟩, h4⟩
    rw [filterUnits_eq h.toNarrower, filterUnits_eq h.toNarrower, mergedUnits_eq h.toNarrower]
    refine mergedUnits_filter _ ?_ h1
    intro x hx y hy e
    rcases hn with hn | hn
    · have same : Filter.okUnit o = Filter.okUnit o' := by
        funext u
        unfold Filter.okUnit Options.mapPrefix
        rw [hn, h.prefixMap]
      rw [same]
      rw [(List.mem_filter.1 hx).2, (List.mem_filter.1 hy).2]
    · refine okUnit_congr (hn x (List.mem_append_left _ (List.mem_filter.1 hx).1))
        (hn y (List.mem_append_right _ (List.mem_filter.1 hy).1)) ?_
      unfold unitCmpId unitKey Options.mapPrefix at e ⊢
      rw [h.prefixMap]; exact e
  exact ODSub.bind hu fun p' q' hp' => .some (hp.seq hp')

end Verif.Select
