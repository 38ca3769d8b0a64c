import Verif.Show.FnSpec
import Verif.Show.TypeProps
import Verif.Frame.Props
/-!
# From the parts of a function's diff to the whole

`Closed` collects what a relation between a diff and two listings needs so that it holds for the
diff of two functions when it holds for single lines. It is used for two relations in
`Verif.Show.FnProps`.
-/
namespace Verif.Show
open Verif.Print Verif.Item Verif.Namespace Verif.Types Verif.Path Verif.Opts Verif.Merge Verif.Range
  Verif.Frame

/-- The relation is preserved by the operations diffs are made of. -/
structure Closed (http : Bool) (R : D → P → P → Prop) : Prop where
  skip : R .skip .skip .skip
  lineBreak : R .lineBreak .lineBreak .lineBreak
  line : ∀ l a b, R (.line l a b) (.line l a) (.line l b)
  seq : ∀ {e e' p p' q q'}, R e p q → R e' p' q' → R (.seq e e') (.seq p p') (.seq q q')
  indent : ∀ c {e e' p p' q q'}, R e p q → R e' p' q' → R (.indent c e e') (.indent c p p') (.indent c q q')
  field : ∀ c l {e p q}, R e p q → R (.field c l e) (.field c l p) (.field c l q)
  id : ∀ n m k {e e' p p' q q'}, R e p q → R e' p' q' → R (.id n e e') (.id m p p') (.id k q q')
  inline : ∀ {e p q}, R e p q → R (.inline e) (.inline p) (.inline q)
  del : ∀ p, R (.prefixDelete p) p .skip
  add : ∀ p, R (.prefixAdd p) .skip p
  congr : ∀ {e p q p' q'}, R e p q → (∀ i x d, p.ls http i x d = p'.ls http i x d) →
    (∀ i x d, q.ls http i x d = q'.ls http i x d) → R e p' q'

/-- What the relation needs to know about the parts that are hidden (`m`) or compared in another
form than listed: frame locations (allowed: `LA`, `LB`), order of local variables (`VA`, `VB`),
addresses (`RA`). -/
structure FnClosed (http : Bool) (o : Options) (m : Hidden) (R : D → P → P → Prop)
    (LA LB : List FrameLocation → Prop) (VA VB : List LocalVariable → Prop)
    (RA : List Range → List Range → Prop) : Prop extends Closed http R where
  variableAddress : ∀ {e p q}, R e p q → R (.ignoreDiff o.ignoreVariableAddress e)
    (leftOut m.variableAddress p) (leftOut m.variableAddress q)
  linkageName : ∀ {e p q}, R e p q → R (.ignoreDiff o.ignoreFunctionLinkageName e)
    (leftOut m.linkageName p) (leftOut m.linkageName q)
  symbolName : ∀ {e p q}, R e p q → R (.ignoreDiff o.ignoreFunctionSymbolName e)
    (leftOut m.symbolName p) (leftOut m.symbolName q)
  size : ∀ {e p q}, R e p q → R (.ignoreDiff o.ignoreFunctionSize e) (leftOut m.size p) (leftOut m.size q)
  inlined : ∀ {e p q}, R e p q → R (.ignoreDiff o.ignoreFunctionInline e)
    (leftOut m.inline p) (leftOut m.inline q)
  address : ∀ {ra rb}, RA ra rb → R (.ignoreDiff o.ignoreFunctionAddress (rangesD ra rb))
    (leftOut m.address (rangesP ra)) (leftOut m.address (rangesP rb))
  locs : ∀ {la lb}, LA la → LB lb → R (diffLocs la lb) (printLocs la) (printLocs lb)
  locals : ∀ {e va vb} {fa fb : LocalVariable → P}, VA va → VB vb →
    R e (.seqs ((sortLocals va).map fa)) (.seqs ((sortLocals vb).map fb)) →
    R e (.seqs ((if m.byName then sortLocals va else va).map fa))
      (.seqs ((if m.byName then sortLocals vb else vb).map fb))
  delLocal : ∀ s v, R (.prefixDelete (localP o s v)) (localHiding m o s v) .skip
  addLocal : ∀ s v, R (.prefixAdd (localP o s v)) .skip (localHiding m o s v)
  delInlined : ∀ s dir n f p p', inlinedP o s dir n f = some p → inlinedHiding m o s dir n f = some p' →
    R (.prefixDelete p) p' .skip
  addInlined : ∀ s dir n f p p', inlinedP o s dir n f = some p → inlinedHiding m o s dir n f = some p' →
    R (.prefixAdd p) .skip p'
  insns : o.printFunctionInstructions = true → ∀ (ra rb : List Range) (p q : P),
    (ra = [] → p = .skip) → (rb = [] → q = .skip) →
    R (.field true (k "instructions") (.ignoreDiff true (.block p q)))
      (leftOut m.instructions (if ra ≠ [] then .fieldDetail (k "code") (k "instructions") p else .skip))
      (leftOut m.instructions (if rb ≠ [] then .fieldDetail (k "code") (k "instructions") q else .skip))

/-- A diff, if there is one, is related to the two listings, which then exist. -/
def RelTo (R : D → P → P → Prop) (d : Option D) (pa pb : Option P) : Prop :=
  ∀ e, d = some e → ∃ p q, pa = some p ∧ pb = some q ∧ R e p q

section
variable {http : Bool} {R : D → P → P → Prop} (hR : Closed http R)
include hR

theorem Closed.items {α : Type} {print print' shown shown' : α → Option P} {diff : α → α → Option D}
    (items : List (MergeResult α α)) {es : List D}
    (he : items.mapM (itemD print print' diff) = some es)
    (hl : ∀ a, .left a ∈ items → ∀ p, print a = some p → ∃ p', shown a = some p' ∧ R (.prefixDelete p) p' .skip)
    (hr : ∀ a, .right a ∈ items → ∀ p, print' a = some p → ∃ p', shown' a = some p' ∧ R (.prefixAdd p) .skip p')
    (hd : ∀ a b, .both a b ∈ items → RelTo R (diff a b) (shown a) (shown' b)) :
    ∃ p q, listP shown (oldItems items) = some p ∧ listP shown' (newItems items) = some q ∧
      R (.seqs es) p q := by
  induction items generalizing es with
  | nil => simp at he; subst he; exact ⟨.skip, .skip, rfl, rfl, hR.skip⟩
  | cons it items ih =>
    simp only [List.mapM_cons, Option.bind_eq_bind, Option.bind_eq_some_iff, Option.pure_def,
      Option.some.injEq] at he
    obtain ⟨e, he, es', hes, rfl⟩ := he
    obtain ⟨p, q, hp, hq, hs⟩ := ih hes (fun a h => hl a (List.mem_cons_of_mem _ h))
      (fun a h => hr a (List.mem_cons_of_mem _ h)) (fun a b h => hd a b (List.mem_cons_of_mem _ h))
    cases it with
    | both a b =>
      obtain ⟨pa, pb, ha, hb, hs'⟩ := hd a b (List.mem_cons_self ..) e he
      exact ⟨.seq pa p, .seq pb q, listP_cons ha hp, listP_cons hb hq, hR.seq hs' hs⟩
    | left a =>
      simp only [itemD, Option.map_eq_some_iff] at he
      obtain ⟨pa, ha, rfl⟩ := he
      obtain ⟨p', hp', hs'⟩ := hl a (List.mem_cons_self ..) pa ha
      refine ⟨.seq p' p, q, listP_cons hp' hp, hq, ?_⟩
      exact hR.congr (hR.seq hs' hs) (fun _ _ _ => rfl) (fun _ _ _ => by simp [P.ls])
    | right b =>
      simp only [itemD, Option.map_eq_some_iff] at he
      obtain ⟨pb, hb, rfl⟩ := he
      obtain ⟨p', hp', hs'⟩ := hr b (List.mem_cons_self ..) pb hb
      refine ⟨p, .seq p' q, hp, listP_cons hp' hq, ?_⟩
      exact hR.congr (hR.seq hs' hs) (fun _ _ _ => by simp [P.ls]) (fun _ _ _ => rfl)

theorem Closed.list {α : Type} {Q : Heap} {print print' shown shown' : α → Option P}
    {diff : α → α → Option D} {c1 c2 : α → Nat} {cost : α → α → Nat} {la lb : List α}
    (hl : ∀ a ∈ la, ∀ p, print a = some p → ∃ p', shown a = some p' ∧ R (.prefixDelete p) p' .skip)
    (hr : ∀ a ∈ lb, ∀ p, print' a = some p → ∃ p', shown' a = some p' ∧ R (.prefixAdd p) .skip p')
    (hd : ∀ a ∈ la, ∀ b ∈ lb, RelTo R (diff a b) (shown a) (shown' b)) :
    RelTo R (listD Q print print' diff c1 c2 cost la lb) (listP shown la) (listP shown' lb) := by
  intro e he
  obtain ⟨items, es, ha, -, hes, rfl⟩ := listD_inv he
  have hm := mem_oldItems (items := items)
  rw [ha.old, ha.new] at hm
  have := hR.items items hes (fun a h => hl a (hm.1 a h)) (fun a h => hr a (hm.2.1 a h))
    (fun a b h => hd a (hm.2.2 a b h).1 b (hm.2.2 a b h).2)
  rwa [ha.old, ha.new] at this

/-- When items are shown as they are printed. -/
theorem Closed.list' {α : Type} {Q : Heap} {print print' : α → Option P}
    {diff : α → α → Option D} {c1 c2 : α → Nat} {cost : α → α → Nat} {la lb : List α}
    (hd : ∀ a ∈ la, ∀ b ∈ lb, RelTo R (diff a b) (print a) (print' b)) :
    RelTo R (listD Q print print' diff c1 c2 cost la lb) (listP print la) (listP print' lb) :=
  hR.list (fun _ _ p hp => ⟨p, hp, hR.del p⟩) (fun _ _ p hp => ⟨p, hp, hR.add p⟩) hd

theorem Closed.source (o : Options) (da : Option Str) (a : Source) (db : Option Str) (b : Source) :
    R (sourceD o da a db b) (sourceP o da a) (sourceP o db b) := by
  unfold sourceD sourceP
  split
  · exact hR.line ..
  · exact hR.skip

theorem Closed.regs (c : FnPair) (ra rb : List Nat) (e : D) (he : regsD c ra rb = some e) :
    R e (regsP c.a ra) (regsP c.b rb) := by
  simp only [regsD, Option.map_eq_some_iff] at he
  obtain ⟨f, hf, rfl⟩ := he
  obtain ⟨p, q, hp, hq, hs⟩ := hR.list' (fun a _ b _ e he => by
    cases he
    exact ⟨_, _, rfl, rfl, hR.line ..⟩) f hf
  rw [listP_map] at hp hq
  cases hp
  cases hq
  exact hR.field _ _ hs

theorem Closed.pieces (c : FnPair) (pa pb : List Piece) :
    RelTo R (piecesD c pa pb) (piecesP c.a pa) (piecesP c.b pb) := by
  refine hR.list' fun a _ b _ e he => ?_
  simp only [locationD, Option.bind_eq_bind, Option.bind_eq_some_iff, Option.some.injEq] at he
  obtain ⟨x, hx, y, hy, rfl⟩ := he
  exact ⟨_, _, by rw [locationP, hx]; rfl, by rw [locationP, hy]; rfl, hR.line ..⟩

theorem Closed.when (b : Bool) {d : Option D} {pa pb : Option P} (h : RelTo R d pa pb) :
    RelTo R (whenD b d) (whenP b pa) (whenP b pb) := by
  cases b
  · intro e he
    cases he
    exact ⟨_, _, rfl, rfl, hR.skip⟩
  · exact h

theorem Closed.mapField (c : Bool) (l : Str) {d : Option D} {pa pb : Option P} (h : RelTo R d pa pb) :
    RelTo R (d.map (.field c l)) (pa.map (.field c l)) (pb.map (.field c l)) := by
  intro e he
  simp only [Option.map_eq_some_iff] at he
  obtain ⟨f, hf, rfl⟩ := he
  obtain ⟨p, q, hp, hq, h'⟩ := h f hf
  exact ⟨_, _, by rw [hp]; rfl, by rw [hq]; rfl, hR.field _ _ h'⟩

theorem Closed.callParam (o : Options) (c : FnPair) (a b : CallParameter) :
    RelTo R (callParamD o c a b) (callParamP o c.a a) (callParamP o c.b b) := by
  intro e he
  simp only [callParamD, Option.bind_eq_bind, Option.bind_eq_some_iff, Option.some.injEq] at he
  obtain ⟨body, hbody, rfl⟩ := he
  obtain ⟨p, q, hp, hq, h⟩ := hR.when o.printVariableLocations (d := (do
    let l ← piecesD c a.location b.location
    let v ← piecesD c a.value b.value
    let dl ← piecesD c a.dataLocation b.dataLocation
    let dv ← piecesD c a.dataValue b.dataValue
    some (D.seqs [.field false (k "location") l, .field false (k "value") v,
      .field false (k "data_location") dl, .field false (k "data_value_location") dv])))
    (pa := (do
    let l ← piecesP c.a a.location
    let v ← piecesP c.a a.value
    let dl ← piecesP c.a a.dataLocation
    let dv ← piecesP c.a a.dataValue
    some (P.seqs [.field false (k "location") l, .field false (k "value") v,
      .field false (k "data_location") dl, .field false (k "data_value_location") dv])))
    (pb := (do
    let l ← piecesP c.b b.location
    let v ← piecesP c.b b.value
    let dl ← piecesP c.b b.dataLocation
    let dv ← piecesP c.b b.dataValue
    some (P.seqs [.field false (k "location") l, .field false (k "value") v,
      .field false (k "data_location") dl, .field false (k "data_value_location") dv])))
    (fun e he => by
      simp only [Option.bind_eq_bind, Option.bind_eq_some_iff, Option.some.injEq] at he
      obtain ⟨l, hl, v, hv', dl, hdl, dv, hdv, rfl⟩ := he
      obtain ⟨p1, q1, hp1, hq1, h1⟩ := hR.pieces c _ _ l hl
      obtain ⟨p2, q2, hp2, hq2, h2⟩ := hR.pieces c _ _ v hv'
      obtain ⟨p3, q3, hp3, hq3, h3⟩ := hR.pieces c _ _ dl hdl
      obtain ⟨p4, q4, hp4, hq4, h4⟩ := hR.pieces c _ _ dv hdv
      simp only [hp1, hp2, hp3, hp4, hq1, hq2, hq3, hq4, Option.bind_eq_bind, Option.bind_some]
      exact ⟨_, _, rfl, rfl, hR.seq (hR.field _ _ h1) (hR.seq (hR.field _ _ h2)
        (hR.seq (hR.field _ _ h3) (hR.seq (hR.field _ _ h4) hR.skip)))⟩) body hbody
  exact ⟨_, _, Option.bind_eq_some_iff.2 ⟨p, hp, rfl⟩, Option.bind_eq_some_iff.2 ⟨q, hq, rfl⟩, hR.indent _ (hR.line ..) h⟩

theorem Closed.callParams (o : Options) (c : FnPair) (la lb : List CallParameter) :
    RelTo R (callParamsD o c la lb) (listP (callParamP o c.a) la) (listP (callParamP o c.b) lb) := by
  induction la generalizing lb with
  | nil =>
    induction lb with
    | nil =>
      intro e he
      simp only [callParamsD, callParamsAddD, Option.some.injEq] at he
      subst he
      exact ⟨_, _, rfl, rfl, hR.skip⟩
    | cons b lb ih =>
      intro e he
      simp only [callParamsD, callParamsAddD, Option.bind_eq_bind, Option.bind_eq_some_iff, Option.some.injEq] at he
      obtain ⟨p, hp, r, hr, rfl⟩ := he
      obtain ⟨p', q', hp', hq', h⟩ := ih r hr
      exact ⟨p', .seq p q', hp', listP_cons hp hq', hR.congr (hR.seq (hR.add p) h)
        (fun _ _ _ => by simp [P.ls]) (fun _ _ _ => rfl)⟩
  | cons a la ih =>
    cases lb with
    | nil =>
      intro e he
      simp only [callParamsD, callParamsAddD, Option.bind_eq_bind, Option.bind_eq_some_iff, Option.some.injEq] at he
      obtain ⟨p, hp, r, hr, rfl⟩ := he
      obtain ⟨p', q', hp', hq', h⟩ := ih [] r hr
      exact ⟨.seq p p', q', listP_cons hp hp', hq', hR.congr (hR.seq (hR.del p) h)
        (fun _ _ _ => rfl) (fun _ _ _ => by simp [P.ls])⟩
    | cons b lb =>
      intro e he
      simp only [callParamsD, callParamsAddD, Option.bind_eq_bind, Option.bind_eq_some_iff, Option.some.injEq] at he
      obtain ⟨f, hf, r, hr, rfl⟩ := he
      obtain ⟨p, q, hp, hq, h1⟩ := hR.callParam o c a b f hf
      obtain ⟨p', q', hp', hq', h⟩ := ih lb r hr
      exact ⟨_, _, listP_cons hp hp', listP_cons hq hq', hR.seq h1 h⟩

theorem Closed.callSite (o : Options) (c : FnPair) (da db : Option Str) (a b : FunctionCall) :
    RelTo R (callSiteD o c da db a b) (callSiteP o c.a da a) (callSiteP o c.b db b) := by
  intro e he
  simp only [callSiteD, Option.bind_eq_bind, Option.bind_eq_some_iff, Option.some.injEq] at he
  obtain ⟨t, ht, ps, hps, rfl⟩ := he
  have h2 : ∃ p q, listP (callParamP o c.a) a.parameters = some p ∧ listP (callParamP o c.b) b.parameters = some q ∧
      R ps (.field false (k "parameters") p) (.field false (k "parameters") q) := by
    unfold whenD at hps
    split at hps
    · simp only [Option.map_eq_some_iff] at hps
      obtain ⟨f, hf, rfl⟩ := hps
      obtain ⟨p, q, hp, hq, h⟩ := hR.callParams o c _ _ f hf
      exact ⟨p, q, hp, hq, hR.field _ _ h⟩
    · rename_i hn
      cases hps
      simp only [Bool.not_eq_true', Bool.not_eq_false, Bool.and_eq_true, List.isEmpty_iff] at hn
      rw [hn.1, hn.2]
      exact ⟨_, _, rfl, rfl, hR.congr hR.skip (fun _ _ _ => by simp [P.ls, P.seqs]) (fun _ _ _ => by simp [P.ls, P.seqs])⟩
  obtain ⟨p1, q1, hp1, hq1, h1⟩ := hR.when _ (hR.mapField _ _ (hR.pieces c _ _)) t ht
  obtain ⟨p2, q2, hp2, hq2, h2⟩ := h2
  refine ⟨_, _, by simp only [callSiteP, hp1, hp2, Option.bind_eq_bind, Option.bind_some]; rfl,
    by simp only [callSiteP, hq1, hq2, Option.bind_eq_bind, Option.bind_some]; rfl, ?_⟩
  exact hR.indent _ (hR.line ..) (hR.seq (hR.line ..) (hR.seq h1 (hR.seq (hR.source ..) (hR.seq h2 hR.skip))))

theorem Closed.callSites (o : Options) (c : FnPair) (da db : Option Str) (la lb : List FunctionCall) :
    RelTo R (callSitesD o c da db la lb) (callSitesP o c.a da la) (callSitesP o c.b db lb) :=
  hR.list' fun a _ b _ => hR.callSite o c da db a b

theorem Closed.calls (o : Options) (c : FnPair) (la lb : List (Nat × Nat)) (e : D)
    (he : callsD o c la lb = some e) :
    R e (.seqs (la.map fun x => .line [] (callVal o c.a x))) (.seqs (lb.map fun x => .line [] (callVal o c.b x))) := by
  obtain ⟨p, q, hp, hq, hs⟩ := hR.list' (fun a _ b _ e he => by
    cases he
    exact ⟨_, _, rfl, rfl, hR.line ..⟩) e he
  rw [listP_map] at hp hq
  cases hp
  cases hq
  exact hs

theorem Closed.frame (c : FnPair) (x y : FunctionDetails) :
    RelTo R (frameD c x y) (listing c.a.tsz c.a.tref x) (listing c.b.tsz c.b.tref y) := by
  intro e he
  simp only [frameD, Option.bind_eq_bind, Option.bind_eq_some_iff, ordListD, Option.map_eq_some_iff] at he
  obtain ⟨va, hva, vb, hvb, es, hes, rfl⟩ := he
  have hc := C18_complete (fun x y => Entry.cmp x.2 y.2) va vb (va.length + vb.length) (Nat.le_refl _)
  obtain ⟨p, q, hp, hq, h⟩ := hR.items (shown := printEntry c.a.tref) (shown' := printEntry c.b.tref) _ hes
    (fun a _ p hp => ⟨p, hp, hR.del p⟩) (fun a _ p hp => ⟨p, hp, hR.add p⟩) (fun a b _ e he => by
      simp only [frameEntryD, Option.bind_eq_bind, Option.bind_eq_some_iff, Option.some.injEq] at he
      obtain ⟨u, hu, v, hv, rfl⟩ := he
      exact ⟨_, _, by rw [printEntry, hu]; rfl, by rw [printEntry, hv]; rfl, hR.seq (hR.line ..) (hR.line ..)⟩)
  rw [hc.1] at hp
  rw [hc.2] at hq
  obtain ⟨ps, hps, rfl⟩ := listP_inv hp
  obtain ⟨qs, hqs, rfl⟩ := listP_inv hq
  exact ⟨_, _, by simp [listing, hva, hps], by simp [listing, hvb, hqs], h⟩

end

/-! ### Parts with hidden sections -/

/-- The parameters and local variables allowed for one inlined function. -/
structure OkInlined (o : Options) (L : List FrameLocation → Prop) (V : List LocalVariable → Prop)
    (i : InlinedFunction) : Prop where
  params : o.printVariableLocations = true → ∀ p ∈ i.parameters, L ((frameLocations p.locations).map (·.2))
  vars : o.printVariableLocations = true → ∀ v ∈ i.variables, L (localFrameLocations v.locations)
  order : V i.variables

section
variable {http : Bool} {o : Options} {m : Hidden} {R : D → P → P → Prop}
  {LA LB : List FrameLocation → Prop} {VA VB : List LocalVariable → Prop}
  {RA : List Range → List Range → Prop} (hR : FnClosed http o m R LA LB VA VB RA)
include hR

theorem FnClosed.params (c : FnPair) (la lb : List Parameter)
    (ha : o.printVariableLocations = true → ∀ p ∈ la, LA ((frameLocations p.locations).map (·.2)))
    (hb : o.printVariableLocations = true → ∀ p ∈ lb, LB ((frameLocations p.locations).map (·.2)))
    (e : D) (he : paramsD o c la lb = some e) : R e (paramsP o c.a la) (paramsP o c.b lb) := by
  obtain ⟨p, q, hp, hq, hs⟩ := hR.toClosed.list' (fun a hma b hmb e he => by
    simp only [paramD, Option.bind_eq_bind, Option.bind_eq_some_iff, Option.some.injEq] at he
    obtain ⟨body, hbody, rfl⟩ := he
    refine ⟨_, _, rfl, rfl, hR.indent _ (hR.line ..) ?_⟩
    unfold whenD at hbody
    split at hbody
    · rename_i hv
      simp only [Option.bind_eq_some_iff, Option.some.injEq] at hbody
      obtain ⟨rs, hrs, rfl⟩ := hbody
      rw [if_pos hv, if_pos hv]
      exact hR.seq (hR.toClosed.regs c _ _ rs hrs) (hR.locs (ha hv a hma) (hb hv b hmb))
    · rename_i hv
      cases hbody
      rw [if_neg hv, if_neg hv]
      exact hR.skip) e he
  rw [listP_map] at hp hq
  cases hp
  cases hq
  exact hs

theorem FnClosed.vars (c : FnPair) (va vb : List LocalVariable)
    (ha : o.printVariableLocations = true → ∀ v ∈ va, LA (localFrameLocations v.locations))
    (hb : o.printVariableLocations = true → ∀ v ∈ vb, LB (localFrameLocations v.locations))
    (hva : VA va) (hvb : VB vb) (e : D) (he : localsD o c va vb = some e) :
    R e (localsHiding m o c.a va) (localsHiding m o c.b vb) := by
  obtain ⟨p, q, hp, hq, hs⟩ := hR.toClosed.list (shown := fun v => some (localHiding m o c.a v))
    (shown' := fun v => some (localHiding m o c.b v))
    (fun v _ p hp => by cases hp; exact ⟨_, rfl, hR.delLocal ..⟩)
    (fun v _ p hp => by cases hp; exact ⟨_, rfl, hR.addLocal ..⟩)
    (fun a hma b hmb e he => by
      simp only [localD, Option.bind_eq_bind, Option.bind_eq_some_iff, Option.some.injEq] at he
      obtain ⟨body, hbody, rfl⟩ := he
      refine ⟨_, _, rfl, rfl, hR.indent _ (hR.line ..) ?_⟩
      unfold whenD at hbody
      split at hbody
      · rename_i hv
        simp only [Option.bind_eq_some_iff, Option.some.injEq] at hbody
        obtain ⟨rs, hrs, rfl⟩ := hbody
        rw [if_pos hv, if_pos hv]
        refine hR.seq (hR.variableAddress (hR.line ..)) (hR.seq (hR.toClosed.regs c _ _ rs hrs)
          (hR.seq (hR.locs (ha hv a ?_) (hb hv b ?_)) hR.skip))
        · exact (stableSort_perm _ _).mem_iff.1 hma
        · exact (stableSort_perm _ _).mem_iff.1 hmb
      · rename_i hv
        cases hbody
        rw [if_neg hv, if_neg hv]
        exact hR.skip) e he
  rw [listP_map] at hp hq
  cases hp
  cases hq
  exact hR.locals hva hvb hs

omit hR in
theorem mapM_exists {α β : Type} {f g : α → Option β} {l : List α} (h : ∀ a ∈ l, ∀ p, f a = some p → ∃ q, g a = some q)
    {r : List β} (hr : l.mapM f = some r) : ∃ r', l.mapM g = some r' := by
  induction l generalizing r with
  | nil => exact ⟨[], rfl⟩
  | cons a l ih =>
    simp only [List.mapM_cons, Option.bind_eq_bind, Option.bind_eq_some_iff, Option.pure_def,
      Option.some.injEq] at hr
    obtain ⟨b, hb, r1, hr1, rfl⟩ := hr
    obtain ⟨q, hq⟩ := h a (List.mem_cons_self ..) b hb
    obtain ⟨r', hr'⟩ := ih (fun a h' => h a (List.mem_cons_of_mem _ h')) hr1
    exact ⟨q :: r', by simp [List.mapM_cons, hq, hr']⟩

omit hR in
theorem inlinedHiding_exists (o : Options) (m : Hidden) (s : FnSide) (dir : Option Str) (n : Nat) :
    ∀ (f : InlinedFunction) (p : P), inlinedP o s dir n f = some p → ∃ p', inlinedHiding m o s dir n f = some p' := by
  induction n with
  | zero => intro f p h; cases h
  | succ n ih =>
    intro f p h
    simp only [inlinedP, Option.bind_eq_bind, Option.bind_eq_some_iff, Option.some.injEq] at h
    obtain ⟨cs, hcs, inl, hinl, rfl⟩ := h
    obtain ⟨ps, hps, rfl⟩ := listP_inv hinl
    obtain ⟨ps', hps'⟩ := mapM_exists (g := inlinedHiding m o s dir n) (fun a _ p hp => ih a p hp) hps
    have : listP (inlinedHiding m o s dir n) f.inlined = some (.seqs ps') := by simp [listP, hps']
    exact ⟨_, by simp only [inlinedHiding, hcs, this, Option.bind_eq_bind, Option.bind_some]; rfl⟩

theorem FnClosed.callsPart (c : FnPair) (da db : Option Str) (la lb : List FunctionCall) :
    RelTo R (whenD o.printFunctionCalls ((callSitesD o c da db la lb).map (.field true (k "call sites"))))
      (whenP o.printFunctionCalls ((callSitesP o c.a da la).map (.field true (k "call sites"))))
      (whenP o.printFunctionCalls ((callSitesP o c.b db lb).map (.field true (k "call sites")))) :=
  hR.toClosed.when _ (hR.toClosed.mapField _ _ (hR.toClosed.callSites o c da db la lb))

theorem FnClosed.inlinedList (c : FnPair) (da db : Option Str) (n : Nat) (la lb : List InlinedFunction)
    (ha : ∀ i, Within la i → OkInlined o LA VA i) (hb : ∀ i, Within lb i → OkInlined o LB VB i) :
    RelTo R (listD c.heap (inlinedP o c.a da n) (inlinedP o c.b db n) (inlinedD o c da db n)
        inlinedStep inlinedStep (inlinedCost c da db) la lb)
      (listP (inlinedHiding m o c.a da n) la) (listP (inlinedHiding m o c.b db n) lb) := by
  induction n generalizing la lb with
  | zero =>
    refine hR.toClosed.list (fun _ _ p hp => by cases hp) (fun _ _ p hp => by cases hp) fun _ _ _ _ e he => by cases he
  | succ n ih =>
    refine hR.toClosed.list ?_ ?_ ?_
    · intro f _ p hp
      obtain ⟨p', hp'⟩ := inlinedHiding_exists o m c.a da (n + 1) f p hp
      exact ⟨p', hp', hR.delInlined _ _ _ _ _ _ hp hp'⟩
    · intro f _ p hp
      obtain ⟨p', hp'⟩ := inlinedHiding_exists o m c.b db (n + 1) f p hp
      exact ⟨p', hp', hR.addInlined _ _ _ _ _ _ hp hp'⟩
    · intro f hf g hg e he
      simp only [inlinedD, Option.bind_eq_bind, Option.bind_eq_some_iff, Option.some.injEq] at he
      obtain ⟨ps, hps, vs, hvs, cs, hcs, inl, hinl, rfl⟩ := he
      have oka := ha f (.here hf)
      have okb := hb g (.here hg)
      obtain ⟨p1, q1, hp1, hq1, h1⟩ := hR.callsPart c da db _ _ cs hcs
      obtain ⟨p2, q2, hp2, hq2, h2⟩ := ih f.inlined g.inlined (fun i h => ha i (.deeper hf h))
        (fun i h => hb i (.deeper hg h)) inl hinl
      refine ⟨_, _, by simp only [inlinedHiding, hp1, hp2, Option.bind_eq_bind, Option.bind_some]; rfl,
        by simp only [inlinedHiding, hq1, hq2, Option.bind_eq_bind, Option.bind_some]; rfl, ?_⟩
      refine hR.indent _ (hR.line ..) (hR.seq ?_ (hR.seq ?_ (hR.seq ?_ (hR.seq h1 (hR.seq (hR.inline h2) hR.skip)))))
      · split
        · exact hR.line ..
        · exact hR.skip
      · unfold whenD at hps
        split at hps
        · rename_i hv
          simp only [Option.map_eq_some_iff] at hps
          obtain ⟨e, he, rfl⟩ := hps
          rw [if_pos hv, if_pos hv]
          exact hR.field _ _ (hR.params c _ _ oka.params okb.params e he)
        · rename_i hv
          cases hps
          rw [if_neg hv, if_neg hv]
          exact hR.skip
      · unfold whenD at hvs
        split at hvs
        · rename_i hv
          simp only [Option.map_eq_some_iff] at hvs
          obtain ⟨e, he, rfl⟩ := hvs
          rw [if_pos hv, if_pos hv]
          exact hR.field _ _ (hR.vars c _ _ oka.vars okb.vars oka.order okb.order e he)
        · rename_i hv
          cases hvs
          rw [if_neg hv, if_neg hv]
          exact hR.skip

/-- The parameters, local variables and inlined functions allowed for a function. -/
structure OkFn (o : Options) (L : List FrameLocation → Prop) (V : List LocalVariable → Prop)
    (d : FunctionDetails) : Prop where
  params : o.printVariableLocations = true → ∀ p ∈ d.parameters, L ((frameLocations p.locations).map (·.2))
  vars : o.printVariableLocations = true → ∀ v ∈ d.variables, L (localFrameLocations v.locations)
  order : V d.variables
  inlined : ∀ i, Within d.inlined i → OkInlined o L V i

theorem FnClosed.body (c : FnPair) (da db : Option Str) (n : Nat) (f g : Function)
    (ha : OkFn o LA VA (c.a.details f)) (hb : OkFn o LB VB (c.b.details g)) (hr : RA f.ranges g.ranges) :
    RelTo R (fnBodyD o c da db n f g) (fnBodyHiding m o c.a da n f) (fnBodyHiding m o c.b db n g) := by
  intro e he
  simp only [fnBodyD, Option.bind_eq_bind, Option.bind_eq_some_iff, Option.some.injEq] at he
  obtain ⟨ps, hps, vs, hvs, fr, hfr, inl, hinl, st, hst, cs, hcs, is, his, rfl⟩ := he
  obtain ⟨p1, q1, hp1, hq1, h1⟩ := hR.callsPart c da db _ _ st hst
  obtain ⟨p2, q2, hp2, hq2, h2⟩ := hR.inlinedList c da db n _ _ ha.inlined hb.inlined inl hinl
  obtain ⟨p3, q3, hp3, hq3, h3⟩ := hR.toClosed.when _ (hR.toClosed.mapField _ _ (hR.toClosed.frame c _ _)) fr hfr
  have hcall : RelTo R (do
      let la ← fnCalls c.a f
      let lb ← fnCalls c.b g
      (callsD o c la lb).map (.field true (k "calls")))
      ((fnCalls c.a f).map fun l => P.field true (k "calls") (.seqs (l.map fun x => .line [] (callVal o c.a x))))
      ((fnCalls c.b g).map fun l => P.field true (k "calls") (.seqs (l.map fun x => .line [] (callVal o c.b x)))) := by
    intro e he
    simp only [Option.bind_eq_bind, Option.bind_eq_some_iff, Option.map_eq_some_iff] at he
    obtain ⟨la, hla, lb, hlb, e, he, rfl⟩ := he
    exact ⟨_, _, by rw [hla]; rfl, by rw [hlb]; rfl, hR.field _ _ (hR.toClosed.calls o c la lb e he)⟩
  obtain ⟨p4, q4, hp4, hq4, h4⟩ := hR.toClosed.when o.printFunctionCalls hcall cs hcs
  have h5 : ∃ p q, whenP (o.printFunctionInstructions && !f.ranges.isEmpty)
        ((instructionsP c.a f).map (.fieldDetail (k "code") (k "instructions"))) = some p ∧
      whenP (o.printFunctionInstructions && !g.ranges.isEmpty)
        ((instructionsP c.b g).map (.fieldDetail (k "code") (k "instructions"))) = some q ∧
      R is (leftOut m.instructions p) (leftOut m.instructions q) := by
    unfold whenD at his
    split at his
    · rename_i hv
      simp only [Option.bind_eq_some_iff, Option.some.injEq] at his
      obtain ⟨p, hp, q, hq, rfl⟩ := his
      have key := hR.insns hv f.ranges g.ranges p q
        (fun h => by simp [instructionsP, h] at hp; exact hp.symm)
        (fun h => by simp [instructionsP, h] at hq; exact hq.symm)
      refine ⟨_, _, ?_, ?_, key⟩
      · by_cases h : f.ranges = []
        · simp [h, whenP]
        · simp [h, hv, hp, whenP]
      · by_cases h : g.ranges = []
        · simp [h, whenP]
        · simp [h, hv, hq, whenP]
    · rename_i hv
      cases his
      refine ⟨.skip, .skip, by simp [hv, whenP], by simp [hv, whenP], ?_⟩
      refine hR.congr hR.skip ?_ ?_ <;> · intros; unfold leftOut; split <;> rfl
  obtain ⟨p5, q5, hp5, hq5, h5⟩ := h5
  refine ⟨_, _, by simp only [fnBodyHiding, hp1, hp2, hp3, hp4, hp5, Option.bind_eq_bind, Option.bind_some]; rfl,
    by simp only [fnBodyHiding, hq1, hq2, hq3, hq4, hq5, Option.bind_eq_bind, Option.bind_some]; rfl, ?_⟩
  refine hR.seq (hR.linkageName (hR.line ..)) <| hR.seq (hR.symbolName (hR.line ..)) <|
    hR.seq (hR.toClosed.source ..) <| hR.seq (hR.address hr) <| hR.seq (hR.size (hR.line ..)) <|
    hR.seq (hR.inlined (hR.line ..)) <| hR.seq (hR.line ..) <| hR.seq (hR.field _ _ (hR.line ..)) <|
    hR.seq (hR.field _ _ (hR.params c _ _ ha.params hb.params ps hps)) <| hR.seq ?_ <|
    hR.seq h3 <| hR.seq (hR.inline (hR.field _ _ h2)) <| hR.seq h1 <| hR.seq h4 <| hR.seq h5 hR.skip
  unfold whenD at hvs
  split at hvs
  · rename_i hv
    simp only [Option.map_eq_some_iff] at hvs
    obtain ⟨e, he, rfl⟩ := hvs
    rw [if_pos hv, if_pos hv]
    exact hR.field _ _ (hR.vars c _ _ ha.vars hb.vars ha.order hb.order e he)
  · rename_i hv
    cases hvs
    rw [if_neg hv, if_neg hv]
    exact hR.skip

theorem FnClosed.function (c : FnPair) (uid : Nat) (da db : Option Str) (n : Nat) (f g : Function)
    (ha : OkFn o LA VA (c.a.details f)) (hb : OkFn o LB VB (c.b.details g)) (hr : RA f.ranges g.ranges) :
    RelTo R (functionD o c uid da db n f g) (functionHiding m o c.a da n f) (functionHiding m o c.b db n g) := by
  intro e he
  simp only [functionD, Option.bind_eq_bind, Option.bind_eq_some_iff, Option.some.injEq] at he
  obtain ⟨b, hb', rfl⟩ := he
  obtain ⟨p, q, hp, hq, h⟩ := hR.body c da db n f g ha hb hr b hb'
  exact ⟨_, _, by simp only [functionHiding, hp, Option.bind_eq_bind, Option.bind_some]; rfl,
    by simp only [functionHiding, hq, Option.bind_eq_bind, Option.bind_some]; rfl,
    hR.seq (hR.id _ _ _ (hR.line ..) h) hR.lineBreak⟩

end

end Verif.Show
