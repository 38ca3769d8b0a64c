import Verif.Show.Align
import Verif.Show.FnExamples
/-!
# C86: which items a diff pairs

Parameters, local variables, members, variants, base classes, enumerators, registers, call sites,
calls, inlined functions and sections have no identity: the diff decides which item of the old list
and which of the new list are shown as one. It does so at the least cost.
-/
namespace Verif.Show
open Verif.Print Verif.Item Verif.Namespace Verif.Types Verif.Layout Verif.Path Verif.Opts Verif.Merge
  Verif.Namespace.Namespace Verif.Frame

/-! ### Functions -/

theorem shown_params {o : Options} {c : FnPair} {pa pb : List Parameter} {e : D} (h : paramsD o c pa pb = some e) :
    BestShown (paramPrices c) (fun p => some (paramP o c.a p)) (fun p => some (paramP o c.b p)) (paramD o c) pa pb e :=
  listD_best h rfl rfl (paramCost_eq c)

theorem shown_locals {o : Options} {c : FnPair} {va vb : List LocalVariable} {e : D} (h : localsD o c va vb = some e) :
    BestShown (localPrices c) (fun v => some (localP o c.a v)) (fun v => some (localP o c.b v)) (localD o c)
      (sortLocals va) (sortLocals vb) e :=
  listD_best h rfl rfl (localCost_eq c)

theorem shown_callSites {o : Options} {c : FnPair} {da db : Option Str} {la lb : List FunctionCall} {e : D}
    (h : callSitesD o c da db la lb = some e) :
    BestShown callSitePrices (callSiteP o c.a da) (callSiteP o c.b db) (callSiteD o c da db) la lb e :=
  listD_best h rfl rfl callSiteCost_eq

/-- **C86** (functions). The diff of two functions shows their parameters, local variables (in the
order of their names), inlined functions, call sites and calls, each in a way of least cost. -/
theorem C86_function (o : Options) (c : FnPair) (uid : Nat) (da db : Option Str) (n : Nat) (f g : Function) (e : D)
    (h : functionD o c uid da db n f g = some e) :
    (∃ sub, PartOf (.field false (k "parameters") sub) e ∧
      BestShown (paramPrices c) (fun p => some (paramP o c.a p)) (fun p => some (paramP o c.b p)) (paramD o c)
        (c.a.details f).parameters (c.b.details g).parameters sub) ∧
    (o.printFunctionVariables = true → ∃ sub, PartOf (.field true (k "variables") sub) e ∧
      BestShown (localPrices c) (fun v => some (localP o c.a v)) (fun v => some (localP o c.b v)) (localD o c)
        (sortLocals (c.a.details f).variables) (sortLocals (c.b.details g).variables) sub) ∧
    (∃ sub, PartOf (.inline (.field true (k "inlined functions") sub)) e ∧
      BestShown (inlinedPrices c da db) (inlinedP o c.a da n) (inlinedP o c.b db n) (inlinedD o c da db n)
        (c.a.details f).inlined (c.b.details g).inlined sub) ∧
    (o.printFunctionCalls = true → ∃ sub, PartOf (.field true (k "call sites") sub) e ∧
      BestShown callSitePrices (callSiteP o c.a da) (callSiteP o c.b db) (callSiteD o c da db)
        (c.a.details f).calls (c.b.details g).calls sub) ∧
    (o.printFunctionCalls = true → ∃ la lb sub, fnCalls c.a f = some la ∧ fnCalls c.b g = some lb ∧
      PartOf (.field true (k "calls") sub) e ∧
      BestShown (callPrices c) (fun x => some (.line [] (callVal o c.a x))) (fun x => some (.line [] (callVal o c.b x)))
        (fun x y => some (.line [] (callVal o c.a x) (callVal o c.b y))) la lb sub) := by
  simp only [functionD, Option.bind_eq_bind, Option.bind_eq_some_iff, Option.some.injEq] at h
  obtain ⟨body, hbody, rfl⟩ := h
  simp only [fnBodyD, Option.bind_eq_bind, Option.bind_eq_some_iff, Option.some.injEq] at hbody
  obtain ⟨params, hp, vars, hv, frame, hf, inl, hi, sites, hs, calls, hc, insns, hn, rfl⟩ := hbody
  refine ⟨⟨params, ?_, shown_params hp⟩, fun ho => ?_, ⟨inl, ?_, ?_⟩, fun ho => ?_, fun ho => ?_⟩
  · exact .first (.id (.rest (.rest (.rest (.rest (.rest (.rest (.rest (.rest (.first .here))))))))))
  · simp only [whenD, ho, if_true, Option.map_eq_some_iff] at hv
    obtain ⟨v, hv, rfl⟩ := hv
    exact ⟨v, .first (.id (.rest (.rest (.rest (.rest (.rest (.rest (.rest (.rest (.rest (.first .here))))))))))),
      shown_locals hv⟩
  · exact .first (.id (.rest (.rest (.rest (.rest (.rest (.rest (.rest (.rest (.rest (.rest (.rest (.first .here)))))))))))))
  · exact listD_best hi (inlinedStep_eq c da db) (inlinedStep_eq c da db) (inlinedCost_eq c da db)
  · simp only [whenD, ho, if_true, Option.map_eq_some_iff] at hs
    obtain ⟨v, hs, rfl⟩ := hs
    exact ⟨v, .first (.id (.rest (.rest (.rest (.rest (.rest (.rest (.rest (.rest (.rest (.rest (.rest (.rest
      (.first .here)))))))))))))), shown_callSites hs⟩
  · simp only [whenD, ho, if_true, Option.bind_eq_some_iff, Option.map_eq_some_iff] at hc
    obtain ⟨la, hla, lb, hlb, v, hc, rfl⟩ := hc
    exact ⟨la, lb, v, hla, hlb, .first (.id (.rest (.rest (.rest (.rest (.rest (.rest (.rest (.rest (.rest (.rest (.rest
      (.rest (.rest (.first .here))))))))))))))), listD_best hc rfl rfl (callCost_eq c)⟩

/-- **C86** (inlined functions). The same for the lists below an inlined function. -/
theorem C86_inlined (o : Options) (c : FnPair) (da db : Option Str) (n : Nat) (f g : InlinedFunction) (e : D)
    (h : inlinedD o c da db (n + 1) f g = some e) :
    (o.printInlinedFunctionParameters = true → ∃ sub, PartOf (.field false (k "parameters") sub) e ∧
      BestShown (paramPrices c) (fun p => some (paramP o c.a p)) (fun p => some (paramP o c.b p)) (paramD o c)
        f.parameters g.parameters sub) ∧
    (o.printFunctionVariables = true → ∃ sub, PartOf (.field true (k "variables") sub) e ∧
      BestShown (localPrices c) (fun v => some (localP o c.a v)) (fun v => some (localP o c.b v)) (localD o c)
        (sortLocals f.variables) (sortLocals g.variables) sub) ∧
    (o.printFunctionCalls = true → ∃ sub, PartOf (.field true (k "call sites") sub) e ∧
      BestShown callSitePrices (callSiteP o c.a da) (callSiteP o c.b db) (callSiteD o c da db) f.calls g.calls sub) ∧
    (∃ sub, PartOf (.inline sub) e ∧
      BestShown (inlinedPrices c da db) (inlinedP o c.a da n) (inlinedP o c.b db n) (inlinedD o c da db n)
        f.inlined g.inlined sub) := by
  simp only [inlinedD, Option.bind_eq_bind, Option.bind_eq_some_iff, Option.some.injEq] at h
  obtain ⟨params, hp, vars, hv, calls, hc, inl, hi, rfl⟩ := h
  refine ⟨fun ho => ?_, fun ho => ?_, fun ho => ?_, ⟨inl, ?_, ?_⟩⟩
  · simp only [whenD, ho, if_true, Option.map_eq_some_iff] at hp
    obtain ⟨v, hp, rfl⟩ := hp
    exact ⟨v, .indent (.rest (.first .here)), shown_params hp⟩
  · simp only [whenD, ho, if_true, Option.map_eq_some_iff] at hv
    obtain ⟨v, hv, rfl⟩ := hv
    exact ⟨v, .indent (.rest (.rest (.first .here))), shown_locals hv⟩
  · simp only [whenD, ho, if_true, Option.map_eq_some_iff] at hc
    obtain ⟨v, hc, rfl⟩ := hc
    exact ⟨v, .indent (.rest (.rest (.rest (.first .here)))), shown_callSites hc⟩
  · exact .indent (.rest (.rest (.rest (.rest (.first .here)))))
  · exact listD_best hi (inlinedStep_eq c da db) (inlinedStep_eq c da db) (inlinedCost_eq c da db)

/-- **C86** (registers). The registers a variable is kept in, without repetition and in order. -/
theorem C86_registers (c : FnPair) (ra rb : List Nat) (e : D) (h : regsD c ra rb = some e) :
    ∃ sub, PartOf (.field false (k "registers") sub) e ∧
      BestShown (changePrices Nat) (fun r => some (.line [] (.text (Code.regVal c.a.regName r))))
        (fun r => some (.line [] (.text (Code.regVal c.b.regName r))))
        (fun x y => some (.line [] (.text (Code.regVal c.a.regName x)) (.text (Code.regVal c.b.regName y))))
        (sortDedup compare ra) (sortDedup compare rb) sub := by
  simp only [regsD, Option.map_eq_some_iff] at h
  obtain ⟨v, h, rfl⟩ := h
  exact ⟨v, .here, listD_best h rfl rfl changeCost_eq⟩

/-- **C86** (locations). The locations of the arguments and targets of calls. -/
theorem C86_locations (c : FnPair) (pa pb : List Piece) (e : D) (h : piecesD c pa pb = some e) :
    BestShown (changePrices Location) (locationP c.a) (locationP c.b) (locationD c) (pa.map (·.location))
      (pb.map (·.location)) e :=
  listD_best h rfl rfl changeCost_eq

/-! ### Types -/

/-- **C86** (structs). The diff of two structs shows what their layouts consist of in a way of least
cost, and so their base classes if there are several. -/
theorem C86_struct (o : Options) (c : Pair) (da db : Option Str) (n : Nat) (a b : TypeEntry) (e : D)
    {ns ns' : Option Namespace} {nm nm' : Option Str} {sz sz' : Size} {ms ms' : List Member}
    {vps vps' : List VariantPart} {inh inh' : List Inherit}
    (ha : a.kind = .struct_ ns nm sz ms vps inh) (hb : b.kind = .struct_ ns' nm' sz' ms' vps' inh')
    (h : typeD o c da db (n + 1) a b = some e) :
    (∃ sub, PartOf (.field false (k "members") sub) e ∧
      BestShown (layoutPrices c) (layoutP c.a (membersP c.a n)) (layoutP c.b (membersP c.b n))
        (layoutD c ⟨membersP c.a n, membersP c.b n, membersD c n⟩)
        (structLayout ms inh vps sz c.a.tsz) (structLayout ms' inh' vps' sz' c.b.tsz) sub) ∧
    (inh.length > 1 ∨ inh'.length > 1 → ∃ sub, PartOf (.field false (k "inherits") sub) e ∧
      BestShown (inheritPrices c) (fun i => some (inheritP c.a i)) (fun i => some (inheritP c.b i))
        (fun x y => some (.line [] (inheritVal c.a x) (inheritVal c.b y))) inh inh' sub) := by
  simp only [typeD, ha, hb, bodyD, headerD, Option.bind_eq_bind, Option.bind_eq_some_iff, Option.some.injEq] at h
  obtain ⟨_, -, body, ⟨m, hm, i, hi, rfl⟩, rfl⟩ := h
  refine ⟨⟨m, .first (.id (.rest (.rest (.rest (.rest (.first .here)))))), ?_⟩, fun hl => ?_⟩
  · simp only [membersD] at hm
    exact listD_best hm rfl rfl (layoutCost_eq c)
  · simp only [inheritsD, hl, if_true, Option.map_eq_some_iff] at hi
    obtain ⟨v, hi, rfl⟩ := hi
    exact ⟨v, .first (.id (.rest (.rest (.rest (.first .here))))), listD_best hi rfl rfl (inheritCost_eq c)⟩

/-- **C86** (unions). -/
theorem C86_union (o : Options) (c : Pair) (da db : Option Str) (n : Nat) (a b : TypeEntry) (e : D)
    {ns ns' : Option Namespace} {nm nm' : Option Str} {sz sz' : Size} {ms ms' : List Member}
    (ha : a.kind = .union_ ns nm sz ms) (hb : b.kind = .union_ ns' nm' sz' ms')
    (h : typeD o c da db (n + 1) a b = some e) :
    ∃ sub, PartOf (.field false (k "members") sub) e ∧
      BestShown (memberPrices c) (memberP c.a (membersP c.a n)) (memberP c.b (membersP c.b n))
        (memberD c ⟨membersP c.a n, membersP c.b n, membersD c n⟩) ms ms' sub := by
  simp only [typeD, ha, hb, bodyD, headerD, Option.bind_eq_bind, Option.bind_eq_some_iff, Option.some.injEq] at h
  obtain ⟨_, -, body, ⟨m, hm, rfl⟩, rfl⟩ := h
  simp only [membersD] at hm
  exact ⟨m, .first (.id (.rest (.rest (.rest (.first .here))))), listD_best hm rfl rfl (memberCost_eq c)⟩

/-- **C86** (members below members). The members of two structs listed below a member or a typedef. -/
theorem C86_inner_struct (c : Pair) (n : Nat) (e : D)
    {ns ns' : Option Namespace} {nm nm' : Option Str} {sz sz' : Size} {ms ms' : List Member}
    {vps vps' : List VariantPart} {inh inh' : List Inherit}
    (h : membersD c (n + 1) (some (.struct_ ns nm sz ms vps inh)) (some (.struct_ ns' nm' sz' ms' vps' inh')) = some e) :
    BestShown (layoutPrices c) (layoutP c.a (membersP c.a n)) (layoutP c.b (membersP c.b n))
      (layoutD c ⟨membersP c.a n, membersP c.b n, membersD c n⟩)
      (structLayout ms inh vps sz c.a.tsz) (structLayout ms' inh' vps' sz' c.b.tsz) e := by
  simp only [membersD] at h
  exact listD_best h rfl rfl (layoutCost_eq c)

/-- **C86** (members below members). The same for unions. -/
theorem C86_inner_union (c : Pair) (n : Nat) (e : D)
    {ns ns' : Option Namespace} {nm nm' : Option Str} {sz sz' : Size} {ms ms' : List Member}
    (h : membersD c (n + 1) (some (.union_ ns nm sz ms)) (some (.union_ ns' nm' sz' ms')) = some e) :
    BestShown (memberPrices c) (memberP c.a (membersP c.a n)) (memberP c.b (membersP c.b n))
      (memberD c ⟨membersP c.a n, membersP c.b n, membersD c n⟩) ms ms' e := by
  simp only [membersD] at h
  exact listD_best h rfl rfl (memberCost_eq c)

/-- **C86** (variants). The diff of two variant parts shows their variants in a way of least cost. -/
theorem C86_variants (c : Pair) (r : Recs) (a b : Layout) (x y : VariantPart) (e : D)
    (ha : a.item = .variantPart x) (hb : b.item = .variantPart y) (h : layoutD c r a b = some e) :
    ∃ sub, PartOf sub e ∧ BestShown variantPrices (variantP c.a r.pa a) (variantP c.b r.pb b) (variantD c r a b)
      x.variants y.variants sub := by
  simp only [layoutD, layoutItemD, ha, hb, Option.bind_eq_bind, Option.bind_eq_some_iff, Option.some.injEq] at h
  obtain ⟨m, hm, rfl⟩ := h
  exact ⟨m, .indent .here, listD_best hm rfl rfl variantCost_eq⟩

/-- **C86** (members of a variant). -/
theorem C86_variant (c : Pair) (r : Recs) (la lb : Layout) (x y : Variant) (e : D)
    (h : variantD c r la lb x y = some e) :
    ∃ sub, PartOf sub e ∧ BestShown (layoutPrices c) (layoutItemP c.a r.pa fun _ _ => some .skip)
      (layoutItemP c.b r.pb fun _ _ => some .skip)
      (layoutItemD c r (fun _ _ => some .skip) (fun _ _ => some .skip) fun _ _ _ _ => some .skip)
      (Variant.layout x la.bitOffset la.bitSize.get c.a.tsz) (Variant.layout y lb.bitOffset lb.bitSize.get c.b.tsz)
      sub := by
  simp only [variantD, Option.bind_eq_bind, Option.bind_eq_some_iff, Option.some.injEq] at h
  obtain ⟨m, hm, rfl⟩ := h
  exact ⟨m, .indent .here, listD_best hm rfl rfl (layoutCost_eq c)⟩

/-- **C86** (enumerations). -/
theorem C86_enumeration (o : Options) (c : Pair) (da db : Option Str) (n : Nat) (a b : TypeEntry) (e : D)
    {ns ns' : Option Namespace} {nm nm' : Option Str} {ty ty' : TypeOffset} {sz sz' : Size}
    (ha : a.kind = .enum_ ns nm ty sz) (hb : b.kind = .enum_ ns' nm' ty' sz')
    (h : typeD o c da db n a b = some e) :
    ∃ sub, PartOf (.field false (k "enumerators") sub) e ∧
      BestShown enumeratorPrices (fun x => some (enumeratorP x)) (fun x => some (enumeratorP x))
        (fun x y => some (.line [] (enumeratorVal x) (enumeratorVal y)))
        (c.a.extra a.offset).enumerators (c.b.extra b.offset).enumerators sub := by
  simp only [typeD, ha, hb, bodyD, headerD, Option.bind_eq_bind, Option.bind_eq_some_iff, Option.some.injEq] at h
  obtain ⟨_, -, body, ⟨m, hm, rfl⟩, rfl⟩ := h
  exact ⟨m, .first (.id (.rest (.rest (.rest (.first .here))))), listD_best hm rfl rfl enumeratorCost_eq⟩

/-! ### Files -/

/-- **C86** (sections). -/
theorem C86_sections (o : Options) (c : FilePair) (e : D) (h : filePartD o c = some e) :
    ∃ sub, PartOf (.field true (k "sections") sub) e ∧
      BestShown sectionPrices (fun x => some (sectionP x)) (fun x => some (sectionP x)) sectionD
        c.a.file.sections c.b.file.sections sub := by
  simp only [filePartD, Option.bind_eq_bind, Option.bind_eq_some_iff, Option.some.injEq] at h
  obtain ⟨m, -, s1, -, s2, -, s3, -, s4, -, s5, hs, rfl⟩ := h
  exact ⟨s5, .first (.indent (.rest (.rest (.rest (.rest (.rest (.first .here))))))),
    listD_best hs rfl rfl sectionCost_eq⟩

/-! ### What is never shown as one -/

theorem points_pos {n : Nat} {p : Prop} (h : points n p < n) : ¬ p := by
  intro hp
  rw [points_full hp] at h
  omega

/-- **C86** (parameters). Two parameters shown as one have the same name or the same type. -/
theorem C86_paired_parameters (c : FnPair) (la lb : List Parameter) (items : List (MergeResult Parameter Parameter))
    (h : Best (paramPrices c) la lb items) (a b : Parameter) (hab : .both a b ∈ items) :
    a.name = b.name ∨ SameTy c.toPair a.ty b.ty := by
  have := h.worth a b hab
  simp only [paramPrices] at this
  by_cases h1 : a.name = b.name
  · exact .inl h1
  · right
    rw [points_full h1] at this
    exact Classical.not_not.1 (points_pos (n := 1) (by omega))

/-- **C86** (local variables). Two local variables shown as one have the same name or the same type. -/
theorem C86_paired_locals (c : FnPair) (la lb : List LocalVariable)
    (items : List (MergeResult LocalVariable LocalVariable))
    (h : Best (localPrices c) la lb items) (a b : LocalVariable) (hab : .both a b ∈ items) :
    a.name = b.name ∨ SameTy c.toPair a.ty b.ty := by
  have := h.worth a b hab
  simp only [localPrices] at this
  by_cases h1 : a.name = b.name
  · exact .inl h1
  · right
    rw [points_full h1] at this
    exact Classical.not_not.1 (points_pos (n := 1) (by omega))

/-- What two parts of a layout have in common when they are shown as one: both are padding, or both
are variant parts, or both are members with the same name or the same type, or both are base classes
of the same type. -/
def Akin (c : Pair) : LayoutItem → LayoutItem → Prop
  | .padding, .padding => True
  | .variantPart _, .variantPart _ => True
  | .member x, .member y => x.name = y.name ∨ SameTy c x.ty y.ty
  | .inherit x, .inherit y => SameTy c x.ty y.ty
  | _, _ => False

/-- **C86** (layouts). Padding is never shown as a member, and so on. -/
theorem C86_paired_layout (c : Pair) (la lb : List Layout) (items : List (MergeResult Layout Layout))
    (h : Best (layoutPrices c) la lb items) (a b : Layout) (hab : .both a b ∈ items) : Akin c a.item b.item := by
  have := h.worth a b hab
  obtain ⟨oa, sa, ia⟩ := a
  obtain ⟨ob, sb, ib⟩ := b
  cases ia <;> cases ib <;> simp only [layoutPrices, memberPrices, inheritPrices] at this <;>
    simp only [Akin] <;> try omega
  · rename_i x y
    by_cases h1 : x.name = y.name
    · exact .inl h1
    · right
      rw [points_full h1] at this
      exact Classical.not_not.1 (points_pos (n := 1) (by omega))
  · exact Classical.not_not.1 (points_pos (n := 2) (by omega))

/-- **C86** (variants). Two variants shown as one have the same name or the same discriminant. -/
theorem C86_paired_variants (la lb : List Variant) (items : List (MergeResult Variant Variant))
    (h : Best variantPrices la lb items) (a b : Variant) (hab : .both a b ∈ items) :
    a.name = b.name ∨ a.discrValue = b.discrValue := by
  have := h.worth a b hab
  simp only [variantPrices, ne_eq] at this
  by_cases h1 : a.name = b.name
  · exact .inl h1
  · right
    rw [points_full h1] at this
    exact Classical.not_not.1 (points_pos (n := 1) (by omega))

/-- **C86** (enumerators). Two enumerators shown as one have the same name or the same value. -/
theorem C86_paired_enumerators (la lb : List Enumerator) (items : List (MergeResult Enumerator Enumerator))
    (h : Best enumeratorPrices la lb items) (a b : Enumerator) (hab : .both a b ∈ items) :
    a.name = b.name ∨ a.value = b.value := by
  have := h.worth a b hab
  simp only [enumeratorPrices, ne_eq] at this
  by_cases h1 : a.name = b.name
  · exact .inl h1
  · right
    rw [points_full h1] at this
    exact Classical.not_not.1 (points_pos (n := 2) (by omega))

/-- **C86** (call sites). Two call sites shown as one disagree in at most one of: kind, call address,
return address, where the call goes to. -/
theorem C86_paired_call_sites (la lb : List FunctionCall) (items : List (MergeResult FunctionCall FunctionCall))
    (h : Best callSitePrices la lb items) (a b : FunctionCall) (hab : .both a b ∈ items) :
    (a.callAddress = b.callAddress ∨ a.returnAddress = b.returnAddress) ∧
    (a.kind = b.kind ∨ a.callAddress = b.callAddress) ∧ (a.kind = b.kind ∨ a.returnAddress = b.returnAddress) ∧
    (originPoints a.origin b.origin ≤ 1) ∧
    (originPoints a.origin b.origin = 1 →
      a.kind = b.kind ∧ a.callAddress = b.callAddress ∧ a.returnAddress = b.returnAddress) := by
  have := h.worth a b hab
  simp only [callSitePrices] at this
  have key : ∀ {p : Prop}, points 1 (¬ p) = 0 → p := fun {p} h => Classical.not_not.1 ((points_eq_zero (by omega)).1 h)
  have two : ∀ p : Prop, points 1 p = 0 ∨ points 1 p = 1 := fun p => by
    by_cases hp : p
    · exact .inr (points_full hp)
    · exact .inl (points_zero hp)
  have k1 := two (a.kind ≠ b.kind)
  have k2 := two (a.callAddress ≠ b.callAddress)
  have k3 := two (a.returnAddress ≠ b.returnAddress)
  refine ⟨?_, ?_, ?_, by omega, fun h => ⟨key ?_, key ?_, key ?_⟩⟩
  · rcases k2 with k2 | k2
    · exact .inl (key k2)
    · exact .inr (key (by simp only [ne_eq] at *; omega))
  · rcases k1 with k1 | k1
    · exact .inl (key k1)
    · exact .inr (key (by simp only [ne_eq] at *; omega))
  · rcases k1 with k1 | k1
    · exact .inl (key k1)
    · exact .inr (key (by simp only [ne_eq] at *; omega))
  all_goals simp only [ne_eq] at *; omega

/-- **C86** (inlined functions). Two inlined functions shown as one are the same function or were
inlined at the same place of the source. -/
theorem C86_paired_inlined (c : FnPair) (da db : Option Str) (la lb : List InlinedFunction)
    (items : List (MergeResult InlinedFunction InlinedFunction))
    (h : Best (inlinedPrices c da db) la lb items) (a b : InlinedFunction) (hab : .both a b ∈ items) :
    SameFnOpt (c.a.fnAt a.origin) (c.b.fnAt b.origin) ∨ SamePlace da db a.callSource b.callSource := by
  have := h.worth a b hab
  simp only [inlinedPrices] at this
  apply Classical.byContradiction
  intro hn
  obtain ⟨h1, h2⟩ := not_or.1 hn
  rw [points_full h1, points_full h2] at this
  omega

/-- **C86** (sections). Two sections shown as one have the same segment and name. -/
theorem C86_paired_sections (la lb : List File.Section) (items : List (MergeResult File.Section File.Section))
    (h : Best sectionPrices la lb items) (x y : File.Section) (hab : .both x y ∈ items) :
    x.name = y.name ∧ x.segment = y.segment := by
  have := h.worth x y hab
  simp only [sectionPrices] at this
  have := points_pos (n := 2) (by omega)
  exact ⟨Classical.byContradiction fun h => this (.inl h), Classical.byContradiction fun h => this (.inr h)⟩

/-! ### Removing and adding -/

/-- **C86** (removals). Where an item alone has one price `u`: if the new list is the old one with some
items taken out (the others unchanged as far as their prices tell), then the diff shows nothing as added,
and shows as one only items without a difference: it shows exactly the missing number as deleted. -/
theorem C86_removed (w : Prices α) (u : Nat) (hp : 0 < u) (hu : ∀ a, w.alone a = u) (la lb kept : List α)
    (items : List (MergeResult α α)) (hb : Best w la lb items) (hs : kept.Sublist la)
    (hm : All2 (fun a b => w.pair a b = 0) kept lb) :
    (∀ b, .right b ∉ items) ∧ ∀ a b, .both a b ∈ items → w.pair a b = 0 :=
  best_removed hp hu hb hs hm

/-- **C86** (additions). The same for items added. -/
theorem C86_added (w : Prices α) (u : Nat) (hp : 0 < u) (hu : ∀ a, w.alone a = u) (la lb kept : List α)
    (items : List (MergeResult α α)) (hb : Best w la lb items) (hs : kept.Sublist lb)
    (hm : All2 (fun a b => w.pair a b = 0) la kept) :
    (∀ a, .left a ∉ items) ∧ ∀ a b, .both a b ∈ items → w.pair a b = 0 :=
  best_added hp hu hb hs hm

theorem all2_self {R : α → α → Prop} (h : ∀ a, R a a) : ∀ l : List α, All2 R l l
  | [] => .nil
  | a :: l => .cons (h a) (all2_self h l)

/-- **C86** (enumerators). Taking enumerators out of an enumeration shows some as deleted, and the
others unchanged. -/
theorem C86_enumerators_removed (la lb : List Enumerator) (items : List (MergeResult Enumerator Enumerator))
    (hb : Best enumeratorPrices la lb items) (hs : lb.Sublist la) :
    ∀ it ∈ items, ∃ a, it = .left a ∨ it = .both a a := by
  obtain ⟨h1, h2⟩ := C86_removed enumeratorPrices 3 (by omega) (fun _ => rfl) la lb lb items hb hs
    (all2_self (fun a => by simp [enumeratorPrices, points]) lb)
  intro it hit
  cases it with
  | left a => exact ⟨a, .inl rfl⟩
  | right b => exact absurd hit (h1 b)
  | both a b =>
    have := h2 a b hit
    simp only [enumeratorPrices, ne_eq] at this
    have e1 : a.name = b.name := Classical.not_not.1 ((points_eq_zero (n := 4) (by omega)).1 (by omega))
    have e2 : a.value = b.value := Classical.not_not.1 ((points_eq_zero (n := 2) (by omega)).1 (by omega))
    exact ⟨a, .inr (by cases a; cases b; simp_all)⟩

/-- **C86** (enumerators). Adding enumerators to an enumeration shows some as added, and the others
unchanged. -/
theorem C86_enumerators_added (la lb : List Enumerator) (items : List (MergeResult Enumerator Enumerator))
    (hb : Best enumeratorPrices la lb items) (hs : la.Sublist lb) :
    ∀ it ∈ items, ∃ a, it = .right a ∨ it = .both a a := by
  obtain ⟨h1, h2⟩ := C86_added enumeratorPrices 3 (by omega) (fun _ => rfl) la lb la items hb hs
    (all2_self (fun a => by simp [enumeratorPrices, points]) la)
  intro it hit
  cases it with
  | right a => exact ⟨a, .inl rfl⟩
  | left b => exact absurd hit (h1 b)
  | both a b =>
    have := h2 a b hit
    simp only [enumeratorPrices, ne_eq] at this
    have e1 : a.name = b.name := Classical.not_not.1 ((points_eq_zero (n := 4) (by omega)).1 (by omega))
    have e2 : a.value = b.value := Classical.not_not.1 ((points_eq_zero (n := 2) (by omega)).1 (by omega))
    exact ⟨a, .inr (by cases a; cases b; simp_all)⟩

/-! ### Concrete cases -/

/-- `RED = 0, GREEN = 1, BLUE = 2` with `GREEN` taken out: the diff exists, and shows one deletion. -/
example : (enumeratorsD listHeap
      [⟨some (k "RED"), .unsigned 0⟩, ⟨some (k "GREEN"), .unsigned 1⟩, ⟨some (k "BLUE"), .unsigned 2⟩]
      [⟨some (k "RED"), .unsigned 0⟩, ⟨some (k "BLUE"), .unsigned 2⟩]).map
    (fun e => render (e.lines ⟨false, false, false, false⟩ 0 .equal 3)) =
    some (k "  RED(0)\n- GREEN(1)\n  BLUE(2)\n") := by decide +kernel

/-- A renumbered enumerator is shown as changed, another name with the same value too (the price 4 is
below 6); another name and value is shown as deleted and added. -/
example : (enumeratorsD listHeap
      [⟨some (k "A"), .unsigned 0⟩, ⟨some (k "B"), .unsigned 1⟩, ⟨some (k "C"), .unsigned 2⟩]
      [⟨some (k "A"), .unsigned 9⟩, ⟨some (k "X"), .unsigned 1⟩, ⟨some (k "D"), .unsigned 3⟩]).map
    (fun e => render (e.lines ⟨false, false, false, false⟩ 0 .equal 3)) =
    some (k "- A(0)\n+ A(9)\n- B(1)\n+ X(1)\n+ D(3)\n- C(2)\n") := by decide +kernel

/-- Call sites at another address that still call the same function are shown as one; those that
also go elsewhere are not. -/
example :
    let g : Function := { name := some (k "g") }
    let h : Function := { name := some (k "h") }
    let m : Function := { name := some (k "m") }
    (callSitesD {} (exFnPair {} {}) none none
      [{ callAddress := some 0x10, origin := some (.direct g) }, { callAddress := some 0x20, origin := some (.direct h) }]
      [{ callAddress := some 0x11, origin := some (.direct g) }, { callAddress := some 0x22, origin := some (.direct m) }]).map
    (fun e => render (e.lines ⟨false, false, false, false⟩ 0 .equal 3)) =
    some ((["- call at 0x10 -> g\n", "+ call at 0x11 -> g\n", "+ call at 0x22 -> m\n", "- call at 0x20 -> h\n"].flatMap k)) := by decide +kernel

end Verif.Show
