import Verif.Show.DiffTotal
/-!
# C92: diffs of units and files
-/
namespace Verif.Show
open Verif.Print Verif.Item Verif.Namespace Verif.Types Verif.Path Verif.Opts Verif.Merge Verif.Range
  Verif.File Verif.Order Verif.Filter Verif.Frame Verif.Layout

theorem fieldU64_total (l : Str) {a b : Nat} (ha : a < 2 ^ 63) (hb : b < 2 ^ 63) : (D.fieldU64 l a b).isSome := by
  have hd : ∃ d, fieldDelta a b = some d := by
    unfold fieldDelta asI64
    rw [if_pos ha, if_pos hb, if_pos (by omega)]
    exact ⟨_, rfl⟩
  obtain ⟨d, hd⟩ := hd
  unfold D.fieldU64 fieldU64Val
  by_cases h : b = a
  · simp [h]
  · simp [h, hd]

theorem sizeLineD_total (l : Str) {a b : Nat} (ha : a < 2 ^ 63) (hb : b < 2 ^ 63) : (sizeLineD l a b).isSome := by
  unfold sizeLineD
  split
  · exact fieldU64_total l ha hb
  · rfl

theorem unitPartD_total (o : Options) (a b : Side) (u v : CompUnit) (hu : UnitSmall a.tsz u)
    (hv : UnitSmall b.tsz v) : (unitPartD o a b u v).isSome := by
  obtain ⟨fa, h1⟩ := size_some (canonical_sort (pushAll [] u.functionRanges))
  obtain ⟨fb, h2⟩ := size_some (canonical_sort (pushAll [] v.functionRanges))
  obtain ⟨va, h3⟩ := size_some (canonical_sort (pushAll [] (u.variableRanges a.tsz)))
  obtain ⟨vb, h4⟩ := size_some (canonical_sort (pushAll [] (v.variableRanges b.tsz)))
  obtain ⟨wa, h5⟩ : ∃ w, size? (u.unknownRanges a.tsz) = some w := size_some (canonical_sort _)
  obtain ⟨wb, h6⟩ : ∃ w, size? (v.unknownRanges b.tsz) = some w := size_some (canonical_sort _)
  replace h1 : u.functionSize = some fa := h1
  replace h2 : v.functionSize = some fb := h2
  replace h3 : u.variableSize a.tsz = some va := h3
  replace h4 : v.variableSize b.tsz = some vb := h4
  obtain ⟨e1, g1⟩ := Option.isSome_iff_exists.1
    (sizeLineD_total (k "fn size") (hu.functions _ h1) (hv.functions _ h2))
  obtain ⟨e2, g2⟩ := Option.isSome_iff_exists.1
    (sizeLineD_total (k "var size") (hu.variables _ h3) (hv.variables _ h4))
  obtain ⟨e3, g3⟩ := Option.isSome_iff_exists.1
    (sizeLineD_total (k "unknown size") (hu.unknown _ h5) (hv.unknown _ h6))
  simp only [unitPartD, h1, h2, h3, h4, h5, h6, Option.bind_eq_bind, Option.bind_some, g1, g2, g3]
  rfl

theorem sectionD_total {x y : Section} (hx : x.size < 2 ^ 63) (hy : y.size < 2 ^ 63) : (sectionD x y).isSome := by
  obtain ⟨e, he⟩ := Option.isSome_iff_exists.1 (fieldU64_total (k "size") hx hy)
  simp [sectionD, he]

theorem filePartD_total (o : Options) (c : FilePair) (ha : SummaryOk c.a.tsz c.a.file)
    (hb : SummaryOk c.b.tsz c.b.file) : (filePartD o c).isSome := by
  obtain ⟨sa, sb, h1, h2, h3 | h3⟩ := C55_diff c.a.tsz c.b.tsz c.a.file c.b.file
  · obtain ⟨-, -, h3⟩ := h3
    obtain ⟨a1, a2⟩ := ha.adds sa h1
    obtain ⟨b1, b2⟩ := hb.adds sb h2
    have oa : sa.otherSize < 2 ^ 63 := by
      obtain ⟨n, e1, e2, e3⟩ := sizes_eq c.a.tsz c.a.file
      have := printSummary_eq e1 e2 e3
      rw [h1] at this
      cases this
      simp only at *
      split <;> omega
    have ob : sb.otherSize < 2 ^ 63 := by
      obtain ⟨n, e1, e2, e3⟩ := sizes_eq c.b.tsz c.b.file
      have := printSummary_eq e1 e2 e3
      rw [h2] at this
      cases this
      simp only at *
      split <;> omega
    obtain ⟨e1, g1⟩ := Option.isSome_iff_exists.1 (fieldU64_total (k "size") a2 b2)
    obtain ⟨e2, g2⟩ := Option.isSome_iff_exists.1
      (fieldU64_total (k "fn size") (a := sa.fnSize) (b := sb.fnSize) (by omega) (by omega))
    obtain ⟨e3, g3⟩ := Option.isSome_iff_exists.1
      (fieldU64_total (k "var size") (a := sa.varSize) (b := sb.varSize) (by omega) (by omega))
    obtain ⟨e4, g4⟩ := Option.isSome_iff_exists.1 (fieldU64_total (k "other size") oa ob)
    obtain ⟨e5, g5⟩ := Option.isSome_iff_exists.1 (listD_total c.heap
      (print := fun x => some (sectionP x)) (print' := fun x => some (sectionP x)) (diff := sectionD)
      (cost := sectionCost)
      (cost_const (c := 1) (by omega) ha.sections.1.wide hb.sections.1.wide) (fun _ _ => rfl) (fun _ _ => rfl)
      fun x hx y hy => sectionD_total (ha.sections.2 x hx) (hb.sections.2 y hy))
    simp only [filePartD, h3, Option.bind_eq_bind, Option.bind_some, g1, g2, g3, g4, g5]
    rfl
  · obtain ⟨h | h, -⟩ := h3
    · have := (ha.adds sa h1).1; omega
    · have := (hb.adds sb h2).1; omega

/-- What the merged lists are made of. -/
theorem _root_.Verif.Order.Paired.parts {α : Type} {same : α → α → Prop} {la lb : List α} {out : List (MergeResult α α)}
    (h : Paired same la lb out) {l : List (MergeResult α α)} (hl : ∀ x ∈ l, x ∈ out) :
    (∀ x ∈ oldItems l, x ∈ la) ∧ (∀ x ∈ newItems l, x ∈ lb) ∧ ∀ a b, .both a b ∈ l → same a b := by
  refine ⟨fun x hx => h.old.mem_iff.1 ?_, fun x hx => h.new.mem_iff.1 ?_, fun a b hm => h.pairs a b (hl _ hm)⟩
  · obtain ⟨y, hy, he⟩ := List.mem_filterMap.1 hx
    exact List.mem_filterMap.2 ⟨y, hl y hy, he⟩
  · obtain ⟨y, hy, he⟩ := List.mem_filterMap.1 hx
    exact List.mem_filterMap.2 ⟨y, hl y hy, he⟩

/-- What is listed and compared of the types of a unit. -/
theorem wantedType_false {h : Hash} {u : CompUnit} {o : Options} {d : Bool} {t : TypeEntry}
    (hw : WantedType h u o d t) : WantedType h u o false t :=
  ⟨hw.1, (by simp), hw.2.2⟩

theorem unitTypesD_total (o : Options) (c : FilePair) (u v : CompUnit)
    (hu : UnitOk o c.a u) (hv : UnitOk o c.b v)
    (hsa : o.categoryType = true → (∀ off t, fromOffset c.a.hash off = some t → TyShort t) ∧
      ∀ t ∈ u.types, TyShort t.kind ∧ Short (c.a.extra t.offset).enumerators)
    (hsb : o.categoryType = true → (∀ off t, fromOffset c.b.hash off = some t → TyShort t) ∧
      ∀ t ∈ v.types, TyShort t.kind ∧ Short (c.b.extra t.offset).enumerators) :
    Eventually fun n => (unitTypesD o c.toFnPair.toPair n u v).isSome := by
  refine whenD_total fun hc => ?_
  have hw : ∀ (h : Hash) (u : CompUnit), ∀ t ∈ filterTypes h u o true, t ∈ u.types ∧ WantedType h u o true t := by
    intro h u t ht
    obtain ⟨h1, h2⟩ := List.mem_filter.1 ht
    exact ⟨h1, (okType_iff _ _ _ _ _).1 h2⟩
  have pr : ∀ (s : FileSide) (u : CompUnit), UnitOk o s u → ∀ t ∈ filterTypes s.hash u o true,
      GoodType s.hash t.kind ∧ Eventually fun n => (typeP o s.toSide u.dir n t).isSome := by
    intro s u h t ht
    have w := hw _ _ t ht
    have g := h.types hc t w.1 (wantedType_false w.2)
    obtain ⟨name, ns, hl, -⟩ := w.2.1
    exact ⟨g.1, typeP_total o s.toSide u.dir t hl g.2⟩
  have pa := pr c.a u hu
  have pb := pr c.b v hv
  obtain ⟨N, hN⟩ := C18_merged_types c.a.hash c.b.hash (filterTypes c.a.hash u o true)
    (filterTypes c.b.hash v o true) (fun t ht => (pa t ht).1.1) (fun t ht => (pb t ht).1.1)
  obtain ⟨M, hM⟩ := sortListD_total (o := o) (lawful_types o) c.a.hash c.b.hash (filterTypes c.a.hash u o true)
    (filterTypes c.b.hash v o true) (fun t ht => (pa t ht).1) (fun t ht => (pb t ht).1)
    (print := fun n => typeP o c.a.toSide u.dir n) (print' := fun n => typeP o c.b.toSide v.dir n)
    (diff := fun n => typeD o c.toFnPair.toPair u.dir v.dir n)
    (fun a b => ∃ i, IdentOf c.a.hash a.kind i ∧ IdentOf c.b.hash b.kind i)
    (fun t ht => (pa t ht).2) (fun t ht => (pb t ht).2)
    (fun a ham b hbm ⟨i, ia, ib⟩ => by
      obtain ⟨A, hA⟩ := (pa a ham).2
      obtain ⟨B, hB⟩ := (pb b hbm).2
      refine ⟨max (max A B) 1, fun n hn => ?_⟩
      exact typeD_total o c.toFnPair.toPair u.dir v.dir (hsa hc).1 (hsb hc).1 n (by omega) a b ia ib
        ((hsa hc).2 a (hw _ _ a ham).1).1 ((hsb hc).2 b (hw _ _ b hbm).1).1
        ((hsa hc).2 a (hw _ _ a ham).1).2 ((hsb hc).2 b (hw _ _ b hbm).1).2 (hA n (by omega)) (hB n (by omega)))
  refine ⟨max N M, fun n hn => ?_⟩
  obtain ⟨out, ho, hp⟩ := hN n (by omega)
  obtain ⟨q1, q2, q3⟩ := hp.parts (l := out) fun _ h => h
  have := hM n (by omega) out q1 q2 q3
  show (do
    let m ← mergedTypes n c.a.hash (filterTypes c.a.hash u o true) c.b.hash (filterTypes c.b.hash v o true)
    sortListD o (typeCmpBy o n) c.a.hash c.b.hash (typeP o c.a.toSide u.dir n) (typeP o c.b.toSide v.dir n)
      (typeD o c.toFnPair.toPair u.dir v.dir n) m : Option D).isSome = true
  rw [ho]
  exact this

theorem unitFnsD_total (o : Options) (c : FilePair) (u v : CompUnit) (wrap : Str → D → D)
    (hu : UnitOk o c.a u) (hv : UnitOk o c.b v)
    (hsa : o.categoryFunction = true → ∀ f ∈ u.functions, FnShort c.a.toFnSide f)
    (hsb : o.categoryFunction = true → ∀ f ∈ v.functions, FnShort c.b.toFnSide f) :
    Eventually fun n => (unitFnsD o c n u v wrap).isSome := by
  refine whenD_total fun hc => ?_
  have pr : ∀ (s : FileSide) (u : CompUnit), UnitOk o s u → ∀ f ∈ filterFunctions u o,
      f ∈ u.functions ∧ GoodFunction s.hash f ∧ FnOk o s.toFnSide f := by
    intro s u h f hf
    obtain ⟨h1, h2⟩ := List.mem_filter.1 hf
    exact ⟨h1, h.functions hc f h1 ((okFunction_iff _ _).1 h2)⟩
  have pa := pr c.a u hu
  have pb := pr c.b v hv
  obtain ⟨N, hN⟩ := C18_merged_functions c.a.hash c.b.hash (filterFunctions u o) (filterFunctions v o)
    (fun f hf => (pa f hf).2.1) (fun f hf => (pb f hf).2.1)
  obtain ⟨M, hM⟩ := sortListD_total (o := o) (lawful_functions o) c.a.hash c.b.hash (filterFunctions u o)
    (filterFunctions v o) (fun f hf => (pa f hf).2.1) (fun f hf => (pb f hf).2.1)
    (print := fun n => functionP o c.a.toFnSide u.dir n) (print' := fun n => functionP o c.b.toFnSide v.dir n)
    (diff := fun n => functionD o c.toFnPair (c.a.unitId u) u.dir v.dir n)
    (fun a b => qname a.ns a.name = qname b.ns b.name)
    (fun f hf => functionP_total o c.a.toFnSide u.dir f (pa f hf).2.2)
    (fun f hf => functionP_total o c.b.toFnSide v.dir f (pb f hf).2.2)
    (fun f hf g hg _ => functionD_total o c.toFnPair (c.a.unitId u) u.dir v.dir f g (pa f hf).2.2 (pb g hg).2.2
      (hsa hc f (pa f hf).1) (hsb hc g (pb g hg).1))
  refine ⟨max N M, fun n hn => ?_⟩
  obtain ⟨out, fs, is, ho, hp, hperm, -⟩ := hN n (by omega)
  obtain ⟨q1, q2, q3⟩ := hp.parts (l := fs) fun x h => hperm.mem_iff.1 (List.mem_append_left _ h)
  obtain ⟨r1, r2, r3⟩ := hp.parts (l := is) fun x h => hperm.mem_iff.1 (List.mem_append_right _ h)
  obtain ⟨e1, g1⟩ := Option.isSome_iff_exists.1 (hM n (by omega) fs q1 q2 q3)
  obtain ⟨e2, g2⟩ := Option.isSome_iff_exists.1 (hM n (by omega) is r1 r2 r3)
  have g1' : fnListD o c n u v fs = some e1 := g1
  have g2' : fnListD o c n u v is = some e2 := g2
  simp only [unitMergedFns, ho, Option.bind_eq_bind, Option.bind_some, g1', g2']
  rfl

theorem unitVariablesD_total (o : Options) (c : FilePair) (u v : CompUnit)
    (hu : UnitOk o c.a u) (hv : UnitOk o c.b v) : Eventually fun n => (unitVariablesD o c n u v).isSome := by
  refine whenD_total fun hc => ?_
  have pr : ∀ (s : FileSide) (u : CompUnit), UnitOk o s u → ∀ x ∈ filterVariables u o, GoodVariable s.hash x := by
    intro s u h x hx
    obtain ⟨h1, h2⟩ := List.mem_filter.1 hx
    exact h.variables hc x h1 ((okVariable_iff _ _).1 h2)
  obtain ⟨out, ho, hp⟩ := C18_merged_variables (filterVariables u o) (filterVariables v o)
  obtain ⟨M, hM⟩ := sortListD_total (o := o) (lawful_variables o) c.a.hash c.b.hash (filterVariables u o)
    (filterVariables v o) (pr c.a u hu) (pr c.b v hv)
    (print := fun _ x => some (variableP o c.a u.dir x)) (print' := fun _ x => some (variableP o c.b v.dir x))
    (diff := fun _ x y => some (variableD o c u.dir v.dir x y))
    (fun a b => qname a.ns a.name = qname b.ns b.name)
    (fun _ _ => ⟨0, fun _ _ => rfl⟩) (fun _ _ => ⟨0, fun _ _ => rfl⟩) (fun _ _ _ _ _ => ⟨0, fun _ _ => rfl⟩)
  refine ⟨M, fun n hn => ?_⟩
  obtain ⟨q1, q2, q3⟩ := hp.parts (l := out) fun _ h => h
  have := hM n hn out q1 q2 q3
  simp only [ho, Option.bind_eq_bind, Option.bind_some]
  exact this

theorem unitD_total (o : Options) (c : FilePair) (ha : DiffOk o c.a) (hb : DiffOk o c.b) (u v : CompUnit)
    (hu : u ∈ c.a.file.units) (hv : v ∈ c.b.file.units) (wu : WantedUnit o u) (wv : WantedUnit o v) :
    Eventually fun n => (unitD o c n u v).isSome := by
  have ku := ha.units u hu wu
  have kv := hb.units v hv wv
  have hT := unitTypesD_total o c u v ku.1 kv.1
    (fun hc => ⟨(ha.types hc).1, (ha.types hc).2 u hu⟩) (fun hc => ⟨(hb.types hc).1, (hb.types hc).2 v hv⟩)
  have hF := unitFnsD_total o c u v (fun _ e => e) ku.1 kv.1 (fun hc => ha.functions hc u hu)
    (fun hc => hb.functions hc v hv)
  have hF' := unitFnsD_total o c u v (fun l => .field true l) ku.1 kv.1 (fun hc => ha.functions hc u hu)
    (fun hc => hb.functions hc v hv)
  have hV := unitVariablesD_total o c u v ku.1 kv.1
  have hP : (whenD o.categoryUnit (unitPartD o c.a.toSide c.b.toSide u v)).isSome :=
    whenD_some fun hc => unitPartD_total o c.a.toSide c.b.toSide u v (ku.2 hc) (kv.2 hc)
  have hP' : (whenD o.categoryUnit
      ((unitPartD o c.a.toSide c.b.toSide u v).map (.indent true (.line [] (unitName u) (unitName v))))).isSome :=
    whenD_some fun hc => by simp [unitPartD_total o c.a.toSide c.b.toSide u v (ku.2 hc) (kv.2 hc)]
  obtain ⟨N, hN⟩ := ((hT.and hV).and (hF.and hF'))
  refine ⟨N, fun n hn => ?_⟩
  have := hN n hn
  simp only [Bool.and_eq_true] at this
  obtain ⟨⟨a1, a2⟩, a3, a4⟩ := this
  obtain ⟨x0, e0⟩ := Option.isSome_iff_exists.1 hP
  obtain ⟨x0', e0'⟩ := Option.isSome_iff_exists.1 hP'
  obtain ⟨x1, e1⟩ := Option.isSome_iff_exists.1 a1
  obtain ⟨x2, e2⟩ := Option.isSome_iff_exists.1 a2
  obtain ⟨x3, e3⟩ := Option.isSome_iff_exists.1 a3
  obtain ⟨x4, e4⟩ := Option.isSome_iff_exists.1 a4
  unfold unitD unitBodyD
  cases o.html
  · simp only [e0', e1, e2, e3]; rfl
  · simp only [e0, e1, e2, e4]; rfl

/-- **C92 (diffs).** Comparing two files runs to the end, whatever the options, as long as everything that is
compared is finite, in range and short. -/
theorem C92_diff (o : Options) (c : FilePair) (ha : DiffOk o c.a) (hb : DiffOk o c.b) :
    ∃ N, ∀ n, N ≤ n → ∃ e, fileD o c n = some e := by
  have hw : ∀ (l : List CompUnit), ∀ u ∈ filterUnits l o, u ∈ l ∧ WantedUnit o u := by
    intro l u hu
    obtain ⟨h1, h2⟩ := List.mem_filter.1 hu
    exact ⟨h1, (okUnit_iff o u).1 h2⟩
  obtain ⟨out, ho, hp⟩ := C18_merged_units o (filterUnits c.a.file.units o) (filterUnits c.b.file.units o)
  obtain ⟨N, hN⟩ := sortListD_total (o := o) (lawful_units o) c.a.tsz c.b.tsz (filterUnits c.a.file.units o)
    (filterUnits c.b.file.units o) (fun u _ => unitSize_some c.a.tsz u) (fun u _ => unitSize_some c.b.tsz u)
    (print := fun n => unitP o c.a n) (print' := fun n => unitP o c.b n) (diff := fun n => unitD o c n)
    (fun _ _ => True)
    (fun u hu => unitP_total o c.a u (ha.units u (hw _ u hu).1 (hw _ u hu).2).1)
    (fun u hu => unitP_total o c.b u (hb.units u (hw _ u hu).1 (hw _ u hu).2).1)
    (fun u hu v hv _ => unitD_total o c ha hb u v (hw _ u hu).1 (hw _ v hv).1 (hw _ u hu).2 (hw _ v hv).2)
  refine ⟨N, fun n hn => ?_⟩
  obtain ⟨q1, q2, -⟩ := hp.parts (l := out) fun _ h => h
  obtain ⟨e, he⟩ := Option.isSome_iff_exists.1 (hN n hn out q1 q2 fun _ _ _ => trivial)
  obtain ⟨q, hq⟩ := Option.isSome_iff_exists.1 (whenD_some (b := o.categoryFile)
    fun hc => filePartD_total o c (ha.summary hc) (hb.summary hc))
  exact ⟨.seq q e, by simp [fileD, unitsD, hq, ho, he]⟩

end Verif.Show
