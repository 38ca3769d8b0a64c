import Verif.Web.PageSpec
import Verif.Show.FileItems
/-!
# C82: what an HTML page of a file consists of
-/
namespace Verif.Web
open Verif.Print Verif.Html Verif.Item Verif.Opts Verif.Show Verif.Merge Verif.Order Verif.Namespace Verif.Types Verif.File Verif.Filter

theorem pageP_seqs (http : Bool) (m : Mark) (ps : List P) (d : Nat) :
    pageP http m (P.seqs ps) d = (ps.map fun p => pageP http m p d).flatten := by
  induction ps with
  | nil => rfl
  | cons p ps ih => simp only [P.seqs, pageP, ih, List.map_cons, List.flatten_cons]

theorem pageD_seqs (same : Val → Val → Bool) (http : Bool) (es : List D) (d : Nat) :
    pageD same http (D.seqs es) d = (es.map fun e => pageD same http e d).flatten := by
  induction es with
  | nil => rfl
  | cons e es ih => simp only [D.seqs, pageD, ih, List.map_cons, List.flatten_cons]

theorem named_eq (l : Str) (ns : List Node) : optSection l ns = named l ns := by
  cases ns <;> rfl

theorem all2_map {α β δ : Type} {R : α → β → Prop} {S : α → δ → Prop} {g : β → δ} {l : List α} {r : List β}
    (h : All2 R l r) (hs : ∀ a b, R a b → S a (g b)) : All2 S l (r.map g) := by
  induction h with
  | nil => exact .nil
  | cons h _ ih => exact .cons (hs _ _ h) ih

theorem sortListP_page {α γ : Type} {o : Options} {cmpBy : Nat → α → γ → α → γ → Res Ordering} {G : α × γ → Prop}
    (hl : Lawful (fun n x y => cmpBy n x.1 x.2 y.1 y.2) G) {n : Nat} {h : γ} {print : α → Option P} {l : List α} {p : P}
    (hp : sortListP (cmpBy n) h print l = some p) (d : Nat) :
    PageItems o (cmpBy n) h print d l (pageP o.http .same p d) := by
  simp only [sortListP, Option.bind_eq_bind, Option.bind_eq_some_iff] at hp
  obtain ⟨l', hl', hp⟩ := hp
  simp only [listP, Option.map_eq_some_iff] at hp
  obtain ⟨ps, hps, rfl⟩ := hp
  exact ⟨l', ps.map fun p => pageP o.http .same p d, printOrder_arranged hl hl',
    all2_map (all2_of_mapM hps) fun a p h => ⟨p, h, rfl⟩, pageP_seqs ..⟩

theorem sortListD_page {α γ : Type} (same : Val → Val → Bool) {o : Options}
    {cmpBy : Nat → α → γ → α → γ → Res Ordering} {G : α × γ → Prop}
    (hl : Lawful (fun n x y => cmpBy n x.1 x.2 y.1 y.2) G) {n : Nat} {ha hb : γ}
    {print print' : α → Option P} {diff : α → α → Option D} {items : List (MergeResult α α)} {e : D}
    (he : sortListD o (cmpBy n) ha hb print print' diff items = some e) (d : Nat) :
    ∃ order, order.Perm items ∧
      PageDiffItems same o (cmpBy n) ha hb print print' diff d order (pageD same o.http e d) := by
  simp only [sortListD, Option.bind_eq_bind, Option.bind_eq_some_iff, Option.map_eq_some_iff] at he
  obtain ⟨l, hl', es, hes, rfl⟩ := he
  refine ⟨l, sortWith_perm hl', diffOrder_sorted hl hl', es.map fun e => pageD same o.http e d, ?_, pageD_seqs ..⟩
  refine all2_map (all2_of_mapM hes) fun it f hf => ?_
  cases it with
  | both a b =>
    simp only [sortItemD, Option.map_eq_some_iff] at hf
    obtain ⟨g, hg, rfl⟩ := hf
    exact ItemNodes.pair (e := g) hg
  | left a =>
    simp only [sortItemD] at hf
    split at hf
    · cases hf; exact .notDeleted ‹_›
    · simp only [Option.map_eq_some_iff] at hf
      obtain ⟨p, hp, rfl⟩ := hf
      exact .deleted (by simpa using ‹¬ o.ignoreDeleted = true›) hp
  | right a =>
    simp only [sortItemD] at hf
    split at hf
    · cases hf; exact .notAdded ‹_›
    · simp only [Option.map_eq_some_iff] at hf
      obtain ⟨p, hp, rfl⟩ := hf
      exact .added (by simpa using ‹¬ o.ignoreAdded = true›) hp

theorem unitBody_page {o : Options} (ho : o.html = true) {s : FileSide} {n : Nat} {u : CompUnit} {p : P}
    (hp : unitBodyP o s n u = some p) (d : Nat) : PagesUnit o s n u d (pageP o.http .same p d) := by
  simp only [unitBodyP, ho, if_true, Option.bind_eq_bind, Option.bind_eq_some_iff, Option.some.injEq] at hp
  obtain ⟨part, hpart, types, htypes, fns, hfns, inl, hinl, vars, hvars, rfl⟩ := hp
  have hf : pageP o.http .same (if o.categoryFunction then .seq (.field true (k "functions") fns)
      (.field true (k "inlined functions") inl) else .skip) d =
      named (k "functions") (if o.categoryFunction then pageP o.http .same fns d else []) ++
      named (k "inlined functions") (if o.categoryFunction then pageP o.http .same inl d else []) := by
    cases o.categoryFunction
    · rfl
    · simp only [if_true, pageP, named_eq]
  refine ⟨pageP o.http .same part d, pageP o.http .same types d, if o.categoryFunction then pageP o.http .same fns d else [],
    if o.categoryFunction then pageP o.http .same inl d else [], pageP o.http .same vars d, ?_, ?_⟩
  · simp only [P.seqs, pageP, hf, named_eq, List.append_nil, List.append_assoc]
  refine ⟨fun h => ?_, fun h => ?_, fun h => ?_, fun h => ?_, fun h => ?_, fun h => ?_, fun h => ?_, fun h => ?_⟩
  · simp only [whenP, h, Bool.false_eq_true, if_false, Option.some.injEq] at hpart; subst hpart; rfl
  · simp only [whenP, h, if_true] at hpart
    exact ⟨_, hpart, rfl⟩
  · simp only [unitTypesP, whenP, h, Bool.false_eq_true, if_false, Option.some.injEq] at htypes; subst htypes; rfl
  · simp only [unitTypesP, whenP, h, if_true] at htypes
    rw [wantedTypes_eq]
    exact sortListP_page (lawful_types o) htypes d
  · simp [h]
  · simp only [whenP, h, if_true, fnListP] at hfns hinl ⊢
    rw [wantedFunctions_eq]
    have e1 : (fun f : Function => decide (f.size ≠ none)) = fun f => f.size.isSome := by
      funext f; cases f.size <;> rfl
    have e2 : (fun f : Function => decide (f.size = none)) = fun f => !f.size.isSome := by
      funext f; cases f.size <;> rfl
    rw [e1, e2]
    exact ⟨sortListP_page (lawful_functions o) hfns d, sortListP_page (lawful_functions o) hinl d⟩
  · simp only [unitVariablesP, whenP, h, Bool.false_eq_true, if_false, Option.some.injEq] at hvars; subst hvars; rfl
  · simp only [unitVariablesP, whenP, h, if_true] at hvars
    rw [wantedVariables_eq]
    exact sortListP_page (lawful_variables o) hvars d

theorem blank_unitName (u : CompUnit) : blank (unitName u) = false := by
  have : k "unit " = 117 :: k "nit " := by decide
  simp [unitName, blank, this]

/-- **C82 (page of a unit).** On an HTML page, a unit is an item with its name, and in it the unit's own lines and a
section each for its types, functions, only-inlined functions and variables, each wanted item once and in order. -/
theorem C82_unit_page (o : Options) (ho : o.html = true) (s : FileSide) (n : Nat) (u : CompUnit) (p : P)
    (hp : unitP o s n u = some p) (d : Nat) : ∃ body, PagesUnit o s n u d body ∧
      pageP o.http .same p d = [.item [⟨.same, [], unitName u⟩] (some (if o.http then [] else body))] := by
  simp only [unitP, ho, if_true, Option.bind_eq_bind, Option.bind_eq_some_iff, Option.some.injEq] at hp
  obtain ⟨b, hb, rfl⟩ := hp
  refine ⟨_, unitBody_page ho hb d, ?_⟩
  simp only [pageP, headsP, blank_unitName]
  rfl

/-- **C82 (page of a file).** The summary if it is wanted, and every wanted unit. -/
theorem C82_page (o : Options) (s : FileSide) (n : Nat) (p : P) (hp : fileP o s n = some p) (d : Nat) :
    ∃ head units, pageP o.http .same p d = head ++ units ∧
      (o.categoryFile = false → head = []) ∧
      (o.categoryFile = true → ∃ q, filePartP o s = some q ∧ head = pageP o.http .same q d) ∧
      PageItems o (unitCmpBy o n) s.tsz (unitP o s n) d (wantedUnits o s.file) units := by
  simp only [fileP, Option.bind_eq_bind, Option.bind_eq_some_iff, Option.some.injEq] at hp
  obtain ⟨head, hhead, units, hunits, rfl⟩ := hp
  refine ⟨_, _, rfl, fun h => ?_, fun h => ?_, ?_⟩
  · simp only [whenP, h, Bool.false_eq_true, if_false, Option.some.injEq] at hhead; subst hhead; rfl
  · simp only [whenP, h, if_true] at hhead
    exact ⟨head, hhead, rfl⟩
  · rw [wantedUnits_eq]
    exact sortListP_page (lawful_units o) hunits d

theorem unitBodyD_page (same : Val → Val → Bool) {o : Options} (ho : o.html = true) {c : FilePair} {n : Nat}
    {u v : CompUnit} {e : D} (he : unitBodyD o c n u v = some e) (ga : ∀ t ∈ u.types, Acc (IdRef c.a.hash) t.kind)
    (d : Nat) : PagesUnitDiff same o c n u v d (pageD same o.http e d) := by
  simp only [unitBodyD, ho, if_true, Option.bind_eq_bind, Option.bind_eq_some_iff, Option.some.injEq] at he
  obtain ⟨part, hpart, types, htypes, fns, hfns, vars, hvars, rfl⟩ := he
  have hfn : ∃ f1 f2, pageD same o.http fns d = named (k "functions") f1 ++ named (k "inlined functions") f2 ∧
      (o.categoryFunction = false → f1 = [] ∧ f2 = []) ∧
      (o.categoryFunction = true → ∃ order order',
      Paired (fun f g : Function => qname f.ns f.name = qname g.ns g.name) (wantedFunctions o u) (wantedFunctions o v)
        (order ++ order') ∧
      (∀ x ∈ order, ¬ InlinedItem x) ∧ (∀ x ∈ order', InlinedItem x) ∧
      PageDiffItems same o (functionCmpBy o n) c.a.hash c.b.hash (functionP o c.a.toFnSide u.dir n)
        (functionP o c.b.toFnSide v.dir n) (functionD o c.toFnPair (c.a.unitId u) u.dir v.dir n) d order f1 ∧
      PageDiffItems same o (functionCmpBy o n) c.a.hash c.b.hash (functionP o c.a.toFnSide u.dir n)
        (functionP o c.b.toFnSide v.dir n) (functionD o c.toFnPair (c.a.unitId u) u.dir v.dir n) d order' f2) := by
    by_cases h : o.categoryFunction = true
    · rw [unitFnsD, whenD, if_pos h] at hfns
      simp only [Option.bind_eq_bind, Option.bind_eq_some_iff, Option.some.injEq] at hfns
      obtain ⟨m, hm, f, hf, g, hg, rfl⟩ := hfns
      simp only [unitMergedFns, mergedFunctions, Option.bind_eq_bind, Option.bind_eq_some_iff, Option.pure_def,
        Option.some.injEq] at hm
      obtain ⟨m, hm, rfl⟩ := hm
      have hP := mergedFunctionsAll_paired hm
      obtain ⟨o1, p1, s1⟩ := sortListD_page same (lawful_functions o) hf d
      obtain ⟨o2, p2, s2⟩ := sortListD_page same (lawful_functions o) hg d
      have hi : ∀ x : MergeResult Function Function, mergedInline x = true ↔ InlinedItem x := by
        intro x
        cases x <;> simp [mergedInline, InlinedItem, oldItem, newItem]
      refine ⟨_, _, by simp only [pageD, named_eq], fun h' => by simp [h] at h', fun _ =>
        ⟨o1, o2, ?_, fun x hx => ?_, fun x hx => ?_, s1, s2⟩⟩
      · rw [wantedFunctions_eq, wantedFunctions_eq]
        exact paired_perm hP ((p1.append p2).trans (filter_not_perm mergedInline m))
      · rw [← hi]
        have := List.mem_filter.1 (p1.mem_iff.1 hx)
        simpa using this.2
      · rw [← hi]
        exact (List.mem_filter.1 (p2.mem_iff.1 hx)).2
    · simp only [unitFnsD, whenD, h, Bool.false_eq_true, if_false, Option.some.injEq] at hfns
      subst hfns
      exact ⟨[], [], rfl, fun _ => ⟨rfl, rfl⟩, fun h' => absurd h' h⟩
  obtain ⟨f1, f2, hf, hf0, hf1⟩ := hfn
  refine ⟨pageD same o.http part d, pageD same o.http types d, f1, f2, pageD same o.http vars d, ?_, ?_⟩
  · simp only [D.seqs, pageD, hf, named_eq, List.append_nil, List.append_assoc]
  refine ⟨fun h => ?_, fun h => ?_, fun h => ?_, fun h => ?_, hf0, hf1, fun h => ?_, fun h => ?_⟩
  · simp only [whenD, h, Bool.false_eq_true, if_false, Option.some.injEq] at hpart; subst hpart; rfl
  · simp only [whenD, h, if_true] at hpart
    exact ⟨_, hpart, rfl⟩
  · simp only [unitTypesD, whenD, h, Bool.false_eq_true, if_false, Option.some.injEq] at htypes; subst htypes; rfl
  · simp only [unitTypesD, whenD, h, if_true, Option.bind_eq_bind, Option.bind_eq_some_iff] at htypes
    obtain ⟨m, hm, htypes⟩ := htypes
    obtain ⟨o1, p1, s1⟩ := sortListD_page same (lawful_types o) htypes d
    refine ⟨o1, ?_, s1⟩
    rw [wantedTypes_eq, wantedTypes_eq]
    exact paired_perm (mergedTypes_paired hm (fun t ht => ga t (List.mem_filter.1 ht).1)) p1
  · simp only [unitVariablesD, whenD, h, Bool.false_eq_true, if_false, Option.some.injEq] at hvars; subst hvars; rfl
  · simp only [unitVariablesD, whenD, h, if_true, Option.bind_eq_bind, Option.bind_eq_some_iff] at hvars
    obtain ⟨m, hm, hvars⟩ := hvars
    obtain ⟨o1, p1, s1⟩ := sortListD_page same (lawful_variables o) hvars d
    refine ⟨o1, ?_, s1⟩
    rw [wantedVariables_eq, wantedVariables_eq]
    obtain ⟨out, h1, h2⟩ := C18_merged_variables (filterVariables u o) (filterVariables v o)
    rw [hm] at h1
    cases h1
    exact paired_perm h2 p1

end Verif.Web
