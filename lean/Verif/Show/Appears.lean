import Verif.Show.FileItems
/-!
# What the diff of a file reports is in its text

Lemmas for C93: a part of a diff that reports a difference makes the whole report one, and its text is part of the
text of the whole.
-/
namespace Verif.Show
open Verif.Print Verif.Item Verif.Namespace Verif.Types Verif.Path Verif.Opts Verif.Merge Verif.Range
  Verif.File Verif.Order Verif.Filter

/-- If `f` reports a difference, so does `e`, and the text of `f` is part of the text of `e`. -/
def Carries (po : Print.Opts) (i d : Nat) (e f : D) : Prop :=
  (f.den po i .equal d).2.1 = true → (e.den po i .equal d).2.1 = true ∧
    render (f.den po i .equal d).1 <:+: render (e.den po i .equal d).1

section
variable {po : Print.Opts} {i d : Nat}

theorem Carries.trans {e f g : D} (h : Carries po i d e f) (h' : Carries po i d f g) : Carries po i d e g := fun hg =>
  ⟨(h (h' hg).1).1, (h' hg).2.trans (h (h' hg).1).2⟩

theorem carries_seqs {es : List D} {f : D} (hf : f ∈ es) : Carries po i d (.seqs es) f := fun h => by
  obtain ⟨h1, h2⟩ := D.render_seqs po es i .equal d
  rw [h1, h2]
  refine ⟨List.any_eq_true.2 ⟨f, hf, h⟩, ?_⟩
  rw [List.flatMap_def]
  obtain ⟨s, t, rfl⟩ := List.append_of_mem hf
  exact ⟨(s.map fun e => render (e.den po i .equal d).1).flatten, (t.map fun e => render (e.den po i .equal d).1).flatten,
    by simp⟩

theorem carries_seq {e f : D} : Carries po i d (.seq e f) e ∧ Carries po i d (.seq e f) f := by
  have h : ∀ g, Carries po i d (.seqs [e, f]) g → Carries po i d (.seq e f) g := by
    intro g hg h
    have := hg h
    simp only [D.seqs, D.den, List.append_nil, Bool.or_false] at this
    simpa only [D.den] using this
  exact ⟨h _ (carries_seqs (by simp)), h _ (carries_seqs (by simp))⟩

theorem carries_printIfDiff {e : D} : Carries po i d (.printIfDiff e) e := fun h => by
  simp only [D.den, h, Bool.true_or, if_true]
  exact ⟨trivial, List.infix_refl _⟩

end

section
variable {α γ : Type} {o : Options} {cmpBy : α → γ → α → γ → Res Ordering} {ha hb : γ}
  {print print' : α → Option P} {diff : α → α → Option D} {items : List (MergeResult α α)} {e : D} {i d : Nat}

theorem sortListD_carries (he : sortListD o cmpBy ha hb print print' diff items = some e) {it : MergeResult α α}
    (hit : it ∈ items) : ∃ f, sortItemD o print print' diff it = some f ∧ ∀ i d, Carries (printOpts o) i d e f := by
  simp only [sortListD, Option.bind_eq_bind, Option.bind_eq_some_iff, Option.map_eq_some_iff] at he
  obtain ⟨l, hl, es, hes, rfl⟩ := he
  obtain ⟨f, hf, hf'⟩ := mapM_image hes it ((sortWith_perm hl).mem_iff.2 hit)
  exact ⟨f, hf', fun i d => carries_seqs hf⟩

/-- What becomes of an item of the old list: it is paired, or deleted. -/
theorem sortListD_old {same : α → α → Prop} {la lb : List α} {all : List (MergeResult α α)}
    (hp : Paired same la lb all) {a : α} (ha' : a ∈ la)
    (he : ∀ it ∈ all, oldItem it = some a → ∃ f, sortItemD o print print' diff it = some f ∧
      ∀ i d, Carries (printOpts o) i d e f) :
    (∃ b ∈ lb, same a b ∧ ∃ f, diff a b = some f ∧ ∀ i d, Carries (printOpts o) i d e f) ∨
    (o.ignoreDeleted = true ∨ ∃ p, print a = some p ∧ ∀ i d, Carries (printOpts o) i d e (.prefixDelete p)) := by
  obtain ⟨it, hit, hia⟩ := List.mem_filterMap.1 (hp.old.mem_iff.2 ha')
  obtain ⟨f, hf, hc⟩ := he it hit hia
  cases it with
  | both a' b =>
    cases hia
    left
    simp only [sortItemD, Option.map_eq_some_iff] at hf
    obtain ⟨g, hg, rfl⟩ := hf
    exact ⟨b, hp.new.mem_iff.1 (List.mem_filterMap.2 ⟨_, hit, rfl⟩), hp.pairs a b hit, g, hg,
      fun i d => (hc i d).trans carries_printIfDiff⟩
  | left a' =>
    cases hia
    right
    simp only [sortItemD] at hf
    split at hf
    · left; assumption
    · simp only [Option.map_eq_some_iff] at hf
      obtain ⟨p, hp, rfl⟩ := hf
      exact .inr ⟨p, hp, hc⟩
  | right b => cases hia

/-- What becomes of an item of the new list: it is paired, or added. -/
theorem sortListD_new {same : α → α → Prop} {la lb : List α} {all : List (MergeResult α α)}
    (hp : Paired same la lb all) {b : α} (hb' : b ∈ lb)
    (he : ∀ it ∈ all, newItem it = some b → ∃ f, sortItemD o print print' diff it = some f ∧
      ∀ i d, Carries (printOpts o) i d e f) :
    (∃ a ∈ la, same a b ∧ ∃ f, diff a b = some f ∧ ∀ i d, Carries (printOpts o) i d e f) ∨
    (o.ignoreAdded = true ∨ ∃ p, print' b = some p ∧ ∀ i d, Carries (printOpts o) i d e (.prefixAdd p)) := by
  obtain ⟨it, hit, hia⟩ := List.mem_filterMap.1 (hp.new.mem_iff.2 hb')
  obtain ⟨f, hf, hc⟩ := he it hit hia
  cases it with
  | both a b' =>
    cases hia
    left
    simp only [sortItemD, Option.map_eq_some_iff] at hf
    obtain ⟨g, hg, rfl⟩ := hf
    exact ⟨a, hp.old.mem_iff.1 (List.mem_filterMap.2 ⟨_, hit, rfl⟩), hp.pairs a b hit, g, hg,
      fun i d => (hc i d).trans carries_printIfDiff⟩
  | right a' =>
    cases hia
    right
    simp only [sortItemD] at hf
    split at hf
    · left; assumption
    · simp only [Option.map_eq_some_iff] at hf
      obtain ⟨p, hp, rfl⟩ := hf
      exact .inr ⟨p, hp, hc⟩
  | left b => cases hia

/-- A list contains the listing of each of its items. -/
theorem sortListP_carries {h : γ} {l : List α} {p : P} (hp : sortListP cmpBy h print l = some p) {a : α} (ha : a ∈ l) :
    ∃ q, print a = some q ∧ ∀ http i x d, render (q.ls http i x d) <:+: render (p.ls http i x d) := by
  simp only [sortListP, Option.bind_eq_bind, Option.bind_eq_some_iff] at hp
  obtain ⟨l', hl', hp⟩ := hp
  simp only [listP, Option.map_eq_some_iff] at hp
  obtain ⟨ps, hps, rfl⟩ := hp
  obtain ⟨q, hq, hq'⟩ := mapM_image hps a ((sortWith_perm hl').mem_iff.2 ha)
  refine ⟨q, hq', fun http i x d => ?_⟩
  rw [P.render_seqs]
  obtain ⟨s, t, rfl⟩ := List.append_of_mem hq
  exact ⟨(s.map fun p => render (p.ls http i x d)).flatten, (t.map fun p => render (p.ls http i x d)).flatten, by simp⟩

end

/-! ### Units -/

section
variable {o : Options} {c : FilePair} {n : Nat} {u v : CompUnit} {e : D}

/-- The parts of the diff of a unit. -/
theorem unitD_carries (ho : o.html = false) (he : unitD o c n u v = some e) :
    ∃ types fns vars, unitTypesD o c.toFnPair.toPair n u v = some types ∧ unitFnsD o c n u v (fun _ e => e) = some fns ∧
      unitVariablesD o c n u v = some vars ∧ ∀ i d, Carries (printOpts o) i d e types ∧ Carries (printOpts o) i d e fns ∧
        Carries (printOpts o) i d e vars := by
  simp only [unitD, unitBodyD, ho, Bool.false_eq_true, if_false, Option.bind_eq_bind, Option.bind_eq_some_iff,
    Option.some.injEq] at he
  obtain ⟨_, ⟨part, hpart, types, htypes, fns, hfns, vars, hvars, rfl⟩, rfl⟩ := he
  exact ⟨types, fns, vars, htypes, hfns, hvars, fun i d => ⟨carries_seqs (by simp), carries_seqs (by simp), carries_seqs (by simp)⟩⟩

theorem unitFnsD_carries (he : unitFnsD o c n u v (fun _ e => e) = some e) (h : o.categoryFunction = true) :
    ∃ m, Paired (fun f g : Function => qname f.ns f.name = qname g.ns g.name) (wantedFunctions o u) (wantedFunctions o v) m ∧
      ∀ it ∈ m, ∃ f, sortItemD o (functionP o c.a.toFnSide u.dir n) (functionP o c.b.toFnSide v.dir n)
        (functionD o c.toFnPair (c.a.unitId u) u.dir v.dir n) it = some f ∧ ∀ i d, Carries (printOpts o) i d e f := by
  rw [unitFnsD, whenD, if_pos h] at he
  simp only [Option.bind_eq_bind, Option.bind_eq_some_iff, Option.some.injEq] at he
  obtain ⟨m, hm, f, hf, g, hg, rfl⟩ := he
  simp only [unitMergedFns, mergedFunctions, Option.bind_eq_bind, Option.bind_eq_some_iff, Option.pure_def,
    Option.some.injEq] at hm
  obtain ⟨m, hm, rfl⟩ := hm
  refine ⟨m, by rw [wantedFunctions_eq, wantedFunctions_eq]; exact mergedFunctionsAll_paired hm, fun it hit => ?_⟩
  cases hi : mergedInline it
  · obtain ⟨x, hx, hc⟩ := sortListD_carries hf (it := it) (List.mem_filter.2 ⟨hit, by simp [hi]⟩)
    exact ⟨x, hx, fun i d => carries_seq.1.trans (hc i d)⟩
  · obtain ⟨x, hx, hc⟩ := sortListD_carries hg (it := it) (List.mem_filter.2 ⟨hit, hi⟩)
    exact ⟨x, hx, fun i d => carries_seq.2.trans (hc i d)⟩

theorem unitTypesD_carries (he : unitTypesD o c.toFnPair.toPair n u v = some e) (h : o.categoryType = true)
    (ga : ∀ t ∈ u.types, Acc (IdRef c.a.hash) t.kind) :
    ∃ m, Paired (SameTypeIdent c.a.hash c.b.hash) (wantedTypes o true c.a.hash u) (wantedTypes o true c.b.hash v) m ∧
      ∀ it ∈ m, ∃ f, sortItemD o (typeP o c.a.toSide u.dir n) (typeP o c.b.toSide v.dir n)
        (typeD o c.toFnPair.toPair u.dir v.dir n) it = some f ∧ ∀ i d, Carries (printOpts o) i d e f := by
  rw [unitTypesD, whenD, if_pos h] at he
  simp only [Option.bind_eq_bind, Option.bind_eq_some_iff] at he
  obtain ⟨m, hm, he⟩ := he
  refine ⟨m, ?_, fun it hit => sortListD_carries he hit⟩
  rw [wantedTypes_eq, wantedTypes_eq]
  exact mergedTypes_paired hm (fun t ht => ga t (List.mem_filter.1 ht).1)

theorem unitVariablesD_carries (he : unitVariablesD o c n u v = some e) (h : o.categoryVariable = true) :
    ∃ m, Paired (fun x y : Variable => qname x.ns x.name = qname y.ns y.name) (wantedVariables o u) (wantedVariables o v) m ∧
      ∀ it ∈ m, ∃ f, sortItemD o (fun x => some (variableP o c.a u.dir x)) (fun x => some (variableP o c.b v.dir x))
        (fun x y => some (variableD o c u.dir v.dir x y)) it = some f ∧ ∀ i d, Carries (printOpts o) i d e f := by
  rw [unitVariablesD, whenD, if_pos h] at he
  simp only [Option.bind_eq_bind, Option.bind_eq_some_iff] at he
  obtain ⟨m, hm, he⟩ := he
  refine ⟨m, ?_, fun it hit => sortListD_carries he hit⟩
  rw [wantedVariables_eq, wantedVariables_eq]
  obtain ⟨out, h1, h2⟩ := C18_merged_variables (filterVariables u o) (filterVariables v o)
  rw [hm] at h1
  cases h1
  exact h2

/-- The listing of a unit contains the listings of its wanted items. -/
theorem unitP_carries {s : FileSide} (ho : o.html = false) {p : P} (hp : unitP o s n u = some p) :
    (o.categoryType = true → ∀ t ∈ wantedTypes o false s.hash u, ∃ q, typeP o s.toSide u.dir n t = some q ∧
      ∀ http i x d, render (q.ls http i x d) <:+: render (p.ls http i x d)) ∧
    (o.categoryFunction = true → ∀ t ∈ wantedFunctions o u, ∃ q, functionP o s.toFnSide u.dir n t = some q ∧
      ∀ http i x d, render (q.ls http i x d) <:+: render (p.ls http i x d)) ∧
    (o.categoryVariable = true → ∀ t ∈ wantedVariables o u, ∃ q, variableP o s u.dir t = q ∧
      ∀ http i x d, render (q.ls http i x d) <:+: render (p.ls http i x d)) := by
  simp only [unitP, unitBodyP, ho, Bool.false_eq_true, if_false, Option.bind_eq_bind, Option.bind_eq_some_iff,
    Option.some.injEq] at hp
  obtain ⟨_, ⟨part, hpart, types, htypes, fns, hfns, vars, hvars, rfl⟩, rfl⟩ := hp
  have key : ∀ q ∈ [part, types, fns, vars], ∀ http i x d,
      render (q.ls http i x d) <:+: render ((P.seqs [part, types, fns, vars]).ls http i x d) := by
    intro q hq http i x d
    rw [P.render_seqs]
    obtain ⟨s, t, h⟩ := List.append_of_mem hq
    rw [h]
    exact ⟨(s.map fun p => render (p.ls http i x d)).flatten, (t.map fun p => render (p.ls http i x d)).flatten, by simp⟩
  refine ⟨fun h t ht => ?_, fun h t ht => ?_, fun h t ht => ?_⟩
  · simp only [unitTypesP, whenP, h, if_true] at htypes
    rw [wantedTypes_eq] at ht
    obtain ⟨q, hq, hc⟩ := sortListP_carries htypes ht
    exact ⟨q, hq, fun http i x d => (hc http i x d).trans (key types (by simp) http i x d)⟩
  · simp only [whenP, h, if_true, fnListP] at hfns
    rw [wantedFunctions_eq] at ht
    obtain ⟨q, hq, hc⟩ := sortListP_carries hfns ht
    exact ⟨q, hq, fun http i x d => (hc http i x d).trans (key fns (by simp) http i x d)⟩
  · simp only [unitVariablesP, whenP, h, if_true] at hvars
    rw [wantedVariables_eq] at ht
    obtain ⟨q, hq, hc⟩ := sortListP_carries hvars ht
    exact ⟨q, Option.some.inj hq, fun http i x d => (hc http i x d).trans (key vars (by simp) http i x d)⟩

end

/-! ### Files -/

theorem fileD_carries {o : Options} {c : FilePair} {n : Nat} {e : D} (he : fileD o c n = some e) :
    ∃ m, Paired (fun a b : CompUnit => ∃ k, UnitName o a k ∧ UnitName o b k) (wantedUnits o c.a.file) (wantedUnits o c.b.file) m ∧
      ∀ it ∈ m, ∃ f, sortItemD o (unitP o c.a n) (unitP o c.b n) (unitD o c n) it = some f ∧
        ∀ i d, Carries (printOpts o) i d e f := by
  simp only [fileD, Option.bind_eq_bind, Option.bind_eq_some_iff, Option.some.injEq] at he
  obtain ⟨head, hhead, units, hunits, rfl⟩ := he
  simp only [unitsD, Option.bind_eq_bind, Option.bind_eq_some_iff] at hunits
  obtain ⟨m, hm, hunits⟩ := hunits
  refine ⟨m, ?_, fun it hit => ?_⟩
  · rw [wantedUnits_eq, wantedUnits_eq]
    obtain ⟨out, h1, h2⟩ := C18_merged_units o (filterUnits c.a.file.units o) (filterUnits c.b.file.units o)
    rw [hm] at h1
    cases h1
    exact h2
  · obtain ⟨f, hf, hc⟩ := sortListD_carries hunits hit
    exact ⟨f, hf, fun i d => carries_seq.2.trans (hc i d)⟩

end Verif.Show
