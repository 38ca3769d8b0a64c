import Verif.Show.FileProps
/-!
# C82: what a listing or a diff of a file consists of
-/
namespace Verif.Show
open Verif.Print Verif.Item Verif.Namespace Verif.Types Verif.Path Verif.Opts Verif.Merge Verif.Range
  Verif.File Verif.Order Verif.Filter

/-! ### Orders -/

theorem sortWith_ok {α : Type} {r : α → α → Res Ordering} {l l' : List α} (h : sortWith r l = some l') : OkOn r l l := by
  unfold sortWith at h
  split at h
  · rename_i hall
    simp only [List.all_eq_true, Bool.and_eq_true, bne_iff_ne, ne_eq] at hall
    intro x hx y hy
    have := hall x hx y hy
    cases hr : r x y with
    | ok o => exact ⟨o, rfl⟩
    | _ => simp [hr] at this
  · cases h

theorem mergeWith_ok {α : Type} {r : α → α → Res Ordering} {l l' : List α} {m : List (MergeResult α α)}
    (h : mergeWith r l l' = some m) : OkOn r l l' := by
  unfold mergeWith at h
  split at h
  · rename_i hall
    simp only [List.all_eq_true, Bool.and_eq_true, bne_iff_ne, ne_eq] at hall
    intro x hx y hy
    have := hall x hx y hy
    cases hr : r x y with
    | ok o => exact ⟨o, rfl⟩
    | _ => simp [hr] at this
  · cases h

theorem printOrder_arranged {α γ : Type} {cmpBy : Nat → α → γ → α → γ → Res Ordering} {G : α × γ → Prop}
    (hl : Lawful (fun n x y => cmpBy n x.1 x.2 y.1 y.2) G) {n : Nat} {f : γ} {l l' : List α}
    (h : printOrder (cmpBy n) f l = some l') : Arranged (fun x y => cmpBy n x f y f) l l' := by
  obtain ⟨l2, h2, ha⟩ := sortWith_spec (sortWith_ok h) (fun hxy => hl.swap (x := (_, f)) (y := (_, f)) hxy)
    (fun x y z => hl.trans n (x, f) (y, f) (z, f))
  unfold printOrder at h
  rw [h] at h2
  cases h2
  exact ha

theorem diffOrder_sorted {α γ : Type} {cmpBy : Nat → α → γ → α → γ → Res Ordering} {G : α × γ → Prop}
    (hl : Lawful (fun n x y => cmpBy n x.1 x.2 y.1 y.2) G) {n : Nat} {ha hb : γ} {l l' : List (MergeResult α α)}
    (h : diffOrder (cmpBy n) ha hb l = some l') :
    l'.Pairwise fun x y => ∃ c, cmpBy n (shown ha hb x).1 (shown ha hb x).2 (shown ha hb y).1 (shown ha hb y).2 = .ok c ∧
      c ≠ .gt := by
  have he : MergeResult.cmp (cmpBy n) ha hb = fun x y => cmpBy n (shown ha hb x).1 (shown ha hb x).2
      (shown ha hb y).1 (shown ha hb y).2 := by
    funext x y; exact C53_cmp_shown (cmpBy n) ha hb x y
  unfold diffOrder at h
  rw [he] at h
  obtain ⟨l2, h2, ha⟩ := sortWith_spec (sortWith_ok h) (fun hxy => hl.swap (x := shown ha hb _) (y := shown ha hb _) hxy)
    (fun x y z => hl.trans n (shown ha hb x) (shown ha hb y) (shown ha hb z))
  rw [h] at h2
  cases h2
  exact ha.sorted

theorem okOn_both {α : Type} {r : α → α → Res Ordering} {S T : List α}
    (hsw : ∀ {x y o}, r x y = .ok o → r y x = .ok o.swap) (h1 : OkOn r S S) (h2 : OkOn r T T) (h3 : OkOn r S T) :
    OkOn r (S ++ T) (S ++ T) := by
  intro x hx y hy
  rcases List.mem_append.1 hx with hx | hx <;> rcases List.mem_append.1 hy with hy | hy
  · exact h1 x hx y hy
  · exact h3 x hx y hy
  · obtain ⟨o, ho⟩ := h3 y hy x hx
    exact ⟨_, hsw ho⟩
  · exact h2 x hx y hy

/-- A merge that returns pairs the items. -/
theorem merge_paired {α γ : Type} {r c : α × γ → α × γ → Res Ordering} {ha hb : γ} {la lb : List α}
    (hr : ∀ {x y o}, r x y = .ok o → r y x = .ok o.swap) (hrt : ∀ x y z, T3 (r x y) (r y z) (r x z))
    (hc : ∀ {x y o}, c x y = .ok o → c y x = .ok o.swap) (hct : ∀ x y z, T3 (c x y) (c y z) (c x z))
    (href : ∀ x y o, r x y = .ok o → o ≠ .gt → ∃ o', c x y = .ok o' ∧ o' ≠ .gt)
    (hrc : ∀ x y o, r x y = .ok o → ∃ o', c x y = .ok o')
    {m : List (MergeResult α α)}
    (h : (do
      let sa ← sortWith (fun x y => r (x, ha) (y, ha)) la
      let sb ← sortWith (fun x y => r (x, hb) (y, hb)) lb
      mergeWith (fun x y => c (x, ha) (y, hb)) sa sb) = some m) :
    Paired (fun x y => c (x, ha) (y, hb) = .ok .eq) la lb m := by
  have h0 := h
  simp only [Option.bind_eq_bind, Option.bind_eq_some_iff] at h
  obtain ⟨sa, ea, sb, eb, hm⟩ := h
  have lift : ∀ (f g : γ) (l l' : List α) (q : α × γ → α × γ → Res Ordering),
      OkOn (fun x y => q (x, f) (y, g)) l l' → OkOn q (l.map (·, f)) (l'.map (·, g)) := by
    intro f g l l' q hq x hx y hy
    obtain ⟨x', hx', rfl⟩ := List.mem_map.1 hx
    obtain ⟨y', hy', rfl⟩ := List.mem_map.1 hy
    exact hq x' hx' y' hy'
  have r1 := lift ha ha la la r (sortWith_ok ea)
  have r2 := lift hb hb lb lb r (sortWith_ok eb)
  have c3 : OkOn (fun x y => c (x, ha) (y, hb)) la lb := fun x hx y hy =>
    mergeWith_ok hm x ((sortWith_perm ea).mem_iff.2 hx) y ((sortWith_perm eb).mem_iff.2 hy)
  obtain ⟨out, h1, h2⟩ := merge_spec ha hb la lb hr hrt hc hct href r1 r2
    (okOn_both hc (fun x hx y hy => (r1 x hx y hy).elim fun o ho => hrc _ _ o ho)
      (fun x hx y hy => (r2 x hx y hy).elim fun o ho => hrc _ _ o ho) (lift ha hb la lb c c3))
  rw [h0] at h1
  cases h1
  exact h2

theorem paired_perm {α : Type} {same : α → α → Prop} {la lb : List α} {m m' : List (MergeResult α α)}
    (h : Paired same la lb m) (hp : m'.Perm m) : Paired same la lb m' where
  old := (hp.filterMap _).trans h.old
  new := (hp.filterMap _).trans h.new
  pairs a b hab := h.pairs a b (hp.mem_iff.1 hab)
  maximal a b h1 h2 := h.maximal a b (hp.mem_iff.1 h1) (hp.mem_iff.1 h2)

theorem mergedTypes_paired {n : Nat} {ha hb : Hash} {la lb : List TypeEntry} {m : List (MergeResult TypeEntry TypeEntry)}
    (h : mergedTypes n ha la hb lb = some m)
    (ga : ∀ x ∈ la, Acc (IdRef ha) x.kind) :
    Paired (SameTypeIdent ha hb) la lb m := by
  have hL := lawful_cmpId (fun x : TypeEntry × Hash => (x.2, x.1.kind))
  have h0 := h
  simp only [mergedTypes, Option.bind_eq_bind, Option.bind_eq_some_iff] at h0
  obtain ⟨sa, ea, sb, eb, hm⟩ := h0
  have h2 := merge_paired
    (r := fun x y : TypeEntry × Hash => cmpId false n x.2 x.1.kind y.2 y.1.kind)
    (c := fun x y : TypeEntry × Hash => cmpId false n x.2 x.1.kind y.2 y.1.kind)
    (fun h => hL.swap h) (fun x y z => hL.trans n x y z) (fun h => hL.swap h) (fun x y z => hL.trans n x y z)
    (fun x y o h1 h2 => ⟨o, h1, h2⟩) (fun x y o h => ⟨o, h⟩) (ha := ha) (hb := hb) (la := la) (lb := lb) (m := m) h
  refine ⟨h2.old, h2.new, ?_, ?_⟩
  · intro a b h
    have hab := (C11_eq_iff_same_identity_partial false n ha hb _ _ _ (h2.pairs a b h)).1 rfl
    have hm : a ∈ la := h2.old.mem_iff.1 (List.mem_filterMap.2 ⟨_, h, rfl⟩)
    obtain ⟨i, hi⟩ := C11_identity_exists ha a.kind (ga a hm)
    exact ⟨i, hi, (hab i).1 hi⟩
  · rintro a b h h' ⟨i, i1, i2⟩
    have m1 : a ∈ la := h2.old.mem_iff.1 (List.mem_filterMap.2 ⟨_, h, rfl⟩)
    have m2 : b ∈ lb := h2.new.mem_iff.1 (List.mem_filterMap.2 ⟨_, h', rfl⟩)
    obtain ⟨o, ho⟩ := mergeWith_ok hm a ((sortWith_perm ea).mem_iff.2 m1) b ((sortWith_perm eb).mem_iff.2 m2)
    have := (C11_eq_iff_same_identity_partial false n ha hb _ _ _ ho).2 i i1 i2
    subst this
    exact h2.maximal a b h h' ho

theorem mergedFunctionsAll_paired {n : Nat} {ha hb : Hash} {la lb : List Function} {m : List (MergeResult Function Function)}
    (h : mergedFunctionsAll n ha la hb lb = some m) :
    Paired (fun f g : Function => qname f.ns f.name = qname g.ns g.name) la lb m := by
  have hL := lawful_functionSort
  have hC := lawful_pure (fun x : Function × Hash => (x.1.ns, x.1.name)) cmpQName (fun _ => True)
  have h2 := merge_paired
    (r := fun x y : Function × Hash => functionCmpIdForSort n x.1 x.2 y.1 y.2)
    (c := fun x y : Function × Hash => .ok (cmpQName (x.1.ns, x.1.name) (y.1.ns, y.1.name)))
    (fun h => hL.swap h) (fun x y z => hL.trans n x y z)
    (fun h => hC.swap (n := 0) h) (fun x y z => hC.trans 0 x y z)
    (fun x y o h1 h2 => by
      rcases lexR_ok h1 with ⟨h, _⟩ | ⟨h, _⟩
      · exact ⟨o, h, h2⟩
      · exact ⟨.eq, h, by simp⟩)
    (fun x y o _ => ⟨_, rfl⟩) (ha := ha) (hb := hb) (la := la) (lb := lb) (m := m) h
  exact ⟨h2.old, h2.new, fun a b h => (sameQName _ _).1 (Res.ok.inj (h2.pairs a b h)),
    fun a b h h' e => h2.maximal a b h h' (by rw [(sameQName _ _).2 e])⟩

/-! ### Text of lists -/

theorem all2_of_mapM {α β : Type} {f : α → Option β} {l : List α} {r : List β} (h : l.mapM f = some r) :
    All2 (fun a b => f a = some b) l r := by
  induction l generalizing r with
  | nil => simp only [List.mapM_nil, Option.pure_def, Option.some.injEq] at h; subst h; exact .nil
  | cons a l ih =>
    simp only [List.mapM_cons, Option.bind_eq_bind, Option.bind_eq_some_iff, Option.pure_def, Option.some.injEq] at h
    obtain ⟨b, hb, bs, hbs, rfl⟩ := h
    exact .cons hb (ih hbs)

theorem all2_texts {α β : Type} {R : α → β → Prop} {S : α → Str → Prop} {g : β → Str} {l : List α} {r : List β}
    (h : All2 R l r) (hs : ∀ a b, R a b → S a (g b)) : All2 S l (r.map g) := by
  induction h with
  | nil => exact .nil
  | cons h _ ih => exact .cons (hs _ _ h) ih

theorem sortListD_shows {α γ : Type} {o : Options} (ho : o.html = false)
    {cmpBy : Nat → α → γ → α → γ → Res Ordering} {G : α × γ → Prop}
    (hl : Lawful (fun n x y => cmpBy n x.1 x.2 y.1 y.2) G) {n : Nat} {ha hb : γ}
    {print print' : α → Option P} {diff : α → α → Option D} {items : List (MergeResult α α)} {e : D}
    (he : sortListD o (cmpBy n) ha hb print print' diff items = some e) (i : Nat) (x : DiffPrefix) (d : Nat) :
    ∃ order, order.Perm items ∧
      ShowsItems o (cmpBy n) ha hb print print' diff i d order (render (e.den (printOpts o) i x d).1) := by
  simp only [sortListD, Option.bind_eq_bind, Option.bind_eq_some_iff, Option.map_eq_some_iff] at he
  obtain ⟨l, hl', es, hes, rfl⟩ := he
  refine ⟨l, sortWith_perm hl', diffOrder_sorted hl hl', es.map fun e => render (e.den (printOpts o) i .equal d).1, ?_, ?_⟩
  · refine all2_texts (all2_of_mapM hes) fun it f hf => ?_
    cases it with
    | both a b =>
      simp only [sortItemD, Option.map_eq_some_iff] at hf
      obtain ⟨g, hg, rfl⟩ := hf
      have hh : (printOpts o).html = false := ho
      cases hfl : (g.den (printOpts o) i .equal d).2.1
      · have h1 : ItemText o print print' diff i d (.both a b) [] := .unchanged hg (by rw [D.flag_eq]; exact hfl)
        simpa [D.den, hfl, hh, render] using h1
      · have h1 : ItemText o print print' diff i d (.both a b) (render (g.lines (printOpts o) i .equal d)) :=
          .changed hg (by rw [D.flag_eq]; exact hfl)
        rw [D.lines_eq] at h1
        simpa [D.den, hfl] using h1
    | left a =>
      simp only [sortItemD] at hf
      split at hf
      · cases hf; exact .notDeleted ‹_›
      · simp only [Option.map_eq_some_iff] at hf
        obtain ⟨p, hp, rfl⟩ := hf
        have h1 : ItemText o print print' diff i d (.left a) (render (p.lines o.http i .delete d)) :=
          .deleted (by simpa using ‹¬ o.ignoreDeleted = true›) hp
        rw [P.lines_eq] at h1
        simpa [D.den, printOpts] using h1
    | right a =>
      simp only [sortItemD] at hf
      split at hf
      · cases hf; exact .notAdded ‹_›
      · simp only [Option.map_eq_some_iff] at hf
        obtain ⟨p, hp, rfl⟩ := hf
        have h1 : ItemText o print print' diff i d (.right a) (render (p.lines o.http i .add d)) :=
          .added (by simpa using ‹¬ o.ignoreAdded = true›) hp
        rw [P.lines_eq] at h1
        simpa [D.den, printOpts] using h1
  · rw [(D.render_seqs _ _ _ _ _).1, List.flatMap_def]

theorem P.render_seqs (http : Bool) (ps : List P) (i : Nat) (x : DiffPrefix) (d : Nat) :
    render ((P.seqs ps).ls http i x d) = (ps.map fun p => render (p.ls http i x d)).flatten := by
  induction ps with
  | nil => rfl
  | cons p ps ih => simp only [P.seqs, P.ls, render_append, ih, List.map_cons, List.flatten_cons]

theorem sortListP_lists {α γ : Type} {o : Options} {cmpBy : Nat → α → γ → α → γ → Res Ordering} {G : α × γ → Prop}
    (hl : Lawful (fun n x y => cmpBy n x.1 x.2 y.1 y.2) G) {n : Nat} {h : γ} {print : α → Option P} {l : List α} {p : P}
    (hp : sortListP (cmpBy n) h print l = some p) (i d : Nat) :
    ListsItems o (cmpBy n) h print i d l (render (p.ls o.http i .none d)) := by
  simp only [sortListP, Option.bind_eq_bind, Option.bind_eq_some_iff] at hp
  obtain ⟨l', hl', hp⟩ := hp
  simp only [listP, Option.map_eq_some_iff] at hp
  obtain ⟨ps, hps, rfl⟩ := hp
  refine ⟨l', ps.map fun p => render (p.ls o.http i .none d), printOrder_arranged hl hl', ?_, P.render_seqs ..⟩
  exact all2_texts (all2_of_mapM hps) fun a p h => ⟨p, h, by rw [P.lines_eq]⟩

/-! ## The listing -/

/-- The listing of a unit. -/
theorem C82_unit_listing (o : Options) (ho : o.html = false) (s : FileSide) (n : Nat) (u : CompUnit) (p : P)
    (hp : unitP o s n u = some p) (i d : Nat) : ListsUnit o s n u i d (render (p.lines o.http i .none d)) := by
  simp only [unitP, unitBodyP, ho, Bool.false_eq_true, if_false, Option.bind_eq_bind, Option.bind_eq_some_iff,
    Option.some.injEq] at hp
  obtain ⟨_, ⟨part, hpart, types, htypes, fns, hfns, vars, hvars, rfl⟩, rfl⟩ := hp
  rw [P.lines_eq]
  refine ⟨_, _, _, _, by simp only [P.seqs, P.ls, render_append, List.append_assoc, List.append_nil]; rfl, ?_⟩
  refine ⟨fun h => ?_, fun h => ?_, fun h => ?_, fun h => ?_, fun h => ?_, fun h => ?_, fun h => ?_, fun h => ?_⟩
  · simp only [whenP, h, Bool.false_eq_true, if_false, Option.some.injEq] at hpart; subst hpart; rfl
  · simp only [whenP, h, if_true, Option.map_eq_some_iff] at hpart
    obtain ⟨q, hq, rfl⟩ := hpart
    exact ⟨q, hq, by rw [P.lines_eq]⟩
  · simp only [unitTypesP, whenP, h, Bool.false_eq_true, if_false, Option.some.injEq] at htypes; subst htypes; rfl
  · simp only [unitTypesP, whenP, h, if_true] at htypes
    rw [wantedTypes_eq]
    exact sortListP_lists (lawful_types o) htypes i d
  · simp only [whenP, h, Bool.false_eq_true, if_false, Option.some.injEq] at hfns; subst hfns; rfl
  · simp only [whenP, h, if_true, fnListP] at hfns
    rw [wantedFunctions_eq]
    exact sortListP_lists (lawful_functions o) hfns i d
  · simp only [unitVariablesP, whenP, h, Bool.false_eq_true, if_false, Option.some.injEq] at hvars; subst hvars; rfl
  · simp only [unitVariablesP, whenP, h, if_true] at hvars
    rw [wantedVariables_eq]
    exact sortListP_lists (lawful_variables o) hvars i d

/-- The listing of a file: the summary if it is wanted, and the listing of every wanted unit. -/
theorem C82_listing (o : Options) (s : FileSide) (n : Nat) (p : P) (hp : fileP o s n = some p) (i d : Nat) :
    ∃ head units, render (p.lines o.http i .none d) = head ++ units ∧
      (o.categoryFile = false → head = []) ∧
      (o.categoryFile = true → ∃ q, filePartP o s = some q ∧ head = render (q.lines o.http i .none d)) ∧
      ListsItems o (unitCmpBy o n) s.tsz (unitP o s n) i d (wantedUnits o s.file) units := by
  simp only [fileP, Option.bind_eq_bind, Option.bind_eq_some_iff, Option.some.injEq] at hp
  obtain ⟨head, hhead, units, hunits, rfl⟩ := hp
  refine ⟨_, _, by rw [P.lines_eq, P.ls, render_append], fun h => ?_, fun h => ?_, ?_⟩
  · simp only [whenP, h, Bool.false_eq_true, if_false, Option.some.injEq] at hhead; subst hhead; rfl
  · simp only [whenP, h, if_true] at hhead
    exact ⟨head, hhead, by rw [P.lines_eq]⟩
  · rw [wantedUnits_eq]
    exact sortListP_lists (lawful_units o) hunits i d

/-! ## The diff -/

theorem unitFnsD_shows {o : Options} (ho : o.html = false) {c : FilePair} {n : Nat} {u v : CompUnit} {e : D}
    (he : unitFnsD o c n u v (fun _ e => e) = some e) (h : o.categoryFunction = true) (i : Nat) (x : DiffPrefix) (d : Nat) :
    ∃ fns inl order order', render (e.den (printOpts o) i x d).1 = fns ++ inl ∧
      Paired (fun f g : Function => qname f.ns f.name = qname g.ns g.name) (wantedFunctions o u) (wantedFunctions o v)
        (order ++ order') ∧
      (∀ x ∈ order, ¬ InlinedItem x) ∧ (∀ x ∈ order', InlinedItem x) ∧
      ShowsItems o (functionCmpBy o n) c.a.hash c.b.hash (functionP o c.a.toFnSide u.dir n)
        (functionP o c.b.toFnSide v.dir n) (functionD o c.toFnPair (c.a.unitId u) u.dir v.dir n) i d order fns ∧
      ShowsItems o (functionCmpBy o n) c.a.hash c.b.hash (functionP o c.a.toFnSide u.dir n)
        (functionP o c.b.toFnSide v.dir n) (functionD o c.toFnPair (c.a.unitId u) u.dir v.dir n) i d order' inl := by
  rw [unitFnsD, whenD, if_pos h] at he
  simp only [Option.bind_eq_bind, Option.bind_eq_some_iff, Option.some.injEq] at he
  obtain ⟨m, hm, f, hf, g, hg, rfl⟩ := he
  simp only [unitMergedFns, mergedFunctions, Option.bind_eq_bind, Option.bind_eq_some_iff, Option.pure_def,
    Option.some.injEq] at hm
  obtain ⟨m, hm, rfl⟩ := hm
  have hP := mergedFunctionsAll_paired hm
  obtain ⟨o1, p1, s1⟩ := sortListD_shows ho (lawful_functions o) hf i x d
  obtain ⟨o2, p2, s2⟩ := sortListD_shows ho (lawful_functions o) hg i (f.den (printOpts o) i x d).2.2 d
  have hi : ∀ x : MergeResult Function Function, mergedInline x = true ↔ InlinedItem x := by
    intro x
    cases x <;> simp [mergedInline, InlinedItem, oldItem, newItem]
  refine ⟨_, _, o1, o2, by simp only [D.den, render_append], ?_, fun x hx => ?_, fun x hx => ?_, s1, s2⟩
  · rw [wantedFunctions_eq, wantedFunctions_eq]
    exact paired_perm hP ((p1.append p2).trans (filter_not_perm mergedInline m))
  · rw [← hi]
    have := List.mem_filter.1 (p1.mem_iff.1 hx)
    simpa using this.2
  · rw [← hi]
    exact (List.mem_filter.1 (p2.mem_iff.1 hx)).2

/-- The diff of a unit of which both files have a version. -/
theorem C82_unit_items (o : Options) (ho : o.html = false) (c : FilePair) (n : Nat) (u v : CompUnit) (e : D)
    (he : unitD o c n u v = some e)
    (ga : ∀ t ∈ u.types, Acc (IdRef c.a.hash) t.kind)
    (i : Nat) (x : DiffPrefix) (d : Nat) : ShowsUnit o c n u v i d (render (e.lines (printOpts o) i x d)) := by
  simp only [unitD, unitBodyD, ho, Bool.false_eq_true, if_false, Option.bind_eq_bind, Option.bind_eq_some_iff,
    Option.some.injEq] at he
  obtain ⟨_, ⟨part, hpart, types, htypes, fns, hfns, vars, hvars, rfl⟩, rfl⟩ := he
  rw [D.lines_eq, (D.render_seqs _ _ _ _ _).1]
  simp only [List.flatMap_cons, List.flatMap_nil, List.append_nil]
  have hfn : ∃ f1 f2, render (fns.den (printOpts o) i .equal d).1 = f1 ++ f2 ∧
      (o.categoryFunction = false → f1 = [] ∧ f2 = []) ∧
      (o.categoryFunction = true → ∃ order order',
      Paired (fun f g : Function => qname f.ns f.name = qname g.ns g.name) (wantedFunctions o u) (wantedFunctions o v)
        (order ++ order') ∧
      (∀ x ∈ order, ¬ InlinedItem x) ∧ (∀ x ∈ order', InlinedItem x) ∧
      ShowsItems o (functionCmpBy o n) c.a.hash c.b.hash (functionP o c.a.toFnSide u.dir n)
        (functionP o c.b.toFnSide v.dir n) (functionD o c.toFnPair (c.a.unitId u) u.dir v.dir n) i d order f1 ∧
      ShowsItems o (functionCmpBy o n) c.a.hash c.b.hash (functionP o c.a.toFnSide u.dir n)
        (functionP o c.b.toFnSide v.dir n) (functionD o c.toFnPair (c.a.unitId u) u.dir v.dir n) i d order' f2) := by
    by_cases h : o.categoryFunction = true
    · obtain ⟨f1, f2, o1, o2, h1, h2⟩ := unitFnsD_shows ho hfns h i .equal d
      exact ⟨f1, f2, h1, fun h' => by simp [h] at h', fun _ => ⟨o1, o2, h2⟩⟩
    · simp only [unitFnsD, whenD, h, Bool.false_eq_true, if_false, Option.some.injEq] at hfns
      subst hfns
      exact ⟨[], [], rfl, fun _ => ⟨rfl, rfl⟩, fun h' => absurd h' h⟩
  obtain ⟨f1, f2, hf, hf0, hf1⟩ := hfn
  refine ⟨_, _, f1, f2, _, by rw [hf]; simp only [List.append_assoc]; rfl, ?_⟩
  refine ⟨fun h => ?_, fun h => ?_, fun h => ?_, fun h => ?_, hf0, hf1, fun h => ?_, fun h => ?_⟩
  · simp only [whenD, h, Bool.false_eq_true, if_false, Option.some.injEq] at hpart; subst hpart; rfl
  · simp only [whenD, h, if_true, Option.map_eq_some_iff] at hpart
    obtain ⟨q, hq, rfl⟩ := hpart
    exact ⟨q, hq, by rw [D.lines_eq]⟩
  · simp only [unitTypesD, whenD, h, Bool.false_eq_true, if_false, Option.some.injEq] at htypes; subst htypes; rfl
  · simp only [unitTypesD, whenD, h, if_true, Option.bind_eq_bind, Option.bind_eq_some_iff] at htypes
    obtain ⟨m, hm, htypes⟩ := htypes
    obtain ⟨o1, p1, s1⟩ := sortListD_shows ho (lawful_types o) htypes i .equal d
    refine ⟨o1, ?_, s1⟩
    rw [wantedTypes_eq, wantedTypes_eq]
    exact paired_perm (mergedTypes_paired hm (fun t ht => ga t (List.mem_filter.1 ht).1)) p1
  · simp only [unitVariablesD, whenD, h, Bool.false_eq_true, if_false, Option.some.injEq] at hvars; subst hvars; rfl
  · simp only [unitVariablesD, whenD, h, if_true, Option.bind_eq_bind, Option.bind_eq_some_iff] at hvars
    obtain ⟨m, hm, hvars⟩ := hvars
    obtain ⟨o1, p1, s1⟩ := sortListD_shows ho (lawful_variables o) hvars i .equal d
    refine ⟨o1, ?_, s1⟩
    rw [wantedVariables_eq, wantedVariables_eq]
    obtain ⟨out, h1, h2⟩ := C18_merged_variables (filterVariables u o) (filterVariables v o)
    rw [hm] at h1
    cases h1
    exact paired_perm h2 p1

/-- The diff of two files: the diff of the summaries if it is wanted, and the units of both files,
each once, paired by their mapped names. -/
theorem C82_items (o : Options) (ho : o.html = false) (c : FilePair) (n : Nat) (e : D)
    (he : fileD o c n = some e) (i : Nat) (x : DiffPrefix) (d : Nat) :
    ∃ head units order, render (e.lines (printOpts o) i x d) = head ++ units ∧
      (o.categoryFile = false → head = []) ∧
      (o.categoryFile = true → ∃ q, filePartD o c = some q ∧ head = render (q.lines (printOpts o) i .equal d)) ∧
      Paired (fun a b : CompUnit => ∃ k, UnitName o a k ∧ UnitName o b k) (wantedUnits o c.a.file)
        (wantedUnits o c.b.file) order ∧
      ShowsItems o (unitCmpBy o n) c.a.tsz c.b.tsz (unitP o c.a n) (unitP o c.b n) (unitD o c n) i d order units := by
  simp only [fileD, Option.bind_eq_bind, Option.bind_eq_some_iff, Option.some.injEq] at he
  obtain ⟨head, hhead, units, hunits, rfl⟩ := he
  simp only [unitsD, Option.bind_eq_bind, Option.bind_eq_some_iff] at hunits
  obtain ⟨m, hm, hunits⟩ := hunits
  obtain ⟨order, p1, s1⟩ := sortListD_shows ho (lawful_units o) hunits i .equal d
  have hr := (D.render_seqs (printOpts o) [head, units] i x d).1
  simp only [List.flatMap_cons, List.flatMap_nil, List.append_nil] at hr
  refine ⟨render (head.den (printOpts o) i .equal d).1, _, order, ?_, fun h => ?_, fun h => ?_, ?_, s1⟩
  · rw [D.lines_eq, ← hr]
    simp [D.seqs, D.den]
  · simp only [whenD, h, Bool.false_eq_true, if_false, Option.some.injEq] at hhead; subst hhead; rfl
  · simp only [whenD, h, if_true] at hhead
    exact ⟨head, hhead, by rw [D.lines_eq]⟩
  · rw [wantedUnits_eq, wantedUnits_eq]
    obtain ⟨out, h1, h2⟩ := C18_merged_units o (filterUnits c.a.file.units o) (filterUnits c.b.file.units o)
    rw [hm] at h1
    cases h1
    exact paired_perm h2 p1

end Verif.Show
