import Verif.Turn.Fns
/-!
# C104: units and files the other way round
-/
namespace Verif.Turn
open Verif.Print Verif.Item Verif.Namespace Verif.Types Verif.Layout Verif.Path Verif.Opts Verif.Merge Verif.Range
  Verif.File Verif.Show Verif.Order

variable {po : Print.Opts}

theorem variableD_twin (o : Options) (c : FilePair) (da db : Option Str) (v w : Variable) :
    Twin po (variableD o c da db v w) (variableD o (turn c) db da w v) := by
  refine Twin.seq (Twin.indent _ (Twin.lineSwap _ _ _) (Twin.seqs ?_)) Twin.lineBreak
  exact .cons (Twin.ignoreDiff _ (Twin.lineSwap _ _ _)) (.cons (Twin.ignoreDiff _ (Twin.lineSwap _ _ _))
    (.cons (sourceD_twin o da db _ _) (.cons (Twin.ignoreDiff _ (Twin.lineSwap _ _ _)) (.cons (Twin.lineSwap _ _ _)
    (.cons (Twin.lineSwap _ _ _) .nil)))))

theorem unitVariablesD_twin (ho : po.html = false) (o : Options) (c : FilePair) (n : Nat) (u v : CompUnit) {e e' : D}
    (h : unitVariablesD o c n u v = some e) (h' : unitVariablesD (turnOptions o) (turn c) n v u = some e') : Twin po e e' := by
  refine whenD_twin h h' fun x y hx hy => ?_
  simp only [Option.bind_eq_bind, Option.bind_eq_some_iff] at hx hy
  obtain ⟨m, hm, hx⟩ := hx
  obtain ⟨m', hm', hy⟩ := hy
  have hm'' : mergedVariables (Filter.filterVariables v o) (Filter.filterVariables u o) = some m' := hm'
  rw [mergedVariables_turn, hm] at hm''
  cases hm''
  refine sortListD_twin ho hx hy ?_
  rintro a b _ x y ⟨⟩ ⟨⟩
  exact variableD_twin o c u.dir v.dir a b

theorem unitTypesD_twin (ho : po.html = false) (o : Options) {c : Pair} {Ta Tb : Ty → Prop} (ra : ReadAlike c Ta Tb)
    (ha : ∀ o t, fromOffset c.a.hash o = some t → Ta t) (hb : ∀ o t, fromOffset c.b.hash o = some t → Tb t) (n : Nat)
    (u v : CompUnit) (hu : ∀ x ∈ u.types, Ta x.kind) (hv : ∀ x ∈ v.types, Tb x.kind) {e e' : D}
    (h : unitTypesD o c n u v = some e) (h' : unitTypesD (turnOptions o) (turnPair c) n v u = some e') : Twin po e e' := by
  refine whenD_twin h h' fun x y hx hy => ?_
  simp only [Option.bind_eq_bind, Option.bind_eq_some_iff] at hx hy
  obtain ⟨m, hm, hx⟩ := hx
  obtain ⟨m', hm', hy⟩ := hy
  have hm'' : mergedTypes n c.b.hash (Filter.filterTypes c.b.hash v o true) c.a.hash (Filter.filterTypes c.a.hash u o true)
    = some m' := hm'
  rw [mergedTypes_turn, hm] at hm''
  cases hm''
  refine sortListD_twin ho hx hy ?_
  intro a b hab x y hx hy
  have hp := merge_perm hm
  have h1 := hp.1.mem_iff.1 (both_mem hab).1
  have h2 := hp.2.mem_iff.1 (both_mem hab).2
  exact typeD_twin ho ra ha hb o u.dir v.dir n (hu a (List.mem_filter.1 h1).1) (hv b (List.mem_filter.1 h2).1) hx hy

theorem sizeLineD_twin (l : Str) {a b : Nat} {e e' : D} (h : sizeLineD l a b = some e) (h' : sizeLineD l b a = some e') :
    Twin po e e' := by
  unfold sizeLineD at h h'
  by_cases hz : a ≠ 0 ∨ b ≠ 0
  · rw [if_pos hz] at h
    rw [if_pos (Or.comm.1 hz)] at h'
    exact fieldU64_twin l h h'
  · rw [if_neg hz] at h
    rw [if_neg (fun h => hz (Or.comm.1 h))] at h'
    cases h; cases h'
    exact Twin.skip

theorem unitRangesD_twin (a b : Side) (u v : CompUnit) : Twin po (unitRangesD a b u v) (unitRangesD b a v u) := by
  unfold unitRangesD
  refine Twin.seq ?_ (Twin.field _ _ (rangeItemsD_twin _ _))
  by_cases h : (u.knownRanges a.tsz).length > 1 ∨ (v.knownRanges b.tsz).length > 1
  · simp only [if_pos h, if_pos (Or.comm.1 h)]
    exact Twin.field _ _ (rangeItemsD_twin _ _)
  · simp only [if_neg h, if_neg (fun h' => h (Or.comm.1 h'))]
    exact Twin.lineSwap _ _ _

theorem unitPartD_twin (o : Options) (a b : Side) (u v : CompUnit) {e e' : D} (h : unitPartD o a b u v = some e)
    (h' : unitPartD o b a v u = some e') : Twin po e e' := by
  simp only [unitPartD, Option.bind_eq_bind, Option.bind_eq_some_iff, Option.some.injEq] at h h'
  obtain ⟨f1, hf1, f2, hf2, v1, hv1, v2, hv2, w1, hw1, w2, hw2, f, hf, x, hx, w, hw, rfl⟩ := h
  obtain ⟨f1', hf1', f2', hf2', v1', hv1', v2', hv2', w1', hw1', w2', hw2', f', hf', x', hx', w', hw', rfl⟩ := h'
  rw [hf1] at hf2'; cases hf2'
  rw [hf2] at hf1'; cases hf1'
  rw [hv1] at hv2'; cases hv2'
  rw [hv2] at hv1'; cases hv1'
  rw [hw1] at hw2'; cases hw2'
  rw [hw2] at hw1'; cases hw1'
  refine Twin.seqs (.cons ?_ (.cons (sizeLineD_twin _ hf hf') (.cons (sizeLineD_twin _ hx hx')
    (.cons (sizeLineD_twin _ hw hw') (.cons Twin.lineBreak .nil)))))
  exact Twin.whenSkip (unitRangesD_twin a b u v)

theorem sectionD_twin {x y : Section} {e e' : D} (h : sectionD x y = some e) (h' : sectionD y x = some e') : Twin po e e' := by
  simp only [sectionD, Option.bind_eq_bind, Option.bind_eq_some_iff, Option.some.injEq] at h h'
  obtain ⟨s, hs, rfl⟩ := h
  obtain ⟨s', hs', rfl⟩ := h'
  exact Twin.indent _ (Twin.lineSwap _ _ _) (Twin.seq (Twin.lineSwap _ _ _) (fieldU64_twin _ hs hs'))

theorem sections_lists : ∀ la lb, Lists po (fun x => some (sectionP x)) (fun x => some (sectionP x)) sectionD sectionD (fun _ => 1)
    sectionCost sectionCost (fun _ _ _ => False) (fun _ _ _ => False) la lb := by
  intro la lb
  have hne : ∀ (x : Section) http i m d, (sectionP x).ls http i m d ≠ [] := by
    intro x http i m d
    simp [sectionP, P.ls, P.fieldU64, dec_ne_nil, Val.text']
  have hd : ∀ x y e, sectionD x y = some e → ∀ i m d, (e.den po i m d).1 ≠ [] := by
    intro x y e h i m d
    simp only [sectionD, Option.bind_eq_bind, Option.bind_eq_some_iff, Option.some.injEq] at h
    obtain ⟨s, hs, rfl⟩ := h
    rw [indent_den]
    have hb := fieldU64_den (po := po) _ hs
    have : ((D.seq (.line (k "address") (rangeVal x.range) (rangeVal y.range)) s).den po (i + 1) .equal d).1 ≠ [] := by
      intro h0
      exact (hb _ _ _).1 (List.append_eq_nil_iff.1 h0).2
    rw [if_neg this]
    intro h0
    exact this (List.append_eq_nil_iff.1 h0).2
  have hz : ∀ x y, sectionCost x y < 1 + 1 → sectionCost x y = 0 := by
    intro x y h
    unfold sectionCost at h ⊢
    split
    · rfl
    · rename_i hn; rw [if_neg hn] at h; omega
  exact {
    pos := fun _ => Nat.one_pos
    costs := fun a b => sectionCost_turn a b
    old := by rintro a _ x ⟨⟩ i m d; exact iff_of_false (hne _ _ _ _ _) (fun h => h)
    new := by rintro a _ x ⟨⟩ i m d; exact iff_of_false (hne _ _ _ _ _) (fun h => h)
    empty := fun a _ b _ x hx i m d => iff_of_false (hd _ _ _ hx i m d) (fun h => h.1)
    empty' := fun a _ b _ x hx i m d => iff_of_false (hd _ _ _ hx i m d) (fun h => h.1)
    twin := fun a _ b _ x y hx hy => sectionD_twin hx hy
    quiet := fun a _ b _ x _ hc _ _ _ _ => hz a b hc
    quiet' := fun a _ b _ x _ hc _ _ _ _ => hz a b hc }

theorem filePartD_twin (ho : po.html = false) (o : Options) (c : FilePair) {e e' : D} (h : filePartD o c = some e)
    (h' : filePartD (turnOptions o) (turn c) = some e') : Twin po e e' := by
  simp only [filePartD, diffSummaries, Option.bind_eq_bind, Option.bind_eq_some_iff, Option.some.injEq, Option.pure_def, turn] at h h'
  obtain ⟨_, ⟨sa, hsa, sb, hsb, rfl⟩, s, hs, f, hf, v, hv, w, hw, x, hx, rfl⟩ := h
  obtain ⟨_, ⟨sa', hsa', sb', hsb', rfl⟩, s', hs', f', hf', v', hv', w', hw', x', hx', rfl⟩ := h'
  rw [hsa] at hsb'; cases hsb'
  rw [hsb] at hsa'; cases hsa'
  refine Twin.seq (Twin.indent _ (Twin.lineSwap _ _ _) (Twin.seqs ?_)) Twin.lineBreak
  exact .cons (Twin.whenSkip (Twin.field _ _ (rangeItemsD_twin _ _))) (.cons (fieldU64_twin _ hs hs')
    (.cons (fieldU64_twin _ hf hf') (.cons (fieldU64_twin _ hv hv') (.cons (fieldU64_twin _ hw hw')
    (.cons (Twin.field _ _ (listD_twin ho (sections_lists _ _) hx hx')) .nil)))))

theorem fnListD_twin (ho : po.html = false) (o : Options) {c : FilePair} (n : Nat) (u v : CompUnit) {m : List (MergeResult Function Function)}
    (ra : ∀ f g, MergeResult.both f g ∈ m →
      FnReadAlike o c.toFnPair u.dir v.dir (c.a.details f) (c.b.details g) ∧ CallsAlike o c.toFnPair f g) {e e' : D}
    (h : fnListD o c n u v m = some e) (h' : fnListD (turnOptions o) (turn c) n v u (m.map flipItem) = some e') : Twin po e e' := by
  unfold fnListD at h h'
  rw [functionP_turn, functionP_turn, functionD_turn] at h'
  refine sortListD_twin ho h h' ?_
  intro a b hab x y hx hy
  exact functionD_twin ho _ _ n (ra a b hab).1 (ra a b hab).2 hx hy

theorem unitFnsD_twin (ho : po.html = false) (o : Options) {c : FilePair} (n : Nat) (u v : CompUnit)
    (ra : o.categoryFunction = true → ∀ f ∈ u.functions, ∀ g ∈ v.functions,
      FnReadAlike o c.toFnPair u.dir v.dir (c.a.details f) (c.b.details g) ∧ CallsAlike o c.toFnPair f g) {e e' : D}
    (h : unitFnsD o c n u v (fun _ e => e) = some e)
    (h' : unitFnsD (turnOptions o) (turn c) n v u (fun _ e => e) = some e') : Twin po e e' := by
  cases hcat : o.categoryFunction
  · have hcat' : (turnOptions o).categoryFunction = false := hcat
    simp only [unitFnsD, hcat, hcat', whenD] at h h'
    cases h; cases h'
    exact Twin.skip
  · refine whenD_twin h h' fun x y hx hy => ?_
    simp only [Option.bind_eq_bind, Option.bind_eq_some_iff, Option.some.injEq] at hx hy
    obtain ⟨m, hm, f, hfn, i, hi, rfl⟩ := hx
    obtain ⟨m', hm', f', hfn', i', hi', rfl⟩ := hy
    unfold unitMergedFns at hm hm'
    have hm'' : mergedFunctions n c.b.hash (Filter.filterFunctions v o) c.a.hash (Filter.filterFunctions u o) = some m' := hm'
    rw [mergedFunctions_turn, hm] at hm''
    cases hm''
    simp only [mergedFunctions, Option.bind_eq_bind, Option.bind_eq_some_iff, Option.pure_def, Option.some.injEq] at hm
    obtain ⟨all, hall, rfl⟩ := hm
    have hp := merge_perm hall
    have hmem : ∀ a b, MergeResult.both a b ∈ all →
        FnReadAlike o c.toFnPair u.dir v.dir (c.a.details a) (c.b.details b) ∧ CallsAlike o c.toFnPair a b := by
      intro a b hab
      have h1 := hp.1.mem_iff.1 (both_mem hab).1
      have h2 := hp.2.mem_iff.1 (both_mem hab).2
      exact ra hcat a (List.mem_filter.1 h1).1 b (List.mem_filter.1 h2).1
    exact Twin.seq (fnListD_twin ho o n u v (fun a b hab => hmem a b (List.mem_filter.1 hab).1) hfn hfn')
      (fnListD_twin ho o n u v (fun a b hab => hmem a b (List.mem_filter.1 hab).1) hi hi')

/-- A unit the other way round. -/
theorem unitD_twin (ho : po.html = false) (o : Options) (hh : o.html = false) {c : FilePair}
    {Ta Tb : Ty → Prop} (ra : o.categoryType = true → ReadAlike c.toFnPair.toPair Ta Tb)
    (ha : ∀ o t, fromOffset c.a.hash o = some t → Ta t) (hb : ∀ o t, fromOffset c.b.hash o = some t → Tb t) (n : Nat)
    (u v : CompUnit) (hu : ∀ x ∈ u.types, Ta x.kind) (hv : ∀ x ∈ v.types, Tb x.kind)
    (rf : o.categoryFunction = true → ∀ f ∈ u.functions, ∀ g ∈ v.functions,
      FnReadAlike o c.toFnPair u.dir v.dir (c.a.details f) (c.b.details g) ∧ CallsAlike o c.toFnPair f g) {e e' : D}
    (h : unitD o c n u v = some e) (h' : unitD (turnOptions o) (turn c) n v u = some e') : Twin po e e' := by
  have hh' : (turnOptions o).html = false := hh
  simp only [unitD, unitBodyD, hh, hh', Bool.false_eq_true, if_false, Option.bind_eq_bind, Option.bind_eq_some_iff,
    Option.some.injEq] at h h'
  obtain ⟨x, ⟨part, hpart, types, htypes, fns, hfns, vars, hvars, rfl⟩, rfl⟩ := h
  obtain ⟨x', ⟨part', hpart', types', htypes', fns', hfns', vars', hvars', rfl⟩, rfl⟩ := h'
  refine Twin.seqs (.cons ?_ (.cons ?_ (.cons (unitFnsD_twin ho o n u v rf hfns hfns') (.cons (unitVariablesD_twin ho o c n u v hvars hvars') .nil))))
  · refine whenD_twin hpart hpart' fun y y' hy hy' => ?_
    simp only [Option.map_eq_some_iff] at hy hy'
    obtain ⟨z, hz, rfl⟩ := hy
    obtain ⟨z', hz', rfl⟩ := hy'
    exact Twin.indent _ (Twin.lineSwap _ _ _) (unitPartD_twin o _ _ u v hz hz')
  · cases hc : o.categoryType
    · have hc' : (turnOptions o).categoryType = false := hc
      simp only [unitTypesD, hc, hc'] at htypes htypes'
      cases htypes
      cases htypes'
      exact Twin.skip
    · exact unitTypesD_twin ho o (ra hc) ha hb n u v hu hv htypes htypes'

/-- The listing of a unit does not depend on the options for items of one file. -/
theorem unitP_turn (o : Options) (s : FileSide) (n : Nat) : unitP (turnOptions o) s n = unitP o s n := by
  funext u
  unfold unitP unitBodyP
  have h1 : (turnOptions o).html = o.html := rfl
  have h2 : (turnOptions o).categoryUnit = o.categoryUnit := rfl
  have h3 : (turnOptions o).categoryFunction = o.categoryFunction := rfl
  have h6 : ∀ fs, fnListP (turnOptions o) s.toFnSide n u fs = fnListP o s.toFnSide n u fs := by
    intro fs
    unfold fnListP
    rw [functionP_turn]
    rfl
  have h4 : unitPartP (turnOptions o) s.toSide u = unitPartP o s.toSide u := rfl
  have h5 : unitTypesP (turnOptions o) s.toSide n u = unitTypesP o s.toSide n u := rfl
  have h7 : unitVariablesP (turnOptions o) s n u = unitVariablesP o s n u := rfl
  simp only [h1, h2, h3, h4, h5, h6, h7]
  rfl

theorem fileD_twin (ho : po.html = false) (o : Options) (hh : o.html = false) {c : FilePair}
    (ra : FilesReadAlike o c) (n : Nat) {e e' : D}
    (h : fileD o c n = some e) (h' : fileD (turnOptions o) (turn c) n = some e') : Twin po e e' := by
  simp only [fileD, Option.bind_eq_bind, Option.bind_eq_some_iff, Option.some.injEq] at h h'
  obtain ⟨head, hhead, units, hunits, rfl⟩ := h
  obtain ⟨head', hhead', units', hunits', rfl⟩ := h'
  refine Twin.seq (whenD_twin hhead hhead' fun y y' hy hy' => filePartD_twin ho o c hy hy') ?_
  simp only [unitsD, Option.bind_eq_bind, Option.bind_eq_some_iff] at hunits hunits'
  obtain ⟨m, hm, hx⟩ := hunits
  obtain ⟨m', hm', hy⟩ := hunits'
  have hm'' : mergedUnits o (Filter.filterUnits c.b.file.units o) (Filter.filterUnits c.a.file.units o) = some m' := hm'
  rw [mergedUnits_turn, hm] at hm''
  cases hm''
  rw [unitP_turn o, unitP_turn o] at hy
  refine sortListD_twin (p := unitP o c.a n) (q := unitP o c.b n) (diff := unitD o c n)
    (diff' := unitD (turnOptions o) (turn c) n) ho hx hy ?_
  intro a b hab x y hx hy
  have hp := merge_perm hm
  have h1 := (List.mem_filter.1 (hp.1.mem_iff.1 (both_mem hab).1)).1
  have h2 := (List.mem_filter.1 (hp.2.mem_iff.1 (both_mem hab).2)).1
  exact unitD_twin ho o hh ra.types (fun o t h => .inl ⟨o, h⟩) (fun o t h => .inl ⟨o, h⟩) n a b
    (fun x hx => .inr ⟨a, h1, x, hx, rfl⟩) (fun x hx => .inr ⟨b, h2, x, hx, rfl⟩)
    (fun hc => ra.functions hc a h1 b h2) hx hy

/-- What a diff prints does not depend on the options for items of one file. -/
theorem den_options (h hp x y x' y' : Bool) (e : D) : ∀ i m d, e.den ⟨h, hp, x, y⟩ i m d = e.den ⟨h, hp, x', y'⟩ i m d := by
  induction e with
  | skip => intros; rfl
  | seq p q ihp ihq => intro i m d; simp only [D.den, ihp, ihq]
  | lineBreak => intros; rfl
  | label l => intros; rfl
  | line l a b => intros; rfl
  | indent c h b ihh ihb => intro i m d; simp only [D.den, ihh, ihb]
  | field c l b ih => intro i m d; simp only [D.den, ih]
  | id n h b ihh ihb => intro i m d; simp only [D.den, ihh, ihb]
  | inline p ih => intro i m d; simp only [D.den, ih]
  | prefixDelete p => intros; rfl
  | prefixAdd p => intros; rfl
  | block a b => intros; rfl
  | printIfDiff p ih => intro i m d; simp only [D.den, ih]
  | ignoreDiff f p ih => intro i m d; simp only [D.den, ih]

end Verif.Turn
