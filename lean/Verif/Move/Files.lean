import Verif.Move.Fns
import Verif.Move.Hash
/-!
# C95: units and files
-/
namespace Verif.Move
open Verif.Print Verif.Item Verif.Namespace Verif.Types Verif.Layout Verif.Path Verif.Opts Verif.Merge Verif.Range
  Verif.File Verif.Show Verif.Order

variable {ρ : Nat → Nat}

/-! ### Filters -/

theorem off_inj (inj : ∀ x y, ρ x = ρ y → x = y) {o o' : Option Nat} (h : off ρ o = off ρ o') : o = o' := by
  cases o <;> cases o' <;> simp [off] at h ⊢
  exact inj _ _ h

theorem members_moved (t : Ty) : (ty ρ t).members = t.members.map (member ρ) := by cases t <;> rfl

section
variable {a b : Side} (hm : Types ρ a b)
include hm

theorem inlineTypes_moved (u : CompUnit) :
    Filter.inlineTypes b.hash (unit ρ u) = (Filter.inlineTypes a.hash u).map (off ρ) := by
  have hmem : ∀ m, Filter.memberInline b.hash (member ρ m) = Filter.memberInline a.hash m :=
    fun m => memberInline_moved (c := ⟨a, b, fun _ _ => true, Path.listHeap⟩) hm m
  simp only [Filter.inlineTypes, unit, List.flatMap_map, List.map_flatMap]
  refine congrArg (fun f => List.flatMap f u.types) ?_
  funext t
  simp only [entry, isAnon_moved, members_moved, List.map_append, List.filterMap_map, List.map_filterMap]
  congr 1
  · cases t.offset with
    | none => simp [off]
    | some o => cases t.kind.isAnon <;> simp [off]
  · refine congrArg (fun f => List.filterMap f t.kind.members) ?_
    funext m
    simp only [Function.comp_apply, hmem]
    have : (member ρ m).ty = off ρ m.ty := rfl
    rw [this]
    cases m.ty with
    | none => simp [off]
    | some o => cases Filter.memberInline a.hash m <;> simp [off]

theorem filterTypes_moved (u : CompUnit) (o : Options) (diff : Bool) :
    Filter.filterTypes b.hash (unit ρ u) o diff = (Filter.filterTypes a.hash u o diff).map (entry ρ) := by
  simp only [Filter.filterTypes, inlineTypes_moved hm]
  simp only [unit, List.filter_map]
  congr 1
  refine congrArg (fun f => List.filter f u.types) ?_
  funext t
  have h1 : ∀ t, Filter.okTypeOptions o (ty ρ t) = Filter.okTypeOptions o t := by intro t; cases t <;> rfl
  have h2 : ∀ t, Filter.okTypeKind diff (ty ρ t) = Filter.okTypeKind diff t := by intro t; cases t <;> rfl
  have h3 : ((Filter.inlineTypes a.hash u).map (off ρ)).contains (off ρ t.offset) =
      (Filter.inlineTypes a.hash u).contains t.offset := by
    rw [Bool.eq_iff_iff]
    simp only [List.contains_iff_mem, List.mem_map]
    constructor
    · rintro ⟨x, hx, he⟩
      exact off_inj hm.inj he ▸ hx
    · intro h
      exact ⟨_, h, rfl⟩
  simp only [Function.comp_apply, Filter.okType, entry, h1, h2, h3]
  simp [off]

end

theorem filterFunctions_moved (u : CompUnit) (o : Options) :
    Filter.filterFunctions (unit ρ u) o = (Filter.filterFunctions u o).map (function ρ) := by
  simp only [Filter.filterFunctions, unit, List.filter_map]
  rfl

theorem filterVariables_moved (u : CompUnit) (o : Options) :
    Filter.filterVariables (unit ρ u) o = (Filter.filterVariables u o).map (var ρ) := by
  simp only [Filter.filterVariables, unit, List.filter_map]
  rfl

theorem filterUnits_moved (us : List CompUnit) (o : Options) :
    Filter.filterUnits (us.map (unit ρ)) o = (Filter.filterUnits us o).map (unit ρ) := by
  simp only [Filter.filterUnits, List.filter_map]
  rfl

/-! ### Ranges -/

theorem functionRanges_moved (u : CompUnit) : (unit ρ u).functionRanges = u.functionRanges := by
  simp only [CompUnit.functionRanges, unit, List.flatMap_map]
  rfl

theorem functionSize_moved (u : CompUnit) : (unit ρ u).functionSize = u.functionSize := by
  simp only [CompUnit.functionSize, functionRanges_moved]

section
variable {sa sb : TypeOffset → Option Nat} (hs : ∀ o, sb (off ρ o) = sa o)
include hs

theorem variableBytes_moved (v : Variable) : (var ρ v).byteSize sb = v.byteSize sa := by
  simp [Variable.byteSize, var, hs]

theorem variableRanges_moved (u : CompUnit) : (unit ρ u).variableRanges sb = u.variableRanges sa := by
  simp only [CompUnit.variableRanges, unit, List.filterMap_map]
  refine congrArg (fun f => List.filterMap f u.variables) ?_
  funext v
  simp only [Function.comp_apply, Variable.range, variableBytes_moved hs]
  rfl

theorem knownRanges_moved (u : CompUnit) : (unit ρ u).knownRanges sb = u.knownRanges sa := by
  simp only [CompUnit.knownRanges, functionRanges_moved, variableRanges_moved hs]

theorem unknownRanges_moved (u : CompUnit) : (unit ρ u).unknownRanges sb = u.unknownRanges sa := by
  simp only [CompUnit.unknownRanges, knownRanges_moved hs]
  rfl

theorem variableSize_moved (u : CompUnit) : (unit ρ u).variableSize sb = u.variableSize sa := by
  simp only [CompUnit.variableSize, variableRanges_moved hs]

theorem unitRanges_moved (us : List CompUnit) : unitRanges sb (us.map (unit ρ)) = unitRanges sa us := by
  simp only [unitRanges, List.foldl_map, knownRanges_moved hs, unknownRanges_moved hs]

theorem diffSummary_moved (f : File) : (file ρ f).diffSummary sb = f.diffSummary sa := by
  have h1 : (file ρ f).functionSize = f.functionSize := by
    simp only [File.functionSize, file, List.foldlM_map, functionSize_moved]
  have h2 : (file ρ f).variableSize sb = f.variableSize sa := by
    simp only [File.variableSize, file, List.foldlM_map, variableSize_moved hs]
  simp only [File.diffSummary, h1, h2]
  simp only [file, unitRanges_moved hs]

end

/-! ### Merges -/

theorem sortWith_moved {α : Type} {f : α → α} {r r' : α → α → Res Ordering} (h : ∀ x y, r (f x) (f y) = r' x y)
    (l : List α) : sortWith r (l.map f) = (sortWith r' l).map (List.map f) := by
  unfold sortWith
  simp only [List.all_map, Function.comp_def, h]
  split
  · rw [← Web.stableSort_map f (fun x y => r x y != .ok .gt) l]
    simp only [h, Option.map_some]
  · rfl

theorem merge_moved {α : Type} {f : α → α} {r r' q : α → α → Res Ordering} (h : ∀ x y, r' (f x) (f y) = r x y)
    (hq : ∀ a, q a (f a) = .ok .eq ∨ ∀ o, q a (f a) ≠ .ok o)
    {l : List α} {m : List (MergeResult α α)}
    (hm : (do
      let sa ← sortWith r l
      let sb ← sortWith r' (l.map f)
      mergeWith q sa sb) = some m) : ∀ it ∈ m, ∃ a ∈ l, it = .both a (f a) := by
  simp only [Option.bind_eq_bind, Option.bind_eq_some_iff] at hm
  obtain ⟨sa, ha, sb, hb, hm⟩ := hm
  rw [sortWith_moved h, ha] at hb
  cases hb
  unfold mergeWith at hm
  split at hm
  · cases hm
    rw [merged_map _ f sa (fun a _ => ?_) _ (by omega)]
    · intro it hit
      obtain ⟨a, h, rfl⟩ := List.mem_map.1 hit
      exact ⟨a, (sortWith_perm ha).mem_iff.1 h, rfl⟩
    · rcases hq a with h | h
      · rw [h]; rfl
      · cases hc : q a (f a) with
        | ok q => exact absurd hc (h q)
        | _ => rfl
  · cases hm

theorem sortListD_moved {α γ : Type} {f : α → α} {o : Options} {cmpBy : α → γ → α → γ → Res Ordering} {ha hb : γ}
    {print print' : α → Option P} {diff : α → α → Option D} {items : List (MergeResult α α)} {e : D}
    (he : sortListD o cmpBy ha hb print print' diff items = some e) {po : Print.Opts} (ho : po.html = false)
    (hi : ∀ it ∈ items, ∃ a, it = .both a (f a))
    (hd : ∀ a g, diff a (f a) = some g → ∀ i x d, Quiet po g i x d) : Blank po e := by
  simp only [sortListD, Option.bind_eq_bind, Option.bind_eq_some_iff, Option.map_eq_some_iff] at he
  obtain ⟨l, hl, es, hes, rfl⟩ := he
  refine Blank.seqs fun g hg => ?_
  obtain ⟨it, hit, hg⟩ := mapM_mem hes g hg
  have hit := (sortWith_perm hl).mem_iff.1 hit
  obtain ⟨a, rfl⟩ := hi it hit
  simp only [sortItemD, Option.map_eq_some_iff] at hg
  obtain ⟨g, hg', rfl⟩ := hg
  intro i x d
  have := hd a g hg' i x d
  simp only [Quiet] at this
  simp [D.den, this, ho]

/-! ### Units -/

theorem unitPartD_moved (o : Options) {a b : Side} (hm : Types ρ a b) (u : CompUnit) :
    RelS (unitPartD o a b u (unit ρ u)) := by
  intro e he
  simp only [unitPartD, Option.bind_eq_bind, Option.bind_eq_some_iff, Option.some.injEq, functionSize_moved,
    variableSize_moved hm.size, unknownRanges_moved hm.size] at he
  obtain ⟨fa, hfa, fb, hfb, va, hva, vb, hvb, wa, hwa, wb, hwb, f, hf, x, hx, w, hw, rfl⟩ := he
  rw [hfa] at hfb; cases hfb
  rw [hva] at hvb; cases hvb
  rw [hwa] at hwb; cases hwb
  refine ⟨?_, sizeLineD_self _ _ _ hf, sizeLineD_self _ _ _ hx, sizeLineD_self _ _ _ hw, trivial, trivial⟩
  split
  · simp only [unitRangesD, knownRanges_moved hm.size, unknownRanges_moved hm.size]
    refine ⟨?_, rangeItemsD_self _⟩
    split
    · exact rangeItemsD_self _
    · cases (u.knownRanges a.tsz).head? <;> exact rfl
  · trivial

theorem unitTypesD_types {o : Options} {c : Pair} {n : Nat} {u : CompUnit} {e : D} {po : Print.Opts}
    (hT : Types ρ c.a c.b) (hs : SameMoved ρ c.same c.a.hash) (ho : po.html = false)
    (he : unitTypesD o c n u (unit ρ u) = some e) : Blank po e := by
  unfold unitTypesD whenD at he
  split at he
  · simp only [Option.bind_eq_bind, Option.bind_eq_some_iff, filterTypes_moved hT] at he
    obtain ⟨m, hmm, he⟩ := he
    refine sortListD_moved (f := entry ρ) he ho (fun it hit => ?_) fun a g hg i x d => ?_
    · have hr : ∀ a : TypeEntry, cmpId false n c.a.hash a.kind c.b.hash (entry ρ a).kind = .ok .eq ∨
          ∀ q, cmpId false n c.a.hash a.kind c.b.hash (entry ρ a).kind ≠ .ok q := by
        intro a
        have : cmpId false n c.a.hash a.kind c.b.hash (entry ρ a).kind = cmpId false n c.a.hash a.kind c.a.hash a.kind :=
          cmpId_right hT.hash ..
        rw [this]
        cases hc : cmpId false n c.a.hash a.kind c.a.hash a.kind with
        | ok q => exact .inl (by rw [cmpId_self false n c.a.hash a.kind _ hc])
        | _ => exact .inr (by simp)
      obtain ⟨a, -, h⟩ := merge_moved (f := entry ρ) (fun x y => by
        show cmpId false n c.b.hash (ty ρ x.kind) c.b.hash (ty ρ y.kind) = cmpId false n c.a.hash x.kind c.a.hash y.kind
        rw [cmpId_left hT.hash, cmpId_right hT.hash]) hr hmm it hit
      exact ⟨a, h⟩
    · exact (D.den_same po g (typeD_moved hT hs o _ n a g hg) i x d).1
  · cases he; intro i x d; exact ⟨rfl, rfl⟩

section
variable {o : Options} {c : FilePair} {n : Nat} {u : CompUnit} {e : D} {po : Print.Opts}
  (hm : Moved ρ c.a c.b) (hs : SameMoved ρ c.same c.a.hash)
include hm

include hs in
theorem unitTypesD_moved (ho : po.html = false)
    (he : unitTypesD o c.toFnPair.toPair n u (unit ρ u) = some e) : Blank po e :=
  unitTypesD_types (c := c.toFnPair.toPair) hm.toTypes hs ho he

theorem functionCmp_moved (x y : Function) :
    functionCmpIdForSort n (function ρ x) c.b.hash (function ρ y) c.b.hash =
      functionCmpIdForSort n x c.a.hash y c.a.hash := by
  have h := fun ps qs => cmpParams_both (a := c.a.hash) (b := c.b.hash) (ρ := ρ) hm.hash (n := n) ps qs
  have h1 : ∀ f : Function, (function ρ f).parameters.map (·.ty) = (f.parameters.map (·.ty)).map (off ρ) := by
    intro f
    simp only [function, List.map_map]
    rfl
  have h2 : ∀ f : Function, (function ρ f).parameters.length = f.parameters.length := by
    intro f; simp [function]
  simp only [functionCmpIdForSort, h1, h, h2]
  rfl

include hs in
theorem unitFnsD_moved (hf : o.printFunctionStackFrame = true → FramesFixed ρ c.a.toFnSide) (ho : po.html = false)
    (he : unitFnsD o c n u (unit ρ u) (fun _ e => e) = some e) : Blank po e := by
  unfold unitFnsD whenD at he
  split at he
  · simp only [Option.bind_eq_bind, Option.bind_eq_some_iff, Option.some.injEq] at he
    obtain ⟨m, hmm, f, hff, g, hg, rfl⟩ := he
    simp only [unitMergedFns, mergedFunctions, Option.bind_eq_bind, Option.bind_eq_some_iff, Option.pure_def,
      Option.some.injEq, filterFunctions_moved] at hmm
    obtain ⟨m, hmm, rfl⟩ := hmm
    have hall := merge_moved (f := function ρ) (fun x y => functionCmp_moved hm x y)
      (fun a => .inl (by
        have : functionCmpId a (function ρ a) = functionCmpId a a := rfl
        rw [this]; simp [functionCmpId, cmpNs_self])) hmm
    have key : ∀ (q : MergeResult Function Function → Bool) (f : D), fnListD o c n u (unit ρ u) (m.filter q) = some f →
        Blank po f := by
      intro q f hf'
      refine sortListD_moved (f := function ρ) hf' ho (fun it hit => ?_) fun a g hg i x d => ?_
      · obtain ⟨a, -, h⟩ := hall it (List.mem_filter.1 hit).1
        exact ⟨a, h⟩
      · exact D.flag_dropIgnored po g (functionD_moved (c := c.toFnPair) hm.toFns hs o hf _ _ n a g hg).1 i x d
    intro i x d
    have h1 := key _ _ hff
    have h2 := key _ _ hg
    simp only [D.den, (h1 i x d).1, (h1 i x d).2, (h2 _ _ _).1, (h2 _ _ _).2]
    exact ⟨rfl, rfl⟩
  · cases he; intro i x d; exact ⟨rfl, rfl⟩

theorem variableD_moved (dir : Option Str) (v : Variable) : (variableD o c dir dir v (var ρ v)).Same := by
  refine ⟨⟨?_, ?_⟩, trivial⟩
  · simp [D.Same, variableName, vals, Val.text', var, hm.ref]
  · simp only [variableBodyD, variableBytes_moved hm.size]
    exact ⟨rfl, rfl, sourceD_self .., rfl, rfl, rfl, trivial⟩

theorem unitVariablesD_moved (ho : po.html = false)
    (he : unitVariablesD o c n u (unit ρ u) = some e) : Blank po e := by
  unfold unitVariablesD whenD at he
  split at he
  · simp only [Option.bind_eq_bind, Option.bind_eq_some_iff, filterVariables_moved] at he
    obtain ⟨m, hmm, he⟩ := he
    refine sortListD_moved (f := var ρ) he ho (fun it hit => ?_) fun a g hg i x d => ?_
    · obtain ⟨a, -, h⟩ := merge_moved (f := var ρ) (r := fun x y => .ok (variableCmpId x y))
        (r' := fun x y => .ok (variableCmpId x y)) (q := fun x y => .ok (variableCmpId x y)) (fun x y => rfl) (fun a => .inl (by
        have : variableCmpId a (var ρ a) = variableCmpId a a := rfl
        rw [this]; simp [variableCmpId, cmpNs_self])) hmm it hit
      exact ⟨a, h⟩
    · cases hg
      exact (D.den_same po _ (variableD_moved hm _ a) i x d).1
  · cases he; intro i x d; exact ⟨rfl, rfl⟩

include hs in
theorem unitD_moved (hf : o.printFunctionStackFrame = true → FramesFixed ρ c.a.toFnSide) (ho : o.html = false)
    (he : unitD o c n u (unit ρ u) = some e) (i : Nat) (x : DiffPrefix) (d : Nat) :
    Quiet (printOpts o) e i x d := by
  simp only [unitD, unitBodyD, ho, Bool.false_eq_true, if_false, Option.bind_eq_bind, Option.bind_eq_some_iff,
    Option.some.injEq] at he
  obtain ⟨body, ⟨part, hpart, types, htypes, fns, hfns, vars, hvars, rfl⟩, rfl⟩ := he
  have h1 : part.Same := by
    refine whenD_same (fun e he => ?_) part hpart
    simp only [Option.map_eq_some_iff] at he
    obtain ⟨f, hf, rfl⟩ := he
    exact ⟨rfl, unitPartD_moved o hm.toTypes u f hf⟩
  have h2 := unitTypesD_moved (po := printOpts o) hm hs ho htypes
  have h3 := unitFnsD_moved (po := printOpts o) hm hs hf ho hfns
  have h4 := unitVariablesD_moved (po := printOpts o) hm ho hvars
  have h5 := fun y => (D.den_same (printOpts o) part h1 i y d).1
  simp only [Quiet, D.seqs, D.den, h5, (h2 ..).2, (h3 ..).2, (h4 ..).2]
  rfl

theorem filePartD_moved : RelS (filePartD o c) := by
  intro e he
  have hsum : c.b.file.diffSummary c.b.tsz = c.a.file.diffSummary c.a.tsz := by
    rw [hm.file]; exact diffSummary_moved hm.size _
  have hsec : c.b.file.sections = c.a.file.sections := by rw [hm.file]; rfl
  have hran : unitRanges c.b.tsz c.b.file.units = unitRanges c.a.tsz c.a.file.units := by
    rw [hm.file]; exact unitRanges_moved hm.size _
  simp only [filePartD, diffSummaries, Option.bind_eq_bind, Option.bind_eq_some_iff, Option.some.injEq,
    Option.pure_def, hsum, hsec, hran] at he
  obtain ⟨m, ⟨sa, ha, sb, hb, rfl⟩, size, h1, fn, h2, var, h3, other, h4, sections, h5, rfl⟩ := he
  rw [ha] at hb
  cases hb
  refine ⟨⟨?_, ?_, (fieldU64_self _ _ _ h1).1, (fieldU64_self _ _ _ h2).1, (fieldU64_self _ _ _ h3).1,
    (fieldU64_self _ _ _ h4).1, ?_, trivial⟩, trivial⟩
  · simp [D.Same, fileName, hm.path]
  · split
    · exact rangeItemsD_self _
    · trivial
  · refine listD_self (fun a _ => by simp [sectionCost]) (by simp) (by simp) (fun a _ e he => ?_) sections h5
    simp only [sectionD, Option.bind_eq_bind, Option.bind_eq_some_iff, Option.some.injEq] at he
    obtain ⟨z, hz, rfl⟩ := he
    exact ⟨rfl, rfl, (fieldU64_self _ _ _ hz).1⟩

include hs in
theorem unitsD_moved (hf : o.printFunctionStackFrame = true → FramesFixed ρ c.a.toFnSide) (ho : o.html = false)
    (he : unitsD o c n = some e) : Blank (printOpts o) e := by
  have hu : c.b.file.units = c.a.file.units.map (unit ρ) := by rw [hm.file]; rfl
  simp only [unitsD, Option.bind_eq_bind, Option.bind_eq_some_iff, hu, filterUnits_moved] at he
  obtain ⟨m, hmm, he⟩ := he
  refine sortListD_moved (f := unit ρ) he ho (fun it hit => ?_) fun a g hg => unitD_moved hm hs hf ho hg
  obtain ⟨a, -, h⟩ := merge_moved (f := unit ρ) (r := fun x y => .ok (unitCmpId o x y))
    (r' := fun x y => .ok (unitCmpId o x y)) (q := fun x y => .ok (unitCmpId o x y)) (fun x y => rfl) (fun a => .inl (by
    have : unitCmpId o a (unit ρ a) = unitCmpId o a a := rfl
    rw [this]; simp [unitCmpId])) hmm it hit
  exact ⟨a, h⟩

end

end Verif.Move
