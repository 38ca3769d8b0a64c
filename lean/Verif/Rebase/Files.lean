import Verif.Rebase.Fns
/-!
# C103: units and files
-/
namespace Verif.Rebase
open Verif.Print Verif.Item Verif.Namespace Verif.Types Verif.Layout Verif.Path Verif.Opts Verif.Merge Verif.Range
  Verif.File Verif.Show Verif.Order
open Verif.Move (off off_inj SameMoved)

variable {ρ : Nat → Nat}

/-! ### Merges -/

theorem sortWith_proj {α β : Type} (f : β → α) (r : α → α → Res Ordering) (z : List β) :
    sortWith r (z.map f) = (sortWith (fun x y => r (f x) (f y)) z).map (List.map f) := by
  unfold sortWith
  simp only [List.all_map, Function.comp_def]
  split
  · rw [← Web.stableSort_map f (fun x y => r x y != .ok .gt) z]
    rfl
  · rfl

theorem merged_two {α β : Type} (cmp : α → α → Ordering) (f g : β → α) (z : List β)
    (hc : ∀ x ∈ z, cmp (f x) (g x) = .eq) (n : Nat) (hn : z.length ≤ n) :
    merged cmp (z.map f) (z.map g) n = z.map (fun x => .both (f x) (g x)) := by
  unfold merged MergeIterator.new
  induction z generalizing n with
  | nil => cases n <;> simp [MergeIterator.take, MergeIterator.next]
  | cons a l ih =>
    cases n with
    | zero => simp at hn
    | succ n =>
      simp only [List.length_cons, Nat.add_le_add_iff_right] at hn
      have := ih (fun b hb => hc b (List.mem_cons_of_mem _ hb)) n hn
      simp only [List.map_cons, List.tail_cons, List.head?_cons, MergeIterator.take, MergeIterator.next,
        hc a (List.mem_cons_self ..)]
      exact congrArg _ this

theorem merge_two {α β : Type} {f g : β → α} {r r' q : α → α → Res Ordering}
    (h : ∀ x y, r' (g x) (g y) = r (f x) (f y)) (hq : ∀ x, q (f x) (g x) = .ok .eq)
    {z : List β} {m : List (MergeResult α α)}
    (hm : (do
      let sa ← sortWith r (z.map f)
      let sb ← sortWith r' (z.map g)
      mergeWith q sa sb) = some m) : ∀ it ∈ m, ∃ x ∈ z, it = .both (f x) (g x) := by
  simp only [Option.bind_eq_bind, Option.bind_eq_some_iff, sortWith_proj, h, Option.map_eq_some_iff] at hm
  obtain ⟨sa, ⟨w, hw, rfl⟩, sb, ⟨w', hw', rfl⟩, hm⟩ := hm
  rw [hw] at hw'
  cases hw'
  unfold mergeWith at hm
  split at hm
  · cases hm
    rw [merged_two _ f g w (fun a _ => ?_) _ (by simp)]
    · intro it hit
      obtain ⟨a, ha, rfl⟩ := List.mem_map.1 hit
      exact ⟨a, (sortWith_perm hw).mem_iff.1 ha, rfl⟩
    · rw [hq a]; rfl
  · cases hm

theorem sortListD_two {α β γ : Type} {f g : β → α} {o : Options} {cmpBy : α → γ → α → γ → Res Ordering} {ha hb : γ}
    {print print' : α → Option P} {diff : α → α → Option D} {items : List (MergeResult α α)} {e : D}
    (he : sortListD o cmpBy ha hb print print' diff items = some e) {po : Print.Opts} (ho : po.html = false)
    {z : List β} (hi : ∀ it ∈ items, ∃ x ∈ z, it = .both (f x) (g x))
    (hd : ∀ x ∈ z, ∀ d, diff (f x) (g x) = some d → ∀ i y k, Quiet po d i y k) : Blank po e := by
  simp only [sortListD, Option.bind_eq_bind, Option.bind_eq_some_iff, Option.map_eq_some_iff] at he
  obtain ⟨l, hl, es, hes, rfl⟩ := he
  refine Blank.seqs fun g hg => ?_
  obtain ⟨it, hit, hg⟩ := mapM_mem hes g hg
  have hit := (sortWith_perm hl).mem_iff.1 hit
  obtain ⟨a, haz, rfl⟩ := hi it hit
  simp only [sortItemD, Option.map_eq_some_iff] at hg
  obtain ⟨g, hg', rfl⟩ := hg
  intro i x d
  have := hd a haz g hg' i x d
  simp only [Quiet] at this
  simp [D.den, this, ho]

theorem filter_two {α β : Type} {f g : β → α} {p : α → Bool} (h : ∀ x, p (g x) = p (f x)) (z : List β) :
    (z.map f).filter p = (z.filter fun x => p (f x)).map f ∧ (z.map g).filter p = (z.filter fun x => p (f x)).map g := by
  simp only [List.filter_map, Function.comp_def, h, and_self]

/-! ### Functions and variables of a unit -/

theorem addr_none {a b : Option Nat} (h : addr b = addr a) : b.isNone = a.isNone := by
  cases a <;> cases b <;> simp [addr] at h ⊢

theorem var_fields {v w : Variable} (h : var w = var (Move.var ρ v)) :
    w.ns = v.ns ∧ w.name = v.name ∧ w.linkageName = v.linkageName ∧ w.symbolName = v.symbolName ∧
      w.ty = off ρ v.ty ∧ w.source = v.source ∧ addr w.address = addr v.address ∧ w.size = v.size ∧
      w.declaration = v.declaration := by
  simp only [var, Move.var, Variable.mk.injEq] at h
  exact h.2

theorem unit_fields {u v : CompUnit} (h : unit v = unit (Move.unit ρ u)) :
    v.dir = u.dir ∧ v.name = u.name ∧ v.types = (Move.unit ρ u).types ∧
      v.functions.map function = (u.functions.map fun f => function (Move.function ρ f)) ∧
      v.variables.map var = u.variables.map fun x => var (Move.var ρ x) := by
  simp only [unit, Move.unit, CompUnit.mk.injEq, List.map_map] at h
  obtain ⟨h1, h2, -, -, h5, h6, h7⟩ := h
  exact ⟨h1, h2, h5, h6, h7⟩

theorem okFunction_two (o : Options) {f g : Function} (h : function g = function (Move.function ρ f)) :
    Filter.okFunction o g = Filter.okFunction o f := by
  have h' := function_fields h
  have := addr_none h'.2.2.2.2.2.1
  simp only [Filter.okFunction, this, h']

theorem okVariable_two (o : Options) {v w : Variable} (h : var w = var (Move.var ρ v)) :
    Filter.okVariable o w = Filter.okVariable o v := by
  have h' := var_fields h
  have := addr_none h'.2.2.2.2.2.2.1
  simp only [Filter.okVariable, this, h']

theorem unitPartD_two {o : Options} {a b : Side} {u v : CompUnit} (ho : o.printUnitAddress = false)
    (h : SameSizes a b u v) : RelS (unitPartD o a b u v) := by
  intro e he
  simp only [unitPartD, Option.bind_eq_bind, Option.bind_eq_some_iff, Option.some.injEq, h.1, h.2.1, h.2.2, ho] at he
  obtain ⟨fa, hfa, fb, hfb, va, hva, vb, hvb, wa, hwa, wb, hwb, f, hf, x, hx, w, hw, rfl⟩ := he
  rw [hfa] at hfb; cases hfb
  rw [hva] at hvb; cases hvb
  rw [hwa] at hwb; cases hwb
  exact ⟨trivial, sizeLineD_self _ _ _ hf, sizeLineD_self _ _ _ hx, sizeLineD_self _ _ _ hw, trivial, trivial⟩

section
variable {o : Options} {c : FilePair} {n : Nat} {u v : CompUnit} {e : D} {po : Print.Opts}
  (hm : Rebased ρ c.a c.b) (hs : SameMoved ρ c.same c.a.hash) (hu : unit v = unit (Move.unit ρ u))
include hm

theorem functionCmp_two {f g f' g' : Function} (h : function g = function (Move.function ρ f))
    (h' : function g' = function (Move.function ρ f')) :
    functionCmpIdForSort n g c.b.hash g' c.b.hash = functionCmpIdForSort n f c.a.hash f' c.a.hash := by
  have hp := fun ps qs => Move.cmpParams_both (a := c.a.hash) (b := c.b.hash) (ρ := ρ) hm.hash (n := n) ps qs
  have h1 : ∀ f g : Function, function g = function (Move.function ρ f) →
      g.parameters.map (·.ty) = (f.parameters.map (·.ty)).map (off ρ) := by
    intro f g h
    rw [(function_fields h).2.2.2.2.2.2.2.2.2.1]
    simp only [List.map_map]
    rfl
  have h2 : ∀ f g : Function, function g = function (Move.function ρ f) → g.parameters.length = f.parameters.length := by
    intro f g h
    rw [(function_fields h).2.2.2.2.2.2.2.2.2.1]
    simp
  have e1 := function_fields h
  have e2 := function_fields h'
  simp only [functionCmpIdForSort, functionCmpId, h1 _ _ h, h1 _ _ h', hp, h2 _ _ h, h2 _ _ h']
  rw [e1.1, e1.2.1, e2.1, e2.2.1]

include hs hu in
theorem unitFnsD_two (hfa : o.ignoreFunctionAddress = true) (hv : o.ignoreVariableAddress = true)
    (hc : o.printFunctionCalls = false) (hf : o.printFunctionStackFrame = true → Move.FramesFixed ρ c.a.toFnSide)
    (ho : po.html = false) (he : unitFnsD o c n u v (fun _ e => e) = some e) : Blank po e := by
  have hu' := unit_fields hu
  obtain ⟨z, hz1, hz2⟩ := pairs hu'.2.2.2.1
  have hfil := filter_two (f := fun x : { p : Function × Function // function p.2 = function (Move.function ρ p.1) } => x.1.1)
    (g := fun x => x.1.2) (p := Filter.okFunction o) (fun x => okFunction_two o x.2) z
  unfold unitFnsD whenD at he
  split at he
  · simp only [Option.bind_eq_bind, Option.bind_eq_some_iff, Option.some.injEq] at he
    obtain ⟨m, hmm, f, hff, g, hg, rfl⟩ := he
    simp only [unitMergedFns, mergedFunctions, Option.bind_eq_bind, Option.bind_eq_some_iff, Option.pure_def,
      Option.some.injEq, Filter.filterFunctions, hz1, hz2, hfil] at hmm
    obtain ⟨m, hmm, rfl⟩ := hmm
    have hall := merge_two (f := fun x : { p : Function × Function // function p.2 = function (Move.function ρ p.1) } => x.1.1)
      (g := fun x => x.1.2) (fun x y => functionCmp_two (n := n) hm x.2 y.2)
      (fun x => by
        have h := function_fields x.2
        simp [functionCmpId, h.1, h.2.1, cmpNs_self]) hmm
    have key : ∀ (q : MergeResult Function Function → Bool) (f : D), fnListD o c n u v (m.filter q) = some f →
        Blank po f := by
      intro q f hf'
      refine sortListD_two (f := fun x : { p : Function × Function // function p.2 = function (Move.function ρ p.1) } => x.1.1)
        (g := fun x => x.1.2) hf' ho (fun it hit => hall it (List.mem_filter.1 hit).1) fun a _ g hg i x d => ?_
      rw [hu'.1] at hg
      exact D.flag_dropIgnored po g (functionD_two (c := c.toFnPair) hm.toFns hs o hfa hv hc hf _ _ n a.2 g hg) i x d
    intro i x d
    have h1 := key _ _ hff
    have h2 := key _ _ hg
    simp only [D.den, (h1 i x d).1, (h1 i x d).2, (h2 _ _ _).1, (h2 _ _ _).2]
    exact ⟨rfl, rfl⟩
  · cases he; intro i x d; exact ⟨rfl, rfl⟩

theorem variableD_two (hv : o.ignoreVariableAddress = true) (dir : Option Str) {x y : Variable}
    (h : var y = var (Move.var ρ x)) : (variableD o c dir dir x y).dropIgnored.Same := by
  obtain ⟨h1, h2, h3, h4, h5, h6, -, h8, h9⟩ := var_fields h
  have hline : ∀ (b : Bool) (l : Str) (v : Val), (D.ignoreDiff b (.line l v v)).dropIgnored.Same :=
    fun b l v => D.Same.drop (e := .ignoreDiff b (.line l v v)) rfl
  have hb : y.byteSize c.b.tsz = x.byteSize c.a.tsz := by simp only [Variable.byteSize, h8, h5, hm.size]
  simp only [variableD, variableBodyD, hv, hb, h3, h4, h6, h9]
  refine ⟨⟨?_, hline .., hline .., D.Same.drop (sourceD_self ..), trivial, rfl, rfl, trivial⟩, trivial⟩
  simp [D.dropIgnored, D.Same, variableName, vals, Val.text', h1, h2, h5, hm.ref]

include hu in
theorem unitVariablesD_two (hv : o.ignoreVariableAddress = true) (ho : po.html = false)
    (he : unitVariablesD o c n u v = some e) : Blank po e := by
  have hu' := unit_fields hu
  obtain ⟨z, hz1, hz2⟩ := pairs hu'.2.2.2.2
  have hfil := filter_two (f := fun x : { p : Variable × Variable // var p.2 = var (Move.var ρ p.1) } => x.1.1)
    (g := fun x => x.1.2) (p := Filter.okVariable o) (fun x => okVariable_two o x.2) z
  unfold unitVariablesD whenD at he
  split at he
  · simp only [Option.bind_eq_bind, Option.bind_eq_some_iff, Filter.filterVariables, hz1, hz2, hfil] at he
    obtain ⟨m, hmm, he⟩ := he
    refine sortListD_two (f := fun x : { p : Variable × Variable // var p.2 = var (Move.var ρ p.1) } => x.1.1)
        (g := fun x => x.1.2) (z := z.filter fun x => Filter.okVariable o x.1.1) he ho (fun it hit => ?_) fun a _ g hg i x d => ?_
    · exact merge_two (f := fun x : { p : Variable × Variable // var p.2 = var (Move.var ρ p.1) } => x.1.1)
        (g := fun x => x.1.2) (r := fun x y => .ok (variableCmpId x y))
        (r' := fun x y => .ok (variableCmpId x y)) (q := fun x y => .ok (variableCmpId x y))
        (fun x y => by
          have h := var_fields x.2
          have h' := var_fields y.2
          simp only [variableCmpId, h.1, h.2.1, h'.1, h'.2.1])
        (fun x => by
          have h := var_fields x.2
          simp [variableCmpId, h.1, h.2.1, cmpNs_self]) hmm it hit
    · cases hg
      rw [hu'.1]
      exact D.flag_dropIgnored po _ (variableD_two hm hv _ a.2) i x d
  · cases he; intro i x d; exact ⟨rfl, rfl⟩

include hs hu in
theorem unitTypesD_two (ho : po.html = false)
    (he : unitTypesD o c.toFnPair.toPair n u v = some e) : Blank po e := by
  have hu' := unit_fields hu
  refine Move.unitTypesD_types (ρ := ρ) (o := o) (u := u) (n := n) (c := c.toFnPair.toPair) hm.toTypes hs ho ?_
  rw [← he]
  have hd : (Move.unit ρ u).dir = u.dir := rfl
  have hf : ∀ h, Filter.filterTypes h v o true = Filter.filterTypes h (Move.unit ρ u) o true := by
    intro h
    simp only [Filter.filterTypes, Filter.inlineTypes, hu'.2.2.1]
  simp only [unitTypesD, hf, hu'.1, hd]

include hs hu in
theorem unitD_two (hfa : o.ignoreFunctionAddress = true) (hv : o.ignoreVariableAddress = true)
    (hc : o.printFunctionCalls = false) (hcu : o.categoryUnit = true → o.printUnitAddress = false ∧ SameSizes c.a.toSide c.b.toSide u v)
    (hf : o.printFunctionStackFrame = true → Move.FramesFixed ρ c.a.toFnSide)
    (ho : o.html = false) (he : unitD o c n u v = some e) (i : Nat) (x : DiffPrefix) (d : Nat) :
    Quiet (printOpts o) e i x d := by
  simp only [unitD, unitBodyD, ho, Bool.false_eq_true, if_false, Option.bind_eq_bind, Option.bind_eq_some_iff,
    Option.some.injEq] at he
  obtain ⟨body, ⟨part, hpart, types, htypes, fns, hfns, vars, hvars, rfl⟩, rfl⟩ := he
  have h1 : part.Same := by
    unfold whenD at hpart
    split at hpart
    · rename_i hon
      simp only [Option.map_eq_some_iff] at hpart
      obtain ⟨f, hf, rfl⟩ := hpart
      refine ⟨?_, unitPartD_two (hcu hon).1 (hcu hon).2 f hf⟩
      simp only [D.Same, unitName, CompUnit.printRef, (unit_fields hu).1, (unit_fields hu).2.1]
    · cases hpart; trivial
  have h5 := fun y => (D.den_same (printOpts o) part h1 i y d).1
  have h2 := unitTypesD_two (po := printOpts o) hm hs hu ho htypes
  have h3 := unitFnsD_two (po := printOpts o) hm hs hu hfa hv hc hf ho hfns
  have h4 := unitVariablesD_two (po := printOpts o) hm hu hv ho hvars
  simp only [Quiet, D.seqs, D.den, h5, (h2 ..).2, (h3 ..).2, (h4 ..).2]
  rfl

include hs in
theorem unitsD_two (hfa : o.ignoreFunctionAddress = true) (hv : o.ignoreVariableAddress = true)
    (hc : o.printFunctionCalls = false)
    (hcu : o.categoryUnit = true → o.printUnitAddress = false ∧ ∀ u ∈ c.a.file.units, ∀ v ∈ c.b.file.units,
      unit v = unit (Move.unit ρ u) → SameSizes c.a.toSide c.b.toSide u v)
    (hf : o.printFunctionStackFrame = true → Move.FramesFixed ρ c.a.toFnSide) (ho : o.html = false)
    (he : unitsD o c n = some e) : Blank (printOpts o) e := by
  obtain ⟨z, hz1, hz2⟩ := pairs hm.units
  have hname : ∀ x : { p : CompUnit × CompUnit // unit p.2 = unit (Move.unit ρ p.1) }, x.1.2.name = x.1.1.name :=
    fun x => (unit_fields x.2).2.1
  have hfil := filter_two (f := fun x : { p : CompUnit × CompUnit // unit p.2 = unit (Move.unit ρ p.1) } => x.1.1)
    (g := fun x => x.1.2) (p := Filter.okUnit o) (fun x => by simp only [Filter.okUnit, hname]) z
  have hkey : ∀ x : { p : CompUnit × CompUnit // unit p.2 = unit (Move.unit ρ p.1) },
      unitKey o x.1.2 = unitKey o x.1.1 := by
    intro x
    simp only [unitKey, hname]
  simp only [unitsD, Option.bind_eq_bind, Option.bind_eq_some_iff, Filter.filterUnits, hz1, hz2, hfil] at he
  obtain ⟨m, hmm, he⟩ := he
  refine sortListD_two (f := fun x : { p : CompUnit × CompUnit // unit p.2 = unit (Move.unit ρ p.1) } => x.1.1)
    (g := fun x => x.1.2) (z := z.filter fun x => Filter.okUnit o x.1.1) he ho (fun it hit => ?_) fun a ha g hg =>
      unitD_two hm hs a.2 hfa hv hc (fun h => ⟨(hcu h).1, ?_⟩) hf ho hg
  · exact merge_two (f := fun x : { p : CompUnit × CompUnit // unit p.2 = unit (Move.unit ρ p.1) } => x.1.1)
      (g := fun x => x.1.2) (r := fun x y => .ok (unitCmpId o x y)) (r' := fun x y => .ok (unitCmpId o x y))
      (q := fun x y => .ok (unitCmpId o x y)) (fun x y => by simp only [unitCmpId, hkey])
      (fun x => by simp [unitCmpId, hkey]) hmm it hit
  · have ha := (List.mem_filter.1 ha).1
    refine (hcu h).2 _ ?_ _ ?_ a.2
    · rw [hz1]; exact List.mem_map.2 ⟨a, ha, rfl⟩
    · rw [hz2]; exact List.mem_map.2 ⟨a, ha, rfl⟩

end

end Verif.Rebase
