import Verif.Web.Pairs
import Verif.Web.Lemmas
import Verif.Web.DOpens
/-!
# The page of a diff opens to the printed page
-/
namespace Verif.Web
open Verif.Print Verif.Html Verif.Item Verif.Opts Verif.Show Verif.Ids Verif.Serve Verif.Types Verif.Order Verif.Merge
  Verif.Filter

variable {t : EntityTable} {alnum : Nat → Bool}

/-! ### Programs do not depend on `http` -/

theorem callParamsAddD_http (o : Options) (b : Bool) (c : FnPair) (l : List CallParameter) :
    callParamsAddD { o with http := b } c l = callParamsAddD o c l := by
  induction l with
  | nil => rfl
  | cons x l ih => simp only [callParamsAddD, ih]; rfl

theorem callParamsD_http (o : Options) (b : Bool) (c : FnPair) (l m : List CallParameter) :
    callParamsD { o with http := b } c l m = callParamsD o c l m := by
  induction l generalizing m with
  | nil => simp only [callParamsD, callParamsAddD_http]
  | cons x l ih =>
    cases m with
    | nil => simp only [callParamsD, ih]; rfl
    | cons y m => simp only [callParamsD, ih]; rfl

theorem callSitesD_http (o : Options) (b : Bool) : callSitesD { o with http := b } = callSitesD o := by
  have h : callSiteD { o with http := b } = callSiteD o := by
    funext c da db f g; simp only [callSiteD, callParamsD_http]; rfl
  funext c da db l m; simp only [callSitesD, h]; rfl

theorem inlinedD_http (o : Options) (b : Bool) (c : FnPair) (da db : Option Str) (n : Nat) :
    inlinedD { o with http := b } c da db n = inlinedD o c da db n := by
  induction n with
  | zero => rfl
  | succ n ih => funext f g; simp only [inlinedD, inlinedP_http, callSitesD_http, ih]; rfl

theorem fnBodyD_http (o : Options) (b : Bool) (c : FnPair) (da db : Option Str) (n : Nat) :
    fnBodyD { o with http := b } c da db n = fnBodyD o c da db n := by
  funext f g; simp only [fnBodyD, inlinedP_http, inlinedD_http, callSitesD_http]; rfl

theorem functionP_http (o : Options) (b : Bool) (s : FnSide) : functionP { o with http := b } s = functionP o s := by
  funext dir n f; simp only [functionP, fnBodyP_http]

theorem unitBodyD_http (o : Options) (b : Bool) (c : FilePair) (n : Nat) :
    unitBodyD { o with http := b } c n = unitBodyD o c n := by
  have h1 : functionD { o with http := b } c.toFnPair = functionD o c.toFnPair := by
    funext uid da db n f g; simp only [functionD, fnBodyD_http]
  funext u v; simp only [unitBodyD, unitFnsD, fnListD, functionP_http, h1]; rfl

theorem fileD_http (o : Options) (b : Bool) (c : FilePair) (n : Nat) : fileD { o with http := b } c n = fileD o c n := by
  have h1 : ∀ s, unitP { o with http := b } s n = unitP o s n := fun s => by
    funext u; simp only [unitP, unitBodyP_http]
  have h2 : unitD { o with http := b } c n = unitD o c n := by
    funext u v; simp only [unitD, unitBodyD_http]
  simp only [fileD, unitsD, h1, h2]; rfl

/-! ### Items of one file -/

section
variable {load : Nat → Option Str → Str} {o : Options} {s : FileSide} {n : Nat}

theorem siteL_type (ho : o.http = true) {dir : Option Str} {ty : TypeEntry} {p : P}
    (hl : ∀ b, printable ty.kind = true → bodyP o s.toSide dir n (s.extra ty.offset) ty.kind = some b →
      load (s.extra ty.offset).id none = fresh t alnum o b)
    (h : typeP o s.toSide dir n ty = some p) (own : Option Nat) : Site t alnum load o.inlineDepth own p := by
  simp only [typeP, Option.bind_eq_bind, Option.bind_eq_some_iff, Option.some.injEq] at h
  obtain ⟨hd, hhd, b, hb, rfl⟩ := h
  have hpr : printable ty.kind = true := by
    unfold headerVal at hhd
    split at hhd <;> first | (rename_i e; rw [e]; rfl) | (cases hhd)
  refine ⟨⟨plain_nil, ?_, (clean_body hb).noIds.site _ _ _⟩, trivial⟩
  rw [hl b hpr hb, fresh_html ho (clean_body hb).noIds.flat]

theorem siteL_variable (ho : o.http = true) {dir : Option Str} {v : Item.Variable}
    (hl : load (s.varId v) none = fresh t alnum o (variableBodyP o s.toSide dir v)) (own : Option Nat) :
    Site t alnum load o.inlineDepth own (variableP o s dir v) := by
  have hc := clean_variable o s.toSide dir v
  refine ⟨⟨plain_nil, ?_, hc.noIds.site _ _ _⟩, trivial⟩
  rw [hl, fresh_html ho hc.noIds.flat]

theorem siteL_function (ho : o.http = true) (hi : o.printFunctionInstructions = false) {dir : Option Str} {f : Function} {p : P}
    (hl : ∀ b, fnBodyP o s.toFnSide dir n f = some b → load (s.fnId f) none = fresh t alnum o b)
    (h : functionP o s.toFnSide dir n f = some p) (own : Option Nat) : Site t alnum load o.inlineDepth own p := by
  simp only [functionP, Option.bind_eq_bind, Option.bind_eq_some_iff, Option.some.injEq] at h
  obtain ⟨b, hb, rfl⟩ := h
  have hs : ∀ own, Site t alnum load o.inlineDepth own b := by
    intro own
    obtain ⟨l, ins, rfl, hl, h⟩ := fnBody_parts hb
    refine seqs_append_site hl (Site.whenP (b := false) (f := none) (fun q hq => by cases hq) ?_)
    simp only [hi, Bool.false_and, Show.whenP, Bool.false_eq_true, if_false] at h ⊢
    exact h
  refine ⟨⟨plain_nil, ?_, hs _⟩, trivial⟩
  rw [hl b hb, fresh_html ho (hs none).flat]

/-- The answers are right for all items in a unit. -/
structure Inner (t : EntityTable) (alnum : Nat → Bool) (load : Nat → Option Str → Str) (o : Options) (s : FileSide)
    (n : Nat) (u : CompUnit) : Prop where
  type : ∀ ty ∈ u.types, ∀ b, printable ty.kind = true → bodyP o s.toSide u.dir n (s.extra ty.offset) ty.kind = some b →
    load (s.extra ty.offset).id none = fresh t alnum o b
  function : ∀ f ∈ u.functions, ∀ b, fnBodyP o s.toFnSide u.dir n f = some b → load (s.fnId f) none = fresh t alnum o b
  var : ∀ v ∈ u.variables, load (s.varId v) none = fresh t alnum o (variableBodyP o s.toSide u.dir v)

theorem siteL_fnList (ho : o.http = true) (hi : o.printFunctionInstructions = false) {u : CompUnit}
    (hin : Inner t alnum load o s n u) {l : List Function} (hl : ∀ f ∈ l, f ∈ u.functions)
    {p : P} (h : fnListP o s.toFnSide n u l = some p) (own : Option Nat) : Site t alnum load o.inlineDepth own p :=
  Site.sortList (fun f hf _ hq => siteL_function ho hi (hin.function f (hl f hf)) hq own) h

theorem siteL_unitBody (ho : o.http = true) (hh : o.html = true) (hi : o.printFunctionInstructions = false) {u : CompUnit}
    (hin : Inner t alnum load o s n u) {p : P} (h : unitBodyP o s n u = some p) (own : Option Nat) :
    Site t alnum load o.inlineDepth own p := by
  simp only [unitBodyP, hh, if_true, Option.bind_eq_bind, Option.bind_eq_some_iff, Option.some.injEq] at h
  obtain ⟨part, hpart, types, htypes, f, hf, i, hi', vars, hvars, rfl⟩ := h
  have hmem : ∀ (q : Function → Bool), ∀ f ∈ (Filter.filterFunctions u o).filter q, f ∈ u.functions := fun q f hf =>
    (List.mem_filter.1 (List.mem_filter.1 hf).1).1
  refine ⟨Site.whenP (fun q hq => (clean_unitPart hq).noIds.site _ _ _) hpart, ?_, ?_, ?_, trivial⟩
  · show Site _ _ _ _ none types
    exact Site.whenP (fun q hq => Site.sortList
      (fun x hx y hy => siteL_type ho (hin.type x (List.mem_filter.1 hx).1) hy none) hq) htypes
  · split
    · exact ⟨show Site _ _ _ _ none f from Site.whenP (fun q hq => siteL_fnList ho hi hin (hmem _) hq none) hf,
        show Site _ _ _ _ none i from Site.whenP (fun q hq => siteL_fnList ho hi hin (hmem _) hq none) hi'⟩
    · trivial
  · show Site _ _ _ _ none vars
    refine Site.whenP (fun q hq => Site.sortList (fun x hx y hy => ?_) hq) hvars
    simp only [Option.some.injEq] at hy
    subst hy
    exact siteL_variable ho (hin.var x (List.mem_filter.1 hx).1) none

theorem siteL_unit (ho : o.http = true) (hh : o.html = true) (hi : o.printFunctionInstructions = false) {u : CompUnit}
    (hin : Inner t alnum load o s n u)
    (hl : ∀ b, unitBodyP o s n u = some b → load (s.unitId u) none = fresh t alnum o b)
    {p : P} (h : unitP o s n u = some p) (own : Option Nat) : Site t alnum load o.inlineDepth own p := by
  simp only [unitP, hh, if_true, Option.bind_eq_bind, Option.bind_eq_some_iff, Option.some.injEq] at h
  obtain ⟨b, hb, rfl⟩ := h
  have hs := siteL_unitBody ho hh hi hin hb
  refine ⟨plain_nil, ?_, hs _⟩
  rw [hl b hb, fresh_html ho (hs none).flat]

end

/-! ### Requests -/

variable {fr : Frame} {o : Options} {c : FilePair} {n : Nat}

theorem loadsD_index (hsmall : (indexOf o c n).ids.length ≤ 2 ^ 64) {i : Nat} {p : Id × Id}
    (hi : (indexOf o c n).ids[i]? = some p) {b : Str}
    (h : diffText t alnum o c n (diffId c.a.file.units c.b.file.units (indexOf o c n).ids i) = some b) :
    loadsD t alnum fr o c n i none = b := by
  have hlt := (List.getElem?_eq_some_iff.1 hi).1
  have := ((C39_diff c.a.file.units c.b.file.units (indexOf o c n).ids (idPath i none)).2.1 i
    (idPath_none (by omega))).1 hlt
  unfold loadsD answerDiff
  rw [this]
  by_cases h' : diffId c.a.file.units c.b.file.units (indexOf o c n).ids i = .nothing
  · rw [if_pos h']; rw [h'] at h; simp only [diffText, Option.some.injEq] at h; simp [h]
  · rw [if_neg h']; simp only [h, Option.getD_some]

/-- The place of an entry in the index. -/
theorem index_entry {p : Id × Id}
    (h : p ∈ mergedIds (realCmps o n c.a.hash c.b.hash) o c.a.hash c.b.hash c.a.file.units c.b.file.units) :
    ∃ i, (indexOf o c n).ids[i]? = some p ∧ (p.1 ≠ .none → (indexOf o c n).storeA p.1 = i) ∧
      (p.2 ≠ .none → (indexOf o c n).storeB p.2 = i) := by
  obtain ⟨h1, h2, _⟩ := assignMerged_spec (realCmps o n c.a.hash c.b.hash) o c.a.hash c.b.hash c.a.file.units c.b.file.units
  obtain ⟨i, hi⟩ := List.mem_iff_getElem?.1 h
  refine ⟨i, ?_, (h2 i p hi).1, (h2 i p hi).2⟩
  rw [← h1] at hi
  exact hi

abbrev entries (o : Options) (c : FilePair) (n : Nat) : List (Id × Id) :=
  mergedIds (realCmps o n c.a.hash c.b.hash) o c.a.hash c.b.hash c.a.file.units c.b.file.units

theorem loadsD_onlyA (hsmall : (indexOf o c n).ids.length ≤ 2 ^ 64) {x : Id} (hx : (x, Id.none) ∈ entries o c n)
    {sh : Ids.Shown} (hs : item c.a.file.units x = some sh) (hc : canPrint sh = true) {p : P} (hp : shownP o c.a n sh = some p) :
    loadsD t alnum fr o c n ((indexOf o c n).storeA x) none = fresh t alnum o p := by
  obtain ⟨i, h1, h2, _⟩ := index_entry hx
  have hne : x ≠ .none := by rintro rfl; cases hs
  rw [h2 hne]
  refine loadsD_index hsmall h1 ?_
  unfold diffId
  rw [h1]
  cases x with
  | none => exact absurd rfl hne
  | _ => simp [hs, hc, diffText, hp]

theorem loadsD_onlyB (hsmall : (indexOf o c n).ids.length ≤ 2 ^ 64) {x : Id} (hx : (Id.none, x) ∈ entries o c n)
    {sh : Ids.Shown} (hs : item c.b.file.units x = some sh) (hc : canPrint sh = true) {p : P} (hp : shownP o c.b n sh = some p) :
    loadsD t alnum fr o c n ((indexOf o c n).storeB x) none = fresh t alnum o p := by
  obtain ⟨i, h1, _, h2⟩ := index_entry hx
  have hne : x ≠ .none := by rintro rfl; cases hs
  rw [h2 hne]
  refine loadsD_index hsmall h1 ?_
  unfold diffId
  rw [h1]
  cases x with
  | none => exact absurd rfl hne
  | _ => simp [hs, hc, diffText, hp]

theorem loadsD_both (hsmall : (indexOf o c n).ids.length ≤ 2 ^ 64) {x y : Id} (hx : (x, y) ∈ entries o c n)
    {sx sy : Ids.Shown} (h1 : item c.a.file.units x = some sx) (h2 : item c.b.file.units y = some sy)
    (hc : canDiff sx sy = true) {b : Str} (hp : diffText t alnum o c n (.diff sx sy) = some b) :
    loadsD t alnum fr o c n ((indexOf o c n).storeA x) none = b := by
  obtain ⟨i, h3, h4, _⟩ := index_entry hx
  have hne : x ≠ .none := by rintro rfl; cases h1
  have hne' : y ≠ .none := by rintro rfl; cases h2
  rw [h4 hne]
  refine loadsD_index hsmall h3 ?_
  unfold diffId
  rw [h3]
  cases x with
  | none => exact absurd rfl hne
  | _ =>
    cases y with
    | none => exact absurd rfl hne'
    | _ => simp [h1, h2, hc, hp]

theorem freshD_html (ho : o.http = true) (hh : o.html = true) {e : D} (he : FlatHeadsD e) :
    freshD t alnum o e = (htmlD t alnum true e o.inlineDepth .none false).1 := by
  unfold freshD
  rw [runD_html (printOpts o) hh e he _ false rfl rfl]
  simp only [printOpts, ho]
  rfl

/-! ### The items of a diff -/

/-- What the theorem assumes. -/
structure SetupD (o : Options) (c : FilePair) (n : Nat) : Prop where
  http : o.http = true
  html : o.html = true
  insns : o.printFunctionInstructions = false
  ids : IdsOfPair o c n
  small : (indexOf o c n).ids.length ≤ 2 ^ 64

theorem mem_bare {α : Type} {l : List (MergeResult (Nat × α) (Nat × α))} {m : List (MergeResult α α)} (h : l.map bare = m) :
    (∀ x, .left x ∈ m → ∃ i, .left (i, x) ∈ l) ∧ (∀ x, .right x ∈ m → ∃ i, .right (i, x) ∈ l) ∧
    (∀ x y, .both x y ∈ m → ∃ i j, .both (i, x) (j, y) ∈ l) := by
  subst h
  refine ⟨fun x hx => ?_, fun x hx => ?_, fun x y hx => ?_⟩ <;>
  · obtain ⟨r, hr, he⟩ := List.mem_map.1 hx
    cases r <;> simp only [bare, reduceCtorEq, MergeResult.left.injEq, MergeResult.right.injEq, MergeResult.both.injEq] at he
    · first
      | (obtain ⟨rfl, rfl⟩ := he; exact ⟨_, _, hr⟩)
      | (subst he; exact ⟨_, hr⟩)

theorem entries_of {r : MergeResult (Nat × CompUnit) (Nat × CompUnit)}
    (hr : r ∈ unitMerge (realCmps o n c.a.hash c.b.hash) o c.a.file.units c.b.file.units) {p : Id × Id}
    (hp : p ∈ mergedUnit (realCmps o n c.a.hash c.b.hash) o c.a.hash c.b.hash r) : p ∈ entries o c n :=
  List.mem_flatMap.2 ⟨r, hr, hp⟩

variable (hS : SetupD o c n)
include hS

theorem inner_left {i : Nat} {u : CompUnit}
    (hr : .left (i, u) ∈ unitMerge (realCmps o n c.a.hash c.b.hash) o c.a.file.units c.b.file.units) :
    Inner t alnum (loadsD t alnum fr o c n) o c.a n u ∧
      ∀ b, unitBodyP o c.a n u = some b → loadsD t alnum fr o c n (c.a.unitId u) none = fresh t alnum o b := by
  have hu : c.a.file.units[i]? = some u := ((unitMerge_sound _ _ _ _ hr).1 _ rfl).1
  have hin : ∀ x ∈ innerIds i u, (x, Id.none) ∈ entries o c n := fun x hx =>
    entries_of hr (List.mem_cons_of_mem _ ((mem_unmergedInUnit i u true x .none).2 ⟨hx, rfl⟩))
  refine ⟨⟨fun ty hty b hpr hb => ?_, fun f hf b hb => ?_, fun v hv => ?_⟩, fun b hb => ?_⟩
  · obtain ⟨j, hj⟩ := List.mem_iff_getElem?.1 hty
    rw [hS.ids.typeA i u j ty hu hj]
    exact loadsD_onlyA hS.small (hin _ (by
      simp only [innerIds, List.mem_append, List.mem_map, List.mem_range]
      exact .inl (.inl ⟨j, (List.getElem?_eq_some_iff.1 hj).1, rfl⟩))) (sh := .type u ty)
      (by simp [item, hu, hj]) hpr hb
  · obtain ⟨j, hj⟩ := List.mem_iff_getElem?.1 hf
    rw [hS.ids.functionA i u j f hu hj]
    exact loadsD_onlyA hS.small (hin _ (by
      simp only [innerIds, List.mem_append, List.mem_map, List.mem_range]
      exact .inl (.inr ⟨j, (List.getElem?_eq_some_iff.1 hj).1, rfl⟩))) (sh := .function u f)
      (by simp [item, hu, hj]) rfl hb
  · obtain ⟨j, hj⟩ := List.mem_iff_getElem?.1 hv
    rw [hS.ids.varA i u j v hu hj]
    exact loadsD_onlyA hS.small (hin _ (by
      simp only [innerIds, List.mem_append, List.mem_map, List.mem_range]
      exact .inr ⟨j, (List.getElem?_eq_some_iff.1 hj).1, rfl⟩)) (sh := .var u v)
      (by simp [item, hu, hj]) rfl rfl
  · rw [hS.ids.unitA i u hu]
    exact loadsD_onlyA hS.small (entries_of hr (List.mem_cons_self ..)) (sh := .unit u) (by simp [item, hu]) rfl hb

theorem inner_right {i : Nat} {u : CompUnit}
    (hr : .right (i, u) ∈ unitMerge (realCmps o n c.a.hash c.b.hash) o c.a.file.units c.b.file.units) :
    Inner t alnum (loadsD t alnum fr o c n) o c.b n u ∧
      ∀ b, unitBodyP o c.b n u = some b → loadsD t alnum fr o c n (c.b.unitId u) none = fresh t alnum o b := by
  have hu : c.b.file.units[i]? = some u := ((unitMerge_sound _ _ _ _ hr).2.1 _ rfl).1
  have hin : ∀ x ∈ innerIds i u, (Id.none, x) ∈ entries o c n := fun x hx =>
    entries_of hr (List.mem_cons_of_mem _ ((mem_unmergedInUnit i u false .none x).2 ⟨rfl, hx⟩))
  refine ⟨⟨fun ty hty b hpr hb => ?_, fun f hf b hb => ?_, fun v hv => ?_⟩, fun b hb => ?_⟩
  · obtain ⟨j, hj⟩ := List.mem_iff_getElem?.1 hty
    rw [hS.ids.typeB i u j ty hu hj]
    exact loadsD_onlyB hS.small (hin _ (by
      simp only [innerIds, List.mem_append, List.mem_map, List.mem_range]
      exact .inl (.inl ⟨j, (List.getElem?_eq_some_iff.1 hj).1, rfl⟩))) (sh := .type u ty)
      (by simp [item, hu, hj]) hpr hb
  · obtain ⟨j, hj⟩ := List.mem_iff_getElem?.1 hf
    rw [hS.ids.functionB i u j f hu hj]
    exact loadsD_onlyB hS.small (hin _ (by
      simp only [innerIds, List.mem_append, List.mem_map, List.mem_range]
      exact .inl (.inr ⟨j, (List.getElem?_eq_some_iff.1 hj).1, rfl⟩))) (sh := .function u f)
      (by simp [item, hu, hj]) rfl hb
  · obtain ⟨j, hj⟩ := List.mem_iff_getElem?.1 hv
    rw [hS.ids.varB i u j v hu hj]
    exact loadsD_onlyB hS.small (hin _ (by
      simp only [innerIds, List.mem_append, List.mem_map, List.mem_range]
      exact .inr ⟨j, (List.getElem?_eq_some_iff.1 hj).1, rfl⟩)) (sh := .var u v)
      (by simp [item, hu, hj]) rfl rfl
  · rw [hS.ids.unitB i u hu]
    exact loadsD_onlyB hS.small (entries_of hr (List.mem_cons_self ..)) (sh := .unit u) (by simp [item, hu]) rfl hb

end Verif.Web
