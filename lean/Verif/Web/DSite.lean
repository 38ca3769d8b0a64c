import Verif.Web.DLemmas
import Verif.Web.DWalk
/-!
# The page of a diff opens to the printed page: the items in both files
-/
namespace Verif.Web
open Verif.Print Verif.Html Verif.Item Verif.Opts Verif.Show Verif.Ids Verif.Serve Verif.Types Verif.Order Verif.Merge
  Verif.Filter

variable {t : EntityTable} {alnum : Nat → Bool} {load : Nat → Option Str → Str} {o : Options} {c : FilePair} {n d : Nat}

/-- Nothing that only one file has is shown. -/
def common (o : Options) : Bool := o.ignoreAdded && o.ignoreDeleted

theorem SiteD.seqs {strict : Bool} {l : List D} (h : ∀ e ∈ l, SiteD t alnum load strict d e) :
    SiteD t alnum load strict d (D.seqs l) := by
  induction l with
  | nil => trivial
  | cons e l ih => exact ⟨h e (by simp), ih fun x hx => h x (by simp [hx])⟩

theorem SiteD.whenD {strict : Bool} {b : Bool} {f : Option D} {e : D} (h : ∀ x, f = some x → SiteD t alnum load strict d x)
    (he : whenD b f = some e) : SiteD t alnum load strict d e := by
  unfold Show.whenD at he
  split at he
  · exact h e he
  · simp only [Option.some.injEq] at he; subst he; trivial

theorem SiteD.sortList {α γ : Type} {cmp : α → γ → α → γ → Res Ordering} {ha hb : γ} {print print' : α → Option P}
    {diff : α → α → Option D} {items : List (MergeResult α α)} {e : D}
    (h1 : ∀ a p, .left a ∈ items → print a = some p → Site t alnum load d none p)
    (h2 : ∀ b p, .right b ∈ items → print' b = some p → Site t alnum load d none p)
    (h3 : ∀ a b e, .both a b ∈ items → diff a b = some e → SiteD t alnum load (common o) d e)
    (he : sortListD o cmp ha hb print print' diff items = some e) : SiteD t alnum load (common o) d e := by
  simp only [sortListD, Option.bind_eq_bind, Option.bind_eq_some_iff, Option.map_eq_some_iff] at he
  obtain ⟨l, hl, es, hes, rfl⟩ := he
  have hperm := sortWith_perm hl
  refine SiteD.seqs fun e he => ?_
  obtain ⟨it, hit, he⟩ := mapM_option hes e he
  have hit := hperm.mem_iff.1 hit
  cases it with
  | left a =>
    simp only [sortItemD] at he
    split at he
    · simp only [Option.some.injEq] at he; subst he; trivial
    · rename_i hi
      rw [Option.map_eq_some_iff] at he
      obtain ⟨p, hp, rfl⟩ := he
      exact ⟨h1 a p hit hp, fun hs => absurd hs (by simp [common, hi])⟩
  | right a =>
    simp only [sortItemD] at he
    split at he
    · simp only [Option.some.injEq] at he; subst he; trivial
    · rename_i hi
      rw [Option.map_eq_some_iff] at he
      obtain ⟨p, hp, rfl⟩ := he
      exact ⟨h2 a p hit hp, fun hs => absurd hs (by simp [common, hi])⟩
  | both a b =>
    simp only [sortItemD, Option.map_eq_some_iff] at he
    obtain ⟨f, hf, rfl⟩ := he
    exact h3 a b f hit hf

variable {fr : Frame}

section
variable (hS : SetupD o c n)
include hS

/-- The answers for the types of a pair of units. -/
theorem siteD_types {i j : Nat} {u v : CompUnit}
    (hr : .both (i, u) (j, v) ∈ unitMerge (realCmps o n c.a.hash c.b.hash) o c.a.file.units c.b.file.units) {e : D}
    (he : unitTypesD o c.toFnPair.toPair n u v = some e) :
    SiteD t alnum (loadsD t alnum fr o c n) (common o) o.inlineDepth e := by
  obtain ⟨hu, hv⟩ : c.a.file.units[i]? = some u ∧ c.b.file.units[j]? = some v :=
    ⟨((unitMerge_sound _ _ _ _ hr).1 _ rfl).1, ((unitMerge_sound _ _ _ _ hr).2.1 _ rfl).1⟩
  refine SiteD.whenD (fun x hx => ?_) he
  simp only [Option.bind_eq_bind, Option.bind_eq_some_iff] at hx
  obtain ⟨m, hm, hx⟩ := hx
  have hp := pairs_types (o := o) (c := c) hm _ rfl
  obtain ⟨b1, b2, b3⟩ := mem_bare hp
  have ent : ∀ {r}, r ∈ mergeIdx (realCmps o n c.a.hash c.b.hash).typeSort (realCmps o n c.a.hash c.b.hash).type
      (enumFilterTypes c.a.hash u o true) (enumFilterTypes c.b.hash v o true) →
      pairIds (.type i) (.type j) r ∈ entries o c n := fun {r} hr' =>
    entries_of hr (List.mem_cons_of_mem _ ((mem_mergedInUnit _ _ _ _ _ _ _ _ _).2 (.inl ⟨r, hr', rfl⟩)))
  refine SiteD.sortList (fun a p ha hp => ?_) (fun a p ha hp => ?_) (fun a b f ha hf => ?_) hx
  · obtain ⟨k, hk⟩ := b1 a ha
    have hk' : u.types[k]? = some a := ((enumFilter_mem _ _ _ _).1 ((pairIds_sound hk).1 _ rfl)).1
    refine siteL_type (s := c.a) hS.http (fun b hpr hb => ?_) hp none
    rw [hS.ids.typeA i u k a hu hk']
    exact loadsD_onlyA hS.small (ent hk) (sh := .type u a) (by simp [item, hu, hk']) hpr hb
  · obtain ⟨k, hk⟩ := b2 a ha
    have hk' : v.types[k]? = some a := ((enumFilter_mem _ _ _ _).1 ((pairIds_sound hk).2.1 _ rfl)).1
    refine siteL_type (s := c.b) hS.http (fun b hpr hb => ?_) hp none
    rw [hS.ids.typeB j v k a hv hk']
    exact loadsD_onlyB hS.small (ent hk) (sh := .type v a) (by simp [item, hv, hk']) hpr hb
  · obtain ⟨k, l, hk⟩ := b3 a b ha
    have hk' : u.types[k]? = some a := ((enumFilter_mem _ _ _ _).1 ((pairIds_sound hk).1 _ rfl)).1
    have hl' : v.types[l]? = some b := ((enumFilter_mem _ _ _ _).1 ((pairIds_sound hk).2.1 _ rfl)).1
    simp only [typeD, Option.bind_eq_bind, Option.bind_eq_some_iff, Option.some.injEq] at hf
    obtain ⟨hd, hhd, body, hb, rfl⟩ := hf
    obtain ⟨x, y, rfl⟩ := flatD_header hhd
    have hc := cleanD_body hb
    have hdf : diffable a.kind b.kind = true := by
      unfold headerD at hhd
      split at hhd <;> first | (rename_i e1 e2; rw [e1, e2]; rfl) | (cases hhd)
    refine ⟨⟨plain_nil, ?_, hc.siteD _ _ _⟩, trivial⟩
    rw [← freshD_html hS.http hS.html hc.flat]
    show loadsD t alnum fr o c n (c.a.extra a.offset).id none = _
    rw [hS.ids.typeA i u k a hu hk']
    refine loadsD_both hS.small (ent hk) (sx := .type u a) (sy := .type v b) (by simp [item, hu, hk'])
      (by simp [item, hv, hl']) hdf ?_
    simp only [diffText, Option.map_eq_some_iff]
    exact ⟨body, hb, rfl⟩

/-- The answers for the variables of a pair of units. -/
theorem siteD_variables {i j : Nat} {u v : CompUnit}
    (hr : .both (i, u) (j, v) ∈ unitMerge (realCmps o n c.a.hash c.b.hash) o c.a.file.units c.b.file.units) {e : D}
    (he : unitVariablesD o c n u v = some e) :
    SiteD t alnum (loadsD t alnum fr o c n) (common o) o.inlineDepth e := by
  obtain ⟨hu, hv⟩ : c.a.file.units[i]? = some u ∧ c.b.file.units[j]? = some v :=
    ⟨((unitMerge_sound _ _ _ _ hr).1 _ rfl).1, ((unitMerge_sound _ _ _ _ hr).2.1 _ rfl).1⟩
  refine SiteD.whenD (fun x hx => ?_) he
  simp only [Option.bind_eq_bind, Option.bind_eq_some_iff] at hx
  obtain ⟨m, hm, hx⟩ := hx
  have hp := pairs_variables (o := o) (c := c) (n := n) hm _ rfl
  obtain ⟨b1, b2, b3⟩ := mem_bare hp
  have ent : ∀ {r}, r ∈ mergeIdx (realCmps o n c.a.hash c.b.hash).varSort (realCmps o n c.a.hash c.b.hash).var
      (enumFilterVariables u o) (enumFilterVariables v o) →
      pairIds (.var i) (.var j) r ∈ entries o c n := fun {r} hr' =>
    entries_of hr (List.mem_cons_of_mem _ ((mem_mergedInUnit _ _ _ _ _ _ _ _ _).2 (.inr (.inr ⟨r, hr', rfl⟩))))
  refine SiteD.sortList (fun a p ha hp => ?_) (fun a p ha hp => ?_) (fun a b f ha hf => ?_) hx
  · obtain ⟨k, hk⟩ := b1 a ha
    have hk' : u.variables[k]? = some a := ((enumFilter_mem _ _ _ _).1 ((pairIds_sound hk).1 _ rfl)).1
    simp only [Option.some.injEq] at hp
    subst hp
    refine siteL_variable (s := c.a) hS.http ?_ none
    rw [hS.ids.varA i u k a hu hk']
    exact loadsD_onlyA hS.small (ent hk) (sh := .var u a) (by simp [item, hu, hk']) rfl rfl
  · obtain ⟨k, hk⟩ := b2 a ha
    have hk' : v.variables[k]? = some a := ((enumFilter_mem _ _ _ _).1 ((pairIds_sound hk).2.1 _ rfl)).1
    simp only [Option.some.injEq] at hp
    subst hp
    refine siteL_variable (s := c.b) hS.http ?_ none
    rw [hS.ids.varB j v k a hv hk']
    exact loadsD_onlyB hS.small (ent hk) (sh := .var v a) (by simp [item, hv, hk']) rfl rfl
  · simp only [Option.some.injEq] at hf
    subst hf
    exact ⟨⟨plain_nil, (cleanD_variable _ _ _ _ _ _ _).siteD _ _ _⟩, trivial⟩

/-- The answers for the functions of a pair of units, if none is in both. -/
theorem siteD_functions {i j : Nat} {u v : CompUnit}
    (hr : .both (i, u) (j, v) ∈ unitMerge (realCmps o n c.a.hash c.b.hash) o c.a.file.units c.b.file.units)
    (hno : o.categoryFunction = true → ∀ f ∈ u.functions, ∀ g ∈ v.functions, functionCmpId f g ≠ .eq) {e : D}
    (he : unitFnsD o c n u v (fun l => .field true l) = some e) :
    SiteD t alnum (loadsD t alnum fr o c n) (common o) o.inlineDepth e := by
  obtain ⟨hu, hv⟩ : c.a.file.units[i]? = some u ∧ c.b.file.units[j]? = some v :=
    ⟨((unitMerge_sound _ _ _ _ hr).1 _ rfl).1, ((unitMerge_sound _ _ _ _ hr).2.1 _ rfl).1⟩
  unfold unitFnsD at he
  cases hcat : o.categoryFunction with
  | false => rw [hcat] at he; simp only [Show.whenD, Bool.false_eq_true, if_false, Option.some.injEq] at he; subst he; trivial
  | true =>
    refine SiteD.whenD (fun x hx => ?_) he
    simp only [Option.bind_eq_bind, Option.bind_eq_some_iff, Option.some.injEq] at hx
    obtain ⟨⟨m1, m2⟩, hm, f1, hf1, f2, hf2, rfl⟩ := hx
    simp only [unitMergedFns, mergedFunctions, Option.bind_eq_bind, Option.bind_eq_some_iff, Option.pure_def,
      Option.some.injEq, Prod.mk.injEq] at hm
    obtain ⟨m, hm, hm1, hm2⟩ := hm
    have hp := pairs_functions (o := o) (c := c) hm _ rfl
    obtain ⟨b1, b2, b3⟩ := mem_bare hp
    have ent : ∀ {r}, r ∈ mergeIdx (realCmps o n c.a.hash c.b.hash).functionSort (realCmps o n c.a.hash c.b.hash).function
        (enumFilterFunctions u o) (enumFilterFunctions v o) →
        pairIds (.function i) (.function j) r ∈ entries o c n := fun {r} hr' =>
      entries_of hr (List.mem_cons_of_mem _ ((mem_mergedInUnit _ _ _ _ _ _ _ _ _).2 (.inr (.inl ⟨r, hr', rfl⟩))))
    have key : ∀ m' f, (∀ x ∈ m', x ∈ m) → fnListD o c n u v m' = some f →
        SiteD t alnum (loadsD t alnum fr o c n) (common o) o.inlineDepth f := by
      intro m' f hsub hf
      refine SiteD.sortList (fun a p ha hp => ?_) (fun a p ha hp => ?_) (fun a b f ha hf => ?_) hf
      · obtain ⟨k, hk⟩ := b1 a (hsub _ ha)
        have hk' : u.functions[k]? = some a := ((enumFilter_mem _ _ _ _).1 ((pairIds_sound hk).1 _ rfl)).1
        refine siteL_function (s := c.a) hS.http hS.insns (fun b hb => ?_) hp none
        rw [hS.ids.functionA i u k a hu hk']
        exact loadsD_onlyA hS.small (ent hk) (sh := .function u a) (by simp [item, hu, hk']) rfl hb
      · obtain ⟨k, hk⟩ := b2 a (hsub _ ha)
        have hk' : v.functions[k]? = some a := ((enumFilter_mem _ _ _ _).1 ((pairIds_sound hk).2.1 _ rfl)).1
        refine siteL_function (s := c.b) hS.http hS.insns (fun b hb => ?_) hp none
        rw [hS.ids.functionB j v k a hv hk']
        exact loadsD_onlyB hS.small (ent hk) (sh := .function v a) (by simp [item, hv, hk']) rfl hb
      · obtain ⟨k, l, hk⟩ := b3 a b (hsub _ ha)
        have hk' := List.mem_of_getElem? ((enumFilter_mem _ _ _ _).1 ((pairIds_sound hk).1 _ rfl)).1
        have hl' := List.mem_of_getElem? ((enumFilter_mem _ _ _ _).1 ((pairIds_sound hk).2.1 _ rfl)).1
        exact absurd ((pairIds_sound hk).2.2 _ _ rfl) (hno hcat a hk' b hl')
    refine ⟨key _ f1 (fun x hx => ?_) hf1, key _ f2 (fun x hx => ?_) hf2⟩
    · rw [← hm1] at hx; exact (List.mem_filter.1 hx).1
    · rw [← hm2] at hx; exact (List.mem_filter.1 hx).1

/-- The answers for the contents of a pair of units. -/
theorem siteD_unitBody {i j : Nat} {u v : CompUnit}
    (hr : .both (i, u) (j, v) ∈ unitMerge (realCmps o n c.a.hash c.b.hash) o c.a.file.units c.b.file.units)
    (hno : o.categoryFunction = true → ∀ f ∈ u.functions, ∀ g ∈ v.functions, functionCmpId f g ≠ .eq) {e : D}
    (he : unitBodyD o c n u v = some e) :
    SiteD t alnum (loadsD t alnum fr o c n) (common o) o.inlineDepth e := by
  simp only [unitBodyD, hS.html, if_true, Option.bind_eq_bind, Option.bind_eq_some_iff, Option.some.injEq] at he
  obtain ⟨part, hpart, types, htypes, fns, hfns, vars, hvars, rfl⟩ := he
  exact ⟨SiteD.whenD (fun x hx => (cleanD_unitPart hx).siteD _ _ _) hpart, show SiteD _ _ _ _ _ types from siteD_types hS hr htypes,
    siteD_functions hS hr hno hfns, show SiteD _ _ _ _ _ vars from siteD_variables hS hr hvars, trivial⟩

/-- The answers for all items of a diff. -/
theorem siteD_file (hno : o.categoryFunction = true → ∀ u ∈ c.a.file.units, ∀ f ∈ u.functions, ∀ v ∈ c.b.file.units,
      ∀ g ∈ v.functions, functionCmpId f g ≠ .eq) {e : D} (he : fileD o c n = some e) :
    SiteD t alnum (loadsD t alnum fr o c n) (common o) o.inlineDepth e := by
  simp only [fileD, Option.bind_eq_bind, Option.bind_eq_some_iff, Option.some.injEq] at he
  obtain ⟨hd, hhd, us, hus, rfl⟩ := he
  refine ⟨SiteD.whenD (fun x hx => (cleanD_filePart hx).siteD _ _ _) hhd, ?_⟩
  simp only [unitsD, Option.bind_eq_bind, Option.bind_eq_some_iff] at hus
  obtain ⟨m, hm, hus⟩ := hus
  have hp := pairs_units (o := o) (c := c) (n := n) hm _ rfl
  obtain ⟨b1, b2, b3⟩ := mem_bare hp
  refine SiteD.sortList (fun a p ha hp => ?_) (fun a p ha hp => ?_) (fun a b f ha hf => ?_) hus
  · obtain ⟨k, hk⟩ := b1 a ha
    obtain ⟨h1, h2⟩ := inner_left (t := t) (alnum := alnum) (fr := fr) hS hk
    exact siteL_unit hS.http hS.html hS.insns h1 h2 hp none
  · obtain ⟨k, hk⟩ := b2 a ha
    obtain ⟨h1, h2⟩ := inner_right (t := t) (alnum := alnum) (fr := fr) hS hk
    exact siteL_unit hS.http hS.html hS.insns h1 h2 hp none
  · obtain ⟨i, j, hr⟩ := b3 a b ha
    obtain ⟨hu, hv⟩ : c.a.file.units[i]? = some a ∧ c.b.file.units[j]? = some b :=
      ⟨((unitMerge_sound _ _ _ _ hr).1 _ rfl).1, ((unitMerge_sound _ _ _ _ hr).2.1 _ rfl).1⟩
    simp only [unitD, hS.html, if_true, Option.bind_eq_bind, Option.bind_eq_some_iff, Option.some.injEq] at hf
    obtain ⟨body, hb, rfl⟩ := hf
    have hs := siteD_unitBody (t := t) (alnum := alnum) (fr := fr) hS hr
      (fun hc f hf g hg => hno hc a (List.mem_of_getElem? hu) f hf b (List.mem_of_getElem? hv) g hg) hb
    refine ⟨plain_nil, ?_, hs⟩
    rw [← freshD_html hS.http hS.html hs.flat, hS.ids.unitA i a hu]
    refine loadsD_both hS.small (entries_of hr (List.mem_cons_self ..)) (sx := .unit a) (sy := .unit b)
      (by simp [item, hu]) (by simp [item, hv]) rfl ?_
    simp only [diffText, hb, Option.map_some]

end

end Verif.Web
