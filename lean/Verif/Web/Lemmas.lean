import Verif.Web.Walk
import Verif.Web.Model
import Verif.Serve.Props
import Verif.Show.FileLemmas
import Verif.Show.Facts
/-!
# The page of a file opens to the printed page
-/
namespace Verif.Web
open Verif.Print Verif.Html Verif.Item Verif.Opts Verif.Show Verif.Ids Verif.Serve Verif.Types Verif.Order

variable {t : EntityTable} {alnum : Nat → Bool}

/-! ### Programs do not depend on `http` -/

theorem inlinedP_http (o : Options) (b : Bool) (s : FnSide) (dir : Option Str) (n : Nat) :
    inlinedP { o with http := b } s dir n = inlinedP o s dir n := by
  induction n with
  | zero => rfl
  | succ n ih => funext f; simp only [inlinedP, ih]; rfl

theorem fnBodyP_http (o : Options) (b : Bool) (s : FnSide) (dir : Option Str) (n : Nat) :
    fnBodyP { o with http := b } s dir n = fnBodyP o s dir n := by
  funext f; simp only [fnBodyP, inlinedP_http]; rfl

theorem unitBodyP_http (o : Options) (b : Bool) (s : FileSide) (n : Nat) :
    unitBodyP { o with http := b } s n = unitBodyP o s n := by
  have h1 : functionP { o with http := b } s.toFnSide = functionP o s.toFnSide := by
    funext dir n f; simp only [functionP, fnBodyP_http]
  funext u; simp only [unitBodyP, fnListP, h1]; rfl

theorem fileP_http (o : Options) (b : Bool) (s : FileSide) (n : Nat) : fileP { o with http := b } s n = fileP o s n := by
  have h1 : unitP { o with http := b } s n = unitP o s n := by
    funext u; simp only [unitP, unitBodyP_http]
  simp only [fileP, unitsP, h1]; rfl

/-! ### Requests -/

theorem digitsValue_foldl (s : Str) (acc : Nat) : digitsValue acc s = s.foldl (fun a c => a * 10 + (c - 48)) acc := by
  induction s generalizing acc with
  | nil => rfl
  | cons c s ih => exact ih _

theorem numText_dec {n : Nat} (h : n < 2 ^ 64) : NumText (dec n) n := by
  refine ⟨dec n, .inl rfl, dec_ne_nil n, dec_digits n, ?_, h⟩
  rw [digitsValue_foldl]
  have := (decimal_dec n).value
  unfold decimalValue at this
  refine Eq.trans ?_ this
  congr 1
  funext a c
  omega

theorem idPath_none {n : Nat} (h : n < 2 ^ 64) : IsId (idPath n none) n none :=
  ⟨dec n, numText_dec h, .inl ⟨rfl, by simp [idPath]⟩⟩

theorem idPath_some {n : Nat} (h : n < 2 ^ 64) {d : Str} (hd : 47 ∉ d) : IsId (idPath n (some d)) n (some d) := by
  refine ⟨dec n, numText_dec h, .inr ⟨d, [], rfl, hd, .inl rfl, ?_⟩⟩
  have e : k "/" = [47] := by decide
  simp [idPath, e, List.append_assoc]

theorem loads_none {fr : Frame} {o : Options} {s : FileSide} {n i : Nat} {x : Ids.Shown} (hi : i < 2 ^ 64)
    (h : printId s.file.units (assignIds s.file.units).ids i none = some x) {p : P} (hp : shownP o s n x = some p) :
    loads t alnum fr o s n i none = fresh t alnum o p := by
  have := (C39_print s.file.units (idPath i none)).2.1 i (idPath_none hi)
  simp only [h, Option.map_some, Option.getD_some] at this
  simp [loads, answer, this, hp]

theorem loads_some {fr : Frame} {o : Options} {s : FileSide} {n i : Nat} {x : Ids.Shown} {d : Str} (hi : i < 2 ^ 64)
    (hd : 47 ∉ d) (hd' : d ≠ Str.ofString "parent")
    (h : printId s.file.units (assignIds s.file.units).ids i (some d) = some x) {p : P} (hp : shownP o s n x = some p) :
    loads t alnum fr o s n i (some d) = fresh t alnum o p := by
  have := (C39_print s.file.units (idPath i (some d))).2.2.2.1 i d (idPath_some hi hd) hd'
  simp only [h, Option.map_some, Option.getD_some] at this
  simp [loads, answer, this, hp]

theorem fresh_html {o : Options} (ho : o.http = true) {p : P} (hp : FlatHeads p) :
    fresh t alnum o p = html t alnum true .none p o.inlineDepth := by
  unfold fresh
  rw [ho, run_html true p hp _ rfl rfl]
  rfl

/-! ### The items of a file -/

theorem Site.seqs {load : Nat → Option Str → Str} {d : Nat} {own : Option Nat} {l : List P}
    (h : ∀ p ∈ l, Site t alnum load d own p) : Site t alnum load d own (P.seqs l) := by
  induction l with
  | nil => trivial
  | cons p ps ih => exact ⟨h p (by simp), ih fun q hq => h q (by simp [hq])⟩

theorem Site.sortList {load : Nat → Option Str → Str} {d : Nat} {own : Option Nat} {α γ : Type}
    {cmp : α → γ → α → γ → Res Ordering} {x : γ} {print : α → Option P} {l : List α} {p : P}
    (h : ∀ a ∈ l, ∀ q, print a = some q → Site t alnum load d own q) (hp : sortListP cmp x print l = some p) :
    Site t alnum load d own p := by
  simp only [sortListP, Option.bind_eq_bind, Option.bind_eq_some_iff] at hp
  obtain ⟨l', hl', hp⟩ := hp
  have hperm := sortWith_perm hl'
  unfold listP at hp
  rw [Option.map_eq_some_iff] at hp
  obtain ⟨m, hm, rfl⟩ := hp
  refine Site.seqs fun q hq => ?_
  obtain ⟨a, ha, he⟩ := mapM_option hm q hq
  exact h a (hperm.mem_iff.1 ha) q he

theorem Site.whenP {load : Nat → Option Str → Str} {d : Nat} {own : Option Nat} {b : Bool} {f : Option P} {p : P}
    (h : ∀ q, f = some q → Site t alnum load d own q) (hp : whenP b f = some p) : Site t alnum load d own p := by
  cases b with
  | true => exact h p hp
  | false =>
    simp only [Show.whenP, Bool.false_eq_true, if_false, Option.some.injEq] at hp
    subst hp; trivial

/-- What the theorem assumes. -/
structure Setup (o : Options) (s : FileSide) : Prop where
  http : o.http = true
  html : o.html = true
  ids : IdsOf s
  insns : ∀ f p, s.insns f = some p → NoIds p
  small : (assignIds s.file.units).ids.length ≤ 2 ^ 64

variable {fr : Frame} {o : Options} {s : FileSide} {n : Nat}

theorem Setup.id_small (hS : Setup o s) {x : Id} (hx : ItemOf s.file.units x) :
    (assignIds s.file.units).store x < 2 ^ 64 := by
  have := (C37_print_ids s.file.units).1 x hx
  have := (List.getElem?_eq_some_iff.1 this).1
  have := hS.small
  omega

theorem site_type (hS : Setup o s) {u : CompUnit} (hu : u ∈ s.file.units) {ty : TypeEntry} (ht : ty ∈ u.types) {p : P}
    (h : typeP o s.toSide u.dir n ty = some p) (own : Option Nat) :
    Site t alnum (loads t alnum fr o s n) o.inlineDepth own p := by
  simp only [typeP, Option.bind_eq_bind, Option.bind_eq_some_iff, Option.some.injEq] at h
  obtain ⟨hd, hhd, b, hb, rfl⟩ := h
  obtain ⟨i, j, h1, h2, h3⟩ := hS.ids.type u hu ty ht
  have hpr : printable ty.kind = true := by
    unfold headerVal at hhd
    split at hhd <;> first | (rename_i e; rw [e]; rfl) | (cases hhd)
  have hp := (C37_print_id s.file.units none).2.1 i u j ty h1 h2
  rw [if_pos hpr] at hp
  refine ⟨⟨plain_nil, ?_, (clean_body hb).noIds.site _ _ _⟩, trivial⟩
  rw [h3, loads_none (hS.id_small (.type h1 h2)) hp (p := b) (by exact hb), fresh_html hS.http (clean_body hb).noIds.flat]

theorem site_variable (hS : Setup o s) {u : CompUnit} (hu : u ∈ s.file.units) {v : Item.Variable} (hv : v ∈ u.variables)
    (own : Option Nat) : Site t alnum (loads t alnum fr o s n) o.inlineDepth own (variableP o s u.dir v) := by
  obtain ⟨i, j, h1, h2, h3⟩ := hS.ids.var u hu v hv
  have hp := (C37_print_id s.file.units none).2.2.2.1 i u j v h1 h2
  have hc := clean_variable o s.toSide u.dir v
  refine ⟨⟨plain_nil, ?_, hc.noIds.site _ _ _⟩, trivial⟩
  rw [h3, loads_none (hS.id_small (.var h1 h2)) hp (p := variableBodyP o s.toSide u.dir v) rfl, fresh_html hS.http hc.noIds.flat]

theorem seqs_append_site {load : Nat → Option Str → Str} {d : Nat} {own : Option Nat} {l : List P} {p : P}
    (hl : ∀ q ∈ l, Clean q) (hp : Site t alnum load d own p) : Site t alnum load d own (P.seqs (l ++ [p])) :=
  Site.seqs fun q hq => by
    rcases List.mem_append.1 hq with hq | hq
    · exact (hl q hq).noIds.site _ _ _
    · rw [List.mem_singleton.1 hq]; exact hp

theorem noIds_instructions (hS : Setup o s) {f : Function} {p : P} (h : instructionsP s.toFnSide f = some p) : NoIds p := by
  unfold instructionsP at h
  split at h
  · simp only [Option.some.injEq] at h; subst h; trivial
  · exact hS.insns f p h

theorem site_fnBody (hS : Setup o s) {u : CompUnit} {f : Function} {i j : Nat} (h1 : s.file.units[i]? = some u)
    (h2 : u.functions[j]? = some f) {p : P}
    (h : fnBodyP o s.toFnSide u.dir n f = some p) : Site t alnum (loads t alnum fr o s n) o.inlineDepth
      (some ((assignIds s.file.units).store (.function i j))) p := by
  obtain ⟨l, ins, rfl, hl, hi⟩ := fnBody_parts h
  refine seqs_append_site hl (Site.whenP (fun q hq => ?_) hi)
  rw [Option.map_eq_some_iff] at hq
  obtain ⟨b, hb, rfl⟩ := hq
  have hn := noIds_instructions hS hb
  have hp := ((C37_print_id s.file.units (some (k "code"))).2.2.1 i u j f h1 h2).2 _ rfl
  rw [if_pos rfl] at hp
  refine ⟨hn, ?_⟩
  rw [loads_some (hS.id_small (.function h1 h2)) (by decide) (by decide) hp (p := b) (by exact hb), fresh_html hS.http hn.flat]

theorem site_function (hS : Setup o s) {u : CompUnit} (hu : u ∈ s.file.units) {f : Function} (hf : f ∈ u.functions) {p : P}
    (h : functionP o s.toFnSide u.dir n f = some p) (own : Option Nat) :
    Site t alnum (loads t alnum fr o s n) o.inlineDepth own p := by
  simp only [functionP, Option.bind_eq_bind, Option.bind_eq_some_iff, Option.some.injEq] at h
  obtain ⟨b, hb, rfl⟩ := h
  obtain ⟨i, j, h1, h2, h3⟩ := hS.ids.function u hu f hf
  have hp := ((C37_print_id s.file.units none).2.2.1 i u j f h1 h2).1 rfl
  have hs := site_fnBody (t := t) (alnum := alnum) (fr := fr) hS h1 h2 hb
  refine ⟨⟨plain_nil, ?_, by rw [h3]; exact hs⟩, trivial⟩
  rw [h3, loads_none (hS.id_small (.function h1 h2)) hp (p := b) (by exact hb), fresh_html hS.http hs.flat]

theorem site_fnList (hS : Setup o s) {u : CompUnit} (hu : u ∈ s.file.units) {l : List Function} (hl : ∀ f ∈ l, f ∈ u.functions)
    {p : P} (h : fnListP o s.toFnSide n u l = some p) (own : Option Nat) :
    Site t alnum (loads t alnum fr o s n) o.inlineDepth own p :=
  Site.sortList (fun f hf q hq => site_function hS hu (hl f hf) hq own) h

theorem site_unitBody (hS : Setup o s) {u : CompUnit} (hu : u ∈ s.file.units) {p : P} (h : unitBodyP o s n u = some p)
    (own : Option Nat) : Site t alnum (loads t alnum fr o s n) o.inlineDepth own p := by
  simp only [unitBodyP, hS.html, if_true, Option.bind_eq_bind, Option.bind_eq_some_iff, Option.some.injEq] at h
  obtain ⟨part, hpart, types, htypes, f, hf, i, hi, vars, hvars, rfl⟩ := h
  have hmem : ∀ (q : Function → Bool), ∀ f ∈ (Filter.filterFunctions u o).filter q, f ∈ u.functions := fun q f hf =>
    (List.mem_filter.1 (List.mem_filter.1 hf).1).1
  refine ⟨Site.whenP (fun q hq => (clean_unitPart hq).noIds.site _ _ _) hpart, ?_, ?_, ?_, trivial⟩
  · show Site _ _ _ _ none types
    exact Site.whenP (fun q hq => Site.sortList (fun x hx y hy => site_type hS hu (List.mem_filter.1 hx).1 hy none) hq) htypes
  · split
    · exact ⟨show Site _ _ _ _ none f from Site.whenP (fun q hq => site_fnList hS hu (hmem _) hq none) hf,
        show Site _ _ _ _ none i from Site.whenP (fun q hq => site_fnList hS hu (hmem _) hq none) hi⟩
    · trivial
  · show Site _ _ _ _ none vars
    refine Site.whenP (fun q hq => Site.sortList (fun x hx y hy => ?_) hq) hvars
    simp only [Option.some.injEq] at hy
    subst hy
    exact site_variable hS hu (List.mem_filter.1 hx).1 none

theorem site_unit (hS : Setup o s) {u : CompUnit} (hu : u ∈ s.file.units) {p : P} (h : unitP o s n u = some p)
    (own : Option Nat) : Site t alnum (loads t alnum fr o s n) o.inlineDepth own p := by
  simp only [unitP, hS.html, if_true, Option.bind_eq_bind, Option.bind_eq_some_iff, Option.some.injEq] at h
  obtain ⟨b, hb, rfl⟩ := h
  obtain ⟨i, h1, h3⟩ := hS.ids.unit u hu
  have hp := (C37_print_id s.file.units none).1 i u h1
  have hs := site_unitBody (t := t) (alnum := alnum) (fr := fr) hS hu hb
  refine ⟨plain_nil, ?_, hs _⟩
  rw [h3, loads_none (hS.id_small (.unit h1)) hp (p := b) (by exact hb), fresh_html hS.http (hs none).flat]

theorem site_file (hS : Setup o s) {p : P} (h : fileP o s n = some p) :
    Site t alnum (loads t alnum fr o s n) o.inlineDepth none p := by
  simp only [fileP, Option.bind_eq_bind, Option.bind_eq_some_iff, Option.some.injEq] at h
  obtain ⟨hd, hhd, us, hus, rfl⟩ := h
  exact ⟨Site.whenP (fun q hq => (clean_filePart hq).noIds.site _ _ _) hhd,
    Site.sortList (fun u hu q hq => site_unit hS (List.mem_filter.1 hu).1 hq none) hus⟩

end Verif.Web
