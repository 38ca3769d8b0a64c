import Verif.Whole.Spec
namespace Verif.Whole
open Verif.Item Verif.Types Verif.Namespace Verif.Range Verif.Sentinel Verif.File Verif.Dwarf Verif.Show
  Verif.Filter Verif.Opts Verif.Print Verif.Code

theorem EachRel.len {α β : Type} {R : α → β → Prop} {l : List α} {m : List β} (h : EachRel R l m) : m.length = l.length := by
  induction h with
  | nil => rfl
  | cons _ _ ih => simp [ih]

theorem EachRel.get {α β : Type} {R : α → β → Prop} {l : List α} {m : List β} (h : EachRel R l m) {k : Nat} {a : α}
    (hk : l[k]? = some a) : ∃ b, m[k]? = some b ∧ R a b := by
  induction h generalizing k with
  | nil => simp at hk
  | cons r _ ih =>
    cases k with
    | zero => simp at hk; subst hk; exact ⟨_, by simp, r⟩
    | succ k => simp at hk; simpa using ih hk

theorem EachRel.get' {α β : Type} {R : α → β → Prop} {l : List α} {m : List β} (h : EachRel R l m) {k : Nat} {b : β}
    (hk : m[k]? = some b) : ∃ a, l[k]? = some a ∧ R a b := by
  induction h generalizing k with
  | nil => simp at hk
  | cons r _ ih =>
    cases k with
    | zero => simp at hk; subst hk; exact ⟨_, by simp, r⟩
    | succ k => simp at hk; simpa using ih hk

theorem EachRel.find {α β : Type} {R : α → β → Prop} {l : List α} {m : List β} (h : EachRel R l m) {p : α → Bool} {q : β → Bool}
    (hpq : ∀ a b, R a b → p a = q b) :
    (l.find? p = none ∧ m.find? q = none) ∨ ∃ a b, l.find? p = some a ∧ m.find? q = some b ∧ R a b := by
  induction h with
  | nil => exact .inl ⟨rfl, rfl⟩
  | @cons a b as bs r _ ih =>
    have e := hpq a b r
    cases hp : p a with
    | true => rw [hp] at e; exact .inr ⟨a, b, by simp [hp], by simp [← e], r⟩
    | false => rw [hp] at e; simpa [List.find?_cons, hp, ← e] using ih

/-- What parsing gives. -/
structure Parsed (n : Nat) (r : RawObject) (f : File) (us named : List CompUnit) (symtab unknown : CompUnit) : Prop where
  units : parseUnits r.bigEndian n r.units = some us
  file : f.units = named ++ [symtab, unknown]
  named : EachRel (UnitNamed f.symbols) us named
  noTypes : symtab.types = [] ∧ unknown.types = []
  names : symtab.name = some (Str.ofString "<symtab>") ∧ unknown.name = some (Str.ofString "<unknown>")
  empty : unknown.functions = [] ∧ unknown.variables = []
  symbols : ∃ syms, readSymbols r.symbols = some syms ∧ f.symbols.Perm syms ∧
    f.symbols.Pairwise (fun a b => a.address ≤ b.address) ∧
    ∀ a, f.symbols.filter (fun s => decide (s.address = a)) = syms.filter (fun s => decide (s.address = a))
  functions : Selects (fun s fn => s.kind = .function ∧ ¬ Claimed us s.address ∧
        fn = { name := s.name, linkageName := s.name, address := some s.address
               size := some s.size
               ranges := if s.size > 0 then [⟨s.address, s.address + s.size⟩] else [] })
        f.symbols symtab.functions
  variables : Selects (fun s v => s.kind = .variable ∧ ¬ Claimed us s.address ∧
        v = { name := s.name, linkageName := s.name, address := some s.address
              size := some s.size })
        f.symbols symtab.variables

theorem parsed {search : Search} (hv : ValidSearch search) {n : Nat} {r : RawObject} {f : File}
    (h : parseObject search n r = some f) : ∃ us named symtab unknown, Parsed n r f us named symtab unknown := by
  simp only [parseObject, Option.bind_eq_bind, Option.bind_eq_some_iff, Option.some.injEq] at h
  obtain ⟨syms, hs, secs, -, rel, -, us, hus, rfl⟩ := h
  obtain ⟨symbols, named, symtab, unknown, h1, h2, h3, h4, h5, h6, h7, h8, h9, h10, h11, h12, h13⟩ :=
    C33_symtab search hv (sizeAt n (fileHash r.units us))
      { segments := readSegments r.segments, sections := secs, symbols := syms, relocations := rel, units := us }
  rw [h1]
  exact ⟨us, named, symtab, unknown, hus, rfl, h5, ⟨h10, h11⟩, ⟨h6, h7⟩, ⟨h8, h9⟩, ⟨syms, hs, h2, h3, h4⟩, h12, h13⟩

theorem types_named {symbols : List Symbol} {us named : List CompUnit} (h : EachRel (UnitNamed symbols) us named) :
    (us.flatMap fun u => u.types.map fun t => (t.offset, t)) = named.flatMap fun u => u.types.map fun t => (t.offset, t) := by
  induction h with
  | nil => rfl
  | cons r _ ih =>
    obtain ⟨fs, vs, rfl, -, -⟩ := r
    simp only [List.flatMap_cons, ih]

namespace Parsed
variable {n : Nat} {r : RawObject} {f : File} {us named : List CompUnit} {symtab unknown : CompUnit}

theorem hash (h : Parsed n r f us named symtab unknown) : fileHash r.units f.units = fileHash r.units us := by
  unfold fileHash typesByOffset
  rw [h.file, List.flatMap_append, ← types_named h.named]
  simp [h.noTypes.1, h.noTypes.2]

theorem unit (h : Parsed n r f us named symtab unknown) {k : Nat} {u : RawUnit} {cu : CompUnit} (hk : r.units[k]? = some u)
    (hc : f.units[k]? = some cu) : ∃ cu0, us[k]? = some cu0 ∧ UnitNamed f.symbols cu0 cu := by
  obtain ⟨hl, hm⟩ := Dwarf.mapM_get h.units
  obtain ⟨cu0, h1, -⟩ := hm k u hk
  obtain ⟨b, h2, h3⟩ := EachRel.get h.named h1
  have hlt : k < named.length := (List.getElem?_eq_some_iff.1 h2).1
  rw [h.file, List.getElem?_append_left hlt, h2] at hc
  cases hc
  exact ⟨cu0, h1, h3⟩

theorem unit_ex (h : Parsed n r f us named symtab unknown) {k : Nat} {u : RawUnit} (hk : r.units[k]? = some u) :
    ∃ cu, f.units[k]? = some cu := by
  obtain ⟨hl, hm⟩ := Dwarf.mapM_get h.units
  obtain ⟨cu0, h1, -⟩ := hm k u hk
  obtain ⟨b, h2, h3⟩ := EachRel.get h.named h1
  have hlt : k < named.length := (List.getElem?_eq_some_iff.1 h2).1
  exact ⟨b, by rw [h.file, List.getElem?_append_left hlt, h2]⟩

end Parsed

/-! ### Naming changes nothing but symbol names -/

/-- The scopes that two tables of functions give are the same. -/
def SameScopes (F G : Nat → Option Function) : Prop :=
  ∀ o f, F o = some f → ∃ g, G o = some g ∧ g.ns = f.ns ∧ g.name = f.name

theorem InScope.congr {F G : Nat → Option Function} (hFG : SameScopes F G) {root ctx ns ds} (h : InScope F root ctx ns ds) :
    InScope G root ctx ns ds := by
  induction h with
  | root => exact .root
  | inside _ a b ih => exact .inside ih a b
  | body _ a b c ih =>
    obtain ⟨g, hg, h1, h2⟩ := hFG _ _ c
    rw [← h1, ← h2]
    exact .body ih a b hg

theorem unit_fn {symbols : List Symbol} {cu0 cu : CompUnit} (h : UnitNamed symbols cu0 cu) (o : Nat) :
    (fnOf cu0 o = none ∧ fnOf cu o = none) ∨ ∃ f g, fnOf cu0 o = some f ∧ fnOf cu o = some g ∧ FunctionNamed symbols f g := by
  obtain ⟨fs, vs, rfl, h1, -⟩ := h
  exact EachRel.find h1 fun a b hab => by obtain ⟨x, rfl, -⟩ := hab; rfl

theorem unit_var {symbols : List Symbol} {cu0 cu : CompUnit} (h : UnitNamed symbols cu0 cu) (o : Nat) :
    (varOf cu0 o = none ∧ varOf cu o = none) ∨ ∃ f g, varOf cu0 o = some f ∧ varOf cu o = some g ∧ VariableNamed symbols f g := by
  obtain ⟨fs, vs, rfl, -, h1⟩ := h
  exact EachRel.find h1 fun a b hab => by obtain ⟨x, rfl, -⟩ := hab; rfl

theorem sameScopes {symbols : List Symbol} {cu0 cu : CompUnit} (h : UnitNamed symbols cu0 cu) :
    SameScopes (fnOf cu0) (fnOf cu) ∧ SameScopes (fnOf cu) (fnOf cu0) := by
  constructor
  · intro o f hf
    rcases unit_fn h o with ⟨h1, -⟩ | ⟨f', g, h1, h2, x, rfl, -⟩
    · rw [h1] at hf; cases hf
    · rw [h1] at hf; cases hf; exact ⟨_, h2, rfl, rfl⟩
  · intro o f hf
    rcases unit_fn h o with ⟨-, h1⟩ | ⟨f', g, h1, h2, x, rfl, -⟩
    · rw [h1] at hf; cases hf
    · rw [h2] at hf; cases hf; exact ⟨_, h1, rfl, rfl⟩

theorem inScope_iff {symbols : List Symbol} {cu0 cu : CompUnit} (h : UnitNamed symbols cu0 cu) {root ctx ns ds} :
    InScope (fnOf cu) root ctx ns ds ↔ InScope (fnOf cu0) root ctx ns ds :=
  ⟨InScope.congr (sameScopes h).2, InScope.congr (sameScopes h).1⟩

theorem fnAt_iff {symbols : List Symbol} {cu0 cu : CompUnit} (h : UnitNamed symbols cu0 cu) {root ns d} :
    FnAt (fnOf cu) root ns d ↔ FnAt (fnOf cu0) root ns d := by simp only [FnAt, inScope_iff h]
theorem varAt_iff {symbols : List Symbol} {cu0 cu : CompUnit} (h : UnitNamed symbols cu0 cu) {root ns d} :
    VarAt (fnOf cu) root ns d ↔ VarAt (fnOf cu0) root ns d := by simp only [VarAt, inScope_iff h]
theorem typeAt_iff {symbols : List Symbol} {cu0 cu : CompUnit} (h : UnitNamed symbols cu0 cu) {root ns d} :
    TypeAt (fnOf cu) root ns d ↔ TypeAt (fnOf cu0) root ns d := by simp only [TypeAt, inScope_iff h]

theorem VarResolves.congr {F G : Nat → Option Function} (hFG : SameScopes F G) {root d} (h : VarResolves F root d) :
    VarResolves G root d := by
  have hv : ∀ {ns d}, VarAt F root ns d → VarAt G root ns d := fun ⟨c, ds, a, b⟩ => ⟨c, ds, InScope.congr hFG a, b⟩
  induction h with
  | plain a b => exact .plain (hv a) b
  | refers a b _ c ih => exact .refers (hv a) b ih c

theorem varResolves_iff {symbols : List Symbol} {cu0 cu : CompUnit} (h : UnitNamed symbols cu0 cu) {root d} :
    VarResolves (fnOf cu) root d ↔ VarResolves (fnOf cu0) root d :=
  ⟨VarResolves.congr (sameScopes h).2, VarResolves.congr (sameScopes h).1⟩

theorem named_unit {symbols : List Symbol} {cu0 cu : CompUnit} (h : UnitNamed symbols cu0 cu) :
    cu.types = cu0.types ∧ cu.lowPc = cu0.lowPc ∧ cu.name = cu0.name ∧ cu.dir = cu0.dir ∧ cu.ranges = cu0.ranges := by
  obtain ⟨fs, vs, rfl, -, -⟩ := h; exact ⟨rfl, rfl, rfl, rfl, rfl⟩

theorem env_named {symbols : List Symbol} {cu0 cu : CompUnit} (h : UnitNamed symbols cu0 cu) (be : Bool) (u : RawUnit) :
    envOf be u cu = envOf be u cu0 := by
  simp only [envOf, (named_unit h).2.1]

theorem EachRel.map_eq {α γ : Type} {R : α → α → Prop} {l m : List α} (h : EachRel R l m) {g : α → γ}
    (hg : ∀ a b, R a b → g b = g a) : m.map g = l.map g := by
  induction h with
  | nil => rfl
  | cons r _ ih => rw [List.map_cons, List.map_cons, hg _ _ r, ih]

theorem named_offsets {symbols : List Symbol} {cu0 cu : CompUnit} (h : UnitNamed symbols cu0 cu) :
    cu.functions.map (·.offset) = cu0.functions.map (·.offset) ∧ cu.variables.map (·.offset) = cu0.variables.map (·.offset) := by
  obtain ⟨fs, vs, rfl, h1, h2⟩ := h
  exact ⟨EachRel.map_eq h1 fun a b ⟨_, e, _⟩ => by rw [e], EachRel.map_eq h2 fun a b ⟨_, e, _⟩ => by rw [e]⟩

/-! ### Listings of lists -/

theorem pull {α β : Type} {g : α → β} {Q : α → Prop} : ∀ {order : List β}, (∀ t ∈ order, ∃ x, g x = t ∧ Q x) →
    ∃ order' : List α, order'.map g = order ∧ ∀ x ∈ order', Q x
  | [], _ => ⟨[], rfl, by simp⟩
  | t :: order, h => by
    obtain ⟨x, hx, hq⟩ := h t (by simp)
    obtain ⟨l, hl, hl'⟩ := pull (g := g) (Q := Q) (fun t ht => h t (List.mem_cons_of_mem _ ht))
    exact ⟨x :: l, by simp [hx, hl], by simpa [hq] using hl'⟩

theorem all2_of_map {α β γ : Type} {g : α → β} {R : β → γ → Prop} : ∀ {l : List α} {m : List γ}, All2 R (l.map g) m →
    All2 (fun x t => R (g x) t) l m
  | [], _, h => by cases h; exact .nil
  | a :: l, _, h => by
    cases h with
    | cons r rs => exact .cons r (all2_of_map rs)

theorem all2_weaken {α β : Type} {R S : α → β → Prop} (h : ∀ a b, R a b → S a b) {l : List α} {m : List β}
    (h' : All2 R l m) : All2 S l m := by
  induction h' with
  | nil => exact .nil
  | cons r _ ih => exact .cons (h _ _ r) ih

theorem all2_mem {α β : Type} {R : α → β → Prop} {l : List α} {m : List β} (h : All2 R l m) :
    All2 (fun a b => a ∈ l ∧ R a b) l m := by
  induction h with
  | nil => exact .nil
  | cons r _ ih => exact .cons ⟨by simp, r⟩ (all2_weaken (fun a b h => ⟨List.mem_cons_of_mem _ h.1, h.2⟩) ih)

/-- From the listing of records to that of what they come from. -/
theorem consists {α β γ : Type} {o : Options} {cmpBy : β → γ → β → γ → Res Ordering} {h : γ} {print : β → Option P} {i d : Nat}
    {l : List β} {text : Str} (hl : ListsItems o cmpBy h print i d l text) (hn : l.Nodup) {g : α → β} {which : α → Prop}
    {says : α → Str → Prop} (h1 : ∀ t ∈ l, ∃ x, g x = t ∧ which x) (h2 : ∀ x, which x → g x ∈ l)
    (h3 : ∀ x y, which x → which y → g x = g y → x = y)
    (h4 : ∀ x p, which x → print (g x) = some p → says x (render (p.lines o.http i .none d))) :
    Consists which says text := by
  obtain ⟨order, texts, ha, hb, rfl⟩ := hl
  obtain ⟨order', rfl, hq⟩ := pull (g := g) (Q := which) (order := order) fun t ht => h1 t (ha.perm.mem_iff.1 ht)
  have hn' := ha.perm.nodup_iff.2 hn
  refine ⟨order', texts, ?_, fun x => ⟨hq x, fun hx => ?_⟩, ?_, rfl⟩
  · rw [List.nodup_iff_pairwise_ne] at hn' ⊢
    rw [List.pairwise_map] at hn'
    exact hn'.imp fun {a b} hab e => hab (by rw [e])
  · obtain ⟨y, hy, e⟩ := List.mem_map.1 (ha.perm.mem_iff.2 (h2 x hx))
    rw [← h3 y x (hq y hy) hx e]; exact hy
  · refine all2_weaken (fun x t ht => ?_) (all2_mem (all2_of_map hb))
    obtain ⟨hx, p, hp, rfl⟩ := ht
    exact h4 x p (hq x hx) hp

theorem mem_wanted {α : Type} {W : α → Prop} {l : List α} {a : α} : a ∈ wanted W l ↔ a ∈ l ∧ W a := by
  simp [wanted]

theorem wanted_nodup {α : Type} {W : α → Prop} {l : List α} (h : l.Nodup) : (wanted W l).Nodup := h.filter _

theorem nodup_of_map {α β : Type} {f : α → β} {l : List α} (h : (l.map f).Nodup) : l.Nodup := by
  rw [List.nodup_iff_pairwise_ne] at h ⊢
  rw [List.pairwise_map] at h
  exact h.imp fun {a b} hab e => hab (by rw [e])

theorem find_of_mem {α : Type} {off : α → Option Nat} {l : List α} (hn : (l.map off).Nodup) {a : α} {o : Nat} (ha : a ∈ l)
    (ho : off a = some o) : l.find? (fun x => off x = some o) = some a := by
  cases hf : l.find? (fun x => off x = some o) with
  | none => rw [List.find?_eq_none] at hf; exact absurd (by simp [ho]) (hf a ha)
  | some b =>
    have h1 := List.mem_of_find?_eq_some hf
    have h2 := List.find?_some hf
    simp only [decide_eq_true_eq] at h2
    rw [eq_of_nodup_map hn h1 ha (h2.trans ho.symm)]

end Verif.Whole
