import Verif.File.Lemmas
import Verif.Range.Props
import Verif.Item.Props
/-!
# Property theorems: C33 (symbols), C34 (unknown ranges), C35 (lookups), C36 (segment bytes)
-/
namespace Verif.File
open Verif.Item Verif.Types Verif.Range

theorem symLe_total : TotalPreorder (fun a b : Symbol => decide (a.address ≤ b.address)) :=
  ⟨fun a b => by simp; omega, fun a b c => by simp; omega⟩

theorem sorted_syms (l : List Symbol) :
    SortedSyms (stableSort (fun a b => decide (a.address ≤ b.address)) l) :=
  (stableSort_sorted symLe_total l).imp (by simp)

/-- The object symbols that are kept: those with an address, a size and a kind that is code, data
or unknown. -/
def IsKept (s : RawSymbol) (t : Symbol) : Prop :=
  s.address ≠ 0 ∧ s.size ≠ 0 ∧ t.address = s.address ∧ t.size = s.size ∧
  (∃ n, s.name = some n ∧ t.name = some n) ∧
  (s.kind = .text ∧ t.kind = .function ∨
    (s.kind = .data ∨ s.kind = .unknown) ∧ t.kind = .variable)

/-- **C33 (which symbols).** If the symbol table can be read, the symbols considered are exactly
the named, placed, non-empty code and data symbols, in table order, with code as functions and
data or unknown kinds as variables. -/
theorem C33_symbols_read (l : List RawSymbol) (out : List Symbol) (h : readSymbols l = some out) :
    Selects IsKept l out := by
  induction l generalizing out with
  | nil =>
    have : out = [] := by simpa [readSymbols] using h.symm
    subst this; exact .nil
  | cons s l ih =>
    unfold readSymbols at h
    rw [List.mapM_cons] at h
    obtain ⟨o, h1, h2⟩ := Option.map_eq_some_iff.1 h
    obtain ⟨x, hx, h3⟩ := Option.bind_eq_some_iff.1 h1
    obtain ⟨xs, hxs, h4⟩ := Option.bind_eq_some_iff.1 h3
    cases h4
    have ht : Selects IsKept l (xs.filterMap id) := ih _ (by unfold readSymbols; rw [hxs]; rfl)
    subst h2
    unfold readSymbol at hx
    have skip : x = none → (∀ t, ¬ IsKept s t) → Selects IsKept (s :: l) ((x :: xs).filterMap id) := by
      rintro rfl hno; exact .skip hno ht
    have take : ∀ t, x = some t → IsKept s t → Selects IsKept (s :: l) ((x :: xs).filterMap id) := by
      rintro t rfl hk; exact .take hk ht
    split at hx
    · cases hx; exact skip rfl fun t hk => hk.1 (by assumption)
    rename_i ha
    split at hx
    · cases hx; exact skip rfl fun t hk => hk.2.1 (by assumption)
    rename_i hz
    simp only at hx
    split at hx
    · rename_i hk
      obtain ⟨n, hn, he⟩ := Option.map_eq_some_iff.1 hx
      exact take _ he.symm ⟨ha, hz, rfl, rfl, ⟨n, hn, rfl⟩, .inl ⟨hk, rfl⟩⟩
    · rename_i hk
      obtain ⟨n, hn, he⟩ := Option.map_eq_some_iff.1 hx
      exact take _ he.symm ⟨ha, hz, rfl, rfl, ⟨n, hn, rfl⟩, .inr ⟨.inl hk, rfl⟩⟩
    · rename_i hk
      obtain ⟨n, hn, he⟩ := Option.map_eq_some_iff.1 hx
      exact take _ he.symm ⟨ha, hz, rfl, rfl, ⟨n, hn, rfl⟩, .inr ⟨.inr hk, rfl⟩⟩
    · rename_i hk
      cases hx
      exact skip rfl fun t h => by rcases h.2.2.2.2.2 with ⟨h, _⟩ | ⟨h | h, _⟩ <;> rw [hk] at h <;> cases h

/-- The object sections that are kept: the non-empty ones, with their name, segment, size, and
address unless that is 0, which stands for "not loaded". -/
def IsSection (s : RawSection) (t : Section) : Prop :=
  s.size ≠ 0 ∧ t.size = s.size ∧ (∃ n, s.name = some n ∧ t.name = some n) ∧
  s.segment = some t.segment ∧
  (s.address = 0 ∧ t.address = none ∨ s.address ≠ 0 ∧ t.address = some s.address)

theorem isSection_iff (s : RawSection) (x : Option Section) (h : readSection s = some x)
    (t : Section) : x = some t ↔ IsSection s t := by
  obtain ⟨n, hn, h⟩ := Option.bind_eq_some_iff.1 h
  obtain ⟨g, hg, h⟩ := Option.bind_eq_some_iff.1 h
  simp only at h
  obtain ⟨tn, tg, ta, tz⟩ := t
  unfold IsSection
  simp only
  by_cases hz : s.size = 0 <;> by_cases ha : s.address = 0 <;> simp_all <;>
    (subst h; simp; try grind)

theorem mapM_none_iff {α β : Type} (f : α → Option β) (l : List α) :
    l.mapM f = none ↔ ∃ x ∈ l, f x = none := by
  induction l with
  | nil => simp
  | cons a l ih =>
    rw [List.mapM_cons]
    cases ha : f a with
    | none => simp [ha]
    | some b =>
      cases hl : l.mapM f with
      | none =>
        obtain ⟨x, hx, h⟩ := ih.1 hl
        exact ⟨fun _ => ⟨x, List.mem_cons_of_mem _ hx, h⟩, fun _ => rfl⟩
      | some bs =>
        refine ⟨fun h => (by cases h), ?_⟩
        rintro ⟨x, hx, h⟩
        rcases List.mem_cons.1 hx with rfl | hx
        · rw [ha] at h; cases h
        · rw [ih.2 ⟨x, hx, h⟩] at hl; cases hl

/-- **C34 (which sections).** The sections considered are exactly the object's non-empty ones, in
order, those at address 0 without an address; and reading them fails exactly when the object
cannot give the name or the segment of one of them, empty or not. -/
theorem C34_sections_read (l : List RawSection) :
    (∀ out, readSections l = some out → Selects IsSection l out) ∧
    (readSections l = none ↔ ∃ s ∈ l, s.name = none ∨ s.segment = none) := by
  refine ⟨?_, ?_⟩
  · induction l with
    | nil =>
      intro out h
      have : out = [] := by simpa [readSections] using h.symm
      subst this; exact .nil
    | cons s l ih =>
      intro out h
      unfold readSections at h
      rw [List.mapM_cons] at h
      obtain ⟨o, h1, h2⟩ := Option.map_eq_some_iff.1 h
      obtain ⟨x, hx, h3⟩ := Option.bind_eq_some_iff.1 h1
      obtain ⟨xs, hxs, h4⟩ := Option.bind_eq_some_iff.1 h3
      cases h4
      have ht : Selects IsSection l (xs.filterMap id) := ih _ (by unfold readSections; rw [hxs]; rfl)
      subst h2
      have hiff := isSection_iff s x hx
      cases x with
      | none => exact .skip (fun t hk => by cases (hiff t).2 hk) ht
      | some t => exact .take ((hiff t).1 rfl) ht
  · rw [readSections, Option.map_eq_none_iff, mapM_none_iff]
    constructor
    · rintro ⟨s, hs, h⟩
      refine ⟨s, hs, ?_⟩
      unfold readSection at h
      cases hn : s.name with
      | none => exact .inl rfl
      | some n =>
        cases hg : s.segment with
        | none => exact .inr rfl
        | some g =>
          exfalso
          simp only [hn, hg, bind, Option.bind_some] at h
          split at h <;> cases h
    · rintro ⟨s, hs, h⟩
      refine ⟨s, hs, ?_⟩
      unfold readSection
      rcases h with h | h
      · simp [h, bind]
      · cases hn : s.name <;> simp [h, bind]

/-- **C33 (unreadable symbols).** Reading the symbols fails exactly when the object cannot give
the name of a symbol that would be kept. -/
theorem C33_symbols_fail (l : List RawSymbol) :
    readSymbols l = none ↔
      ∃ s ∈ l, s.address ≠ 0 ∧ s.size ≠ 0 ∧ s.kind ≠ .other ∧ s.name = none := by
  rw [readSymbols, Option.map_eq_none_iff, mapM_none_iff]
  apply exists_congr
  intro s
  apply and_congr_right
  intro _
  unfold readSymbol
  by_cases ha : s.address = 0
  · simp [ha]
  by_cases hz : s.size = 0
  · simp [hz]
  cases hk : s.kind <;> simp [ha, hz]

/-- A loaded section, an empty one and one that is not loaded. -/
example : readSections
    [⟨some [46, 116], some none, 0x1000, 0x20⟩, ⟨some [46, 98], some none, 0x2000, 0⟩,
      ⟨some [46, 100], some (some [83]), 0, 5⟩]
    = some [⟨some [46, 116], none, some 0x1000, 0x20⟩, ⟨some [46, 100], some [83], none, 5⟩] := by
  decide

/-- An empty section whose name cannot be read is still an error; an empty symbol is not. -/
example : readSections [⟨none, some none, 0, 0⟩] = none ∧
    readSymbols [⟨none, .text, 4, 0⟩] = some [] ∧ readSymbols [⟨none, .text, 4, 1⟩] = none := by
  decide

/-- The parts of a normalised file. -/
theorem normalize_parts (search : Search) (hv : ValidSearch search)
    (tsz : TypeOffset → Option Nat) (f : File) :
    ∃ units' symbols, symbols = stableSort (fun a b => decide (a.address ≤ b.address)) f.symbols ∧
      EachRel (UnitNamed symbols) f.units units' ∧
      let symtab := symtabUnit symbols
        (markAll (f.units.flatMap unitClaims) symbols (symbols.map fun _ => false))
      normalize search tsz f =
        { f with symbols := symbols,
                 units := units' ++ [symtab] ++ [{ name := some (Str.ofString "<unknown>")
                                                   ranges := unknownRanges tsz f.sections (units' ++ [symtab]) }] } := by
  have hs := sorted_syms f.symbols
  obtain ⟨h1, h2⟩ := mapUsed_spec _ (normUnit search _) unitClaims (UnitNamed _)
      (fun used x hl => normUnit_spec search hv _ hs used x hl) f.units
      (List.map (fun _ => false)
        (stableSort (fun a b : Symbol => decide (a.address ≤ b.address)) f.symbols))
      (by simp)
  refine ⟨_, _, rfl, h2, ?_⟩
  unfold normalize
  simp only
  rw [h1]

theorem zip_selects {β : Type} (us : List CompUnit) (l : List Symbol) (k : SymbolKind)
    (g : Symbol → β) :
    Selects (fun s b => s.kind = k ∧ ¬ Claimed us s.address ∧ b = g s) l
      ((l.zip (markAll (us.flatMap unitClaims) l (l.map fun _ => false))).filterMap fun z =>
        if z.2 = false ∧ z.1.kind = k then some (g z.1) else none) := by
  generalize hc : us.flatMap unitClaims = c
  have hm : ∀ a, a ∈ c ↔ Claimed us a := fun a => by rw [← hc]; exact mem_unitClaims us a
  clear hc
  induction l with
  | nil => exact .nil
  | cons s l ih =>
    simp only [markAll, List.map_cons, List.zipWith_cons_cons, List.zip_cons_cons, Bool.false_or] at ih ⊢
    by_cases h : Claimed us s.address
    · have h' := (hm s.address).2 h
      rw [List.filterMap_cons_none (by simp [h'])]
      exact .skip (fun b hb => hb.2.1 h) ih
    · have h' : s.address ∉ c := fun hx => h ((hm _).1 hx)
      by_cases hk : s.kind = k
      · rw [List.filterMap_cons_some (b := g s) (by simp [h', hk])]
        exact .take ⟨hk, h, rfl⟩ ih
      · rw [List.filterMap_cons_none (by simp [hk])]
        exact .skip (fun b hb => hk hb.1) ih

/-- **C33.** Whatever index the binary search returns among equal addresses: after parsing, the
symbols are those read, in stable address order; the units are the original ones in order, with
nothing changed but symbol names, then `<symtab>`, then `<unknown>`; and the functions and
variables of `<symtab>` are, in address order, one for each function or variable symbol whose
address no debug information claims. -/
theorem C33_symtab (search : Search) (hv : ValidSearch search) (tsz : TypeOffset → Option Nat)
    (f : File) :
    ∃ (symbols : List Symbol) (named : List CompUnit) (symtab unknown : CompUnit),
      normalize search tsz f = { f with symbols := symbols, units := named ++ [symtab, unknown] } ∧
      symbols.Perm f.symbols ∧ symbols.Pairwise (fun a b => a.address ≤ b.address) ∧
      (∀ a, symbols.filter (fun s => decide (s.address = a)) =
        f.symbols.filter (fun s => decide (s.address = a))) ∧
      EachRel (UnitNamed symbols) f.units named ∧
      symtab.name = some (Str.ofString "<symtab>") ∧
      unknown.name = some (Str.ofString "<unknown>") ∧ unknown.functions = [] ∧
      unknown.variables = [] ∧ symtab.types = [] ∧ unknown.types = [] ∧
      Selects (fun s fn => s.kind = .function ∧ ¬ Claimed f.units s.address ∧
        fn = { name := s.name, linkageName := s.name, address := some s.address
               size := some s.size
               ranges := if s.size > 0 then [⟨s.address, s.address + s.size⟩] else [] })
        symbols symtab.functions ∧
      Selects (fun s v => s.kind = .variable ∧ ¬ Claimed f.units s.address ∧
        v = { name := s.name, linkageName := s.name, address := some s.address
              size := some s.size })
        symbols symtab.variables := by
  obtain ⟨units', symbols, hsym, hnamed, hn⟩ := normalize_parts search hv tsz f
  obtain ⟨h1, h2, h3, h4, h5, h6, h7⟩ := symtab_fold (symbols.zip
    (markAll (f.units.flatMap unitClaims) symbols (symbols.map fun _ => false)))
    { name := some (Str.ofString "<symtab>") }
  refine ⟨symbols, units', symtabUnit symbols
      (markAll (f.units.flatMap unitClaims) symbols (symbols.map fun _ => false)),
    { name := some (Str.ofString "<unknown>"), ranges := _ },
    hn.trans (by simp only [List.append_assoc, List.singleton_append]; rfl), ?_, ?_, ?_, hnamed, h4, rfl, rfl, rfl, h5, rfl,
    ?_, ?_⟩
  · rw [hsym]; exact stableSort_perm _ _
  · rw [hsym]; exact sorted_syms _
  · intro a
    rw [hsym]
    have := stableSort_stable symLe_total ⟨none, .function, a, 0⟩ f.symbols
    have e : (fun s : Symbol => decide (s.address = a)) = fun y =>
        (decide (y.address ≤ (⟨none, .function, a, 0⟩ : Symbol).address) &&
          decide ((⟨none, .function, a, 0⟩ : Symbol).address ≤ y.address)) := by
      funext s
      simp only
      by_cases h : s.address = a
      · simp [h]
      · have : ¬ (s.address ≤ a ∧ a ≤ s.address) := by omega
        simp only [h, decide_false]
        symm
        simpa using this
    rw [e]
    exact this
  · show Selects _ _ (List.foldl symtabStep _ _).functions
    rw [h1]
    exact zip_selects f.units symbols .function symFunction
  · show Selects _ _ (List.foldl symtabStep _ _).variables
    rw [h2]
    exact zip_selects f.units symbols .variable symVariable

/-- A linear search satisfies the contract, so the hypotheses of C33 can be met. -/
theorem validSearch_linear :
    ValidSearch (fun l a => l.findIdx? (fun s => decide (s.address = a))) := by
  intro l a _
  refine ⟨fun i hi => ?_, fun hn s hs => ?_⟩
  · obtain ⟨h, h1, _⟩ := List.findIdx?_eq_some_iff_getElem.1 hi
    exact ⟨l[i], by simp [h], by simpa using h1⟩
  · have := List.findIdx?_eq_none_iff.1 hn s hs
    simpa using this

/-- Non-vacuity of C33: two symbols at one address claimed by a function under another name, a
variable symbol nobody claims. -/
example :
    let syms : List Symbol := [⟨some [122], .variable, 50, 4⟩, ⟨some [97], .function, 16, 8⟩,
      ⟨some [98], .function, 16, 8⟩]
    let f : Function := { name := some [99], address := some 16, size := some 8, ranges := [⟨16, 24⟩] }
    let file : File := { symbols := syms, units := [{ functions := [f] }]
                         sections := [{ address := some 16, size := 64 }] }
    let out := normalize (fun l a => l.findIdx? (fun s => decide (s.address = a))) (fun _ => none) file
    out.units.map (·.functions.map (·.symbolName)) = [[some [97]], [], []] ∧
    out.units.map (·.variables.map (·.name)) = [[], [some [122]], []] := by decide +kernel

/-! ### C35: lookups -/

theorem hashOf_append {κ α : Type} [DecidableEq κ] (l : List (κ × α)) (e : κ × α) (key : κ) :
    hashOf (l ++ [e]) key = if key = e.1 then some e.2 else hashOf l key := by
  simp [hashOf, List.foldl_append]

theorem hashOf_spec {κ α : Type} [DecidableEq κ] (l : List (κ × α)) (key : κ) :
    (∀ v, hashOf l key = some v ↔ LastWith l key v) ∧
    (hashOf l key = none ↔ ∀ e ∈ l, e.1 ≠ key) := by
  have hrev : ∀ r : List (κ × α),
      (∀ v, hashOf r.reverse key = some v ↔ LastWith r.reverse key v) ∧
      (hashOf r.reverse key = none ↔ ∀ e ∈ r.reverse, e.1 ≠ key) := by
    intro r
    induction r with
    | nil =>
      refine ⟨fun v => ⟨fun h => by simp [hashOf] at h, ?_⟩, by simp [hashOf]⟩
      rintro ⟨l1, l2, h, _⟩
      simp at h
    | cons e r ih =>
      rw [List.reverse_cons, hashOf_append]
      by_cases hk : key = e.1
      · rw [if_pos hk]
        refine ⟨fun v => ⟨fun h => ?_, ?_⟩, ⟨fun h => (by cases h), fun h => absurd hk.symm (h e (by simp))⟩⟩
        · cases h; exact ⟨r.reverse, [], by rw [hk], by simp⟩
        · rintro ⟨l1, l2, h, hl2⟩
          rcases List.eq_nil_or_concat l2 with rfl | ⟨l2', x, rfl⟩
          · have := List.append_inj_right' h rfl
            simp at this; rw [this]
          · rw [List.concat_eq_append] at h hl2
            have e2 : r.reverse ++ [e] = (l1 ++ (key, v) :: l2') ++ [x] := by simpa using h
            have := List.append_inj_right' e2 rfl
            simp at this
            exact absurd (by rw [← this]; exact hk.symm) (hl2 x (by simp))
      · rw [if_neg hk]
        refine ⟨fun v => (ih.1 v).trans ⟨?_, ?_⟩, ih.2.trans ⟨?_, ?_⟩⟩
        · rintro ⟨l1, l2, h, hl2⟩
          refine ⟨l1, l2 ++ [e], by simp [h], ?_⟩
          intro x hx
          rcases List.mem_append.1 hx with hx | hx
          · exact hl2 x hx
          · simp at hx; subst hx; exact fun h => hk h.symm
        · rintro ⟨l1, l2, h, hl2⟩
          rcases List.eq_nil_or_concat l2 with rfl | ⟨l2', x, rfl⟩
          · have := List.append_inj_right' h rfl
            simp at this
            exact absurd (by rw [this]) hk
          · rw [List.concat_eq_append] at h hl2
            have e2 : r.reverse ++ [e] = (l1 ++ (key, v) :: l2') ++ [x] := by simpa using h
            exact ⟨l1, l2', List.append_inj_left' e2 rfl, fun y hy => hl2 y (by simp [hy])⟩
        · intro h x hx
          rcases List.mem_append.1 hx with hx | hx
          · exact h x hx
          · simp at hx; subst hx; exact fun h => hk h.symm
        · intro h x hx
          exact h x (by simp [hx])
  simpa using hrev l.reverse

/-- All functions of a list of units, in order. -/
def allFunctions (us : List CompUnit) : List Function := us.flatMap (·.functions)
/-- All variables of a list of units, in order. -/
def allVariables (us : List CompUnit) : List Variable := us.flatMap (·.variables)
/-- All types of a list of units, in order. -/
def allTypes (us : List CompUnit) : List TypeEntry := us.flatMap (·.types)

/-- `x` is the last element of `l` with property `P`. -/
def LastSuch {α : Type} (P : α → Prop) (l : List α) (x : α) : Prop :=
  P x ∧ ∃ l1 l2, l = l1 ++ x :: l2 ∧ ∀ y ∈ l2, ¬ P y

theorem hash_filterMap {κ α : Type} [DecidableEq κ] (key : α → Option κ) (l : List α) (k : κ) :
    (∀ x, hashOf (l.filterMap fun x => (key x).map fun k => (k, x)) k = some x ↔
      LastSuch (fun x => key x = some k) l x) ∧
    (hashOf (l.filterMap fun x => (key x).map fun k => (k, x)) k = none ↔ ∀ x ∈ l, key x ≠ some k) := by
  obtain ⟨h1, h2⟩ := hashOf_spec (l.filterMap fun x => (key x).map fun k => (k, x)) k
  have hnone : ∀ m : List α, (∀ e ∈ m.filterMap (fun x => (key x).map fun k => (k, x)), e.1 ≠ k) ↔
      ∀ x ∈ m, key x ≠ some k := by
    intro m
    constructor
    · intro h x hx hk
      exact h (k, x) (List.mem_filterMap.2 ⟨x, hx, by simp [hk]⟩) rfl
    · rintro h ⟨k', x⟩ he rfl
      obtain ⟨y, hy, hm⟩ := List.mem_filterMap.1 he
      obtain ⟨k'', hk, heq⟩ := Option.map_eq_some_iff.1 hm
      simp only [Prod.mk.injEq] at heq
      exact h y hy (hk.trans (by rw [heq.1]))
  refine ⟨fun x => (h1 x).trans ⟨?_, ?_⟩, h2.trans (hnone l)⟩
  · rintro ⟨l1, l2, h, hl2⟩
    obtain ⟨a, b, hab, ha, hb⟩ := List.filterMap_eq_append_iff.1 h
    obtain ⟨c, y, d, hcd, hc, hy, hd⟩ := List.filterMap_eq_cons_iff.1 hb
    obtain ⟨k', hk', heq⟩ := Option.map_eq_some_iff.1 hy
    cases heq
    refine ⟨hk', a ++ c, d, by simp [hab, hcd], ?_⟩
    intro z hz hkz
    exact hl2 (k, z) (by rw [← hd]; exact List.mem_filterMap.2 ⟨z, hz, by simp [hkz]⟩) rfl
  · rintro ⟨hk, l1, l2, rfl, hl2⟩
    refine ⟨l1.filterMap (fun x => (key x).map fun k => (k, x)),
      l2.filterMap (fun x => (key x).map fun k => (k, x)), ?_, (hnone l2).2 hl2⟩
    rw [List.filterMap_append, List.filterMap_cons_some (b := (k, x)) (by simp [hk])]

theorem map_as_filterMap {κ α : Type} (key : α → κ) (l : List α) :
    (l.map fun x => (key x, x)) = l.filterMap fun x => (some (key x)).map fun k => (k, x) := by
  simp

/-- **C35 (by address).** Looking a function or variable up by address returns the last one, in
file order, with exactly that address, and nothing only if there is none. -/
theorem C35_by_address (us : List CompUnit) (a : Nat) :
    (∀ f, functionsByAddress us a = some f ↔
      LastSuch (fun f : Function => f.address = some a) (allFunctions us) f) ∧
    (functionsByAddress us a = none ↔ ∀ f ∈ allFunctions us, f.address ≠ some a) ∧
    (∀ v, variablesByAddress us a = some v ↔
      LastSuch (fun v : Variable => v.address = some a) (allVariables us) v) ∧
    (variablesByAddress us a = none ↔ ∀ v ∈ allVariables us, v.address ≠ some a) := by
  have e1 : functionsByAddress us = hashOf ((allFunctions us).filterMap fun f =>
      f.address.map fun a => (a, f)) := by
    simp [functionsByAddress, allFunctions, List.filterMap_flatMap]
  have e2 : variablesByAddress us = hashOf ((allVariables us).filterMap fun f =>
      f.address.map fun a => (a, f)) := by
    simp [variablesByAddress, allVariables, List.filterMap_flatMap]
  rw [e1, e2]
  obtain ⟨h1, h2⟩ := hash_filterMap (fun f : Function => f.address) (allFunctions us) a
  obtain ⟨h3, h4⟩ := hash_filterMap (fun f : Variable => f.address) (allVariables us) a
  exact ⟨h1, h2, h3, h4⟩

/-- **C35 (by offset).** Likewise for looking functions, variables and types up by their debuginfo
offset; a function or variable without an offset is never returned. -/
theorem C35_by_offset (us : List CompUnit) (o : Nat) :
    (∀ f, functionFromOffset us (some o) = some f ↔
      LastSuch (fun f : Function => f.offset = some o) (allFunctions us) f) ∧
    (functionFromOffset us (some o) = none ↔ ∀ f ∈ allFunctions us, f.offset ≠ some o) ∧
    functionFromOffset us none = none ∧
    (∀ v, variableFromOffset us (some o) = some v ↔
      LastSuch (fun v : Variable => v.offset = some o) (allVariables us) v) ∧
    (variableFromOffset us (some o) = none ↔ ∀ v ∈ allVariables us, v.offset ≠ some o) ∧
    variableFromOffset us none = none ∧
    (∀ t, typesByOffset us (some o) = some t ↔
      LastSuch (fun t : TypeEntry => t.offset = some o) (allTypes us) t) ∧
    (typesByOffset us (some o) = none ↔ ∀ t ∈ allTypes us, t.offset ≠ some o) := by
  have e1 : functionsByOffset us = hashOf ((allFunctions us).filterMap fun f =>
      (some f.offset).map fun a => (a, f)) := by
    rw [← map_as_filterMap]
    simp [functionsByOffset, allFunctions, List.map_flatMap]
  have e2 : variablesByOffset us = hashOf ((allVariables us).filterMap fun f =>
      (some f.offset).map fun a => (a, f)) := by
    rw [← map_as_filterMap]
    simp [variablesByOffset, allVariables, List.map_flatMap]
  have e3 : typesByOffset us = hashOf ((allTypes us).filterMap fun f =>
      (some f.offset).map fun a => (a, f)) := by
    rw [← map_as_filterMap]
    simp [typesByOffset, allTypes, List.map_flatMap]
  simp only [functionFromOffset, variableFromOffset, e1, e2, e3]
  obtain ⟨h1, h2⟩ := hash_filterMap (fun f : Function => some f.offset) (allFunctions us) (some o)
  obtain ⟨h3, h4⟩ := hash_filterMap (fun f : Variable => some f.offset) (allVariables us) (some o)
  obtain ⟨h5, h6⟩ := hash_filterMap (fun f : TypeEntry => some f.offset) (allTypes us) (some o)
  simp only [Option.some.injEq, ne_eq] at h1 h2 h3 h4 h5 h6
  exact ⟨h1, h2, trivial, h3, h4, trivial, h5, h6⟩

/-- Non-vacuity of C35: of two functions at one address in different units the last is found. -/
example :
    let f1 : Function := { name := some [1], address := some 5, offset := some 9 }
    let f2 : Function := { name := some [2], address := some 5 }
    let us : List CompUnit := [{ functions := [f1] }, { functions := [f2] }]
    functionsByAddress us 5 = some f2 ∧ functionsByAddress us 6 = none ∧
    functionFromOffset us (some 9) = some f1 ∧ functionFromOffset us none = none := by decide

/-! ### C36: segment bytes -/

/-- The segment holds every byte of the range. -/
def Holds (s : Segment) (r : Range) : Prop :=
  s.address ≤ r.lo ∧ r.hi ≤ s.address + s.bytes.length

/-- **C36.** For a proper range, bytes are returned iff some segment contains the whole range;
they are those of the first such segment, one for each address of the range, in order. -/
theorem C36_segment_bytes (ss : List Segment) (r : Range) (hr : r.lo ≤ r.hi) :
    (segmentBytes ss r = .absent ↔ ∀ s ∈ ss, ¬ Holds s r) ∧
    (∀ b, segmentBytes ss r = .bytes b ↔
      ∃ l1 s l2, ss = l1 ++ s :: l2 ∧ (∀ t ∈ l1, ¬ Holds t r) ∧ Holds s r ∧
        b.length = r.hi - r.lo ∧ ∀ i x, b[i]? = some x ↔ i < r.hi - r.lo ∧ ByteAt s (r.lo + i) x) ∧
    segmentBytes ss r ≠ .panic := by
  induction ss with
  | nil =>
    refine ⟨by simp [segmentBytes], fun b => ⟨fun h => by simp [segmentBytes] at h, ?_⟩, by simp [segmentBytes]⟩
    rintro ⟨l1, s, l2, h, _⟩
    simp at h
  | cons s ss ih =>
    unfold segmentBytes
    by_cases hh : Holds s r
    · have hb : (decide (s.address ≤ r.lo) && decide (r.hi ≤ s.address + s.bytes.length)) = true := by
        simpa [Holds] using hh
      rw [if_pos hb, if_pos hr]
      have hlen : ((s.bytes.drop (r.lo - s.address)).take (r.hi - r.lo)).length = r.hi - r.lo := by
        have := hh.1; have := hh.2
        simp; omega
      have hget : ∀ i x, ((s.bytes.drop (r.lo - s.address)).take (r.hi - r.lo))[i]? = some x ↔
          i < r.hi - r.lo ∧ ByteAt s (r.lo + i) x := by
        intro i x
        rw [List.getElem?_take]
        by_cases hi : i < r.hi - r.lo
        · rw [if_pos hi, List.getElem?_drop]
          have e : r.lo + i - s.address = r.lo - s.address + i := by have := hh.1; omega
          unfold ByteAt
          rw [e]
          simp only [hi, true_and]
          exact ⟨fun h => ⟨by have := hh.1; omega, h⟩, fun h => h.2⟩
        · rw [if_neg hi]
          simp [hi]
      refine ⟨⟨fun h => (by cases h), fun h => absurd hh (h s (by simp))⟩, fun b => ⟨?_, ?_⟩, by simp⟩
      · intro h
        cases h
        exact ⟨[], s, ss, rfl, by simp, hh, hlen, hget⟩
      · rintro ⟨l1, s', l2, hs, hl1, hh', hbl, hbx⟩
        cases l1 with
        | cons t l1 =>
          simp at hs
          exact absurd hh (by rw [hs.1]; exact hl1 t (by simp))
        | nil =>
          simp at hs
          obtain ⟨rfl, rfl⟩ := hs
          congr 1
          apply List.ext_getElem?
          intro i
          have h1 := hget i
          have h2 := hbx i
          cases hx : b[i]? with
          | none =>
            rw [← Option.not_isSome_iff_eq_none, Option.isSome_iff_exists]
            rintro ⟨x, hx'⟩
            rw [(h2 x).2 ((h1 x).1 hx')] at hx; cases hx
          | some x => exact (h1 x).2 ((h2 x).1 hx)
    · have hb : ¬ (decide (s.address ≤ r.lo) && decide (r.hi ≤ s.address + s.bytes.length)) = true := by
        simpa [Holds] using hh
      rw [if_neg hb]
      refine ⟨ih.1.trans (by simp [hh]), fun b => (ih.2.1 b).trans ⟨?_, ?_⟩, ih.2.2⟩
      · rintro ⟨l1, t, l2, h1, h2, h3⟩
        refine ⟨s :: l1, t, l2, by simp [h1], ?_, h3⟩
        intro x hx
        rcases List.mem_cons.1 hx with rfl | hx
        · exact hh
        · exact h2 x hx
      · rintro ⟨l1, t, l2, h1, h2, h3⟩
        cases l1 with
        | nil => simp at h1; exact absurd h3.1 (by rw [← h1.1]; exact hh)
        | cons x l1 =>
          simp at h1
          exact ⟨l1, t, l2, h1.2, fun y hy => h2 y (by simp [hy]), h3⟩

/-- **C36 (inverted ranges).** A range whose end is before its begin makes the query panic whenever
some segment holds its end points. -/
theorem C36_inverted_panics (s : Segment) (ss : List Segment) (r : Range) (hr : r.hi < r.lo)
    (h : Holds s r) : segmentBytes (s :: ss) r = .panic := by
  unfold segmentBytes
  have hb : (decide (s.address ≤ r.lo) && decide (r.hi ≤ s.address + s.bytes.length)) = true := by
    simpa [Holds] using h
  rw [if_pos hb, if_neg (by omega)]

example : segmentBytes [⟨0, [9]⟩, ⟨10, [1, 2, 3, 4]⟩] ⟨11, 13⟩ = .bytes [2, 3] ∧
    segmentBytes [⟨10, [1, 2, 3, 4]⟩] ⟨12, 15⟩ = .absent := by decide

end Verif.File
