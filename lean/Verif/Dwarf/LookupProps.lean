import Verif.Dwarf.BoundsProps
import Verif.Dwarf.UnitProps
import Verif.Dwarf.WalkProps
import Verif.File.Props
/-!
# C74: references are resolved to the record of the entry they point to
-/
namespace Verif.Dwarf
open Verif.Item Verif.Types Verif.Namespace Verif.Range Verif.Sentinel Verif.File

/-! ### Specification -/

/-- The units of the file do not overlap, their entries are where the unit says, and no two entries
start at the same offset. -/
structure Placed (units : List RawUnit) : Prop where
  apart : ∀ (i j : Nat) u v, units[i]? = some u → units[j]? = some v → i ≠ j →
    u.extent.stop ≤ v.extent.first ∨ v.extent.stop ≤ u.extent.first
  inside : ∀ u ∈ units, ∀ d ∈ dies u.root, u.extent.first ≤ d.offset ∧ d.offset < u.extent.stop
  distinct : ∀ u ∈ units, ((dies u.root).map Die.offset).Nodup

/-- The function a unit lists at an offset. -/
def fnOf (cu : CompUnit) (o : Nat) : Option Function := cu.functions.find? fun f => f.offset = some o

/-- The named type entry `d` of the unit `u` is in scope `ns`. -/
def NamedType (u : RawUnit) (cu : CompUnit) (ns : Option Namespace) (d : Die) : Prop :=
  TypeAt (fnOf cu) u.root.children ns d

/-- What the file and a unit say about the unit's entries. -/
def envOf (bigEndian : Bool) (u : RawUnit) (cu : CompUnit) : Env :=
  { bigEndian := bigEndian, version := u.version, lowPc := cu.lowPc
    rust := u.root.lastOf .language Val.isLang = some 0x1c
    entry := fun o => (dies u.root).find? fun d => d.offset = o }

/-! ### Lemmas -/

/-- The offset of an item. -/
def Item.off : Item → Nat | .fn o => o | .var o => o | .ty o => o

theorem ownItem_off (ctx : Ctx) (d : Die) : ((ownItem ctx d).map Item.off).Sublist [d.offset] := by
  unfold ownItem
  by_cases h1 : IsFn ctx d
  · have h2 : ¬ IsVar ctx d := by
      rintro (⟨h, _⟩ | ⟨h, _⟩) <;> rw [h1.1] at h <;> cases h
    have h3 : ¬ IsType ctx d := by
      rintro ⟨_, h⟩; rw [h1.1] at h; revert h; decide
    simp [h1, h2, h3, Item.off]
  · by_cases h2 : IsVar ctx d
    · have h3 : ¬ IsType ctx d := by
        rintro ⟨_, h⟩
        rcases h2 with ⟨h', _⟩ | ⟨h', _⟩ <;> rw [h'] at h <;> revert h <;> decide
      simp [h1, h2, h3, Item.off]
    · by_cases h3 : IsType ctx d
      · simp [h1, h2, h3, Item.off]
      · simp [h1, h2, h3]

mutual
theorem items_sublist : ∀ (ctx : Ctx) (d : Die), ((items ctx d).map Item.off).Sublist ((dies d).map Die.offset)
  | ctx, .node o tag attrs cs => by
    unfold items dies
    rw [List.map_append, List.map_cons]
    refine (ownItem_off ctx (.node o tag attrs cs)).append (l₂ := _) (r₂ := (diesAll cs).map Die.offset) ?_
    split
    · exact itemsAll_sublist .func cs
    · split
      · exact itemsAll_sublist _ cs
      · simp
theorem itemsAll_sublist : ∀ (ctx : Ctx) (ds : List Die), ((itemsAll ctx ds).map Item.off).Sublist ((diesAll ds).map Die.offset)
  | _, [] => by simp [itemsAll, diesAll]
  | ctx, d :: ds => by
    unfold itemsAll diesAll
    rw [List.map_append, List.map_append]
    exact (items_sublist ctx d).append (itemsAll_sublist ctx ds)
end

theorem dies_eq (d : Die) : dies d = d :: diesAll d.children := by
  cases d with | node o t a cs => rw [dies]; rfl

theorem mem_diesAll {d : Die} {ds : List Die} : d ∈ diesAll ds ↔ ∃ x ∈ ds, d ∈ dies x := by
  induction ds with
  | nil => simp [diesAll]
  | cons x ds ih => simp [diesAll, ih]

mutual
theorem dies_trans {d e : Die} : ∀ {r : Die}, d ∈ dies e → e ∈ dies r → d ∈ dies r
  | .node o t a cs, hd, he => by
    rw [dies] at he ⊢
    rcases List.mem_cons.1 he with rfl | he
    · rw [dies] at hd; exact hd
    · exact List.mem_cons_of_mem _ (diesAll_trans hd he)
theorem diesAll_trans {d e : Die} : ∀ {rs : List Die}, d ∈ dies e → e ∈ diesAll rs → d ∈ diesAll rs
  | [], _, he => by simp [diesAll] at he
  | r :: rs, hd, he => by
    rw [diesAll] at he ⊢
    rcases List.mem_append.1 he with he | he
    · exact List.mem_append_left _ (dies_trans hd he)
    · exact List.mem_append_right _ (diesAll_trans hd he)
end

theorem self_mem_dies (d : Die) : d ∈ dies d := by rw [dies_eq]; simp

theorem child_mem {d c : Die} (h : c ∈ d.children) : c ∈ dies d := by
  rw [dies_eq]; exact List.mem_cons_of_mem _ (mem_diesAll.2 ⟨c, h, self_mem_dies c⟩)

theorem InScope.mem_dies {F : Nat → Option Function} {root : List Die} {ctx ns ds}
    (h : InScope F root ctx ns ds) : ∀ d ∈ ds, d ∈ diesAll root := by
  induction h with
  | root => exact fun d hd => mem_diesAll.2 ⟨d, hd, self_mem_dies d⟩
  | inside _ hn _ ih => exact fun d hd => diesAll_trans (child_mem hd) (ih _ hn)
  | body _ hn _ _ ih => exact fun d hd => diesAll_trans (child_mem hd) (ih _ hn)

theorem mapM_get {α β : Type} {f : α → Option β} : ∀ {l : List α} {r : List β}, l.mapM f = some r →
    r.length = l.length ∧ ∀ (k : Nat) a, l[k]? = some a → ∃ b, r[k]? = some b ∧ f a = some b
  | [], r, h => by
    simp at h; subst h; simp
  | a :: l, r, h => by
    simp only [List.mapM_cons, Option.pure_def, Option.bind_eq_bind, Option.bind_eq_some_iff, Option.some.injEq] at h
    obtain ⟨b, hb, r', hr', rfl⟩ := h
    obtain ⟨h1, h2⟩ := mapM_get hr'
    refine ⟨by simp [h1], fun k x hx => ?_⟩
    cases k with
    | zero => simp at hx; subst hx; exact ⟨b, by simp, hb⟩
    | succ k => simp at hx; simpa using h2 k x hx

/-- The language of a unit. -/
theorem unit_language (d : Die) : (d.attrs.foldl unitAttr {}).language = d.lastOf .language Val.isLang :=
  foldl_lastSome unitAttr (·.language) .language Val.isLang
    (fun s v => by cases v <;> rfl)
    (fun s a v h => by
      cases a <;> first | rfl | exact absurd rfl h | (cases v <;> rfl)) d {} rfl

/-- What a parsed unit is made of. -/
theorem unit_items {be : Bool} {n : Nat} {u : RawUnit} {cu : CompUnit}
    (h : parseUnit be u.version n u.line u.root = some cu) :
    ∃ items, parseItems (envOf be u cu) n u.root.children = some items ∧ cu.types = items.types ∧
      cu.functions = items.functions ∧ cu.variables = items.variables ∧ fnOf cu = items.fn := by
  unfold parseUnit at h
  simp only [Option.map_eq_some_iff] at h
  obtain ⟨items, hi, rfl⟩ := h
  refine ⟨items, ?_, rfl, rfl, rfl, rfl⟩
  rw [unit_language] at hi
  exact hi

theorem Placed.nodup {units : List RawUnit} (hp : Placed units) {u : RawUnit} (hu : u ∈ units) :
    (itemsAll .unit u.root.children).Nodup := by
  have h1 := hp.distinct u hu
  rw [dies_eq, List.map_cons, List.nodup_cons] at h1
  have h2 := (itemsAll_sublist .unit u.root.children).nodup h1.2
  rw [List.nodup_iff_pairwise_ne, List.pairwise_map] at h2
  rw [List.nodup_iff_pairwise_ne]
  exact h2.imp fun {a b} h hab => h (by rw [hab])

theorem eq_of_nodup_map {α β : Type} {f : α → β} {l : List α} (hn : (l.map f).Nodup) {x y : α} (hx : x ∈ l) (hy : y ∈ l)
    (h : f x = f y) : x = y := by
  induction l with
  | nil => simp at hx
  | cons z l ih =>
    rw [List.map_cons, List.nodup_cons] at hn
    rcases List.mem_cons.1 hx with h1 | h1 <;> rcases List.mem_cons.1 hy with h2 | h2
    · rw [h1, h2]
    · exact absurd (List.mem_map.2 ⟨y, h2, by rw [← h, h1]⟩) hn.1
    · exact absurd (List.mem_map.2 ⟨x, h1, by rw [h, h2]⟩) hn.1
    · exact ih hn.2 h1 h2

/-- Entries of the same offset are the same entry of the same unit. -/
theorem Placed.unique {units : List RawUnit} (hp : Placed units) {i j : Nat} {u v : RawUnit} {d e : Die}
    (hi : units[i]? = some u) (hj : units[j]? = some v) (hd : d ∈ dies u.root) (he : e ∈ dies v.root)
    (h : d.offset = e.offset) : i = j ∧ d = e := by
  have hij : i = j := by
    by_cases hij : i = j
    · exact hij
    · exfalso
      have h1 := hp.inside u (List.mem_of_getElem? hi) d hd
      have h2 := hp.inside v (List.mem_of_getElem? hj) e he
      rcases hp.apart i j u v hi hj hij with h3 | h3 <;> omega
  subst hij
  rw [hi] at hj; cases hj
  refine ⟨rfl, ?_⟩
  have hn := hp.distinct u (List.mem_of_getElem? hi)
  exact eq_of_nodup_map hn hd he h

theorem hash_unique {κ α : Type} [DecidableEq κ] {l : List (κ × α)} {key : κ} {v : α} (hm : (key, v) ∈ l)
    (hu : ∀ w, (key, w) ∈ l → w = v) : hashOf l key = some v := by
  cases h : hashOf l key with
  | none => exact absurd rfl ((hashOf_spec l key).2.1 h _ hm)
  | some w =>
    obtain ⟨l1, l2, rfl, -⟩ := ((hashOf_spec l key).1 w).1 h
    rw [hu w (by simp)]

theorem entryAt_eq {units : List RawUnit} (hp : Placed units) {k : Nat} {u : RawUnit} {d : Die}
    (hk : units[k]? = some u) (hd : d ∈ dies u.root) : entryAt units d.offset = some (u, d) := by
  have hin := hp.inside u (List.mem_of_getElem? hk) d hd
  have h1 := (C73_complete (units.map (·.extent)) (fun i j x y hx hy hij => by
    rw [List.getElem?_map, Option.map_eq_some_iff] at hx hy
    obtain ⟨x', hx', rfl⟩ := hx
    obtain ⟨y', hy', rfl⟩ := hy
    exact hp.apart i j x' y' hx' hy' hij) d.offset).1 k u.extent (by simp [hk]) hin.1 hin.2
  unfold entryAt
  rw [h1]
  simp only [Option.bind_some, hk]
  cases hf : (dies u.root).find? (fun x => x.offset = d.offset) with
  | none => rw [List.find?_eq_none] at hf; exact absurd (by simp) (hf d hd)
  | some e =>
    have h2 := List.mem_of_find?_eq_some hf
    have h3 := List.find?_some hf
    simp only [decide_eq_true_eq] at h3
    rw [(hp.unique hk hk h2 hd h3).2]; rfl

theorem entryAt_none {units : List RawUnit} {o : Nat} (h : ∀ u ∈ units, ∀ d ∈ dies u.root, d.offset ≠ o) :
    entryAt units o = none := by
  unfold entryAt
  cases findUnit (units.map (·.extent)) o with
  | none => rfl
  | some p =>
    simp only [Option.bind_some]
    cases hk : units[p.1]? with
    | none => rfl
    | some u =>
      simp only [Option.bind_some, Option.map_eq_none_iff, List.find?_eq_none, decide_eq_true_eq]
      exact h u (List.mem_of_getElem? hk)

/-- Every type listed comes from a named type entry. -/
theorem listed_type {be : Bool} {n : Nat} {units : List RawUnit} {us : List CompUnit} (hp : Placed units)
    (hus : parseUnits be n units = some us) {cu : CompUnit} (hcu : cu ∈ us) {t : TypeEntry} (ht : t ∈ cu.types) :
    ∃ (k : Nat) (u : RawUnit) (ns : Option Namespace) (d : Die), units[k]? = some u ∧ us[k]? = some cu ∧ NamedType u cu ns d ∧
      d ∈ dies u.root ∧ t = ⟨some d.offset, tyOf (envOf be u cu) ns d⟩ := by
  obtain ⟨hl, hm⟩ := mapM_get hus
  obtain ⟨k, hk, rfl⟩ := List.mem_iff_getElem.1 hcu
  have hk' : k < units.length := by omega
  obtain ⟨cu, h1, h2⟩ := hm k units[k] (by simp)
  rw [List.getElem?_eq_getElem hk] at h1
  cases h1
  obtain ⟨items, hi, ht', -, -, hf⟩ := unit_items h2
  have hn := hp.nodup (List.getElem_mem hk')
  obtain ⟨s, P, _, h, hs, hfn, htt, -⟩ := final hn hi
  obtain ⟨ns, d, hd, rfl⟩ := (h.sound items.fn (h.agree hfn)).2.types t (htt ▸ ht' ▸ ht)
  refine ⟨k, units[k], ns, d, by simp, by simp, ?_, ?_, rfl⟩
  · unfold NamedType; rw [hf]; exact hd
  · obtain ⟨ctx, ds, g1, g2, -⟩ := hd
    rw [dies_eq]
    exact List.mem_cons_of_mem _ (g1.mem_dies d g2)

theorem NamedType.mem {u : RawUnit} {cu : CompUnit} {ns d} (h : NamedType u cu ns d) : d ∈ dies u.root := by
  obtain ⟨ctx, ds, g1, g2, -⟩ := h
  rw [dies_eq]
  exact List.mem_cons_of_mem _ (g1.mem_dies d g2)

theorem unnamed_not_named {k : Nat} {u : RawUnit} {cu : CompUnit} {ns d} (h : NamedType u cu ns d) : unnamedType k d = none := by
  obtain ⟨ctx, ds, -, -, -, ht⟩ := h
  unfold unnamedType
  cases hd : d.tag <;> first | rfl | (rw [hd] at ht; simp at ht)

/-! ### Types -/

/-- **C74** (named types). A reference to a named type entry of any unit gives the record of that
entry, with its qualified scope. -/
theorem C74_named {be : Bool} {n : Nat} {units : List RawUnit} {us : List CompUnit} (hp : Placed units)
    (hus : parseUnits be n units = some us) {k : Nat} {u : RawUnit} {cu : CompUnit} (hk : units[k]? = some u)
    (hc : us[k]? = some cu) {ns : Option Namespace} {d : Die} (hd : NamedType u cu ns d) :
    fromOffset (fileHash units us) (some d.offset) = some (tyOf (envOf be u cu) ns d) := by
  have key : typesByOffset us (some d.offset) = some ⟨some d.offset, tyOf (envOf be u cu) ns d⟩ := by
    unfold typesByOffset
    apply hash_unique
    · refine List.mem_flatMap.2 ⟨cu, List.mem_of_getElem? hc, List.mem_map.2 ⟨⟨some d.offset, tyOf (envOf be u cu) ns d⟩, ?_, rfl⟩⟩
      obtain ⟨_, hm⟩ := mapM_get hus
      obtain ⟨cu', h1, h2⟩ := hm k u hk
      rw [hc] at h1; cases h1
      obtain ⟨items, hi, ht', -, -, hf⟩ := unit_items h2
      rw [ht']
      exact C71_record (hp.nodup (List.mem_of_getElem? hk)) hi (by rw [← hf]; exact hd)
    · intro w hw
      obtain ⟨cu', hcu', hw⟩ := List.mem_flatMap.1 hw
      obtain ⟨t, ht, he⟩ := List.mem_map.1 hw
      obtain ⟨k', u', ns', d', g1, g2, g3, g4, rfl⟩ := listed_type hp hus hcu' ht
      simp only [Prod.mk.injEq, Option.some.injEq] at he
      obtain ⟨he, rfl⟩ := he
      obtain ⟨rfl, rfl⟩ := hp.unique g1 hk g4 hd.mem he
      rw [hk] at g1; cases g1
      rw [hc] at g2; cases g2
      have hns : ns' = ns := by
        obtain ⟨_, hm⟩ := mapM_get hus
        obtain ⟨cu', h1, h2⟩ := hm _ u hk
        rw [hc] at h1; cases h1
        obtain ⟨items, hi, -, -, -, hf⟩ := unit_items h2
        have hn := hp.nodup (List.mem_of_getElem? hk)
        obtain ⟨s, P, _, h, hs, hfn, -⟩ := final hn hi
        unfold NamedType at g3 hd
        rw [hf] at g3 hd
        obtain ⟨_, _, a1, a2, a3⟩ := g3
        obtain ⟨_, _, b1, b2, b3⟩ := hd
        exact (scope_unique hn (h.defined hs hfn) a1 a2 b1 b2 (ty_item a3) (ty_item b3)).1
      rw [hns]
  unfold fromOffset fileHash
  simp only [key, Option.map_some, Option.some_or]

theorem types_none {be : Bool} {n : Nat} {units : List RawUnit} {us : List CompUnit} (hp : Placed units)
    (hus : parseUnits be n units = some us) {o : Nat}
    (h : ∀ (k : Nat) u cu ns d, units[k]? = some u → us[k]? = some cu → NamedType u cu ns d → d.offset ≠ o) :
    typesByOffset us (some o) = none := by
  unfold typesByOffset
  rw [(hashOf_spec _ _).2]
  rintro ⟨key, t⟩ he hkey
  simp only at hkey; subst hkey
  obtain ⟨cu, hcu, hw⟩ := List.mem_flatMap.1 he
  obtain ⟨t, ht, he⟩ := List.mem_map.1 hw
  obtain ⟨k, u, ns, d, g1, g2, g3, g4, rfl⟩ := listed_type hp hus hcu ht
  simp only [Prod.mk.injEq, Option.some.injEq] at he
  exact h k u cu ns d g1 g2 g3 he.1

/-- **C74** (unnamed types). A reference to an array, subrange, subroutine type, pointer to member or
modifier gives what that entry says. -/
theorem C74_unnamed {be : Bool} {n : Nat} {units : List RawUnit} {us : List CompUnit} (hp : Placed units)
    (hus : parseUnits be n units = some us) {u : RawUnit} (hu : u ∈ units) {d : Die} (hd : d ∈ dies u.root)
    {t : Ty} (ht : unnamedType u.addressSize d = some t) :
    fromOffset (fileHash units us) (some d.offset) = some t := by
  obtain ⟨k, hk⟩ := List.getElem?_of_mem hu
  have h1 : typesByOffset us (some d.offset) = none := by
    refine types_none hp hus fun k' u' cu' ns' d' g1 g2 g3 he => ?_
    obtain ⟨rfl, rfl⟩ := hp.unique g1 hk g3.mem hd he
    rw [unnamed_not_named g3] at ht; cases ht
  unfold fromOffset fileHash
  simp only [h1, Option.map_none, Option.none_or, getType, entryAt_eq hp hk hd, Option.bind_some, ht]

/-- **C74** (no type). A reference to anything else is not resolved; no reference means `void`. -/
theorem C74_unresolved {be : Bool} {n : Nat} {units : List RawUnit} {us : List CompUnit} (hp : Placed units)
    (hus : parseUnits be n units = some us) (o : Nat)
    (h1 : ∀ u ∈ units, ∀ d ∈ dies u.root, d.offset = o → unnamedType u.addressSize d = none)
    (h2 : ∀ (k : Nat) u cu ns d, units[k]? = some u → us[k]? = some cu → NamedType u cu ns d → d.offset ≠ o) :
    fromOffset (fileHash units us) (some o) = none ∧ fromOffset (fileHash units us) none = some .void := by
  refine ⟨?_, rfl⟩
  have h3 := types_none hp hus h2
  have h4 : getType units o = none := by
    unfold getType
    by_cases he : ∃ u ∈ units, ∃ d ∈ dies u.root, d.offset = o
    · obtain ⟨u, hu, d, hd, rfl⟩ := he
      obtain ⟨k, hk⟩ := List.getElem?_of_mem hu
      rw [entryAt_eq hp hk hd]
      exact h1 u hu d hd rfl
    · rw [entryAt_none fun u hu d hd hne => he ⟨u, hu, d, hd, hne⟩]; rfl
  unfold fromOffset fileHash
  simp only [h3, h4, Option.map_none, Option.none_or]

/-- **C74** (enumerators). The enumerators of an enumeration are those of its entry. -/
theorem C74_enumerators {units : List RawUnit} (hp : Placed units) {u : RawUnit} (hu : u ∈ units) {d : Die}
    (hd : d ∈ dies u.root) (e : Encoding) : getEnumerators units e (some d.offset) = enumerators e d := by
  obtain ⟨k, hk⟩ := List.getElem?_of_mem hu
  simp [getEnumerators, entryAt_eq hp hk hd]

/-! ### Functions and variables -/

theorem nodup_offsets {α : Type} {off : α → Option Nat} {l : List α} {offs : List Nat} (h : l.map off = offs.map some)
    (hp : offs.Pairwise (· < ·)) : (l.map off).Nodup := by
  rw [h, List.nodup_iff_pairwise_ne, List.pairwise_map]
  exact hp.imp fun {a b} hab he => by cases he; omega

/-- Records listed at distinct offsets of entries of their unit are found by their offset. -/
theorem found_by_offset {β : Type} {units : List RawUnit} {us : List CompUnit} (hp : Placed units)
    (hl : us.length = units.length) (recs : CompUnit → List β) (off : β → Option Nat)
    (hrec : ∀ (k : Nat) u cu, units[k]? = some u → us[k]? = some cu → ((recs cu).map off).Nodup ∧
      ∀ f ∈ recs cu, ∃ d ∈ dies u.root, off f = some d.offset) {k : Nat} {cu : CompUnit} (hk : us[k]? = some cu)
    {f : β} (hf : f ∈ recs cu) : hashOf (us.flatMap fun u => (recs u).map fun f => (off f, f)) (off f) = some f := by
  have unit : ∀ (k : Nat) cu, us[k]? = some cu → ∃ u, units[k]? = some u := by
    intro k cu h
    have : k < us.length := by
      rw [List.getElem?_eq_some_iff] at h; exact h.1
    exact ⟨units[k], by simp⟩
  apply hash_unique
  · exact List.mem_flatMap.2 ⟨cu, List.mem_of_getElem? hk, List.mem_map.2 ⟨f, hf, rfl⟩⟩
  · intro w hw
    obtain ⟨cu', hcu', hw⟩ := List.mem_flatMap.1 hw
    obtain ⟨t, ht, he⟩ := List.mem_map.1 hw
    obtain ⟨heq, rfl⟩ := Prod.mk.inj he
    obtain ⟨k', hk'⟩ := List.getElem?_of_mem hcu'
    obtain ⟨u, hu⟩ := unit k cu hk
    obtain ⟨u', hu'⟩ := unit k' cu' hk'
    obtain ⟨d, hd, h1⟩ := (hrec k u cu hu hk).2 f hf
    obtain ⟨d', hd', h2⟩ := (hrec k' u' cu' hu' hk').2 t ht
    obtain ⟨rfl, -⟩ := hp.unique hu' hu hd' hd (by rw [h1, h2] at heq; exact Option.some.inj heq)
    rw [hk] at hk'; cases hk'
    exact eq_of_nodup_map (hrec _ u cu hu hk).1 ht hf heq

theorem unit_functions {be : Bool} {n : Nat} {units : List RawUnit} {us : List CompUnit} (hp : Placed units)
    (hus : parseUnits be n units = some us) (k : Nat) (u : RawUnit) (cu : CompUnit) (hk : units[k]? = some u) (hc : us[k]? = some cu) :
    (cu.functions.map (·.offset)).Nodup ∧
      ∀ f ∈ cu.functions, ∃ d ∈ dies u.root, f.offset = some d.offset ∧ Item.fn d.offset ∈ itemsAll .unit u.root.children := by
  obtain ⟨_, hm⟩ := mapM_get hus
  obtain ⟨cu', h1, h2⟩ := hm k u hk
  rw [hc] at h1; cases h1
  obtain ⟨items, hi, -, hfs, -, hff⟩ := unit_items h2
  have hn := hp.nodup (List.mem_of_getElem? hk)
  obtain ⟨offs, ho1, ho2, ho3⟩ := C44_listing hn hi
  rw [hfs]
  refine ⟨nodup_offsets ho1 ho2, fun f hf => ?_⟩
  have : f.offset ∈ offs.map some := by rw [← ho1]; exact List.mem_map.2 ⟨f, hf, rfl⟩
  obtain ⟨o, ho, he⟩ := List.mem_map.1 this
  have hit := (ho3 o).1 ho
  have : o ∈ (diesAll u.root.children).map Die.offset := (itemsAll_sublist .unit u.root.children).subset (List.mem_map.2 ⟨_, hit, rfl⟩)
  obtain ⟨d, hd, rfl⟩ := List.mem_map.1 this
  exact ⟨d, by rw [dies_eq]; exact List.mem_cons_of_mem _ hd, he.symm, hit⟩

/-- **C74** (functions). A reference to a function entry of any unit gives the record its unit lists for
it; a reference to anything else is not resolved. -/
theorem C74_function {be : Bool} {n : Nat} {units : List RawUnit} {us : List CompUnit} (hp : Placed units)
    (hus : parseUnits be n units = some us) :
    (∀ (k : Nat) u cu ns d, units[k]? = some u → us[k]? = some cu → FnAt (fnOf cu) u.root.children ns d →
      ∃ f ∈ cu.functions, f.offset = some d.offset ∧ functionFromOffset us (some d.offset) = some f) ∧
    (∀ o, (∀ u ∈ units, .fn o ∉ itemsAll .unit u.root.children) → functionFromOffset us (some o) = none) ∧
    functionFromOffset us none = none := by
  obtain ⟨hl, hm⟩ := mapM_get hus
  refine ⟨fun k u cu ns d hk hc hd => ?_, fun o ho => ?_, rfl⟩
  · obtain ⟨cu', h1, h2⟩ := hm k u hk
    rw [hc] at h1; cases h1
    obtain ⟨items, hi, -, hfs, -, hff⟩ := unit_items h2
    have hn := hp.nodup (List.mem_of_getElem? hk)
    obtain ⟨f, hf, hoff, -⟩ := C44_record hn hi (by rw [← hff]; exact hd)
    have hfm : f ∈ cu.functions := by rw [hfs]; exact List.mem_of_find?_eq_some hf
    refine ⟨f, hfm, hoff, ?_⟩
    have := found_by_offset hp hl (·.functions) (·.offset) (fun k u cu h1 h2 => by
      obtain ⟨g1, g2⟩ := unit_functions hp hus k u cu h1 h2
      exact ⟨g1, fun f hf => by obtain ⟨d, a, b, -⟩ := g2 f hf; exact ⟨d, a, b⟩⟩) hc hfm
    rw [hoff] at this
    exact this
  · unfold functionFromOffset functionsByOffset
    simp only
    rw [(hashOf_spec _ _).2]
    rintro ⟨key, f⟩ he hkey
    simp only at hkey; subst hkey
    obtain ⟨cu, hcu, hw⟩ := List.mem_flatMap.1 he
    obtain ⟨f, hf, he⟩ := List.mem_map.1 hw
    obtain ⟨he, rfl⟩ := Prod.mk.inj he
    obtain ⟨k, hk⟩ := List.getElem?_of_mem hcu
    have hk' : k < units.length := by rw [← hl]; exact (List.getElem?_eq_some_iff.1 hk).1
    obtain ⟨d, -, h1, h2⟩ := (unit_functions hp hus k units[k] cu (by simp) hk).2 f hf
    rw [h1] at he; cases he
    exact ho _ (List.getElem_mem hk') h2

theorem VarResolves.at {F : Nat → Option Function} {root : List Die} {d : Die} (h : VarResolves F root d) :
    ∃ ns, VarAt F root ns d := by
  cases h with
  | plain h _ => exact ⟨_, h⟩
  | refers h _ _ _ => exact ⟨_, h⟩

theorem unit_variables {be : Bool} {n : Nat} {units : List RawUnit} {us : List CompUnit} (hp : Placed units)
    (hus : parseUnits be n units = some us) (k : Nat) (u : RawUnit) (cu : CompUnit) (hk : units[k]? = some u) (hc : us[k]? = some cu) :
    (cu.variables.map (·.offset)).Nodup ∧
      (∀ v ∈ cu.variables, ∃ d ∈ dies u.root, v.offset = some d.offset ∧ VarResolves (fnOf cu) u.root.children d) ∧
      ∀ d, VarResolves (fnOf cu) u.root.children d → ∃ v ∈ cu.variables, v.offset = some d.offset := by
  obtain ⟨_, hm⟩ := mapM_get hus
  obtain ⟨cu', h1, h2⟩ := hm k u hk
  rw [hc] at h1; cases h1
  obtain ⟨items, hi, -, -, hvs, hff⟩ := unit_items h2
  have hn := hp.nodup (List.mem_of_getElem? hk)
  obtain ⟨offs, ho1, ho2, ho3⟩ := C45_listing hn hi
  rw [hvs, hff]
  refine ⟨nodup_offsets ho1 ho2, fun v hv => ?_, fun d hd => ?_⟩
  · have : v.offset ∈ offs.map some := by rw [← ho1]; exact List.mem_map.2 ⟨v, hv, rfl⟩
    obtain ⟨o, ho, he⟩ := List.mem_map.1 this
    obtain ⟨d, hd, rfl⟩ := (ho3 o).1 ho
    obtain ⟨ns, _, _, g1, g2, -⟩ := hd.at
    exact ⟨d, by rw [dies_eq]; exact List.mem_cons_of_mem _ (g1.mem_dies d g2), he.symm, hd⟩
  · have : some d.offset ∈ items.variables.map (·.offset) := by
      rw [ho1]; exact List.mem_map.2 ⟨_, (ho3 _).2 ⟨d, hd, rfl⟩, rfl⟩
    obtain ⟨v, hv, he⟩ := List.mem_map.1 this
    exact ⟨v, hv, he⟩

/-- **C74** (variables). A reference to a variable entry of any unit gives the record its unit lists
for it, if its specifications lead somewhere; a reference to anything else is not resolved. -/
theorem C74_variable {be : Bool} {n : Nat} {units : List RawUnit} {us : List CompUnit} (hp : Placed units)
    (hus : parseUnits be n units = some us) :
    (∀ (k : Nat) u cu d, units[k]? = some u → us[k]? = some cu → VarResolves (fnOf cu) u.root.children d →
      ∃ v ∈ cu.variables, v.offset = some d.offset ∧ variableFromOffset us (some d.offset) = some v) ∧
    (∀ o, (∀ (k : Nat) u cu d, units[k]? = some u → us[k]? = some cu → VarResolves (fnOf cu) u.root.children d → d.offset ≠ o) →
      variableFromOffset us (some o) = none) ∧
    variableFromOffset us none = none := by
  obtain ⟨hl, hm⟩ := mapM_get hus
  refine ⟨fun k u cu d hk hc hd => ?_, fun o ho => ?_, rfl⟩
  · obtain ⟨v, hv, hoff⟩ := (unit_variables hp hus k u cu hk hc).2.2 d hd
    refine ⟨v, hv, hoff, ?_⟩
    have := found_by_offset hp hl (·.variables) (·.offset) (fun k u cu h1 h2 => by
      obtain ⟨g1, g2, -⟩ := unit_variables hp hus k u cu h1 h2
      exact ⟨g1, fun f hf => by obtain ⟨d, a, b, -⟩ := g2 f hf; exact ⟨d, a, b⟩⟩) hc hv
    rw [hoff] at this
    exact this
  · unfold variableFromOffset variablesByOffset
    simp only
    rw [(hashOf_spec _ _).2]
    rintro ⟨key, v⟩ he hkey
    simp only at hkey; subst hkey
    obtain ⟨cu, hcu, hw⟩ := List.mem_flatMap.1 he
    obtain ⟨v, hv, he⟩ := List.mem_map.1 hw
    obtain ⟨he, rfl⟩ := Prod.mk.inj he
    obtain ⟨k, hk⟩ := List.getElem?_of_mem hcu
    have hk' : k < units.length := by rw [← hl]; exact (List.getElem?_eq_some_iff.1 hk).1
    obtain ⟨d, -, h1, h2⟩ := (unit_variables hp hus k units[k] cu (by simp) hk).2.1 v hv
    rw [h1] at he; cases he
    exact ho k _ cu d (by simp) hk h2 rfl

/-! ### A concrete file

Two units; a variable of the second one refers to a pointer in the first, which points to a struct in
the second. -/

/-- The concrete file. -/
def file2 : List RawUnit :=
  [{ extent := ⟨0, 11, 50⟩, root := .node 11 .other [] [.node 20 (.modifier .pointer) [(.type, .ref 70)] []] },
   { extent := ⟨50, 61, 90⟩, addressSize := 4,
     root := .node 61 .other [] [.node 70 .structure_ [(.name, .string (some [83])), (.byteSize, .udata 4)]
        [.node 72 .typedef [(.name, .string (some [116]))] []],
      .node 80 .variable [(.name, .string (some [118])), (.type, .ref 20)] []] }]

example : Placed file2 := by
  constructor
  · intro i j u v hi hj hij
    rcases i with _ | _ | i <;> rcases j with _ | _ | j <;> simp [file2] at hi hj <;> first | omega | (subst hi hj; decide)
  · decide +kernel
  · decide +kernel

example : (parseUnits false 5 file2).map (fun us => [20, 70, 72, 80].map fun o => fromOffset (fileHash file2 us) (some o)) =
    some [some (.modifier .pointer (some 70) Opt64.none (some 8)), some (.struct_ none (some [83]) ⟨4⟩ [] [] []),
      some (.def_ (some (.root (some [83]) .type)) (some [116]) none), none] := by decide +kernel

example : ((parseUnits false 5 file2).bind fun us => variableFromOffset us (some 80)).map (·.ty) = some (some 20) := by decide +kernel

end Verif.Dwarf
