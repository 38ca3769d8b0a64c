import Verif.Ids.Lemmas
/-!
# Property theorems: C37 (ids identify items and resolve back)
-/
namespace Verif.Ids
open Verif.Item Verif.Opts Verif.Types Verif.Filter Verif.Merge

/-- **C37 (one file).** The assigned ids are a bijection between the items of the file and the
positions of the index: every item's id resolves to that item, and every position of the index
holds an item whose id is that position. -/
theorem C37_print_ids (us : List CompUnit) :
    (∀ x, ItemOf us x → (assignIds us).ids[(assignIds us).store x]? = some x) ∧
    (∀ n x, (assignIds us).ids[n]? = some x → ItemOf us x ∧ (assignIds us).store x = n) := by
  rw [assignIds_eq]
  obtain ⟨h1, h2⟩ := record_fold (allIds us) {} (by simpa using nodup_allIds us) (by simp)
  simp only [List.nil_append] at h1 h2
  rw [h1]
  refine ⟨fun x hx => ?_, fun n x hx => ⟨(mem_allIds us x).1 (List.mem_of_getElem? hx), h2 n x hx⟩⟩
  obtain ⟨n, hn⟩ := List.mem_iff_getElem?.1 ((mem_allIds us x).2 hx)
  rw [h2 n x hn]
  exact hn

/-- **C37 (no two items share an id).** -/
theorem C37_print_ids_distinct (us : List CompUnit) (x y : Id) (hx : ItemOf us x) (hy : ItemOf us y)
    (h : (assignIds us).store x = (assignIds us).store y) : x = y := by
  have h1 := (C37_print_ids us).1 x hx
  rw [h, (C37_print_ids us).1 y hy] at h1
  exact (Option.some.inj h1).symm

/-- **C37 (display by id).** Asking for an id displays exactly the item it was assigned to: a unit,
function or variable always, a type when it is of a kind with its own display, and for a function
the code if that detail is requested. A detail is ignored for other items, an unknown detail
displays nothing for a function. -/
theorem C37_print_id (us : List CompUnit) (detail : Option Str) :
    (∀ i u, us[i]? = some u →
      printId us (assignIds us).ids ((assignIds us).store (.unit i)) detail = some (.unit u)) ∧
    (∀ i u j t, us[i]? = some u → u.types[j]? = some t →
      printId us (assignIds us).ids ((assignIds us).store (.type i j)) detail =
        if printable t.kind then some (.type u t) else none) ∧
    (∀ i u j f, us[i]? = some u → u.functions[j]? = some f →
      (detail = none →
        printId us (assignIds us).ids ((assignIds us).store (.function i j)) detail =
          some (.function u f)) ∧
      (∀ d, detail = some d →
        printId us (assignIds us).ids ((assignIds us).store (.function i j)) detail =
          if d = Str.ofString "code" then some (.code f) else none)) ∧
    (∀ i u j v, us[i]? = some u → u.variables[j]? = some v →
      printId us (assignIds us).ids ((assignIds us).store (.var i j)) detail = some (.var u v)) ∧
    (∀ n, (assignIds us).ids.length ≤ n → printId us (assignIds us).ids n detail = none) := by
  obtain ⟨h1, h2⟩ := C37_print_ids us
  refine ⟨fun i u hu => ?_, fun i u j t hu ht => ?_, fun i u j f hu hf => ⟨fun hd => ?_, fun d hd => ?_⟩,
    fun i u j v hu hv => ?_, fun n hn => ?_⟩
  · simp [printId, h1 _ (.unit hu), hu]
  · simp [printId, h1 _ (.type hu ht), hu, ht]
  · subst hd; simp [printId, h1 _ (.function hu hf), hu, hf]
  · subst hd; simp [printId, h1 _ (.function hu hf), hu, hf]
  · simp [printId, h1 _ (.var hu hv), hu, hv]
  · simp [printId, List.getElem?_eq_none hn]

/-- **C37 (parent).** The parent of an id is the id of the unit the item belongs to; units and
numbers out of range have none. -/
theorem C37_parent (us : List CompUnit) (n m : Nat) :
    printParent us (assignIds us) n = some m ↔
      ∃ x i, (assignIds us).ids[n]? = some x ∧ InUnit x i ∧ x ≠ .unit i ∧
        m = (assignIds us).store (.unit i) := by
  unfold printParent
  have hv := (C37_print_ids us).2 n
  rcases hn : (assignIds us).ids[n]? with _ | x
  · simp
  · have hi := (hv x hn).1
    have unitOk : ∀ i, InUnit x i → ∃ u, us[i]? = some u := by
      intro i hx
      cases hi <;> cases hx <;> exact ⟨_, by assumption⟩
    cases x with
    | none => cases hi
    | unit i =>
      simp only [Option.some.injEq, reduceCtorEq, false_iff]
      rintro ⟨y, j, rfl, hj, hne, _⟩
      cases hj; exact hne rfl
    | type i j =>
      obtain ⟨u, hu⟩ := unitOk i .type
      simp only [hu, Option.map_some, Option.some.injEq]
      exact ⟨fun h => ⟨_, i, rfl, .type, by simp, h.symm⟩,
        fun ⟨_, _, hy, hx, _, h⟩ => by subst hy; cases hx; exact h.symm⟩
    | function i j =>
      obtain ⟨u, hu⟩ := unitOk i .function
      simp only [hu, Option.map_some, Option.some.injEq]
      exact ⟨fun h => ⟨_, i, rfl, .function, by simp, h.symm⟩,
        fun ⟨_, _, hy, hx, _, h⟩ => by subst hy; cases hx; exact h.symm⟩
    | var i j =>
      obtain ⟨u, hu⟩ := unitOk i .var
      simp only [hu, Option.map_some, Option.some.injEq]
      exact ⟨fun h => ⟨_, i, rfl, .var, by simp, h.symm⟩,
        fun ⟨_, _, hy, hx, _, h⟩ => by subst hy; cases hx; exact h.symm⟩

/-- Non-vacuity: two units with items. -/
example :
    let us : List CompUnit := [{ functions := [{}, {}] }, { types := [⟨none, .void⟩], variables := [{}] }]
    (assignIds us).ids = [.unit 0, .function 0 0, .function 0 1, .unit 1, .type 1 0, .var 1 0] ∧
    (assignIds us).store (.var 1 0) = 5 ∧ printParent us (assignIds us) 5 = some 3 ∧
    ItemOf us (.var 1 0) := by
  refine ⟨by decide, by decide, by decide, .var (u := { types := [⟨none, .void⟩], variables := [{}] }) rfl rfl⟩

/-! ### Two files -/

theorem pairIds_sound {α : Type} {cs c : Sided α → Sided α → Ordering} {la lb : List (Nat × α)}
    {r : MergeResult (Nat × α) (Nat × α)} (hr : r ∈ mergeIdx cs c la lb) :
    (∀ e, oldItem r = some e → e ∈ la) ∧ (∀ e, newItem r = some e → e ∈ lb) ∧
    (∀ e e', r = .both e e' → c (.inl e.2) (.inr e'.2) = .eq) := by
  obtain ⟨h1, h2⟩ := mergeIdx_perm cs c la lb
  refine ⟨fun e he => h1.mem_iff.1 (List.mem_filterMap.2 ⟨r, hr, he⟩),
    fun e he => h2.mem_iff.1 (List.mem_filterMap.2 ⟨r, hr, he⟩), ?_⟩
  rintro e e' rfl
  exact mergeIdx_eq cs c la lb e e' hr

theorem mergeIdx_old {α : Type} (cs c : Sided α → Sided α → Ordering) (la lb : List (Nat × α))
    {e : Nat × α} (he : e ∈ la) : ∃ r ∈ mergeIdx cs c la lb, oldItem r = some e :=
  List.mem_filterMap.1 ((mergeIdx_perm cs c la lb).1.mem_iff.2 he)

theorem mergeIdx_new {α : Type} (cs c : Sided α → Sided α → Ordering) (la lb : List (Nat × α))
    {e : Nat × α} (he : e ∈ lb) : ∃ r ∈ mergeIdx cs c la lb, newItem r = some e :=
  List.mem_filterMap.1 ((mergeIdx_perm cs c la lb).2.mem_iff.2 he)

section
variable (c : Cmps) (o : Options) (ha hb : Hash) (a b : List CompUnit)

/-- What is known of a listed pair inside a pair of units. -/
structure InnerOk (ia ib : Nat) (x y : Id) : Prop where
  left : x = .none ∨ WantedAt ha o a x ∧ InUnit x ia ∧ x ≠ .unit ia
  right : y = .none ∨ WantedAt hb o b y ∧ InUnit y ib ∧ y ≠ .unit ib
  some : x ≠ .none ∨ y ≠ .none
  eq : x ≠ .none → y ≠ .none → Matches c a b x y

/-- Membership of the function part does not depend on the split. -/
theorem mem_split {α : Type} (l : List α) (p : α → Bool) (x : α) :
    x ∈ l.filter (fun f => !p f) ++ l.filter p ↔ x ∈ l := by
  simp only [List.mem_append, List.mem_filter]
  cases p x <;> simp

theorem mem_mergedInUnit (ia ib : Nat) (ua ub : CompUnit) (p : Id × Id) :
    p ∈ mergedInUnit c o ha hb ia ib ua ub ↔
      (∃ r ∈ mergeIdx c.typeSort c.type (enumFilterTypes ha ua o true) (enumFilterTypes hb ub o true),
        pairIds (.type ia) (.type ib) r = p) ∨
      (∃ r ∈ mergeIdx c.functionSort c.function (enumFilterFunctions ua o) (enumFilterFunctions ub o),
        pairIds (.function ia) (.function ib) r = p) ∨
      (∃ r ∈ mergeIdx c.varSort c.var (enumFilterVariables ua o) (enumFilterVariables ub o),
        pairIds (.var ia) (.var ib) r = p) := by
  unfold mergedInUnit
  rw [List.mem_append, List.mem_append, List.mem_map, List.mem_map, List.mem_map, or_assoc]
  simp only [mem_split]

theorem mergedInUnit_sound {ia ib : Nat} {ua ub : CompUnit} (hua : a[ia]? = some ua)
    (hub : b[ib]? = some ub) {x y : Id} (h : (x, y) ∈ mergedInUnit c o ha hb ia ib ua ub) :
    InnerOk c o ha hb a b ia ib x y := by
  rw [mem_mergedInUnit] at h
  rcases h with ⟨r, hr, h⟩ | ⟨r, hr, h⟩ | ⟨r, hr, h⟩
  · obtain ⟨h1, h2, h3⟩ := pairIds_sound hr
    have wa : ∀ e, oldItem r = some e → ua.types[e.1]? = some e.2 ∧ WantedType ha ua o true e.2 :=
      fun e he => by
        have := (enumFilter_mem _ _ _ _).1 (h1 e he)
        exact ⟨this.1, (okType_iff ha ua o true e.2).1 this.2⟩
    have wb : ∀ e, newItem r = some e → ub.types[e.1]? = some e.2 ∧ WantedType hb ub o true e.2 :=
      fun e he => by
        have := (enumFilter_mem _ _ _ _).1 (h2 e he)
        exact ⟨this.1, (okType_iff hb ub o true e.2).1 this.2⟩
    cases r with
    | left e =>
      cases h
      have := wa e rfl
      exact ⟨.inr ⟨.type hua this.1 this.2, .type, by simp⟩, .inl rfl, .inl (by simp), by simp⟩
    | right e =>
      cases h
      have := wb e rfl
      exact ⟨.inl rfl, .inr ⟨.type hub this.1 this.2, .type, by simp⟩, .inr (by simp), by simp⟩
    | both e e' =>
      cases h
      have t1 := wa e rfl
      have t2 := wb e' rfl
      exact ⟨.inr ⟨.type hua t1.1 t1.2, .type, by simp⟩, .inr ⟨.type hub t2.1 t2.2, .type, by simp⟩,
        .inl (by simp), fun _ _ => .type hua hub t1.1 t2.1 (h3 e e' rfl)⟩
  · obtain ⟨h1, h2, h3⟩ := pairIds_sound hr
    have wa : ∀ e, oldItem r = some e → ua.functions[e.1]? = some e.2 ∧ WantedFunction o e.2 :=
      fun e he => by
        have := (enumFilter_mem _ _ _ _).1 (h1 e he)
        exact ⟨this.1, (okFunction_iff o e.2).1 this.2⟩
    have wb : ∀ e, newItem r = some e → ub.functions[e.1]? = some e.2 ∧ WantedFunction o e.2 :=
      fun e he => by
        have := (enumFilter_mem _ _ _ _).1 (h2 e he)
        exact ⟨this.1, (okFunction_iff o e.2).1 this.2⟩
    cases r with
    | left e =>
      cases h
      have := wa e rfl
      exact ⟨.inr ⟨.function hua this.1 this.2, .function, by simp⟩, .inl rfl, .inl (by simp), by simp⟩
    | right e =>
      cases h
      have := wb e rfl
      exact ⟨.inl rfl, .inr ⟨.function hub this.1 this.2, .function, by simp⟩, .inr (by simp), by simp⟩
    | both e e' =>
      cases h
      have t1 := wa e rfl
      have t2 := wb e' rfl
      exact ⟨.inr ⟨.function hua t1.1 t1.2, .function, by simp⟩,
        .inr ⟨.function hub t2.1 t2.2, .function, by simp⟩,
        .inl (by simp), fun _ _ => .function hua hub t1.1 t2.1 (h3 e e' rfl)⟩
  · obtain ⟨h1, h2, h3⟩ := pairIds_sound hr
    have wa : ∀ e, oldItem r = some e → ua.variables[e.1]? = some e.2 ∧ WantedVariable o e.2 :=
      fun e he => by
        have := (enumFilter_mem _ _ _ _).1 (h1 e he)
        exact ⟨this.1, (okVariable_iff o e.2).1 this.2⟩
    have wb : ∀ e, newItem r = some e → ub.variables[e.1]? = some e.2 ∧ WantedVariable o e.2 :=
      fun e he => by
        have := (enumFilter_mem _ _ _ _).1 (h2 e he)
        exact ⟨this.1, (okVariable_iff o e.2).1 this.2⟩
    cases r with
    | left e =>
      cases h
      have := wa e rfl
      exact ⟨.inr ⟨.var hua this.1 this.2, .var, by simp⟩, .inl rfl, .inl (by simp), by simp⟩
    | right e =>
      cases h
      have := wb e rfl
      exact ⟨.inl rfl, .inr ⟨.var hub this.1 this.2, .var, by simp⟩, .inr (by simp), by simp⟩
    | both e e' =>
      cases h
      have t1 := wa e rfl
      have t2 := wb e' rfl
      exact ⟨.inr ⟨.var hua t1.1 t1.2, .var, by simp⟩,
        .inr ⟨.var hub t2.1 t2.2, .var, by simp⟩,
        .inl (by simp), fun _ _ => .var hua hub t1.1 t2.1 (h3 e e' rfl)⟩

theorem pairIds_fst {α : Type} (mkA mkB : Nat → Id) {r : MergeResult (Nat × α) (Nat × α)} {e : Nat × α}
    (h : oldItem r = some e) : (pairIds mkA mkB r).1 = mkA e.1 := by
  cases r <;> simp [oldItem] at h <;> subst h <;> rfl

theorem pairIds_snd {α : Type} (mkA mkB : Nat → Id) {r : MergeResult (Nat × α) (Nat × α)} {e : Nat × α}
    (h : newItem r = some e) : (pairIds mkA mkB r).2 = mkB e.1 := by
  cases r <;> simp [newItem] at h <;> subst h <;> rfl

theorem mergedInUnit_completeA {ia ib : Nat} {ua ub : CompUnit} (hua : a[ia]? = some ua) {x : Id}
    (hx : WantedAt ha o a x) (hi : InUnit x ia) (hne : x ≠ .unit ia) :
    ∃ y, (x, y) ∈ mergedInUnit c o ha hb ia ib ua ub := by
  simp only [mem_mergedInUnit]
  cases hx with
  | unit _ _ => cases hi; exact absurd rfl hne
  | type h1 h2 h3 =>
    cases hi
    rw [hua] at h1; cases h1
    obtain ⟨r, hr, he⟩ := mergeIdx_old c.typeSort c.type _ (enumFilterTypes hb ub o true)
      ((enumFilter_mem _ _ _ _).2 ⟨h2, (okType_iff ha ua o true _).2 h3⟩)
    exact ⟨_, .inl ⟨r, hr, Prod.ext (pairIds_fst _ (.type ib) he) rfl⟩⟩
  | function h1 h2 h3 =>
    cases hi
    rw [hua] at h1; cases h1
    obtain ⟨r, hr, he⟩ := mergeIdx_old c.functionSort c.function _ (enumFilterFunctions ub o)
      ((enumFilter_mem _ _ _ _).2 ⟨h2, (okFunction_iff o _).2 h3⟩)
    exact ⟨_, .inr (.inl ⟨r, hr, Prod.ext (pairIds_fst _ (.function ib) he) rfl⟩)⟩
  | var h1 h2 h3 =>
    cases hi
    rw [hua] at h1; cases h1
    obtain ⟨r, hr, he⟩ := mergeIdx_old c.varSort c.var _ (enumFilterVariables ub o)
      ((enumFilter_mem _ _ _ _).2 ⟨h2, (okVariable_iff o _).2 h3⟩)
    exact ⟨_, .inr (.inr ⟨r, hr, Prod.ext (pairIds_fst _ (.var ib) he) rfl⟩)⟩

theorem mergedInUnit_completeB {ia ib : Nat} {ua ub : CompUnit} (hub : b[ib]? = some ub) {y : Id}
    (hy : WantedAt hb o b y) (hi : InUnit y ib) (hne : y ≠ .unit ib) :
    ∃ x, (x, y) ∈ mergedInUnit c o ha hb ia ib ua ub := by
  simp only [mem_mergedInUnit]
  cases hy with
  | unit _ _ => cases hi; exact absurd rfl hne
  | type h1 h2 h3 =>
    cases hi
    rw [hub] at h1; cases h1
    obtain ⟨r, hr, he⟩ := mergeIdx_new c.typeSort c.type (enumFilterTypes ha ua o true) _
      ((enumFilter_mem _ _ _ _).2 ⟨h2, (okType_iff hb ub o true _).2 h3⟩)
    exact ⟨_, .inl ⟨r, hr, Prod.ext rfl (pairIds_snd (.type ia) _ he)⟩⟩
  | function h1 h2 h3 =>
    cases hi
    rw [hub] at h1; cases h1
    obtain ⟨r, hr, he⟩ := mergeIdx_new c.functionSort c.function (enumFilterFunctions ua o) _
      ((enumFilter_mem _ _ _ _).2 ⟨h2, (okFunction_iff o _).2 h3⟩)
    exact ⟨_, .inr (.inl ⟨r, hr, Prod.ext rfl (pairIds_snd (.function ia) _ he)⟩)⟩
  | var h1 h2 h3 =>
    cases hi
    rw [hub] at h1; cases h1
    obtain ⟨r, hr, he⟩ := mergeIdx_new c.varSort c.var (enumFilterVariables ua o) _
      ((enumFilter_mem _ _ _ _).2 ⟨h2, (okVariable_iff o _).2 h3⟩)
    exact ⟨_, .inr (.inr ⟨r, hr, Prod.ext rfl (pairIds_snd (.var ia) _ he)⟩)⟩

theorem mem_unmergedInUnit (i : Nat) (u : CompUnit) (left : Bool) (x y : Id) :
    (x, y) ∈ unmergedInUnit i u left ↔
      if left then x ∈ innerIds i u ∧ y = .none else x = .none ∧ y ∈ innerIds i u := by
  show (x, y) ∈ (innerIds i u).map _ ↔ _
  rw [List.mem_map]
  cases left
  · simp only [Bool.false_eq_true, if_false, Prod.mk.injEq]
    exact ⟨fun ⟨z, hz, h1, h2⟩ => ⟨h1.symm, h2 ▸ hz⟩, fun ⟨h1, h2⟩ => ⟨y, h2, h1.symm, rfl⟩⟩
  · simp only [if_true, Prod.mk.injEq]
    exact ⟨fun ⟨z, hz, h1, h2⟩ => ⟨h1 ▸ hz, h2.symm⟩, fun ⟨h1, h2⟩ => ⟨x, h1, rfl, h2.symm⟩⟩

/-- Merge results of the units. -/
abbrev unitMerge : List (MergeResult (Nat × CompUnit) (Nat × CompUnit)) :=
  mergeIdx c.unit c.unit (enumFilterUnits a o) (enumFilterUnits b o)

theorem unitMerge_sound {r : MergeResult (Nat × CompUnit) (Nat × CompUnit)}
    (hr : r ∈ unitMerge c o a b) :
    (∀ e, oldItem r = some e → a[e.1]? = some e.2 ∧ WantedUnit o e.2) ∧
    (∀ e, newItem r = some e → b[e.1]? = some e.2 ∧ WantedUnit o e.2) ∧
    (∀ e e', r = .both e e' → c.unit (.inl e.2) (.inr e'.2) = .eq) := by
  obtain ⟨h1, h2, h3⟩ := pairIds_sound hr
  refine ⟨fun e he => ?_, fun e he => ?_, h3⟩
  · have := (enumFilter_mem _ _ _ _).1 (h1 e he)
    exact ⟨this.1, (okUnit_iff o e.2).1 this.2⟩
  · have := (enumFilter_mem _ _ _ _).1 (h2 e he)
    exact ⟨this.1, (okUnit_iff o e.2).1 this.2⟩

/-- Everything in the list of one unit result. -/
theorem mergedUnit_sound {r : MergeResult (Nat × CompUnit) (Nat × CompUnit)}
    (hr : r ∈ unitMerge c o a b) {x y : Id} (h : (x, y) ∈ mergedUnit c o ha hb r) :
    (x = .none ∨ ItemOf a x ∧ ∃ e, oldItem r = some e ∧ InUnit x e.1) ∧
    (y = .none ∨ ItemOf b y ∧ ∃ e, newItem r = some e ∧ InUnit y e.1) ∧
    (x ≠ .none ∨ y ≠ .none) ∧
    (x ≠ .none → y ≠ .none → Matches c a b x y) := by
  obtain ⟨h1, h2, h3⟩ := unitMerge_sound c o a b hr
  have wantA : ∀ {id}, WantedAt ha o a id → ItemOf a id := fun h => by
    cases h with
    | unit h _ => exact .unit h
    | type h h' _ => exact .type h h'
    | function h h' _ => exact .function h h'
    | var h h' _ => exact .var h h'
  have wantB : ∀ {id}, WantedAt hb o b id → ItemOf b id := fun h => by
    cases h with
    | unit h _ => exact .unit h
    | type h h' _ => exact .type h h'
    | function h h' _ => exact .function h h'
    | var h h' _ => exact .var h h'
  rcases r with ⟨i, u⟩ | ⟨i, u⟩ | ⟨⟨i, u⟩, ⟨j, v⟩⟩
  · have hu := (h1 _ rfl).1
    rcases List.mem_cons.1 h with h | h
    · cases h
      exact ⟨.inr ⟨.unit hu, _, rfl, .unit⟩, .inl rfl, .inl (by simp), by simp⟩
    · obtain ⟨hin, rfl⟩ : x ∈ innerIds i u ∧ y = .none := (mem_unmergedInUnit _ _ true _ _).1 h
      obtain ⟨h4, h5, h6⟩ := (mem_innerIds_iff a i u hu x).1 hin
      exact ⟨.inr ⟨h4, _, rfl, h5⟩, .inl rfl, .inl (by rintro rfl; cases h4), by simp⟩
  · have hu := (h2 _ rfl).1
    rcases List.mem_cons.1 h with h | h
    · cases h
      exact ⟨.inl rfl, .inr ⟨.unit hu, _, rfl, .unit⟩, .inr (by simp), by simp⟩
    · obtain ⟨rfl, hin⟩ : x = .none ∧ y ∈ innerIds i u := (mem_unmergedInUnit _ _ false _ _).1 h
      obtain ⟨h4, h5, h6⟩ := (mem_innerIds_iff b i u hu y).1 hin
      exact ⟨.inl rfl, .inr ⟨h4, _, rfl, h5⟩, .inr (by rintro rfl; cases h4), by simp⟩
  · have hu := (h1 _ rfl).1
    have hv := (h2 _ rfl).1
    rcases List.mem_cons.1 h with h | h
    · cases h
      exact ⟨.inr ⟨.unit hu, _, rfl, .unit⟩, .inr ⟨.unit hv, _, rfl, .unit⟩, .inl (by simp),
        fun _ _ => .unit hu hv (h3 _ _ rfl)⟩
    · obtain ⟨hl, hr, hs, he⟩ := mergedInUnit_sound c o ha hb a b hu hv h
      exact ⟨hl.imp id fun h => ⟨wantA h.1, _, rfl, h.2.1⟩, hr.imp id fun h => ⟨wantB h.1, _, rfl, h.2.1⟩,
        hs, he⟩

theorem pairwise_pairIds {α : Type} {l : List (MergeResult (Nat × α) (Nat × α))} (mkA mkB : Nat → Id)
    (h : l.Pairwise DistinctIdx) (hA : ∀ a b, mkA a = mkA b → a = b)
    (hB : ∀ a b, mkB a = mkB b → a = b) (hA0 : ∀ a, mkA a ≠ .none) (hB0 : ∀ a, mkB a ≠ .none) :
    (l.map (pairIds mkA mkB)).Pairwise Distinct := by
  rw [List.pairwise_map]
  exact h.imp fun {x y} h => pairIds_distinct mkA mkB hA hB x y hA0 hB0 h

theorem mergedInUnit_distinct (ia ib : Nat) (ua ub : CompUnit) :
    (mergedInUnit c o ha hb ia ib ua ub).Pairwise Distinct := by
  have ht := pairwise_pairIds (.type ia) (.type ib)
    (mergeIdx_distinct c.typeSort c.type (enumFilterTypes ha ua o true) (enumFilterTypes hb ub o true)
      (enumFilter_distinct _ _) (enumFilter_distinct _ _)) (by simp) (by simp) (by simp) (by simp)
  have hf0 := mergeIdx_distinct c.functionSort c.function (enumFilterFunctions ua o)
      (enumFilterFunctions ub o) (enumFilter_distinct _ _) (enumFilter_distinct _ _)
  have hv := pairwise_pairIds (.var ia) (.var ib)
    (mergeIdx_distinct c.varSort c.var (enumFilterVariables ua o) (enumFilterVariables ub o)
      (enumFilter_distinct _ _) (enumFilter_distinct _ _)) (by simp) (by simp) (by simp) (by simp)
  have hf : ∀ p : MergeResult (Nat × Function) (Nat × Function) → Bool,
      (((mergeIdx c.functionSort c.function (enumFilterFunctions ua o)
        (enumFilterFunctions ub o)).filter (fun f => !p f) ++
        (mergeIdx c.functionSort c.function (enumFilterFunctions ua o)
        (enumFilterFunctions ub o)).filter p).map (pairIds (.function ia) (.function ib))).Pairwise Distinct := by
    intro p
    refine pairwise_pairIds (.function ia) (.function ib) ?_ (by simp) (by simp) (by simp) (by simp)
    have hsymm : ∀ {x y : MergeResult (Nat × Function) (Nat × Function)}, DistinctIdx x y → DistinctIdx y x :=
      fun h => ⟨fun a a' h1 h2 => (h.1 a' a h2 h1).symm, fun a a' h1 h2 => (h.2 a' a h2 h1).symm⟩
    refine (List.Perm.pairwise_iff (R := DistinctIdx) hsymm ?_).2 hf0
    have := List.filter_append_perm p (mergeIdx c.functionSort c.function (enumFilterFunctions ua o)
        (enumFilterFunctions ub o))
    exact List.perm_append_comm.trans this
  -- the three parts use different constructors
  have ctor : ∀ {α : Type} (l : List (MergeResult (Nat × α) (Nat × α))) (mkA mkB : Nat → Id) (p : Id × Id),
      p ∈ l.map (pairIds mkA mkB) → (p.1 = .none ∨ ∃ n, p.1 = mkA n) ∧ (p.2 = .none ∨ ∃ n, p.2 = mkB n) := by
    intro α l mkA mkB p hp
    obtain ⟨r, _, rfl⟩ := List.mem_map.1 hp
    cases r
    · exact ⟨.inr ⟨_, rfl⟩, .inl rfl⟩
    · exact ⟨.inl rfl, .inr ⟨_, rfl⟩⟩
    · exact ⟨.inr ⟨_, rfl⟩, .inr ⟨_, rfl⟩⟩
  unfold mergedInUnit
  rw [List.pairwise_append, List.pairwise_append]
  refine ⟨⟨ht, hf _, ?_⟩, hv, ?_⟩
  · intro p hp q hq
    obtain ⟨h1, h2⟩ := ctor _ _ _ p hp
    obtain ⟨h3, h4⟩ := ctor _ _ _ q hq
    constructor
    · intro hne e
      rcases h1 with h1 | ⟨n, h1⟩
      · exact hne h1
      · rcases h3 with h3 | ⟨m, h3⟩ <;> rw [h1, h3] at e <;> cases e
    · intro hne e
      rcases h2 with h1 | ⟨n, h1⟩
      · exact hne h1
      · rcases h4 with h3 | ⟨m, h3⟩ <;> rw [h1, h3] at e <;> cases e
  · intro p hp q hq
    obtain ⟨h3, h4⟩ := ctor _ _ _ q hq
    rcases List.mem_append.1 hp with hp | hp
    all_goals
      obtain ⟨h1, h2⟩ := ctor _ _ _ p hp
      constructor
      · intro hne e
        rcases h1 with h1 | ⟨n, h1⟩
        · exact hne h1
        · rcases h3 with h3 | ⟨m, h3⟩ <;> rw [h1, h3] at e <;> cases e
      · intro hne e
        rcases h2 with h1 | ⟨n, h1⟩
        · exact hne h1
        · rcases h4 with h3 | ⟨m, h3⟩ <;> rw [h1, h3] at e <;> cases e

theorem unmergedInUnit_distinct (i : Nat) (u : CompUnit) (left : Bool) :
    (unmergedInUnit i u left).Pairwise Distinct := by
  show ((innerIds i u).map _).Pairwise Distinct
  rw [List.pairwise_map]
  refine (nodup_innerIds i u).imp fun {x y} h => ?_
  cases left <;> simp only [Distinct, if_true, Bool.false_eq_true, if_false, ne_eq, not_true_eq_false,
    false_implies, true_and, and_true] <;> intro _ e <;> exact h e

theorem mergedIds_distinct : (mergedIds c o ha hb a b).Pairwise Distinct := by
  unfold mergedIds
  rw [List.pairwise_flatMap]
  constructor
  · intro r hr
    obtain ⟨h1, h2, h3⟩ := unitMerge_sound c o a b hr
    rcases r with ⟨i, u⟩ | ⟨i, u⟩ | ⟨⟨i, u⟩, ⟨j, v⟩⟩
    · refine List.pairwise_cons.2 ⟨?_, unmergedInUnit_distinct i u true⟩
      rintro ⟨x, y⟩ h
      rw [mem_unmergedInUnit] at h
      have := ((mem_innerIds_iff a i u (h1 _ rfl).1 x).1 h.1).2.2
      exact ⟨fun _ e => this e.symm, fun h => absurd rfl h⟩
    · refine List.pairwise_cons.2 ⟨?_, unmergedInUnit_distinct i u false⟩
      rintro ⟨x, y⟩ h
      rw [mem_unmergedInUnit] at h
      have := ((mem_innerIds_iff b i u (h2 _ rfl).1 y).1 h.2).2.2
      exact ⟨fun h => absurd rfl h, fun _ e => this e.symm⟩
    · refine List.pairwise_cons.2 ⟨?_, mergedInUnit_distinct c o ha hb i j u v⟩
      rintro ⟨x, y⟩ h
      obtain ⟨hl, hr, -, -⟩ := mergedInUnit_sound c o ha hb a b (h1 _ rfl).1 (h2 _ rfl).1 h
      constructor
      · intro _ e
        rcases hl with rfl | hl
        · cases e
        · exact hl.2.2 e.symm
      · intro _ e
        rcases hr with rfl | hr
        · cases e
        · exact hr.2.2 e.symm
  · have hd := mergeIdx_distinct c.unit c.unit (enumFilterUnits a o) (enumFilterUnits b o)
      (enumFilter_distinct _ _) (enumFilter_distinct _ _)
    refine List.Pairwise.imp_of_mem ?_ hd
    rintro r r' hr hr' ⟨hd1, hd2⟩ ⟨x, y⟩ hx ⟨x', y'⟩ hx'
    obtain ⟨h1, h2, -, -⟩ := mergedUnit_sound c o ha hb a b hr hx
    obtain ⟨h1', h2', -, -⟩ := mergedUnit_sound c o ha hb a b hr' hx'
    constructor
    · intro hne e
      dsimp only at hne e
      subst e
      rcases h1 with h | ⟨_, e, he, hi⟩
      · exact hne h
      · rcases h1' with h | ⟨_, e', he', hi'⟩
        · exact hne h
        · rw [inUnit_iff] at hi hi'
          rw [hi] at hi'
          exact hd1 _ _ he he' (by simpa using hi')
    · intro hne e
      dsimp only at hne e
      subst e
      rcases h2 with h | ⟨_, e, he, hi⟩
      · exact hne h
      · rcases h2' with h | ⟨_, e', he', hi'⟩
        · exact hne h
        · rw [inUnit_iff] at hi hi'
          rw [hi] at hi'
          exact hd2 _ _ he he' (by simpa using hi')

theorem assignMerged_spec :
    (assignMerged c o ha hb a b).ids = mergedIds c o ha hb a b ∧
    (∀ n x, (mergedIds c o ha hb a b)[n]? = some x →
      (x.1 ≠ .none → (assignMerged c o ha hb a b).storeA x.1 = n) ∧
      (x.2 ≠ .none → (assignMerged c o ha hb a b).storeB x.2 = n)) ∧
    (∀ id, (∀ x ∈ mergedIds c o ha hb a b, x.1 ≠ id) → (assignMerged c o ha hb a b).storeA id = 0) ∧
    (∀ id, (∀ x ∈ mergedIds c o ha hb a b, x.2 ≠ id) → (assignMerged c o ha hb a b).storeB id = 0) := by
  have := recordPair_fold (mergedIds c o ha hb a b) {} (by simpa using mergedIds_distinct c o ha hb a b)
    (by simp)
  simpa [assignMerged] using this

/-- **C37 (two files, what the index holds).** Whatever the comparison functions: every entry of
the diff index names an item of the old file, of the new file, or one of each; the items it names
carry that position as their id, so ids resolve back and no two listed items of a file share one;
the two items of a pair are of the same sort, compare equal, and belong to units paired with each
other. -/
theorem C37_diff_ids :
    let s := assignMerged c o ha hb a b
    ∀ n x y, s.ids[n]? = some (x, y) →
      (x = .none ∨ ItemOf a x ∧ s.storeA x = n) ∧
      (y = .none ∨ ItemOf b y ∧ s.storeB y = n) ∧
      (x ≠ .none ∨ y ≠ .none) ∧
      (x ≠ .none → y ≠ .none → Matches c a b x y ∧
        ∀ i j, InUnit x i → InUnit y j → (Id.unit i, Id.unit j) ∈ s.ids) := by
  intro s n x y h
  obtain ⟨h1, h2, -, -⟩ := assignMerged_spec c o ha hb a b
  rw [show s.ids = mergedIds c o ha hb a b from h1] at h ⊢
  have h3 := h2 n _ h
  have hm := List.mem_of_getElem? h
  obtain ⟨r, hr, hm⟩ := List.mem_flatMap.1 hm
  obtain ⟨h4, h5, h6, h7⟩ := mergedUnit_sound c o ha hb a b hr hm
  have noneA : ∀ {z}, ItemOf a z → z ≠ .none := by rintro z (_ | _ | _ | _) <;> simp
  have noneB : ∀ {z}, ItemOf b z → z ≠ .none := by rintro z (_ | _ | _ | _) <;> simp
  refine ⟨h4.imp id fun h => ⟨h.1, h3.1 (noneA h.1)⟩, h5.imp id fun h => ⟨h.1, h3.2 (noneB h.1)⟩, h6,
    fun hx hy => ⟨h7 hx hy, fun i j hi hj => ?_⟩⟩
  obtain ⟨_, e, he, hei⟩ := h4.resolve_left hx
  obtain ⟨_, e', he', hei'⟩ := h5.resolve_left hy
  rw [inUnit_iff] at hi hj hei hei'
  rw [hi] at hei
  rw [hj] at hei'
  cases hei
  cases hei'
  refine List.mem_flatMap.2 ⟨r, hr, ?_⟩
  cases r <;> simp [oldItem, newItem] at he he'
  subst he; subst he'
  exact List.mem_cons_self

/-- **C37 (two files, nothing selected is missing).** Every selected unit of either file is in the
index. If it is unpaired, all its items are too, unpaired; if it is paired, all its selected items
are. Anything not in the index keeps the id 0 it was created with. -/
theorem C37_diff_ids_complete :
    let s := assignMerged c o ha hb a b
    (∀ i, WantedAt ha o a (.unit i) → ∃ y, (Id.unit i, y) ∈ s.ids ∧
      (y = .none → ∀ x, ItemOf a x → InUnit x i → (x, Id.none) ∈ s.ids) ∧
      (y ≠ .none → ∀ x, WantedAt ha o a x → InUnit x i → ∃ z, (x, z) ∈ s.ids)) ∧
    (∀ j, WantedAt hb o b (.unit j) → ∃ x, (x, Id.unit j) ∈ s.ids ∧
      (x = .none → ∀ y, ItemOf b y → InUnit y j → (Id.none, y) ∈ s.ids) ∧
      (x ≠ .none → ∀ y, WantedAt hb o b y → InUnit y j → ∃ z, (z, y) ∈ s.ids)) ∧
    (∀ x, (∀ y, (x, y) ∉ s.ids) → s.storeA x = 0) ∧
    (∀ y, (∀ x, (x, y) ∉ s.ids) → s.storeB y = 0) := by
  intro s
  obtain ⟨h1, h2, h3, h4⟩ := assignMerged_spec c o ha hb a b
  rw [show s.ids = mergedIds c o ha hb a b from h1]
  refine ⟨fun i hi => ?_, fun j hj => ?_, fun x hx => h3 x fun p hp e => hx p.2 (e ▸ hp),
    fun y hy => h4 y fun p hp e => hy p.1 (e ▸ hp)⟩
  · cases hi with
    | unit hu hw =>
      rename_i u
      obtain ⟨r, hr, he⟩ := mergeIdx_old c.unit c.unit (enumFilterUnits a o) (enumFilterUnits b o)
        ((enumFilter_mem _ _ _ _).2 ⟨hu, (okUnit_iff o _).2 hw⟩)
      obtain ⟨hs1, hs2, hs3⟩ := unitMerge_sound c o a b hr
      cases r with
      | right e => simp [oldItem] at he
      | left e =>
        simp only [oldItem, Option.some.injEq] at he
        subst he
        refine ⟨.none, List.mem_flatMap.2 ⟨_, hr, List.mem_cons_self⟩, fun _ x hx hxi => ?_,
          fun h => absurd rfl h⟩
        refine List.mem_flatMap.2 ⟨_, hr, ?_⟩
        by_cases hne : x = .unit i
        · subst hne; exact List.mem_cons_self
        · refine List.mem_cons_of_mem _ ((mem_unmergedInUnit _ _ _ _ _).2 ?_)
          exact ⟨(mem_innerIds_iff a i u hu x).2 ⟨hx, hxi, hne⟩, rfl⟩
      | both e e' =>
        simp only [oldItem, Option.some.injEq] at he
        subst he
        refine ⟨.unit e'.1, List.mem_flatMap.2 ⟨_, hr, List.mem_cons_self⟩, fun h => (by cases h),
          fun _ x hx hxi => ?_⟩
        by_cases hne : x = .unit i
        · subst hne
          exact ⟨_, List.mem_flatMap.2 ⟨_, hr, List.mem_cons_self⟩⟩
        · obtain ⟨y, hy⟩ := mergedInUnit_completeA c o ha hb a (ib := e'.1) (ub := e'.2) hu hx hxi hne
          exact ⟨y, List.mem_flatMap.2 ⟨_, hr, List.mem_cons_of_mem _ hy⟩⟩
  · cases hj with
    | unit hu hw =>
      rename_i u
      obtain ⟨r, hr, he⟩ := mergeIdx_new c.unit c.unit (enumFilterUnits a o) (enumFilterUnits b o)
        ((enumFilter_mem _ _ _ _).2 ⟨hu, (okUnit_iff o _).2 hw⟩)
      obtain ⟨hs1, hs2, hs3⟩ := unitMerge_sound c o a b hr
      cases r with
      | left e => simp [newItem] at he
      | right e =>
        simp only [newItem, Option.some.injEq] at he
        subst he
        refine ⟨.none, List.mem_flatMap.2 ⟨_, hr, List.mem_cons_self⟩, fun _ x hx hxi => ?_,
          fun h => absurd rfl h⟩
        refine List.mem_flatMap.2 ⟨_, hr, ?_⟩
        by_cases hne : x = .unit j
        · subst hne; exact List.mem_cons_self
        · refine List.mem_cons_of_mem _ ((mem_unmergedInUnit _ _ _ _ _).2 ?_)
          exact ⟨rfl, (mem_innerIds_iff b j u hu x).2 ⟨hx, hxi, hne⟩⟩
      | both e e' =>
        simp only [newItem, Option.some.injEq] at he
        subst he
        refine ⟨.unit e.1, List.mem_flatMap.2 ⟨_, hr, List.mem_cons_self⟩, fun h => (by cases h),
          fun _ x hx hxi => ?_⟩
        by_cases hne : x = .unit j
        · subst hne
          exact ⟨_, List.mem_flatMap.2 ⟨_, hr, List.mem_cons_self⟩⟩
        · obtain ⟨y, hy⟩ := mergedInUnit_completeB c o ha hb b (ia := e.1) (ua := e.2) hu hx hxi hne
          exact ⟨y, List.mem_flatMap.2 ⟨_, hr, List.mem_cons_of_mem _ hy⟩⟩

/-- Kinds that print on their own, and equal kinds. -/
theorem diffable_of {s t : Ty} (hs : printable s = true) (hk : s.discr = t.discr) : diffable s t = true := by
  cases s <;> cases t <;> simp_all [printable, diffable, Ty.discr]

theorem printable_of_wanted {h : Hash} {u : CompUnit} {o : Options} {t : TypeEntry}
    (hw : WantedType h u o true t) : printable t.kind = true := by
  obtain ⟨⟨n, ns, hl, _⟩, _⟩ := hw
  cases t with
  | mk off k => cases hl <;> rfl

/-- **C37 (display by id, two files).** If types that compare equal are of the same kind: asking
for a position of the index displays the difference of its two items, or the one item it names if
only one file has it (nothing for a type without a display of its own); a position outside the
index panics. -/
theorem C37_diff_id (hk : ∀ s t : TypeEntry, c.type (.inl s) (.inr t) = .eq → s.kind.discr = t.kind.discr) :
    let ids := (assignMerged c o ha hb a b).ids
    (∀ n x y, ids[n]? = some (x, y) →
      (y = .none → ∃ s, item a x = some s ∧
        diffId a b ids n = if canPrint s then .onlyA s else .nothing) ∧
      (x = .none → ∃ t, item b y = some t ∧
        diffId a b ids n = if canPrint t then .onlyB t else .nothing) ∧
      (x ≠ .none → y ≠ .none → ∃ s t, item a x = some s ∧ item b y = some t ∧
        diffId a b ids n = .diff s t)) ∧
    (∀ n, ids.length ≤ n → diffId a b ids n = .panic) := by
  intro ids
  refine ⟨fun n x y h => ?_, fun n hn => by simp [diffId, List.getElem?_eq_none hn]⟩
  obtain ⟨h1, h2, h3, h4⟩ := C37_diff_ids c o ha hb a b n x y h
  refine ⟨?_, ?_, ?_⟩
  · rintro rfl
    have hx : x ≠ .none := h3.resolve_right (fun h => h rfl)
    obtain ⟨s, hs⟩ := (item_iff a x).2 (h1.resolve_left hx).1
    refine ⟨s, hs, ?_⟩
    have hx' : (x = .none) = False := by simp [hx]
    unfold diffId
    rw [h]
    cases x with
    | none => exact absurd rfl hx
    | _ => simp [hs]
  · rintro rfl
    have hy : y ≠ .none := h3.resolve_left (fun h => h rfl)
    obtain ⟨s, hs⟩ := (item_iff b y).2 (h2.resolve_left hy).1
    refine ⟨s, hs, ?_⟩
    unfold diffId
    rw [h]
    cases y with
    | none => exact absurd rfl hy
    | _ => simp [hs]
  · intro hx hy
    obtain ⟨hm, _⟩ := h4 hx hy
    -- the pair comes from a merge, so both types are selected
    have hsel : ∀ i j k l, x = .type i k → y = .type j l →
        ∃ u v s t, a[i]? = some u ∧ b[j]? = some v ∧ u.types[k]? = some s ∧ v.types[l]? = some t ∧
          printable s.kind = true := by
      rintro i j k l rfl rfl
      have hmem := List.mem_of_getElem? h
      rw [show ids = mergedIds c o ha hb a b from (assignMerged_spec c o ha hb a b).1] at hmem
      obtain ⟨r, hr, hmem⟩ := List.mem_flatMap.1 hmem
      obtain ⟨hs1, hs2, hs3⟩ := unitMerge_sound c o a b hr
      rcases r with ⟨i', u⟩ | ⟨i', u⟩ | ⟨⟨i', u⟩, ⟨j', v⟩⟩
      · rcases List.mem_cons.1 hmem with h | h
        · cases h
        · rw [mem_unmergedInUnit] at h; cases h.2
      · rcases List.mem_cons.1 hmem with h | h
        · cases h
        · rw [mem_unmergedInUnit] at h; cases h.1
      · rcases List.mem_cons.1 hmem with h | h
        · cases h
        · obtain ⟨hl, hr, -, -⟩ := mergedInUnit_sound c o ha hb a b (hs1 _ rfl).1 (hs2 _ rfl).1 h
          have hl := hl.resolve_left (by simp)
          have hr := hr.resolve_left (by simp)
          obtain ⟨hl, -, -⟩ := hl
          obtain ⟨hr, -, -⟩ := hr
          cases hl with
          | type e1 e2 e3 =>
            cases hr with
            | type e4 e5 e6 => exact ⟨_, _, _, _, e1, e4, e2, e5, printable_of_wanted e3⟩
    cases hm with
    | unit hu hv _ =>
      refine ⟨_, _, by simp [item, hu]; rfl, by simp [item, hv]; rfl, ?_⟩
      unfold diffId; rw [h]; simp [item, hu, hv, canDiff]
    | type hu hv hs ht he =>
      refine ⟨_, _, by simp [item, hu, hs]; rfl, by simp [item, hv, ht]; rfl, ?_⟩
      obtain ⟨u', v', s', t', e1, e2, e3, e4, e5⟩ := hsel _ _ _ _ rfl rfl
      rw [hu] at e1; cases e1
      rw [hs] at e3; cases e3
      unfold diffId; rw [h]
      simp [item, hu, hv, hs, ht, canDiff, diffable_of e5 (hk _ _ he)]
    | function hu hv hs ht _ =>
      refine ⟨_, _, by simp [item, hu, hs]; rfl, by simp [item, hv, ht]; rfl, ?_⟩
      unfold diffId; rw [h]; simp [item, hu, hv, hs, ht, canDiff]
    | var hu hv hs ht _ =>
      refine ⟨_, _, by simp [item, hu, hs]; rfl, by simp [item, hv, ht]; rfl, ?_⟩
      unfold diffId; rw [h]; simp [item, hu, hv, hs, ht, canDiff]

end

/-- **C37 (the full claim fails).** In diff mode an id outside the index panics instead of giving
no output. -/
theorem C37_diff_out_of_range_panics : ∃ (a b : List CompUnit) (ids : List (Id × Id)) (n : Nat),
    diffId a b ids n = .panic := ⟨[], [], [], 0, rfl⟩

/-- All comparisons by name, as an example of comparison functions. -/
def exampleCmps : Cmps :=
  let side := fun {α β : Type} (f : α → β) (x : Sided α) => Sum.elim f f x
  let u := fun (x y : Sided CompUnit) => compare ((side CompUnit.name x).getD []) ((side CompUnit.name y).getD [])
  let t := fun (x y : Sided TypeEntry) =>
    compare (side (fun e : TypeEntry => e.kind.discr) x) (side (fun e : TypeEntry => e.kind.discr) y)
  let f := fun (x y : Sided Function) => compare ((side Function.name x).getD []) ((side Function.name y).getD [])
  let v := fun (x y : Sided Variable) => compare ((side Variable.name x).getD []) ((side Variable.name y).getD [])
  ⟨u, t, t, f, f, v, v⟩

/-- Non-vacuity: an old file with units `a`, `b`, a new one with `b`, `c`; functions paired by
name, one unselected (neither placed nor inline) function without an entry. -/
example :
    let n := fun s => some (Str.ofString s)
    let a : List CompUnit := [{ name := n "a" }, { name := n "b", functions :=
      [{ name := n "f", inline := true }, { name := n "h" }] }]
    let b : List CompUnit := [{ name := n "b", functions := [{ name := n "g", inline := true },
      { name := n "f", address := some 1, size := some 1 }] }, { name := n "c" }]
    let h : Hash := ⟨fun _ => none, fun _ => none⟩
    let s := assignMerged exampleCmps {} h h a b
    s.ids = [(.unit 0, .none), (.unit 1, .unit 0), (.function 1 0, .function 0 1),
      (.none, .function 0 0), (.none, .unit 1)] ∧
    s.storeA (.function 1 0) = 2 ∧ s.storeB (.function 0 1) = 2 ∧
    -- the unlisted function has the same id as the first unit
    s.storeA (.function 1 1) = 0 ∧ s.storeA (.unit 0) = 0 := by decide +kernel

/-- The hypothesis of `C37_diff_id` is met by the example. -/
example : ∀ s t : TypeEntry, exampleCmps.type (.inl s) (.inr t) = .eq → s.kind.discr = t.kind.discr := by
  intro s t h
  exact Nat.compare_eq_eq.1 h

end Verif.Ids
