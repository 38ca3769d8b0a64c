import Verif.Filter.Spec
import Verif.Namespace.Props
/-!
# Property theorems: C30 (filters)
-/
namespace Verif.Filter
open Verif.Item Verif.Opts Verif.Types Verif.Namespace

theorem selects_filter {α : Type} {P : α → Prop} {p : α → Bool} (h : ∀ a, p a = true ↔ P a)
    (l : List α) : Selects (fun a b => b = a ∧ P a) l (l.filter p) := by
  induction l with
  | nil => exact .nil
  | cons a l ih =>
    by_cases hp : p a = true
    · rw [List.filter_cons_of_pos hp]; exact .take ⟨rfl, (h a).1 hp⟩ ih
    · rw [List.filter_cons_of_neg hp]; exact .skip (fun b hb => hp ((h a).2 hb.2)) ih

/-- Numbered selection: each selected element with its position in the whole list. -/
theorem selects_enumFilter {α : Type} {P : α → Prop} {p : α → Bool} (h : ∀ a, p a = true ↔ P a)
    (l : List α) : Selects (fun a b => b = (a.2, a.1) ∧ P a.1) l.zipIdx (enumFilter p l) := by
  unfold enumFilter
  generalize l.zipIdx = z
  induction z with
  | nil => exact .nil
  | cons a z ih =>
    simp only [List.map_cons]
    by_cases hp : p a.1 = true
    · rw [List.filter_cons_of_pos (by simpa using hp)]; exact .take ⟨rfl, (h _).1 hp⟩ ih
    · rw [List.filter_cons_of_neg (by simpa using hp)]; exact .skip (fun b hb => hp ((h _).2 hb.2)) ih

theorem prefixLoop_mapsTo (l : List (Str × Str)) (n m : Str) :
    (prefixLoop n l).1 ++ (prefixLoop n l).2 = m ↔ MapsTo l n m := by
  induction l with
  | nil => 
    simp only [prefixLoop, List.nil_append]
    constructor
    · rintro rfl; exact .none
    · intro h; cases h; rfl
  | cons p l ih =>
    obtain ⟨old, new⟩ := p
    by_cases h : old.isPrefixOf n = true
    · obtain ⟨r, rfl⟩ := List.isPrefixOf_iff_prefix.1 h
      simp only [prefixLoop, h, if_true, List.drop_left]
      constructor
      · rintro rfl; exact .hit
      · intro hm
        generalize hn : old ++ r = n at hm
        cases hm with
        | hit => rw [List.append_cancel_left hn]
        | miss hno _ => exact absurd hn.symm (hno r)
    · simp only [prefixLoop, h]
      rw [if_neg (by simp), ih]
      constructor
      · intro hm
        exact .miss (fun r hr => h (List.isPrefixOf_iff_prefix.2 ⟨r, hr.symm⟩)) hm
      · intro hm
        cases hm with
        | hit => exact absurd (List.isPrefixOf_iff_prefix.2 ⟨_, rfl⟩) h
        | miss _ hm => exact hm

theorem okUnit_iff (o : Options) (u : CompUnit) : okUnit o u = true ↔ WantedUnit o u := by
  unfold okUnit WantedUnit
  cases o.filterUnit with
  | none => simp
  | some f =>
    simp only [Options.mapPrefix, beq_iff_eq, Std.LawfulEqOrd.compare_eq_iff_eq, Option.some.injEq,
      forall_eq']
    exact prefixLoop_mapsTo _ _ _

theorem okName_iff (o : Options) (n : Option Str) : o.okName n = true ↔ NameOk o n := by
  unfold Options.okName NameOk
  cases o.filterName with
  | none => simp
  | some f =>
    simp only [Option.isNone_some, Bool.false_or, beq_iff_eq, Option.some.injEq, forall_eq']
    exact eq_comm

theorem okInline_iff (o : Options) (b : Bool) : o.okInline b = true ↔ InlineOk o b := by
  unfold Options.okInline InlineOk
  cases o.filterFunctionInline with
  | none => simp
  | some f =>
    simp only [Option.isNone_some, Bool.false_or, beq_iff_eq, Option.some.injEq, forall_eq']
    exact eq_comm

theorem okNamespace_iff (o : Options) (ns : Option Namespace) :
    o.okNamespace ns = true ↔ NamespaceOk o ns := by
  unfold Options.okNamespace NamespaceOk
  cases hf : o.filterNamespace with
  | nil => simp
  | cons a l =>
    cases ns with
    | none => simp
    | some n => 
      have := Namespace.C08_isWithin_iff_prefix n (a :: l)
      simpa using this

/-- **C30 (units).** The units listed are, in file order and each once, those whose name — after
prefix mapping — is the one asked for, if one was. -/
theorem C30_units (us : List CompUnit) (o : Options) :
    Selects (fun a b => b = a ∧ WantedUnit o a) us (filterUnits us o) :=
  selects_filter (okUnit_iff o) us

theorem okFunction_iff (o : Options) (f : Function) :
    okFunction o f = true ↔ WantedFunction o f := by
  unfold okFunction WantedFunction
  rw [← okName_iff, ← okNamespace_iff, ← okInline_iff]
  cases f.inline <;> cases f.address <;> cases f.size <;> simp [and_assoc]

/-- **C30 (functions).** The functions listed are, in unit order and each once, those that are
inline or have both an address and a size, and that pass each of the name, namespace and inline
filters given. -/
theorem C30_functions (u : CompUnit) (o : Options) :
    Selects (fun a b => b = a ∧ WantedFunction o a) u.functions (filterFunctions u o) :=
  selects_filter (okFunction_iff o) _

theorem okVariable_iff (o : Options) (v : Variable) :
    okVariable o v = true ↔ WantedVariable o v := by
  unfold okVariable WantedVariable
  rw [← okName_iff, ← okNamespace_iff]
  cases v.declaration <;> cases v.address <;> simp

/-- **C30 (variables).** The variables listed are, in unit order and each once, those that are
declarations or have an address, and that pass the name and namespace filters given. -/
theorem C30_variables (u : CompUnit) (o : Options) :
    Selects (fun a b => b = a ∧ WantedVariable o a) u.variables (filterVariables u o) :=
  selects_filter (okVariable_iff o) _

theorem isAnon_iff (t : Ty) : t.isAnon = true ↔ Anonymous t := by
  cases t with
  | struct_ ns n s ms vs is =>
    have := Namespace.C62_isAnonType_iff ns
    constructor
    · intro h
      simp only [Ty.isAnon, Bool.or_eq_true, Option.isNone_iff_eq_none] at h
      exact .struct (h.imp id this.1)
    · rintro ⟨h⟩
      simp only [Ty.isAnon, Bool.or_eq_true, Option.isNone_iff_eq_none]
      exact h.imp id this.2
  | union_ ns n s ms =>
    have := Namespace.C62_isAnonType_iff ns
    constructor
    · intro h
      simp only [Ty.isAnon, Bool.or_eq_true, Option.isNone_iff_eq_none] at h
      exact .union (h.imp id this.1)
    · intro h
      cases h with | union h =>
      simp only [Ty.isAnon, Bool.or_eq_true, Option.isNone_iff_eq_none]
      exact h.imp id this.2
  | _ => exact ⟨fun h => by simp [Ty.isAnon] at h, fun h => by cases h⟩

theorem memberInline_iff (h : Hash) (m : Member) :
    memberInline h m = true ↔ ShownInPlace h m := by
  unfold memberInline ShownInPlace
  simp only [← isAnon_iff]
  cases m.name with
  | none => simp
  | some s =>
    simp only
    by_cases hp : (k "RUST$ENCODED$ENUM$").isPrefixOf s = true
    · obtain ⟨r, rfl⟩ := List.isPrefixOf_iff_prefix.1 hp
      simp only [hp, if_true, true_iff]
      exact .inr (.inl ⟨r, rfl⟩)
    · rw [if_neg hp]
      have : ¬ ∃ r, some s = some (k "RUST$ENCODED$ENUM$" ++ r) := by
        rintro ⟨r, hr⟩
        exact hp (List.isPrefixOf_iff_prefix.2 ⟨r, by simpa using hr.symm⟩)
      cases hf : fromOffset h m.ty <;> simp_all

theorem memberOf_iff (m : Member) (t : Ty) : MemberOf m t ↔ m ∈ t.members := by
  cases t with
  | struct_ => exact ⟨fun h => by cases h; assumption, .struct⟩
  | union_ => exact ⟨fun h => by cases h; assumption, .union⟩
  | _ => exact ⟨(fun h => by cases h), (fun h => by cases h)⟩

theorem mem_inlineTypes (h : Hash) (u : CompUnit) (off : Nat) :
    some off ∈ inlineTypes h u ↔ Nested h u off := by
  unfold inlineTypes Nested
  simp only [← isAnon_iff, memberOf_iff]
  simp only [List.mem_flatMap, List.mem_append, List.mem_filterMap]
  constructor
  · rintro ⟨t, ht, h1 | ⟨m, hm, h2⟩⟩
    · left
      split at h1
      · rename_i hc
        simp at h1 hc
        exact ⟨t, ht, h1.symm, hc.1⟩
      · cases h1
    · right
      split at h2
      · rename_i hc
        simp at h2 hc
        exact ⟨t, ht, m, hm, h2, (memberInline_iff h m).1 hc.1⟩
      · cases h2
  · rintro (⟨t, ht, h1, h2⟩ | ⟨t, ht, m, hm, h1, h2⟩)
    · refine ⟨t, ht, .inl ?_⟩
      simp [h1, h2]
    · refine ⟨t, ht, .inr ⟨m, hm, ?_⟩⟩
      simp [h1, (memberInline_iff h m).2 h2]

theorem okType_iff (h : Hash) (u : CompUnit) (o : Options) (diff : Bool) (t : TypeEntry) :
    okType o diff (inlineTypes h u) t = true ↔ WantedType h u o diff t := by
  have hoff : (t.offset.isSome && !(inlineTypes h u).contains t.offset) = true ↔
      ∃ off, t.offset = some off ∧ ¬ Nested h u off := by
    cases ho : t.offset with
    | none => simp
    | some off => simp [← mem_inlineTypes]
  have he : okType o diff (inlineTypes h u) t = true ↔ okTypeOptions o t.kind = true ∧
      okTypeKind diff t.kind = true ∧
      (t.offset.isSome && !(inlineTypes h u).contains t.offset) = true := by
    unfold okType
    cases okTypeOptions o t.kind <;> cases okTypeKind diff t.kind <;> simp
  rw [he, hoff, ← and_assoc]
  unfold WantedType
  rw [← and_assoc]
  refine and_congr ?_ Iff.rfl
  have hlist : ∀ (P : Option Str → Option Namespace → Prop) (name ns),
      Listed t.kind name ns → ((∃ n s, Listed t.kind n s ∧ P n s) ↔ P name ns) := by
    intro P name ns hl
    refine ⟨?_, fun hp => ⟨_, _, hl, hp⟩⟩
    rintro ⟨n, s, hl', hp⟩
    generalize t.kind = kd at hl hl'
    cases hl <;> cases hl' <;> exact hp
  have hnone : (∀ n s, ¬ Listed t.kind n s) → ¬ ∃ n s, Listed t.kind n s ∧ NameOk o n ∧
      NamespaceOk o s := fun hh ⟨n, s, hl, _⟩ => hh n s hl
  cases hk : t.kind with
  | base n s =>
    rw [hk] at hlist
    rw [hlist _ _ _ .base, ← okName_iff, ← okNamespace_iff]
    simp [okTypeOptions, okTypeKind]
  | def_ ns n ty =>
    rw [hk] at hlist
    rw [hlist _ _ _ .typedef, ← okName_iff, ← okNamespace_iff]
    simp [okTypeOptions, okTypeKind]
  | struct_ ns n s ms vs is =>
    rw [hk] at hlist
    rw [hlist _ _ _ .struct, ← okName_iff, ← okNamespace_iff]
    simp only [okTypeOptions, okTypeKind, Bool.and_eq_true]
    cases diff <;> simp
  | union_ ns n s ms =>
    rw [hk] at hlist
    rw [hlist _ _ _ .union, ← okName_iff, ← okNamespace_iff]
    simp [okTypeOptions, okTypeKind]
  | enum_ ns n ty s =>
    rw [hk] at hlist
    rw [hlist _ _ _ .enum, ← okName_iff, ← okNamespace_iff]
    simp [okTypeOptions, okTypeKind]
  | _ =>
    rw [hk] at hnone
    have := hnone (fun n s hl => by cases hl)
    simp only [this, false_and, iff_false]
    simp [okTypeKind]

/-- **C30 (types).** The types listed are, in unit order and each once, the base types, typedefs,
structs, unions and enums that pass the name and namespace filters given (a base type is in no
namespace), are not shown nested in another type of the unit, and — when comparing two files —
are not closures. -/
theorem C30_types (h : Hash) (u : CompUnit) (o : Options) (diff : Bool) :
    Selects (fun a b => b = a ∧ WantedType h u o diff a) u.types (filterTypes h u o diff) :=
  selects_filter (okType_iff h u o diff) _

/-- **C30 (numbered).** The numbered lists used to assign ids select the same items, each numbered
with its position among all items of the unit (or file). -/
theorem C30_enumerated (us : List CompUnit) (h : Hash) (u : CompUnit) (o : Options) (diff : Bool) :
    Selects (fun a b => b = (a.2, a.1) ∧ WantedUnit o a.1) us.zipIdx (enumFilterUnits us o) ∧
    Selects (fun a b => b = (a.2, a.1) ∧ WantedType h u o diff a.1) u.types.zipIdx
      (enumFilterTypes h u o diff) ∧
    Selects (fun a b => b = (a.2, a.1) ∧ WantedFunction o a.1) u.functions.zipIdx
      (enumFilterFunctions u o) ∧
    Selects (fun a b => b = (a.2, a.1) ∧ WantedVariable o a.1) u.variables.zipIdx
      (enumFilterVariables u o) :=
  ⟨selects_enumFilter (okUnit_iff o) _, selects_enumFilter (okType_iff h u o diff) _,
    selects_enumFilter (okFunction_iff o) _, selects_enumFilter (okVariable_iff o) _⟩

/-- Non-vacuity of C30: of three functions, one unplaced, one in another namespace. -/
example :
    let o : Options := { filterName := some (k "f"), filterNamespace := [k "a"]
                         filterUnit := some (k "/new/x.c"), prefixMap := [(k "/old", k "/new")] }
    let ns : Option Namespace := some (.child (.root (some (k "a")) .namespace_) (some (k "b")) .type)
    let good : Function := { name := some (k "f"), ns := ns, address := some 1, size := some 2 }
    let fs : List Function := [{ name := some (k "f"), ns := ns }, good, { good with ns := none },
      { good with inline := true }]
    let u : CompUnit := { name := some (k "/old/x.c"), functions := fs }
    filterUnits [u, {}] o = [u] ∧
    filterFunctions u o = [good, { good with inline := true }] ∧
    enumFilterFunctions u { o with filterFunctionInline := some true } =
      [(3, { good with inline := true })] := by decide +kernel

/-- Non-vacuity of C30 for types: the anonymous member's type and the closure are not listed. -/
example :
    let anon : Ty := .struct_ none none .none [] [] []
    let h : Hash := ⟨fun _ => none, fun _ => none⟩
    let outer : Ty := .struct_ none (some (k "s")) .none
      [⟨1, none, some 20, 0, .none⟩, ⟨2, some (k "m"), some 30, 0, .none⟩] [] []
    let ts : List TypeEntry := [⟨some 10, outer⟩, ⟨some 20, .base (some (k "int")) .none⟩,
      ⟨some 25, anon⟩, ⟨some 30, .base (some (k "int")) .none⟩,
      ⟨some 40, .struct_ none (some (k "closure")) .none [] [] []⟩]
    let u : CompUnit := { types := ts }
    (filterTypes h u {} true).map (·.offset) = [some 10, some 30] ∧
    (filterTypes h u {} false).map (·.offset) = [some 10, some 30, some 40] := by decide +kernel

end Verif.Filter
