import Verif.Dwarf.AttrLemmas
/-!
# C17, C57, C72: what the records say is what the attributes say
-/
namespace Verif.Dwarf
open Verif.Item Verif.Types Verif.Namespace Verif.Range Verif.Sentinel

/-! ### C72: records and attributes -/

/-- One step of an attribute loop, looked at through one field: each case of the attribute and of its
value is immediate. -/
local macro "attr_cases" a:ident v:ident h:ident : tactic =>
  `(tactic| (cases $a:ident <;> first
      | exact absurd rfl $h
      | rfl
      | (cases $v:ident <;> first | rfl | (dsimp only [subAttr, varAttr, paramAttr, memberAttr]; split <;> first | rfl | (split <;> rfl)))))

/-- **C72** (functions). Before a specification is consulted, every field of a function's record is
what the entry's attributes say, whatever their order. -/
theorem C72_function (lowPc : Option Nat) (ns : Option Namespace) (d : Die) :
    let f := ownFunction lowPc ns d
    f.offset = some d.offset ∧ f.ns = ns ∧ f.name = d.strAttr .name ∧ f.linkageName = d.strAttr .linkageName ∧
      SourceSays d f.source ∧ f.inline = (d.lastOf .inline Val.isInline).getD false ∧
      f.declaration = (d.lastOf .declaration Val.isFlag).getD false ∧ f.returnType = d.lastOf .type Val.offset ∧
      f.parameters = [] ∧ f.symbolName = none := by
  have key : ∀ {β : Type} (g : Function → β), (∀ f : Function, ∀ (a s : Option Nat) (r : List Range),
      g { f with address := a, size := s, ranges := r } = g f) →
      g (ownFunction lowPc ns d) = g (subState lowPc ns d).function := by
    intro β g hg
    unfold ownFunction subRanges
    split
    · exact hg _ _ _ _
    · split
      · split
        · split
          · exact hg (subState lowPc ns d).function (subState lowPc ns d).function.address _ _
          · rfl
        · split
          · exact hg (subState lowPc ns d).function (subState lowPc ns d).function.address _ _
          · rfl
      · rfl
  have const : ∀ {β : Type} (g : SubState → β), (∀ s av, g (subAttr lowPc s av) = g s) →
      g (subState lowPc ns d) = g { function := { offset := some d.offset, ns := ns } } := by
    intro β g hg
    unfold subState
    rw [foldl_lastBy (subAttr lowPc) g (fun _ => none) (fun s av => hg s av)]
    have : List.filterMap (fun _ : At × Val => (none : Option β)) d.attrs = [] := by simp
    rw [this]; rfl
  simp only
  refine ⟨?_, ?_, ?_, ?_, ?_, ?_, ?_, ?_, ?_, ?_⟩
  · rw [key (·.offset) fun _ _ _ _ => rfl, const (·.function.offset)]
    rintro s ⟨a, v⟩; cases a <;> first | rfl | (cases v <;> first | rfl | (dsimp only [subAttr]; split <;> first | rfl | (split <;> rfl)))
  · rw [key (·.ns) fun _ _ _ _ => rfl, const (·.function.ns)]
    rintro s ⟨a, v⟩; cases a <;> first | rfl | (cases v <;> first | rfl | (dsimp only [subAttr]; split <;> first | rfl | (split <;> rfl)))
  · rw [key (·.name) fun _ _ _ _ => rfl]
    exact foldl_last (subAttr lowPc) (·.function.name) .name Val.str (fun s v => rfl)
      (fun s a v h => by attr_cases a v h) d _ rfl
  · rw [key (·.linkageName) fun _ _ _ _ => rfl]
    exact foldl_last (subAttr lowPc) (·.function.linkageName) .linkageName Val.str (fun s v => rfl)
      (fun s a v h => by attr_cases a v h) d _ rfl
  · have h := foldl_source (subAttr lowPc) (·.function.source)
      (fun s av => by obtain ⟨a, v⟩ := av; cases a <;> first | rfl | (cases v <;> first | rfl | (dsimp only [subAttr]; split <;> first | rfl | (split <;> rfl))))
      d { function := { offset := some d.offset, ns := ns } } rfl
    rw [key (·.source) fun _ _ _ _ => rfl]
    exact h
  · rw [key (·.inline) fun _ _ _ _ => rfl]
    exact foldl_lastOf (subAttr lowPc) (·.function.inline) .inline Val.isInline (fun s v => by cases v <;> rfl)
      (fun s a v h => by attr_cases a v h) d _
  · rw [key (·.declaration) fun _ _ _ _ => rfl]
    exact foldl_lastOf (subAttr lowPc) (·.function.declaration) .declaration Val.isFlag (fun s v => by cases v <;> rfl)
      (fun s a v h => by attr_cases a v h) d _
  · rw [key (·.returnType) fun _ _ _ _ => rfl]
    exact foldl_lastSome (subAttr lowPc) (·.function.returnType) .type Val.offset (fun s v => by cases v <;> rfl)
      (fun s a v h => by attr_cases a v h) d _ rfl
  · rw [key (·.parameters) fun _ _ _ _ => rfl, const (·.function.parameters)]
    rintro s ⟨a, v⟩; cases a <;> first | rfl | (cases v <;> first | rfl | (dsimp only [subAttr]; split <;> first | rfl | (split <;> rfl)))
  · rw [key (·.symbolName) fun _ _ _ _ => rfl, const (·.function.symbolName)]
    rintro s ⟨a, v⟩; cases a <;> first | rfl | (cases v <;> first | rfl | (dsimp only [subAttr]; split <;> first | rfl | (split <;> rfl)))

/-- The size an attribute gives. -/
theorem sizeAttr_eq (old : Size) (v : Val) : sizeAttr old v = (v.udataValue.map Opt64.new).getD old := by
  unfold sizeAttr; cases v.udataValue <;> rfl

theorem variableLocation_eq (ps : List (Option Nat × Option Nat)) (ops : List Oper) :
    (variableLocation ps).map (·.1) = (Val.exprloc ps ops).fixedAddress ∧
    (variableLocation ps).bind (·.2) = (Val.exprloc ps ops).fixedSize := by
  induction ps with
  | nil => exact ⟨rfl, rfl⟩
  | cons p ps ih =>
    obtain ⟨a, bits⟩ := p
    cases a with
    | none =>
      simp only [variableLocation, Val.fixedAddress, Val.fixedSize, Val.firstFixed] at ih ⊢
      rw [List.filterMap_cons_none (by rfl)]
      exact ih
    | some a =>
      simp only [variableLocation, Val.fixedAddress, Val.fixedSize, Val.firstFixed]
      rw [List.filterMap_cons_some (b := (a, bits)) (by rfl)]
      simp only [List.head?_cons, Option.map_some, Option.bind_some, optNew]
      exact ⟨trivial, trivial⟩

/-- **C72** (variables). Before a specification is consulted, every field of a variable's record is
what the entry's attributes say. -/
theorem C72_variable (ns : Option Namespace) (d : Die) :
    let v := (ownVariable ns d).1
    v.offset = some d.offset ∧ v.ns = ns ∧ v.name = d.strAttr .name ∧ v.linkageName = d.strAttr .linkageName ∧
      SourceSays d v.source ∧ v.declaration = (d.lastOf .declaration Val.isFlag).getD false ∧
      v.ty = d.lastOf .type Val.offset ∧ v.address = (d.lastOf .location Val.fixedAddress).getD none ∧
      v.size = d.lastOf .location Val.fixedSize ∧ v.symbolName = none := by
  have const : ∀ {β : Type} (g : Variable × Option Nat → β), (∀ s av, g (varAttr s av) = g s) →
      g (ownVariable ns d) = g ({ offset := some d.offset, ns := ns }, none) := by
    intro β g hg
    unfold ownVariable
    rw [foldl_lastBy varAttr g (fun _ => none) (fun s av => hg s av)]
    have : List.filterMap (fun _ : At × Val => (none : Option β)) d.attrs = [] := by simp
    rw [this]; rfl
  simp only
  refine ⟨?_, ?_, ?_, ?_, ?_, ?_, ?_, ?_, ?_, ?_⟩
  · rw [const (·.1.offset)]
    rintro s ⟨a, v⟩; cases a <;> first | rfl | (cases v <;> first | rfl | (dsimp only [varAttr]; split <;> rfl))
  · rw [const (·.1.ns)]
    rintro s ⟨a, v⟩; cases a <;> first | rfl | (cases v <;> first | rfl | (dsimp only [varAttr]; split <;> rfl))
  · exact foldl_last varAttr (·.1.name) .name Val.str (fun s v => rfl) (fun s a v h => by attr_cases a v h) d _ rfl
  · exact foldl_last varAttr (·.1.linkageName) .linkageName Val.str (fun s v => rfl) (fun s a v h => by attr_cases a v h) d _ rfl
  · exact foldl_source varAttr (·.1.source)
      (fun s av => by obtain ⟨a, v⟩ := av; cases a <;> first | rfl | (cases v <;> first | rfl | (dsimp only [varAttr]; split <;> rfl)))
      d _ rfl
  · exact foldl_lastOf varAttr (·.1.declaration) .declaration Val.isFlag (fun s v => by cases v <;> rfl)
      (fun s a v h => by attr_cases a v h) d _
  · exact foldl_lastSome varAttr (·.1.ty) .type Val.offset (fun s v => by cases v <;> rfl)
      (fun s a v h => by attr_cases a v h) d _ rfl
  · refine foldl_lastOf varAttr (·.1.address) .location Val.fixedAddress (fun s v => ?_)
      (fun s a v h => by attr_cases a v h) d _
    cases v <;> try rfl
    next ps ops =>
      rw [← (variableLocation_eq ps ops).1]
      simp only [varAttr]
      cases variableLocation ps <;> rfl
  · refine foldl_lastSome varAttr (·.1.size) .location Val.fixedSize (fun s v => ?_)
      (fun s a v h => by attr_cases a v h) d _ rfl
    cases v <;> try rfl
    next ps ops =>
      rw [← (variableLocation_eq ps ops).2]
      simp only [varAttr]
      cases variableLocation ps with
      | none => rfl
      | some p => obtain ⟨a, size⟩ := p; cases size <;> rfl
  · rw [const (·.1.symbolName)]
    rintro s ⟨a, v⟩; cases a <;> first | rfl | (cases v <;> first | rfl | (dsimp only [varAttr]; split <;> rfl))

/-- **C72** (parameters). -/
theorem C72_parameter (d : Die) :
    (ownParam d).1.offset = some d.offset ∧ (ownParam d).1.name = d.strAttr .name ∧
      (ownParam d).1.ty = d.lastOf .type Val.offset ∧ (ownParam d).2 = d.lastOf .abstractOrigin Val.offset := by
  refine ⟨?_, ?_, ?_, ?_⟩
  · unfold ownParam
    rw [foldl_lastBy paramAttr (·.1.offset) (fun _ => none)]
    · have : List.filterMap (fun _ : At × Val => (none : Option (Option Nat))) d.attrs = [] := by simp
      rw [this]; rfl
    · rintro s ⟨a, v⟩; cases a <;> first | rfl | (cases v <;> rfl)
  · exact foldl_last paramAttr (·.1.name) .name Val.str (fun s v => rfl) (fun s a v h => by attr_cases a v h) d _ rfl
  · exact foldl_lastSome paramAttr (·.1.ty) .type Val.offset (fun s v => by cases v <;> rfl)
      (fun s a v h => by attr_cases a v h) d _ rfl
  · exact foldl_lastSome paramAttr (·.2) .abstractOrigin Val.offset (fun s v => by cases v <;> rfl)
      (fun s a v h => by attr_cases a v h) d _ rfl

/-- What `parse_data_member_location` reads is the declared byte offset in bits. -/
theorem dataMemberLocation_eq (version : Nat) : dataMemberLocation version = declaredBit version := by
  funext v
  unfold dataMemberLocation declaredBit declaredByte
  cases v with
  | sdata v =>
    simp only
    by_cases h : v < 0
    · rw [if_neg (by omega), if_pos h]; rfl
    · rw [if_pos (by omega), if_neg h]; rfl
  | exprloc ps x =>
    unfold memberLocation
    rcases ps with _ | ⟨⟨a, b⟩, _ | ⟨q, t⟩⟩
    · rfl
    · cases a <;> rfl
    · cases a <;> rfl
  | loclist o x => simp only; split <;> rfl
  | _ => rfl

/-- What the attribute loop of a member finds. -/
theorem memberState_eq (env : Env) (d : Die) :
    let s := memberState env d
    s.member.offset = d.offset ∧ s.member.name = d.strAttr .name ∧ s.member.ty = d.lastOf .type Val.offset ∧
      s.member.bitOffset = d.storageStart env.version ∧
      s.member.bitSize = (d.lastOf .bitSize fun v => v.udataValue.map Opt64.new).getD Opt64.none ∧
      s.bitOffset = (d.last .bitOffset).bind Val.udataValue ∧ s.byteSize = (d.last .byteSize).bind Val.udataValue ∧
      (s.declaration = true ↔ ∃ v, (At.declaration, v) ∈ d.attrs) := by
  simp only
  refine ⟨?_, ?_, ?_, ?_, ?_, ?_, ?_, ?_⟩
  · unfold memberState
    rw [foldl_lastBy (memberAttr env.version) (·.member.offset) (fun _ => none)]
    · have : List.filterMap (fun _ : At × Val => (none : Option Nat)) d.attrs = [] := by simp
      rw [this]; rfl
    · rintro s ⟨a, v⟩; cases a <;> first | rfl | (dsimp only [memberAttr]; split <;> rfl)
  · exact foldl_last (memberAttr env.version) (·.member.name) .name Val.str (fun s v => rfl)
      (fun s a v h => by cases a <;> first | exact absurd rfl h | rfl | (dsimp only [memberAttr]; split <;> rfl)) d _ rfl
  · exact foldl_lastSome (memberAttr env.version) (·.member.ty) .type Val.offset (fun s v => by cases v <;> rfl)
      (fun s a v h => by cases a <;> first | exact absurd rfl h | rfl | (dsimp only [memberAttr]; split <;> rfl)) d _ rfl
  · unfold memberState Die.storageStart Die.lastBy
    rw [← dataMemberLocation_eq]
    refine foldl_lastBy (memberAttr env.version) (·.member.bitOffset) _ ?_ d.attrs _
    rintro s ⟨a, v⟩
    cases a <;> first
      | rfl
      | (simp only [memberAttr, reduceCtorEq, if_false, if_true]; split <;> first | rfl | (next h => rw [h]; rfl))
  · refine foldl_lastOf (memberAttr env.version) (·.member.bitSize) .bitSize _ (fun s v => ?_)
      (fun s a v h => by cases a <;> first | exact absurd rfl h | rfl | (dsimp only [memberAttr]; split <;> rfl)) d _
    exact sizeAttr_eq _ _
  · exact foldl_last (memberAttr env.version) (·.bitOffset) .bitOffset Val.udataValue (fun s v => rfl)
      (fun s a v h => by cases a <;> first | exact absurd rfl h | rfl | (dsimp only [memberAttr]; split <;> rfl)) d _ rfl
  · exact foldl_last (memberAttr env.version) (·.byteSize) .byteSize Val.udataValue (fun s v => rfl)
      (fun s a v h => by cases a <;> first | exact absurd rfl h | rfl | (dsimp only [memberAttr]; split <;> rfl)) d _ rfl
  · have h := foldl_lastOf (memberAttr env.version) (·.declaration) .declaration (fun _ => some true) (fun s v => rfl)
      (fun s a v h => by cases a <;> first | exact absurd rfl h | rfl | (dsimp only [memberAttr]; split <;> rfl)) d
      { member := ⟨d.offset, none, none, 0, Opt64.none⟩ }
    unfold memberState
    rw [h]
    have h2 : d.lastOf .declaration (fun _ => some true) = (d.last .declaration).map fun _ => true := lastOf_map d _ _
    rw [h2]
    cases hl : d.last .declaration with
    | none =>
      simp only [Option.map_none, Option.getD_none, Bool.false_eq_true, false_iff, not_exists]
      intro v hv
      unfold Die.last Die.lastOf Die.lastBy at hl
      rw [List.getLast?_eq_none_iff, List.filterMap_eq_nil_iff] at hl
      exact absurd (hl _ hv) (by simp)
    | some v =>
      simp only [Option.map_some, Option.getD_some, true_iff]
      unfold Die.last Die.lastOf Die.lastBy at hl
      have := List.mem_of_getLast? hl
      rw [List.mem_filterMap] at this
      obtain ⟨⟨a, v'⟩, hm, hv⟩ := this
      simp only at hv
      split at hv
      · next ha => subst ha; exact ⟨_, hm⟩
      · cases hv

/-- **C72** (members). -/
theorem C72_member (env : Env) (d : Die) :
    (ownMember env d).offset = d.offset ∧ (ownMember env d).name = d.strAttr .name ∧
      (ownMember env d).ty = d.lastOf .type Val.offset ∧
      (ownMember env d).bitSize = (d.lastOf .bitSize fun v => v.udataValue.map Opt64.new).getD Opt64.none := by
  obtain ⟨h1, h2, h3, _, h5, _⟩ := memberState_eq env d
  unfold ownMember
  simp only
  split <;> exact ⟨h1, h2, h3, h5⟩

theorem nameAttr_eq (d : Die) : d.nameAttr = d.strAttr .name :=
  foldl_last (fun s av => if av.1 = .name then av.2.str else s) id .name Val.str (fun s v => by simp)
    (fun s a v h => by simp [h]) d none rfl

theorem typeAttr_eq (d : Die) : d.typeAttr = d.lastOf .type Val.offset := by
  unfold Die.typeAttr
  show id (List.foldl _ none d.attrs) = _
  exact foldl_lastSome _ id .type Val.offset (fun s v => by simp only [if_true, id_eq]; cases v.offset <;> rfl)
    (fun s a v h => by simp [h]) d none rfl

theorem sizeAttr_last (d : Die) (init : Size) :
    d.sizeAttr init = (d.lastOf .byteSize fun v => v.udataValue.map Opt64.new).getD init :=
  foldl_lastOf (fun s av => if av.1 = .byteSize then Dwarf.sizeAttr s av.2 else s) id .byteSize _
    (fun s v => by simp only [if_true, id_eq]; exact sizeAttr_eq _ _) (fun s a v h => by simp [h]) d init

/-- The size an entry declares. -/
def declaredSize (d : Die) : Size := (d.lastOf .byteSize fun v => v.udataValue.map Opt64.new).getD Opt64.none

/-- **C72** (types). Name, namespace, size and referenced type of a type's record are what the
attributes say; the members are the non-static data members among the children, in order, together
with those of variant parts; base classes and variant parts are those among the children. -/
theorem C72_types (env : Env) (ns : Option Namespace) (d : Die) :
    ownStruct env ns d = .struct_ ns (d.strAttr .name) (declaredSize d) (structMembers env d.children)
      ((d.children.filter fun c => c.tag = .variantPart).map (ownVariantPart env))
      ((d.children.filter fun c => c.tag = .inheritance).map (ownInherit env)) ∧
    ownUnion env ns d = .union_ ns (d.strAttr .name) (declaredSize d) (childMembers env d.children) ∧
    ownEnum ns d = .enum_ ns (d.strAttr .name) (d.lastOf .type Val.offset) (declaredSize d) ∧
    (∀ m, m ∈ childMembers env d.children ↔
      ∃ c ∈ d.children, c.tag = .member ∧ (¬ ∃ v, (At.declaration, v) ∈ c.attrs) ∧ m = ownMember env c) ∧
    (∀ m, m ∈ structMembers env d.children ↔
      ∃ c, (c ∈ d.children ∨ ∃ p ∈ d.children, p.tag = .variantPart ∧ c ∈ p.children) ∧ c.tag = .member ∧
        (¬ ∃ v, (At.declaration, v) ∈ c.attrs) ∧ m = ownMember env c) := by
  have hmem : ∀ (cs : List Die) (m : Member), m ∈ childMembers env cs ↔
      ∃ c ∈ cs, c.tag = .member ∧ (¬ ∃ v, (At.declaration, v) ∈ c.attrs) ∧ m = ownMember env c := by
    intro cs m
    unfold childMembers
    simp only [List.mem_map, List.mem_filter, decide_eq_true_eq]
    constructor
    · rintro ⟨c, ⟨hc, ht, hd⟩, rfl⟩
      refine ⟨c, hc, ht, ?_, rfl⟩
      rw [← (memberState_eq env c).2.2.2.2.2.2.2, hd]; simp
    · rintro ⟨c, hc, ht, hd, rfl⟩
      refine ⟨c, ⟨hc, ht, ?_⟩, rfl⟩
      rw [← (memberState_eq env c).2.2.2.2.2.2.2] at hd; simpa using hd
  refine ⟨?_, ?_, ?_, hmem d.children, ?_⟩
  · unfold ownStruct; rw [nameAttr_eq, sizeAttr_last]; rfl
  · unfold ownUnion; rw [nameAttr_eq, sizeAttr_last]; rfl
  · unfold ownEnum; rw [nameAttr_eq, sizeAttr_last, typeAttr_eq]; rfl
  · intro m
    unfold structMembers
    simp only [List.mem_flatMap]
    constructor
    · rintro ⟨c, hc, hm⟩
      split at hm
      · next ht =>
        obtain ⟨x, hx, h⟩ := (hmem _ m).1 hm
        exact ⟨x, .inr ⟨c, hc, ht, hx⟩, h⟩
      · obtain ⟨x, hx, h⟩ := (hmem _ m).1 hm
        simp only [List.mem_singleton] at hx
        subst hx
        exact ⟨x, .inl hc, h⟩
    · rintro ⟨c, hc | ⟨p, hp, ht, hc⟩, h⟩
      · refine ⟨c, hc, ?_⟩
        rw [if_neg (by rw [h.1]; decide)]
        exact (hmem _ m).2 ⟨c, by simp, h⟩
      · refine ⟨p, hp, ?_⟩
        rw [if_pos ht]
        exact (hmem _ m).2 ⟨c, hc, h⟩

theorem childMembers_eq (env : Env) (d : Die) : childMembers env d.children = d.dataMembers.map (ownMember env) := by
  unfold childMembers Die.dataMembers
  congr 1
  apply List.filter_congr
  intro c _
  have h := (memberState_eq env c).2.2.2.2.2.2.2
  simp only [decide_eq_decide]
  refine and_congr_right fun _ => ?_
  cases hd : (memberState env c).declaration with
  | true =>
    obtain ⟨v, hv⟩ := h.1 hd
    simp only [Bool.true_eq_false, List.all_eq_true, false_iff]
    intro hx
    simpa using hx _ hv
  | false =>
    simp only [true_iff, List.all_eq_true]
    rintro ⟨a, v⟩ hv
    simp only [ne_eq, decide_eq_true_eq]
    rintro rfl
    rw [h.2 ⟨v, hv⟩] at hd
    cases hd

theorem ownMember_ty (env : Env) (d : Die) : (ownMember env d).ty = d.lastOf .type Val.offset := by
  rw [← (memberState_eq env d).2.2.1]
  unfold ownMember
  simp only
  split <;> rfl

/-- **C72** (variants). A variant has the discriminant value its entry says. In a Rust unit, if its only
data member is a struct of the same unit, it has the name and the data members of that struct;
otherwise it has no name, and its own data members. -/
theorem C72_variant (env : Env) (d : Die) :
    (ownVariant env d).discrValue = d.lastOf .discrValue Val.udataValue ∧
    (∀ s, Payload env d s → (ownVariant env d).name = (s.attrs.find? fun av => av.1 = .name).bind (fun av => av.2.str) ∧
      (ownVariant env d).members = s.dataMembers.map (ownMember env)) ∧
    ((∀ s, ¬ Payload env d s) → (ownVariant env d).name = none ∧
      (ownVariant env d).members = d.dataMembers.map (ownMember env)) := by
  have hs : ∀ s, variantStruct env (childMembers env d.children) = some s ↔ Payload env d s := by
    intro s
    unfold variantStruct Payload
    rw [childMembers_eq]
    by_cases hr : env.rust = true
    · simp only [hr, if_true, true_and]
      match hd : d.dataMembers with
      | [] => simp
      | [c] =>
        simp only [List.map_cons, List.map_nil, ownMember_ty, List.cons.injEq, and_true, Option.bind_eq_some_iff]
        constructor
        · rintro ⟨e, ⟨o, ho, he⟩, h⟩
          split at h
          · next ht => cases h; exact ⟨c, o, rfl, ho, he, ht⟩
          · cases h
        · rintro ⟨_, o, rfl, ho, he, ht⟩
          exact ⟨s, ⟨o, ho, he⟩, by rw [if_pos ht]⟩
      | c :: c' :: cs => simp
    · simp [hr]
  have hv : discrValueOf d = d.lastOf .discrValue Val.udataValue := by
    unfold discrValueOf
    exact foldl_lastSome (fun s av => if av.1 = .discrValue then (match av.2.udataValue with | some n => some n | none => s) else s) id
      .discrValue Val.udataValue (fun s v => by simp only [if_true, id_eq]; cases v.udataValue <;> rfl)
      (fun s a v h => by simp [h]) d none rfl
  unfold ownVariant
  cases h : variantStruct env (childMembers env d.children) with
  | some s =>
    simp only
    refine ⟨hv, ?_, fun hn => absurd ((hs s).1 h) (hn s)⟩
    intro s' hs'
    rw [← hs s', h] at hs'
    cases hs'
    refine ⟨?_, childMembers_eq env s⟩
    simp only [Die.firstAttr]
    cases s.attrs.find? fun av => av.1 = .name <;> rfl
  | none =>
    refine ⟨hv, ?_, fun _ => ⟨rfl, childMembers_eq env d⟩⟩
    intro s' hs'
    rw [← hs s', h] at hs'
    cases hs'

/-- **C72** (base classes, variant parts). -/
theorem C72_parts (env : Env) (d : Die) :
    (ownInherit env d).ty = d.lastOf .type Val.offset ∧
    (ownInherit env d).bitOffset = (d.lastOf .dataMemberLocation (declaredBit env.version)).getD 0 ∧
    (ownVariantPart env d).discr = d.lastOf .discr Val.offset ∧
    (ownVariantPart env d).variants = (d.children.filter fun c => c.tag = .variant).map (ownVariant env) := by
  refine ⟨typeAttr_eq d, ?_, ?_, rfl⟩
  · rw [← dataMemberLocation_eq]
    exact foldl_lastOf (fun s av => if av.1 = .dataMemberLocation then
      (match dataMemberLocation env.version av.2 with | some n => n | none => s) else s) id .dataMemberLocation (dataMemberLocation env.version)
      (fun s v => by simp only [if_true, id_eq]; cases dataMemberLocation env.version v <;> rfl)
      (fun s a v h => by simp [h]) d 0
  · exact foldl_lastSome (fun s av => if av.1 = .discr then (match av.2.offset with | some n => some n | none => s) else s) id
      .discr Val.offset (fun s v => by simp only [if_true, id_eq]; cases v.offset <;> rfl)
      (fun s a v h => by simp [h]) d none rfl

/-- An `Option<u32>`-like enumeration: a variant whose only member, at offset 4, is of the struct type at
offset 40, that has a member at byte 4. -/
def rustUnit : Die :=
  .node 11 .other [(.language, .lang 0x1c)]
    [.node 20 .structure_ [(.name, .string (some [69])), (.byteSize, .udata 8)]
      [.node 24 .variantPart [(.discr, .ref 26)]
        [.node 26 .member [(.dataMemberLocation, .udata 0)] [],
         .node 30 .variant [(.discrValue, .data 1 1)]
          [.node 33 .member [(.type, .ref 40), (.dataMemberLocation, .udata 4)] []]],
       .node 40 .structure_ [(.name, .string (some [83])), (.byteSize, .udata 8)]
        [.node 44 .member [(.name, .string (some [48])), (.dataMemberLocation, .udata 4)] []]]]

/-- What the unit says about its entries. -/
def rustEnv : Env := { rust := true, entry := fun o => (dies rustUnit).find? fun d => d.offset = o }

/-- The variant. -/
def rustVariant : Die := ((rustEnv.entry 30).getD rustUnit)

/-- The hypotheses of `C72_variant` can be met. -/
example : Payload rustEnv rustVariant ((rustEnv.entry 40).getD rustUnit) :=
  ⟨rfl, .node 33 .member [(.type, .ref 40), (.dataMemberLocation, .udata 4)] [], 40, rfl, rfl, rfl, rfl⟩
example : (ownVariant rustEnv rustVariant).name = some [83] ∧
    (ownVariant rustEnv rustVariant).members.map (fun m => (m.name, m.bitOffset)) = [(some [48], 32)] ∧
    (ownVariant { rustEnv with rust := false } rustVariant).members.map (fun m => (m.name, m.bitOffset)) = [(none, 32)] := by decide +kernel

/-- The position of the struct in the enumeration is lost: the member of the variant above is 8 bytes
from the start of the enumeration, and its record says 4. (rustc puts the struct at offset 0.) -/
theorem C72_variant_offset_witness : Payload rustEnv rustVariant ((rustEnv.entry 40).getD rustUnit) ∧
    (rustVariant.dataMembers.map (ownMember rustEnv)).map (·.bitOffset) = [4 * 8] ∧
    (((rustEnv.entry 40).getD rustUnit).dataMembers.map (ownMember rustEnv)).map (·.bitOffset) = [4 * 8] ∧
    (ownVariant rustEnv rustVariant).members.map (·.bitOffset) = [4 * 8] :=
  ⟨⟨rfl, .node 33 .member [(.type, .ref 40), (.dataMemberLocation, .udata 4)] [], 40, rfl, rfl, rfl, rfl⟩, by decide +kernel, by decide +kernel, by decide +kernel⟩

/-- Two attributes of a kind: the last one that can be read counts. -/
example :
    let d : Die := .node 7 .subprogram [(.type, .ref 3), (.name, .string (some [97])), (.type, .other), (.declLine, .udata 0),
      (.name, .string (some [98])), (.declLine, .udata 12), (.declLine, .udata (2 ^ 40))] []
    (ownFunction none none d).name = some [98] ∧ (ownFunction none none d).returnType = some 3 ∧
      (ownFunction none none d).source.line = 12 := by decide +kernel

/-! ### C17: bit fields -/

/-- **C17** (position). A bit field given in the DWARF 2 form ends up with the DWARF 4 bit offset: the
bits of the struct it covers are exactly the bits of its storage unit with the significance the
attributes describe. So it lies inside its storage unit. -/
theorem C17_position (env : Env) (d : Die) (fromMsb width size : Nat)
    (h1 : (d.last .bitOffset).bind Val.udataValue = some fromMsb)
    (h2 : d.lastOf .bitSize (fun v => v.udataValue) = some width) (hw : width < 2 ^ 64 - 1)
    (h3 : (d.last .byteSize).bind Val.udataValue = some size)
    (hfit : fromMsb + width ≤ size * 8) (hspace : d.storageStart env.version + size * 8 < 2 ^ 64) (p : Nat) :
    let start := d.storageStart env.version
    let m := ownMember env d
    m.bitSize.get = some width ∧
    (m.bitOffset ≤ p ∧ p < m.bitOffset + width ↔
      start ≤ p ∧ p < start + size * 8 ∧ FieldBit (size * 8) fromMsb width (significance env.bigEndian (size * 8) (p - start))) := by
  obtain ⟨_, _, _, h4, h5, h6, h7, _⟩ := memberState_eq env d
  rw [h1] at h6
  rw [h3] at h7
  have hb : (memberState env d).member.bitSize = Opt64.new width := by
    rw [h5]
    have : d.lastOf .bitSize (fun v => v.udataValue.map Opt64.new) = some (Opt64.new width) := by
      unfold Die.lastOf Die.lastBy at h2 ⊢
      have he : (fun av : At × Val => if av.1 = .bitSize then av.2.udataValue.map Opt64.new else none) =
          fun av => (if av.1 = .bitSize then av.2.udataValue else none).map Opt64.new := by
        funext av; split <;> rfl
      rw [he, ← List.map_filterMap, List.getLast?_map, h2]; rfl
    rw [this]; rfl
  have hg : (memberState env d).member.bitSize.get = some width := by
    rw [hb]
    unfold Opt64.get Opt64.isNone Opt64.new Opt64.none top
    rw [if_neg]
    simp only [beq_iff_eq, Opt64.mk.injEq]; omega
  have hm : ownMember env d =
      { (memberState env d).member with bitOffset := bitFieldOffset env.bigEndian (d.storageStart env.version) fromMsb width (some size) } := by
    unfold ownMember
    simp only [h6, hg, h4, h7]
  simp only
  rw [hm]
  refine ⟨hg, ?_⟩
  simp only [bitFieldOffset, FieldBit, significance]
  cases env.bigEndian with
  | true => simp only [if_true]; omega
  | false => simp only [Bool.false_eq_true, if_false]; omega

/-- **C17** (no conversion). Without a bit offset from the most significant bit, or without a bit
size, the declared location is the bit offset. -/
theorem C17_direct (env : Env) (d : Die)
    (h : (d.last .bitOffset).bind Val.udataValue = none ∨ d.lastOf .bitSize (fun v => v.udataValue) = none) :
    (ownMember env d).bitOffset = d.storageStart env.version := by
  obtain ⟨_, _, _, h4, h5, h6, _, _⟩ := memberState_eq env d
  unfold ownMember
  simp only
  split
  next bo bs hbo hbs =>
    rcases h with h | h
    · rw [h6, h] at hbo; cases hbo
    · rw [h5] at hbs
      have : d.lastOf .bitSize (fun v => v.udataValue.map Opt64.new) = none := by
        unfold Die.lastOf Die.lastBy at h ⊢
        have he : (fun av : At × Val => if av.1 = .bitSize then av.2.udataValue.map Opt64.new else none) =
            fun av => (if av.1 = .bitSize then av.2.udataValue else none).map Opt64.new := by
          funext av; split <;> rfl
        rw [he, ← List.map_filterMap, List.getLast?_map, h]; rfl
      rw [this] at hbs
      simp [Opt64.get, Opt64.isNone] at hbs
  next => exact h4

/-- A 3-bit field 10 bits below the top of a 4-byte unit at byte 4: in a little-endian file it starts
19 bits into the unit, in a big-endian one 10 bits. -/
example :
    let d : Die := .node 7 .member [(.dataMemberLocation, .udata 4), (.byteSize, .udata 4), (.bitSize, .udata 3), (.bitOffset, .udata 10)] []
    (ownMember { } d).bitOffset = 32 + 19 ∧ (ownMember { bigEndian := true } d).bitOffset = 32 + 10 := by decide +kernel

/-- DWARF lets the size of the storage unit be left out if it is that of the declared type; in a
little-endian file the field is then put at the start of its storage unit, wherever it is. -/
theorem C17_missing_size_witness :
    let d : Die := .node 7 .member [(.dataMemberLocation, .udata 4), (.bitSize, .udata 3), (.bitOffset, .udata 10)] []
    (ownMember { } d).bitOffset = 32 := by decide +kernel

/-! ### C57: code ranges and sizes of functions -/

/-- The parts of the loop state that matter for ranges. -/
theorem subState_eq (lowPc : Option Nat) (ns : Option Namespace) (d : Die) :
    let s := subState lowPc ns d
    s.ranges = (d.last .ranges).bind Val.rangesOf ∧ s.highPc = (d.lastOf .highPc Val.highAddr).getD none ∧
    s.size = d.lastOf .highPc Val.highSize ∧ s.function.ranges = [] ∧ s.function.size = none ∧
    s.function.address = ((d.lastOf .lowPc (Val.codeAddr lowPc)).map optNew).getD none := by
  have const : ∀ {β : Type} (g : SubState → β), (∀ s av, g (subAttr lowPc s av) = g s) →
      g (subState lowPc ns d) = g { function := { offset := some d.offset, ns := ns } } := by
    intro β g hg
    unfold subState
    rw [foldl_lastBy (subAttr lowPc) g (fun _ => none) (fun s av => hg s av)]
    have : List.filterMap (fun _ : At × Val => (none : Option β)) d.attrs = [] := by simp
    rw [this]; rfl
  simp only
  refine ⟨?_, ?_, ?_, ?_, ?_, ?_⟩
  · exact foldl_last (subAttr lowPc) (·.ranges) .ranges Val.rangesOf (fun s v => rfl)
      (fun s a v h => by attr_cases a v h) d _ rfl
  · exact foldl_lastOf (subAttr lowPc) (·.highPc) .highPc Val.highAddr
      (fun s v => by cases v <;> first | rfl | (dsimp only [subAttr, Val.highAddr]; split <;> rfl))
      (fun s a v h => by attr_cases a v h) d _
  · exact foldl_lastSome (subAttr lowPc) (·.size) .highPc Val.highSize
      (fun s v => by cases v <;> first | rfl | (dsimp only [subAttr, Val.highSize]; split <;> rfl))
      (fun s a v h => by attr_cases a v h) d _ rfl
  · rw [const (·.function.ranges)]
    rintro s ⟨a, v⟩; cases a <;> first | rfl | (cases v <;> first | rfl | (dsimp only [subAttr]; split <;> first | rfl | (split <;> rfl)))
  · rw [const (·.function.size)]
    rintro s ⟨a, v⟩; cases a <;> first | rfl | (cases v <;> first | rfl | (dsimp only [subAttr]; split <;> first | rfl | (split <;> rfl)))
  · have h := foldl_lastOf (subAttr lowPc) (·.function.address) .lowPc (fun v => (v.codeAddr lowPc).map optNew)
      (fun s v => by
        cases v <;> try rfl
        next a =>
          simp only [subAttr, Val.codeAddr, Val.addr, Option.filter]
          by_cases h : a ≠ 0 ∨ lowPc = some 0
          · rw [if_pos h, if_pos (by simpa using h)]; rfl
          · rw [if_neg h, if_neg (by simpa using h)]; rfl)
      (fun s a v h => by attr_cases a v h) d { function := { offset := some d.offset, ns := ns } }
    unfold subState
    rw [h]
    have : (d.lastOf .lowPc fun v => (v.codeAddr lowPc).map optNew) = (d.lastOf .lowPc (Val.codeAddr lowPc)).map optNew := by
      unfold Die.lastOf Die.lastBy
      have he : (fun av : At × Val => if av.1 = .lowPc then (av.2.codeAddr lowPc).map optNew else none) =
          fun av => (if av.1 = .lowPc then av.2.codeAddr lowPc else none).map optNew := by
        funext av; split <;> rfl
      rw [he, ← List.map_filterMap, List.getLast?_map]
    rw [this]

theorem optNew_of_lt {n : Nat} (h : n < 2 ^ 64 - 1) : optNew n = some n := by unfold optNew; rw [if_neg]; omega

/-- **C57** (functions). The ranges of a function are the code ranges its attributes describe; if
there are any, its address is the start of the first and its size the sum of their sizes, and none of
them is empty. -/
theorem C57_function (lowPc : Option Nat) (ns : Option Namespace) (d : Die) (h : InSpace (d.codeRanges lowPc))
    (hlow : ∀ a, d.lastOf .lowPc (Val.codeAddr lowPc) = some a → a < 2 ^ 64 - 1) :
    let f := ownFunction lowPc ns d
    f.ranges = d.codeRanges lowPc ∧ (∀ r ∈ f.ranges, r.lo < r.hi) ∧
    (∀ r rs, f.ranges = r :: rs → f.address = some r.lo ∧ f.size = some (totalSize f.ranges)) := by
  obtain ⟨h1, h2, h3, h4, h5, h6⟩ := subState_eq lowPc ns d
  simp only
  unfold ownFunction subRanges
  unfold Die.codeRanges at h ⊢
  rw [h1, h2, h3, h6, h4]
  cases hr : (d.last .ranges).bind Val.rangesOf with
  | some rs =>
    rw [hr] at h
    simp only [List.nil_append] at h ⊢
    refine ⟨trivial, fun r hr => by simpa using (List.mem_filter.1 hr).2, fun r rs' he => ?_⟩
    have he' : (rs.filter fun r => decide (r.hi > r.lo)) = r :: rs' := he
    obtain ⟨ha, hb⟩ := h
    have hlt : r.lo < r.hi := by
      have : r ∈ rs.filter fun r => decide (r.lo < r.hi) := by
        have : r ∈ rs.filter fun r => decide (r.hi > r.lo) := by rw [he']; simp
        exact this
      simpa using (List.mem_filter.1 this).2
    have hhi := ha r (by
      have : r ∈ rs.filter fun r => decide (r.hi > r.lo) := by rw [he']; simp
      exact this)
    constructor
    · rw [he']
      simp only [List.head?_cons, Option.map_some, Option.getD_some]
      exact optNew_of_lt (by omega)
    · have hb' : totalSize (rs.filter fun r => decide (r.hi > r.lo)) < 2 ^ 64 - 1 := hb
      unfold totalSize at hb' ⊢
      rw [Nat.mod_eq_of_lt (by omega)]
      exact optNew_of_lt hb'
  | none =>
    rw [hr] at h
    cases hl : d.lastOf .lowPc (Val.codeAddr lowPc) with
    | none =>
      simp only [hl, Option.map_none, Option.getD_none] at h ⊢
      exact ⟨h4, by rw [h4]; simp, by rw [h4]; simp⟩
    | some lo =>
      have hlo := hlow lo hl
      simp only [hl, Option.map_some, Option.getD_some, optNew_of_lt hlo] at h ⊢
      cases hh : (d.lastOf .highPc Val.highAddr).getD none with
      | some hi =>
        simp only [hh] at h ⊢
        by_cases hlt : lo < hi
        · rw [if_pos hlt] at h ⊢
          rw [if_pos hlt]
          obtain ⟨ha, hb⟩ := h
          have := ha ⟨lo, hi⟩ (by simp)
          simp only at this
          refine ⟨by simp, by simp; exact hlt, fun r rs he => ?_⟩
          simp only [List.nil_append, List.cons.injEq] at he
          obtain ⟨rfl, rfl⟩ := he
          refine ⟨by simp [h6, hl, optNew_of_lt hlo], ?_⟩
          simp only [List.nil_append, totalSize, List.map_cons, List.map_nil, List.sum_cons, List.sum_nil, Nat.add_zero] at hb ⊢
          exact optNew_of_lt hb
        · rw [if_neg hlt] at h ⊢
          rw [if_neg hlt]
          exact ⟨h4, by rw [h4]; simp, by rw [h4]; simp⟩
      | none =>
        simp only [hh] at h ⊢
        cases hs : d.lastOf .highPc Val.highSize with
        | none =>
          simp only at h ⊢
          exact ⟨h4, by rw [h4]; simp, by rw [h4]; simp⟩
        | some n =>
          simp only [hs] at h ⊢
          obtain ⟨ha, hb⟩ := h
          have hhi := ha ⟨lo, lo + n⟩ (by simp)
          simp only [totalSize, List.map_cons, List.map_nil, List.sum_cons, List.sum_nil, Nat.add_zero, Nat.add_sub_cancel_left] at hb hhi
          have hn : 0 < n := by
            unfold Die.lastOf Die.lastBy at hs
            have := List.mem_of_getLast? hs
            rw [List.mem_filterMap] at this
            obtain ⟨⟨a, v⟩, _, hv⟩ := this
            simp only at hv
            split at hv
            · cases v <;> simp only [Val.highSize, reduceCtorEq] at hv
              split at hv
              · simp only [Option.some.injEq] at hv; omega
              · cases hv
            · cases hv
          rw [Nat.mod_eq_of_lt hhi]
          refine ⟨by simp, by simp; omega, fun r rs he => ?_⟩
          simp only [List.nil_append, List.cons.injEq] at he
          obtain ⟨rfl, rfl⟩ := he
          refine ⟨by simp [h6, hl, optNew_of_lt hlo], ?_⟩
          simp only [List.nil_append, totalSize, List.map_cons, List.map_nil, List.sum_cons, List.sum_nil, Nat.add_zero, Nat.add_sub_cancel_left]
          exact optNew_of_lt hb

/-- A function in two parts, the second of which comes first in memory. -/
example :
    let d : Die := .node 7 .subprogram [(.lowPc, .address 0), (.ranges, .rangeList [⟨400, 500⟩, ⟨300, 300⟩, ⟨100, 150⟩])] []
    InSpace (d.codeRanges (some 100)) ∧ (ownFunction (some 100) none d).address = some 400 ∧
      (ownFunction (some 100) none d).size = some 150 := by
  refine ⟨⟨by decide +kernel, by decide +kernel⟩, by decide +kernel, by decide +kernel⟩

/-- A function whose range list is empty (or has only empty ranges) is said to be at address 0. -/
theorem C57_empty_ranges_witness :
    let d : Die := .node 7 .subprogram [(.ranges, .rangeList [⟨300, 300⟩])] []
    (ownFunction (some 100) none d).ranges = [] ∧ (ownFunction (some 100) none d).address = some 0 ∧
      (ownFunction (some 100) none d).size = some 0 := by decide +kernel

/-- A size that reaches beyond the end of the address space gives an inverted range. -/
theorem C57_wrap_witness :
    let d : Die := .node 7 .subprogram [(.lowPc, .address 200), (.highPc, .udata (2 ^ 64 - 100))] []
    (ownFunction (some 100) none d).ranges = [⟨200, 100⟩] := by decide +kernel

end Verif.Dwarf
