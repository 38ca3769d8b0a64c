import Verif.Dwarf.WalkVars
/-!
# The contents of a unit (C44, C45, C71)
-/
namespace Verif.Dwarf
open Verif.Item Verif.Types Verif.Namespace Verif.Range Verif.Sentinel

/-- The state at the end. -/
theorem final {env : Env} {n : Nat} {root : List Die} {u : UnitItems} (hn : (itemsAll .unit root).Nodup) (hu : parseItems env n root = some u) :
    ∃ s P vm, Inv env root P [] s ∧ s.acc.subs = [] ∧ u.functions = s.functions.map (·.2) ∧ u.types = s.acc.types ∧
      fixVars n (s.acc.variables.foldl (fun m v => mapInsert (rawOffset v.offset) v m) []) s.acc.vars = some vm ∧
      u.variables = vm.map (·.2) := by
  unfold parseItems at hu
  simp only at hu
  obtain ⟨P0, h0⟩ := Inv.start hn rfl
  split at hu
  · cases hu
  · next s hs =>
    obtain ⟨P, hP, hsubs⟩ := h0.loop hn hs
    obtain ⟨vm, hvm, rfl⟩ := Option.map_eq_some_iff.1 hu
    exact ⟨s, P, vm, hP, hsubs, rfl, rfl, hvm, rfl⟩

theorem find_mapGet {β : Type} (off : β → Option Nat) (M : List (Nat × β)) (ho : ∀ p ∈ M, off p.2 = some p.1) (o : Nat) :
    (M.map (·.2)).find? (fun f => off f = some o) = mapGet o M := by
  induction M with
  | nil => rfl
  | cons p M ih =>
    rw [List.map_cons, List.find?_cons, mapGet, ho p (by simp)]
    by_cases h : o = p.1
    · simp [h]
    · rw [if_neg h, ← ih fun q hq => ho q (by simp [hq])]
      simp [Ne.symm h]

theorem Inv.fn {env root P todo s} (h : Inv env root P todo s) {u : UnitItems} (hu : u.functions = s.functions.map (·.2)) (o : Nat) :
    u.fn o = mapGet o s.functions := by
  unfold UnitItems.fn
  rw [hu]
  refine find_mapGet _ _ ?_ o
  intro p hp
  have := h.reps.only _ _ ((mapGet_of_mem h.reps.sorted).2 hp)
  obtain ⟨q, hq, hk⟩ := List.mem_map.1 this
  obtain ⟨h1, h2⟩ := Prod.mk.inj hk
  rw [← h1, ← h2]
  exact h.offs q hq

theorem Inv.agree {env root P todo s} (h : Inv env root P todo s) {u : UnitItems} (hu : u.functions = s.functions.map (·.2)) :
    ∀ p ∈ P, u.fn p.1.offset = some p.2 := by
  intro p hp
  rw [h.fn hu]
  exact h.reps.has (key p) (List.mem_map.2 ⟨p, hp, rfl⟩)

theorem Inv.stored {env root P s} (h : Inv env root P [] s) (hs : s.acc.subs = []) {o : Nat} (ho : .fn o ∈ itemsAll .unit root) :
    ∃ p ∈ P, p.1.offset = o := by
  have := h.toks.mem_iff.2 ho
  simp only [hs, Acc.dataToks, List.append_nil, List.flatMap_nil, List.mem_append, List.mem_map] at this
  rcases this with ⟨p, hp, he⟩ | (⟨_, _, he⟩ | ⟨_, _, he⟩) | ⟨_, _, he⟩
  · cases he; exact ⟨p, hp, rfl⟩
  · cases he
  · cases he
  · cases he

theorem Inv.defined {env root P s} (h : Inv env root P [] s) (hs : s.acc.subs = []) {u : UnitItems} (hu : u.functions = s.functions.map (·.2)) :
    ∀ o, .fn o ∈ itemsAll .unit root → (u.fn o).isSome := by
  intro o ho
  obtain ⟨p, hp, rfl⟩ := h.stored hs ho
  rw [h.agree hu p hp]; rfl

/-- **C44** (termination). Whatever the entries refer to, the loops end: for every limit on the number of
iterations above some bound the contents are the same. -/
theorem C44_terminates (env : Env) (root : List Die) : ∃ n u, ∀ m, n ≤ m → parseItems env m root = some u := by
  unfold parseItems
  simp only
  generalize walkAll env .unit none root {} = acc
  obtain ⟨s, hs⟩ := fixSubs_ends env _ { functions := drain [] acc.functions, acc := { acc with functions := [] } } (Nat.le_refl _)
  obtain ⟨M, hM⟩ := fixVars_ends _ (s.acc.variables.foldl (fun m v => mapInsert (rawOffset v.offset) v m) []) s.acc.vars (Nat.le_refl _)
  refine ⟨weight acc.subs + (s.acc.vars.length + 1), ?_, ?_⟩
  · exact { functions := s.functions.map (·.2), variables := M.map (·.2), types := s.acc.types }
  · intro m hm
    rw [hs m (Nat.le_trans (Nat.le_add_right _ _) hm)]
    simp only
    rw [hM m (Nat.le_trans (Nat.le_add_left _ _) hm)]
    rfl

/-- **C44** (every function once). The functions are listed by increasing offset, and the offsets are
exactly those of the function entries of the tree, wherever they are nested and whatever their
specifications refer to. -/
theorem C44_listing {env : Env} {n : Nat} {root : List Die} {u : UnitItems} (hn : (itemsAll .unit root).Nodup)
    (hu : parseItems env n root = some u) :
    ∃ offs : List Nat, u.functions.map (·.offset) = offs.map some ∧ offs.Pairwise (· < ·) ∧ ∀ o, o ∈ offs ↔ .fn o ∈ itemsAll .unit root := by
  obtain ⟨s, P, vm, h, hs, hf, -⟩ := final hn hu
  have hoff : ∀ p ∈ s.functions, p.2.offset = some p.1 ∧ ∃ q ∈ P, q.1.offset = p.1 := by
    intro p hp
    have := h.reps.only _ _ ((mapGet_of_mem h.reps.sorted).2 hp)
    obtain ⟨q, hq, hk⟩ := List.mem_map.1 this
    obtain ⟨h1, h2⟩ := Prod.mk.inj hk
    exact ⟨by rw [← h1, ← h2]; exact h.offs q hq, q, hq, h1⟩
  refine ⟨s.functions.map (·.1), ?_, ?_, ?_⟩
  · rw [hf, List.map_map, List.map_map]
    exact List.map_congr_left fun p hp => (hoff p hp).1
  · rw [List.pairwise_map]; exact h.reps.sorted
  · intro o
    constructor
    · intro ho
      obtain ⟨p, hp, rfl⟩ := List.mem_map.1 ho
      obtain ⟨-, q, hq, he⟩ := hoff p hp
      refine h.toks.mem_iff.1 ?_
      simp only [List.mem_append, List.mem_map]
      exact .inl (.inl ⟨q, hq, by rw [he]⟩)
    · intro ho
      obtain ⟨p, hp, rfl⟩ := h.stored hs ho
      exact List.mem_map.2 ⟨key p, (mapGet_of_mem h.reps.sorted).1 (h.reps.has (key p) (List.mem_map.2 ⟨p, hp, rfl⟩)), rfl⟩

theorem fn_item {ctx : Ctx} {d : Die} (h : IsFn ctx d) : Item.fn d.offset ∈ ownItem ctx d := by rw [isFn_not ctx d h]; simp
theorem var_item {ctx : Ctx} {d : Die} (h : IsVar ctx d) : Item.var d.offset ∈ ownItem ctx d := by simp [ownItem, h]
theorem ty_item {ctx : Ctx} {d : Die} (h : IsType ctx d) : Item.ty d.offset ∈ ownItem ctx d := by simp [ownItem, h]

/-- **C44** (records). The record of every function entry is its own record; or that completed from
the record of its specification; or, only if its chain of specifications leads nowhere, its own
record although it has a specification. -/
theorem C44_record {env : Env} {n : Nat} {root : List Die} {u : UnitItems} (hn : (itemsAll .unit root).Nodup)
    (hu : parseItems env n root = some u) {ns : Option Namespace} {d : Die} (hd : FnAt u.fn root ns d) :
    ∃ f, u.fn d.offset = some f ∧ f.offset = some d.offset ∧ Made u.fn root (ownFunction env.lowPc ns d) d f := by
  obtain ⟨s, P, vm, h, hs, hf, -⟩ := final hn hu
  have hdef := h.defined hs hf
  obtain ⟨ctx, ds, hscope, hmem, hfn⟩ := hd
  obtain ⟨p, hp, ho⟩ := h.stored hs (hscope.item hdef hmem (fn_item hfn))
  obtain ⟨ns', ⟨ctx', ds', hscope', hmem', hfn'⟩, hmade⟩ := (h.sound u.fn (h.agree hf)).1 p hp
  obtain ⟨rfl, rfl⟩ := scope_unique hn hdef hscope hmem hscope' hmem' (fn_item hfn) (by rw [← ho]; exact fn_item hfn')
  exact ⟨p.2, h.agree hf p hp, h.offs p hp, hmade⟩

/-- **C44** (nothing else). Every record listed is that of a function entry of the tree. -/
theorem C44_origin {env : Env} {n : Nat} {root : List Die} {u : UnitItems} (hn : (itemsAll .unit root).Nodup)
    (hu : parseItems env n root = some u) {f : Function} (hf : f ∈ u.functions) :
    ∃ ns d, FnAt u.fn root ns d ∧ u.fn d.offset = some f := by
  obtain ⟨s, P, vm, h, hs, hfs, -⟩ := final hn hu
  rw [hfs] at hf
  obtain ⟨p, hp, rfl⟩ := List.mem_map.1 hf
  have := h.reps.only _ _ ((mapGet_of_mem h.reps.sorted).2 hp)
  obtain ⟨q, hq, hk⟩ := List.mem_map.1 this
  obtain ⟨h1, h2⟩ := Prod.mk.inj hk
  obtain ⟨ns, hat, -⟩ := (h.sound u.fn (h.agree hfs)).1 q hq
  exact ⟨ns, q.1, hat, by rw [h.agree hfs q hq, h2]⟩

/-- **C44** (inheritance). A function whose chain of specifications leads to a function without one is
completed from the record listed for its specification, in whatever order the entries come. -/
theorem C44_inherit {env : Env} {n : Nat} {root : List Die} {u : UnitItems} (hn : (itemsAll .unit root).Nodup)
    (hu : parseItems env n root = some u) {ctx : Ctx} {ds : List Die} {d : Die} (hr : Resolves root ctx ds (some d)) {o : Nat} {a : Bool}
    (hs : d.spec = some (o, a)) :
    ∃ ns f g, FnAt u.fn root ns d ∧ u.fn d.offset = some f ∧ u.fn o = some g ∧ Completes (ownFunction env.lowPc ns d) g f a d := by
  obtain ⟨s, P, vm, h, hsub, hf, -⟩ := final hn hu
  have := (h.visited (by simp [hsub]) hr).2 d rfl
  obtain ⟨p, hp, rfl⟩ := List.mem_map.1 this
  obtain ⟨ns, hat, hmade⟩ := (h.sound u.fn (h.agree hf)).1 p hp
  refine ⟨ns, p.2, ?_⟩
  rcases hmade with ⟨h1, -⟩ | ⟨s', a', g, h1, h2, h3⟩ | ⟨-, h1, -⟩
  · rw [hs] at h1; cases h1
  · rw [hs] at h1
    obtain ⟨rfl, rfl⟩ := Prod.mk.inj (Option.some.inj h1)
    exact ⟨g, hat, h.agree hf p hp, h2, h3⟩
  · exact absurd hr (h1 ctx ds)

/-! ### Variables -/

theorem varSpec_eq (ns : Option Namespace) (d : Die) (ht : d.tag = .variable) : (ownVariable ns d).2 = d.varSpec := by
  unfold ownVariable Die.varSpec
  rw [if_pos ht]
  have : ∀ (l : List (At × Val)) (s : Variable × Option Nat), (l.foldl varAttr s).2 =
      l.foldl (fun s av =>
        match av with
        | (.specification, .ref o) => some o
        | _ => s) s.2 := by
    intro l
    induction l with
    | nil => simp
    | cons av l ih =>
      intro s
      rw [List.foldl_cons, List.foldl_cons, ih]
      congr 1
      obtain ⟨a, v⟩ := av
      cases a <;> cases v <;> simp only [varAttr, Val.offset] <;> (try split) <;> rfl
  exact this _ _

theorem Inv.varItem {env root P s} (h : Inv env root P [] s) (hs : s.acc.subs = []) {o : Nat} (ho : .var o ∈ itemsAll .unit root) :
    (∃ v ∈ s.acc.variables, rawOffset v.offset = o) ∨ ∃ v ∈ s.acc.vars, v.offset = o := by
  have := h.toks.mem_iff.2 ho
  simp only [hs, Acc.dataToks, List.append_nil, List.flatMap_nil, List.mem_append, List.mem_map] at this
  rcases this with ⟨p, hp, he⟩ | (⟨v, hv, he⟩ | ⟨v, hv, he⟩) | ⟨_, _, he⟩
  · cases he
  · cases he; exact .inl ⟨v, hv, rfl⟩
  · cases he; exact .inr ⟨v, hv, rfl⟩
  · cases he

/-- The variables at the end. -/
theorem finalVars {env : Env} {n : Nat} {root : List Die} {u : UnitItems} (hn : (itemsAll .unit root).Nodup) (hu : parseItems env n root = some u) :
    ∃ M P : List (Nat × Variable), Reps M P ∧ u.variables = M.map (·.2) ∧
      (∀ o, o ∈ P.map (·.1) ↔ ∃ d, VarResolves u.fn root d ∧ d.offset = o) ∧
      (∀ p ∈ P, ∃ ns d, VarAt u.fn root ns d ∧ d.offset = p.1 ∧ p.2.offset = some p.1 ∧
        ((d.varSpec = none ∧ p.2 = (ownVariable ns d).1) ∨
          ∃ s g, d.varSpec = some s ∧ (s, g) ∈ P ∧ p.2 = inheritVar (ownVariable ns d).1 g)) := by
  obtain ⟨s, P, vm, h, hs, hf, -, hv, huv⟩ := final hn hu
  have hdef := h.defined hs hf
  have hok := (h.sound u.fn (h.agree hf)).2
  let plain := s.acc.variables.map fun v => (rawOffset v.offset, v)
  have hnd : (plain.map (·.1) ++ s.acc.vars.map (·.offset)).Nodup := by
    have := h.toks.nodup_iff.2 hn
    have h2 := (List.nodup_append.1 (List.nodup_append.1 (List.nodup_append.1 this).1).2.1).1
    have h3 : s.acc.variables.map (fun v => Item.var (rawOffset v.offset)) ++ s.acc.vars.map (fun v => Item.var v.offset) =
        (plain.map (·.1) ++ s.acc.vars.map (·.offset)).map Item.var := by
      simp only [plain, List.map_append, List.map_map]; rfl
    rw [h3, List.nodup_iff_pairwise_ne, List.pairwise_map] at h2
    rw [List.nodup_iff_pairwise_ne]
    exact h2.imp fun {a b} h hab => h (by rw [hab])
  have hreps : Reps (s.acc.variables.foldl (fun m v => mapInsert (rawOffset v.offset) v m) []) plain := by
    have := Reps.insertAll (M := ([] : List (Nat × Variable))) (P := []) plain ⟨List.Pairwise.nil, nofun, nofun⟩
      (by simpa using (List.nodup_append.1 hnd).1)
    rw [List.foldl_map] at this
    simpa using this
  obtain ⟨P', hP', hmem, hfrom⟩ := fixVars_spec (plain := plain) (defs := s.acc.vars) (P := plain) ⟨hreps, hnd, fun _ h => h, fun _ h => h,
    fun e he => .inr he, fun p hp => .plain (List.mem_map.2 ⟨p, hp, rfl⟩), fun p hp => .inl hp⟩ hv
  have vplain : ∀ v ∈ s.acc.variables, ∃ ns d, VarAt u.fn root ns d ∧ d.offset = rawOffset v.offset ∧ v.offset = some d.offset ∧
      d.varSpec = none ∧ v = (ownVariable ns d).1 := by
    intro v hv
    obtain ⟨ns, d, hat, hsp, rfl⟩ := hok.variables v hv
    have ho := (ownVariable_offset ns d).1
    refine ⟨ns, d, hat, by rw [ho]; rfl, ho, ?_, rfl⟩
    by_cases ht : d.tag = .variable
    · rw [← varSpec_eq ns d ht]; exact hsp ht
    · unfold Die.varSpec; rw [if_neg ht]
  have vdef : ∀ e ∈ s.acc.vars, ∃ ns d sp, VarAt u.fn root ns d ∧ d.offset = e.offset ∧ e.specification = some sp ∧ d.varSpec = some sp ∧
      e.var = (ownVariable ns d).1 := by
    intro e he
    obtain ⟨ns, d, hat, ht, ⟨sp, h1, h2⟩, ho⟩ := hok.vars e he
    exact ⟨ns, d, sp, hat, ho.symm, h1, by rw [← varSpec_eq ns d ht, h2], by rw [h2]⟩
  refine ⟨vm, P', hP', huv, ?_, ?_⟩
  · intro o
    rw [hmem]
    constructor
    · intro hr
      induction hr with
      | plain ho =>
        simp only [plain, List.map_map, List.mem_map] at ho
        obtain ⟨v, hv, rfl⟩ := ho
        obtain ⟨ns, d, hat, ho, -, hsp, -⟩ := vplain v hv
        exact ⟨d, .plain hat hsp, ho⟩
      | refers he hsp _ ih =>
        obtain ⟨ns, d, sp, hat, ho, h1, h2, -⟩ := vdef _ he
        obtain ⟨d', hd', ho'⟩ := ih
        rw [hsp] at h1
        cases h1
        exact ⟨d, .refers hat h2 hd' ho', ho⟩
    · rintro ⟨d, hr, rfl⟩
      have uniq : ∀ {ns ns' d d'}, VarAt u.fn root ns d → VarAt u.fn root ns' d' → d.offset = d'.offset → d = d' := by
        rintro ns ns' d d' ⟨_, _, h1, h2, h3⟩ ⟨_, _, h1', h2', h3'⟩ ho
        exact (scope_unique hn hdef h1 h2 h1' h2' (var_item h3) (by rw [ho]; exact var_item h3')).2
      induction hr with
      | @plain ns d hat hsp =>
        obtain ⟨_, _, h1, h2, h3⟩ := hat
        rcases h.varItem hs (h1.item hdef h2 (var_item h3)) with ⟨v, hv, ho⟩ | ⟨e, he, ho⟩
        · exact .plain (by simp only [plain, List.map_map, List.mem_map]; exact ⟨v, hv, ho⟩)
        · obtain ⟨ns', d', sp, hat', ho', -, h5, -⟩ := vdef e he
          obtain rfl := uniq ⟨_, _, h1, h2, h3⟩ hat' (ho.symm.trans ho'.symm)
          rw [hsp] at h5; cases h5
      | @refers ns d sp d' hat hsp _ ho ih =>
        obtain ⟨_, _, h1, h2, h3⟩ := hat
        rcases h.varItem hs (h1.item hdef h2 (var_item h3)) with ⟨v, hv, hov⟩ | ⟨e, he, hoe⟩
        · obtain ⟨ns', d'', hat', ho', -, h5, -⟩ := vplain v hv
          obtain rfl := uniq ⟨_, _, h1, h2, h3⟩ hat' (hov.symm.trans ho'.symm)
          rw [hsp] at h5; cases h5
        · obtain ⟨ns', d'', sp', hat', ho', h4, h5, -⟩ := vdef e he
          obtain rfl := uniq ⟨_, _, h1, h2, h3⟩ hat' (hoe.symm.trans ho'.symm)
          rw [hsp] at h5; cases h5
          rw [← hoe]
          exact .refers he h4 (ho ▸ ih)
  · intro p hp
    rcases hfrom p hp with hp' | ⟨e, he, ho, sp, g, h1, h2, h3⟩
    · obtain ⟨v, hv, rfl⟩ := List.mem_map.1 hp'
      obtain ⟨ns, d, hat, h4, h5, h6, h7⟩ := vplain v hv
      exact ⟨ns, d, hat, h4, by rw [← h4]; exact h5, .inl ⟨h6, h7⟩⟩
    · obtain ⟨ns, d, sp', hat, h4, h5, h6, h7⟩ := vdef e he
      rw [h1] at h5; cases h5
      refine ⟨ns, d, hat, h4.trans ho, ?_, .inr ⟨sp, g, h6, h2, by rw [h3, h7]⟩⟩
      rw [h3, ← ho, ← h4, h7]
      exact (ownVariable_offset ns d).1

theorem finalVars_get {u : UnitItems} {M P : List (Nat × Variable)} (h : Reps M P) (hu : u.variables = M.map (·.2))
    (ho : ∀ p ∈ P, p.2.offset = some p.1) (o : Nat) : u.var o = mapGet o M := by
  unfold UnitItems.var
  rw [hu]
  refine find_mapGet _ _ ?_ o
  intro p hp
  exact ho p (h.only _ _ ((mapGet_of_mem h.sorted).2 hp))

/-- **C45** (which variables). The variables are listed by increasing offset, and the offsets are
exactly those of the variable entries of the tree whose chain of specifications ends: those without
a specification, those with one that is listed, and so on. A variable whose specification is
missing, or part of a cycle, is *not* listed. -/
theorem C45_listing {env : Env} {n : Nat} {root : List Die} {u : UnitItems} (hn : (itemsAll .unit root).Nodup)
    (hu : parseItems env n root = some u) :
    ∃ offs : List Nat, u.variables.map (·.offset) = offs.map some ∧ offs.Pairwise (· < ·) ∧
      ∀ o, o ∈ offs ↔ ∃ d, VarResolves u.fn root d ∧ d.offset = o := by
  obtain ⟨M, P, hr, huv, hmem, hp⟩ := finalVars hn hu
  refine ⟨M.map (·.1), ?_, ?_, ?_⟩
  · rw [huv, List.map_map, List.map_map]
    refine List.map_congr_left fun p hpM => ?_
    obtain ⟨_, _, _, _, h, _⟩ := hp _ (hr.only _ _ ((mapGet_of_mem hr.sorted).2 hpM))
    exact h
  · rw [List.pairwise_map]; exact hr.sorted
  · intro o
    rw [← hmem]
    constructor
    · intro ho
      obtain ⟨p, hpM, rfl⟩ := List.mem_map.1 ho
      exact List.mem_map.2 ⟨_, hr.only _ _ ((mapGet_of_mem hr.sorted).2 hpM), rfl⟩
    · intro ho
      obtain ⟨p, hpP, rfl⟩ := List.mem_map.1 ho
      exact List.mem_map.2 ⟨_, (mapGet_of_mem hr.sorted).1 (hr.has p hpP), rfl⟩

/-- **C45** (records). The record of a listed variable is its own record if it has no specification,
and otherwise its own record completed from the one listed for its specification. -/
theorem C45_record {env : Env} {n : Nat} {root : List Die} {u : UnitItems} (hn : (itemsAll .unit root).Nodup)
    (hu : parseItems env n root = some u) {ns : Option Namespace} {d : Die} (hd : VarAt u.fn root ns d) (hr : VarResolves u.fn root d) :
    ∃ v, u.var d.offset = some v ∧ VarMade u.var (ownVariable ns d).1 d v := by
  obtain ⟨s, Pf, _, h, hs, hf, -⟩ := final hn hu
  have hdef := h.defined hs hf
  obtain ⟨M, P, hreps, huv, hmem, hp⟩ := finalVars hn hu
  have hget := finalVars_get hreps huv fun p hpP => by obtain ⟨_, _, _, _, h, _⟩ := hp p hpP; exact h
  obtain ⟨p, hpP, ho⟩ := List.mem_map.1 ((hmem d.offset).2 ⟨d, hr, rfl⟩)
  obtain ⟨ns', d', ⟨_, _, h1, h2, h3⟩, ho', -, hm⟩ := hp p hpP
  obtain ⟨_, _, g1, g2, g3⟩ := hd
  obtain ⟨rfl, rfl⟩ := scope_unique hn hdef g1 g2 h1 h2 (var_item g3) (by rw [← ho, ← ho']; exact var_item h3)
  refine ⟨p.2, by rw [hget, ← ho]; exact hreps.has p hpP, ?_⟩
  rcases hm with ⟨hsp, he⟩ | ⟨sp, g, hsp, hg, he⟩
  · exact .inl ⟨hsp, he⟩
  · refine .inr ⟨sp, g, hsp, by rw [hget]; exact hreps.has (sp, g) hg, ?_⟩
    rw [he]
    constructor
    · rfl
    · simp only [inheritVar]; cases (ownVariable ns d).1.name <;> rfl
    · simp only [inheritVar]; cases (ownVariable ns d).1.linkageName <;> rfl
    · simp only [inheritVar]; cases (ownVariable ns d).1.ty <;> rfl
    · exact ⟨rfl, rfl, rfl, rfl, rfl, rfl⟩

/-! ### Types -/

/-- **C71** (every type once). The offsets of the types listed are exactly those of the named type
entries of the tree, each once, wherever they are nested. -/
theorem C71_listing {env : Env} {n : Nat} {root : List Die} {u : UnitItems} (hn : (itemsAll .unit root).Nodup)
    (hu : parseItems env n root = some u) :
    (u.types.map (·.offset)).Nodup ∧ ∀ o, some o ∈ u.types.map (·.offset) ↔ .ty o ∈ itemsAll .unit root := by
  obtain ⟨s, P, _, h, hs, hf, ht, -⟩ := final hn hu
  have hok := (h.sound u.fn (h.agree hf)).2
  have hoff : ∀ t ∈ s.acc.types, t.offset = some (rawOffset t.offset) := by
    intro t ht
    obtain ⟨ns, d, -, rfl⟩ := hok.types t ht
    rfl
  have hnd := h.toks.nodup_iff.2 hn
  have h2 := (List.nodup_append.1 (List.nodup_append.1 (List.nodup_append.1 hnd).1).2.1).2.1
  rw [List.nodup_iff_pairwise_ne, List.pairwise_map] at h2
  refine ⟨?_, fun o => ?_⟩
  · rw [ht, List.nodup_iff_pairwise_ne, List.pairwise_map]
    exact h2.imp fun {a b} hne hab => hne (by rw [hab])
  · rw [ht]
    constructor
    · intro ho
      obtain ⟨t, htm, he⟩ := List.mem_map.1 ho
      refine h.toks.mem_iff.1 ?_
      simp only [Acc.dataToks, List.mem_append, List.mem_map]
      exact .inl (.inr (.inr ⟨t, htm, by rw [he]; rfl⟩))
    · intro ho
      have := h.toks.mem_iff.2 ho
      simp only [hs, Acc.dataToks, List.append_nil, List.flatMap_nil, List.mem_append, List.mem_map] at this
      rcases this with ⟨p, hp, he⟩ | (⟨v, hv, he⟩ | ⟨v, hv, he⟩) | ⟨t, htm, he⟩
      · cases he
      · cases he
      · cases he
      · cases he
        exact List.mem_map.2 ⟨t, htm, hoff t htm⟩

/-- **C71** (records). The record listed for a named type entry is the one its entry and its scope
give. -/
theorem C71_record {env : Env} {n : Nat} {root : List Die} {u : UnitItems} (hn : (itemsAll .unit root).Nodup)
    (hu : parseItems env n root = some u) {ns : Option Namespace} {d : Die} (hd : TypeAt u.fn root ns d) :
    ⟨some d.offset, tyOf env ns d⟩ ∈ u.types := by
  obtain ⟨s, P, _, h, hs, hf, ht, -⟩ := final hn hu
  have hdef := h.defined hs hf
  obtain ⟨_, _, h1, h2, h3⟩ := hd
  have hmem := (C71_listing hn hu).2 d.offset |>.2 (h1.item hdef h2 (ty_item h3))
  obtain ⟨t, htm, he⟩ := List.mem_map.1 hmem
  obtain ⟨ns', d', ⟨_, _, g1, g2, g3⟩, rfl⟩ := (h.sound u.fn (h.agree hf)).2.types t (ht ▸ htm)
  obtain ⟨rfl, rfl⟩ := scope_unique hn hdef h1 h2 g1 g2 (ty_item h3) (by rw [← Option.some.inj he]; exact ty_item g3)
  exact htm

/-! ### A concrete unit

A namespace `n` with a struct `S` that declares the method `m` (offset 4, with a nested type in a
lexical block) and a static member `x`; the definition of `m` (offset 1, before its declaration in
the section); an inlined copy (offset 12) whose abstract origin is the definition; a variable defining
`x`; a function whose specification is missing, with a nested function that another one refers to; a
variable whose specification is missing. -/

/-- An entry without children. -/
def leaf (o : Nat) (t : Tag) (attrs : List (At × Val)) : Die := .node o t attrs []

/-- The concrete unit. -/
def unit1 : List Die :=
  [.node 1 .subprogram [(.specification, .ref 4), (.lowPc, .address 100), (.highPc, .udata 8)]
      [leaf 2 .formalParameter [(.name, .string (some (Str.ofString "p")))],
        .node 15 .lexicalBlock [] [leaf 16 .baseType [(.name, .string (some (Str.ofString "int")))]]],
    .node 3 .namespace_ [(.name, .string (some (Str.ofString "n")))]
      [.node 5 .structure_ [(.name, .string (some (Str.ofString "S")))]
        [leaf 4 .subprogram [(.name, .string (some (Str.ofString "m"))), (.declaration, .flag true)],
          leaf 6 .member [(.name, .string (some (Str.ofString "x"))), (.declaration, .flag true)]]],
    leaf 12 .subprogram [(.abstractOrigin, .ref 1)],
    leaf 7 .variable [(.specification, .ref 6), (.location, .exprloc [(some 500, none)])],
    .node 8 .subprogram [(.specification, .ref 99)] [leaf 9 .subprogram [(.name, .string (some (Str.ofString "inner")))]],
    leaf 10 .subprogram [(.specification, .ref 9)],
    leaf 11 .variable [(.specification, .ref 98)]]

/-- The result for the concrete unit, the limit on iterations being 10. -/
def unit1Items : UnitItems := (parseItems {} 10 unit1).getD ⟨[], [], []⟩

example : (itemsAll .unit unit1).Nodup := by decide +kernel
example : (parseItems {} 10 unit1).isSome = true := by decide +kernel
example : unit1Items.functions.map (·.offset) = [1, 4, 8, 9, 10, 12].map some := by decide +kernel
/-- The definition has the scope, name and linkage name of the declaration, and its own address. -/
example : (unit1Items.fn 1).map (fun f => (f.ns, f.name, f.address, f.declaration, f.parameters.length)) =
    some (newNs (newNs none (some (Str.ofString "n")) .namespace_) (some (Str.ofString "S")) .type, some (Str.ofString "m"), some 100, false, 1) := by decide +kernel
/-- The inlined copy has the parameters of its abstract origin. -/
example : (unit1Items.fn 12).map (fun f => (f.name, f.address, f.parameters.map (·.name))) =
    some (some (Str.ofString "m"), none, [some (Str.ofString "p")]) := by decide +kernel
/-- The variable defining the static member has its name and scope. -/
example : unit1Items.variables.map (fun v => (v.offset, v.name, v.address)) =
    [(some 6, some (Str.ofString "x"), none), (some 7, some (Str.ofString "x"), some 500)] := by decide +kernel
/-- The type declared in a block of the method is found, after the struct. -/
example : unit1Items.types.map (·.offset) = [some 5, some 16] := by decide +kernel

/-- The method definition of the concrete unit resolves. -/
theorem unit1_resolves : Resolves unit1 .unit unit1 (some unit1[0]) := by
  refine .refers (d' := leaf 4 .subprogram [(.name, .string (some (Str.ofString "m"))), (.declaration, .flag true)]) (s := 4) (a := false)
    .root (by simp [unit1]) (by decide) (by decide +kernel) ?_ rfl (ctx' := .type)
    (ds' := [leaf 4 .subprogram [(.name, .string (some (Str.ofString "m"))), (.declaration, .flag true)],
      leaf 6 .member [(.name, .string (some (Str.ofString "x"))), (.declaration, .flag true)]])
  refine .plain ?_ (by simp) (by decide) (by decide +kernel)
  have h1 : Resolves unit1 .unit unit1[1].children none := Resolves.inside (n := unit1[1]) .root (by simp [unit1]) rfl
  exact Resolves.inside (n := unit1[1].children[0]'(by decide)) h1 (List.getElem_mem _) rfl

example : ∃ ns f g, FnAt unit1Items.fn unit1 ns unit1[0] ∧ unit1Items.fn 1 = some f ∧ unit1Items.fn 4 = some g ∧
    Completes (ownFunction none ns unit1[0]) g f false unit1[0] :=
  C44_inherit (env := {}) (n := 10) (by decide +kernel) rfl unit1_resolves (by decide +kernel)

/-- **C44** (limit of what is inherited). A function that refers to one nested in a function whose own
specification is missing is not completed from it: both are stored at the same time. -/
theorem C44_nested_witness : (parseItems {} 10 unit1).isSome = true ∧
    (unit1Items.fn 9).map (·.name) = some (some (Str.ofString "inner")) ∧ (unit1Items.fn 10).map (·.name) = some none := by
  decide +kernel

/-- **C45** (finding). A variable whose specification is missing disappears from the unit. -/
theorem C45_dropped_witness : (parseItems {} 10 unit1).isSome = true ∧ Item.var 11 ∈ itemsAll .unit unit1 ∧ unit1Items.var 11 = none := by
  decide +kernel

/-- **C45** (finding). DWARF 5 describes a static data member by a `DW_TAG_variable` entry in the
struct; these are not read, so the definition of the member disappears. -/
theorem C45_dwarf5_witness :
    (parseItems { version := 5 } 10
      [.node 1 .structure_ [(.name, .string (some (Str.ofString "S")))] [leaf 2 .variable [(.name, .string (some (Str.ofString "x"))), (.declaration, .flag true)]],
        leaf 3 .variable [(.specification, .ref 2), (.location, .exprloc [(some 500, none)])]]).map (·.variables) = some [] := by
  decide +kernel

end Verif.Dwarf
