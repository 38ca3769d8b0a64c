import Verif.Dwarf.WalkLemmas
/-!
# What one walk collects

The walk only appends; what it appends is exactly the items of the tree, except inside the functions
that it defers.
-/
namespace Verif.Dwarf
open Verif.Item Verif.Types Verif.Namespace Verif.Range Verif.Sentinel

/-! ### Appending -/

mutual
theorem walk_append (env : Env) (ctx : Ctx) (ns : Option Namespace) (acc : Acc) : ∀ d,
    walk env ctx ns d acc = acc.append (walk env ctx ns d {})
  | .node o tag attrs cs => by
    rw [walk_eq, walk_eq env ctx ns _ {}]
    split
    · split
      · simp
      · rw [show (Die.node o tag attrs cs).children = cs from rfl, walkAll_append env _ _ acc cs, Acc.append_assoc]
    · split
      · rw [show (Die.node o tag attrs cs).children = cs from rfl, walkAll_append env _ _ acc cs, Acc.append_assoc]
      · simp
theorem walkAll_append (env : Env) (ctx : Ctx) (ns : Option Namespace) (acc : Acc) : ∀ ds,
    walkAll env ctx ns ds acc = acc.append (walkAll env ctx ns ds {})
  | [] => by simp [walkAll]
  | d :: ds => by
    rw [walkAll, walkAll, walkAll_append env ctx ns _ ds, walkAll_append env ctx ns (walk env ctx ns d {}) ds,
      walk_append env ctx ns acc d, Acc.append_assoc]
end

/-! ### The entry's own record -/

theorem subAttr_offset (lowPc : Option Nat) (s : SubState) (av : At × Val) :
    (subAttr lowPc s av).function.offset = s.function.offset ∧ (subAttr lowPc s av).function.ns = s.function.ns ∧
    (subAttr lowPc s av).function.parameters = s.function.parameters := by
  obtain ⟨a, v⟩ := av
  cases a <;> simp only [subAttr] <;> (try simp) <;> (repeat' split) <;> simp

theorem subRanges_offset (s : SubState) : (subRanges s).offset = s.function.offset ∧ (subRanges s).ns = s.function.ns ∧
    (subRanges s).parameters = s.function.parameters := by
  unfold subRanges
  repeat' split
  all_goals simp

theorem ownFunction_offset (lowPc : Option Nat) (ns : Option Namespace) (d : Die) :
    (ownFunction lowPc ns d).offset = some d.offset ∧ (ownFunction lowPc ns d).ns = ns ∧ (ownFunction lowPc ns d).parameters = [] := by
  unfold ownFunction subState
  obtain ⟨h1, h2, h3⟩ := subRanges_offset (d.attrs.foldl (subAttr lowPc) { function := { offset := some d.offset, ns := ns } })
  rw [h1, h2, h3]
  have : ∀ (l : List (At × Val)) (s : SubState), (l.foldl (subAttr lowPc) s).function.offset = s.function.offset ∧
      (l.foldl (subAttr lowPc) s).function.ns = s.function.ns ∧
      (l.foldl (subAttr lowPc) s).function.parameters = s.function.parameters := by
    intro l
    induction l with
    | nil => simp
    | cons av l ih =>
      intro s
      obtain ⟨a1, a2, a3⟩ := ih (subAttr lowPc s av)
      obtain ⟨b1, b2, b3⟩ := subAttr_offset lowPc s av
      rw [List.foldl_cons, a1, a2, a3]
      exact ⟨b1, b2, b3⟩
  obtain ⟨h1, h2, h3⟩ := this d.attrs { function := { offset := some d.offset, ns := ns } }
  rw [h1, h2, h3]
  exact ⟨rfl, rfl, rfl⟩

theorem spec_eq (lowPc : Option Nat) (ns : Option Namespace) (d : Die) :
    ((subState lowPc ns d).specification.map fun s => (s, (subState lowPc ns d).abstractOrigin)) = d.spec := by
  unfold subState Die.spec
  have : ∀ (l : List (At × Val)) (s : SubState) (t : Option (Nat × Bool)), (s.specification.map fun o => (o, s.abstractOrigin)) = t →
      ((l.foldl (subAttr lowPc) s).specification.map fun o => (o, (l.foldl (subAttr lowPc) s).abstractOrigin)) =
      l.foldl (fun s av =>
        match av with
        | (.specification, .ref o) => some (o, false)
        | (.abstractOrigin, .ref o) => some (o, true)
        | _ => s) t := by
    intro l
    induction l with
    | nil => intro s t h; exact h
    | cons av l ih =>
      intro s t h
      rw [List.foldl_cons, List.foldl_cons]
      refine ih _ _ ?_
      obtain ⟨a, v⟩ := av
      cases a <;> cases v <;> simp only [subAttr, Val.offset, Val.addr] <;> (try split) <;> simp_all
  exact this _ _ _ rfl

theorem subState_specification (lowPc : Option Nat) (ns : Option Namespace) (d : Die) :
    (d.spec = none ↔ (subState lowPc ns d).specification = none) ∧
    ∀ s a, d.spec = some (s, a) ↔ ((subState lowPc ns d).specification = some s ∧ (subState lowPc ns d).abstractOrigin = a) := by
  rw [← spec_eq lowPc ns d]
  refine ⟨by simp, fun s a => ?_⟩
  cases (subState lowPc ns d).specification <;> simp

theorem ownVariable_offset (ns : Option Namespace) (d : Die) :
    (ownVariable ns d).1.offset = some d.offset ∧ (ownVariable ns d).1.ns = ns := by
  unfold ownVariable
  have : ∀ (l : List (At × Val)) (s : Variable × Option Nat), (l.foldl varAttr s).1.offset = s.1.offset ∧ (l.foldl varAttr s).1.ns = s.1.ns := by
    intro l
    induction l with
    | nil => simp
    | cons av l ih =>
      intro s
      rw [List.foldl_cons, (ih _).1, (ih _).2]
      obtain ⟨a, v⟩ := av
      cases a <;> simp only [varAttr] <;> (try simp) <;> (repeat' split) <;> simp
  exact this _ _

/-! ### Counting -/

/-- The items a deferred function stands for. -/
def Deferred.toks (e : Deferred) : List Item := .fn e.die.offset :: itemsAll .func e.die.children

/-- The items collected besides functions and deferred functions. -/
def Acc.dataToks (a : Acc) : List Item :=
  a.variables.map (fun v => .var (rawOffset v.offset)) ++ a.vars.map (fun v => .var v.offset) ++
  a.types.map (fun t => .ty (rawOffset t.offset))

/-- The items collected. -/
def Acc.toks (a : Acc) : List Item :=
  a.functions.map (fun f => .fn (rawOffset f.offset)) ++ a.dataToks ++ a.subs.flatMap Deferred.toks

theorem Acc.toks_append (a b : Acc) : (a.append b).toks.Perm (a.toks ++ b.toks) := by
  rw [List.perm_iff_count]
  intro x
  simp only [Acc.toks, Acc.dataToks, Acc.append, List.map_append, List.flatMap_append, List.count_append]
  omega

theorem Acc.dataToks_append (a b : Acc) : (a.append b).dataToks.Perm (a.dataToks ++ b.dataToks) := by
  rw [List.perm_iff_count]
  intro x
  simp only [Acc.dataToks, Acc.append, List.map_append, List.count_append]
  omega

theorem here_toks (env : Env) (ctx : Ctx) (ns : Option Namespace) (d : Die) (h : ¬ IsFn ctx d) :
    (here env ctx ns d).toks = ownItem ctx d := by
  unfold here ownItem
  rw [if_neg h]
  by_cases hv : IsVar ctx d
  · have hty : ¬ IsType ctx d := by
      rintro ⟨-, ht⟩
      rcases hv with ⟨h, -⟩ | ⟨h, -⟩ <;> simp [h] at ht
    rw [if_pos hv, if_pos hv, if_neg hty]
    have := (ownVariable_offset ns d).1
    repeat' split
    all_goals simp [Acc.toks, Acc.dataToks, this, rawOffset]
  · rw [if_neg hv, if_neg hv]
    by_cases ht : IsType ctx d
    · rw [if_pos ht, if_pos ht]; simp [Acc.toks, Acc.dataToks, rawOffset]
    · rw [if_neg ht, if_neg ht]; rfl

theorem isFn_not (ctx : Ctx) (d : Die) (h : IsFn ctx d) : ownItem ctx d = [.fn d.offset] := by
  unfold ownItem
  have hv : ¬ IsVar ctx d := by rintro (⟨h', -⟩ | ⟨h', -⟩) <;> simp [h.1] at h'
  have ht : ¬ IsType ctx d := by rintro ⟨-, h'⟩; simp [h.1] at h'
  rw [if_pos h, if_neg hv, if_neg ht]; rfl

mutual
theorem walk_toks (env : Env) (ctx : Ctx) (ns : Option Namespace) : ∀ d, (walk env ctx ns d {}).toks.Perm (items ctx d)
  | .node o tag attrs cs => by
    rw [walk_eq, items]
    split
    · next h =>
      rw [isFn_not _ _ h]
      split
      · simp [Acc.toks, Acc.dataToks, Deferred.toks, Die.offset, Die.children]
      · refine (Acc.toks_append _ _).trans ?_
        have ih := walkAll_toks env .func (newNs (ownFunction env.lowPc ns (.node o tag attrs cs)).ns
          (ownFunction env.lowPc ns (.node o tag attrs cs)).name .function) cs
        refine List.perm_append_comm.trans ?_
        refine List.Perm.append (.of_eq ?_) ih
        simp [Acc.toks, Acc.dataToks, finishFunction, ownFunction_offset, rawOffset]
    · next h =>
      simp only [Die.tag]
      split
      · next c hc =>
        refine (Acc.toks_append _ _).trans (List.perm_append_comm.trans ?_)
        refine List.Perm.append (.of_eq (here_toks env ctx ns _ h)) ?_
        rw [hc]
        exact walkAll_toks env c _ cs
      · next hc =>
        refine (Acc.toks_append _ _).trans (List.perm_append_comm.trans ?_)
        refine List.Perm.append (.of_eq (here_toks env ctx ns _ h)) ?_
        rw [hc]
        exact .refl _
theorem walkAll_toks (env : Env) (ctx : Ctx) (ns : Option Namespace) : ∀ ds,
    (walkAll env ctx ns ds {}).toks.Perm (itemsAll ctx ds)
  | [] => by simp [walkAll, itemsAll, Acc.toks, Acc.dataToks]
  | d :: ds => by
    rw [walkAll, itemsAll, walkAll_append]
    exact (Acc.toks_append _ _).trans ((walk_toks env ctx ns d).append (walkAll_toks env ctx ns ds))
end

/-! ### Which functions a walk reaches, and that what it collects is right -/

mutual
/-- The functions at and below an entry, not inside other functions. -/
def fns : Ctx → Die → List Die
  | ctx, .node o tag attrs cs =>
    if IsFn ctx (.node o tag attrs cs) then [.node o tag attrs cs]
    else match opens ctx tag with
      | some c => fnsAll c cs
      | none => []
/-- The functions at and below a list of entries, not inside other functions. -/
def fnsAll : Ctx → List Die → List Die
  | _, [] => []
  | ctx, d :: ds => fns ctx d ++ fnsAll ctx ds
end

/-- The functions stored and deferred by a walk, with their entries. -/
structure Walked (fs : List Die) (Δ : Acc) (L : List (Die × Function)) : Prop where
  functions : Δ.functions = L.map (·.2)
  offset : ∀ p ∈ L, p.2.offset = some p.1.offset
  closed : ∀ d ∈ fs, d ∈ L.map (·.1) ∨ d ∈ Δ.subs.map (·.die)
  inner : ∀ p ∈ L, ∀ d ∈ fnsAll .func p.1.children, d ∈ L.map (·.1) ∨ d ∈ Δ.subs.map (·.die)

/-- A deferred function is a function of the unit. -/
def DefOK (env : Env) (F : Nat → Option Function) (root : List Die) (e : Deferred) : Prop :=
  e.die.spec = some (e.specification, e.abstractOrigin) ∧
  ∃ ns, FnAt F root ns e.die ∧ e.function = ownFunction env.lowPc ns e.die

/-- A variable without specification. -/
def VarOK (F : Nat → Option Function) (root : List Die) (v : Variable) : Prop :=
  ∃ ns d, VarAt F root ns d ∧ (d.tag = .variable → (ownVariable ns d).2 = none) ∧ v = (ownVariable ns d).1

/-- A variable with specification. -/
def DVarOK (F : Nat → Option Function) (root : List Die) (v : DeferredVar) : Prop :=
  ∃ ns d, VarAt F root ns d ∧ d.tag = .variable ∧ (∃ s, v.specification = some s ∧ ownVariable ns d = (v.var, some s)) ∧ v.offset = d.offset

/-- A named type. -/
def TypeOK (env : Env) (F : Nat → Option Function) (root : List Die) (t : TypeEntry) : Prop :=
  ∃ ns d, TypeAt F root ns d ∧ t = ⟨some d.offset, tyOf env ns d⟩

/-- Everything collected besides functions is right. -/
structure AccOK (env : Env) (F : Nat → Option Function) (root : List Die) (Δ : Acc) : Prop where
  subs : ∀ e ∈ Δ.subs, DefOK env F root e
  variables : ∀ v ∈ Δ.variables, VarOK F root v
  vars : ∀ v ∈ Δ.vars, DVarOK F root v
  types : ∀ t ∈ Δ.types, TypeOK env F root t

/-- A stored function is right. -/
def RecOK (env : Env) (F : Nat → Option Function) (root : List Die) (p : Die × Function) : Prop :=
  ∃ ns, FnAt F root ns p.1 ∧ Made F root (ownFunction env.lowPc ns p.1) p.1 p.2

theorem no {p : α → Prop} : ∀ x ∈ ([] : List α), p x := fun _ h => (List.not_mem_nil h).elim

theorem AccOK.append {env F root a b} (ha : AccOK env F root a) (hb : AccOK env F root b) : AccOK env F root (a.append b) := by
  constructor <;> intro x hx <;> simp only [Acc.append, List.mem_append] at hx <;> rcases hx with hx | hx
  · exact ha.subs x hx
  · exact hb.subs x hx
  · exact ha.variables x hx
  · exact hb.variables x hx
  · exact ha.vars x hx
  · exact hb.vars x hx
  · exact ha.types x hx
  · exact hb.types x hx

theorem AccOK.nil {env F root} : AccOK env F root {} := by
  constructor <;> intro x hx <;> cases hx

theorem Walked.append {fa fb a b La Lb} (ha : Walked fa a La) (hb : Walked fb b Lb) : Walked (fa ++ fb) (a.append b) (La ++ Lb) := by
  constructor
  · simp [Acc.append, ha.functions, hb.functions]
  · intro p hp
    rcases List.mem_append.1 hp with hp | hp
    · exact ha.offset p hp
    · exact hb.offset p hp
  · intro d hd
    simp only [Acc.append, List.map_append, List.mem_append]
    rcases List.mem_append.1 hd with hd | hd
    · rcases ha.closed d hd with h | h <;> simp [h]
    · rcases hb.closed d hd with h | h <;> simp [h]
  · intro p hp d hd
    simp only [Acc.append, List.map_append, List.mem_append]
    rcases List.mem_append.1 hp with hp | hp
    · rcases ha.inner p hp d hd with h | h <;> simp [h]
    · rcases hb.inner p hp d hd with h | h <;> simp [h]

theorem here_walked (env : Env) (ctx : Ctx) (ns : Option Namespace) (d : Die) : (here env ctx ns d).functions = [] ∧ (here env ctx ns d).subs = [] := by
  unfold here
  repeat' split
  all_goals simp

theorem here_ok (env : Env) (ctx : Ctx) (ns : Option Namespace) (d : Die) (F : Nat → Option Function) (root base : List Die)
    (hs : InScope F root ctx ns base) (hd : d ∈ base) : AccOK env F root (here env ctx ns d) := by
  unfold here
  split
  · next hv =>
    split
    · next ht =>
      split
      · next s h =>
        refine ⟨no, no, ?_, no⟩
        intro v hv'
        simp only [List.mem_singleton] at hv'
        subst hv'
        exact ⟨ns, d, ⟨ctx, base, hs, hd, hv⟩, ht, ⟨s, rfl, by rw [← h]⟩, rfl⟩
      · next h =>
        refine ⟨no, ?_, no, no⟩
        intro v hv'
        simp only [List.mem_singleton] at hv'
        subst hv'
        exact ⟨ns, d, ⟨ctx, base, hs, hd, hv⟩, fun _ => h, rfl⟩
    · next ht =>
      refine ⟨no, ?_, no, no⟩
      intro v hv'
      simp only [List.mem_singleton] at hv'
      subst hv'
      exact ⟨ns, d, ⟨ctx, base, hs, hd, hv⟩, fun h => absurd h ht, rfl⟩
  · split
    · next ht =>
      refine ⟨no, no, no, ?_⟩
      intro v hv'
      simp only [List.mem_singleton] at hv'
      subst hv'
      exact ⟨ns, d, ⟨ctx, base, hs, hd, ht⟩, rfl⟩
    · exact .nil

/-- The two halves of what a walk does. -/
structure WalkOK (env : Env) (ctx : Ctx) (ns : Option Namespace) (fs ds : List Die) (Δ : Acc) (L : List (Die × Function)) : Prop where
  walked : Walked fs Δ L
  sound : ∀ F root base, (∀ p ∈ L, F p.1.offset = some p.2) → InScope F root ctx ns base → (∀ d ∈ ds, d ∈ base) →
    (∀ p ∈ L, RecOK env F root p) ∧ AccOK env F root Δ

mutual
theorem walk_ok (env : Env) (ctx : Ctx) (ns : Option Namespace) : ∀ d, ∃ L, WalkOK env ctx ns (fns ctx d) [d] (walk env ctx ns d {}) L
  | .node o tag attrs cs => by
    rw [walk_eq, fns]
    by_cases h : IsFn ctx (.node o tag attrs cs)
    · rw [if_pos h, if_pos h]
      have hspec := subState_specification env.lowPc ns (.node o tag attrs cs)
      split
      · next spec hs =>
        refine ⟨[], ⟨by simp [Acc.append], no, by simp [Acc.append], no⟩, ?_⟩
        intro F root base _ hscope hd
        refine ⟨no, ?_, no, no, no⟩
        intro e he
        simp only [Acc.nil_append, List.mem_singleton] at he
        subst he
        exact ⟨((hspec.2 _ _).2 ⟨hs, rfl⟩), ns, ⟨ctx, base, hscope, hd _ (by simp), h⟩, rfl⟩
      · next hs =>
        obtain ⟨L, hL, hLs⟩ := walkAll_ok env .func (newNs (ownFunction env.lowPc ns (.node o tag attrs cs)).ns
          (ownFunction env.lowPc ns (.node o tag attrs cs)).name .function) cs
        refine ⟨L ++ [(.node o tag attrs cs, finishFunction (ownFunction env.lowPc ns (.node o tag attrs cs)) (.node o tag attrs cs))], ?_, ?_⟩
        · constructor
          · simp [Acc.append, Die.children, hL.functions]
          · intro p hp
            rcases List.mem_append.1 hp with hp | hp
            · exact hL.offset p hp
            · simp only [List.mem_singleton] at hp
              subst hp
              exact (ownFunction_offset _ _ _).1
          · intro d hd
            simp only [List.mem_singleton] at hd
            subst hd
            left; simp
          · intro p hp d hd
            rcases List.mem_append.1 hp with hp | hp
            · rcases hL.inner p hp d hd with h | h
              · left; rw [List.map_append]; exact List.mem_append_left _ h
              · right; simpa [Acc.append, Die.children] using h
            · simp only [List.mem_singleton] at hp
              subst hp
              rcases hL.closed d hd with h | h
              · left; rw [List.map_append]; exact List.mem_append_left _ h
              · right; simpa [Acc.append, Die.children] using h
        · intro F root base hF hscope hd
          have hown : FnAt F root ns (.node o tag attrs cs) := ⟨ctx, base, hscope, hd _ (by simp), h⟩
          have hbody : InScope F root .func (newNs (ownFunction env.lowPc ns (.node o tag attrs cs)).ns
              (ownFunction env.lowPc ns (.node o tag attrs cs)).name .function) cs :=
            InScope.body (d := .node o tag attrs cs) (f := finishFunction (ownFunction env.lowPc ns (.node o tag attrs cs)) (.node o tag attrs cs))
              hscope (hd _ (by simp)) h (hF (.node o tag attrs cs, finishFunction (ownFunction env.lowPc ns (.node o tag attrs cs)) (.node o tag attrs cs)) (by simp))
          obtain ⟨hr, ha⟩ := hLs F root cs (fun p hp => hF p (by simp [hp])) hbody (fun _ h => h)
          refine ⟨?_, ha.append ⟨no, no, no, no⟩⟩
          intro p hp
          rcases List.mem_append.1 hp with hp | hp
          · exact hr p hp
          · simp only [List.mem_singleton] at hp
            subst hp
            refine ⟨ns, hown, .inl ⟨hspec.1.2 hs, ?_, rfl⟩⟩
            simp [finishFunction, (ownFunction_offset env.lowPc ns (.node o tag attrs cs)).2.2]
    · rw [if_neg h, if_neg h]
      have hw := here_walked env ctx ns (.node o tag attrs cs)
      have hW : Walked [] (here env ctx ns (.node o tag attrs cs)) [] := ⟨by simp [hw.1], no, no, no⟩
      show ∃ L, WalkOK env ctx ns _ _ (match opens ctx tag with
        | some c => (walkAll env c (scopeNs ns (.node o tag attrs cs)) cs {}).append (here env ctx ns (.node o tag attrs cs))
        | none => Acc.append {} (here env ctx ns (.node o tag attrs cs))) L
      cases hc : opens ctx tag with
      | some c =>
        obtain ⟨L, hL, hLs⟩ := walkAll_ok env c (scopeNs ns (.node o tag attrs cs)) cs
        refine ⟨L, ?_, ?_⟩
        · have := hL.append hW
          simpa using this
        · intro F root base hF hscope hd
          have hd := hd (.node o tag attrs cs) (by simp)
          obtain ⟨hr, ha⟩ := hLs F root cs hF (.inside hscope hd hc) (fun _ h => h)
          exact ⟨hr, ha.append (here_ok env ctx ns _ F root base hscope hd)⟩
      | none =>
        refine ⟨[], ?_, ?_⟩
        · simpa using hW
        · intro F root base hF hscope hd
          have hd := hd (.node o tag attrs cs) (by simp)
          exact ⟨no, by simpa using here_ok env ctx ns _ F root base hscope hd⟩
theorem walkAll_ok (env : Env) (ctx : Ctx) (ns : Option Namespace) : ∀ ds, ∃ L, WalkOK env ctx ns (fnsAll ctx ds) ds (walkAll env ctx ns ds {}) L
  | [] => ⟨[], ⟨by simp [walkAll], no, by simp [fnsAll], no⟩, fun F root base _ _ _ => ⟨no, by simpa [walkAll] using .nil⟩⟩
  | d :: ds => by
    obtain ⟨L, hL, hLs⟩ := walk_ok env ctx ns d
    obtain ⟨L', hL', hLs'⟩ := walkAll_ok env ctx ns ds
    rw [walkAll, fnsAll, walkAll_append]
    refine ⟨L ++ L', hL.append hL', ?_⟩
    intro F root base hF hscope hd
    obtain ⟨hr, ha⟩ := hLs F root base (fun p hp => hF p (by simp [hp])) hscope (fun x hx => hd x (by simp_all))
    obtain ⟨hr', ha'⟩ := hLs' F root base (fun p hp => hF p (by simp [hp])) hscope (fun x hx => hd x (by simp_all))
    refine ⟨?_, ha.append ha'⟩
    intro p hp
    rcases List.mem_append.1 hp with hp | hp
    · exact hr p hp
    · exact hr' p hp
end

end Verif.Dwarf
