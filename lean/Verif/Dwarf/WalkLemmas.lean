import Verif.Dwarf.WalkSpec
/-!
# Lemmas about the walk over a unit's entries
-/
namespace Verif.Dwarf
open Verif.Item Verif.Types Verif.Namespace Verif.Range Verif.Sentinel

/-- Joining what two walks collected. -/
def Acc.append (a b : Acc) : Acc :=
  ⟨a.functions ++ b.functions, a.variables ++ b.variables, a.types ++ b.types, a.subs ++ b.subs, a.vars ++ b.vars⟩

@[simp] theorem Acc.append_nil (a : Acc) : a.append {} = a := by simp [Acc.append]
@[simp] theorem Acc.nil_append (a : Acc) : Acc.append {} a = a := by simp [Acc.append]
theorem Acc.append_assoc (a b c : Acc) : (a.append b).append c = a.append (b.append c) := by simp [Acc.append]

/-- What an entry that is not a function adds by itself. -/
def here (env : Env) (ctx : Ctx) (ns : Option Namespace) (d : Die) : Acc :=
  if IsVar ctx d then
    if d.tag = .variable then
      match (ownVariable ns d).2 with
      | some s => { vars := [⟨d.offset, some s, (ownVariable ns d).1⟩] }
      | none => { variables := [(ownVariable ns d).1] }
    else { variables := [(ownVariable ns d).1] }
  else if IsType ctx d then { types := [⟨some d.offset, tyOf env ns d⟩] }
  else {}

theorem memberAttr_decl (version : Nat) (s : MemberState) (av : At × Val) :
    (memberAttr version s av).declaration = (s.declaration || av.1 = .declaration) := by
  obtain ⟨a, v⟩ := av
  cases a <;> simp only [memberAttr] <;> (try split) <;> simp

theorem memberState_decl (env : Env) (d : Die) : (memberState env d).declaration = true ↔ ∃ v, (At.declaration, v) ∈ d.attrs := by
  have : ∀ (l : List (At × Val)) (s : MemberState), (l.foldl (memberAttr env.version) s).declaration = true ↔
      (s.declaration = true ∨ ∃ v, (At.declaration, v) ∈ l) := by
    intro l
    induction l with
    | nil => simp
    | cons av l ih =>
      intro s
      rw [List.foldl_cons, ih, memberAttr_decl]
      obtain ⟨a, v⟩ := av
      simp only [Bool.or_eq_true, decide_eq_true_eq, List.mem_cons, Prod.mk.injEq]
      constructor
      · rintro ((h | rfl) | ⟨w, h⟩)
        · exact .inl h
        · exact .inr ⟨v, .inl ⟨rfl, rfl⟩⟩
        · exact .inr ⟨w, .inr h⟩
      · rintro (h | ⟨w, ⟨h, -⟩ | h⟩)
        · exact .inl (.inl h)
        · exact .inl (.inr h.symm)
        · exact .inr ⟨w, h⟩
  unfold memberState
  rw [this]; simp

theorem addMember_eq (env : Env) (acc : Acc) (ctx : Ctx) (ns : Option Namespace) (d : Die) (ht : d.tag = .member)
    (hc : ctx = .type ∨ ctx = .union_ ∨ ctx = .variantPart ∨ ctx = .variant) :
    acc.addMember env ns d = acc.append (here env ctx ns d) := by
  unfold Acc.addMember here
  have hv : IsVar ctx d ↔ (memberState env d).declaration = true := by
    unfold IsVar; rw [memberState_decl]; simp [ht, hc]
  have hty : ¬ IsType ctx d := by unfold IsType; simp [ht]
  by_cases h : (memberState env d).declaration = true
  · rw [if_pos h, if_pos (hv.2 h), if_neg (by simp [ht])]; simp [Acc.append]
  · rw [if_neg h, if_neg (fun hh => h (hv.1 hh)), if_neg hty]; simp

theorem addVariable_eq (env : Env) (acc : Acc) (ns : Option Namespace) (d : Die) (ht : d.tag = .variable) :
    acc.addVariable ns d = acc.append (here env .unit ns d) := by
  unfold Acc.addVariable here
  rw [if_pos (show IsVar .unit d from .inl ⟨ht, rfl⟩), if_pos ht]
  rcases h : ownVariable ns d with ⟨v, s⟩
  cases s <;> simp [Acc.append]

theorem addType_eq (env : Env) (acc : Acc) (ctx : Ctx) (ns : Option Namespace) (d : Die) (hc : ctx.general = true)
    (ht : d.tag ∈ [Tag.baseType, .typedef, .structure_, .union_, .enumeration, .unspecified]) :
    acc.addType d (tyOf env ns d) = acc.append (here env ctx ns d) := by
  unfold Acc.addType here
  rw [if_neg (by unfold IsVar; simp only [List.mem_cons, List.not_mem_nil, or_false] at ht; rcases ht with h | h | h | h | h | h <;> simp [h]),
    if_pos ⟨hc, ht⟩]
  simp [Acc.append]

theorem here_none (env : Env) (acc : Acc) (ctx : Ctx) (ns : Option Namespace) (d : Die) (h1 : ¬ IsVar ctx d) (h2 : ¬ IsType ctx d) :
    acc = acc.append (here env ctx ns d) := by
  unfold here; rw [if_neg h1, if_neg h2]; simp

/-- What a walk does, uniformly: a function is deferred, or its children are visited and it is
added; for other entries the children are visited if they matter, and the entry's own item added. -/
theorem walk_eq (env : Env) (ctx : Ctx) (ns : Option Namespace) (d : Die) (acc : Acc) :
    walk env ctx ns d acc =
      if IsFn ctx d then
        match (subState env.lowPc ns d).specification with
        | some spec => acc.append { subs := [⟨d, spec, (subState env.lowPc ns d).abstractOrigin, ownFunction env.lowPc ns d⟩] }
        | none => (walkAll env .func (newNs (ownFunction env.lowPc ns d).ns (ownFunction env.lowPc ns d).name .function) d.children acc).append
            { functions := [finishFunction (ownFunction env.lowPc ns d) d] }
      else match opens ctx d.tag with
        | some c => (walkAll env c (scopeNs ns d) d.children acc).append (here env ctx ns d)
        | none => acc.append (here env ctx ns d) := by
  obtain ⟨o, tag, attrs, cs⟩ := d
  by_cases h : IsFn ctx (.node o tag attrs cs)
  · rw [if_pos h]
    obtain ⟨rfl, hc⟩ := h
    cases ctx <;> first | (exfalso; revert hc; decide) | skip
    all_goals
      simp only [walk, ownFunction, Die.children]
      split <;> simp_all [Acc.append]
  · rw [if_neg h]
    simp only [Die.tag]
    have hM := fun (c : Ctx) (hc : c = .type ∨ c = .union_ ∨ c = .variantPart ∨ c = .variant) =>
      addMember_eq env acc c ns (.node o .member attrs cs) rfl hc
    have hT := fun (c : Ctx) (t : Tag) (a : Acc) (hc : c.general = true)
        (ht : t ∈ [Tag.baseType, .typedef, .structure_, .union_, .enumeration, .unspecified]) =>
      addType_eq env a c ns (.node o t attrs cs) hc ht
    have hN := fun (acc : Acc) (h1 : ¬ IsVar ctx (.node o tag attrs cs)) (h2 : ¬ IsType ctx (.node o tag attrs cs)) =>
      here_none env acc ctx ns (.node o tag attrs cs) h1 h2
    cases ctx <;> cases tag <;>
      first
      | exact absurd ⟨rfl, by decide⟩ h
      | exact hM _ (by decide)
      | exact addVariable_eq env acc ns _ rfl
      | exact hT _ _ _ (by decide) (by decide)
      | (refine hN acc ?_ ?_ <;> simp [IsVar, IsType, Die.tag, Ctx.general]; done)
      | (refine hN (walkAll env _ _ _ _) ?_ ?_ <;> simp [IsVar, IsType, Die.tag, Ctx.general]; done)

end Verif.Dwarf
