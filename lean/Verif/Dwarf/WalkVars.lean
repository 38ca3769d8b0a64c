import Verif.Dwarf.WalkFix
/-!
# The loop that resolves specifications of variables, and uniqueness of scopes
-/
namespace Verif.Dwarf
open Verif.Item Verif.Types Verif.Namespace Verif.Range Verif.Sentinel

/-! ### The loop -/

/-- The offset is that of a variable without specification, or of one whose chain of specifications
leads to such a variable. -/
inductive VRes (plain : List (Nat × Variable)) (defs : List DeferredVar) : Nat → Prop
  | plain {o} : o ∈ plain.map (·.1) → VRes plain defs o
  | refers {e s} : e ∈ defs → e.specification = some s → VRes plain defs s → VRes plain defs e.offset

/-- Where a record comes from. -/
def VFrom (plain : List (Nat × Variable)) (defs : List DeferredVar) (P : List (Nat × Variable)) (p : Nat × Variable) : Prop :=
  p ∈ plain ∨ ∃ e ∈ defs, e.offset = p.1 ∧ ∃ s g, e.specification = some s ∧ (s, g) ∈ P ∧ p.2 = inheritVar e.var g

theorem VFrom.mono {plain defs P P' p} (h : VFrom plain defs P p) (hs : ∀ q ∈ P, q ∈ P') : VFrom plain defs P' p := by
  rcases h with h | ⟨e, he, ho, s, g, h1, h2, h3⟩
  · exact .inl h
  · exact .inr ⟨e, he, ho, s, g, h1, hs _ h2, h3⟩

/-- What holds in the loop: `M` is the map, `pool` the variables not resolved yet. -/
structure VInv (plain : List (Nat × Variable)) (defs : List DeferredVar) (M P : List (Nat × Variable)) (pool : List DeferredVar) : Prop where
  reps : Reps M P
  nodup : (P.map (·.1) ++ pool.map (·.offset)).Nodup
  sub : ∀ e ∈ pool, e ∈ defs
  start : ∀ p ∈ plain, p ∈ P
  all : ∀ e ∈ defs, e.offset ∈ P.map (·.1) ∨ e ∈ pool
  res : ∀ p ∈ P, VRes plain defs p.1
  origin : ∀ p ∈ P, VFrom plain defs P p

theorem VInv.resolve {plain defs M P todo} {defer : List DeferredVar} {e : DeferredVar} {b : Bool} (h : VInv plain defs M P (e :: todo ++ defer)) :
    ∃ P', VInv plain defs (resolveVar (M, defer, b) e).1 P' (todo ++ (resolveVar (M, defer, b) e).2.1) := by
  unfold resolveVar
  simp only
  split
  · next g hg =>
    obtain ⟨s, hs, hg⟩ : ∃ s, e.specification = some s ∧ mapGet s M = some g := by
      cases hsp : e.specification with
      | none => rw [hsp] at hg; cases hg
      | some s => rw [hsp] at hg; exact ⟨s, rfl, hg⟩
    have hgP := h.reps.only _ _ hg
    have hnd := h.nodup
    simp only [List.cons_append, List.map_cons] at hnd
    have hk : e.offset ∉ P.map (·.1) := fun hm => (List.nodup_append.1 hnd).2.2 _ hm _ (by simp) rfl
    refine ⟨P ++ [(e.offset, inheritVar e.var g)], h.reps.insert hk, ?_, ?_, ?_, ?_, ?_, ?_⟩
    · simpa using hnd
    · intro x hx; exact h.sub x (by simp only [List.cons_append, List.mem_cons]; exact .inr hx)
    · intro p hp; exact List.mem_append_left _ (h.start p hp)
    · intro x hx
      rcases h.all x hx with hx | hx
      · left; rw [List.map_append]; exact List.mem_append_left _ hx
      · simp only [List.cons_append, List.mem_cons] at hx
        rcases hx with rfl | hx
        · left; simp
        · exact .inr hx
    · intro p hp
      rcases List.mem_append.1 hp with hp | hp
      · exact h.res p hp
      · simp only [List.mem_singleton] at hp
        subst hp
        exact .refers (h.sub e (by simp)) hs (h.res _ hgP)
    · intro p hp
      rcases List.mem_append.1 hp with hp | hp
      · exact (h.origin p hp).mono fun q hq => List.mem_append_left _ hq
      · simp only [List.mem_singleton] at hp
        subst hp
        exact .inr ⟨e, h.sub e (by simp), rfl, s, g, hs, List.mem_append_left _ hgP, rfl⟩
  · have hm : ∀ x, x ∈ todo ++ (defer ++ [e]) ↔ x ∈ e :: todo ++ defer := by
      intro x; simp only [List.mem_append, List.mem_cons, List.not_mem_nil, or_false, List.cons_append]
      constructor
      · rintro (h | h | h) <;> simp [h]
      · rintro (h | h | h) <;> simp [h]
    refine ⟨P, h.reps, ?_, ?_, h.start, ?_, h.res, h.origin⟩
    · refine (List.Perm.nodup_iff ?_).1 h.nodup
      refine List.Perm.append_left _ ?_
      refine List.Perm.map _ ?_
      rw [List.cons_append, ← List.append_assoc]
      exact (List.perm_append_singleton _ _).symm
    · intro x hx; exact h.sub x ((hm x).1 hx)
    · intro x hx; exact (h.all x hx).imp_right fun h => (hm x).2 h

theorem VInv.resolveAll {plain defs M P todo} {defer : List DeferredVar} {b : Bool} (h : VInv plain defs M P (todo ++ defer)) :
    ∃ P', VInv plain defs (todo.foldl resolveVar (M, defer, b)).1 P' (todo.foldl resolveVar (M, defer, b)).2.1 := by
  induction todo generalizing M P defer b with
  | nil => exact ⟨P, h⟩
  | cons e todo ih =>
    obtain ⟨P', h'⟩ := h.resolve (b := b)
    rw [List.foldl_cons]
    exact ih h'

theorem resolveVar_noprogress {todo : List DeferredVar} {M : List (Nat × Variable)} {defer : List DeferredVar} {b : Bool}
    (h : (todo.foldl resolveVar (M, defer, b)).2.2 = false) :
    b = false ∧ todo.foldl resolveVar (M, defer, b) = (M, defer ++ todo, false) ∧
    ∀ e ∈ todo, ∀ s, e.specification = some s → mapGet s M = none := by
  induction todo generalizing M defer b with
  | nil => simp_all
  | cons e todo ih =>
    rw [List.foldl_cons] at h ⊢
    obtain ⟨h1, h2, h3⟩ := ih (M := (resolveVar (M, defer, b) e).1) (defer := (resolveVar (M, defer, b) e).2.1)
      (b := (resolveVar (M, defer, b) e).2.2) h
    cases hg : e.specification.bind fun o => mapGet o M with
    | some g => simp [resolveVar, hg] at h1
    | none =>
      simp only [resolveVar, hg] at h1 h2 h3 ⊢
      refine ⟨h1, by rw [h2]; simp, ?_⟩
      intro x hx s hs
      rcases List.mem_cons.1 hx with rfl | hx
      · rw [hs] at hg; exact hg
      · exact h3 x hx s hs

theorem resolveVar_progress {todo : List DeferredVar} {M : List (Nat × Variable)} {defer : List DeferredVar} {b : Bool} :
    (todo.foldl resolveVar (M, defer, b)).2.1.length + (if (todo.foldl resolveVar (M, defer, b)).2.2 then 1 else 0) ≤
    todo.length + defer.length + (if b then 1 else 0) := by
  induction todo generalizing M defer b with
  | nil => cases b <;> simp
  | cons e todo ih =>
    rw [List.foldl_cons]
    refine Nat.le_trans (ih (M := (resolveVar (M, defer, b) e).1) (defer := (resolveVar (M, defer, b) e).2.1)
      (b := (resolveVar (M, defer, b) e).2.2)) ?_
    cases hg : e.specification.bind fun o => mapGet o M with
    | some g =>
      simp only [resolveVar, hg, if_true, List.length_cons]
      split <;> omega
    | none => simp only [resolveVar, hg, List.length_append, List.length_cons, List.length_nil]; omega

theorem VInv.complete {plain defs M P pool} (h : VInv plain defs M P pool)
    (hget : ∀ e ∈ pool, ∀ s, e.specification = some s → mapGet s M = none) {o : Nat} (hr : VRes plain defs o) : o ∈ P.map (·.1) := by
  induction hr with
  | plain ho =>
    obtain ⟨p, hp, rfl⟩ := List.mem_map.1 ho
    exact List.mem_map.2 ⟨p, h.start p hp, rfl⟩
  | refers he hs _ ih =>
    rcases h.all _ he with h' | h'
    · exact h'
    · obtain ⟨p, hp, rfl⟩ := List.mem_map.1 ih
      have := h.reps.has p hp
      rw [hget _ h' _ hs] at this
      cases this

theorem fixVars_spec {plain : List (Nat × Variable)} {defs : List DeferredVar} {n : Nat} {M P pool M'} (h : VInv plain defs M P pool)
    (hf : fixVars n M pool = some M') :
    ∃ P', Reps M' P' ∧ (∀ o, o ∈ P'.map (·.1) ↔ VRes plain defs o) ∧ ∀ p ∈ P', VFrom plain defs P' p := by
  induction n generalizing M P pool with
  | zero => cases hf
  | succ n ih =>
    unfold fixVars at hf
    obtain ⟨P1, h1⟩ := VInv.resolveAll (b := false) (defer := []) (todo := pool) (by simpa using h)
    have hno := resolveVar_noprogress (todo := pool) (M := M) (defer := []) (b := false)
    rcases hr : pool.foldl resolveVar (M, [], false) with ⟨M1, defer, prog⟩
    rw [hr] at hf h1 hno
    simp only at hf h1 hno
    have fin : ∀ {M2 P2 pool2}, VInv plain defs M2 P2 pool2 → (∀ e ∈ pool2, ∀ s, e.specification = some s → mapGet s M2 = none) →
        ∃ P', Reps M2 P' ∧ (∀ o, o ∈ P'.map (·.1) ↔ VRes plain defs o) ∧ ∀ p ∈ P', VFrom plain defs P' p := by
      intro M2 P2 pool2 h2 hg
      refine ⟨P2, h2.reps, fun o => ⟨fun ho => ?_, h2.complete hg⟩, h2.origin⟩
      obtain ⟨p, hp, rfl⟩ := List.mem_map.1 ho
      exact h2.res p hp
    split at hf
    · next hd =>
      obtain rfl : defer = [] := by simpa using hd
      cases hf
      exact fin h1 (by simp)
    · split at hf
      · exact ih h1 hf
      · next hp =>
        cases hf
        obtain ⟨-, heq, hget⟩ := hno (by simpa using hp)
        obtain ⟨rfl, rfl, -⟩ : M1 = M ∧ defer = pool ∧ prog = false := by simpa using heq
        exact fin h1 hget

theorem fixVars_ends (n : Nat) (M : List (Nat × Variable)) (pool : List DeferredVar) (h : pool.length + 1 ≤ n) :
    ∃ M', ∀ m, n ≤ m → fixVars m M pool = some M' := by
  induction n generalizing M pool with
  | zero => omega
  | succ n ih =>
    have hp := resolveVar_progress (todo := pool) (M := M) (defer := []) (b := false)
    rcases hr : pool.foldl resolveVar (M, [], false) with ⟨M1, defer, prog⟩
    rw [hr] at hp
    simp only at hp
    by_cases hd : defer = []
    · refine ⟨M1, fun m hm => ?_⟩
      obtain ⟨m, rfl⟩ : ∃ k, m = k + 1 := ⟨m - 1, by omega⟩
      unfold fixVars
      simp only [hr, hd]; rfl
    · cases hb : prog with
      | true =>
        rw [hb] at hp
        simp only [if_true, List.length_nil, Bool.false_eq_true, if_false] at hp
        obtain ⟨M', h'⟩ := ih M1 defer (by omega)
        refine ⟨M', fun m hm => ?_⟩
        obtain ⟨m, rfl⟩ : ∃ k, m = k + 1 := ⟨m - 1, by omega⟩
        unfold fixVars
        simp only [hr, hb]
        rw [if_neg (by simpa using hd)]
        exact h' m (by omega)
      | false =>
        refine ⟨M1, fun m hm => ?_⟩
        obtain ⟨m, rfl⟩ : ∃ k, m = k + 1 := ⟨m - 1, by omega⟩
        unfold fixVars
        simp only [hr, hb]
        rw [if_neg (by simpa using hd)]
        rfl

/-! ### An item is in one place only -/

/-- An entry and where it is. -/
structure ItemPlace where
  ctx : Ctx
  ns : Option Namespace
  die : Die

mutual
/-- All entries at and below an entry that matter, with their places. -/
def places (F : Nat → Option Function) : Ctx → Option Namespace → Die → List ItemPlace
  | ctx, ns, .node o tag attrs cs =>
    ⟨ctx, ns, .node o tag attrs cs⟩ ::
      (if IsFn ctx (.node o tag attrs cs) then
        match F o with
        | some f => placesAll F .func (newNs f.ns f.name .function) cs
        | none => []
       else match opens ctx tag with
        | some c => placesAll F c (scopeNs ns (.node o tag attrs cs)) cs
        | none => [])
/-- All entries at and below a list of entries that matter, with their places. -/
def placesAll (F : Nat → Option Function) : Ctx → Option Namespace → List Die → List ItemPlace
  | _, _, [] => []
  | ctx, ns, d :: ds => places F ctx ns d ++ placesAll F ctx ns ds
end

mutual
theorem places_items (F : Nat → Option Function) (ctx : Ctx) (ns : Option Namespace) : ∀ d,
    (∀ o, Item.fn o ∈ items ctx d → (F o).isSome) → (places F ctx ns d).flatMap (fun p => ownItem p.ctx p.die) = items ctx d
  | .node o tag attrs cs, h => by
    rw [items] at h ⊢
    rw [places, List.flatMap_cons]
    congr 1
    by_cases hf : IsFn ctx (.node o tag attrs cs)
    · rw [if_pos hf, if_pos hf]
      rw [if_pos hf, isFn_not _ _ hf] at h
      have := h o (by simp [Die.offset])
      obtain ⟨f, hF⟩ := Option.isSome_iff_exists.1 this
      rw [hF]
      exact placesAll_items F .func _ cs fun o ho => h o (by simp [ho])
    · rw [if_neg hf, if_neg hf]
      rw [if_neg hf] at h
      cases hc : opens ctx tag with
      | none => rfl
      | some c => rw [hc] at h; exact placesAll_items F c _ cs fun o ho => h o (by simp [ho])
theorem placesAll_items (F : Nat → Option Function) (ctx : Ctx) (ns : Option Namespace) : ∀ ds,
    (∀ o, Item.fn o ∈ itemsAll ctx ds → (F o).isSome) → (placesAll F ctx ns ds).flatMap (fun p => ownItem p.ctx p.die) = itemsAll ctx ds
  | [], _ => rfl
  | d :: ds, h => by
    rw [itemsAll] at h ⊢
    rw [placesAll, List.flatMap_append, places_items F ctx ns d fun o ho => h o (by simp [ho]),
      placesAll_items F ctx ns ds fun o ho => h o (by simp [ho])]
end

theorem places_sub_placesAll {F ctx ns} {d : Die} {ds : List Die} (h : d ∈ ds) : ∀ x ∈ places F ctx ns d, x ∈ placesAll F ctx ns ds := by
  induction ds with
  | nil => cases h
  | cons e ds ih =>
    intro x hx
    rw [placesAll, List.mem_append]
    rcases List.mem_cons.1 h with rfl | h
    · exact .inl hx
    · exact .inr (ih h x hx)

theorem InScope.places {F root ctx ns ds} (h : InScope F root ctx ns ds) : ∀ x ∈ placesAll F ctx ns ds, x ∈ placesAll F .unit none root := by
  induction h with
  | root => exact fun _ h => h
  | @inside ctx ns ds n c _ hn ho ih =>
    intro x hx
    refine ih x (places_sub_placesAll hn x ?_)
    have hf := not_isFn_of_opens ho
    obtain ⟨o, tag, attrs, cs⟩ := n
    rw [Dwarf.places, if_neg hf]
    simp only [Die.tag] at ho
    rw [ho]
    exact List.mem_cons_of_mem _ hx
  | @body ctx ns ds d f _ hd hf hF ih =>
    intro x hx
    refine ih x (places_sub_placesAll hd x ?_)
    obtain ⟨o, tag, attrs, cs⟩ := d
    rw [Dwarf.places, if_pos hf]
    simp only [Die.offset] at hF
    rw [hF]
    exact List.mem_cons_of_mem _ hx

theorem InScope.place {F root ctx ns ds} (h : InScope F root ctx ns ds) {d : Die} (hd : d ∈ ds) : ⟨ctx, ns, d⟩ ∈ placesAll F .unit none root := by
  refine h.places _ (places_sub_placesAll hd _ ?_)
  obtain ⟨o, tag, attrs, cs⟩ := d
  rw [Dwarf.places]
  exact List.mem_cons_self ..

theorem unique_of_nodup {α β : Type} {g : α → List β} {l : List α} (h : (l.flatMap g).Nodup) {a b : α} {x : β} (ha : a ∈ l) (hb : b ∈ l)
    (hxa : x ∈ g a) (hxb : x ∈ g b) : a = b := by
  induction l with
  | nil => cases ha
  | cons c l ih =>
    rw [List.flatMap_cons, List.nodup_append] at h
    rcases List.mem_cons.1 ha with h1 | h1 <;> rcases List.mem_cons.1 hb with h2 | h2
    · rw [h1, h2]
    · exact absurd rfl (h.2.2 x (h1 ▸ hxa) x (List.mem_flatMap.2 ⟨b, h2, hxb⟩))
    · exact absurd rfl (h.2.2 x (h2 ▸ hxb) x (List.mem_flatMap.2 ⟨a, h1, hxa⟩))
    · exact ih h.2.1 h1 h2

/-- An item determines its entry and its scope. -/
theorem scope_unique {F : Nat → Option Function} {root : List Die} (hn : (itemsAll .unit root).Nodup)
    (hF : ∀ o, Item.fn o ∈ itemsAll .unit root → (F o).isSome) {ctx ns ds d ctx' ns' ds' d'} (h : InScope F root ctx ns ds) (hd : d ∈ ds)
    (h' : InScope F root ctx' ns' ds') (hd' : d' ∈ ds') {i : Item} (hi : i ∈ ownItem ctx d) (hi' : i ∈ ownItem ctx' d') :
    ns = ns' ∧ d = d' := by
  have := unique_of_nodup (g := fun p : ItemPlace => ownItem p.ctx p.die) (by rw [placesAll_items F .unit none root hF]; exact hn)
    (h.place hd) (h'.place hd') hi hi'
  simp only [ItemPlace.mk.injEq] at this
  exact ⟨this.2.1, this.2.2⟩

theorem InScope.item {F : Nat → Option Function} {root : List Die} (hF : ∀ o, Item.fn o ∈ itemsAll .unit root → (F o).isSome) {ctx ns ds d}
    (h : InScope F root ctx ns ds) (hd : d ∈ ds) {i : Item} (hi : i ∈ ownItem ctx d) : i ∈ itemsAll .unit root := by
  rw [← placesAll_items F .unit none root hF]
  exact List.mem_flatMap.2 ⟨_, h.place hd, hi⟩

end Verif.Dwarf
