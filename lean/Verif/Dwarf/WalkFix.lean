import Verif.Dwarf.WalkOk
/-!
# The loop that resolves specifications of functions
-/
namespace Verif.Dwarf
open Verif.Item Verif.Types Verif.Namespace Verif.Range Verif.Sentinel

/-! ### Ordered maps -/

theorem mapGet_insert (k k' : Nat) (v : β) (m : List (Nat × β)) :
    mapGet k' (mapInsert k v m) = if k' = k then some v else mapGet k' m := by
  induction m with
  | nil => simp [mapInsert, mapGet]
  | cons p m ih =>
    obtain ⟨a, b⟩ := p
    unfold mapInsert
    by_cases h1 : k < a
    · rw [if_pos h1, mapGet]
    · rw [if_neg h1]
      by_cases h2 : k = a
      · subst h2
        rw [if_pos rfl, mapGet, mapGet]
        by_cases h3 : k' = k <;> simp [h3]
      · rw [if_neg h2, mapGet, mapGet, ih]
        by_cases h3 : k' = a
        · subst h3; rw [if_pos rfl, if_pos rfl, if_neg (fun h => h2 h.symm)]
        · rw [if_neg h3, if_neg h3]

/-- The keys are strictly increasing. -/
def KeySorted (m : List (Nat × β)) : Prop := m.Pairwise fun a b => a.1 < b.1

theorem mem_mapInsert {k : Nat} {v : β} {m : List (Nat × β)} {p : Nat × β} (h : p ∈ mapInsert k v m) : p = (k, v) ∨ p ∈ m := by
  induction m with
  | nil => exact .inl (by simpa [mapInsert] using h)
  | cons q m ih =>
    obtain ⟨a, b⟩ := q
    unfold mapInsert at h
    split at h
    · simpa using h
    · split at h
      · rcases List.mem_cons.1 h with h | h
        · exact .inl h
        · exact .inr (List.mem_cons_of_mem _ h)
      · rcases List.mem_cons.1 h with h | h
        · exact .inr (by simp [h])
        · rcases ih h with h | h
          · exact .inl h
          · exact .inr (List.mem_cons_of_mem _ h)

theorem mapInsert_sorted {k : Nat} {v : β} {m : List (Nat × β)} (h : KeySorted m) : KeySorted (mapInsert k v m) := by
  induction m with
  | nil => simp [mapInsert, KeySorted]
  | cons q m ih =>
    obtain ⟨a, b⟩ := q
    have hc := List.pairwise_cons.1 h
    unfold mapInsert
    split
    · next hk =>
      refine List.pairwise_cons.2 ⟨?_, h⟩
      intro p hp
      rcases List.mem_cons.1 hp with rfl | hp
      · exact hk
      · exact Nat.lt_trans hk (hc.1 p hp)
    · split
      · next hk =>
        subst hk
        exact List.pairwise_cons.2 ⟨hc.1, hc.2⟩
      · next h1 h2 =>
        refine List.pairwise_cons.2 ⟨?_, ih hc.2⟩
        intro p hp
        rcases mem_mapInsert hp with rfl | hp
        · show a < k
          omega
        · exact hc.1 p hp

theorem mapGet_of_mem {m : List (Nat × β)} (h : KeySorted m) {k : Nat} {v : β} : mapGet k m = some v ↔ (k, v) ∈ m := by
  induction m with
  | nil => simp [mapGet]
  | cons q m ih =>
    obtain ⟨a, b⟩ := q
    have hc := List.pairwise_cons.1 h
    rw [mapGet, List.mem_cons]
    by_cases hk : k = a
    · subst hk
      rw [if_pos rfl]
      constructor
      · intro h; left; simp_all
      · rintro (h | h)
        · simp_all
        · exact absurd (hc.1 _ h) (Nat.lt_irrefl _)
    · rw [if_neg hk, ih hc.2]
      constructor
      · exact .inr
      · rintro (h | h)
        · exact absurd (Prod.mk.inj h).1 hk
        · exact h

/-- The map holds exactly the listed records. -/
structure Reps (M : List (Nat × β)) (P : List (Nat × β)) : Prop where
  sorted : KeySorted M
  has : ∀ p ∈ P, mapGet p.1 M = some p.2
  only : ∀ o f, mapGet o M = some f → (o, f) ∈ P

theorem Reps.insert {M P : List (Nat × β)} (h : Reps M P) {k : Nat} {v : β} (hk : k ∉ P.map (·.1)) : Reps (mapInsert k v M) (P ++ [(k, v)]) := by
  refine ⟨mapInsert_sorted h.sorted, ?_, ?_⟩
  · intro p hp
    rw [mapGet_insert]
    rcases List.mem_append.1 hp with hp | hp
    · rw [if_neg, h.has p hp]
      intro hpk
      exact hk (List.mem_map.2 ⟨p, hp, hpk⟩)
    · simp only [List.mem_singleton] at hp
      subst hp
      simp
  · intro o f hf
    rw [mapGet_insert] at hf
    split at hf
    · next ho => simp_all
    · exact List.mem_append_left _ (h.only o f hf)

theorem Reps.insertAll {M P : List (Nat × β)} (L : List (Nat × β)) (h : Reps M P) (hn : ((P ++ L).map (·.1)).Nodup) :
    Reps (L.foldl (fun m p => mapInsert p.1 p.2 m) M) (P ++ L) := by
  induction L generalizing M P with
  | nil => simpa using h
  | cons p L ih =>
    rw [List.foldl_cons]
    have hp : p.1 ∉ P.map (·.1) := by
      rw [List.map_append, List.nodup_append] at hn
      intro hm
      exact hn.2.2 _ hm _ (by simp) rfl
    have := ih (h.insert (v := p.2) hp) (by simpa using hn)
    simpa using this

/-! ### Reachable functions -/

theorem fns_isFn {ctx : Ctx} {d : Die} (h : IsFn ctx d) : fns ctx d = [d] := by
  obtain ⟨o, tag, attrs, cs⟩ := d
  rw [fns, if_pos h]

theorem not_isFn_of_opens {ctx : Ctx} {d : Die} {c : Ctx} (h : opens ctx d.tag = some c) : ¬ IsFn ctx d := by
  rintro ⟨ht, -⟩
  rw [ht] at h
  cases ctx <;> simp [opens] at h

theorem fns_opens {ctx : Ctx} {d : Die} {c : Ctx} (h : opens ctx d.tag = some c) : fns ctx d = fnsAll c d.children := by
  have := not_isFn_of_opens h
  obtain ⟨o, tag, attrs, cs⟩ := d
  rw [fns, if_neg this]
  simp only [Die.tag] at h
  rw [h]; rfl

theorem fns_sub_fnsAll {ctx : Ctx} {d : Die} {ds : List Die} (h : d ∈ ds) : ∀ x ∈ fns ctx d, x ∈ fnsAll ctx ds := by
  induction ds with
  | nil => cases h
  | cons e ds ih =>
    intro x hx
    rw [fnsAll, List.mem_append]
    rcases List.mem_cons.1 h with rfl | h
    · exact .inl hx
    · exact .inr (ih h x hx)

/-! ### The invariant -/

/-- The record of an entry, by offset. -/
def key (p : Die × Function) : Nat × Function := (p.1.offset, p.2)

/-- What holds between the iterations: `P` are the functions stored, `todo` the deferred functions
still to be looked at. -/
structure Inv (env : Env) (root : List Die) (P : List (Die × Function)) (todo : List Deferred) (s : Fix) : Prop where
  nofns : s.acc.functions = []
  reps : Reps s.functions (P.map key)
  offs : ∀ p ∈ P, p.2.offset = some p.1.offset
  toks : (P.map (fun p => Item.fn p.1.offset) ++ s.acc.dataToks ++ (todo ++ s.acc.subs).flatMap Deferred.toks).Perm (itemsAll .unit root)
  sound : ∀ F, (∀ p ∈ P, F p.1.offset = some p.2) → (∀ p ∈ P, RecOK env F root p) ∧
    AccOK env F root { s.acc with subs := todo ++ s.acc.subs }
  closed : ∀ d ∈ fnsAll .unit root, d ∈ P.map (·.1) ∨ d ∈ (todo ++ s.acc.subs).map (·.die)
  inner : ∀ p ∈ P, ∀ d ∈ fnsAll .func p.1.children, d ∈ P.map (·.1) ∨ d ∈ (todo ++ s.acc.subs).map (·.die)

theorem nodup_of_fn {P : List (Die × Function)} {l : List Item} (h : (P.map (fun p => Item.fn p.1.offset) ++ l).Nodup) :
    ((P.map key).map (·.1)).Nodup := by
  have := (List.nodup_append.1 h).1
  rw [List.map_map]
  have h2 : P.map (fun p => Item.fn p.1.offset) = (P.map ((·.1) ∘ key)).map Item.fn := by
    rw [List.map_map]; rfl
  rw [h2] at this
  rw [List.nodup_iff_pairwise_ne] at this ⊢
  rw [List.pairwise_map] at this
  exact this.imp fun {a b} h hab => h (by rw [hab])

theorem drain_eq (L : List (Die × Function)) (M : List (Nat × Function)) (ho : ∀ p ∈ L, p.2.offset = some p.1.offset) :
    drain M (L.map (·.2)) = (L.map key).foldl (fun m p => mapInsert p.1 p.2 m) M := by
  unfold drain
  rw [List.foldl_map, List.foldl_map]
  induction L generalizing M with
  | nil => rfl
  | cons p L ih =>
    rw [List.foldl_cons, List.foldl_cons, ih _ fun q hq => ho q (by simp [hq])]
    congr 1
    rw [ho p (by simp)]
    rfl

/-- Storing a deferred function keeps the invariant. -/
theorem Inv.store {env : Env} {root : List Die} (hn : (itemsAll .unit root).Nodup) {P todo s} {e : Deferred} {f : Function}
    (h : Inv env root P (e :: todo) s) (hf : f.offset = some e.die.offset)
    (hmade : ∀ F, (∀ p ∈ P, F p.1.offset = some p.2) → ∀ ns, e.function = ownFunction env.lowPc ns e.die →
      Made F root (ownFunction env.lowPc ns e.die) e.die (finishFunction f e.die)) :
    ∃ P', Inv env root P' todo (storeSub env s e f) := by
  obtain ⟨L, hL, hLs⟩ := walkAll_ok env .func (newNs f.ns f.name .function) e.die.children
  have htok := walkAll_toks env .func (newNs f.ns f.name .function) e.die.children
  generalize hΔ : walkAll env .func (newNs f.ns f.name .function) e.die.children {} = Δ at hL hLs htok
  have hstore : storeSub env s e f = Fix.mk (drain (mapInsert e.die.offset (finishFunction f e.die) s.functions) Δ.functions)
      { (s.acc.append Δ) with functions := [] } s.progress := by
    unfold storeSub
    rw [walkAll_append, hΔ]
    simp [Acc.append, h.nofns]
  have hdrain : drain (mapInsert e.die.offset (finishFunction f e.die) s.functions) Δ.functions =
      (L.map key).foldl (fun m p => mapInsert p.1 p.2 m) (mapInsert e.die.offset (finishFunction f e.die) s.functions) := by
    rw [hL.functions]
    exact drain_eq L _ hL.offset
  let P' := P ++ [(e.die, finishFunction f e.die)] ++ L
  have htoks : (P'.map (fun p => Item.fn p.1.offset) ++ (storeSub env s e f).acc.dataToks ++
      (todo ++ (storeSub env s e f).acc.subs).flatMap Deferred.toks).Perm (itemsAll .unit root) := by
    refine List.Perm.trans ?_ h.toks
    rw [hstore]
    rw [List.perm_iff_count] at htok ⊢
    intro x
    have := htok x
    have hl : L.map (fun p => Item.fn p.1.offset) = Δ.functions.map (fun f => Item.fn (rawOffset f.offset)) := by
      rw [hL.functions, List.map_map]
      refine List.map_congr_left fun p hp => ?_
      simp [hL.offset p hp, rawOffset]
    simp only [P', Acc.toks, Acc.dataToks, Acc.append, List.map_append, List.flatMap_append, List.count_append, List.map_cons,
      List.map_nil, List.cons_append, List.flatMap_cons, Deferred.toks, List.count_cons, List.count_nil, hl] at this ⊢
    omega
  have hnd : ((P'.map key).map (·.1)).Nodup := by
    have := htoks.nodup_iff.2 hn
    rw [List.append_assoc] at this
    exact nodup_of_fn this
  refine ⟨P', ?_, ?_, ?_, htoks, ?_, ?_, ?_⟩
  · rw [hstore]
  · rw [hstore]
    show Reps (drain _ _) _
    rw [hdrain]
    have h1 : e.die.offset ∉ (P.map key).map (·.1) := by
      simp only [P', List.map_append, List.append_assoc] at hnd
      intro hm
      exact (List.nodup_append.1 hnd).2.2 _ hm _ (by simp [key]) rfl
    have := (h.reps.insert (v := finishFunction f e.die) h1).insertAll (L.map key) (by simpa [P', key] using hnd)
    simpa [P', key] using this
  · intro p hp
    simp only [P', List.mem_append, List.mem_singleton] at hp
    rcases hp with (hp | rfl) | hp
    · exact h.offs p hp
    · exact hf
    · exact hL.offset p hp
  · intro F hF
    have hFP : ∀ p ∈ P, F p.1.offset = some p.2 := fun p hp => hF p (by simp [P', hp])
    obtain ⟨hr, ha⟩ := h.sound F hFP
    obtain ⟨hs, ns, hat, hown⟩ := ha.subs e (by simp)
    obtain ⟨ctx, ds, hscope, hd, hfn⟩ := hat
    have hbody := InScope.body hscope hd hfn (hF (e.die, finishFunction f e.die) (by simp [P']))
    obtain ⟨hr', ha'⟩ := hLs F root e.die.children (fun p hp => hF p (by simp [P', hp])) hbody (fun _ h => h)
    refine ⟨?_, ?_⟩
    · intro p hp
      simp only [P', List.mem_append, List.mem_singleton] at hp
      rcases hp with (hp | rfl) | hp
      · exact hr p hp
      · exact ⟨ns, ⟨ctx, ds, hscope, hd, hfn⟩, hmade F hFP ns hown⟩
      · exact hr' p hp
    · rw [hstore]
      have := ha.append ha'
      constructor
      · intro x hx
        refine this.subs x ?_
        simp only [Acc.append, List.mem_append, List.mem_cons] at hx ⊢
        rcases hx with h | h | h <;> simp [h]
      · intro x hx
        exact this.variables x (by simpa [Acc.append] using hx)
      · intro x hx
        exact this.vars x (by simpa [Acc.append] using hx)
      · intro x hx
        exact this.types x (by simpa [Acc.append] using hx)
  all_goals
    have hmono : ∀ d, (d ∈ P.map (·.1) ∨ d ∈ (e :: todo ++ s.acc.subs).map (·.die)) →
        (d ∈ P'.map (·.1) ∨ d ∈ (todo ++ (storeSub env s e f).acc.subs).map (·.die)) := by
      intro d hd
      rw [hstore]
      simp only [P', Acc.append, List.map_append, List.mem_append, List.cons_append, List.map_cons, List.mem_cons, List.map_nil,
        List.not_mem_nil, or_false] at hd ⊢
      rcases hd with h | h | h | h <;> simp [h]
    have hmono' : ∀ d, (d ∈ L.map (·.1) ∨ d ∈ Δ.subs.map (·.die)) →
        (d ∈ P'.map (·.1) ∨ d ∈ (todo ++ (storeSub env s e f).acc.subs).map (·.die)) := by
      intro d hd
      rw [hstore]
      simp only [P', Acc.append, List.map_append, List.mem_append] at hd ⊢
      rcases hd with h | h <;> simp [h]
  · intro d hd
    exact hmono d (h.closed d hd)
  · intro p hp d hd
    simp only [P', List.mem_append, List.mem_singleton] at hp
    rcases hp with (hp | rfl) | hp
    · exact hmono d (h.inner p hp d hd)
    · exact hmono' d (hL.closed d hd)
    · exact hmono' d (hL.inner p hp d hd)

/-! ### Inheriting -/

theorem inherit_completes {own g : Function} {a : Bool} {d : Die} (hp : own.parameters = []) :
    Completes own g (finishFunction (inheritSub own g a) d) a d := by
  constructor
  · rfl
  · simp only [finishFunction, inheritSub]; cases own.name <;> rfl
  · simp only [finishFunction, inheritSub]; cases own.linkageName <;> rfl
  · simp only [finishFunction, inheritSub]; cases own.source.file <;> rfl
  · simp only [finishFunction, inheritSub]; cases own.returnType <;> rfl
  · simp only [finishFunction, inheritSub]; cases a <;> simp [hp]
  · exact ⟨rfl, rfl, rfl, rfl, rfl, rfl, rfl⟩

theorem Inv.requeue {env root P todo s} {e : Deferred} (h : Inv env root P (e :: todo) s) :
    Inv env root P todo { s with acc := { s.acc with subs := s.acc.subs ++ [e] } } := by
  have hm : ∀ x, x ∈ todo ++ (s.acc.subs ++ [e]) ↔ x ∈ e :: todo ++ s.acc.subs := by
    intro x; simp only [List.mem_append, List.mem_cons, List.not_mem_nil, or_false, List.cons_append]
    constructor
    · rintro (h | h | h) <;> simp [h]
    · rintro (h | h | h) <;> simp [h]
  have hm' : ∀ (x : Die), x ∈ (todo ++ (s.acc.subs ++ [e])).map (·.die) ↔ x ∈ (e :: todo ++ s.acc.subs).map (·.die) := by
    intro x; simp only [List.mem_map, hm]
  refine ⟨h.nofns, h.reps, h.offs, ?_, ?_, ?_, ?_⟩
  · refine List.Perm.trans ?_ h.toks
    rw [List.perm_iff_count]
    intro x
    simp only [Acc.dataToks, List.flatMap_append, List.count_append, List.cons_append, List.flatMap_cons, List.flatMap_nil, List.count_nil]
    omega
  · intro F hF
    obtain ⟨hr, ha⟩ := h.sound F hF
    refine ⟨hr, ?_, ha.variables, ha.vars, ha.types⟩
    intro x hx
    exact ha.subs x ((hm x).1 hx)
  · intro d hd
    exact (h.closed d hd).imp_right fun h => (hm' d).2 h
  · intro p hp d hd
    exact (h.inner p hp d hd).imp_right fun h => (hm' d).2 h

theorem Inv.def {env root P todo s} (h : Inv env root P todo s) (e : Deferred) (he : e ∈ todo ++ s.acc.subs) :
    e.die.spec = some (e.specification, e.abstractOrigin) ∧ ∃ ns, e.function = ownFunction env.lowPc ns e.die := by
  obtain ⟨-, ha⟩ := h.sound (fun o => mapGet o s.functions) (fun p hp => h.reps.has (key p) (List.mem_map.2 ⟨p, hp, rfl⟩))
  obtain ⟨hs, ns, -, ho⟩ := ha.subs e he
  exact ⟨hs, ns, ho⟩

theorem Inv.resolve {env root} (hn : (itemsAll .unit root).Nodup) {P todo s} {e : Deferred} (h : Inv env root P (e :: todo) s) :
    ∃ P', Inv env root P' todo (resolveSub env s e) := by
  unfold resolveSub
  split
  · next g hg =>
    obtain ⟨hspec, ns, hown⟩ := h.def e (by simp)
    obtain ⟨P', hP'⟩ := h.store hn (f := inheritSub e.function g e.abstractOrigin)
      (by show e.function.offset = _; rw [hown]; exact (ownFunction_offset _ _ _).1)
      (by
        intro F hF ns' hns'
        refine .inr (.inl ⟨e.specification, e.abstractOrigin, g, hspec, ?_, ?_⟩)
        · have := h.reps.only _ _ hg
          obtain ⟨p, hp, hk⟩ := List.mem_map.1 this
          obtain ⟨h1, h2⟩ := Prod.mk.inj hk
          rw [← h1, ← h2]
          exact hF p hp
        · rw [hns']
          exact inherit_completes (ownFunction_offset _ _ _).2.2)
    exact ⟨P', ⟨hP'.nofns, hP'.reps, hP'.offs, hP'.toks, hP'.sound, hP'.closed, hP'.inner⟩⟩
  · exact ⟨P, h.requeue⟩

theorem Inv.resolveAll {env root} (hn : (itemsAll .unit root).Nodup) {P todo s} (h : Inv env root P todo s) :
    ∃ P', Inv env root P' [] (todo.foldl (resolveSub env) s) := by
  induction todo generalizing P s with
  | nil => exact ⟨P, h⟩
  | cons e todo ih =>
    obtain ⟨P', h'⟩ := h.resolve hn
    exact ih h'

theorem Inv.force {env root} (hn : (itemsAll .unit root).Nodup) {P todo s} (h : Inv env root P todo s)
    (hu : ∀ e ∈ todo, Unresolved root e.die) :
    ∃ P', Inv env root P' [] (todo.foldl (fun s d => storeSub env s d d.function) s) := by
  induction todo generalizing P s with
  | nil => exact ⟨P, h⟩
  | cons e todo ih =>
    obtain ⟨hspec, ns, hown⟩ := h.def e (by simp)
    obtain ⟨P', h'⟩ := h.store hn (f := e.function) (by rw [hown]; exact (ownFunction_offset _ _ _).1)
      (by
        intro F hF ns' hns'
        refine .inr (.inr ⟨by simp [hspec], hu e (by simp), ?_, ?_⟩)
        · rw [hns']; simp [finishFunction, (ownFunction_offset env.lowPc ns' e.die).2.2]
        · rw [hns']; rfl)
    exact ih h' fun x hx => hu x (by simp [hx])

/-! ### Without progress, nothing that is left resolves -/

theorem resolve_noprogress {env : Env} {todo : List Deferred} {s : Fix} (h : (todo.foldl (resolveSub env) s).progress = false) :
    s.progress = false ∧ todo.foldl (resolveSub env) s = { s with acc := { s.acc with subs := s.acc.subs ++ todo } } ∧
    ∀ e ∈ todo, mapGet e.specification s.functions = none := by
  induction todo generalizing s with
  | nil => exact ⟨h, by simp, by simp⟩
  | cons e todo ih =>
    rw [List.foldl_cons] at h ⊢
    obtain ⟨h1, h2, h3⟩ := ih h
    unfold resolveSub at h1 h2 h3 ⊢
    split at h1
    · simp at h1
    · next hg =>
      simp only [hg] at h2 h3
      refine ⟨h1, ?_, ?_⟩
      · show _ = _
        simp only [hg]
        rw [h2]
        simp
      · intro x hx
        rcases List.mem_cons.1 hx with rfl | hx
        · exact hg
        · exact h3 x hx

theorem Inv.visited {env root P todo s} (h : Inv env root P todo s) (hget : ∀ e ∈ todo ++ s.acc.subs, mapGet e.specification s.functions = none) :
    ∀ {ctx ds od}, Resolves root ctx ds od →
      (∀ d ∈ fnsAll ctx ds, d ∈ P.map (·.1) ∨ d ∈ (todo ++ s.acc.subs).map (·.die)) ∧ ∀ d, od = some d → d ∈ P.map (·.1) := by
  intro ctx ds od hr
  induction hr with
  | root => exact ⟨h.closed, nofun⟩
  | inside _ hn ho ih =>
    refine ⟨fun d hd => ih.1 d (fns_sub_fnsAll hn d (by rw [fns_opens ho]; exact hd)), nofun⟩
  | plain _ hd hf hs ih =>
    refine ⟨ih.1, ?_⟩
    rintro d' ⟨⟩
    rcases ih.1 _ (fns_sub_fnsAll hd _ (by rw [fns_isFn hf]; exact List.mem_singleton.2 rfl)) with h' | h'
    · exact h'
    · obtain ⟨e, he, rfl⟩ := List.mem_map.1 h'
      rw [(h.def e he).1] at hs
      cases hs
  | refers _ hd hf hs _ ho ih ih' =>
    refine ⟨ih.1, ?_⟩
    rintro d' ⟨⟩
    rcases ih.1 _ (fns_sub_fnsAll hd _ (by rw [fns_isFn hf]; exact List.mem_singleton.2 rfl)) with h' | h'
    · exact h'
    · obtain ⟨e, he, rfl⟩ := List.mem_map.1 h'
      rw [(h.def e he).1] at hs
      obtain ⟨rfl, rfl⟩ := Prod.mk.inj (Option.some.inj hs)
      have hP := ih'.2 _ rfl
      obtain ⟨p, hp, rfl⟩ := List.mem_map.1 hP
      have := h.reps.has (key p) (List.mem_map.2 ⟨p, hp, rfl⟩)
      have hno := hget e he
      rw [← ho] at hno
      exact absurd (this.symm.trans hno) (by simp)
  | body hr' ih =>
    refine ⟨?_, nofun⟩
    obtain ⟨p, hp, hpe⟩ := List.mem_map.1 (ih.2 _ rfl)
    rw [← hpe]
    exact h.inner p hp

theorem Inv.unresolved {env root} (hn : (itemsAll .unit root).Nodup) {P todo s} (h : Inv env root P todo s)
    (hget : ∀ e ∈ todo ++ s.acc.subs, mapGet e.specification s.functions = none) :
    ∀ e ∈ todo ++ s.acc.subs, Unresolved root e.die := by
  intro e he ctx ds hr
  have hP := (h.visited hget hr).2 _ rfl
  obtain ⟨p, hp, hpe⟩ := List.mem_map.1 hP
  have hnd := h.toks.nodup_iff.2 hn
  rw [List.append_assoc] at hnd
  refine (List.nodup_append.1 hnd).2.2 (.fn e.die.offset) (List.mem_map.2 ⟨p, hp, by rw [hpe]⟩) (.fn e.die.offset) ?_ rfl
  exact List.mem_append_right _ (List.mem_flatMap.2 ⟨e, he, by simp [Deferred.toks]⟩)

theorem Inv.round {env root} (hn : (itemsAll .unit root).Nodup) {P s} (h : Inv env root P [] s) :
    ∃ P', Inv env root P' [] (fixRound env s) := by
  have h0 : Inv env root P s.acc.subs { s with acc := { s.acc with subs := [] }, progress := false } :=
    ⟨h.nofns, h.reps, h.offs, by simpa [Acc.dataToks] using h.toks, by simpa using h.sound, by simpa using h.closed, by simpa using h.inner⟩
  obtain ⟨P1, h1⟩ := h0.resolveAll hn
  unfold fixRound
  simp only
  split
  · exact ⟨P1, h1⟩
  · next hp =>
    rw [Bool.not_eq_true] at hp
    obtain ⟨-, heq, hget⟩ := resolve_noprogress hp
    have hu := h0.unresolved hn (by simpa using hget)
    rw [heq]
    simp only [List.nil_append]
    refine h0.force hn ?_
    simpa using hu

theorem Inv.loop {env root} (hn : (itemsAll .unit root).Nodup) {n : Nat} {P s s'} (h : Inv env root P [] s) (hs : fixSubs env n s = some s') :
    ∃ P', Inv env root P' [] s' ∧ s'.acc.subs = [] := by
  induction n generalizing P s with
  | zero =>
    unfold fixSubs at hs
    split at hs
    · next he => cases hs; exact ⟨P, h, by simpa using he⟩
    · cases hs
  | succ n ih =>
    unfold fixSubs at hs
    split at hs
    · next he => cases hs; exact ⟨P, h, by simpa using he⟩
    · obtain ⟨P', h'⟩ := h.round hn
      exact ih h' hs

theorem Inv.start {env : Env} {root : List Die} (hn : (itemsAll .unit root).Nodup) {acc : Acc} (ha : acc = walkAll env .unit none root {}) :
    ∃ P, Inv env root P [] { functions := drain [] acc.functions, acc := { acc with functions := [] } } := by
  subst ha
  obtain ⟨L, hL, hLs⟩ := walkAll_ok env .unit none root
  have htok := walkAll_toks env .unit none root
  generalize walkAll env .unit none root {} = Δ at hL hLs htok
  have htoks : (L.map (fun p => Item.fn p.1.offset) ++ Δ.dataToks ++ Δ.subs.flatMap Deferred.toks).Perm (itemsAll .unit root) := by
    refine List.Perm.trans (.of_eq ?_) htok
    have hl : L.map (fun p => Item.fn p.1.offset) = Δ.functions.map (fun f => Item.fn (rawOffset f.offset)) := by
      rw [hL.functions, List.map_map]
      refine List.map_congr_left fun p hp => ?_
      simp [hL.offset p hp, rawOffset]
    rw [hl]; rfl
  refine ⟨L, rfl, ?_, hL.offset, by simpa [Acc.dataToks] using htoks, ?_, by simpa using hL.closed, by simpa using hL.inner⟩
  · show Reps (drain [] Δ.functions) _
    rw [hL.functions, drain_eq L _ hL.offset]
    have hnd := htoks.nodup_iff.2 hn
    rw [List.append_assoc] at hnd
    have := Reps.insertAll (M := ([] : List (Nat × Function))) (P := []) (L.map key) ⟨List.Pairwise.nil, nofun, nofun⟩
      (by simpa using nodup_of_fn hnd)
    simpa using this
  · intro F hF
    obtain ⟨hr, h⟩ := hLs F root root hF .root (fun _ h => h)
    exact ⟨hr, by simpa using h.subs, h.variables, h.vars, h.types⟩

/-! ### The loop ends -/

/-- The number of items still deferred. -/
def weight (l : List Deferred) : Nat := (l.flatMap Deferred.toks).length

@[simp] theorem weight_append (a b : List Deferred) : weight (a ++ b) = weight a + weight b := by simp [weight]
theorem weight_nil : weight [] = 0 := rfl
theorem weight_cons (e : Deferred) (l : List Deferred) : weight (e :: l) = (itemsAll .func e.die.children).length + 1 + weight l := by
  simp [weight, Deferred.toks]; omega

theorem weight_walk (env : Env) (ctx : Ctx) (ns : Option Namespace) (ds : List Die) :
    weight (walkAll env ctx ns ds {}).subs ≤ (itemsAll ctx ds).length := by
  rw [← (walkAll_toks env ctx ns ds).length_eq, Acc.toks, List.length_append]
  exact Nat.le_add_left _ _

theorem storeSub_weight (env : Env) (s : Fix) (e : Deferred) (f : Function) :
    weight (storeSub env s e f).acc.subs + 1 ≤ weight s.acc.subs + weight [e] := by
  unfold storeSub
  simp only
  rw [walkAll_append]
  have := weight_walk env .func (newNs f.ns f.name .function) e.die.children
  simp only [Acc.append, weight_append, weight_cons]
  omega

theorem resolveAll_weight (env : Env) (todo : List Deferred) (s : Fix) :
    weight (todo.foldl (resolveSub env) s).acc.subs + (if (todo.foldl (resolveSub env) s).progress then 1 else 0) ≤
      weight s.acc.subs + weight todo + (if s.progress then 1 else 0) := by
  induction todo generalizing s with
  | nil => exact Nat.le_refl _
  | cons e todo ih =>
    rw [List.foldl_cons]
    refine Nat.le_trans (ih _) ?_
    have hw : weight (e :: todo) = weight [e] + weight todo := weight_append [e] todo
    unfold resolveSub
    split
    · have := storeSub_weight env s e (inheritSub e.function ‹Function› e.abstractOrigin)
      simp only [if_true]
      omega
    · simp only [weight_append]
      omega

theorem force_weight (env : Env) (todo : List Deferred) (s : Fix) :
    weight (todo.foldl (fun s d => storeSub env s d d.function) s).acc.subs + todo.length ≤ weight s.acc.subs + weight todo := by
  induction todo generalizing s with
  | nil => simp [weight]
  | cons e todo ih =>
    rw [List.foldl_cons]
    have := ih (storeSub env s e e.function)
    have h2 := storeSub_weight env s e e.function
    have hw : weight (e :: todo) = weight [e] + weight todo := weight_append [e] todo
    rw [List.length_cons]
    omega

theorem fixRound_weight (env : Env) (s : Fix) (h : s.acc.subs ≠ []) : weight (fixRound env s).acc.subs < weight s.acc.subs := by
  unfold fixRound
  simp only
  have h1 := resolveAll_weight env s.acc.subs { s with acc := { s.acc with subs := [] }, progress := false }
  split
  · next hp =>
    rw [hp] at h1
    simp only [weight_nil, if_true, Bool.false_eq_true, if_false] at h1
    omega
  · next hp =>
    rw [Bool.not_eq_true] at hp
    obtain ⟨-, heq, -⟩ := resolve_noprogress hp
    rw [heq]
    simp only [List.nil_append]
    have h2 := force_weight env s.acc.subs { s with acc := { s.acc with subs := [] }, progress := false }
    have hl : 0 < s.acc.subs.length := List.length_pos_iff.2 h
    have h0 : weight ([] : List Deferred) = 0 := rfl
    simp only [h0] at h2
    omega

theorem fixSubs_ends (env : Env) (n : Nat) (s : Fix) (h : weight s.acc.subs ≤ n) : ∃ s', ∀ m, n ≤ m → fixSubs env m s = some s' := by
  induction n generalizing s with
  | zero =>
    refine ⟨s, fun m _ => ?_⟩
    have : s.acc.subs = [] := by
      cases hs : s.acc.subs with
      | nil => rfl
      | cons e l => rw [hs, weight_cons] at h; omega
    unfold fixSubs
    rw [this]; rfl
  | succ n ih =>
    by_cases hs : s.acc.subs = []
    · refine ⟨s, fun m _ => ?_⟩
      unfold fixSubs
      rw [hs]; rfl
    · obtain ⟨s', h'⟩ := ih (fixRound env s) (by have := fixRound_weight env s hs; omega)
      refine ⟨s', fun m hm => ?_⟩
      obtain ⟨m, rfl⟩ : ∃ k, m = k + 1 := ⟨m - 1, by omega⟩
      unfold fixSubs
      rw [if_neg (by simpa using hs)]
      exact h' m (by omega)

end Verif.Dwarf
