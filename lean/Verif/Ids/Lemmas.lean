import Verif.Ids.Spec
import Verif.Filter.Props
import Verif.Merge.Props
/-! # Lemmas about ids -/
namespace Verif.Ids
open Verif.Item Verif.Opts Verif.Types Verif.Filter Verif.Merge

/-- Unit number of an id. -/
def Id.unitOf : Id → Option Nat
  | .none => Option.none
  | .unit u | .type u _ | .function u _ | .var u _ => some u

theorem inUnit_iff (id : Id) (i : Nat) : InUnit id i ↔ id.unitOf = some i := by
  constructor
  · rintro (_ | _ | _ | _) <;> rfl
  · intro h; cases id <;> simp only [Id.unitOf, Option.some.injEq, reduceCtorEq] at h
      <;> subst h <;> constructor

/-- The items of unit `i` below the unit itself, in id order. -/
def innerIds (i : Nat) (u : CompUnit) : List Id :=
  (List.range u.types.length).map (Id.type i) ++ (List.range u.functions.length).map (Id.function i) ++
    (List.range u.variables.length).map (Id.var i)

/-- All items in id order. -/
def allIds (us : List CompUnit) : List Id := us.zipIdx.flatMap fun x => .unit x.2 :: innerIds x.2 x.1

theorem zipIdx_map_snd {α : Type} (l : List α) (g : Nat → Id) :
    l.zipIdx.map (fun x => g x.2) = (List.range l.length).map g := by
  rw [List.range_eq_range']
  rw [← List.zipIdx_map_snd 0 l, List.map_map]
  rfl

theorem recordAll_eq {α : Type} (mk : Nat → Id) (l : List α) (s : Assigned) :
    recordAll mk l s = ((List.range l.length).map mk).foldl Assigned.record s := by
  rw [← zipIdx_map_snd]
  unfold recordAll
  rw [List.foldl_map]

theorem assignIds_eq (us : List CompUnit) : assignIds us = (allIds us).foldl Assigned.record {} := by
  unfold assignIds allIds
  generalize us.zipIdx = z
  generalize ({} : Assigned) = s
  induction z generalizing s with
  | nil => rfl
  | cons x z ih =>
    rw [List.foldl_cons, ih, List.flatMap_cons, List.foldl_append]
    congr 1
    unfold assignInUnit
    rw [recordAll_eq, recordAll_eq, recordAll_eq]
    simp [innerIds, List.foldl_append]

theorem record_fold (L : List Id) (s : Assigned) (hn : (s.ids ++ L).Nodup)
    (hs : ∀ n id, s.ids[n]? = some id → s.store id = n) :
    (L.foldl Assigned.record s).ids = s.ids ++ L ∧
      ∀ n id, (s.ids ++ L)[n]? = some id → (L.foldl Assigned.record s).store id = n := by
  induction L generalizing s with
  | nil => simpa using hs
  | cons i L ih =>
    rw [List.foldl_cons]
    have h1 : i ∉ s.ids := by
      intro hm
      have := (List.nodup_append.1 hn).2.2 i hm i (by simp)
      exact this rfl
    have := ih (s.record i) (by simpa [Assigned.record] using hn) (by
      intro n id h
      simp only [Assigned.record] at h ⊢
      rcases Nat.lt_or_ge n s.ids.length with hlt | hge
      · rw [List.getElem?_append_left hlt] at h
        rw [if_neg]
        · exact hs n id h
        · rintro rfl; exact h1 (List.mem_of_getElem? h)
      · rw [List.getElem?_append_right hge] at h
        have h0 : n - s.ids.length = 0 := by
          rcases hk : n - s.ids.length with _ | k
          · rfl
          · rw [hk] at h; simp at h
        rw [h0] at h
        have : id = i := by simpa using h.symm
        subst this
        rw [if_pos rfl]; omega)
    simpa [Assigned.record] using this

theorem nodup_map_mk (mk : Nat → Id) (hmk : ∀ a b, mk a = mk b → a = b) (n : Nat) :
    ((List.range n).map mk).Nodup := by
  rw [List.Nodup, List.pairwise_map]
  exact List.nodup_range.imp fun h e => h (hmk _ _ e)

theorem nodup_innerIds (i : Nat) (u : CompUnit) : (innerIds i u).Nodup := by
  unfold innerIds
  rw [List.nodup_append, List.nodup_append]
  refine ⟨⟨nodup_map_mk _ (by simp) _, nodup_map_mk _ (by simp) _, ?_⟩, nodup_map_mk _ (by simp) _, ?_⟩
  · simp only [List.mem_map]; rintro a ⟨_, _, rfl⟩ b ⟨_, _, rfl⟩; simp
  · simp only [List.mem_append, List.mem_map]
    rintro a (⟨_, _, rfl⟩ | ⟨_, _, rfl⟩) b ⟨_, _, rfl⟩ <;> simp

theorem unitOf_innerIds (i : Nat) (u : CompUnit) : ∀ id ∈ innerIds i u, id.unitOf = some i := by
  unfold innerIds
  simp only [List.mem_append, List.mem_map]
  rintro id ((⟨_, _, rfl⟩ | ⟨_, _, rfl⟩) | ⟨_, _, rfl⟩) <;> rfl

theorem zipIdx_pairwise {α : Type} (l : List α) : l.zipIdx.Pairwise (fun a b => a.2 ≠ b.2) := by
  rw [List.pairwise_iff_getElem]
  intro i j hi hj hij
  simp
  omega

theorem nodup_allIds (us : List CompUnit) : (allIds us).Nodup := by
  unfold allIds
  rw [List.Nodup, List.pairwise_flatMap]
  constructor
  · rintro ⟨u, i⟩ _
    rw [List.pairwise_cons]
    refine ⟨?_, nodup_innerIds i u⟩
    intro id hid
    unfold innerIds at hid
    simp only [List.mem_append, List.mem_map] at hid
    rintro rfl
    rcases hid with (⟨_, _, h⟩ | ⟨_, _, h⟩) | ⟨_, _, h⟩ <;> cases h
  · refine (zipIdx_pairwise us).imp ?_
    rintro ⟨u, i⟩ ⟨v, j⟩ hne x hx y hy rfl
    have key : ∀ (w : CompUnit) (k : Nat), x ∈ Id.unit k :: innerIds k w → x.unitOf = some k := by
      intro w k h
      rcases List.mem_cons.1 h with rfl | h
      · rfl
      · exact unitOf_innerIds k w x h
    have h1 := key u i hx
    have h2 := key v j hy
    rw [h1] at h2
    exact hne (by simpa using h2)

theorem mem_innerIds (i : Nat) (u : CompUnit) (id : Id) : id ∈ innerIds i u ↔
    (∃ j, ∃ t, u.types[j]? = some t ∧ id = .type i j) ∨
    (∃ j, ∃ f, u.functions[j]? = some f ∧ id = .function i j) ∨
    (∃ j, ∃ v, u.variables[j]? = some v ∧ id = .var i j) := by
  have key : ∀ {α : Type} (l : List α) (mk : Nat → Id),
      (id ∈ (List.range l.length).map mk) ↔ ∃ j, ∃ t, l[j]? = some t ∧ id = mk j := by
    intro α l mk
    simp only [List.mem_map, List.mem_range]
    constructor
    · rintro ⟨j, hj, rfl⟩; exact ⟨j, _, List.getElem?_eq_getElem hj, rfl⟩
    · rintro ⟨j, t, hj, rfl⟩; exact ⟨j, (List.getElem?_eq_some_iff.1 hj).1, rfl⟩
  unfold innerIds
  rw [List.mem_append, List.mem_append, key, key, key, or_assoc]

theorem mem_innerIds_iff (us : List CompUnit) (i : Nat) (u : CompUnit) (hu : us[i]? = some u)
    (id : Id) : id ∈ innerIds i u ↔ ItemOf us id ∧ InUnit id i ∧ id ≠ .unit i := by
  rw [mem_innerIds]
  constructor
  · rintro (⟨j, t, h, rfl⟩ | ⟨j, t, h, rfl⟩ | ⟨j, t, h, rfl⟩)
    · exact ⟨.type hu h, .type, by simp⟩
    · exact ⟨.function hu h, .function, by simp⟩
    · exact ⟨.var hu h, .var, by simp⟩
  · rintro ⟨h1, h2, h3⟩
    cases h1 with
    | unit _ => cases h2; exact absurd rfl h3
    | type h4 h5 => cases h2; rw [hu] at h4; cases h4; exact .inl ⟨_, _, h5, rfl⟩
    | function h4 h5 => cases h2; rw [hu] at h4; cases h4; exact .inr (.inl ⟨_, _, h5, rfl⟩)
    | var h4 h5 => cases h2; rw [hu] at h4; cases h4; exact .inr (.inr ⟨_, _, h5, rfl⟩)

theorem itemOf_unit {us : List CompUnit} {id : Id} (h : ItemOf us id) :
    ∃ i u, us[i]? = some u ∧ InUnit id i := by
  cases h with
  | unit h => exact ⟨_, _, h, .unit⟩
  | type h _ => exact ⟨_, _, h, .type⟩
  | function h _ => exact ⟨_, _, h, .function⟩
  | var h _ => exact ⟨_, _, h, .var⟩

theorem mem_allIds (us : List CompUnit) (id : Id) : id ∈ allIds us ↔ ItemOf us id := by
  unfold allIds
  rw [List.mem_flatMap]
  constructor
  · rintro ⟨⟨u, i⟩, hx, h⟩
    have hu : us[i]? = some u := List.mem_zipIdx_iff_getElem?.1 hx
    rcases List.mem_cons.1 h with rfl | h
    · exact .unit hu
    · exact ((mem_innerIds_iff us i u hu id).1 h).1
  · intro h
    obtain ⟨i, u, hu, hi⟩ := itemOf_unit h
    refine ⟨(u, i), List.mem_zipIdx_iff_getElem?.2 hu, ?_⟩
    by_cases he : id = .unit i
    · simp [he]
    · exact List.mem_cons_of_mem _ ((mem_innerIds_iff us i u hu id).2 ⟨h, hi, he⟩)

theorem item_iff (us : List CompUnit) (id : Id) : (∃ x, item us id = some x) ↔ ItemOf us id := by
  constructor
  · rintro ⟨x, h⟩
    cases id with
    | none => cases h
    | unit i =>
      obtain ⟨u, hu, _⟩ := Option.map_eq_some_iff.1 h
      exact .unit hu
    | type i j =>
      simp only [item, Option.bind_eq_bind, Option.bind_eq_some_iff] at h
      obtain ⟨u, hu, t, ht, _⟩ := h
      exact .type hu ht
    | function i j =>
      simp only [item, Option.bind_eq_bind, Option.bind_eq_some_iff] at h
      obtain ⟨u, hu, t, ht, _⟩ := h
      exact .function hu ht
    | var i j =>
      simp only [item, Option.bind_eq_bind, Option.bind_eq_some_iff] at h
      obtain ⟨u, hu, t, ht, _⟩ := h
      exact .var hu ht
  · intro h
    cases h with
    | unit h => exact ⟨_, by simp [item, h]; rfl⟩
    | type h1 h2 => exact ⟨_, by simp [item, h1, h2]; rfl⟩
    | function h1 h2 => exact ⟨_, by simp [item, h1, h2]; rfl⟩
    | var h1 h2 => exact ⟨_, by simp [item, h1, h2]; rfl⟩

/-! ### Pairs -/

/-- Neither side repeats. -/
def Distinct (x y : Id × Id) : Prop := (x.1 ≠ .none → x.1 ≠ y.1) ∧ (x.2 ≠ .none → x.2 ≠ y.2)

theorem Distinct.symm {x y : Id × Id} (h : Distinct x y) : Distinct y x :=
  ⟨fun h1 h2 => h.1 (h2 ▸ h1) h2.symm, fun h1 h2 => h.2 (h2 ▸ h1) h2.symm⟩

theorem recordPair_fold (L : List (Id × Id)) (s : AssignedPair) (hn : (s.ids ++ L).Pairwise Distinct)
    (hs : ∀ n x, s.ids[n]? = some x → (x.1 ≠ .none → s.storeA x.1 = n) ∧ (x.2 ≠ .none → s.storeB x.2 = n)) :
    (L.foldl AssignedPair.record s).ids = s.ids ++ L ∧
    (∀ n x, (s.ids ++ L)[n]? = some x → (x.1 ≠ .none → (L.foldl AssignedPair.record s).storeA x.1 = n) ∧
      (x.2 ≠ .none → (L.foldl AssignedPair.record s).storeB x.2 = n)) ∧
    (∀ id, (∀ x ∈ L, x.1 ≠ id) → (L.foldl AssignedPair.record s).storeA id = s.storeA id) ∧
    (∀ id, (∀ x ∈ L, x.2 ≠ id) → (L.foldl AssignedPair.record s).storeB id = s.storeB id) := by
  induction L generalizing s with
  | nil => exact ⟨by simp, by simpa using hs, fun _ _ => rfl, fun _ _ => rfl⟩
  | cons i L ih =>
    rw [List.foldl_cons]
    have h1 : ∀ x ∈ s.ids, Distinct x i := fun x hx =>
      (List.pairwise_append.1 hn).2.2 x hx i (by simp)
    obtain ⟨h2, h3, h4, h5⟩ := ih (s.record i) (by simpa [AssignedPair.record] using hn) (by
      intro n x h
      simp only [AssignedPair.record] at h ⊢
      rcases Nat.lt_or_ge n s.ids.length with hlt | hge
      · rw [List.getElem?_append_left hlt] at h
        have hd := h1 x (List.mem_of_getElem? h)
        have := hs n x h
        exact ⟨fun hx => by rw [if_neg (fun hc => hd.1 hx hc.2)]; exact this.1 hx,
          fun hx => by rw [if_neg (fun hc => hd.2 hx hc.2)]; exact this.2 hx⟩
      · rw [List.getElem?_append_right hge] at h
        have h0 : n - s.ids.length = 0 := by
          rcases hk : n - s.ids.length with _ | k
          · rfl
          · rw [hk] at h; simp at h
        rw [h0] at h
        have : x = i := by simpa using h.symm
        subst this
        exact ⟨fun hx => by rw [if_pos ⟨hx, rfl⟩]; omega, fun hx => by rw [if_pos ⟨hx, rfl⟩]; omega⟩)
    refine ⟨by simpa [AssignedPair.record] using h2, by simpa [AssignedPair.record] using h3, ?_, ?_⟩
    · intro id hid
      rw [h4 id (fun x hx => hid x (by simp [hx]))]
      simp only [AssignedPair.record]
      rw [if_neg (fun hc => hid i (by simp) hc.2.symm)]
    · intro id hid
      rw [h5 id (fun x hx => hid x (by simp [hx]))]
      simp only [AssignedPair.record]
      rw [if_neg (fun hc => hid i (by simp) hc.2.symm)]

section
variable {α : Type} (cmpSort cmp : Sided α → Sided α → Ordering) (la lb : List (Nat × α))

theorem mergeIdx_perm : (oldItems (mergeIdx cmpSort cmp la lb)).Perm la ∧
    (newItems (mergeIdx cmpSort cmp la lb)).Perm lb := by
  unfold mergeIdx mergeSorted
  have h := C18_complete (fun (a : Nat × α) (b : Nat × α) => cmp (.inl a.2) (.inr b.2))
    (stableSort (fun x y => cmpSort (.inl x.2) (.inl y.2) != .gt) la)
    (stableSort (fun x y => cmpSort (.inr x.2) (.inr y.2) != .gt) lb) (la.length + lb.length)
    (by simp)
  rw [h.1, h.2]
  exact ⟨stableSort_perm _ _, stableSort_perm _ _⟩

theorem mergeIdx_eq (a b : Nat × α) (h : .both a b ∈ mergeIdx cmpSort cmp la lb) :
    cmp (.inl a.2) (.inr b.2) = .eq :=
  C18_pair_equal (fun (a : Nat × α) (b : Nat × α) => cmp (.inl a.2) (.inr b.2)) _ _
    (la.length + lb.length) (by simp) a b h

/-- Two merge results share no position. -/
def DistinctIdx (x y : MergeResult (Nat × α) (Nat × α)) : Prop :=
  (∀ a a', oldItem x = some a → oldItem y = some a' → a.1 ≠ a'.1) ∧
  (∀ b b', newItem x = some b → newItem y = some b' → b.1 ≠ b'.1)

theorem mergeIdx_distinct (ha : la.Pairwise (fun x y => x.1 ≠ y.1))
    (hb : lb.Pairwise (fun x y => x.1 ≠ y.1)) :
    (mergeIdx cmpSort cmp la lb).Pairwise DistinctIdx := by
  obtain ⟨h1, h2⟩ := mergeIdx_perm cmpSort cmp la lb
  have h3 := (h1.pairwise_iff (R := fun x y : Nat × α => x.1 ≠ y.1) (fun h => Ne.symm h)).2 ha
  have h4 := (h2.pairwise_iff (R := fun x y : Nat × α => x.1 ≠ y.1) (fun h => Ne.symm h)).2 hb
  unfold oldItems at h3
  unfold newItems at h4
  rw [List.pairwise_filterMap] at h3 h4
  exact h3.imp₂ (fun x y h h' => ⟨fun a a' e e' => h a e a' e', fun b b' e e' => h' b e b' e'⟩) h4

theorem pairIds_distinct (mkA mkB : Nat → Id) (hA : ∀ a b, mkA a = mkA b → a = b)
    (hB : ∀ a b, mkB a = mkB b → a = b) (x y : MergeResult (Nat × α) (Nat × α))
    (hA0 : ∀ a, mkA a ≠ .none) (hB0 : ∀ a, mkB a ≠ .none)
    (h : DistinctIdx x y) : Distinct (pairIds mkA mkB x) (pairIds mkA mkB y) := by
  obtain ⟨h1, h2⟩ := h
  cases x <;> cases y <;> simp only [oldItem, newItem, Option.some.injEq, reduceCtorEq, false_implies,
    implies_true, forall_eq'] at h1 h2 <;>
    simp only [Distinct, pairIds, ne_eq, not_true_eq_false, false_implies, true_and, and_true] <;>
    first
      | (refine ⟨fun _ e => ?_, fun _ e => ?_⟩ <;>
          first
            | exact h1 (hA _ _ e)
            | exact h2 (hB _ _ e)
            | exact h1 _ _ rfl rfl (hA _ _ e)
            | exact h2 _ _ rfl rfl (hB _ _ e)
            | exact hA0 _ e
            | exact hB0 _ e
            | exact hA0 _ e.symm
            | exact hB0 _ e.symm)
      | (intro _ e;
          first
            | exact h1 (hA _ _ e)
            | exact h2 (hB _ _ e)
            | exact h1 _ _ rfl rfl (hA _ _ e)
            | exact h2 _ _ rfl rfl (hB _ _ e)
            | exact hA0 _ e
            | exact hB0 _ e
            | exact hA0 _ e.symm
            | exact hB0 _ e.symm)
      | trivial
end

theorem enumFilter_mem {α : Type} (p : α → Bool) (l : List α) (i : Nat) (a : α) :
    (i, a) ∈ enumFilter p l ↔ l[i]? = some a ∧ p a = true := by
  unfold enumFilter
  simp only [List.mem_filter, List.mem_map, Prod.mk.injEq, Prod.exists]
  constructor
  · rintro ⟨⟨a', i', h, rfl, rfl⟩, hp⟩
    exact ⟨List.mem_zipIdx_iff_getElem?.1 h, hp⟩
  · rintro ⟨h, hp⟩
    exact ⟨⟨a, i, List.mem_zipIdx_iff_getElem?.2 h, rfl, rfl⟩, hp⟩

theorem enumFilter_distinct {α : Type} (p : α → Bool) (l : List α) :
    (enumFilter p l).Pairwise (fun x y => x.1 ≠ y.1) := by
  unfold enumFilter
  apply List.Pairwise.filter
  rw [List.pairwise_map]
  exact zipIdx_pairwise l

end Verif.Ids
