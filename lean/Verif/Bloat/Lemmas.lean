import Verif.Bloat.Spec
import Verif.Ids.Props
import Verif.Print.Lemmas
/-! # Lemmas for the bloat report -/
namespace Verif.Bloat
open Verif.Item Verif.Print Verif.Show Verif.Range Verif.Ids

section Upsert
variable {κ α β : Type} [DecidableEq κ]

theorem upsert_keys (key : κ) (init : α) (f : α → α) (m : List (κ × α)) :
    (upsert key init f m).map (·.1) =
      if key ∈ m.map (·.1) then m.map (·.1) else m.map (·.1) ++ [key] := by
  induction m with
  | nil => simp [upsert]
  | cons e m ih =>
    obtain ⟨k, v⟩ := e
    simp only [upsert]
    by_cases h : k = key
    · subst h; simp
    · rw [if_neg h]
      simp only [List.map_cons, ih]
      by_cases h2 : key ∈ m.map (·.1)
      · rw [if_pos h2, if_pos (by simp [h2])]
      · rw [if_neg h2, if_neg (by
          intro hm
          rcases List.mem_cons.1 hm with e | hm
          · exact h e.symm
          · exact h2 hm)]
        rfl

theorem upsert_nodup (key : κ) (init : α) (f : α → α) (m : List (κ × α))
    (hm : (m.map (·.1)).Nodup) : ((upsert key init f m).map (·.1)).Nodup := by
  rw [upsert_keys]
  split
  · exact hm
  · rename_i h
    rw [List.nodup_append]
    refine ⟨hm, by simp, ?_⟩
    intro a ha b hb
    simp only [List.mem_singleton] at hb
    subst hb
    intro e; subst e; exact h ha

theorem lookup_cons (e : κ × α) (m : List (κ × α)) (k : κ) :
    lookup (e :: m) k = if e.1 = k then some e.2 else lookup m k := by
  unfold lookup
  rw [List.find?_cons]
  by_cases h : e.1 = k <;> simp [h]

theorem lookup_upsert (key : κ) (init : α) (f : α → α) (m : List (κ × α)) (k : κ) :
    lookup (upsert key init f m) k =
      if k = key then some (f ((lookup m key).getD init)) else lookup m k := by
  induction m with
  | nil =>
    simp only [upsert]
    rw [lookup_cons]
    by_cases h : k = key
    · subst h; simp [lookup]
    · simp only [if_neg h, if_neg (Ne.symm h)]
  | cons e m ih =>
    obtain ⟨k', v⟩ := e
    simp only [upsert]
    by_cases h : k' = key
    · subst h
      rw [if_pos rfl]
      simp only [lookup_cons]
      by_cases h2 : k' = k
      · subst h2; simp
      · simp [h2, Ne.symm h2]
    · rw [if_neg h]
      simp only [lookup_cons, ih, if_neg h]
      by_cases h2 : k' = k
      · subst h2; simp [h]
      · simp [h2]

theorem lookup_iff (m : List (κ × α)) (hm : (m.map (·.1)).Nodup) (k : κ) (v : α) :
    lookup m k = some v ↔ (k, v) ∈ m := by
  induction m with
  | nil => simp [lookup]
  | cons e m ih =>
    obtain ⟨k', v'⟩ := e
    simp only [List.map_cons, List.nodup_cons] at hm
    rw [lookup_cons]
    by_cases h : k' = k
    · subst h
      simp only [if_true, Option.some.injEq, List.mem_cons, Prod.mk.injEq, true_and]
      constructor
      · intro h; exact .inl h.symm
      · rintro (h | h)
        · exact h.symm
        · exact absurd (List.mem_map.2 ⟨_, h, rfl⟩) hm.1
    · rw [if_neg h, ih hm.2]
      simp [Ne.symm h]

/-- What a loop of `upsert`s leaves under a key. -/
theorem lookup_fold (key : β → κ) (init : α) (f : α → β → α) (xs : List β) (m : List (κ × α)) (k : κ) :
    lookup (xs.foldl (fun m x => upsert (key x) init (fun v => f v x) m) m) k =
      match xs.filter (fun x => key x = k) with
      | [] => lookup m k
      | ys => some (ys.foldl f ((lookup m k).getD init)) := by
  induction xs generalizing m with
  | nil => rfl
  | cons x xs ih =>
    rw [List.foldl_cons, ih, List.filter_cons]
    by_cases h : key x = k
    · subst h
      simp only [decide_true, if_true, lookup_upsert]
      cases h2 : xs.filter (fun y => key y = key x) with
      | nil => simp
      | cons y ys => simp
    · simp only [h, decide_false, lookup_upsert, if_neg (Ne.symm h)]
      rfl

theorem nodup_fold (key : β → κ) (init : α) (f : α → β → α) (xs : List β) (m : List (κ × α))
    (hm : (m.map (·.1)).Nodup) :
    ((xs.foldl (fun m x => upsert (key x) init (fun v => f v x) m) m).map (·.1)).Nodup := by
  induction xs generalizing m with
  | nil => exact hm
  | cons x xs ih => exact ih _ (upsert_nodup _ _ _ _ hm)

end Upsert

/-- The functions of known size, in file order, with their sizes. -/
def sized (us : List CompUnit) : List ((Nat × Nat) × FunctionId × Nat) :=
  (positions us).filterMap fun x => x.2.2.size.map fun n => (x.1, functionId x.2.1 x.2.2, n)

theorem maps_totals (calls : Option (Range → List Call)) (us : List CompUnit) :
    (maps calls us).totals = (sized us).foldl
      (fun m x => upsert x.2.1 {} (fun t => ⟨t.size + x.2.2, t.functions ++ [x.1]⟩) m) [] := by
  unfold maps sized
  suffices h : ∀ (l : List ((Nat × Nat) × CompUnit × Function)) (m : Maps),
      (l.foldl (step calls) m).totals =
        (l.filterMap fun x => x.2.2.size.map fun n => (x.1, functionId x.2.1 x.2.2, n)).foldl
          (fun m x => upsert x.2.1 {} (fun t => ⟨t.size + x.2.2, t.functions ++ [x.1]⟩) m) m.totals by
    exact h _ {}
  intro l
  induction l with
  | nil => intro m; rfl
  | cons x l ih =>
    intro m
    rw [List.foldl_cons, ih, List.filterMap_cons]
    cases hs : x.2.2.size with
    | none => simp [step, hs]
    | some n => simp [step, hs]

/-- The calls of functions of known size, in file order. -/
def sizedCalls (calls : Range → List Call) (us : List CompUnit) : List ((Nat × Nat) × Call) :=
  (positions us).flatMap fun x =>
    if x.2.2.size.isSome then (x.2.2.ranges.flatMap calls).map fun c => (x.1, c) else []

theorem maps_callers (calls : Range → List Call) (us : List CompUnit) :
    (maps (some calls) us).callers = (sizedCalls calls us).foldl
      (fun m x => upsert x.2.to [] (fun l => l ++ [⟨x.1.1, x.1.2, x.2.frm⟩]) m) [] := by
  unfold maps sizedCalls
  suffices h : ∀ (l : List ((Nat × Nat) × CompUnit × Function)) (m : Maps),
      (l.foldl (step (some calls)) m).callers =
        (l.flatMap fun x => if x.2.2.size.isSome then
          (x.2.2.ranges.flatMap calls).map fun c => (x.1, c) else []).foldl
          (fun m x => upsert x.2.to [] (fun l => l ++ [⟨x.1.1, x.1.2, x.2.frm⟩]) m) m.callers by
    exact h _ {}
  intro l
  induction l with
  | nil => intro m; rfl
  | cons x l ih =>
    intro m
    rw [List.foldl_cons, ih, List.flatMap_cons, List.foldl_append]
    congr 1
    cases hs : x.2.2.size with
    | none => simp [step, hs]
    | some n =>
      simp only [step, hs, Option.isSome_some, if_true]
      rw [List.foldl_map]
      rfl

theorem maps_callers_none (us : List CompUnit) : (maps none us).callers = [] := by
  unfold maps
  suffices h : ∀ (l : List ((Nat × Nat) × CompUnit × Function)) (m : Maps),
      (l.foldl (step none) m).callers = m.callers by exact h _ {}
  intro l
  induction l with
  | nil => intro m; rfl
  | cons x l ih =>
    intro m
    rw [List.foldl_cons, ih]
    unfold step
    cases x.2.2.size <;> rfl

theorem mem_positions (us : List CompUnit) (pos : Nat × Nat) (u : CompUnit) (f : Function) :
    (pos, u, f) ∈ positions us ↔ us[pos.1]? = some u ∧ u.functions[pos.2]? = some f := by
  obtain ⟨i, j⟩ := pos
  unfold positions
  simp only [List.mem_flatMap, List.mem_map, Prod.exists, List.mem_zipIdx_iff_getElem?,
    Prod.mk.injEq]
  constructor
  · rintro ⟨u', i', h1, f', j', h2, ⟨rfl, rfl⟩, rfl, rfl⟩
    exact ⟨h1, h2⟩
  · rintro ⟨h1, h2⟩
    exact ⟨u, i, h1, f, j, h2, ⟨rfl, rfl⟩, rfl, rfl⟩

theorem zipIdx_before {α : Type} (l : List α) (n : Nat) :
    (l.zipIdx n).Pairwise (fun a b => a.2 < b.2) ∧ ∀ a ∈ l.zipIdx n, n ≤ a.2 := by
  induction l generalizing n with
  | nil => simp
  | cons a l ih =>
    obtain ⟨h1, h2⟩ := ih (n + 1)
    rw [List.zipIdx_cons]
    refine ⟨List.pairwise_cons.2 ⟨fun b hb => ?_, h1⟩, ?_⟩
    · have := h2 b hb; show n < b.2; omega
    · intro b hb
      rcases List.mem_cons.1 hb with rfl | hb
      · exact Nat.le_refl _
      · have := h2 b hb; omega

theorem positions_before (us : List CompUnit) : (positions us).Pairwise (fun a b => Before a.1 b.1) := by
  unfold positions
  rw [List.pairwise_flatMap]
  refine ⟨fun x _ => ?_, ?_⟩
  · rw [List.pairwise_map]
    exact (zipIdx_before x.1.functions 0).1.imp fun h => .inr ⟨rfl, h⟩
  · refine (zipIdx_before us 0).1.imp fun {a b} h => ?_
    intro x hx y hy
    obtain ⟨_, _, rfl⟩ := List.mem_map.1 hx
    obtain ⟨_, _, rfl⟩ := List.mem_map.1 hy
    exact .inl h

theorem sized_before (us : List CompUnit) : (sized us).Pairwise (fun a b => Before a.1 b.1) := by
  unfold sized
  rw [List.pairwise_filterMap]
  refine (positions_before us).imp fun {a b} h => ?_
  intro x hx y hy
  obtain ⟨_, _, rfl⟩ := Option.map_eq_some_iff.1 hx
  obtain ⟨_, _, rfl⟩ := Option.map_eq_some_iff.1 hy
  exact h

theorem mem_sized (us : List CompUnit) (pos : Nat × Nat) (k : FunctionId) (n : Nat) :
    (pos, k, n) ∈ sized us ↔ SizedAt us pos k n := by
  unfold sized SizedAt
  simp only [List.mem_filterMap, Prod.exists, Option.map_eq_some_iff, Prod.mk.injEq]
  constructor
  · rintro ⟨a, b, u, f, h1, m, h2, rfl, h3, rfl⟩
    obtain ⟨h4, h5⟩ := (mem_positions us (a, b) u f).1 h1
    exact ⟨u, f, h4, h5, h2, by rw [← h3]; rfl, by rw [← h3]; rfl⟩
  · rintro ⟨u, f, h1, h2, h3, h4, h5⟩
    obtain ⟨a, b⟩ := pos
    refine ⟨a, b, u, f, (mem_positions us (a, b) u f).2 ⟨h1, h2⟩, n, h3, rfl, ?_, rfl⟩
    obtain ⟨x, y⟩ := k
    simp only at h4 h5
    rw [h4, h5]; rfl

theorem fold_total (ys : List ((Nat × Nat) × FunctionId × Nat)) (t : FunctionTotal) :
    ys.foldl (fun t x => (⟨t.size + x.2.2, t.functions ++ [x.1]⟩ : FunctionTotal)) t =
      ⟨t.size + (ys.map (·.2.2)).sum, t.functions ++ ys.map (·.1)⟩ := by
  induction ys generalizing t with
  | nil => simp
  | cons y ys ih => rw [List.foldl_cons, ih]; simp; omega

theorem totals_nodup (calls : Option (Range → List Call)) (us : List CompUnit) :
    ((maps calls us).totals.map (·.1)).Nodup := by
  rw [maps_totals]
  exact nodup_fold (fun x : (Nat × Nat) × FunctionId × Nat => x.2.1) {}
    (fun (t : FunctionTotal) x => (⟨t.size + x.2.2, t.functions ++ [x.1]⟩ : FunctionTotal)) _ [] (by simp)

theorem mem_totals (calls : Option (Range → List Call)) (us : List CompUnit) (k : FunctionId)
    (t : FunctionTotal) : (k, t) ∈ (maps calls us).totals ↔
      (sized us).filter (fun x => x.2.1 = k) ≠ [] ∧
      t = ⟨(((sized us).filter (fun x => x.2.1 = k)).map (·.2.2)).sum,
           ((sized us).filter (fun x => x.2.1 = k)).map (·.1)⟩ := by
  rw [← lookup_iff _ (totals_nodup calls us), maps_totals, lookup_fold (fun x : (Nat × Nat) × FunctionId × Nat => x.2.1) {}
    (fun t x => (⟨t.size + x.2.2, t.functions ++ [x.1]⟩ : FunctionTotal)) (sized us) [] k]
  cases hf : (sized us).filter (fun x => x.2.1 = k) with
  | nil => simp [lookup]
  | cons y ys =>
    simp only [fold_total, ne_eq, reduceCtorEq, not_false_eq_true, true_and, Option.some.injEq]
    simp [lookup]
    exact ⟨fun h => h.symm, fun h => h.symm⟩

theorem bigLe_total : TotalPreorder (fun a b : FunctionId × FunctionTotal => decide (b.2.size ≤ a.2.size)) :=
  ⟨fun a b => by simp; omega, fun a b c h1 h2 => by simp at *; omega⟩

theorem upsert_sum (key : FunctionId) (n : Nat) (g : FunctionTotal → FunctionTotal)
    (hg : ∀ t, (g t).size = t.size + n) (m : List (FunctionId × FunctionTotal)) :
    ((upsert key {} g m).map (·.2.size)).sum = (m.map (·.2.size)).sum + n := by
  induction m with
  | nil => simp [upsert, hg]
  | cons e m ih =>
    obtain ⟨k, v⟩ := e
    simp only [upsert]
    split
    · simp [hg]; omega
    · simp only [List.map_cons, List.sum_cons, ih]; omega

theorem totals_sum (calls : Option (Range → List Call)) (us : List CompUnit) :
    ((maps calls us).totals.map (·.2.size)).sum = ((sized us).map (·.2.2)).sum := by
  rw [maps_totals]
  suffices h : ∀ (l : List ((Nat × Nat) × FunctionId × Nat)) (m : List (FunctionId × FunctionTotal)),
      ((l.foldl (fun m x => upsert x.2.1 {}
        (fun t => ⟨t.size + x.2.2, t.functions ++ [x.1]⟩) m) m).map (·.2.size)).sum =
        (m.map (·.2.size)).sum + (l.map (·.2.2)).sum by
    simpa using h (sized us) []
  intro l
  induction l with
  | nil => intro m; simp
  | cons x l ih =>
    intro m
    rw [List.foldl_cons, ih, upsert_sum _ x.2.2 _ (fun t => rfl)]
    simp; omega

theorem lookup_callers (calls : Range → List Call) (us : List CompUnit) (a : Nat) :
    (lookup (maps (some calls) us).callers a).getD [] = callsTo calls us a := by
  rw [maps_callers, lookup_fold (fun x : (Nat × Nat) × Call => x.2.to) []
    (fun l x => l ++ [(⟨x.1.1, x.1.2, x.2.frm⟩ : Caller)])]
  have h1 : ∀ (l : List ((Nat × Nat) × Call)) (acc : List Caller),
      l.foldl (fun l x => l ++ [(⟨x.1.1, x.1.2, x.2.frm⟩ : Caller)]) acc =
        acc ++ l.map fun x => ⟨x.1.1, x.1.2, x.2.frm⟩ := by
    intro l
    induction l with
    | nil => simp
    | cons x l ih => intro acc; rw [List.foldl_cons, ih]; simp
  have h2 : callsTo calls us a =
      ((sizedCalls calls us).filter (fun x => x.2.to = a)).map fun x => ⟨x.1.1, x.1.2, x.2.frm⟩ := by
    unfold callsTo sizedCalls positions
    simp only [List.flatMap_assoc, List.filter_flatMap, List.map_flatMap]
    congr 1
    funext x
    simp only [List.flatMap_map]
    congr 1
    funext y
    cases hs : y.1.size with
    | none => simp [hs]
    | some n =>
      simp only [hs, Option.isSome_some, if_true]
      induction y.1.ranges with
      | nil => rfl
      | cons r rs ih =>
        simp only [List.flatMap_cons, List.map_append, List.filter_append, ih]
        simp only [List.filter_map, List.map_map]
        rfl
  cases hf : (sizedCalls calls us).filter (fun x => x.2.to = a) with
  | nil => rw [h2, hf]; simp [lookup]
  | cons y ys => rw [h2, hf]; simp [lookup, h1]

end Verif.Bloat
