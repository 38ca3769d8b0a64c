import Verif.Dwarf.AttrSpec
/-!
# Attribute loops: lemmas
-/
namespace Verif.Dwarf
open Verif.Item Verif.Types Verif.Namespace Verif.Range Verif.Sentinel

theorem foldl_lastBy {σ β : Type} (step : σ → At × Val → σ) (g : σ → β) (P : At × Val → Option β)
    (h : ∀ s av, g (step s av) = (P av).getD (g s)) (attrs : List (At × Val)) :
    ∀ s, g (attrs.foldl step s) = ((attrs.filterMap P).getLast?).getD (g s) := by
  induction attrs with
  | nil => intro s; rfl
  | cons av attrs ih =>
    intro s
    rw [List.foldl_cons, ih, h]
    cases hp : P av with
    | none => rw [List.filterMap_cons_none hp]; rfl
    | some b =>
      rw [List.filterMap_cons_some hp, List.getLast?_cons]
      simp

/-- An attribute loop, seen through `g`, which only the attribute `a` changes. -/
theorem foldl_lastOf {σ β : Type} (step : σ → At × Val → σ) (g : σ → β) (a : At) (f : Val → Option β)
    (h1 : ∀ s v, g (step s (a, v)) = (f v).getD (g s)) (h2 : ∀ s a' v, a' ≠ a → g (step s (a', v)) = g s)
    (d : Die) (s : σ) : g (d.attrs.foldl step s) = (d.lastOf a f).getD (g s) := by
  refine foldl_lastBy step g (fun av => if av.1 = a then f av.2 else none) ?_ d.attrs s
  rintro s ⟨a', v⟩
  simp only
  split
  next h => subst h; exact h1 s v
  next h => exact h2 s a' v h

theorem lastOf_map (d : Die) (a : At) (f : Val → β) : d.lastOf a (fun v => some (f v)) = (d.last a).map f := by
  unfold Die.last Die.lastOf Die.lastBy
  generalize d.attrs = l
  induction l with
  | nil => rfl
  | cons av l ih =>
    by_cases h : av.1 = a
    · rw [List.filterMap_cons_some (b := f av.2) (by simp [h]), List.filterMap_cons_some (b := av.2) (by simp [h]),
        List.getLast?_cons, List.getLast?_cons, ih]
      cases ((l.filterMap fun av => if av.1 = a then some av.2 else none).getLast?) <;> rfl
    · rw [List.filterMap_cons_none (by simp [h]), List.filterMap_cons_none (by simp [h]), ih]

/-- For an attribute that is always stored. -/
theorem foldl_last {σ β : Type} (step : σ → At × Val → σ) (g : σ → Option β) (a : At) (f : Val → Option β)
    (h1 : ∀ s v, g (step s (a, v)) = f v) (h2 : ∀ s a' v, a' ≠ a → g (step s (a', v)) = g s)
    (d : Die) (s : σ) (h0 : g s = none) : g (d.attrs.foldl step s) = (d.last a).bind f := by
  rw [foldl_lastOf step g a (fun v => some (f v)) h1 h2, lastOf_map, h0]
  cases d.last a <;> rfl

/-- For a reference that is stored if it can be read. -/
theorem foldl_lastSome {σ β : Type} (step : σ → At × Val → σ) (g : σ → Option β) (a : At) (f : Val → Option β)
    (h1 : ∀ s v, g (step s (a, v)) = (f v).or (g s)) (h2 : ∀ s a' v, a' ≠ a → g (step s (a', v)) = g s)
    (d : Die) (s : σ) (h0 : g s = none) : g (d.attrs.foldl step s) = d.lastOf a f := by
  rw [foldl_lastBy step g (fun av => if av.1 = a then (f av.2).map some else none) _ d.attrs s, h0]
  · unfold Die.lastOf Die.lastBy
    have : (fun av : At × Val => if av.1 = a then (f av.2).map some else none) =
        fun av => (if av.1 = a then f av.2 else none).map some := by
      funext av; split <;> rfl
    rw [this, ← List.map_filterMap, List.getLast?_map]
    cases (List.filterMap (fun av : At × Val => if av.1 = a then f av.2 else none) d.attrs).getLast? <;> rfl
  · rintro s ⟨a', v⟩
    simp only
    split
    next h =>
      subst h; rw [h1]
      cases f v <;> rfl
    next h => rw [h2 s a' v h]; rfl

/-- A loop that passes the source attributes on. -/
theorem foldl_source {σ : Type} (step : σ → At × Val → σ) (g : σ → Source)
    (h : ∀ s av, g (step s av) = sourceAttr (g s) av.1 av.2) (d : Die) (s : σ) (h0 : g s = {}) :
    SourceSays d (g (d.attrs.foldl step s)) := by
  constructor
  · rw [foldl_lastOf step (fun s => (g s).file) .declFile Val.fileName, h0]
    · intro s v; simp only [h, sourceAttr]; cases v <;> simp only [sourceFile, Val.fileName, Option.getD]
      split <;> rfl
    · intro s a' v ha
      simp only [h]; cases a' <;> simp only [sourceAttr] <;> first | contradiction | rfl | skip
      · cases v <;> simp only [sourceLine]; split <;> first | rfl | (split <;> rfl)
      · cases v <;> simp only [sourceColumn]; split <;> first | rfl | (split <;> rfl)
  · rw [foldl_lastOf step (fun s => (g s).directory) .declFile Val.fileDirectory, h0]
    · intro s v; simp only [h, sourceAttr]; cases v <;> simp only [sourceFile, Val.fileDirectory, Option.getD]
      next f d b => cases b <;> rfl
    · intro s a' v ha
      simp only [h]; cases a' <;> simp only [sourceAttr] <;> first | contradiction | rfl | skip
      · cases v <;> simp only [sourceLine]; split <;> first | rfl | (split <;> rfl)
      · cases v <;> simp only [sourceColumn]; split <;> first | rfl | (split <;> rfl)
  · rw [foldl_lastOf step (fun s => (g s).line) .declLine Val.lineNumber, h0]
    · intro s v; simp only [h, sourceAttr]; cases v <;> simp only [sourceLine, Val.lineNumber, Option.getD]
      next n =>
        by_cases h1 : n = 0
        · simp [h1]
        · by_cases h2 : n ≤ 2 ^ 32 - 1
          · rw [if_pos h1, if_pos h2, if_pos ⟨by omega, by omega⟩]
          · rw [if_pos h1, if_neg h2, if_neg (by omega)]
    · intro s a' v ha
      simp only [h]; cases a' <;> simp only [sourceAttr] <;> first | contradiction | rfl | skip
      · cases v <;> simp only [sourceFile]; split <;> rfl
      · cases v <;> simp only [sourceColumn]; split <;> first | rfl | (split <;> rfl)
  · rw [foldl_lastOf step (fun s => (g s).column) .declColumn Val.lineNumber, h0]
    · intro s v; simp only [h, sourceAttr]; cases v <;> simp only [sourceColumn, Val.lineNumber, Option.getD]
      next n =>
        by_cases h1 : n = 0
        · simp [h1]
        · by_cases h2 : n ≤ 2 ^ 32 - 1
          · rw [if_pos h1, if_pos h2, if_pos ⟨by omega, by omega⟩]
          · rw [if_pos h1, if_neg h2, if_neg (by omega)]
    · intro s a' v ha
      simp only [h]; cases a' <;> simp only [sourceAttr] <;> first | contradiction | rfl | skip
      · cases v <;> simp only [sourceFile]; split <;> rfl
      · cases v <;> simp only [sourceLine]; split <;> first | rfl | (split <;> rfl)

end Verif.Dwarf
