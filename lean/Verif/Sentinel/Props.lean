import Verif.Sentinel.Model
/-! # Property theorems C06 (optional numbers) -/
namespace Verif.Sentinel

/-- The optional number as ordered by its users: unknown comes after every known value. -/
def cmpUnknownLast : Option Nat → Option Nat → Ordering
  | some a, some b => compare a b
  | some _, none => .lt
  | none, some _ => .gt
  | none, none => .eq

/-- **C06 (round trip).** A known value below `u64::MAX` is returned unchanged and is known;
`none` and the default are unknown; conversion from `Option` round-trips. -/
theorem C06_round_trip (v : Nat) (h : v < 2 ^ 64 - 1) :
    (Opt64.new v).get = some v ∧ (Opt64.new v).isSome = true ∧ (Opt64.new v).isNone = false ∧
    Opt64.none.get = none ∧ Opt64.none.isNone = true ∧ Opt64.none.isSome = false ∧
    Opt64.default.get = none ∧
    (∀ o : Option Nat, (∀ w, o = some w → w < 2 ^ 64 - 1) → (Opt64.ofOption o).get = o) := by
  have key : ∀ w, w < 2 ^ 64 - 1 → (Opt64.new w).get = some w := by
    intro w hw
    have hne : ¬ w = top := by simp [top]; omega
    simp [Opt64.get, Opt64.new, Opt64.isNone, Opt64.none, hne]
  have hne : ¬ v = top := by simp [top]; omega
  refine ⟨key v h, by simp [Opt64.isSome, Opt64.new, Opt64.none, hne],
    by simp [Opt64.isNone, Opt64.new, Opt64.none, hne], rfl, rfl, rfl, rfl, ?_⟩
  intro o ho
  cases o with
  | none => rfl
  | some w => exact key w (ho w rfl)

/-- **C06 (get is injective and agrees with `is_some`).** The encoding confuses no two states. -/
theorem C06_faithful (a b : Opt64) :
    (a.get = b.get ↔ a = b) ∧ (a.isSome = a.get.isSome) ∧ (a.isNone = a.get.isNone) := by
  have hs : ∀ s : Opt64, s.get = if s.raw = top then none else some s.raw := by
    intro s
    cases s with
    | mk r => simp [Opt64.get, Opt64.isNone, Opt64.none]
  refine ⟨⟨?_, fun h => by rw [h]⟩, ?_, ?_⟩
  · intro h
    rw [hs, hs] at h
    cases a; cases b
    simp at h ⊢
    split at h <;> split at h <;> simp_all
  · cases a with
    | mk r => rw [hs]; by_cases h : r = top <;> simp [h, Opt64.isSome, Opt64.none]
  · cases a with
    | mk r => rw [hs]; by_cases h : r = top <;> simp [h, Opt64.isNone, Opt64.none]

/-- **C06 (order).** For 64-bit values the derived order is "known values in numeric order, then
unknown". -/
theorem C06_order (a b : Opt64) (ha : a.raw < 2 ^ 64) (hb : b.raw < 2 ^ 64) :
    Opt64.cmp a b = cmpUnknownLast a.get b.get := by
  have hs : ∀ s : Opt64, s.get = if s.raw = top then none else some s.raw := by
    intro s
    cases s with
    | mk r => simp [Opt64.get, Opt64.isNone, Opt64.none]
  rw [hs, hs]
  unfold Opt64.cmp
  have h1 : top = 2 ^ 64 - 1 := rfl
  by_cases h : a.raw = top <;> by_cases h' : b.raw = top
  · simp [h, h', cmpUnknownLast]
  · simp only [h, h', cmpUnknownLast, if_true, if_false]
    rw [Nat.compare_eq_gt]; omega
  · simp only [h, h', cmpUnknownLast, if_true, if_false]
    rw [Nat.compare_eq_lt]; omega
  · simp [h, h', cmpUnknownLast]

/-- **C06 (the one unrepresentable value).** Constructing from exactly `u64::MAX` panics in a debug
build and silently becomes "unknown" in a release build. -/
theorem C06_only_max_collides (v : Nat) :
    (Opt64.newDebug v = none ↔ v = 2 ^ 64 - 1) ∧ ((Opt64.new v).get = none ↔ v = 2 ^ 64 - 1) := by
  simp [Opt64.newDebug, Opt64.none, top, Opt64.get, Opt64.isNone, Opt64.new]

example : (7 : Nat) < 2 ^ 64 - 1 ∧ Opt64.cmp (Opt64.new 7) Opt64.none = .lt := by decide

end Verif.Sentinel
