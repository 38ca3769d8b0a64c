import Verif.Str
/-!
# `str::parse::<usize>`

Library behaviour used by `main/src/main.rs:278, 587, 624, 684`: the whole string must be an
optional `+` followed by one or more ASCII digits, with a value that fits 64 bits.
-/
namespace Verif

/-- The accumulation loop of `usize::from_str_radix(s, 10)` (library): `checked_mul(10)`,
`to_digit`, `checked_add`; any failure is an error. `lim` is one past
the largest value. -/
def parseDigits (lim : Nat) : Nat → Str → Option Nat
  | acc, [] => some acc
  | acc, c :: cs =>
    if acc * 10 < lim ∧ 48 ≤ c ∧ c ≤ 57 ∧ acc * 10 + (c - 48) < lim then
      parseDigits lim (acc * 10 + (c - 48)) cs
    else none

/-- `str::parse::<usize>().ok()` (library; called at main/src/main.rs:278, 587, 624, 684): empty
input and a lone sign are errors, one leading `+` is skipped. -/
def parseUsize : Str → Option Nat
  | [] => none
  | [43] => none
  | 43 :: cs => parseDigits (2 ^ 64) 0 cs
  | cs => parseDigits (2 ^ 64) 0 cs

/-- The number a digit string denotes. -/
def digitsValue : Nat → Str → Nat
  | acc, [] => acc
  | acc, c :: cs => digitsValue (acc * 10 + (c - 48)) cs

theorem digitsValue_ge (acc : Nat) (s : Str) : acc ≤ digitsValue acc s := by
  induction s generalizing acc with
  | nil => exact Nat.le_refl _
  | cons c cs ih => exact Nat.le_trans (by omega) (ih (acc * 10 + (c - 48)))

theorem parseDigits_iff (lim acc : Nat) (h : acc < lim) (s : Str) (n : Nat) :
    parseDigits lim acc s = some n ↔
      (∀ c ∈ s, 48 ≤ c ∧ c ≤ 57) ∧ digitsValue acc s = n ∧ n < lim := by
  induction s generalizing acc with
  | nil =>
    show some acc = some n ↔ _ ∧ acc = n ∧ _
    constructor
    · intro h'; cases h'; exact ⟨by simp, rfl, h⟩
    · rintro ⟨_, rfl, _⟩; rfl
  | cons c cs ih =>
    show (if acc * 10 < lim ∧ 48 ≤ c ∧ c ≤ 57 ∧ acc * 10 + (c - 48) < lim then
      parseDigits lim (acc * 10 + (c - 48)) cs else none) = some n ↔
      _ ∧ digitsValue (acc * 10 + (c - 48)) cs = n ∧ _
    rw [List.forall_mem_cons]
    split
    · rename_i hc
      rw [ih _ hc.2.2.2]
      constructor
      · rintro ⟨h1, h2⟩; exact ⟨⟨⟨hc.2.1, hc.2.2.1⟩, h1⟩, h2⟩
      · rintro ⟨⟨_, h1⟩, h2⟩; exact ⟨h1, h2⟩
    · rename_i hc
      constructor
      · rintro ⟨⟩
      · rintro ⟨⟨hd, _⟩, he, hlt⟩
        exfalso
        apply hc
        have := digitsValue_ge (acc * 10 + (c - 48)) cs
        refine ⟨by omega, hd.1, hd.2, by omega⟩

/-- A text is accepted as a number exactly when it is an optional `+` followed by at least one
digit, all digits, denoting a value below `2^64`; the result is that value. -/
theorem parseUsize_iff (s : Str) (n : Nat) :
    parseUsize s = some n ↔ ∃ ds, (s = ds ∨ s = 43 :: ds) ∧ ds ≠ [] ∧
      (∀ c ∈ ds, 48 ≤ c ∧ c ≤ 57) ∧ digitsValue 0 ds = n ∧ n < 2 ^ 64 := by
  unfold parseUsize
  split
  · constructor
    · rintro ⟨⟩
    · rintro ⟨ds, h | h, h2, -⟩
      · exact absurd h.symm h2
      · cases h
  · constructor
    · rintro ⟨⟩
    · rintro ⟨ds, h | h, h2, h3, -⟩
      · subst h; have := h3 43 (by simp); omega
      · cases h; exact absurd rfl h2
  · rename_i cs hcs
    rw [parseDigits_iff _ 0 (by decide)]
    constructor
    · rintro ⟨h1, h2⟩
      exact ⟨cs, .inr rfl, by rintro rfl; exact hcs rfl, h1, h2⟩
    · rintro ⟨ds, h | h, h2, h3, h4⟩
      · subst h; have := h3 43 (by simp); omega
      · cases h; exact ⟨h3, h4⟩
  · rename_i h0 h1 h2
    rw [parseDigits_iff _ 0 (by decide)]
    constructor
    · rintro ⟨h3, h4⟩
      exact ⟨s, .inl rfl, h0, h3, h4⟩
    · rintro ⟨ds, h | h, h3, h4⟩
      · subst h; exact h4
      · subst h; exact absurd rfl (h2 ds)

end Verif
