import Verif.Serve.Model
/-! # Specification of request paths -/
namespace Verif.Serve

/-- A text that denotes a machine word: an optional `+`, at least one digit, value below `2^64`. -/
def NumText (d : Str) (n : Nat) : Prop :=
  ∃ ds, (d = ds ∨ d = 43 :: ds) ∧ ds ≠ [] ∧ (∀ c ∈ ds, 48 ≤ c ∧ c ≤ 57) ∧ digitsValue 0 ds = n ∧ n < 2 ^ 64

/-- The empty path, `/`, and paths that start with two slashes. -/
def IsRoot (path : Str) : Prop := path = [] ∨ path = [47] ∨ ∃ more, path = 47 :: 47 :: more

/-- `/id/N`, alone (`next = none`) or followed by `/`, the segment `next` and anything after a
further slash. -/
def IsId (path : Str) (n : Nat) (next : Option Str) : Prop :=
  ∃ d, NumText d n ∧
    ((next = none ∧ path = Str.ofString "/id/" ++ d) ∨
     (∃ seg more, next = some seg ∧ 47 ∉ seg ∧ (more = [] ∨ more.head? = some 47) ∧
       path = Str.ofString "/id/" ++ d ++ [47] ++ seg ++ more))

end Verif.Serve
