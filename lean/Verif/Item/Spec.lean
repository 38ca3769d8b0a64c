import Verif.Item.Model
import Verif.Range.Spec
/-! # Specification vocabulary for items -/
namespace Verif.Item
open Verif.Range

/-- `out` lists, in order, exactly the results `b` with `R a b` for the elements `a` of `inp`:
every element either contributes a related result or has none. -/
inductive Selects {α β : Type} (R : α → β → Prop) : List α → List β → Prop
  | nil : Selects R [] []
  | take {a b as bs} : R a b → Selects R as bs → Selects R (a :: as) (b :: bs)
  | skip {a as bs} : (∀ b, ¬ R a b) → Selects R as bs → Selects R (a :: as) bs

/-- The piece says: the object (not merely its value) is in this register. -/
def IsRegister : Range × Piece → Range × Nat → Prop :=
  fun (range, p) (range', r) => range' = range ∧ p.isValue = false ∧ p.location = .register r

/-- The piece says: the object is at an offset from an address in this register. -/
def IsRegisterOffset : Range × Piece → Range × Nat × Int → Prop :=
  fun (range, p) (range', r, o) =>
    range' = range ∧ p.isValue = false ∧ p.location = .registerOffset r o

/-- The piece says: the object is in the stack frame at this offset, with this size. -/
def IsFrame : Piece → FrameLocation → Prop :=
  fun p f => p.isValue = false ∧ (p.location = .frameOffset f.offset ∨
    p.location = .cfaOffset f.offset) ∧ f.bitSize = p.bitSize

/-- Two path components joined with exactly one `/` added unless already there. -/
def join (a b : Str) : Str := if a.getLast? = some 47 then a ++ b else a ++ [47] ++ b

/-- A directory is absolute if it starts with `/` or with a drive letter `X:`. -/
def Absolute (d : Str) : Prop := (∃ t, d = 47 :: t) ∨ (∃ c t, d = c :: 58 :: t)

/-- An address belongs to a function of the unit. -/
def InFunction (u : CompUnit) (x : Nat) : Prop := ∃ f ∈ u.functions, ∃ r ∈ f.ranges, r.lo ≤ x ∧ x < r.hi

/-- An address belongs to a variable of the unit: it lies within the variable's size, which is its
own or else that of its type, from its address. -/
def InVariable (tsz : Types.TypeOffset → Option Nat) (u : CompUnit) (x : Nat) : Prop :=
  ∃ v ∈ u.variables, ∃ a n, v.address = some a ∧ a ≤ x ∧ x < a + n ∧
    (v.size = some n ∨ v.size = none ∧ tsz v.ty = some n)

end Verif.Item
