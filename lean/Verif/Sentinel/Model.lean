/-!
# Model of the sentinel-encoded optional numbers

`Address` (parser/src/lib.rs:119-165), `Size` (parser/src/lib.rs:169-224), and, with the same
code over `usize` (64-bit here): `TypeOffset` (parser/src/types.rs:60-95), `MemberOffset`
(parser/src/types.rs:890-925), `FunctionOffset` (parser/src/function.rs:17-50),
`ParameterOffset` (parser/src/function.rs:233-265), `VariableOffset`
(parser/src/variable.rs:13-45).
-/
namespace Verif.Sentinel

/-- `u64::MAX` / `!0` / `usize::MAX`. -/
def top : Nat := 2 ^ 64 - 1

/-- `Address(u64)`, `Size(u64)`, ... (parser/src/lib.rs:123-124, 173-174): a raw 64-bit value.
Derived `PartialEq`/`Ord` compare the raw value. -/
structure Opt64 where
  raw : Nat
deriving DecidableEq, Repr

/-- `new` in a release build (parser/src/lib.rs:129-132, 179-182): wraps the value. -/
def Opt64.new (v : Nat) : Opt64 := ⟨v⟩

/-- `none()` (parser/src/lib.rs:136-138, 186-188). -/
def Opt64.none : Opt64 := ⟨top⟩

/-- `new` in a debug build (parser/src/lib.rs:129-132, 179-182): `none` is the
`debug_assert!` panic. -/
def Opt64.newDebug (v : Nat) : Option Opt64 :=
  if (⟨v⟩ : Opt64) ≠ Opt64.none then some ⟨v⟩ else Option.none

/-- `is_none` (parser/src/lib.rs:142-144). -/
def Opt64.isNone (s : Opt64) : Bool := s == Opt64.none

/-- `is_some` (parser/src/lib.rs:148-150). -/
def Opt64.isSome (s : Opt64) : Bool := s != Opt64.none

/-- `get` (parser/src/lib.rs:154-156). -/
def Opt64.get (s : Opt64) : Option Nat := if s.isNone then Option.none else some s.raw

/-- `Default` (parser/src/lib.rs:159-164). -/
def Opt64.default : Opt64 := Opt64.none

/-- `From<Option<u64>> for Size` (parser/src/lib.rs:216-223), release build. -/
def Opt64.ofOption : Option Nat → Opt64
  | some v => Opt64.new v
  | Option.none => Opt64.none

/-- Derived `Ord` (parser/src/lib.rs:123, 173). -/
def Opt64.cmp (a b : Opt64) : Ordering := compare a.raw b.raw

end Verif.Sentinel
