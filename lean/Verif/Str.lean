/-!
# Strings

Rust's `str`/`&[u8]` comparison is lexicographic on bytes. Strings are modelled as lists of
byte values; `compare` on `List Nat` is Lean's library lexicographic order.
-/
namespace Verif

/-- A Rust string or byte slice as its list of bytes. -/
abbrev Str := List Nat

/-- Bytes of an ASCII literal, for examples and constants. -/
def Str.ofString (s : String) : Str := s.toList.map Char.toNat

end Verif
