import Verif.Dwarf.EvalModel
/-!
# Model of relocations (`parser/src/file/dwarf.rs:30-243`)

Not modelled: decoding of relocation sections by the `object` crate; a section's relocations are the
list of values `section.relocations()` yields. Addresses are numbers below 2^64. `usize` has 64 bits
unless `usizeBits` says otherwise.
-/
namespace Verif.Reloc
open Verif.Print Verif.Dwarf

/-- `object::RelocationKind`, as matched at parser/src/file/dwarf.rs:75-107. -/
inductive Kind
  | absolute | relative | other
deriving DecidableEq, Repr

/-- `object::RelocationTarget`. -/
inductive Target
  | symbol (index : Nat)
  | section (index : Nat)
  | other
deriving DecidableEq, Repr

/-- `object::Relocation`: `addend` is an `i64`. -/
structure Relocation where
  kind : Kind
  target : Target
  addend : Int
  implicitAddend : Bool
deriving DecidableEq, Repr

/-- What the object file says: `symbol_by_index(..).address()` and `section_by_index(..).address()`;
`none` if the index is invalid. -/
structure ObjFile where
  symbolAddress : Nat → Option Nat
  sectionAddress : Nat → Option Nat

/-- `RelocationMap` (parser/src/file/dwarf.rs:30): a `HashMap` from offset to relocation. -/
abbrev RelocationMap := Nat → Option Relocation

/-- `HashMap::insert`. -/
def insert (m : RelocationMap) (k : Nat) (r : Relocation) : RelocationMap := fun o => if o = k then some r else m o

/-- The address of the target (parser/src/file/dwarf.rs:44-73); `none` is `continue`. -/
def targetAddress (file : ObjFile) : Target → Option Nat
  | .symbol i => file.symbolAddress i
  | .section i => file.sectionAddress i
  | .other => none

/-- `u64::wrapping_add`. -/
def wadd (a b : Nat) : Nat := (a + b) % 2 ^ 64

/-- `u64::wrapping_sub`. -/
def wsub (a b : Nat) : Nat := (a + (2 ^ 64 - b % 2 ^ 64)) % 2 ^ 64

/-- One iteration of `add_relocations` (parser/src/file/dwarf.rs:39-108). `sectionAddress` is the
address of the section being relocated. -/
def addRelocation (usizeBits : Nat) (file : ObjFile) (sectionAddress : Nat) (m : RelocationMap) :
    Nat × Relocation → RelocationMap
  | (offset64, r) =>
    let offset := offset64 % 2 ^ usizeBits
    if offset ≠ offset64 then m
    else match targetAddress file r.target with
      | none => m
      | some target =>
        match r.kind with
        | .absolute => insert m offset { r with addend := asI64 (wadd target (asU64 r.addend)) }
        | .relative =>
          insert m offset { r with addend := asI64 (wsub (wsub (wadd target (asU64 r.addend)) sectionAddress) offset) }
        | .other => m

/-- `add_relocations` (parser/src/file/dwarf.rs:32-109). -/
def addRelocations (usizeBits : Nat) (file : ObjFile) (sectionAddress : Nat) (m : RelocationMap)
    (rs : List (Nat × Relocation)) : RelocationMap :=
  rs.foldl (addRelocation usizeBits file sectionAddress) m

/-- `Relocate::relocate` (parser/src/file/dwarf.rs:119-136). -/
def relocate (m : RelocationMap) (offset value : Nat) : Nat :=
  match m offset with
  | some r =>
    if r.kind = .absolute ∨ r.kind = .relative then
      (if r.implicitAddend then wadd value (asU64 r.addend) else asU64 r.addend)
    else value
  | none => value

/-- The number in little- or big-endian bytes (`gimli::Endianity::read_u64` and so on). -/
def number (bigEndian : Bool) : List Nat → Nat
  | [] => 0
  | b :: bs => if bigEndian then b * 256 ^ bs.length + number bigEndian bs else b + 256 * number bigEndian bs

/-- `Relocate` (parser/src/file/dwarf.rs:111-116): the section's bytes and relocations, and the
reader's place in the section: `pos` is `reader.offset_from(section)`, and `len` bytes remain. -/
structure Reader where
  relocations : RelocationMap
  bytes : List Nat
  bigEndian : Bool
  pos : Nat
  len : Nat

/-- The reader for a whole section (parser/src/file/dwarf.rs:427-432). -/
def Reader.ofSection (m : RelocationMap) (bytes : List Nat) (bigEndian : Bool) : Reader :=
  ⟨m, bytes, bigEndian, 0, bytes.length⟩

/-- `skip` (parser/src/file/dwarf.rs:219-222); `none` is an error. -/
def Reader.skip (r : Reader) (n : Nat) : Option Reader :=
  if n ≤ r.len then some { r with pos := r.pos + n, len := r.len - n } else none

/-- `truncate` (parser/src/file/dwarf.rs:197-200). -/
def Reader.truncate (r : Reader) (n : Nat) : Option Reader := if n ≤ r.len then some { r with len := n } else none

/-- `split` (parser/src/file/dwarf.rs:178-184): the first `n` bytes, and what is left. -/
def Reader.split (r : Reader) (n : Nat) : Option (Reader × Reader) := do
  let other ← r.truncate n
  let rest ← r.skip n
  pure (other, rest)

/-- Reading a number of `n` bytes with the inner reader: `read_address`, `read_offset`,
`read_sized_offset` and the fixed part of `read_length` all do this. -/
def Reader.readRaw (r : Reader) (n : Nat) : Option (Nat × Reader) :=
  if n ≤ r.len then
    some (number r.bigEndian ((r.bytes.drop r.pos).take n), { r with pos := r.pos + n, len := r.len - n })
  else none

/-- `read_address`, `read_offset`, `read_sized_offset` and `read_length`
(parser/src/file/dwarf.rs:152-175) for a number of `n` bytes: the offset is taken before reading. On
a 64-bit host `from_u64` does not fail. -/
def Reader.read (r : Reader) (n : Nat) : Option (Nat × Reader) := do
  let offset := r.pos
  let (value, r') ← r.readRaw n
  pure (relocate r.relocations offset value, r')

end Verif.Reloc
