import Verif.Dwarf.DieModel
/-!
# Specification vocabulary: what the attributes of an entry say

An entry may carry attributes in any order, and (in malformed input) the same attribute twice: the
last one that can be read counts.
-/
namespace Verif.Dwarf
open Verif.Item Verif.Types Verif.Namespace Verif.Range Verif.Sentinel

/-- What the last attribute that says something (according to `P`) says. -/
def Die.lastBy (d : Die) (P : At × Val → Option α) : Option α := (d.attrs.filterMap P).getLast?

/-- What the last attribute `a` that `f` can read says. -/
def Die.lastOf (d : Die) (a : At) (f : Val → Option α) : Option α :=
  d.lastBy fun av => if av.1 = a then f av.2 else none

/-- The value of the last attribute `a`. -/
def Die.last (d : Die) (a : At) : Option Val := d.lastOf a some

/-- A `DW_INL_*` constant: whether the function is inlined. -/
def Val.isInline : Val → Option Bool
  | .inline b => some b
  | _ => none

/-- A flag. -/
def Val.isFlag : Val → Option Bool
  | .flag b => some b
  | _ => none

/-- A `DW_LANG_*` constant. -/
def Val.isLang : Val → Option Nat
  | .lang n => some n
  | _ => none

/-- A line or column number: not zero, and at most 32 bits. -/
def Val.lineNumber : Val → Option Nat
  | .udata n => if 0 < n ∧ n < 2 ^ 32 then some n else none
  | _ => none

/-- The name in a file entry. -/
def Val.fileName : Val → Option (Option Str)
  | .file f _ _ => some f
  | _ => none

/-- The directory of a file entry, if its index is valid. -/
def Val.fileDirectory : Val → Option (Option Str)
  | .file _ d true => some d
  | _ => none

/-- The source location `s` is the one the entry's attributes give. -/
structure SourceSays (d : Die) (s : Source) : Prop where
  file : s.file = (d.lastOf .declFile Val.fileName).getD none
  directory : s.directory = (d.lastOf .declFile Val.fileDirectory).getD none
  line : s.line = (d.lastOf .declLine Val.lineNumber).getD 0
  column : s.column = (d.lastOf .declColumn Val.lineNumber).getD 0

/-- A string attribute. -/
def Die.strAttr (d : Die) (a : At) : Option Str := (d.last a).bind Val.str

/-- The first piece of a location that is in memory at a fixed address: the address, and the size in
bits. -/
def Val.firstFixed : Val → Option (Nat × Option Nat)
  | .exprloc ps _ => (ps.filterMap fun p => p.1.map fun a => (a, p.2)).head?
  | _ => none

/-- The address in a location, unless it is the last one of the address space. -/
def Val.fixedAddress (v : Val) : Option (Option Nat) :=
  v.firstFixed.map fun p => if p.1 = 2 ^ 64 - 1 then none else some p.1

/-- The size in bytes of what is at the fixed address, if the location gives one. -/
def Val.fixedSize (v : Val) : Option Nat :=
  v.firstFixed.bind fun p => p.2.bind fun bits => if (bits + 7) / 8 = 2 ^ 64 - 1 then none else some ((bits + 7) / 8)

/-! ### Code ranges -/

/-- An address that can be that of a function: zero only if the unit starts there (a zero address is
what the linker leaves for a discarded function). -/
def Val.codeAddr (unitLowPc : Option Nat) (v : Val) : Option Nat :=
  v.addr.filter fun a => a ≠ 0 ∨ unitLowPc = some 0

/-- A nonzero size given as `DW_AT_high_pc`. -/
def Val.highSize : Val → Option Nat
  | .udata n => if n ≠ 0 then some n else none
  | _ => none

/-- `DW_AT_high_pc` given as something other than a size. -/
def Val.highAddr : Val → Option (Option Nat)
  | .udata _ => none
  | v => some v.addr

/-- The code of a function, according to the attributes of its entry: the nonempty ranges of
`DW_AT_ranges`, or else from `DW_AT_low_pc` to `DW_AT_high_pc`, or of the given size. -/
def Die.codeRanges (unitLowPc : Option Nat) (d : Die) : List Range :=
  match (d.last .ranges).bind Val.rangesOf with
  | some rs => rs.filter fun r => r.lo < r.hi
  | none =>
    match d.lastOf .lowPc (Val.codeAddr unitLowPc), (d.lastOf .highPc Val.highAddr).getD none, d.lastOf .highPc Val.highSize with
    | some lo, some hi, _ => if lo < hi then [⟨lo, hi⟩] else []
    | some lo, none, some n => [⟨lo, lo + n⟩]
    | _, _, _ => []

/-- Total size. -/
def totalSize (rs : List Range) : Nat := (rs.map fun r => r.hi - r.lo).sum

/-- The code ranges are within the address space, short of the last byte. -/
def InSpace (rs : List Range) : Prop := (∀ r ∈ rs, r.hi < 2 ^ 64) ∧ totalSize rs < 2 ^ 64 - 1

/-! ### Variants -/

/-- The data members among the children of an entry: static ones, which are only declared, do not
count. -/
def Die.dataMembers (d : Die) : List Die :=
  d.children.filter fun c => c.tag = .member ∧ c.attrs.all fun av => av.1 ≠ .declaration

/-- The variant `d` of a Rust enumeration consists of the struct `s`: its only data member has the type
that the struct entry `s` of the same unit describes. -/
def Payload (env : Env) (d s : Die) : Prop :=
  env.rust = true ∧ ∃ c o, d.dataMembers = [c] ∧ c.lastOf .type Val.offset = some o ∧ env.entry o = some s ∧ s.tag = .structure_

/-! ### Bit fields -/

/-- The byte offset a `DW_AT_data_member_location` gives: a constant that is not negative, or an
expression whose only result is an address (evaluated for a struct at address 0), or in DWARF 3 the
value of a form that may also mean a location list. -/
def declaredByte (version : Nat) : Val → Option Nat
  | .udata v => some v
  | .sdata v => if v < 0 then none else some v.toNat
  | .exprloc [(a, _)] _ => a
  | .loclist o _ => if version = 3 then some o else none
  | _ => none

/-- The offset in bits of the byte at `declaredByte`, in a 64-bit space. -/
def declaredBit (version : Nat) (v : Val) : Option Nat := (declaredByte version v).map fun b => b * 8 % 2 ^ 64

/-- Where the storage unit of a member starts, in bits from the start of the struct. -/
def Die.storageStart (version : Nat) (d : Die) : Nat :=
  (d.lastBy fun av =>
    if av.1 = .dataMemberLocation then declaredBit version av.2
    else if av.1 = .dataBitOffset then av.2.udataValue
    else none).getD 0

/-- The significance (2^0, 2^1, ...) of the bit at position `p` of an object of `total` bits: bit
positions count from the least significant bit in a little-endian file, from the most significant bit
in a big-endian one. -/
def significance (bigEndian : Bool) (total p : Nat) : Nat := if bigEndian then total - 1 - p else p

/-- DWARF 2 and 3: the field of `width` bits is `fromMsb` bits below the most significant bit of an
object of `total` bits. -/
def FieldBit (total fromMsb width s : Nat) : Prop := total - fromMsb - width ≤ s ∧ s < total - fromMsb

end Verif.Dwarf
