import Verif.Dwarf.UnitModel
import Verif.File.Model
/-!
# Model of the types that are parsed on demand (`parser/src/file/dwarf.rs:952-1085, 1840-2194`)

Arrays, subranges, subroutine types, pointers to members and type modifiers are not stored in the
unit; they are parsed from their entry each time a reference to them is followed
(`DwarfDebugInfo::get_type`). The enumerators of an enumeration are parsed on demand as well.
-/
namespace Verif.Dwarf
open Verif.Item Verif.Types Verif.Namespace Verif.Range Verif.Sentinel Verif.File

/-! ### Arrays -/

/-- The local variables for one dimension (parser/src/file/dwarf.rs:1945-1947). -/
structure DimState where
  count : Option Nat := none
  lower : Option Nat := none
  upper : Option Nat := none

/-- The attribute loop for one dimension (parser/src/file/dwarf.rs:1948-1966). -/
def dimAttr (s : DimState) : At × Val → DimState
  | (.count, v) => { s with count := v.udataValue }
  | (.lowerBound, v) => { s with lower := v.udataValue }
  | (.upperBound, v) => { s with upper := v.udataValue }
  | _ => s

/-- The count of one dimension (parser/src/file/dwarf.rs:1967-1977). -/
def dimCount (d : Die) : Option Nat :=
  let s := d.attrs.foldl dimAttr {}
  match s.count, s.upper with
  | none, some upper =>
    let lower := s.lower.getD 0
    if lower ≤ upper then checkedAdd (upper - lower) 1 else none
  | count, _ => count

/-- `counts.push` (parser/src/file/dwarf.rs:1978-1983). -/
def dimSize (d : Die) : Size :=
  match dimCount d with
  | some n => Opt64.new n
  | none => Opt64.none

/-- `parse_array_type` (parser/src/file/dwarf.rs:1909-1996). -/
def arrayType (d : Die) : Ty :=
  let counts := (d.children.filter fun c => c.tag = .subrange).map dimSize
  match counts with
  | [c] => .array d.typeAttr c [] (d.sizeAttr Opt64.none)
  | _ => .array d.typeAttr Opt64.none counts (d.sizeAttr Opt64.none)

/-! ### Subranges -/

/-- The local variables of `parse_subrange_type` (parser/src/file/dwarf.rs:2007-2008). -/
structure SubrangeState where
  name : Option Str := none
  ty : TypeOffset := none
  lower : Option Nat := none
  upper : Option Nat := none
  count : Option Nat := none
  byteSize : Size := Opt64.none

/-- The attribute loop of `parse_subrange_type` (parser/src/file/dwarf.rs:2010-2047). -/
def subrangeAttr (s : SubrangeState) : At × Val → SubrangeState
  | (.name, v) => { s with name := v.str }
  | (.type, v) =>
    match v.offset with
    | some o => { s with ty := some o }
    | none => s
  | (.lowerBound, v) =>
    match v.udataValue with
    | some n => { s with lower := some n }
    | none => s
  | (.upperBound, v) =>
    match v.udataValue with
    | some n => { s with upper := some n }
    | none => s
  | (.count, v) =>
    match v.udataValue with
    | some n => { s with count := some n }
    | none => s
  | (.byteSize, v) => { s with byteSize := Dwarf.sizeAttr s.byteSize v }
  | _ => s

/-- The upper bound (parser/src/file/dwarf.rs:2049-2051). -/
def SubrangeState.bound (s : SubrangeState) : Option Nat :=
  match s.lower, s.count with
  | some lower, some count => some ((lower + count) % 2 ^ 64)
  | _, _ => s.upper

/-- `parse_subrange_type` (parser/src/file/dwarf.rs:1998-2062). The addition wraps, as in a release
build. -/
def subrangeType (d : Die) : Ty :=
  let s := d.attrs.foldl subrangeAttr {}
  .subrange s.name s.ty s.lower s.bound s.byteSize

/-! ### The other unnamed types -/

/-- `parse_subroutine_type` (parser/src/file/dwarf.rs:2064-2107). Only the types of the parameters
are kept in this model of `FunctionType`. -/
def subroutineType (addressSize : Nat) (d : Die) : Ty :=
  .function ((addParams [] d.children).map (·.ty)) d.typeAttr (Opt64.new addressSize)

/-- `parse_pointer_to_member_type` (parser/src/file/dwarf.rs:2147-2194). -/
def pointerToMemberType (addressSize : Nat) (d : Die) : Ty :=
  .pointerToMember d.typeAttr
    (d.attrs.foldl (fun s av => if av.1 = .containingType then (match av.2.offset with | some o => some o | none => s) else s) none)
    (d.sizeAttr Opt64.none) (some addressSize)

/-- `parse_type_modifier` (parser/src/file/dwarf.rs:1035-1085). The name, which is only
printed (`Verif.Show.Extra`), is left out. -/
def modifierType (addressSize : Nat) (k : ModKind) (d : Die) : Ty :=
  .modifier k d.typeAttr (d.sizeAttr Opt64.none) (some addressSize)

/-- `parse_unnamed_type` (parser/src/file/dwarf.rs:952-1033). `addressSize` is
`dwarf_unit.header.address_size()`. -/
def unnamedType (addressSize : Nat) (d : Die) : Option Ty :=
  match d.tag with
  | .array => some (arrayType d)
  | .subrange => some (subrangeType d)
  | .subroutine => some (subroutineType addressSize d)
  | .ptrToMember => some (pointerToMemberType addressSize d)
  | .modifier k => some (modifierType addressSize k d)
  | _ => none

/-! ### Enumerators -/

/-- `BaseTypeEncoding` (parser/src/types.rs:445-463). -/
inductive Encoding
  | other | boolean | address | signed | signedChar | unsigned | unsignedChar | float
deriving DecidableEq, Repr

/-- `BaseTypeEncoding::is_unsigned` (parser/src/types.rs:467-478). -/
def Encoding.isUnsigned : Encoding → Bool
  | .unsigned | .unsignedChar | .boolean | .address => true
  | .other | .signed | .signedChar | .float => false

/-- `EnumeratorValue` (parser/src/types.rs:1221-1234). -/
inductive EnumValue
  | other
  | signed (z : Int)
  | unsigned (n : Nat)
deriving DecidableEq, Repr

/-- `Enumerator` (parser/src/types.rs:1199-1203). -/
structure Enumerator where
  name : Option Str := none
  value : EnumValue := .other
deriving DecidableEq, Repr

/-- A `DW_AT_const_value` (parser/src/file/dwarf.rs:1879-1884). -/
def enumValue (e : Encoding) (v : Val) : Option EnumValue :=
  if e.isUnsigned then v.udataValue.map .unsigned else v.sdataValue.map .signed

/-- The attribute loop of `parse_enumerator` (parser/src/file/dwarf.rs:1873-1896). -/
def enumAttr (e : Encoding) (s : Enumerator) : At × Val → Enumerator
  | (.name, v) => { s with name := v.str }
  | (.constValue, v) =>
    match enumValue e v with
    | some x => { s with value := x }
    | none => s
  | _ => s

/-- `parse_enumerators` (parser/src/file/dwarf.rs:1840-1860) and `parse_enumerator` (1862-1907). -/
def enumerators (e : Encoding) (d : Die) : List Enumerator :=
  (d.children.filter fun c => c.tag = .enumerator).map fun c => c.attrs.foldl (enumAttr e) {}

/-! ### Files -/

/-- A unit of the file, as `gimli` gives it. -/
structure RawUnit where
  extent : UnitExtent
  version : Nat := 4
  addressSize : Nat := 8
  line : Option (List LineRow) := none
  root : Die

/-- The loop over the units in `parse` (parser/src/file/dwarf.rs:458-465). -/
def parseUnits (bigEndian : Bool) (n : Nat) (units : List RawUnit) : Option (List CompUnit) :=
  units.mapM fun u => parseUnit bigEndian u.version n u.line u.root

/-- `type_tree` and `tree` (parser/src/file/dwarf.rs:305-329): the unit and the entry at an offset.
An offset in the unit where no entry starts is treated as an error; `gimli` would try to decode what
is there. -/
def entryAt (units : List RawUnit) (o : Nat) : Option (RawUnit × Die) :=
  (findUnit (units.map (·.extent)) o).bind fun p =>
    units[p.1]?.bind fun u => ((dies u.root).find? fun d => d.offset = o).map fun d => (u, d)

/-- `DwarfDebugInfo::get_type` (parser/src/file/dwarf.rs:345-349), and `DebugInfo::get_type`,
`File::get_type` (parser/src/file/mod.rs:32-36, 185-187). -/
def getType (units : List RawUnit) (o : Nat) : Option Ty :=
  (entryAt units o).bind fun p => unnamedType p.1.addressSize p.2

/-- `DwarfDebugInfo::get_enumerators` (parser/src/file/dwarf.rs:351-359) and
`DebugInfo::get_enumerators` (parser/src/file/mod.rs:38-46). -/
def getEnumerators (units : List RawUnit) (e : Encoding) : TypeOffset → List Enumerator
  | some o => ((entryAt units o).map fun p => enumerators e p.2).getD []
  | none => []

/-- `FileHash::new` (parser/src/file/mod.rs:616-626), as far as types are concerned. -/
def fileHash (units : List RawUnit) (us : List CompUnit) : Hash where
  types o := (typesByOffset us (some o)).map (·.kind)
  fileTypes := getType units

end Verif.Dwarf
