import Verif.Dwarf.DetailModel
import Verif.Show.FileModel
import Verif.Show.TypeRef
import Verif.Code.PltModel
/-!
# The whole program, from the contents of an object file to a listing

`File::parse_object` (`parser/src/file/mod.rs:241-355`) put together from its parts, and what the
printing code then reads of a file. The parts are modelled in `Verif.File`, `Verif.Dwarf`,
`Verif.Code`, `Verif.Types` and `Verif.Show`.
-/
namespace Verif.Whole
open Verif.Item Verif.Types Verif.Namespace Verif.Range Verif.Sentinel Verif.File Verif.Dwarf Verif.Show
  Verif.Code
open Verif.Print (P)

/-! ### What is printed of a type beside its structure -/

/-- `BaseTypeEncoding` for a `DW_ATE_*` constant (parser/src/file/dwarf.rs:1110-1122). -/
def encodingConst : Nat → Show.Encoding
  | 1 => .address
  | 2 => .boolean
  | 4 => .float
  | 5 => .signed
  | 6 => .signedChar
  | 7 => .unsigned
  | 8 => .unsignedChar
  | _ => .other

/-- `Endianity` for a `DW_END_*` constant (parser/src/file/dwarf.rs:1127-1135). -/
def endianityConst : Nat → Show.Endianity
  | 0 => .default_
  | 1 => .big
  | 2 => .little
  | _ => .default_

/-- The attribute loop of `parse_base_type` (parser/src/file/dwarf.rs:1097-1144), as far as name and
size (`Dwarf.tyOf`) are not concerned. -/
def baseAttr (s : Show.Encoding × Show.Endianity) : At × Dwarf.Val → Show.Encoding × Show.Endianity
  | (.encoding, .encoding n) => (encodingConst n, s.2)
  | (.endianity, .endianity n) => (s.1, endianityConst n)
  | _ => s

/-- The encoding and the byte order of a base type (parser/src/file/dwarf.rs:1087-1155). -/
def baseExtra (d : Die) : Show.Encoding × Show.Endianity := d.attrs.foldl baseAttr (.other, .default_)

/-- The source attributes in the attribute loops of types (parser/src/file/dwarf.rs:1182-1186,
1238-1240, 1336-1338, 1799-1801). -/
def typeSource (d : Die) : Source := d.attrs.foldl (fun s av => sourceAttr s av.1 av.2) {}

/-- `DW_AT_declaration` in the attribute loops of types (parser/src/file/dwarf.rs:1233-1237,
1331-1335, 1794-1798). -/
def typeDeclaration (d : Die) : Bool :=
  d.attrs.foldl (fun s av =>
    match av with
    | (.declaration, .flag b) => b
    | _ => s) false

/-- The encodings that `get_enumerators` distinguishes: there are two copies of the same enumeration
in this model. -/
def toDwarf : Show.Encoding → Dwarf.Encoding
  | .other => .other
  | .boolean => .boolean
  | .address => .address
  | .signed => .signed
  | .signedChar => .signedChar
  | .unsigned => .unsigned
  | .unsignedChar => .unsignedChar
  | .float => .float

/-- See `toDwarf`. -/
def toShow (e : Dwarf.Enumerator) : Show.Enumerator :=
  ⟨e.name, match e.value with | .other => .other | .signed z => .signed z | .unsigned n => .unsigned n⟩

/-- `EnumerationType::encoding` (parser/src/types.rs:1171-1177), and the default of 1183. -/
def enumEncoding (units : List RawUnit) (h : Hash) (ty : TypeOffset) : Show.Encoding :=
  match fromOffset h ty, ty with
  | some (.base ..), some o => ((entryAt units o).map fun p => (baseExtra p.2).1).getD .signed
  | _, _ => .signed

/-- `EnumerationType::enumerators` (parser/src/types.rs:1180-1185). -/
def enumeratorsOf (units : List RawUnit) (h : Hash) (d : Die) : List Show.Enumerator :=
  (getEnumerators units (toDwarf (enumEncoding units h d.typeAttr)) (some d.offset)).map toShow

/-- What is kept of the entry of a type beside its `Ty` (parser/src/file/dwarf.rs:1035-1155, 1157-1240,
1303-1340, 1762-1801, 2064-2107). -/
def typeExtra (units : List RawUnit) (h : Hash) (d : Die) : Extra :=
  match d.tag with
  | .baseType => { encoding := (baseExtra d).1, endianity := (baseExtra d).2 }
  | .typedef => { source := typeSource d }
  | .structure_ | .union_ => { source := typeSource d, declaration := typeDeclaration d }
  | .enumeration => { source := typeSource d, declaration := typeDeclaration d, enumerators := enumeratorsOf units h d }
  | .subroutine => { paramNames := (addParams [] d.children).map (·.name) }
  | .modifier _ => { name := d.nameAttr }
  | _ => {}

/-- What is known of the type at an offset beside its `Ty`. Simplification: in the code these are
fields of the records of types; here they are read off the entry at the offset. `ids` are the ids
that `assign_ids` gives (`Verif.Ids`). -/
def extraAt (units : List RawUnit) (h : Hash) (ids : Nat → Nat) : TypeOffset → Extra
  | none => {}
  | some o =>
    match entryAt units o with
    | some p => { typeExtra units h p.2 with id := ids o }
    | none => {}

/-! ### Object files -/

/-- What `parse_object` reads of an object file through `object` and `gimli`, and of its
supplementary debug file. -/
structure RawObject where
  path : Str
  bigEndian : Bool := false
  segments : List RawSegment := []
  symbols : List RawSymbol := []
  sections : List RawSection := []
  dynamicSymbols : Bool := false
  dynamicRelocations : Option (List RawReloc) := none
  units : List RawUnit := []

/-- `Type::from_offset(hash, o).and_then(|t| t.byte_size(hash))`; the first argument bounds the
recursion. -/
def sizeAt (n : Nat) (h : Hash) (o : TypeOffset) : Option Nat :=
  match fromOffset h o with
  | some t =>
    match byteSize n h t with
    | .ok r => r
    | _ => none
  | none => none

/-- `File::parse_object` (parser/src/file/mod.rs:241-355). `none`: an error, or a loop has not ended
after `n` iterations. `search` is the binary search for a symbol. -/
def parseObject (search : Search) (n : Nat) (r : RawObject) : Option File := do
  let symbols ← readSymbols r.symbols
  let sections ← readSections r.sections
  let relocations ← readRelocs r.dynamicSymbols r.dynamicRelocations
  let us ← parseUnits r.bigEndian n r.units
  some (normalize search (sizeAt n (fileHash r.units us))
    { segments := readSegments r.segments, sections := sections, symbols := symbols, relocations := relocations, units := us })

/-- The calls of a range of code (`Code::calls`, main/src/code.rs:78-80, and main/src/print/function.rs:415-424); none
without code. -/
def callsIn (code : Option Code) (disasm : List Nat → Nat → Option (List Insn)) (r : Range) :
    Option (List (Nat × Nat)) :=
  match code with
  | some c => calls c.regions disasm r
  | none => some []

/-- What printing reads of a file through `FileHash` and `Code` (parser/src/file/mod.rs:616-626): the
names of registers, ids and the listing of instructions are left open. The bound `n` is that of the
recursions. -/
def sideOf (n : Nat) (r : RawObject) (f : File) (code : Option Code) (disasm : List Nat → Nat → Option (List Insn))
    (regName : Nat → Option Str) (ids : Nat → Nat) (fnId : Function → Nat) (varId : Variable → Nat) (unitId : CompUnit → Nat)
    (insns : Function → Option P) : FileSide :=
  let h := fileHash r.units f.units
  let x := extraAt r.units h ids
  { hash := h
    extra := x
    tsz := sizeAt n h
    tref := fun o => (typeRef n h x o).getD .nil
    regName := regName
    fnAt := functionFromOffset f.units
    fnByAddress := functionsByAddress f.units
    fnId := fnId
    details := fun g => (getDetails r.units f.units g.offset).getD {}
    plt := fun a => code.bind fun c => c.plt a
    callsOf := callsIn code disasm
    insns := insns
    path := r.path
    file := f
    varId := varId
    unitId := unitId }

end Verif.Whole
