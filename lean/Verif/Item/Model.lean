import Verif.Types.Model
import Verif.Range.Model
/-!
# Model of the parsed items: locations, sources, functions, variables, units, files

`parser/src/location.rs`, `parser/src/source.rs`, `parser/src/function.rs`,
`parser/src/variable.rs`, `parser/src/unit.rs` and the data types of `parser/src/file/mod.rs`.

`Address`, `Size` and the offset types are `Option Nat` here: the sentinel encoding is modelled
in `Verif.Sentinel` and shown faithful by the `C06` theorems. The user-defined ids are modelled
in `Verif.Ids`. Sizes of types come from a parameter `tsz : TypeOffset → Option Nat` standing
for `Type::from_offset(hash, ty).and_then(|t| t.byte_size(hash))` (`Verif.Types`).
-/
namespace Verif.Item
open Verif.Types Verif.Namespace Verif.Range

/-- `Location` (parser/src/location.rs:42-86). -/
inductive Location
  | empty
  | literal (value : Nat)
  | register (register : Nat)
  | registerOffset (register : Nat) (offset : Int)
  | frameOffset (offset : Int)
  | cfaOffset (offset : Int)
  | address (address : Option Nat)
  | tlsOffset (offset : Nat)
  | other
deriving DecidableEq, Repr

/-- `Piece` (parser/src/location.rs:27-40). -/
structure Piece where
  bitOffset : Nat
  bitSize : Option Nat
  location : Location
  locationOffset : Nat
  isValue : Bool
deriving DecidableEq, Repr

/-- `FrameLocation` (parser/src/location.rs:15-22). -/
structure FrameLocation where
  offset : Int
  bitSize : Option Nat
deriving DecidableEq, Repr

/-- `location::registers` (parser/src/location.rs:88-100); `Parameter::registers`
(parser/src/function.rs:307-309) and `LocalVariable::registers` (parser/src/variable.rs:246-248)
call it. -/
def registers (locs : List (Range × Piece)) : List (Range × Nat) :=
  locs.filterMap fun (range, piece) =>
    if piece.isValue then none
    else match piece.location with
      | .register r => some (range, r)
      | _ => none

/-- `location::frame_locations` (parser/src/location.rs:102-121); `Parameter::frame_locations`
(parser/src/function.rs:317-319) calls it. -/
def frameLocations (locs : List (Range × Piece)) : List (Range × FrameLocation) :=
  locs.filterMap fun (range, piece) =>
    if piece.isValue then none
    else match piece.location with
      | .frameOffset o => some (range, ⟨o, piece.bitSize⟩)
      | .cfaOffset o => some (range, ⟨o, piece.bitSize⟩)
      | _ => none

/-- `LocalVariable::frame_locations` (parser/src/variable.rs:256-272): a second copy of the code
that drops the ranges. -/
def localFrameLocations (locs : List (Range × Piece)) : List FrameLocation :=
  locs.filterMap fun (_, piece) =>
    if piece.isValue then none
    else match piece.location with
      | .frameOffset o => some ⟨o, piece.bitSize⟩
      | .cfaOffset o => some ⟨o, piece.bitSize⟩
      | _ => none

/-- `location::register_offsets` (parser/src/location.rs:123-135); `Parameter::register_offsets`
(parser/src/function.rs:312-314) and `LocalVariable::register_offsets`
(parser/src/variable.rs:251-253) call it. -/
def registerOffsets (locs : List (Range × Piece)) : List (Range × Nat × Int) :=
  locs.filterMap fun (range, piece) =>
    if piece.isValue then none
    else match piece.location with
      | .registerOffset r o => some (range, r, o)
      | _ => none

/-- `Source` (parser/src/source.rs:3-10). -/
structure Source where
  directory : Option Str := none
  file : Option Str := none
  line : Nat := 0
  column : Nat := 0
deriving DecidableEq, Repr

/-- `ParameterType` (parser/src/types.rs:1473-1478). -/
structure ParameterType where
  offset : Option Nat
  name : Option Str
  ty : TypeOffset
deriving DecidableEq, Repr

/-- `Function` (parser/src/function.rs:57-74), without `id` (see `Verif.Ids`). The defaults are
those of `#[derive(Default)]`. -/
structure Function where
  offset : Option Nat := none
  ns : Option Namespace := none
  name : Option Str := none
  linkageName : Option Str := none
  symbolName : Option Str := none
  source : Source := {}
  address : Option Nat := none
  size : Option Nat := none
  ranges : List Range := []
  inline : Bool := false
  declaration : Bool := false
  parameters : List ParameterType := []
  returnType : TypeOffset := none
deriving DecidableEq, Repr

/-- `Variable` (parser/src/variable.rs:44-58), without `id`. -/
structure Variable where
  offset : Option Nat := none
  ns : Option Namespace := none
  name : Option Str := none
  linkageName : Option Str := none
  symbolName : Option Str := none
  ty : TypeOffset := none
  source : Source := {}
  address : Option Nat := none
  size : Option Nat := none
  declaration : Bool := false
deriving DecidableEq, Repr

/-- `Type` (parser/src/types.rs:103-109), without `id`. -/
structure TypeEntry where
  offset : TypeOffset
  kind : Ty
deriving DecidableEq, Repr

/-- `Unit` (parser/src/unit.rs:10-22), without `id`; `language` is never read by the modelled
code. -/
structure CompUnit where
  dir : Option Str := none
  name : Option Str := none
  lowPc : Option Nat := none
  ranges : RangeList := []
  types : List TypeEntry := []
  functions : List Function := []
  variables : List Variable := []
deriving DecidableEq, Repr

/-- `Variable::byte_size` (parser/src/variable.rs:129-135). -/
def Variable.byteSize (tsz : TypeOffset → Option Nat) (v : Variable) : Option Nat :=
  if v.size.isSome then v.size else tsz v.ty

/-- `Variable::range` (parser/src/variable.rs:138-152). Simplification: `begin + size` does not
overflow. -/
def Variable.range (tsz : TypeOffset → Option Nat) (v : Variable) : Option Range :=
  match v.address, v.byteSize tsz with
  | some lo, some size => if size ≠ 0 then some ⟨lo, lo + size⟩ else none
  | _, _ => none

/-- The pushes of `Unit::ranges` for functions (parser/src/unit.rs:65-69, 99-103). -/
def CompUnit.functionRanges (u : CompUnit) : List Range := u.functions.flatMap (·.ranges)

/-- The pushes of `Unit::ranges` for variables (parser/src/unit.rs:70-74, 111-115). -/
def CompUnit.variableRanges (tsz : TypeOffset → Option Nat) (u : CompUnit) : List Range :=
  u.variables.filterMap (·.range tsz)

/-- `Unit::ranges` (parser/src/unit.rs:63-77). -/
def CompUnit.knownRanges (tsz : TypeOffset → Option Nat) (u : CompUnit) : RangeList :=
  sort (pushAll (pushAll [] u.functionRanges) (u.variableRanges tsz))

/-- `Unit::unknown_ranges` (parser/src/unit.rs:81-88). -/
def CompUnit.unknownRanges (tsz : TypeOffset → Option Nat) (u : CompUnit) : RangeList :=
  subtract (sort (pushAll [] u.ranges)) (u.knownRanges tsz)

/-- `Unit::function_size` (parser/src/unit.rs:97-106); `none` is a panic in `Range::size`. -/
def CompUnit.functionSize (u : CompUnit) : Option Nat := size? (sort (pushAll [] u.functionRanges))

/-- `Unit::variable_size` (parser/src/unit.rs:109-118). -/
def CompUnit.variableSize (tsz : TypeOffset → Option Nat) (u : CompUnit) : Option Nat :=
  size? (sort (pushAll [] (u.variableRanges tsz)))

/-- `Unit::size` (parser/src/unit.rs:91-94). -/
def CompUnit.size (tsz : TypeOffset → Option Nat) (u : CompUnit) : Option Nat := do
  let f ← u.functionSize
  let v ← u.variableSize tsz
  pure (f + v)

/-- `is_absolute` (parser/src/source.rs:41-43): `directory.get(0..1) == Some("/")` or
`directory.get(1..2) == Some(":")`. On a `&str` a byte range that is not on character boundaries
gives `None`, and so does a range past the end; comparing the single byte is the same because
`/` and `:` are ASCII and a continuation byte is never ASCII — except that `get(1..2)` is also
`None` when byte 0 starts a longer character, in which case byte 1 is not `:` either. -/
def isAbsolute (d : Str) : Bool := d[0]? == some 47 || d[1]? == some 58

/-- `s.ends_with('/')`. -/
def endsWithSlash (s : Str) : Bool := s.getLast? == some 47

/-- Push `s` and, unless it ends with one, a `/` (parser/src/source.rs:49-52, 54-57). -/
def pushDir (s : Str) : Str := if endsWithSlash s then s else s ++ [47]

/-- `Source::path` (parser/src/source.rs:40-62). -/
def Source.path (s : Source) (unitDir : Option Str) : Option Str :=
  s.file.map fun file =>
    (match s.directory with
      | some d =>
        (match isAbsolute d, unitDir with
          | false, some ud => pushDir ud
          | _, _ => []) ++ pushDir d
      | none => []) ++ file

/-- Decimal digits as bytes (`write!(w, "{}", n)`). -/
def digits (n : Nat) : Str := (Nat.toDigits 10 n).map Char.toNat

/-- `print::source::print` (main/src/print/source.rs:6-17): the bytes written. -/
def Source.print (s : Source) (unitDir : Option Str) : Str :=
  match s.path unitDir with
  | some path =>
    path ++ (if s.line ≠ 0 then
      58 :: digits s.line ++ (if s.column ≠ 0 then 58 :: digits s.column else [])
    else [])
  | none => []

/-- `print::unit::print_ref` (main/src/print/unit.rs:78-92). -/
def CompUnit.printRef (u : CompUnit) : Str :=
  let name := u.name.getD (Str.ofString "<anon>")
  let dir := u.dir.getD []
  (if !(name.head? == some 47) && !dir.isEmpty then pushDir dir else []) ++ name

end Verif.Item
