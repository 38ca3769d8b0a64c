import Verif.Dwarf.WalkModel
/-!
# Model of `parse_unit` (`parser/src/file/dwarf.rs:468-609`) and of unit lookup

Not modelled: decoding of the line program by `gimli`; a line program is the list of its rows, each
with its address and whether it ends a sequence.
-/
namespace Verif.Dwarf
open Verif.Item Verif.Types Verif.Namespace Verif.Range Verif.Sentinel

/-- A row of the line table: `row.address()` and `row.end_sequence()`. -/
abbrev LineRow := Nat × Bool

/-- One iteration of the loop over the rows (parser/src/file/dwarf.rs:543-560): `seq_addr` and
`unit.ranges`. -/
def lineStep (s : Option Nat × RangeList) (row : LineRow) : Option Nat × RangeList :=
  let addr := row.1
  if row.2 then
    (none, match s.1 with
      | some seqAddr => if seqAddr ≠ 0 then push s.2 ⟨seqAddr, addr⟩ else s.2
      | none => s.2)
  else if s.1.isNone then (some addr, s.2)
  else s

/-- The local variables of the attribute loop of `parse_unit` (parser/src/file/dwarf.rs:475-490). -/
structure UnitState where
  name : Option Str := none
  dir : Option Str := none
  lowPc : Option Nat := none
  highPc : Option Nat := none
  size : Option Nat := none
  ranges : Option (List Range) := none
  language : Option Nat := none

/-- The attribute loop of `parse_unit` (parser/src/file/dwarf.rs:491-535). -/
def unitAttr (s : UnitState) : At × Val → UnitState
  | (.name, v) => { s with name := v.str }
  | (.compDir, v) => { s with dir := v.str }
  | (.language, .lang n) => { s with language := some n }
  | (.lowPc, v) => { s with lowPc := v.addr }
  | (.highPc, .udata n) => { s with size := some n }
  | (.highPc, v) =>
    match v.addr with
    | some a => { s with highPc := some a }
    | none => s
  | (.ranges, v) => { s with ranges := v.rangesOf }
  | _ => s

/-- `u64::checked_add`. -/
def checkedAdd (a b : Nat) : Option Nat := if a + b < 2 ^ 64 then some (a + b) else none

/-- The end address used with `low_pc` (parser/src/file/dwarf.rs:572-576). -/
def unitHighPc (s : UnitState) (lowPc : Nat) : Option Nat :=
  match s.size with
  | some size => if s.highPc.isNone then checkedAdd lowPc size else s.highPc
  | none => s.highPc

/-- The ranges of a unit (parser/src/file/dwarf.rs:536-583). -/
def unitRanges (line : Option (List LineRow)) (s : UnitState) : RangeList :=
  match line with
  | some rows => (rows.foldl lineStep (none, [])).2
  | none =>
    match s.ranges with
    | some rs => rs.foldl (fun l r => if r.lo < r.hi then push l r else l) []
    | none =>
      match s.lowPc with
      | some lowPc =>
        match unitHighPc s lowPc with
        | some highPc => push [] ⟨lowPc, highPc⟩
        | none => []
      | none => []

/-- `DW_LANG_Rust`. -/
def langRust : Nat := 0x1c

/-- The entry of this unit at an offset: `to_unit_offset` and `entries_tree`
(parser/src/file/dwarf.rs:1505-1508). -/
def unitEntry (root : Die) (o : Nat) : Option Die := (dies root).find? fun d => d.offset = o

/-- `parse_unit` (parser/src/file/dwarf.rs:468-609) for a root entry that is a compilation unit.
`none`: the loops have not ended after `n` iterations. -/
def parseUnit (bigEndian : Bool) (version n : Nat) (line : Option (List LineRow)) (root : Die) : Option CompUnit :=
  let s := root.attrs.foldl unitAttr {}
  let ranges := sort (unitRanges line s)
  let lowPc := ranges.head?.map (·.lo)
  let env : Env := { bigEndian := bigEndian, version := version, lowPc := lowPc, rust := s.language = some langRust, entry := unitEntry root }
  (parseItems env n root.children).map fun items =>
    { dir := s.dir, name := s.name, lowPc := lowPc, ranges := ranges, types := items.types,
      functions := items.functions, variables := items.variables }

/-! ### Unit lookup -/

/-- Where a unit is in its section: its header starts at `start`, its entries are at the offsets from
`first` up to, and not including, `stop`. -/
structure UnitExtent where
  start : Nat
  first : Nat
  stop : Nat
deriving DecidableEq, Repr

/-- `gimli`'s `to_unit_offset`: the offset in the unit, if it is that of a byte of its entries. -/
def UnitExtent.toUnitOffset (u : UnitExtent) (o : Nat) : Option Nat :=
  if u.first ≤ o ∧ o < u.stop then some (o - u.start) else none

/-- `DwarfDebugInfo::unit` (parser/src/file/dwarf.rs:279-291): the index of the unit and the offset in
it; `none` is the error. -/
def findUnit : List UnitExtent → Nat → Option (Nat × Nat)
  | [], _ => none
  | u :: us, o =>
    match u.toUnitOffset o with
    | some x => some (0, x)
    | none => (findUnit us o).map fun p => (p.1 + 1, p.2)

end Verif.Dwarf
