import Verif.Code.Annot
import Verif.File.Props
/-!
# Model of `Code::new` and `find_plts` (`main/src/code.rs`), and of reading segments and relocations

Capstone is not modelled: `disasm bytes address` is the result of `disasm_all`, and an instruction
carries the result of `insn_detail`. The `object` crate is not modelled: `RawSegment`, `RawReloc` are
what its iterators yield.
-/
namespace Verif.Code
open Verif.Range Verif.Item Verif.Types Verif.Print Verif.File

/-- A segment as the `object` crate yields it: `data = none` is an error from `segment.data()`
(parser/src/file/mod.rs:254-261). -/
structure RawSegment where
  address : Nat
  data : Option (List Nat)

/-- parser/src/file/mod.rs:253-261. -/
def readSegments (l : List RawSegment) : List Segment :=
  l.filterMap fun s => s.data.map fun b => ⟨s.address, b⟩

/-- A dynamic relocation and what it refers to: `target = none` is a target that is not a symbol,
`some none` an index that is not in the dynamic symbol table, `some (some none)` an error from
`symbol.name()` (parser/src/file/mod.rs:319-332). -/
structure RawReloc where
  address : Nat
  size : Nat
  target : Option (Option (Option Str))

/-- parser/src/file/mod.rs:319-332: `none` is an error. -/
def readReloc (r : RawReloc) : Option (Option Relocation) :=
  match r.target with
  | none => some none
  | some none => some none
  | some (some name) => name.map fun s => some ⟨r.address, r.size, s⟩

/-- parser/src/file/mod.rs:315-333; `dynamicSymbols` is whether there is a dynamic symbol table. -/
def readRelocs (dynamicSymbols : Bool) (relocs : Option (List RawReloc)) : Option (List Relocation) :=
  match dynamicSymbols, relocs with
  | true, some l => (l.mapM readReloc).map fun l => l.filterMap id
  | _, _ => some []

/-- `object::Architecture` as far as `Code::new` distinguishes it (main/src/code.rs:34-38). -/
inductive Arch
  | i386 | x86_64 | other
deriving DecidableEq, Repr

/-- The loop over the instructions of a section (main/src/code.rs:124-136): the insertions into
`plts`, and whether the loop was completed; the outer `none` is a panic. -/
def pltInsns (reloc : Nat → Option Str) : List Insn → Option (List (Nat × Str) × Bool)
  | [] => some ([], true)
  | i :: is =>
    match i.detail with
    | none => some ([], false)
    | some d =>
      match pltEntries reloc i d.ops, pltInsns reloc is with
      | some e, some (r, b) => some (e ++ r, b)
      | _, _ => none

/-- The conditions on a section and its disassembly (main/src/code.rs:119-123); `none` is a panic,
`some none` a section that is not looked at, `some (some none)` an error of the disassembler. -/
def pltSection (segments : List Segment) (disasm : List Nat → Nat → Option (List Insn)) (s : Section) :
    Option (Option (Option (List Insn))) :=
  match s.name, s.range with
  | some name, some r =>
    if (Str.ofString ".plt").isPrefixOf name then
      match segmentBytes segments r with
      | .bytes b => some (some (disasm b r.lo))
      | .absent => some none
      | .panic => none
    else some none
  | _, _ => some none

/-- The loop over the sections (main/src/code.rs:118-138). -/
def pltSections (reloc : Nat → Option Str) (segments : List Segment) (disasm : List Nat → Nat → Option (List Insn)) :
    List Section → Option (List (Nat × Str))
  | [] => some []
  | s :: ss =>
    match pltSection segments disasm s with
    | none => none
    | some none => pltSections reloc segments disasm ss
    | some (some none) => some []
    | some (some (some is)) =>
      match pltInsns reloc is with
      | none => none
      | some (e, false) => some e
      | some (e, true) => (pltSections reloc segments disasm ss).map fun r => e ++ r

/-- `find_plts` (main/src/code.rs:109-139); `disasm = none` is an error from `Capstone::new_raw` or
`set_detail`. -/
def findPlts (reloc : Nat → Option Str) (f : File) (disasm : Option (List Nat → Nat → Option (List Insn))) :
    Option (List (Nat × Str)) :=
  match disasm with
  | none => some []
  | some disasm => pltSections reloc f.segments disasm f.sections

/-- `Code::new` (main/src/code.rs:33-65): the outer `none` is a panic. -/
def newCode (arch : Arch) (f : File) (disasm : Option (List Nat → Nat → Option (List Insn))) : Option (Option Code) :=
  match arch with
  | .other => some none
  | _ =>
    let reloc := hashOf (f.relocations.map fun r => (r.address, r.symbol))
    (findPlts reloc f disasm).map fun plts =>
      some { regions := f.segments.map fun s => ⟨s.address, s.bytes⟩, relocation := reloc, plt := hashOf plts }

end Verif.Code
