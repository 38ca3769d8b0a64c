import Verif.Frame.Model
/-!
# Model of the call frame information listings

`FdeOffsetTable`, `get_cfi` and `convert_cfi` (parser/src/file/dwarf.rs:4318-4602), `CfiDirective`
(parser/src/cfi.rs) and their printing (main/src/print/function.rs:485-565).

Not modelled: how `gimli` decodes sections. Frame entries and instructions are values; a decoding
error ends the list of instructions, as in the loops `while let Ok(Some(..))`. Results `none` are
arithmetic overflows, which panic when overflow checks are on. `u64::MAX` as an address (which
`Address` cannot represent, see C06) is left out.
-/
namespace Verif.Cfi
open Verif.Range Verif.Frame Verif.Print

/-- `CfiDirective` (parser/src/cfi.rs:11-66). Addresses are `Option Nat`, registers `Nat`. -/
inductive Directive
  | startProc
  | endProc
  | personality (a : Option Nat)
  | lsda (a : Option Nat)
  | signalFrame
  | returnColumn (r : Nat)
  | defCfa (r : Nat) (o : Int)
  | defCfaRegister (r : Nat)
  | defCfaOffset (o : Int)
  | offset (r : Nat) (o : Int)
  | valOffset (r : Nat) (o : Int)
  | register (r1 r2 : Nat)
  | restore (r : Nat)
  | undefined (r : Nat)
  | sameValue (r : Nat)
  | rememberState
  | restoreState
  | other
deriving DecidableEq, Repr

/-- `Cfi` (parser/src/cfi.rs:7). -/
abbrev Cfi := Option Nat × Directive

/-- `gimli::CallFrameInstruction`, as far as `convert_cfi` distinguishes it
(parser/src/file/dwarf.rs:4521-4601); `unhandled` stands for the remaining constructors. -/
inductive Insn
  | setLoc (address : Nat)
  | advanceLoc (delta : Nat)
  | defCfa (r : Nat) (offset : Nat)
  | defCfaSf (r : Nat) (factored : Int)
  | defCfaRegister (r : Nat)
  | defCfaOffset (offset : Nat)
  | defCfaOffsetSf (factored : Int)
  | offset (r : Nat) (factored : Nat)
  | offsetExtendedSf (r : Nat) (factored : Int)
  | valOffset (r : Nat) (factored : Nat)
  | valOffsetSf (r : Nat) (factored : Int)
  | register (dest src : Nat)
  | undefined (r : Nat)
  | sameValue (r : Nat)
  | restore (r : Nat)
  | rememberState
  | restoreState
  | nop
  | unhandled
deriving DecidableEq, Repr

/-- `i64` multiplication. -/
def mulI64 (a b : Int) : Option Int := if I64 (a * b) then some (a * b) else none

/-- A frame description entry with its common information entry, as `gimli` returns them
(parser/src/file/dwarf.rs:4456-4512 uses nothing else). The two kinds of `Pointer` are treated
alike (4474-4477, 4482-4485). -/
structure Fde where
  initial : Nat
  len : Nat
  personality : Option Nat := none
  lsda : Option Nat := none
  signal : Bool := false
  codeAlign : Nat := 1
  dataAlign : Int := 1
  cieInsns : List Insn := []
  insns : List Insn := []
deriving DecidableEq, Repr

/-- `convert_cfi` (parser/src/file/dwarf.rs:4516-4602): the new location and the directive. -/
def convert (f : Fde) (i : Insn) (loc : Nat) : Option (Nat × Option Directive) :=
  match i with
  | .setLoc a => some (a, none)
  | .advanceLoc d =>
    if d * f.codeAlign < 2 ^ 64 ∧ loc + d * f.codeAlign < 2 ^ 64 then some (loc + d * f.codeAlign, none) else none
  | .defCfa r o => some (loc, some (.defCfa r (asI64 o)))
  | .defCfaSf r o => (mulI64 o f.dataAlign).map fun o => (loc, some (.defCfa r o))
  | .defCfaRegister r => some (loc, some (.defCfaRegister r))
  | .defCfaOffset o => some (loc, some (.defCfaOffset (asI64 o)))
  | .defCfaOffsetSf o => (mulI64 o f.dataAlign).map fun o => (loc, some (.defCfaOffset o))
  | .offset r o => (mulI64 (asI64 o) f.dataAlign).map fun o => (loc, some (.offset r o))
  | .offsetExtendedSf r o => (mulI64 o f.dataAlign).map fun o => (loc, some (.offset r o))
  | .valOffset r o => (mulI64 (asI64 o) f.dataAlign).map fun o => (loc, some (.valOffset r o))
  | .valOffsetSf r o => (mulI64 o f.dataAlign).map fun o => (loc, some (.valOffset r o))
  | .register d s => some (loc, some (.register d s))
  | .undefined r => some (loc, some (.undefined r))
  | .sameValue r => some (loc, some (.sameValue r))
  | .restore r => some (loc, some (.restore r))
  | .rememberState => some (loc, some .rememberState)
  | .restoreState => some (loc, some .restoreState)
  | .nop => some (loc, none)
  | .unhandled => some (loc, some .other)

/-- The loops of parser/src/file/dwarf.rs:4493-4507: `convert_cfi` over the instructions, with the
address at which each directive was found. -/
def convertAll (f : Fde) : List Insn → Nat → Option (List (Nat × Directive))
  | [], _ => some []
  | i :: is, loc =>
    match convert f i loc with
    | none => none
    | some (loc', d) =>
      (convertAll f is loc').map fun l => (match d with | some d => [(loc', d)] | none => []) ++ l

/-- The directives before those of the instructions (parser/src/file/dwarf.rs:4470-4490). -/
def prologue (f : Fde) : List Cfi :=
  [(none, .startProc)] ++
    (match f.personality with | some a => [(none, .personality (some a))] | none => []) ++
    (match f.lsda with | some a => [(none, .lsda (some a))] | none => []) ++
    (if f.signal then [(none, .signalFrame)] else [])

/-- The body of `get_cfi` once the entry is found (parser/src/file/dwarf.rs:4470-4513). -/
def cfiOf (f : Fde) : Option (List Cfi) := do
  let cie ← convertAll f f.cieInsns 0
  let own ← convertAll f f.insns f.initial
  if f.initial + f.len < 2 ^ 64 then
    some (prologue f ++ cie.map (fun d => (none, d.2)) ++ own.map (fun d => (some d.1, d.2)) ++
      [(some (f.initial + f.len), .endProc)])
  else none

/-! ### The table of entries -/

/-- `FdeOffsetTable` (parser/src/file/dwarf.rs:4390-4392). -/
abbrev Table := List (Range × Nat)

/-- Derived `Ord` of `Range` (parser/src/range.rs:4): begin, then end. -/
def rangeLe (a b : Range × Nat) : Bool :=
  decide (a.1.lo < b.1.lo ∨ (a.1.lo = b.1.lo ∧ a.1.hi ≤ b.1.hi))

/-- The vector of parser/src/file/dwarf.rs:4402-4417, from the entries that parse, each with its
offset. -/
def collect : List (Nat × Nat × Nat) → Option Table
  | [] => some []
  | (initial, len, offset) :: l =>
    if initial + len < 2 ^ 64 then (collect l).map ((⟨initial, initial + len⟩, offset) :: ·) else none

/-- `FdeOffsetTable::new` (parser/src/file/dwarf.rs:4395-4420). -/
def tableNew (entries : List (Nat × Nat × Nat)) : Option Table := (collect entries).map (stableSort rangeLe)

/-- `slice::binary_search_by_key` (parser/src/file/dwarf.rs:4424) on the keys: `.inl` is `Ok`,
`.inr` is `Err`. An arbitrary function; its contract is `ValidSearch` in `Spec.lean`. -/
abbrev Search := List Nat → Nat → Nat ⊕ Nat

/-- `FdeOffsetTable::find` (parser/src/file/dwarf.rs:4422-4441). -/
def find (search : Search) (t : Table) (address : Nat) : Option Nat :=
  let index := match search (t.map (·.1.lo)) address with
    | .inl x => some x
    | .inr x => if x > 0 then some (x - 1) else none
  match index with
  | some index =>
    match t[index]? with
    | some (range, offset) => if range.lo ≤ address ∧ range.hi > address then some offset else none
    | none => none
  | none => none

/-- A frame section: its table and what `fde_from_offset(..).ok()` returns for an offset
(parser/src/file/dwarf.rs:4456-4458). -/
structure Section where
  table : Table
  parse : Nat → Option Fde

/-- `get_cfi` (parser/src/file/dwarf.rs:4444-4514). The outer `none` is a panic: in
`range.size()`, or overflow in the body. -/
def getCfi (search : Search) (s : Section) (range : Range) : Option (Option (List Cfi)) :=
  if range.lo ≤ range.hi then
    match find search s.table range.lo with
    | none => some none
    | some o =>
      match s.parse o with
      | none => some none
      | some fde => (cfiOf fde).map some
  else none

/-- `DwarfFrame::get_cfi` (parser/src/file/dwarf.rs:4335-4344) and `DwarfDebugInfo::get_cfi`,
`File::cfi` (parser/src/file/dwarf.rs:371-373, parser/src/file/mod.rs:591-593). -/
def fileCfi (search : Search) (eh debug : Section) (range : Range) : Option (List Cfi) :=
  match getCfi search eh range with
  | none => none
  | some (some l) => some l
  | some none => (getCfi search debug range).map (·.getD [])

/-! ### Printing a directive -/

/-- `{:x}` of an `i64`: the two's complement. -/
def hexI64 (z : Int) : Str := hex (if z < 0 then (z + 2 ^ 64).toNat else z.toNat)

/-- `write_reg!` without the lead (main/src/print/function.rs:488-496); `rn` is `Register::name`. -/
def regText (rn : Nat → Option Str) (r : Nat) : Str :=
  match rn r with
  | some n => n
  | none => dec r

/-- `write_ofs!` without the lead (main/src/print/function.rs:497-506); `none` is the overflow of
`-$o`. -/
def ofsText (o : Int) : Option Str :=
  if o < 0 then if I64 (-o) then some (Str.ofString "-0x" ++ hex (-o).toNat) else none
  else some (Str.ofString "0x" ++ hex o.toNat)

/-- The closure of `print_cfi` (main/src/print/function.rs:508-562). -/
def directiveText (rn : Nat → Option Str) : Directive → Option Str
  | .startProc => some (Str.ofString ".cfi_startproc")
  | .endProc => some (Str.ofString ".cfi_endproc")
  | .personality a => some (Str.ofString ".cfi_personality 0x" ++ hex (a.getD 0))
  | .lsda a => some (Str.ofString ".cfi_lsda 0x" ++ hex (a.getD 0))
  | .signalFrame => some (Str.ofString ".cfi_signalframe")
  | .returnColumn r => some (Str.ofString ".cfi_return_column " ++ regText rn r)
  | .defCfa r o => (ofsText o).map fun t => Str.ofString ".cfi_def_cfa " ++ regText rn r ++ Str.ofString ", " ++ t
  | .defCfaRegister r => some (Str.ofString ".cfi_def_cfa_register " ++ regText rn r)
  | .defCfaOffset o => some (Str.ofString ".cfi_def_cfa_offset 0x" ++ hexI64 o)
  | .offset r o => (ofsText o).map fun t => Str.ofString ".cfi_offset " ++ regText rn r ++ Str.ofString ", " ++ t
  | .valOffset r o =>
    (ofsText o).map fun t => Str.ofString ".cfi_val_offset " ++ regText rn r ++ Str.ofString ", " ++ t
  | .register r1 r2 =>
    some (Str.ofString ".cfi_register " ++ regText rn r1 ++ Str.ofString ", " ++ regText rn r2)
  | .restore r => some (Str.ofString ".cfi_restore " ++ regText rn r)
  | .undefined r => some (Str.ofString ".cfi_undefined " ++ regText rn r)
  | .sameValue r => some (Str.ofString ".cfi_same_value " ++ regText rn r)
  | .rememberState => some (Str.ofString ".cfi_remember_state")
  | .restoreState => some (Str.ofString ".cfi_restore_state")
  | .other => some (Str.ofString "<other cfi instruction>")

/-- `print_cfi` (main/src/print/function.rs:485-565); `none` is the underflow of
`x - range.begin`, or of `-$o`. -/
def printCfi (rn : Nat → Option Str) (range : Range) (c : Cfi) : Option P :=
  match c.1 with
  | some x =>
    if range.lo ≤ x then (directiveText rn c.2).map fun t => .instruction (some (x - range.lo)) [] (.text t)
    else none
  | none => (directiveText rn c.2).map fun t => .instruction (some 0) [] (.text t)

/-! ### Interleaving with the instructions -/

/-- The loop of main/src/print/function.rs:454-480, over the addresses of the instructions (`I` is
anything with an address) and the directives: `.inl` is an instruction, `.inr` a directive. `n`
bounds the number of iterations; `C41_all` shows the bound used is sufficient. -/
def interleave {I : Type} (addr : I → Nat) : Nat → List I → List Cfi → List (I ⊕ Cfi)
  | 0, _, _ => []
  | _ + 1, [], [] => []
  | n + 1, [], c :: cs => .inr c :: interleave addr n [] cs
  | n + 1, i :: is, [] => .inl i :: interleave addr n is []
  | n + 1, i :: is, c :: cs =>
    match c.1 with
    | none => .inr c :: interleave addr n (i :: is) cs
    | some x =>
      if x ≤ addr i then .inr c :: interleave addr n (i :: is) cs
      else .inl i :: interleave addr n is (c :: cs)

/-- The text of the `.org` line (main/src/print/function.rs:443-446). -/
def orgText (range : Range) : Str := Str.ofString ".org 0x" ++ hex range.lo

/-- One row of `print_instructions`. -/
inductive Row (I : Type)
  | org (r : Range)
  | insn (r : Range) (i : I)
  | cfi (r : Range) (c : Cfi)

/-- The rows of one range (main/src/print/function.rs:443-480): `none` where `instructions`
returns `None`. -/
def rangeRows {I : Type} (addr : I → Nat) (disasm : Range → Option (List I)) (cfi : Range → List Cfi)
    (r : Range) : Option (List (Row I)) :=
  (disasm r).map fun is =>
    .org r :: (interleave addr (is.length + (cfi r).length) is (cfi r)).map fun x =>
      match x with
      | .inl i => .insn r i
      | .inr c => .cfi r c

/-- The rows of `print_instructions` (main/src/print/function.rs:425-483), in the order they are
printed, when there is a disassembler. -/
def listingRows {I : Type} (addr : I → Nat) (disasm : Range → Option (List I)) (cfi : Range → List Cfi) :
    List Range → List (Row I)
  | [] => []
  | r :: rs =>
    match rangeRows addr disasm cfi r with
    | none => [.org r]
    | some rows => rows ++ listingRows addr disasm cfi rs

/-- How a row is printed (main/src/print/function.rs:443-446, 463-476); `pi` is
`Instruction::print`. -/
def Row.print {I : Type} (rn : Nat → Option Str) (pi : Range → I → Option P) : Row I → Option P
  | .org r => some (.instruction none [] (.text (orgText r)))
  | .insn r i => pi r i
  | .cfi r c => printCfi rn r c

/-- `print_instructions` (main/src/print/function.rs:425-483). `cfi` is `File::cfi`.
Simplification: it does not panic here (`getCfi` says when it does). -/
def printInstructions {I : Type} (rn : Nat → Option Str) (addr : I → Nat)
    (disasm : Range → Option (List I)) (cfi : Range → List Cfi) (pi : Range → I → Option P)
    (ranges : List Range) : Option P :=
  ((listingRows addr disasm cfi ranges).mapM (Row.print rn pi)).map P.seqs

end Verif.Cfi
