import Verif.Whole.Model
import Verif.Cfi.Model
/-!
# The instructions of a function, from the contents of an object file

`print_instructions` (main/src/print/function.rs:425-483) with the code, the disassembler and the call
frame information of the file it is used with. The parts are modelled in `Verif.Code` and `Verif.Cfi`.
-/
namespace Verif.Asm
open Verif.Item Verif.Types Verif.Namespace Verif.Range Verif.File Verif.Show Verif.Code Verif.Whole
open Verif.Cfi (Cfi Row interleave)
open Verif.Print (P Val)

/-- What `disasm_all` returns for bytes at an address (capstone). -/
abbrev Decode := List Nat → Nat → Option (List Insn)

/-- `print::variable::print_ref` (main/src/print/variable.rs:8-16); `id` is `v.id()`. -/
def varRef (id : Nat) (v : Variable) : Val := .link id (qualified v.ns v.name)

/-- What `Instruction::print` looks up: `functions_by_address` and `variables_by_address` of the
`FileHash` (main/src/code.rs:306, 399, 404, 415; parser/src/file/mod.rs:616-626), the code, and the sizes of types. -/
def envOf (s : FileSide) (c : Code) : Env where
  fnAt a := (s.fnByAddress a).map fun f => fnRef (s.fnId f) f
  varAt a := (variablesByAddress s.file.units a).map fun v => varRef (s.varId v) v
  code := c
  tsz := s.tsz

/-- The loop of `print_instructions` over the ranges (main/src/print/function.rs:442-481): the rows that
are printed. `none` is a panic, in the code (`codeRange`) or in the call frame information (`getCfi`). -/
def codeRows (c : Code) (decode : Decode) (cfi : Range → Option (List Cfi)) : List Range → Option (List (Row Insn))
  | [] => some []
  | r :: rs => do
    match ← instructions c.regions decode r with
    | none => some [.org r]
    | some is =>
      let cs ← cfi r
      let rest ← codeRows c decode cfi rs
      some (.org r :: (interleave (·.address) (is.length + cs.length) is cs).map (Sum.elim (Row.insn r) (Row.cfi r)) ++ rest)

/-- `print_instructions` (main/src/print/function.rs:425-483). `code` is `state.code`, `decode` is
`None` if there is no disassembler, `cfi` is `File::cfi` (`Cfi.fileCfi`). -/
def printCode (s : FileSide) (code : Option Code) (decode : Option Decode) (cfi : Range → Option (List Cfi))
    (f : Function) : Option P :=
  if f.ranges = [] then some .skip
  else
    match code, decode with
    | some c, some decode => do
      let rows ← codeRows c decode cfi f.ranges
      let d := s.details f
      let ps ← rows.mapM (Row.print s.regName (printInsn s.regName s.tref (envOf s c) d.parameters d.variables))
      some (P.seqs ps)
    | _, _ => some .skip

/-- What printing reads of a file (`Whole.sideOf`), with the listing of the instructions. -/
def sideOf (n : Nat) (r : RawObject) (f : File) (code : Option Code) (decode : Option Decode) (cfi : Range → Option (List Cfi))
    (regName : Nat → Option Str) (ids : Nat → Nat) (fnId : Function → Nat) (varId : Variable → Nat) (unitId : CompUnit → Nat) :
    FileSide :=
  let s := Whole.sideOf n r f code (decode.getD fun _ _ => none) regName ids fnId varId unitId fun _ => none
  { s with insns := printCode s code decode cfi }

end Verif.Asm
