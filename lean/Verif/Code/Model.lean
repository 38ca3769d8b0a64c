import Verif.Cfi.Model
import Verif.Item.Details
import Verif.Show.Refs
/-!
# Model of `main/src/code.rs`: code bytes, calls, PLT entries, annotated instructions

Not modelled: `capstone`. A decoded instruction is a value (`Insn`) with the attributes the code
reads from it; `disasm_all` is a parameter. Results `none` (outermost) are arithmetic overflows or
out-of-range slices, which panic when overflow checks are on.
-/
namespace Verif.Code
open Verif.Range Verif.Item Verif.Types Verif.Print Verif.Frame Verif.Cfi

/-- The x86 registers of `capstone` named by `convert_reg` (main/src/code.rs:504-547); `other` stands
for all the rest. -/
inductive XReg
  | rax | eax | ax | ah | al
  | rdx | edx | dx | dh | dl
  | rcx | ecx | cx | ch | cl
  | rbx | ebx | bx | bh | bl
  | rsi | esi | si | sil
  | rdi | edi | di | dil
  | rbp | ebp | bp | bpl
  | rsp | esp | sp | spl
  | r8 | r8d | r8w | r8b
  | r9 | r9d | r9w | r9b
  | r10 | r10d | r10w | r10b
  | r11 | r11d | r11w | r11b
  | r12 | r12d | r12w | r12b
  | r13 | r13d | r13w | r13b
  | r14 | r14d | r14w | r14b
  | r15 | r15d | r15w | r15b
  | xmm0 | ymm0
  | xmm1 | ymm1
  | xmm2 | ymm2
  | xmm3 | ymm3
  | xmm4 | ymm4
  | xmm5 | ymm5
  | xmm6 | ymm6
  | xmm7 | ymm7
  | xmm8 | ymm8
  | xmm9 | ymm9
  | xmm10 | ymm10
  | xmm11 | ymm11
  | xmm12 | ymm12
  | xmm13 | ymm13
  | xmm14 | ymm14
  | xmm15 | ymm15
  | invalid | rip | eip | other
deriving DecidableEq, Repr

/-- `convert_reg` (main/src/code.rs:500-549). -/
def convertReg : XReg → Option Nat
  | .rax | .eax | .ax | .ah | .al => some 0
  | .rdx | .edx | .dx | .dh | .dl => some 1
  | .rcx | .ecx | .cx | .ch | .cl => some 2
  | .rbx | .ebx | .bx | .bh | .bl => some 3
  | .rsi | .esi | .si | .sil => some 4
  | .rdi | .edi | .di | .dil => some 5
  | .rbp | .ebp | .bp | .bpl => some 6
  | .rsp | .esp | .sp | .spl => some 7
  | .r8 | .r8d | .r8w | .r8b => some 8
  | .r9 | .r9d | .r9w | .r9b => some 9
  | .r10 | .r10d | .r10w | .r10b => some 10
  | .r11 | .r11d | .r11w | .r11b => some 11
  | .r12 | .r12d | .r12w | .r12b => some 12
  | .r13 | .r13d | .r13w | .r13b => some 13
  | .r14 | .r14d | .r14w | .r14b => some 14
  | .r15 | .r15d | .r15w | .r15b => some 15
  | .xmm0 | .ymm0 => some 17
  | .xmm1 | .ymm1 => some 18
  | .xmm2 | .ymm2 => some 19
  | .xmm3 | .ymm3 => some 20
  | .xmm4 | .ymm4 => some 21
  | .xmm5 | .ymm5 => some 22
  | .xmm6 | .ymm6 => some 23
  | .xmm7 | .ymm7 => some 24
  | .xmm8 | .ymm8 => some 25
  | .xmm9 | .ymm9 => some 26
  | .xmm10 | .ymm10 => some 27
  | .xmm11 | .ymm11 => some 28
  | .xmm12 | .ymm12 => some 29
  | .xmm13 | .ymm13 => some 30
  | .xmm14 | .ymm14 => some 31
  | .xmm15 | .ymm15 => some 32
  | .invalid | .rip | .eip => none
  | .other => none

/-- `X86OperandType` as far as the code distinguishes it (main/src/code.rs:448-498); an immediate
is already converted by `as u64` (452). -/
inductive Op
  | imm (v : Nat)
  | reg (r : XReg)
  | mem (base : XReg) (disp : Int)
  | other
deriving DecidableEq, Repr

/-- What `insn_detail` returns: the operands and the groups tested by `is_call` and `is_jump`
(main/src/code.rs:434-446). -/
structure Detail where
  ops : List Op
  isCall : Bool := false
  isJump : Bool := false
deriving DecidableEq, Repr

/-- A decoded instruction (`capstone::Insn`). -/
structure Insn where
  address : Nat
  bytes : List Nat
  mnemonic : Option Str
  opStr : Option Str
  detail : Option Detail
deriving DecidableEq, Repr

/-- `Region` (main/src/code.rs:20-24). -/
structure Region where
  address : Nat
  code : List Nat
deriving DecidableEq, Repr

/-- `Code` (main/src/code.rs:11-18) for an x86 machine. The hash maps are functions. -/
structure Code where
  regions : List Region
  relocation : Nat → Option Str := fun _ => none
  plt : Nat → Option Str := fun _ => none

/-- `Code::range` (main/src/code.rs:83-94). The overflow of `region.address + len` is reached only
if `range.begin >= region.address`. -/
def codeRange : List Region → Range → Option (Option (List Nat))
  | [], _ => some none
  | g :: gs, r =>
    if g.address ≤ r.lo then
      if g.address + g.code.length < 2 ^ 64 then
        if r.hi ≤ g.address + g.code.length then
          if r.lo ≤ r.hi then some (some ((g.code.drop (r.lo - g.address)).take (r.hi - r.lo))) else none
        else codeRange gs r
      else none
    else codeRange gs r

/-- `from_le_bytes`. -/
def leBytes : List Nat → Nat
  | [] => 0
  | b :: bs => b + 256 * leBytes bs

/-- `Code::read_mem` (main/src/code.rs:96-106). -/
def readMem (gs : List Region) (address size : Nat) : Option (Option Nat) :=
  if address + size < 2 ^ 64 then
    (codeRange gs ⟨address, address + size⟩).map fun b =>
      match b with
      | none => none
      | some b => if size = 4 ∨ size = 8 then some (leBytes b) else none
  else none

/-- `offset as u64` and `wrapping_add` (main/src/code.rs:494). -/
def wrapAdd (a : Nat) (o : Int) : Nat := ((a + o) % 2 ^ 64).toNat

/-- `is_imm` (main/src/code.rs:448-455). -/
def isImm : Op → Option Nat
  | .imm v => some v
  | _ => none

/-- `is_reg` (main/src/code.rs:457-468). -/
def isReg : Op → Option Nat
  | .reg r => convertReg r
  | .mem b _ => convertReg b
  | _ => none

/-- `is_reg_offset` (main/src/code.rs:470-477). -/
def isRegOffset : Op → Option (Nat × Int)
  | .mem b d => (convertReg b).map fun r => (r, d)
  | _ => none

/-- The base register part of `is_ip_offset` (main/src/code.rs:485-492): the size of the
pointer. -/
def ipSize : Op → Option (Int × Nat)
  | .mem .rip d => some (d, 8)
  | .mem .eip d => some (d, 4)
  | _ => none

/-- `is_ip_offset` (main/src/code.rs:480-498); the outer `none` is the overflow of
`insn.address() + len`. -/
def isIpOffset (i : Insn) (op : Op) : Option (Option (Int × Nat × Nat)) :=
  match ipSize op with
  | none => some none
  | some (d, size) =>
    if i.address + i.bytes.length < 2 ^ 64 then
      some (some (d, wrapAdd (i.address + i.bytes.length) d, size))
    else none

/-- The loop of `call_x86` (main/src/code.rs:162-178): the target. -/
def callTarget (gs : List Region) (i : Insn) : List Op → Option (Option Nat)
  | [] => some none
  | op :: ops =>
    match isImm op with
    | some v => some (some v)
    | none =>
      match isIpOffset i op with
      | none => none
      | some none => callTarget gs i ops
      | some (some (_, address, size)) =>
        match readMem gs address size with
        | none => none
        | some (some v) => some (some v)
        | some none => callTarget gs i ops

/-- `call_x86` (main/src/code.rs:156-179): `(from, to)`. -/
def callOf (gs : List Region) (i : Insn) : Option (Option (Nat × Nat)) :=
  match i.detail with
  | none => some none
  | some d =>
    if d.isCall then (callTarget gs i d.ops).map fun t => t.map fun t => (i.address, t)
    else some none

/-- `calls` (main/src/code.rs:141-147) and `Code::calls` (75-77); `disasm bytes address` is
`disasm_all`. -/
def calls (gs : List Region) (disasm : List Nat → Nat → Option (List Insn)) (r : Range) :
    Option (List (Nat × Nat)) :=
  match codeRange gs r with
  | none => none
  | some none => some []
  | some (some bytes) =>
    match disasm bytes r.lo with
    | none => some []
    | some is => (is.mapM (callOf gs)).map fun l => l.filterMap id

/-- `Disassembler::instructions` (main/src/code.rs:192-200). -/
def instructions (gs : List Region) (disasm : List Nat → Nat → Option (List Insn)) (r : Range) :
    Option (Option (List Insn)) :=
  (codeRange gs r).map fun b => b.bind fun b => disasm b r.lo

/-- The targets of main/src/code.rs:127-134 for one instruction: the entries inserted into the
PLT map (key, symbol), in order. -/
def pltEntries (reloc : Nat → Option Str) (i : Insn) (ops : List Op) : Option (List (Nat × Str)) :=
  (ops.mapM fun op =>
    (isIpOffset i op).map fun t =>
      match t with
      | none => []
      | some (_, target, _) =>
        match reloc target with
        | some s => [(i.address / 16 * 16, s)]
        | none => []).map List.flatten

/-! ### Printing an instruction -/

/-- `str::split(", ")`. -/
def splitComma : Str → List Str
  | [] => [[]]
  | c :: s =>
    match c, s with
    | 44, 32 :: s => [] :: splitComma s
    | c, s =>
      match splitComma s with
      | [] => [[c]]
      | p :: ps => (c :: p) :: ps

/-- The text of one operand (main/src/code.rs:262-273). -/
def operandText (d : Detail) (r : Range) (text : Str) (op : Option Op) : Str :=
  match op with
  | some op =>
    match isImm op with
    | some imm => if d.isJump ∧ r.contains imm then [43] ++ hex (imm - r.lo) else text
    | none => text
  | none => text

/-- The loop of main/src/code.rs:255-274, after the first operand. -/
def operandsRest (d : Detail) (r : Range) : List Str → List Op → Str
  | [], _ => []
  | t :: ts, ops => Str.ofString ", " ++ operandText d r t ops.head? ++ operandsRest d r ts (ops.drop 1)

/-- The closure of main/src/code.rs:251-277. -/
def operandsText (d : Detail) (r : Range) (opStr : Option Str) : Str :=
  match opStr with
  | some s =>
    if s = [] then []
    else match splitComma s with
      | [] => []
      | t :: ts => [32] ++ operandText d r t d.ops.head? ++ operandsRest d r ts (d.ops.drop 1)
  | none => []

/-- `{:02x} ` of each byte (main/src/code.rs:280-282). -/
def bytesText (bs : List Nat) : Str :=
  bs.flatMap fun b => (if b < 16 then [48] else []) ++ hex b ++ [32]

/-- The line of the instruction itself (main/src/code.rs:250-285), at the given relative
address. -/
def headLine (i : Insn) (d : Detail) (r : Range) (rel : Nat) : P :=
  match i.mnemonic with
  | some m => .instruction (some rel) m (.text (operandsText d r i.opStr))
  | none => .instruction (some rel) (Str.ofString ".byte") (.text (bytesText i.bytes))

/-- One of the lines printed after an instruction (main/src/code.rs:306-424). -/
inductive Annot
  | immFunction (imm : Nat) (f : Val)
  | immPlt (imm : Nat) (s : Str)
  | immReloc (imm : Nat) (s : Str)
  | regParam (r : Nat) (p : Parameter)
  | regVar (r : Nat) (v : LocalVariable)
  | memParam (r : Nat) (o : Int) (p : Parameter)
  | memVar (r : Nat) (o : Int) (v : LocalVariable)
  | ipFunction (o : Int) (f : Val)
  | ipVariable (o : Int) (v : Val)
  | ipReloc (o : Int) (s : Str)
  | ipValue (o : Int) (value : Nat) (f : Option Val)

/-- What printing an instruction looks up: `functions_by_address`/`variables_by_address` (as
`print_ref` would write them), the code, the sizes of types. -/
structure Env where
  fnAt : Nat → Option Val := fun _ => none
  varAt : Nat → Option Val := fun _ => none
  code : Code
  tsz : TypeOffset → Option Nat := fun _ => none

/-- main/src/code.rs:306-323. -/
def immAnnots (e : Env) (imm : Nat) : List Annot :=
  match e.fnAt imm with
  | some f => [.immFunction imm f]
  | none =>
    match e.code.plt imm with
    | some s => [.immPlt imm s]
    | none =>
      match e.code.relocation imm with
      | some s => [.immReloc imm s]
      | none => []

/-- main/src/code.rs:325-348. -/
def regAnnots (ps : List Parameter) (vs : List LocalVariable) (address : Nat) (op : Op) : List Annot :=
  match isReg op with
  | none => []
  | some reg =>
    (ps.flatMap fun p => (registers p.locations).flatMap fun (range, register) =>
      if reg = register ∧ range.contains address then [.regParam register p] else []) ++
    (vs.flatMap fun v => (registers v.locations).flatMap fun (range, register) =>
      if reg = register ∧ range.contains address then [.regVar register v] else [])

/-- The inner loop of main/src/code.rs:352-371 and 375-394. -/
def memHits (reg : Nat) (ofs : Int) (size : Int) (address : Nat) (annot : Nat → Int → Annot) :
    List (Range × Nat × Int) → Option (List Annot)
  | [] => some []
  | (range, register, offset) :: l =>
    if reg = register ∧ offset ≤ ofs then
      if I64 (offset + size) then
        (memHits reg ofs size address annot l).map fun rest =>
          (if ofs < offset + size ∧ range.contains address then [annot register offset] else []) ++ rest
      else none
    else memHits reg ofs size address annot l

/-- main/src/code.rs:349-396. -/
def memAnnots (e : Env) (ps : List Parameter) (vs : List LocalVariable) (address : Nat) (op : Op) :
    Option (List Annot) :=
  match isRegOffset op with
  | none => some []
  | some (reg, ofs) => do
    let a ← ps.mapM fun p => memHits reg ofs (asI64 ((p.byteSize e.tsz).getD 0)) address
      (fun r o => .memParam r o p) (registerOffsets p.locations)
    let b ← vs.mapM fun v => memHits reg ofs (asI64 ((v.byteSize e.tsz).getD 0)) address
      (fun r o => .memVar r o v) (registerOffsets v.locations)
    pure (a.flatten ++ b.flatten)

/-- main/src/code.rs:397-426. -/
def ipAnnots (e : Env) (i : Insn) (op : Op) : Option (List Annot) :=
  match isIpOffset i op with
  | none => none
  | some none => some []
  | some (some (offset, address, size)) =>
    match e.fnAt address with
    | some f => some [.ipFunction offset f]
    | none =>
      match e.varAt address with
      | some v => some [.ipVariable offset v]
      | none =>
        match e.code.relocation address with
        | some s => some [.ipReloc offset s]
        | none =>
          match readMem e.code.regions address size with
          | none => none
          | some none => some []
          | some (some value) => some [.ipValue offset value (e.fnAt value)]

/-- One iteration of the operand loop (main/src/code.rs:288-428); `address` is the one of 289-296.
A jump inside the range skips the whole operand (298-300); an immediate 0 too (302-304). -/
def opAnnots (e : Env) (ps : List Parameter) (vs : List LocalVariable) (i : Insn) (d : Detail) (r : Range)
    (address : Nat) (op : Op) : Option (List Annot) :=
  match isImm op with
  | some imm =>
    if (d.isJump ∧ r.contains imm) ∨ imm = 0 then some []
    else some (immAnnots e imm)
  | none => do
    let m ← memAnnots e ps vs address op
    let q ← ipAnnots e i op
    pure (regAnnots ps vs address op ++ m ++ q)

/-- The operand loop (main/src/code.rs:287-428): the first operand is looked up at the address
after the instruction, the others at its start. -/
def annots (e : Env) (ps : List Parameter) (vs : List LocalVariable) (i : Insn) (d : Detail) (r : Range) :
    Option (List Annot) :=
  match d.ops with
  | [] => some []
  | op :: ops =>
    if i.address + i.bytes.length < 2 ^ 64 then do
      let a ← opAnnots e ps vs i d r (i.address + i.bytes.length) op
      let b ← ops.mapM (opAnnots e ps vs i d r i.address)
      pure (a ++ b.flatten)
    else none

/-- `print::register::print` (main/src/print/register.rs:30-36). -/
def regVal (rn : Nat → Option Str) (r : Nat) : Str :=
  match rn r with
  | some n => n
  | none => [114] ++ dec r

/-- `print::parameter::print_decl` (main/src/print/parameter.rs:8-14); `tref` writes the type. -/
def paramDecl (tref : TypeOffset → Val) (p : Parameter) : Val :=
  .seq (match p.name with | some n => .text (n ++ Str.ofString ": ") | none => .nil) (tref p.ty)

/-- `print::local_variable::print_decl` (main/src/print/local_variable.rs:8-16). -/
def varDecl (tref : TypeOffset → Val) (v : LocalVariable) : Val :=
  .seq (.text (v.name.getD Show.anon ++ Str.ofString ": ")) (tref v.ty)

/-- The bracketed register and offset (main/src/code.rs:359-366, 382-389); `none` is the overflow
of `-offset`. -/
def memText (rn : Nat → Option Str) (r : Nat) (o : Int) : Option Str :=
  (if o < 0 then if I64 (-o) then some (Str.ofString " - 0x" ++ hex (-o).toNat) else none
   else if 0 < o then some (Str.ofString " + 0x" ++ hex o.toNat)
   else some []).map fun t => [91] ++ regVal rn r ++ t ++ Str.ofString "] = "

/-- How the lines are written (main/src/code.rs:306-424). -/
def Annot.val (rn : Nat → Option Str) (tref : TypeOffset → Val) : Annot → Option Val
  | .immFunction imm f => some (.seq (.text (Str.ofString "0x" ++ hex imm ++ Str.ofString " = ")) f)
  | .immPlt imm s => some (.text (Str.ofString "0x" ++ hex imm ++ Str.ofString " = " ++ s ++ Str.ofString "@plt"))
  | .immReloc imm s => some (.text (Str.ofString "[0x" ++ hex imm ++ Str.ofString "] = " ++ s))
  | .regParam r p => some (.seq (.text (regVal rn r ++ Str.ofString " = ")) (paramDecl tref p))
  | .regVar r v => some (.seq (.text (regVal rn r ++ Str.ofString " = ")) (varDecl tref v))
  | .memParam r o p => (memText rn r o).map fun t => .seq (.text t) (paramDecl tref p)
  | .memVar r o v => (memText rn r o).map fun t => .seq (.text t) (varDecl tref v)
  | .ipFunction o f => some (.seq (.text (Str.ofString "ip + 0x" ++ hexI64 o ++ Str.ofString " = ")) f)
  | .ipVariable o v => some (.seq (.text (Str.ofString "ip + 0x" ++ hexI64 o ++ Str.ofString " = ")) v)
  | .ipReloc o s => some (.text (Str.ofString "[ip + 0x" ++ hexI64 o ++ Str.ofString "] = " ++ s))
  | .ipValue o value f =>
    some (.seq (.text (Str.ofString "[ip + 0x" ++ hexI64 o ++ Str.ofString "] = 0x" ++ hex value))
      (match f with | some f => .seq (.text (Str.ofString " = ")) f | none => .nil))

/-- `Instruction::print` (main/src/code.rs:235-431). -/
def printInsn (rn : Nat → Option Str) (tref : TypeOffset → Val) (e : Env) (ps : List Parameter)
    (vs : List LocalVariable) (r : Range) (i : Insn) : Option P :=
  match i.detail with
  | none => some .skip
  | some d =>
    if r.lo ≤ i.address then do
      let as ← annots e ps vs i d r
      let vals ← as.mapM (Annot.val rn tref)
      pure (.seq (headLine i d r (i.address - r.lo)) (P.seqs (vals.map fun v => .instruction none [] v)))
    else none

end Verif.Code
