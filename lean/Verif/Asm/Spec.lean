import Verif.Asm.Model
import Verif.Code.Plt
import Verif.Code.Annot
import Verif.Types.Spec
import Verif.Cfi.Interleave
/-!
# C96: what the listing of the instructions of a function should say
-/
namespace Verif.Asm
open Verif.Item Verif.Types Verif.Range Verif.File Verif.Show Verif.Code Verif.Print
open Verif.Cfi (Cfi insnsOf cfisOf Due Ordered cfiLine orgLine)

/-- What is to be said below an instruction `i` of the range `r`, about its operands: `ps` and `vs` are the
parameters and variables of the function. -/
def NoteOf (s : FileSide) (c : Code) (ps : List Parameter) (vs : List LocalVariable) (r : Range) (i : Insn) (d : Detail) :
    Annot → Prop
  | .regParam n p => p ∈ ps ∧ ∃ k op a, d.ops[k]? = some op ∧ At i k a ∧ UsesReg op n ∧ InReg p.locations a n
  | .regVar n v => v ∈ vs ∧ ∃ k op a, d.ops[k]? = some op ∧ At i k a ∧ UsesReg op n ∧ InReg v.locations a n
  | .memParam n o p => p ∈ ps ∧ ∃ k x z a, d.ops[k]? = some (.mem x z) ∧ convertReg x = some n ∧ At i k a ∧
      InMem p.locations (p.byteSize s.tsz) a n o z
  | .memVar n o v => v ∈ vs ∧ ∃ k x z a, d.ops[k]? = some (.mem x z) ∧ convertReg x = some n ∧ At i k a ∧
      InMem v.locations (v.byteSize s.tsz) a n o z
  | .immFunction imm v => .imm imm ∈ d.ops ∧ imm ≠ 0 ∧ ¬ (d.isJump = true ∧ r.lo ≤ imm ∧ imm < r.hi) ∧
      ∃ f, LastSuch (fun f : Function => f.address = some imm) (allFunctions s.file.units) f ∧ v = fnRef (s.fnId f) f
  | .immPlt imm name => .imm imm ∈ d.ops ∧ imm ≠ 0 ∧ ¬ (d.isJump = true ∧ r.lo ≤ imm ∧ imm < r.hi) ∧
      (∀ f ∈ allFunctions s.file.units, f.address ≠ some imm) ∧ c.plt imm = some name
  | .immReloc imm name => .imm imm ∈ d.ops ∧ imm ≠ 0 ∧ ¬ (d.isJump = true ∧ r.lo ≤ imm ∧ imm < r.hi) ∧
      (∀ f ∈ allFunctions s.file.units, f.address ≠ some imm) ∧ c.plt imm = none ∧ Slot s.file imm name
  | .ipFunction o v => ∃ op ∈ d.ops, ∃ a n, IpTarget i op o a n ∧
      ∃ f, LastSuch (fun f : Function => f.address = some a) (allFunctions s.file.units) f ∧ v = fnRef (s.fnId f) f
  | .ipVariable o v => ∃ op ∈ d.ops, ∃ a n, IpTarget i op o a n ∧ (∀ f ∈ allFunctions s.file.units, f.address ≠ some a) ∧
      ∃ x, LastSuch (fun x : Variable => x.address = some a) (allVariables s.file.units) x ∧ v = varRef (s.varId x) x
  | .ipReloc o name => ∃ op ∈ d.ops, ∃ a n, IpTarget i op o a n ∧ (∀ f ∈ allFunctions s.file.units, f.address ≠ some a) ∧
      (∀ x ∈ allVariables s.file.units, x.address ≠ some a) ∧ Slot s.file a name
  | .ipValue o v g => ∃ op ∈ d.ops, ∃ a n, IpTarget i op o a n ∧ (∀ f ∈ allFunctions s.file.units, f.address ≠ some a) ∧
      (∀ x ∈ allVariables s.file.units, x.address ≠ some a) ∧ (∀ name, ¬ Slot s.file a name) ∧
      readMem c.regions a n = some (some v) ∧
      ((∃ f, LastSuch (fun f : Function => f.address = some v) (allFunctions s.file.units) f ∧ g = some (fnRef (s.fnId f) f)) ∨
       ((∀ f ∈ allFunctions s.file.units, f.address ≠ some v) ∧ g = none))

/-- The operands of an instruction: a space, and the text of the disassembler, with the target of a jump inside the
range written as the distance from the start of the range. -/
def OperandsShown (d : Detail) (r : Range) (opStr : Option Str) (text : Str) : Prop :=
  (opStr.getD [] = [] → text = []) ∧
  (∀ s, opStr = some s → s ≠ [] → ∃ pieces out : List Str, joinComma pieces = s ∧ text = [32] ++ joinComma out ∧
    out.length = pieces.length ∧ ∀ (k : Nat) (t : Str), pieces[k]? = some t →
      (∀ v, d.ops[k]? = some (.imm v) → d.isJump = true → r.lo ≤ v → v < r.hi → out[k]? = some ([43] ++ hex (v - r.lo))) ∧
      ((∀ v, d.ops[k]? = some (.imm v) → d.isJump = true → r.lo ≤ v → ¬ v < r.hi) → out[k]? = some t))

/-- The name of a register, or `r` and its number. -/
def registerNote (s : FileSide) (n : Nat) : Str := (s.regName n).getD (Str.ofString "r" ++ dec n)

/-- An offset from a register: nothing for 0, otherwise its sign and magnitude. -/
def offsetNote (o : Int) : Str :=
  if o = 0 then [] else (if 0 < o then Str.ofString " + 0x" else Str.ofString " - 0x") ++ hex o.natAbs

/-- An offset from the address of the next instruction, as 64 bits. -/
def ipNote (o : Int) : Str := Str.ofString "ip + 0x" ++ hex (if 0 ≤ o then o else 2 ^ 64 + o).toNat

/-- A parameter: its name, if any, and its type. -/
def parameterNote (s : FileSide) (p : Parameter) : Str :=
  (match p.name with | some n => n ++ Str.ofString ": " | none => []) ++ (s.tref p.ty).text'

/-- A variable: its name and its type. -/
def variableNote (s : FileSide) (v : LocalVariable) : Str :=
  v.name.getD (Str.ofString "<anon>") ++ Str.ofString ": " ++ (s.tref v.ty).text'

/-- The text of a note: the place as it stands in the operand, ` = `, and what is there. -/
def noteText (s : FileSide) : Annot → Str
  | .immFunction imm f => Str.ofString "0x" ++ hex imm ++ Str.ofString " = " ++ f.text'
  | .immPlt imm n => Str.ofString "0x" ++ hex imm ++ Str.ofString " = " ++ n ++ Str.ofString "@plt"
  | .immReloc imm n => Str.ofString "[0x" ++ hex imm ++ Str.ofString "] = " ++ n
  | .regParam r p => registerNote s r ++ Str.ofString " = " ++ parameterNote s p
  | .regVar r v => registerNote s r ++ Str.ofString " = " ++ variableNote s v
  | .memParam r o p => Str.ofString "[" ++ registerNote s r ++ offsetNote o ++ Str.ofString "] = " ++ parameterNote s p
  | .memVar r o v => Str.ofString "[" ++ registerNote s r ++ offsetNote o ++ Str.ofString "] = " ++ variableNote s v
  | .ipFunction o f => ipNote o ++ Str.ofString " = " ++ f.text'
  | .ipVariable o v => ipNote o ++ Str.ofString " = " ++ v.text'
  | .ipReloc o n => Str.ofString "[" ++ ipNote o ++ Str.ofString "] = " ++ n
  | .ipValue o value f => Str.ofString "[" ++ ipNote o ++ Str.ofString "] = 0x" ++ hex value ++
    (match f with | some f => Str.ofString " = " ++ f.text' | none => [])

/-- The lines of an instruction at level `ind`: nothing if the disassembler gives no details; otherwise the
address from the start of the range, mnemonic and operands (or the bytes), and below it the notes, each
once for every operand and place that calls for it. -/
structure InsnLines (s : FileSide) (c : Code) (ps : List Parameter) (vs : List LocalVariable) (r : Range) (x : DiffPrefix) (ind : Nat)
    (i : Insn) (ls : List Line) : Prop where
  nothing : i.detail = none → ls = []
  shown : ∀ d, i.detail = some d → ∃ (head : Line) (notes : List Annot), ls = head :: notes.map (fun a => .instr x ind none [] (noteText s a)) ∧
    (∀ m, i.mnemonic = some m → ∃ t, OperandsShown d r i.opStr t ∧ head = .instr x ind (some (i.address - r.lo)) m t) ∧
    (i.mnemonic = none → (∀ b ∈ i.bytes, b < 256) → head = .instr x ind (some (i.address - r.lo)) (Str.ofString ".byte") (hexBytes i.bytes)) ∧
    (∀ a, a ∈ notes ↔ NoteOf s c ps vs r i d a)

/-- The lines of one range: `.org` with its start; then all instructions that the disassembler finds in the
bytes `b` which the file has there, and all directives of the call frame information; a directive comes
before the instructions it has to precede. -/
def RangeLines (s : FileSide) (c : Code) (decode : Decode) (cfi : Range → Option (List Cfi)) (ps : List Parameter)
    (vs : List LocalVariable) (x : DiffPrefix) (ind : Nat) (r : Range) (ls : List Line) : Prop :=
  ∃ b is cs order parts, LoadedBytes s.file.segments r b ∧ decode b r.lo = some is ∧ cfi r = some cs ∧
    insnsOf order = is ∧ cfisOf order = cs ∧
    ((is.Pairwise fun a b => a.address ≤ b.address) → Ordered cs → ∀ pre i post, order = pre ++ .inl i :: post →
      (∀ c ∈ cfisOf pre, Due c i.address) ∧ ∀ c ∈ cfisOf post, ¬ Due c i.address) ∧
    All2 (fun e part => match e with
      | .inl i => InsnLines s c ps vs r x ind i part
      | .inr e => part = [cfiLine s.regName x ind r e]) order parts ∧
    ls = orgLine x ind r :: parts.flatten

/-- The lines of all ranges, up to the first one whose bytes the file does not have or the disassembler
does not accept, of which there is only the `.org` line. -/
def CodeShown (s : FileSide) (c : Code) (decode : Decode) (cfi : Range → Option (List Cfi)) (ps : List Parameter)
    (vs : List LocalVariable) (x : DiffPrefix) (ind : Nat) (ranges : List Range) (ls : List Line) : Prop :=
  ∃ done rest parts, ranges = done ++ rest ∧ All2 (RangeLines s c decode cfi ps vs x ind) done parts ∧
    (rest = [] → ls = parts.flatten) ∧
    (∀ r rest', rest = r :: rest' → ls = parts.flatten ++ [orgLine x ind r] ∧
      ∀ b, LoadedBytes s.file.segments r b → decode b r.lo = none)

/-- No parameter or variable is so large that its size does not fit in 63 bits. -/
def SmallSizes (s : FileSide) (ps : List Parameter) (vs : List LocalVariable) : Prop :=
  (∀ p ∈ ps, ∀ z, p.byteSize s.tsz = some z → z < 2 ^ 63) ∧ ∀ v ∈ vs, ∀ z, v.byteSize s.tsz = some z → z < 2 ^ 63

end Verif.Asm
