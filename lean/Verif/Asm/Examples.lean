import Verif.Asm.Props
import Verif.Whole.Examples
/-!
# C96: an example from bytes to text

The function `n::f` of `object1` with four instructions: it reads the variable `v`, calls the function
`stub`, has bytes that are not an instruction, and jumps to its start.
-/
namespace Verif.Asm
open Verif.Item Verif.Types Verif.Range Verif.File Verif.Show Verif.Code Verif.Print Verif.Opts
open Verif.Whole (object1 firstSearch parseObject)
open Verif.Cfi (Cfi)

/-- `object1` with a segment. -/
def object2 : Whole.RawObject :=
  { object1 with segments := [⟨0x1000, some [1, 2, 3, 4, 5, 6, 7, 8, 9, 10, 11, 12, 13, 14, 15, 16]⟩] }

/-- A disassembler that knows these bytes. -/
def decode2 : Decode := fun b a =>
  if b = [1, 2, 3, 4, 5, 6, 7, 8, 9, 10, 11, 12, 13, 14, 15, 16] then
    some [⟨a, [1, 2, 3, 4, 5, 6, 7], some (k "mov"), some (k "rax, qword ptr [rip + 0xff9]"), some { ops := [.reg .rax, .mem .rip 0xff9] }⟩,
      ⟨a + 7, [8, 9, 10, 11, 12], some (k "call"), some (k "0x1010"), some { ops := [.imm 0x1010], isCall := true }⟩,
      ⟨a + 12, [13, 14], none, none, some { ops := [] }⟩,
      ⟨a + 14, [15, 16], some (k "jmp"), some (k "0x1000"), some { ops := [.imm 0x1000], isJump := true }⟩]
  else none

/-- Frame information. -/
def cfi2 : Range → Option (List Cfi) := fun r => some [(some r.lo, .startProc), (some (r.lo + 7), .defCfaRegister 6), (some r.hi, .endProc)]

/-- The name of register 6. -/
def regs2 : Nat → Option Str := fun r => if r = 6 then some (k "rbp") else none

/-- What the listing reads of the file. -/
def side2 (f : File) (c : Code) : FileSide :=
  Asm.sideOf 5 object2 f (some c) (some decode2) cfi2 regs2 (fun _ => 0) (fun _ => 0) (fun _ => 0) (fun _ => 0)

/-- The text, for some options. -/
def text2 (o : Options) : Option Str := do
  let f ← parseObject firstSearch 10 object2
  let c ← newCode .x86_64 f (some decode2)
  let c ← c
  let p ← fileP o (side2 f c) 5
  some (render (p.lines o.http 0 .none 3))

/-- From the bytes to the text: the bytes of `stub` are not in the segment. -/
example : text2 { categoryFunction := true, printFunctionInstructions := true, printFunctionCalls := true } =
    some ((["fn n::f\n", "\tsymbol name: _Zm\n", "\taddress: 0x1000-0x100f\n", "\tsize: 16\n", "\treturn type:\n", "\t\t[4]\tint\n", "\tcalls:\n", "\t\t0x1007 -> 0x1010 stub\n", "\tinstructions:\n", "\t\t              .org 0x1000\n", "\t\t  0:          .cfi_startproc\n", "\t\t  0:  mov     ", "rax, qword ptr [rip + 0xff9]\n", "\t\t              ip + 0xff9 = v\n", "\t\t  7:          ", ".cfi_def_cfa_register rbp\n", "\t\t  7:  call    0x1010\n", "\t\t              0x1010 = stub\n", "\t\t  c:  .byte  0d 0e \n", "\t\t  e:  jmp     +0\n", "\t\t 10:          .cfi_endproc\n", "\n", "fn stub\n", "\tlinkage name: stub\n", "\taddress: 0x1010-0x1017\n", "\tsize: 8\n", "\tinstructions:\n", "\t\t              .org 0x1010\n", "\n"].flatMap k)) := by decide +kernel

/-- The hypotheses of `C96_function` are met by the entry of `n::f`. -/
example : ∃ f c u cu d g x ns, parseObject firstSearch 10 object2 = some f ∧ newCode .x86_64 f (some decode2) = some (some c) ∧
    object2.units[1]? = some u ∧ f.units[1]? = some cu ∧ Whole.FnEntry u cu ns d g ∧
    Dwarf.getDetails object2.units f.units (some d.offset) = some x ∧
    SmallSizes (side2 f c) x.parameters x.variables ∧ g.ranges ≠ [] := by
  have h : (do
      let f ← parseObject firstSearch 10 object2
      let c ← newCode .x86_64 f (some decode2)
      let _ ← c
      let cu ← f.units[1]?
      let g ← Dwarf.fnOf cu 80
      let x ← Dwarf.getDetails object2.units f.units (some 80)
      some (x.parameters.isEmpty && x.variables.isEmpty && !g.ranges.isEmpty)) = some true := by decide +kernel
  simp only [bind, Option.bind_eq_some_iff] at h
  obtain ⟨f, hf, c, hc, c', rfl, cu, hcu, g, hg, x, hx, h⟩ := h
  have h' : (x.parameters.isEmpty && x.variables.isEmpty && !g.ranges.isEmpty) = true := Option.some.inj h
  simp only [Bool.and_eq_true, Bool.not_eq_true', List.isEmpty_iff] at h'
  obtain ⟨⟨h1, h2⟩, h3⟩ := h'
  have hat := Dwarf.InScope.inside (F := Dwarf.fnOf cu) (.root (root := (object2.units[1]'(by decide)).root.children))
    (n := .node 75 .namespace_ [(.name, Whole.strVal "n")]
      [.node 80 .subprogram [(.name, Whole.strVal "f"), (.lowPc, .address 0x1000), (.highPc, .udata 16), (.type, .ref 20)] []])
    (c := .unit) (by simp [object2, object1, Dwarf.Die.children]) rfl
  refine ⟨f, c', _, cu, _, g, x, _, hf, hc, rfl, hcu, ⟨⟨_, _, hat, .head _, ?_⟩, hg⟩, hx, ?_, ?_⟩
  · exact ⟨rfl, .inl rfl⟩
  · rw [h1, h2]; exact ⟨by simp, by simp⟩
  · intro e; rw [e] at h3; cases h3

end Verif.Asm
