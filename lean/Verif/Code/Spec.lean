import Verif.Code.Model
/-! # What code lookups and annotations mean -/
namespace Verif.Code
open Verif.Range Verif.Item Verif.Types Verif.Print

/-- The byte the region holds at an address. -/
def Region.byteAt (g : Region) (a : Nat) : Option Nat := if g.address ≤ a then g.code[a - g.address]? else none

/-- The region contains the whole range. -/
def Region.Holds (g : Region) (r : Range) : Prop := g.address ≤ r.lo ∧ r.hi ≤ g.address + g.code.length

/-- The number read from `n` bytes at `a`, least significant first. -/
def StoredLE (g : Region) (a n v : Nat) : Prop :=
  v < 256 ^ n ∧ ∀ k < n, g.byteAt (a + k) = some (v / 256 ^ k % 256)

/-- The operand is, or addresses memory through, a register of this DWARF number. -/
def UsesReg (op : Op) (n : Nat) : Prop :=
  ∃ x, convertReg x = some n ∧ (op = .reg x ∨ ∃ d, op = .mem x d)

/-- Operand number `k` of the instruction is looked up at this address: the first one after the
instruction (it is assumed to be the one modified), the others at its start. -/
def At (i : Insn) (k a : Nat) : Prop := a = if k = 0 then i.address + i.bytes.length else i.address

/-- At address `a`, (a piece of) the variable is in register `n`. -/
def InReg (locs : List (Range × Piece)) (a n : Nat) : Prop :=
  ∃ r p, (r, p) ∈ locs ∧ p.isValue = false ∧ p.location = .register n ∧ r.lo ≤ a ∧ a < r.hi

/-- At address `a`, the variable of `size` bytes is stored at `o` from register `n` and covers the
displacement `z`. -/
def InMem (locs : List (Range × Piece)) (size : Option Nat) (a n : Nat) (o z : Int) : Prop :=
  ∃ r p s, (r, p) ∈ locs ∧ p.isValue = false ∧ p.location = .registerOffset n o ∧ r.lo ≤ a ∧ a < r.hi ∧
    size = some s ∧ o ≤ z ∧ z < o + s

/-- The general purpose and vector registers, each with the names of its parts. -/
def families : List (List XReg) :=
  [[.rax, .eax, .ax, .ah, .al], [.rbx, .ebx, .bx, .bh, .bl], [.rcx, .ecx, .cx, .ch, .cl],
   [.rdx, .edx, .dx, .dh, .dl], [.rsi, .esi, .si, .sil], [.rdi, .edi, .di, .dil],
   [.rbp, .ebp, .bp, .bpl], [.rsp, .esp, .sp, .spl], [.r8, .r8d, .r8w, .r8b], [.r9, .r9d, .r9w, .r9b],
   [.r10, .r10d, .r10w, .r10b], [.r11, .r11d, .r11w, .r11b], [.r12, .r12d, .r12w, .r12b],
   [.r13, .r13d, .r13w, .r13b], [.r14, .r14d, .r14w, .r14b], [.r15, .r15d, .r15w, .r15b],
   [.xmm0, .ymm0], [.xmm1, .ymm1], [.xmm2, .ymm2], [.xmm3, .ymm3], [.xmm4, .ymm4], [.xmm5, .ymm5],
   [.xmm6, .ymm6], [.xmm7, .ymm7], [.xmm8, .ymm8], [.xmm9, .ymm9], [.xmm10, .ymm10], [.xmm11, .ymm11],
   [.xmm12, .ymm12], [.xmm13, .ymm13], [.xmm14, .ymm14], [.xmm15, .ymm15]]

/-- The DWARF register numbers of x86-64 (System V psABI, figure 3.36). -/
def dwarf64 : List (XReg × Nat) :=
  [(.rax, 0), (.rdx, 1), (.rcx, 2), (.rbx, 3), (.rsi, 4), (.rdi, 5), (.rbp, 6), (.rsp, 7), (.r8, 8), (.r9, 9),
   (.r10, 10), (.r11, 11), (.r12, 12), (.r13, 13), (.r14, 14), (.r15, 15), (.xmm0, 17), (.xmm1, 18), (.xmm2, 19),
   (.xmm3, 20), (.xmm4, 21), (.xmm5, 22), (.xmm6, 23), (.xmm7, 24), (.xmm8, 25), (.xmm9, 26), (.xmm10, 27),
   (.xmm11, 28), (.xmm12, 29), (.xmm13, 30), (.xmm14, 31), (.xmm15, 32)]

/-- The DWARF register numbers of the general purpose registers of i386 (System V psABI,
figure 2.14). -/
def dwarf32 : List (XReg × Nat) :=
  [(.eax, 0), (.ecx, 1), (.edx, 2), (.ebx, 3), (.esp, 4), (.ebp, 5), (.esi, 6), (.edi, 7)]

/-- The lower-case hexadecimal digit of a number below 16. -/
def nibble (n : Nat) : Nat := if n < 10 then 48 + n else 87 + n

/-- Bytes as written for an instruction that could not be decoded: two digits and a space each. -/
def hexBytes (bs : List Nat) : Str := bs.flatMap fun b => [nibble (b / 16), nibble (b % 16), 32]

end Verif.Code
