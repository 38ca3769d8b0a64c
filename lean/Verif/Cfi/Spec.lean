import Verif.Cfi.Model
/-! # What frame entries mean -/
namespace Verif.Cfi
open Verif.Range

/-- The documented contract of `slice::binary_search_by_key` on a sorted slice. -/
def ValidSearch (search : Search) : Prop :=
  ∀ (keys : List Nat) (k : Nat), keys.Pairwise (· ≤ ·) →
    match search keys k with
    | .inl i => keys[i]? = some k
    | .inr i => i ≤ keys.length ∧ (∀ j x, j < i → keys[j]? = some x → x < k) ∧
        (∀ j x, i ≤ j → keys[j]? = some x → k < x)

/-- The entry `(initial address, length, offset)` covers the address. -/
def Covers (e : Nat × Nat × Nat) (a : Nat) : Prop := e.1 ≤ a ∧ a < e.1 + e.2.1

/-- No address is covered by both. -/
def Disjoint (e f : Nat × Nat × Nat) : Prop := ∀ a, ¬ (Covers e a ∧ Covers f a)

/-- The instruction does something other than move the location. -/
def Insn.acts : Insn → Bool
  | .setLoc _ | .advanceLoc _ | .nop => false
  | _ => true

/-- By how many code units the instruction advances the location. -/
def Insn.delta : Insn → Nat
  | .advanceLoc d => d
  | _ => 0

/-- None of the instructions sets the location. -/
def NoSet (l : List Insn) : Prop := ∀ a, .setLoc a ∉ l

/-- The location after some instructions: where the last `set_loc` put it (or the initial one if
there is none), plus the sum of the advances since, in units of the code alignment. -/
def LocAfter (align initial : Nat) (pre : List Insn) (a : Nat) : Prop :=
  (NoSet pre ∧ a = initial + (pre.map Insn.delta).sum * align) ∨
  ∃ p b q, pre = p ++ .setLoc b :: q ∧ NoSet q ∧ a = b + (q.map Insn.delta).sum * align

/-- What an instruction means (DWARF 5, 6.4.2), offsets in bytes. -/
inductive Means (dataAlign : Int) : Insn → Directive → Prop
  | defCfa (r o : Nat) : o < 2 ^ 63 → Means dataAlign (.defCfa r o) (.defCfa r o)
  | defCfaSf (r : Nat) (n : Int) : Means dataAlign (.defCfaSf r n) (.defCfa r (n * dataAlign))
  | defCfaRegister (r : Nat) : Means dataAlign (.defCfaRegister r) (.defCfaRegister r)
  | defCfaOffset (o : Nat) : o < 2 ^ 63 → Means dataAlign (.defCfaOffset o) (.defCfaOffset o)
  | defCfaOffsetSf (n : Int) : Means dataAlign (.defCfaOffsetSf n) (.defCfaOffset (n * dataAlign))
  | offset (r n : Nat) : n < 2 ^ 63 → Means dataAlign (.offset r n) (.offset r (n * dataAlign))
  | offsetExtendedSf (r : Nat) (n : Int) : Means dataAlign (.offsetExtendedSf r n) (.offset r (n * dataAlign))
  | valOffset (r n : Nat) : n < 2 ^ 63 → Means dataAlign (.valOffset r n) (.valOffset r (n * dataAlign))
  | valOffsetSf (r : Nat) (n : Int) : Means dataAlign (.valOffsetSf r n) (.valOffset r (n * dataAlign))
  | register (d s : Nat) : Means dataAlign (.register d s) (.register d s)
  | undefined (r : Nat) : Means dataAlign (.undefined r) (.undefined r)
  | sameValue (r : Nat) : Means dataAlign (.sameValue r) (.sameValue r)
  | restore (r : Nat) : Means dataAlign (.restore r) (.restore r)
  | rememberState : Means dataAlign .rememberState .rememberState
  | restoreState : Means dataAlign .restoreState .restoreState
  | unhandled : Means dataAlign .unhandled .other

/-- Unsigned operands are below `2^63` (they are reinterpreted as signed numbers otherwise). -/
def Insn.small : Insn → Prop
  | .defCfa _ o | .defCfaOffset o | .offset _ o | .valOffset _ o => o < 2 ^ 63
  | _ => True

/-- The scaled offset of the instruction does not fit 64 bits. -/
def Insn.tooBig (dataAlign : Int) : Insn → Prop
  | .defCfaSf _ n | .defCfaOffsetSf n | .offsetExtendedSf _ n | .valOffsetSf _ n => ¬ Frame.I64 (n * dataAlign)
  | .offset _ n | .valOffset _ n => ¬ Frame.I64 (Print.asI64 n * dataAlign)
  | _ => False

/-- The directives that precede those of the instructions. -/
def Prologue (f : Fde) (l : List Cfi) : Prop :=
  ∃ p s g, l = (none, .startProc) :: (p ++ s ++ g) ∧
    (match f.personality with | some a => p = [(none, .personality (some a))] | none => p = []) ∧
    (match f.lsda with | some a => s = [(none, .lsda (some a))] | none => s = []) ∧
    (if f.signal then g = [(none, .signalFrame)] else g = [])

/-- `out` has one entry for every acting instruction, in order; the entry has the meaning of the
instruction and the address `R` gives to the instructions before it. -/
def Lists (dataAlign : Int) (R : List Insn → Option Nat → Prop) (is : List Insn) (out : List Cfi) : Prop :=
  out.length = (is.filter Insn.acts).length ∧
  ∀ pre i post, is = pre ++ i :: post → i.acts → ∃ a d,
    out[(pre.filter Insn.acts).length]? = some (a, d) ∧ Means dataAlign i d ∧ R pre a

/-- The directive takes effect at or before the address. -/
def Due (c : Cfi) (a : Nat) : Prop := ∀ x, c.1 = some x → x ≤ a

/-- The directives, in listing order, take effect in order: those for the whole function first. -/
def Ordered (cs : List Cfi) : Prop :=
  cs.Pairwise fun c c' => ∀ x, c.1 = some x → ∃ y, c'.1 = some y ∧ x ≤ y

/-- The instructions and the directives of a listing. -/
def insnsOf {I : Type} (l : List (I ⊕ Cfi)) : List I := l.filterMap Sum.getLeft?
/-- The line that heads the listing of a range: `.org` and the first address of the range, in hexadecimal. -/
def orgLine (x : Print.DiffPrefix) (ind : Nat) (r : Range) : Print.Line :=
  .instr x ind none [] (Str.ofString ".org 0x" ++ Print.hex r.lo)
/-- A register in a directive: its name, or its number. -/
def regNote (rn : Nat → Option Str) (r : Nat) : Str := (rn r).getD (Print.dec r)
/-- An offset in a directive: sign and magnitude. -/
def offNote (o : Int) : Str := (if o < 0 then Str.ofString "-" else []) ++ Str.ofString "0x" ++ Print.hex o.natAbs
/-- How a directive is written: the assembler's keyword for it and its operands, in the assembler's order. -/
def directiveNote (rn : Nat → Option Str) : Directive → Str
  | .startProc => Str.ofString ".cfi_startproc"
  | .endProc => Str.ofString ".cfi_endproc"
  | .personality a => Str.ofString ".cfi_personality 0x" ++ Print.hex (a.getD 0)
  | .lsda a => Str.ofString ".cfi_lsda 0x" ++ Print.hex (a.getD 0)
  | .signalFrame => Str.ofString ".cfi_signalframe"
  | .returnColumn r => Str.ofString ".cfi_return_column " ++ regNote rn r
  | .defCfa r o => Str.ofString ".cfi_def_cfa " ++ regNote rn r ++ Str.ofString ", " ++ offNote o
  | .defCfaRegister r => Str.ofString ".cfi_def_cfa_register " ++ regNote rn r
  | .defCfaOffset o => Str.ofString ".cfi_def_cfa_offset 0x" ++ Print.hex (if 0 ≤ o then o else 2 ^ 64 + o).toNat
  | .offset r o => Str.ofString ".cfi_offset " ++ regNote rn r ++ Str.ofString ", " ++ offNote o
  | .valOffset r o => Str.ofString ".cfi_val_offset " ++ regNote rn r ++ Str.ofString ", " ++ offNote o
  | .register r s => Str.ofString ".cfi_register " ++ regNote rn r ++ Str.ofString ", " ++ regNote rn s
  | .restore r => Str.ofString ".cfi_restore " ++ regNote rn r
  | .undefined r => Str.ofString ".cfi_undefined " ++ regNote rn r
  | .sameValue r => Str.ofString ".cfi_same_value " ++ regNote rn r
  | .rememberState => Str.ofString ".cfi_remember_state"
  | .restoreState => Str.ofString ".cfi_restore_state"
  | .other => Str.ofString "<other cfi instruction>"
/-- The line of a directive: its address from the start of the range, 0 if it has none, and its text. -/
def cfiLine (rn : Nat → Option Str) (x : Print.DiffPrefix) (ind : Nat) (r : Range) (c : Cfi) : Print.Line :=
  .instr x ind (some (c.1.getD r.lo - r.lo)) [] (directiveNote rn c.2)
/-- The directives of a listing. -/
def cfisOf {I : Type} (l : List (I ⊕ Cfi)) : List Cfi := l.filterMap Sum.getRight?

end Verif.Cfi
