import Verif.Print.Model
/-!
# Vocabulary for the properties of printed output
-/
namespace Verif.Print
open Verif.Merge

/-- The lines a print closure writes at an indentation, under a diff marker, with an inline
depth. -/
def P.lines (http : Bool) (p : P) (indent : Nat) (pfx : DiffPrefix) (depth : Nat) : List Line :=
  (p.run textPrinter http { w := [], indent := indent, pfx := pfx, inlineDepth := depth }).w

/-- The lines a diff closure writes. -/
def D.lines (o : Opts) (d : D) (indent : Nat) (pfx : DiffPrefix) (depth : Nat) : List Line :=
  (d.run textPrinter o { w := [], indent := indent, pfx := pfx, inlineDepth := depth } false).1.w

/-- Whether a diff closure reports a difference. -/
def D.flag (o : Opts) (d : D) (indent : Nat) (pfx : DiffPrefix) (depth : Nat) : Bool :=
  (d.run textPrinter o { w := [], indent := indent, pfx := pfx, inlineDepth := depth } false).2

/-- A line marked `- `. -/
def Line.isDel : Line → Bool
  | .line .delete _ _ _ => true
  | .instr .delete _ _ _ _ => true
  | _ => false

/-- A line marked `+ `. -/
def Line.isAdd : Line → Bool
  | .line .add _ _ _ => true
  | .instr .add _ _ _ _ => true
  | _ => false

/-- A line marked as changed. -/
def Line.marked (l : Line) : Bool := l.isDel || l.isAdd

/-- The line without its marker. -/
def Line.erase : Line → Line
  | .brk => .brk
  | .line _ i l b => .line .none i l b
  | .instr _ i a m b => .instr .none i a m b

/-- The marker of a line; blank lines have none. -/
def Line.pfx : Line → Option DiffPrefix
  | .brk => none
  | .line p _ _ _ => some p
  | .instr p _ _ _ _ => some p

/-- The indentation of a line; blank lines have none. -/
def Line.indent : Line → Option Nat
  | .brk => none
  | .line _ i _ _ => some i
  | .instr _ i _ _ _ => some i

/-- No section of the closure is marked to be ignored. -/
def D.NoIgnore : D → Prop
  | .seq p q => p.NoIgnore ∧ q.NoIgnore
  | .indent _ h b => h.NoIgnore ∧ b.NoIgnore
  | .field _ _ b => b.NoIgnore
  | .id _ h b => h.NoIgnore ∧ b.NoIgnore
  | .inline d => d.NoIgnore
  | .printIfDiff d => d.NoIgnore
  | .ignoreDiff flag d => flag = false ∧ d.NoIgnore
  | _ => True

/-- Printing an added or deleted item writes at least one non-blank line (the code relies on
this: "Assume something is always written", main/src/print/mod.rs:626,636). -/
def P.Visible (http : Bool) (p : P) : Prop :=
  ∀ indent pfx depth, ∃ l ∈ p.lines http indent pfx depth, l ≠ .brk

/-- Printing one side of a block writes nothing at all or at least one non-blank line. -/
def P.NotBlank (http : Bool) (p : P) : Prop :=
  ∀ indent pfx depth, p.lines http indent pfx depth = [] ∨
    ∃ l ∈ p.lines http indent pfx depth, l ≠ .brk

/-- All added and deleted items of the closure are visible. -/
def D.Visible (http : Bool) : D → Prop
  | .seq p q => p.Visible http ∧ q.Visible http
  | .indent _ h b => h.Visible http ∧ b.Visible http
  | .field _ _ b => b.Visible http
  | .id _ h b => h.Visible http ∧ b.Visible http
  | .inline d => d.Visible http
  | .printIfDiff d => d.Visible http
  | .ignoreDiff _ d => d.Visible http
  | .prefixDelete p => p.Visible http
  | .prefixAdd p => p.Visible http
  | .block a b => a.NotBlank http ∧ b.NotBlank http
  | _ => True

/-- Both sides supply the same values everywhere, and no item is added or removed. -/
def D.Same : D → Prop
  | .seq p q => p.Same ∧ q.Same
  | .line _ a b => a.text' = b.text'
  | .indent _ h b => h.Same ∧ b.Same
  | .field _ _ b => b.Same
  | .id _ h b => h.Same ∧ b.Same
  | .inline d => d.Same
  | .printIfDiff d => d.Same
  | .ignoreDiff _ d => d.Same
  | .prefixDelete _ => False
  | .prefixAdd _ => False
  | .block a b => a = .skip ∧ b = .skip
  | .skip => True
  | .lineBreak => True
  | .label _ => True

/-- The listing of the old side only (`new = false`) or the new side only (`new = true`) that
corresponds to a diff closure: the same calls made with one side's values. -/
def D.side (new : Bool) : D → P
  | .skip => .skip
  | .seq p q => .seq (p.side new) (q.side new)
  | .lineBreak => .lineBreak
  | .label l => .label l
  | .line l a b => .line l (if new then b else a)
  | .indent c h b => .indent c (h.side new) (b.side new)
  | .field c l b => .field c l (b.side new)
  | .id n h b => .id n (h.side new) (b.side new)
  | .inline d => .inline (d.side new)
  | .prefixDelete p => if new then .skip else p
  | .prefixAdd p => if new then p else .skip
  | .block a b => if new then b else a
  | .printIfDiff d => d.side new
  | .ignoreDiff _ d => d.side new

/-- No part of the closure is hidden when unchanged. -/
def D.NoHide : D → Prop
  | .seq p q => p.NoHide ∧ q.NoHide
  | .indent _ h b => h.NoHide ∧ b.NoHide
  | .field _ _ b => b.NoHide
  | .id _ h b => h.NoHide ∧ b.NoHide
  | .inline d => d.NoHide
  | .printIfDiff _ => False
  | .ignoreDiff _ d => d.NoHide
  | _ => True

/-- The closure with inlined parts written out to `depth` nested levels and dropped below. -/
def P.expand : Nat → P → P
  | n, .seq p q => .seq (p.expand n) (q.expand n)
  | n, .indent c h b => .indent c (h.expand n) (b.expand n)
  | n, .field c l b => .field c l (b.expand n)
  | n, .id i h b => .id i (h.expand n) (b.expand n)
  | n, .fieldDetail i l b => .fieldDetail i l (b.expand n)
  | 0, .inline _ => .skip
  | n + 1, .inline p => p.expand n
  | _, p => p

/-- The same for diff closures. -/
def D.expand : Nat → D → D
  | n, .seq p q => .seq (p.expand n) (q.expand n)
  | n, .indent c h b => .indent c (h.expand n) (b.expand n)
  | n, .field c l b => .field c l (b.expand n)
  | n, .id i h b => .id i (h.expand n) (b.expand n)
  | 0, .inline _ => .skip
  | n + 1, .inline p => p.expand n
  | n, .prefixDelete p => .prefixDelete (p.expand n)
  | n, .prefixAdd p => .prefixAdd (p.expand n)
  | n, .block a b => .block (a.expand n) (b.expand n)
  | n, .printIfDiff d => .printIfDiff (d.expand n)
  | n, .ignoreDiff f d => .ignoreDiff f (d.expand n)
  | _, d => d

end Verif.Print
