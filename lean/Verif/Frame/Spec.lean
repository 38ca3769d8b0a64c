import Verif.Frame.Model
/-! # What the stack layout should contain -/
namespace Verif.Frame
open Verif.Types Verif.Item Verif.Range

/-- The inlined function occurs, at some depth, under the given ones. -/
inductive Within : List InlinedFunction → InlinedFunction → Prop
  | here {l i} : i ∈ l → Within l i
  | deeper {l i j} : i ∈ l → Within i.inlined j → Within l j

/-- A parameter of the function or of something inlined into it. -/
def ParamOf (d : FunctionDetails) (p : Parameter) : Prop :=
  p ∈ d.parameters ∨ ∃ i, Within d.inlined i ∧ p ∈ i.parameters

/-- A local variable of the function or of something inlined into it. -/
def VarOf (d : FunctionDetails) (v : LocalVariable) : Prop :=
  v ∈ d.variables ∨ ∃ i, Within d.inlined i ∧ v ∈ i.variables

/-- Some piece, not merely a value, is stored at offset `o` from the frame or the CFA, and has
`bits` bits (`none` if it is the whole object). -/
def StoredAt (locs : List (Range × Piece)) (o : Int) (bits : Option Nat) : Prop :=
  ∃ r p, (r, p) ∈ locs ∧ p.isValue = false ∧ p.bitSize = bits ∧
    (p.location = .frameOffset o ∨ p.location = .cfaOffset o)

/-- The size in bytes: of the piece, rounded up, else of the whole object. -/
def SizeIs (size bits whole : Option Nat) : Prop :=
  (∀ b, bits = some b → ∃ n, size = some n ∧ b ≤ 8 * n ∧ 8 * n < b + 8) ∧ (bits = none → size = whole)

/-- The entry describes a parameter or local variable stored in the stack frame. -/
def FrameEntry (tsz : TypeOffset → Option Nat) (d : FunctionDetails) (e : Entry) : Prop :=
  (∃ p bits, ParamOf d p ∧ StoredAt p.locations e.offset bits ∧ e.name = p.name ∧ e.ty = p.ty ∧
    SizeIs e.size bits (tsz p.ty)) ∨
  (∃ v bits, VarOf d v ∧ StoredAt v.locations e.offset bits ∧ e.name = v.name ∧ e.ty = v.ty ∧
    SizeIs e.size bits (if v.size.isSome then v.size else tsz v.ty))

/-- The entry has a known size and covers the frame offset. -/
def Occupies (e : Entry) (z : Int) : Prop := ∃ s, e.size = some s ∧ e.offset ≤ z ∧ z < e.offset + s

/-- In this listing, the offset lies in a part shown as unknown: `o` up to the entry `e`. -/
def InUnknown (l : List (Option Int × Entry)) (z : Int) : Prop :=
  ∃ o e, (some o, e) ∈ l ∧ o ≤ z ∧ z < e.offset

/-- Two entries in listing order do not overlap and the first one's end is known. -/
def Clear (a b : Entry) : Prop := ∃ s, a.size = some s ∧ s < 2 ^ 63 ∧ a.offset + s ≤ b.offset

/-- Order in which locations are listed: by offset, then by size, unknown sizes last. -/
def Before (a b : FrameLocation) : Prop :=
  a.offset < b.offset ∨ a.offset = b.offset ∧ ∃ x, a.bitSize = some x ∧ ∀ y, b.bitSize = some y → x < y

/-- What is written for a location: its offset in decimal and, if its size is known, the number of
bytes needed for it in brackets. -/
def Written (l : FrameLocation) (t : Str) : Prop :=
  (l.bitSize = none → t = decInt l.offset) ∧
  ∀ b n, l.bitSize = some b → b ≤ 8 * n → 8 * n < b + 8 → t = decInt l.offset ++ [91] ++ Print.dec n ++ [93]

end Verif.Frame
