import Verif.Dwarf.EvalModel
import Verif.Types.Spec
/-!
# DWARF's own meaning of location expressions (DWARF 5, sections 2.5 and 2.6)

Values are numbers modulo the address size. A `Machine` says what registers, the frame base, memory
and so on contain; operations the code does not interpret take their meaning from it.
-/
namespace Verif.Dwarf
open Verif.Item

/-- Everything a location expression may depend on. -/
structure Machine where
  reg : Nat → Int
  frameBase : Int
  cfa : Int
  tls : Nat → Int
  other : Nat → Int
  addrx : Nat → Int
  un : Nat → Nat → Int
  bin : Nat → Nat → Nat → Int
  load : Nat → Nat → Nat → Int

/-- Where a piece of the object is. -/
inductive Place
  /-- optimised away -/
  | empty
  | reg (r : Nat)
  | mem (a : Nat)
  /-- has no location; this is its value -/
  | value (v : Nat)
  /-- implicit value or pointer, or a WebAssembly place -/
  | special (k : Nat)
deriving DecidableEq

/-- A piece of the object: its size (`none` is the whole), the bit offset in the place. -/
structure Part where
  size : Option Nat
  place : Place
  offset : Nat

/-- A number modulo the address size. -/
def wrap (size : Nat) (z : Int) : Nat := (z % 2 ^ (8 * size)).toNat

/-- What an operation does to the stack of values, top first; `none` if it is not a stack operation
or needs more operands than there are. -/
def stackOp (M : Machine) (size : Nat) : Oper → List Nat → Option (List Nat)
  | .nop, st => some st
  | .uninitialized, st => some st
  | .pushOther k, st => some (wrap size (M.other k) :: st)
  | .uconst v, st => some (wrap size v :: st)
  | .sconst v, st => some (wrap size v :: st)
  | .regOffset r o, st => some (wrap size (M.reg r + o) :: st)
  | .frameOffset o, st => some (wrap size (M.frameBase + o) :: st)
  | .cfa, st => some (wrap size M.cfa :: st)
  | .address a, st => some (wrap size a :: st)
  | .addressIndex _ (some a), st => some (wrap size a :: st)
  | .addressIndex k none, st => some (wrap size (M.addrx k) :: st)
  | .tls, x :: st => some (wrap size (M.tls x) :: st)
  | .drop, _ :: st => some st
  | .swap, x :: y :: st => some (y :: x :: st)
  | .rot, x :: y :: z :: st => some (y :: z :: x :: st)
  | .pick i, st => if h : i < st.length then some (st[i] :: st) else none
  | .plusConst c, x :: st => some (wrap size (x + c) :: st)
  | .plus, x :: y :: st => some (wrap size (y + x) :: st)
  | .minus, x :: y :: st => some (wrap size (y - x) :: st)
  | .unary k, x :: st => some (wrap size (M.un k x) :: st)
  | .binary k, x :: y :: st => some (wrap size (M.bin k y x) :: st)
  | .deref k false, x :: st => some (wrap size (M.load k 0 x) :: st)
  | .deref k true, x :: y :: st => some (wrap size (M.load k y x) :: st)
  | _, _ => none

/-- The operation is a simple location description by itself; what place it describes, and the
stack it leaves. -/
def placeOp : Oper → List Nat → Option (Place × List Nat)
  | .register r, st => some (.reg r, st)
  | .implicitValue k, st => some (.special k, st)
  | .implicitPointer k, st => some (.special k, st)
  | .wasm k, st => some (.special k, st)
  | .stackValue, x :: st => some (.value x, st)
  | _, _ => none

/-- A DWARF location description: the parts it denotes, given the stack and the parts before.
A stack value denotes memory; a piece without a location is optimised away; a register, value or
other special place must be the whole object or be followed by its piece. -/
inductive Denotes (M : Machine) (size : Nat) : List Oper → List Nat → List Part → List Part → Prop
  | stack {op ops st st' ps qs} : stackOp M size op st = some st' → Denotes M size ops st' ps qs →
      Denotes M size (op :: ops) st ps qs
  | memPiece {n bo ops x st ps qs} : Denotes M size ops st (ps ++ [⟨some n, .mem x, bo.getD 0⟩]) qs →
      Denotes M size (.piece n bo :: ops) (x :: st) ps qs
  | emptyPiece {n bo ops ps qs} : Denotes M size ops [] (ps ++ [⟨some n, .empty, bo.getD 0⟩]) qs →
      Denotes M size (.piece n bo :: ops) [] ps qs
  | placePiece {op n bo ops st st' pl ps qs} : placeOp op st = some (pl, st') →
      Denotes M size ops st' (ps ++ [⟨some n, pl, bo.getD 0⟩]) qs →
      Denotes M size (op :: .piece n bo :: ops) st ps qs
  | place {op st st' pl} : placeOp op st = some (pl, st') → Denotes M size [op] st [] [⟨none, pl, 0⟩]
  | mem {x st} : Denotes M size [] (x :: st) [] [⟨none, .mem x, 0⟩]
  | none : Denotes M size [] [] [] []
  | done {st ps} : ps ≠ [] → Denotes M size [] st ps ps

/-- The number a location stands for when it is on the stack; `none` if it is not known. -/
def Location.num (M : Machine) (size : Nat) : Location → Option Nat
  | .literal v => some (wrap size v)
  | .registerOffset r o => some (wrap size (M.reg r + o))
  | .frameOffset o => some (wrap size (M.frameBase + o))
  | .cfaOffset o => some (wrap size (M.cfa + o))
  | .address (some a) => some (wrap size a)
  | .tlsOffset o => some (wrap size (M.tls (wrap size o)))
  | _ => none

/-- The reported piece describes the part: same extent, and the same place unless the reported
location is `Other` (too complex). -/
def Describes (M : Machine) (size : Nat) (p : Piece) (q : Part) : Prop :=
  p.bitSize = q.size ∧ p.locationOffset = q.offset ∧
  (p.location = .other ∨
   (p.isValue = false ∧ p.location = .empty ∧ q.place = .empty) ∨
   (p.isValue = false ∧ ∃ r, p.location = .register r ∧ q.place = .reg r) ∨
   (∃ x, Location.num M size p.location = some x ∧ q.place = if p.isValue then .value x else .mem x))

/-- The operations whose effect on the stack the code follows: all but jumps and calls, and the
addition and subtraction of two operands (see the findings below C43). -/
def Supported : Oper → Prop
  | .plus | .minus | .branch _ => False
  | _ => True

/-- The number of bits in the pieces of an expression. -/
def pieceBits : List Oper → Nat
  | [] => 0
  | .piece n _ :: ops => n + pieceBits ops
  | _ :: ops => pieceBits ops

/-- The pieces are laid out one after the other from bit 0. -/
def Tiled : Nat → List Piece → Prop
  | _, [] => True
  | n, p :: ps => p.bitOffset = n ∧ Tiled (n + p.bitSize.getD 0) ps

end Verif.Dwarf
