import Verif.Item.Details
import Verif.Print.Model
import Verif.Frame.Model
/-!
# Model of `evaluate_simple` (`parser/src/file/dwarf.rs`): location expressions

Not modelled: decoding of the bytes (`gimli::Operation::parse`); an expression is the list of its
operations, where `bad` is one that cannot be decoded. Operations the code does not look at carry a
number `k` that tells them apart, so that a reference semantics can give them a meaning. A missing
result (`none`, outermost) is an arithmetic overflow or a failed `debug_assert`, which panic when
these checks are on.
-/
namespace Verif.Dwarf
open Verif.Item Verif.Print Verif.Frame Verif.Range

/-- `gimli::Operation` as matched at parser/src/file/dwarf.rs:3754-3989. -/
inductive Oper
  | nop
  | register (r : Nat)
  | implicitValue (k : Nat)
  | implicitPointer (k : Nat)
  | stackValue
  /-- `EntryValue`, `ParameterRef`, `TypedLiteral`, `PushObjectAddress`, `VariableValue` (3775-3782),
  `ConstantIndex` (3820-3823) -/
  | pushOther (k : Nat)
  | uconst (v : Nat)
  | sconst (v : Int)
  | regOffset (r : Nat) (o : Int)
  | frameOffset (o : Int)
  | cfa
  | address (a : Nat)
  /-- `AddressIndex`, with the result of `dwarf_unit.address(index)` -/
  | addressIndex (k : Nat) (a : Option Nat)
  | tls
  | piece (size : Nat) (bitOffset : Option Nat)
  | drop
  | swap
  | rot
  | pick (i : Nat)
  | plusConst (c : Nat)
  | plus
  | minus
  /-- `Neg`, `Not`, `Abs`, `Convert`, `Reinterpret` -/
  | unary (k : Nat)
  /-- `Mul` ... `Le` -/
  | binary (k : Nat)
  | deref (k : Nat) (space : Bool)
  /-- `Bra`, `Skip`, `Call` -/
  | branch (k : Nat)
  | uninitialized
  /-- `WasmLocal`, `WasmGlobal`, `WasmStack` -/
  | wasm (k : Nat)
  | bad
deriving DecidableEq, Repr

/-- `addr_mask` (parser/src/file/dwarf.rs:3721-3725): masking is the remainder modulo this. -/
def addrMod (addressSize : Nat) : Nat := if addressSize = 8 then 2 ^ 64 else 2 ^ (8 * addressSize)

/-- `x as u64` for an `i64`. -/
def asU64 (z : Int) : Nat := (z % 2 ^ 64).toNat

/-- `Address::new` (parser/src/lib.rs:129-132): the value of the sentinel is refused. -/
def newAddress (a : Nat) : Option Location := if a = 2 ^ 64 - 1 then none else some (.address (some a))

/-- The state of the loop: the stack, top first, the pieces, and `next_bit_offset`. -/
structure St where
  stack : List Location
  pieces : List Piece
  next : Nat
deriving DecidableEq, Repr

/-- `add_piece` (parser/src/file/dwarf.rs:3730-3744). -/
def addPiece (s : St) (location : Location) (locationOffset : Nat) (isValue : Bool) (bitSize : Option Nat) :
    Option St :=
  if s.next + bitSize.getD 0 < 2 ^ 64 then
    some { s with
      pieces := s.pieces ++ [⟨s.next, bitSize, location, locationOffset, isValue⟩]
      next := s.next + bitSize.getD 0 }
  else none

/-- `Size::new` (parser/src/lib.rs:179-182): the value of the sentinel is refused. -/
def newSize (n : Nat) : Option (Option Nat) := if n = 2 ^ 64 - 1 then none else some (some n)

/-- The arithmetic of `PlusConstant` on an offset (parser/src/file/dwarf.rs:3880, 3884, 3888). -/
def plusOffset (size : Nat) (offset : Int) (c : Nat) : Int :=
  asI64 ((asU64 offset + c) % 2 ^ 64 % addrMod size)

/-- `PlusConstant` on the popped location (parser/src/file/dwarf.rs:3874-3896). -/
def plusConstant (size : Nat) (c : Nat) : Location → Location
  | .literal v => .literal ((v + c) % 2 ^ 64 % addrMod size)
  | .registerOffset r o => .registerOffset r (plusOffset size o c)
  | .frameOffset o => .frameOffset (plusOffset size o c)
  | .cfaOffset o => .cfaOffset (plusOffset size o c)
  | _ => .other

/-- `TLS` on the popped location (parser/src/file/dwarf.rs:3825-3832). -/
def tlsOf : Location → Location
  | .literal v => .tlsOffset v
  | _ => .other

/-- What one operation does. -/
inductive Step
  /-- the loop goes on -/
  | next (s : St)
  /-- the variable `location` was set (3990) -/
  | loc (s : St) (location : Location) (isValue : Bool)
  /-- an `Err` is returned -/
  | error
  /-- `Bra`, `Skip`, `Call`: the pieces are returned (3971-3978) -/
  | stop (s : St)
  /-- overflow -/
  | panic
deriving DecidableEq, Repr

/-- One or two `pop`s (parser/src/file/dwarf.rs:3747-3750). -/
def pop1 (s : St) (f : Location → St → Step) : Step :=
  match s.stack with
  | [] => .error
  | l :: ls => f l { s with stack := ls }

/-- `stack.push`. -/
def push1 (s : St) (l : Location) : Step := .next { s with stack := l :: s.stack }

/-- The `match` on an operation (parser/src/file/dwarf.rs:3754-3989). The results of `Plus` and
`Minus` are dropped, as in the code (3902-3912, 3917-3932); `Minus` still computes
`offset - value as i64` (3925). -/
def step (size : Nat) (s : St) : Oper → Step
  | .nop => .next s
  | .register r => .loc s (.register r) false
  | .implicitValue _ => .loc s .other true
  | .implicitPointer _ => .loc s .other false
  | .stackValue => pop1 s fun l s => .loc s l true
  | .pushOther _ => push1 s .other
  | .uconst v => push1 s (.literal v)
  | .sconst v => push1 s (.literal (asU64 v))
  | .regOffset r o => push1 s (.registerOffset r o)
  | .frameOffset o => push1 s (.frameOffset o)
  | .cfa => push1 s (.cfaOffset 0)
  | .address a =>
    match newAddress a with
    | some l => push1 s l
    | none => .panic
  | .addressIndex _ (some a) =>
    match newAddress a with
    | some l => push1 s l
    | none => .panic
  | .addressIndex _ none => push1 s .other
  | .tls => pop1 s fun l s => push1 s (tlsOf l)
  | .piece n bo =>
    match newSize n with
    | none => .panic
    | some n =>
      match addPiece { s with stack := s.stack.tail } (s.stack.head?.getD .empty) (bo.getD 0) false n with
      | some s => .next s
      | none => .panic
  | .drop => pop1 s fun _ s => .next s
  | .swap => pop1 s fun one s => pop1 s fun two s => .next { s with stack := two :: one :: s.stack }
  | .rot => pop1 s fun one s => pop1 s fun two s => pop1 s fun three s =>
      .next { s with stack := two :: three :: one :: s.stack }
  | .pick i =>
    match s.stack[i]? with
    | some l => push1 s l
    | none => .error
  | .plusConst c => pop1 s fun l s => push1 s (plusConstant size c l)
  | .plus => pop1 s fun _ s => pop1 s fun _ s => .next s
  | .minus => pop1 s fun one s => pop1 s fun two s =>
      match one, two with
      | .literal v, .frameOffset o => if I64 (o - asI64 v) then .next s else .panic
      | _, _ => .next s
  | .unary _ => pop1 s fun _ s => push1 s .other
  | .binary _ => pop1 s fun _ s => pop1 s fun _ s => push1 s .other
  | .deref _ false => pop1 s fun _ s => push1 s .other
  | .deref _ true => pop1 s fun _ s => pop1 s fun _ s => push1 s .other
  | .branch _ => .stop s
  | .uninitialized => .next s
  | .wasm _ => .loc s .other false
  | .bad => .error

/-- The end of `evaluate_simple_internal` (parser/src/file/dwarf.rs:4018-4023). -/
def finish (s : St) : Option (Option (List Piece)) :=
  if s.pieces = [] then
    match s.stack with
    | [] => some (some s.pieces)
    | l :: ls => (addPiece { s with stack := ls } l 0 false none).map fun s => some s.pieces
  else some (some s.pieces)

/-- The loop of `evaluate_simple_internal` (parser/src/file/dwarf.rs:3753-4024); the inner `none` is
`Err`. -/
def evalLoop (size : Nat) : List Oper → St → Option (Option (List Piece))
  | [], s => finish s
  | op :: ops, s =>
    match step size s op with
    | .panic => none
    | .error => some none
    | .stop s => some (some s.pieces)
    | .next s => evalLoop size ops s
    | .loc s l isValue =>
      match ops with
      | [] => if s.pieces ≠ [] then some none else (addPiece s l 0 isValue none).bind finish
      | .piece n bo :: ops =>
        match newSize n with
        | none => none
        | some n =>
          match addPiece s l (bo.getD 0) isValue n with
          | some s => evalLoop size ops s
          | none => none
      | _ => some none

/-- `evaluate_simple` (parser/src/file/dwarf.rs:3692-3709). -/
def evaluateSimple (size : Nat) (e : List Oper) : Option (Option (List Piece)) := evalLoop size e ⟨[], [], 0⟩

/-- The size noted with an address (parser/src/file/dwarf.rs:3660-3662): `div_ceil(8)`. -/
def sizeAfter : Option Nat → Option Nat → Option Nat
  | some n, _ => some ((n + 7) / 8)
  | none, old => old

/-- One iteration of the loop of `evaluate_local_variable_location`
(parser/src/file/dwarf.rs:3647-3668). -/
def noteAddress (v : LocalVariable) (p : Piece) : LocalVariable :=
  if p.isValue then v
  else match p.location with
    | .address a =>
      if v.address.isSome then v
      else { v with
        address := a
        size := sizeAfter p.bitSize v.size }
    | _ => v

/-- `evaluate_local_variable_location` (parser/src/file/dwarf.rs:3635-3673); `none` panics. -/
def localVariableLocation (size : Nat) (range : Range) (e : List Oper) (v : LocalVariable) : Option LocalVariable :=
  (evaluateSimple size e).map fun r =>
    match r with
    | none => v
    | some pieces =>
      let v := pieces.foldl noteAddress v
      { v with locations := v.locations ++ pieces.map fun p => (range, p) }

/-- `evaluate_parameter_location` (parser/src/file/dwarf.rs:3675-3690). -/
def parameterLocation (size : Nat) (range : Range) (e : List Oper) (p : Parameter) : Option Parameter :=
  (evaluateSimple size e).map fun r =>
    match r with
    | none => p
    | some pieces => { p with locations := p.locations ++ pieces.map fun q => (range, q) }

end Verif.Dwarf
