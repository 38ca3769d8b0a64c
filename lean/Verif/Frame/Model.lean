import Verif.Item.Details
import Verif.Print.Model
import Verif.Show.Refs
import Verif.Sort
/-!
# Model of the stack-frame listings

`frame_variables` and its helpers (main/src/print/function.rs:567-727) and
`main/src/print/frame_location.rs`.

Numbers: offsets are `i64`, modelled as `Int`; `none` results are arithmetic overflows, which
panic when overflow checks are on.
-/
namespace Verif.Frame
open Verif.Types Verif.Item Verif.Print Verif.Range Verif.Merge

/-- `FrameVariable` (main/src/print/function.rs:567-574) without `prev_offset`, which is `None`
in every value until the end of `frame_variables` and takes part in no comparison. -/
structure Entry where
  offset : Int
  size : Option Nat
  name : Option Str
  ty : TypeOffset
deriving DecidableEq, Repr

/-- `Ord::cmp` (main/src/print/function.rs:577-585). `size` and `name` are real `Option`s (`None`
first), `ty` is a sentinel (`None` last). -/
def Entry.cmp (a b : Entry) : Ordering :=
  (compare a.offset b.offset).then ((compare a.size b.size).then
    ((compare a.name b.name).then (cmpNoneLast a.ty b.ty)))

/-- `bit_size.div_ceil(8)` (main/src/print/function.rs:676, 701, frame_location.rs:58). -/
def bytesOf (bits : Nat) : Nat := (bits + 7) / 8

/-- The size pushed for a location (main/src/print/function.rs:675-679, 700-704). -/
def locSize (l : FrameLocation) (size : Option Nat) : Option Nat :=
  match l.bitSize with
  | some b => some (bytesOf b)
  | none => size

/-- `add_parameter_frame_locations` (main/src/print/function.rs:665-688). -/
def parameterEntries (tsz : TypeOffset → Option Nat) (p : Parameter) : List Entry :=
  (frameLocations p.locations).map fun (_, l) =>
    ⟨l.offset, locSize l (p.byteSize tsz), p.name, p.ty⟩

/-- `add_variable_frame_locations` (main/src/print/function.rs:690-713). -/
def variableEntries (tsz : TypeOffset → Option Nat) (v : LocalVariable) : List Entry :=
  (localFrameLocations v.locations).map fun l =>
    ⟨l.offset, locSize l (v.byteSize tsz), v.name, v.ty⟩

mutual
/-- `add_inlined_function_frame_locations` (main/src/print/function.rs:649-663). -/
def inlinedEntries (tsz : TypeOffset → Option Nat) : InlinedFunction → List Entry
  | .mk _ _ _ ps vs is _ _ =>
    ps.flatMap (parameterEntries tsz) ++ vs.flatMap (variableEntries tsz) ++ inlinedListEntries tsz is
/-- The loop of main/src/print/function.rs:660-662 and 633-635. -/
def inlinedListEntries (tsz : TypeOffset → Option Nat) : List InlinedFunction → List Entry
  | [] => []
  | i :: is => inlinedEntries tsz i ++ inlinedListEntries tsz is
end

/-- The vector built by main/src/print/function.rs:626-638. -/
def entries (tsz : TypeOffset → Option Nat) (d : FunctionDetails) : List Entry :=
  sortDedup Entry.cmp (d.parameters.flatMap (parameterEntries tsz) ++
    d.variables.flatMap (variableEntries tsz) ++ inlinedListEntries tsz d.inlined)

/-- Whether a number is an `i64`. -/
def I64 (z : Int) : Prop := -(2 ^ 63 : Int) ≤ z ∧ z < 2 ^ 63

instance (z : Int) : Decidable (I64 z) := inferInstanceAs (Decidable (_ ∧ _))

/-- `variable.size.map(|size| variable.offset + size as i64)` (main/src/print/function.rs:643). -/
def endOf (e : Entry) : Option (Option Int) :=
  match e.size with
  | none => some none
  | some s => if I64 (e.offset + asI64 s) then some (some (e.offset + asI64 s)) else none

/-- The loop of main/src/print/function.rs:640-644: each entry with its `prev_offset`. -/
def link : Option Int → List Entry → Option (List (Option Int × Entry))
  | _, [] => some []
  | prev, e :: es =>
    match endOf e with
    | none => none
    | some next => (link next es).map ((prev, e) :: ·)

/-- `frame_variables` (main/src/print/function.rs:622-647). -/
def frameVariables (tsz : TypeOffset → Option Nat) (d : FunctionDetails) :
    Option (List (Option Int × Entry)) :=
  link none (entries tsz d)

/-- `{}` formatting of an `i64`. -/
def decInt (z : Int) : Str := if z < 0 then 45 :: dec (-z).toNat else dec z.toNat

/-- `print_frame_unknown` (main/src/print/function.rs:593-600). -/
def unknownVal (v : Option Int × Entry) : Option Val :=
  match v.1 with
  | some o =>
    if o < v.2.offset then
      if I64 (v.2.offset - o) then
        some (.text (decInt o ++ [91] ++ decInt (v.2.offset - o) ++ Str.ofString "]\t<unknown>"))
      else none
    else some .nil
  | none => some .nil

/-- `print_frame_variable` (main/src/print/function.rs:602-620); `tref` is what
`print::types::print_ref` writes for a type offset. -/
def entryVal (tref : TypeOffset → Val) (e : Entry) : Val :=
  .seq (.text (decInt e.offset ++
    (match e.size with
      | some s => [91] ++ dec s ++ [93]
      | none => Str.ofString "[??]") ++
    [9] ++ e.name.getD Show.anon ++ Str.ofString ": ")) (tref e.ty)

/-- `impl Print for FrameVariable`, `print` (main/src/print/function.rs:718-721). -/
def printEntry (tref : TypeOffset → Val) (v : Option Int × Entry) : Option P :=
  (unknownVal v).map fun u => .seq (.line [] u) (.line [] (entryVal tref v.2))

/-- The list shown as the stack layout: `state.list(&(), &frame_variables(..))`
(main/src/print/function.rs:121-125). -/
def listing (tsz : TypeOffset → Option Nat) (tref : TypeOffset → Val) (d : FunctionDetails) : Option P := do
  let vs ← frameVariables tsz d
  let ps ← vs.mapM (printEntry tref)
  pure (P.seqs ps)

/-! ### Lists of frame locations (main/src/print/frame_location.rs) -/

/-- Derived `Ord` of `FrameLocation` (parser/src/location.rs:16-22); `Size` is a sentinel. -/
def cmpLoc (a b : FrameLocation) : Ordering :=
  (compare a.offset b.offset).then (cmpNoneLast a.bitSize b.bitSize)

/-- `print` (main/src/print/frame_location.rs:55-61). -/
def locVal (l : FrameLocation) : Val :=
  .text (decInt l.offset ++
    (match l.bitSize with
      | some b => [91] ++ dec (bytesOf b) ++ [93]
      | none => []))

/-- `"stack frame"`. -/
def stackFrame : Str := Str.ofString "stack frame"

/-- `print_list` (main/src/print/frame_location.rs:8-22); the element `print` is 66-68. -/
def printLocs (locs : List FrameLocation) : P :=
  match sortDedup cmpLoc locs with
  | [] => .skip
  | [l] => .line stackFrame (locVal l)
  | ls => .field false stackFrame (P.seqs (ls.map fun l => .line [] (locVal l)))

/-- What the closure of main/src/print/frame_location.rs:44-49 writes. -/
def firstVal (l : Option FrameLocation) : Val :=
  match l with
  | some l => locVal l
  | none => .nil

/-- `diff_list` (main/src/print/frame_location.rs:24-53). The condition tests the old side twice
(line 33). The element `diff` is 70-72. -/
def diffLocs (locsA locsB : List FrameLocation) : D :=
  let a := sortDedup cmpLoc locsA
  let b := sortDedup cmpLoc locsB
  if a.length > 1 ∨ a.length > 1 then
    .field false stackFrame (D.ofItems (fun l => .line [] (locVal l)) (fun l => .line [] (locVal l))
      (fun x y => .line [] (locVal x) (locVal y)) (merged cmpLoc a b (a.length + b.length)))
  else .line stackFrame (firstVal a.head?) (firstVal b.head?)

end Verif.Frame
