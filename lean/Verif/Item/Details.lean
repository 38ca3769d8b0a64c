import Verif.Item.Model
/-!
# Model of the details of a function

`Parameter`, `InlinedFunction`, `FunctionDetails` (parser/src/function.rs) and `LocalVariable`
(parser/src/variable.rs).
-/
namespace Verif.Item
open Verif.Types Verif.Range

/-- `Parameter` (parser/src/function.rs:261-267). -/
structure Parameter where
  offset : Option Nat := none
  name : Option Str := none
  ty : TypeOffset := none
  locations : List (Range × Piece) := []
deriving DecidableEq, Repr

/-- `LocalVariable` (parser/src/variable.rs:178-186). -/
structure LocalVariable where
  offset : Option Nat := none
  name : Option Str := none
  ty : TypeOffset := none
  source : Source := {}
  address : Option Nat := none
  size : Option Nat := none
  locations : List (Range × Piece) := []
deriving DecidableEq, Repr

/-- `FunctionCallKind` (parser/src/function.rs:504-510). -/
inductive CallKind
  | normal | tail
deriving DecidableEq, Repr

/-- `FunctionCallIndirectOrigin` (parser/src/function.rs:523-535). -/
inductive IndirectOrigin
  | variable_ (v : Variable)
  | localVariable (offset : Option Nat)
  | parameter (offset : Option Nat)
  | member (offset : Option Nat)
deriving DecidableEq, Repr

/-- `FunctionCallOrigin` (parser/src/function.rs:514-519). -/
inductive CallOrigin
  | direct (f : Function)
  | indirect (o : IndirectOrigin)
deriving DecidableEq, Repr

/-- `FunctionCallParameter` (parser/src/function.rs:539-546). -/
structure CallParameter where
  name : Option Str := none
  ty : Option TypeOffset := none
  location : List Piece := []
  value : List Piece := []
  dataLocation : List Piece := []
  dataValue : List Piece := []
deriving DecidableEq, Repr

/-- `FunctionCall` (parser/src/function.rs:417-427). -/
structure FunctionCall where
  kind : CallKind := .normal
  returnAddress : Option Nat := none
  callAddress : Option Nat := none
  origin : Option CallOrigin := none
  target : List Piece := []
  targetIsClobbered : Bool := false
  ty : Option TypeOffset := none
  source : Source := {}
  parameters : List CallParameter := []
deriving DecidableEq, Repr

/-- `InlinedFunction` (parser/src/function.rs:354-363). -/
inductive InlinedFunction
  | mk (origin : Option Nat) (size : Option Nat) (ranges : List Range)
    (parameters : List Parameter) (variables : List LocalVariable)
    (inlined : List InlinedFunction) (calls : List FunctionCall) (callSource : Source)

/-- `InlinedFunction::parameters` (parser/src/function.rs:392-394). -/
def InlinedFunction.parameters : InlinedFunction → List Parameter
  | .mk _ _ _ ps _ _ _ _ => ps
/-- `InlinedFunction::variables` (parser/src/function.rs:398-400). -/
def InlinedFunction.variables : InlinedFunction → List LocalVariable
  | .mk _ _ _ _ vs _ _ _ => vs
/-- `InlinedFunction::inlined_functions` (parser/src/function.rs:404-406). -/
def InlinedFunction.inlined : InlinedFunction → List InlinedFunction
  | .mk _ _ _ _ _ is _ _ => is

/-- `InlinedFunction::calls` (parser/src/function.rs:410-412). -/
def InlinedFunction.calls : InlinedFunction → List FunctionCall
  | .mk _ _ _ _ _ _ cs _ => cs
/-- `InlinedFunction::abstract_origin` (parser/src/function.rs:368-370): the offset. -/
def InlinedFunction.origin : InlinedFunction → Option Nat
  | .mk o _ _ _ _ _ _ _ => o
/-- `InlinedFunction::size` (parser/src/function.rs:380-382). -/
def InlinedFunction.size : InlinedFunction → Option Nat
  | .mk _ s _ _ _ _ _ _ => s
/-- `InlinedFunction::call_source` (parser/src/function.rs:386-388). -/
def InlinedFunction.callSource : InlinedFunction → Source
  | .mk _ _ _ _ _ _ _ s => s

/-- `FunctionDetails` (parser/src/function.rs:80-85). -/
structure FunctionDetails where
  parameters : List Parameter := []
  variables : List LocalVariable := []
  inlined : List InlinedFunction := []
  calls : List FunctionCall := []

/-- `Parameter::byte_size` (parser/src/function.rs:297-299). -/
def Parameter.byteSize (tsz : TypeOffset → Option Nat) (p : Parameter) : Option Nat := tsz p.ty

/-- `LocalVariable::byte_size` (parser/src/variable.rs:232-238). -/
def LocalVariable.byteSize (tsz : TypeOffset → Option Nat) (v : LocalVariable) : Option Nat :=
  if v.size.isSome then v.size else tsz v.ty

end Verif.Item
