import Verif.Show.FileModel
/-!
# C95: the same program with its debug information at other offsets

Every entry of the debug information has an offset, and entries refer to each other by offset. A
rebuild that adds an unrelated entry at the front moves the offsets of all the others. This module
says what it is for a file to be another one with its entries moved: `ρ` gives the new offset of the
entry at an old one. It is specification, not a model of code of the program.
-/
namespace Verif.Move
open Verif.Item Verif.Namespace Verif.Types Verif.Layout Verif.File Verif.Show

/-- A reference to an entry. -/
def off (ρ : Nat → Nat) : Option Nat → Option Nat := Option.map ρ

/-- A member. -/
def member (ρ : Nat → Nat) (m : Member) : Member := { m with offset := ρ m.offset, ty := off ρ m.ty }

/-- A variant. -/
def variant (ρ : Nat → Nat) (v : Variant) : Variant := { v with members := v.members.map (member ρ) }

/-- A variant part. -/
def variantPart (ρ : Nat → Nat) (v : VariantPart) : VariantPart :=
  { discr := off ρ v.discr, variants := v.variants.map (variant ρ) }

/-- A base class. -/
def inherit' (ρ : Nat → Nat) (i : Inherit) : Inherit := { i with ty := off ρ i.ty }

/-- The contents of a type. -/
def ty (ρ : Nat → Nat) : Ty → Ty
  | .void => .void
  | .base name size => .base name size
  | .def_ ns name t => .def_ ns name (off ρ t)
  | .struct_ ns name size ms vps inh =>
    .struct_ ns name size (ms.map (member ρ)) (vps.map (variantPart ρ)) (inh.map (inherit' ρ))
  | .union_ ns name size ms => .union_ ns name size (ms.map (member ρ))
  | .enum_ ns name t size => .enum_ ns name (off ρ t) size
  | .array t count counts size => .array (off ρ t) count counts size
  | .function ps ret size => .function (ps.map (off ρ)) (off ρ ret) size
  | .unspecified ns name => .unspecified ns name
  | .pointerToMember t c size a => .pointerToMember (off ρ t) (off ρ c) size a
  | .modifier kind t size a => .modifier kind (off ρ t) size a
  | .subrange name t l u size => .subrange name (off ρ t) l u size

/-- A type of a unit. -/
def entry (ρ : Nat → Nat) (t : TypeEntry) : TypeEntry := ⟨off ρ t.offset, ty ρ t.kind⟩

/-- A declared parameter. -/
def paramType (ρ : Nat → Nat) (p : ParameterType) : ParameterType :=
  { p with offset := off ρ p.offset, ty := off ρ p.ty }

/-- A function. -/
def function (ρ : Nat → Nat) (f : Function) : Function :=
  { f with
    offset := off ρ f.offset
    parameters := f.parameters.map (paramType ρ)
    returnType := off ρ f.returnType }

/-- A global variable. -/
def var (ρ : Nat → Nat) (v : Variable) : Variable := { v with offset := off ρ v.offset, ty := off ρ v.ty }

/-- A parameter. -/
def param (ρ : Nat → Nat) (p : Parameter) : Parameter :=
  { p with offset := off ρ p.offset, ty := off ρ p.ty }

/-- A local variable. -/
def localVar (ρ : Nat → Nat) (v : LocalVariable) : LocalVariable :=
  { v with offset := off ρ v.offset, ty := off ρ v.ty }

/-- What an indirect call goes through. -/
def indirect (ρ : Nat → Nat) : IndirectOrigin → IndirectOrigin
  | .variable_ v => .variable_ (var ρ v)
  | .localVariable o => .localVariable (off ρ o)
  | .parameter o => .parameter (off ρ o)
  | .member o => .member (off ρ o)

/-- What a call site calls. -/
def origin (ρ : Nat → Nat) : CallOrigin → CallOrigin
  | .direct f => .direct (function ρ f)
  | .indirect o => .indirect (indirect ρ o)

/-- A parameter of a call site. -/
def callParam (ρ : Nat → Nat) (p : CallParameter) : CallParameter := { p with ty := p.ty.map (off ρ) }

/-- A call site. -/
def call (ρ : Nat → Nat) (f : FunctionCall) : FunctionCall :=
  { f with
    origin := f.origin.map (origin ρ)
    ty := f.ty.map (off ρ)
    parameters := f.parameters.map (callParam ρ) }

mutual
/-- An inlined function. -/
def inlined (ρ : Nat → Nat) : InlinedFunction → InlinedFunction
  | .mk o size ranges ps vs is cs src =>
    .mk (off ρ o) size ranges (ps.map (param ρ)) (vs.map (localVar ρ)) (inlinedAll ρ is) (cs.map (call ρ)) src
/-- The inlined functions of one. -/
def inlinedAll (ρ : Nat → Nat) : List InlinedFunction → List InlinedFunction
  | [] => []
  | i :: is => inlined ρ i :: inlinedAll ρ is
end

/-- What is read on demand of a function. -/
def details (ρ : Nat → Nat) (d : FunctionDetails) : FunctionDetails :=
  { parameters := d.parameters.map (param ρ)
    variables := d.variables.map (localVar ρ)
    inlined := inlinedAll ρ d.inlined
    calls := d.calls.map (call ρ) }

/-- A unit. -/
def unit (ρ : Nat → Nat) (u : CompUnit) : CompUnit :=
  { u with
    types := u.types.map (entry ρ)
    functions := u.functions.map (function ρ)
    variables := u.variables.map (var ρ) }

/-- A file. -/
def file (ρ : Nat → Nat) (f : File) : File := { f with units := f.units.map (unit ρ) }

/-- What the two files say about types is the same, the entries of the second being moved. -/
structure Types (ρ : Nat → Nat) (a b : Side) : Prop where
  /-- Two entries stay two entries. -/
  inj : ∀ x y, ρ x = ρ y → x = y
  hash : ∀ o, fromOffset b.hash (off ρ o) = (fromOffset a.hash o).map (ty ρ)
  /-- Everything but the id is the same. -/
  extra : ∀ o, ({ b.extra (off ρ o) with id := 0 } : Extra) = { a.extra o with id := 0 }
  size : ∀ o, b.tsz (off ρ o) = a.tsz o
  /-- A reference is written in the same way; it may link to another id. -/
  ref : ∀ o, (b.tref (off ρ o)).text' = (a.tref o).text'

/-- What the two files say about functions is the same, the entries of the second being moved. -/
structure Fns (ρ : Nat → Nat) (a b : FnSide) : Prop extends Types ρ a.toSide b.toSide where
  regs : b.regName = a.regName
  fnAt : ∀ o, b.fnAt (off ρ o) = (a.fnAt o).map (function ρ)
  byAddress : ∀ x, b.fnByAddress x = (a.fnByAddress x).map (function ρ)
  details : ∀ f, b.details (function ρ f) = Move.details ρ (a.details f)
  plt : b.plt = a.plt
  calls : b.callsOf = a.callsOf

/-- The second file is the first one with its entries moved. -/
structure Moved (ρ : Nat → Nat) (a b : FileSide) : Prop extends Fns ρ a.toFnSide b.toFnSide where
  path : b.path = a.path
  file : b.file = Move.file ρ a.file

/-- The types of the variables in the stack frames have not moved. -/
def FramesFixed (ρ : Nat → Nat) (s : FnSide) : Prop :=
  ∀ f, ∀ e ∈ Frame.entries s.tsz (s.details f), off ρ e.ty = e.ty

end Verif.Move
