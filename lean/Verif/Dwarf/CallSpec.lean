import Verif.Dwarf.CallModel
import Verif.Dwarf.AttrSpec
import Verif.Types.Spec
/-!
# Specification vocabulary: what the entry of a call site says
-/
namespace Verif.Dwarf
open Verif.Item Verif.Types Verif.Namespace Verif.Range Verif.Sentinel Verif.File

/-- The source location of the call is what the attributes give. -/
structure CallSays (d : Die) (s : Source) : Prop where
  file : s.file = (d.lastOf .callFile Val.fileName).getD none
  directory : s.directory = (d.lastOf .callFile Val.fileDirectory).getD none
  line : s.line = (d.lastOf .callLine Val.lineNumber).getD 0
  column : s.column = (d.lastOf .callColumn Val.lineNumber).getD 0

/-- What an attribute refers to as the origin of the target of a call: a function; a variable that
holds the address of the function, and is one of the file or else one of the calling function; a
parameter; or a member. -/
inductive OriginAt (lk : Lookup) : Val → CallOrigin → Prop
  | function {o asz d f} : lk o = some (asz, d) → d.tag = .subprogram → lk.functions o = some f →
      OriginAt lk (.ref o) (.direct f)
  | global {o asz d v} : lk o = some (asz, d) → d.tag = .variable → lk.variables o = some v →
      OriginAt lk (.ref o) (.indirect (.variable_ v))
  | localVariable {o asz d} : lk o = some (asz, d) → d.tag = .variable → lk.variables o = none →
      OriginAt lk (.ref o) (.indirect (.localVariable (some o)))
  | parameter {o asz d} : lk o = some (asz, d) → d.tag = .formalParameter →
      OriginAt lk (.ref o) (.indirect (.parameter (some o)))
  | member {o asz d} : lk o = some (asz, d) → d.tag = .member →
      OriginAt lk (.ref o) (.indirect (.member (some o)))

/-- `x` is what the last attribute that says something says (`R`); nothing if none does. -/
def LastSays {α : Type} (R : At × Val → α → Prop) (attrs : List (At × Val)) (x : Option α) : Prop :=
  (∃ pre av post y, attrs = pre ++ av :: post ∧ R av y ∧ x = some y ∧ ∀ bv ∈ post, ∀ z, ¬ R bv z) ∨
  ((∀ bv ∈ attrs, ∀ z, ¬ R bv z) ∧ x = none)

/-- The pieces an expression describes (C42, C43), if it can be evaluated. -/
def Val.pieces (asz : Nat) : Val → Option (List Piece)
  | .exprloc _ e => (evaluateSimple asz e).getD none
  | _ => none

/-- What an attribute states as the address after the call: `DW_AT_call_return_pc`, also if it cannot
be read, or, in a GNU call site, a `DW_AT_low_pc` that can. -/
def statesReturn (gnu : Bool) (av : At × Val) : Option (Option Nat) :=
  if av.1 = .call .returnPc then some av.2.addr
  else if gnu = true ∧ av.1 = .lowPc then av.2.addr.map some else none

/-- The entry, together with the attributes of the entry it refers to as its origin, if that is found;
they count as coming later. -/
def withOrigin (lk : Lookup) (d : Die) : Die :=
  .node d.offset d.tag
    (d.attrs ++ (((d.lastBy fun av =>
      if av.1 = .call .parameter ∨ av.1 = .abstractOrigin then av.2.offset else none).bind lk.entry).map
        fun e => e.2.attrs).getD []) d.children

/-- The parameter of a call is what the entry says; what its origin says about the name and the type
takes precedence. -/
structure CallParamOf (lk : Lookup) (asz : Nat) (d : Die) (p : CallParameter) : Prop where
  name : p.name = (withOrigin lk d).strAttr .name
  ty : p.ty = ((withOrigin lk d).lastOf .type Val.offset).map some
  location : p.location = (d.lastOf .location (Val.pieces asz)).getD []
  value : p.value = (d.lastOf (.call .value) (Val.pieces asz)).getD []
  dataLocation : p.dataLocation = (d.lastOf (.call .dataLocation) (Val.pieces asz)).getD []
  dataValue : p.dataValue = (d.lastOf (.call .dataValue) (Val.pieces asz)).getD []

/-- The call is what the entry of the call site says. -/
structure CallOf (lk : Lookup) (asz : Nat) (d : Die) (c : FunctionCall) : Prop where
  tail : c.kind = .tail ↔ ∃ v, (At.call .tail, v) ∈ d.attrs
  returnAddress : c.returnAddress = (d.lastBy (statesReturn (d.tag = .callSite true))).getD none
  callAddress : c.callAddress = (d.last (.call .pc)).bind Val.addr
  origin : LastSays (fun av x => (av.1 = .call .origin ∨ av.1 = .abstractOrigin) ∧ OriginAt lk av.2 x) d.attrs c.origin
  target : c.target = (d.lastBy fun av =>
      if av.1 = .call (.target false) ∨ av.1 = .call (.target true) then av.2.pieces asz else none).getD []
  clobbered : c.targetIsClobbered = true ↔ ∃ v, (At.call (.target true), v) ∈ d.attrs
  ty : c.ty = (d.lastOf .type Val.offset).map some
  source : CallSays d c.source
  parameters : All2 (CallParamOf lk asz) (d.children.filter fun x => x.tag = .callSiteParameter) c.parameters

/-- No expression of the entry of a call site or one of its parameters makes the evaluation panic
(see C42 for which do). -/
def Die.CallEvaluates (asz : Nat) (d : Die) : Prop :=
  ∀ av ∈ d.attrs, (av.1 = .location ∨ av.1 = .call .value ∨ av.1 = .call .dataLocation ∨ av.1 = .call .dataValue ∨
      ∃ b, av.1 = .call (.target b)) →
    ∀ ps e, av.2 = .exprloc ps e → (evaluateSimple asz e).isSome

end Verif.Dwarf
