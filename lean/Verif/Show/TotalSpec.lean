import Verif.Show.FileSpec
import Verif.Show.TypeTotal
import Verif.Frame.Spec
/-!
# When a listing completes

What the debug information of a file must satisfy for printing it to run to the end. Nothing here
mentions how the listing is computed.
-/
namespace Verif.Show
open Verif.Print Verif.Item Verif.Namespace Verif.Types Verif.Path Verif.Opts Verif.Merge Verif.Range
  Verif.File Verif.Order Verif.Filter Verif.Frame

/-- The offset of the location, if it has one, can be negated: it is not the smallest 64-bit integer. -/
def LocationOk : Location → Prop
  | .registerOffset _ o | .frameOffset o | .cfaOffset o => -(2 ^ 63 : Int) < o ∧ o < 2 ^ 63
  | _ => True

/-- All locations listed for the call are fine. -/
def CallOk (c : FunctionCall) : Prop :=
  (∀ p ∈ c.target, LocationOk p.location) ∧
  ∀ a ∈ c.parameters, ∀ p ∈ a.location ++ a.value ++ a.dataLocation ++ a.dataValue, LocationOk p.location

/-- Where a variable on the stack ends, if its size is known: the size is added as a signed number. -/
def StackEnd (e : Entry) (z : Int) : Prop := ∃ n, e.size = some n ∧ z = e.offset + asI64 n

/-- The list of stack variables can be drawn in 64-bit arithmetic: the end of each fits, and so does
the gap to the next. -/
def FrameFits (l : List Entry) : Prop :=
  (∀ e ∈ l, ∀ z, StackEnd e z → I64 z) ∧
  ∀ before e f after, l = before ++ e :: f :: after → ∀ z, StackEnd e z → z < f.offset → I64 (f.offset - z)

/-- Nothing the options ask for about the function is out of range, and its code can be read. -/
structure FnOk (o : Options) (s : FnSide) (f : Function) : Prop where
  frame : o.printFunctionStackFrame = true → FrameFits (entries s.tsz (s.details f))
  calls : o.printFunctionCalls = true → o.printVariableLocations = true →
    (∀ c ∈ (s.details f).calls, CallOk c) ∧
    ∀ i, Frame.Within (s.details f).inlined i → ∀ c ∈ i.calls, CallOk c
  code : o.printFunctionCalls = true → ∀ r ∈ f.ranges, ∃ l, s.callsOf r = some l
  insns : o.printFunctionInstructions = true → f.ranges ≠ [] → ∃ p, s.insns f = some p

/-- Following members that are listed in place comes to an end. -/
def EndsBelow (s : Side) : Ty → Prop
  | .def_ _ _ ty => ∀ t, fromOffset s.hash ty = some t → t.isAnon = true → Acc (Inside s) t
  | .struct_ ns name size ms vps inh => Acc (Inside s) (.struct_ ns name size ms vps inh)
  | .union_ ns name size ms => Acc (Inside s) (.union_ ns name size ms)
  | _ => True

/-- Everything listed for a unit is finite and in range. -/
structure UnitOk (o : Options) (s : FileSide) (u : CompUnit) : Prop where
  types : o.categoryType = true → ∀ t ∈ u.types, WantedType s.hash u o false t →
    GoodType s.hash t.kind ∧ EndsBelow s.toSide t.kind
  functions : o.categoryFunction = true → ∀ f ∈ u.functions, WantedFunction o f →
    GoodFunction s.hash f ∧ FnOk o s.toFnSide f
  variables : o.categoryVariable = true → ∀ v ∈ u.variables, WantedVariable o v → GoodVariable s.hash v

/-! ### Diffs -/

/-- Far fewer items than memory has room for. -/
def Short {α : Type} (l : List α) : Prop := l.length < 2 ^ 60

/-- The member lists of the type are short. -/
def TyShort : Ty → Prop
  | .struct_ _ _ _ ms vps inh => ms.length + inh.length + vps.length < 2 ^ 60 ∧
    ∀ vp ∈ vps, Short vp.variants ∧ ∀ v ∈ vp.variants, Short v.members
  | .union_ _ _ _ ms => Short ms
  | _ => True

/-- The location lists of a call are short. -/
def CallShort (c : FunctionCall) : Prop :=
  Short c.target ∧ ∀ p ∈ c.parameters,
    Short p.location ∧ Short p.value ∧ Short p.dataLocation ∧ Short p.dataValue

/-- The lists of parameters, variables, inlined functions and calls of a function are short, and
the functions inlined into it are not absurdly large. -/
structure ListsShort (ps : List Parameter) (vs : List LocalVariable) (is : List InlinedFunction)
    (cs : List FunctionCall) : Prop where
  params : Short ps ∧ ∀ p ∈ ps, Short p.locations
  vars : Short vs ∧ ∀ v ∈ vs, Short v.locations
  inlined : Short is ∧ (is.map fun i => i.size.getD 0).sum < 2 ^ 60
  calls : Short cs ∧ ∀ c ∈ cs, CallShort c

/-- What is listed for a function is short, at every level of inlining. -/
structure FnShort (s : FnSide) (f : Function) : Prop where
  own : ListsShort (s.details f).parameters (s.details f).variables (s.details f).inlined (s.details f).calls
  below : ∀ i, Frame.Within (s.details f).inlined i → ListsShort i.parameters i.variables i.inlined i.calls
  code : ∀ l, fnCalls s f = some l → Short l

/-- Sizes that are compared fit in 63 bits. -/
structure UnitSmall (tsz : TypeOffset → Option Nat) (u : CompUnit) : Prop where
  functions : ∀ n, u.functionSize = some n → n < 2 ^ 63
  variables : ∀ n, u.variableSize tsz = some n → n < 2 ^ 63
  unknown : ∀ n, size? (u.unknownRanges tsz) = some n → n < 2 ^ 63

/-- The summary of a file adds up (see C55), its sizes fit in 63 bits, and there are not too many
sections. -/
structure SummaryOk (tsz : TypeOffset → Option Nat) (f : File) : Prop where
  adds : ∀ m, f.printSummary tsz = some m → m.fnSize + m.varSize ≤ m.size ∧ m.size < 2 ^ 63
  sections : Short f.sections ∧ ∀ x ∈ f.sections, x.size < 2 ^ 63

/-- Everything compared for a file is finite, in range and short. -/
structure DiffOk (o : Options) (s : FileSide) : Prop where
  summary : o.categoryFile = true → SummaryOk s.tsz s.file
  units : ∀ u ∈ s.file.units, WantedUnit o u → UnitOk o s u ∧ (o.categoryUnit = true → UnitSmall s.tsz u)
  types : o.categoryType = true → (∀ off t, fromOffset s.hash off = some t → TyShort t) ∧
    ∀ u ∈ s.file.units, ∀ t ∈ u.types, TyShort t.kind ∧ Short (s.extra t.offset).enumerators
  functions : o.categoryFunction = true → ∀ u ∈ s.file.units, ∀ f ∈ u.functions, FnShort s.toFnSide f

end Verif.Show
