import Verif.Show.FnModel
import Verif.Frame.Spec
import Verif.Print.Spec
/-!
# Listings of a function with some attributes left out

`functionHiding m` is the listing with the attributes named in `m` left out; `functionHiding {}` is
`functionP` (`functionHiding_nothing`).
-/
namespace Verif.Show
open Verif.Print Verif.Item Verif.Types Verif.Opts Verif.Range Verif.Frame

/-- What is left out of a listing, and whether local variables are listed in the order of their
names instead of their own. -/
structure Hidden where
  linkageName : Bool := false
  symbolName : Bool := false
  address : Bool := false
  size : Bool := false
  inline : Bool := false
  variableAddress : Bool := false
  instructions : Bool := false
  byName : Bool := false

/-- Leave a section out. -/
def leftOut (b : Bool) (p : P) : P := if b then .skip else p

/-- A local variable. -/
def localHiding (m : Hidden) (o : Options) (s : FnSide) (v : LocalVariable) : P :=
  .indent false (.line [] (localVal s v))
    (if o.printVariableLocations then
      .seqs [leftOut m.variableAddress (.line (k "address") (addressVal v.address)),
        regsP s ((registers v.locations).map (·.2)), printLocs (localFrameLocations v.locations)]
    else .skip)

/-- Local variables. -/
def localsHiding (m : Hidden) (o : Options) (s : FnSide) (vs : List LocalVariable) : P :=
  .seqs ((if m.byName then sortLocals vs else vs).map (localHiding m o s))

/-- An inlined function. -/
def inlinedHiding (m : Hidden) (o : Options) (s : FnSide) (dir : Option Str) : Nat → InlinedFunction → Option P
  | 0, _ => none
  | n + 1, f => do
    let calls ← whenP o.printFunctionCalls ((callSitesP o s dir f.calls).map (.field true (k "call sites")))
    let inl ← listP (inlinedHiding m o s dir n) f.inlined
    some (.indent true (.line [] (inlinedVal s f))
      (.seqs [if o.printSource then .line (k "call source") (sourceVal dir f.callSource) else .skip,
        if o.printInlinedFunctionParameters then .field false (k "parameters") (paramsP o s f.parameters) else .skip,
        if o.printFunctionVariables then .field true (k "variables") (localsHiding m o s f.variables) else .skip,
        calls, .inline inl]))

/-- The body of a function. -/
def fnBodyHiding (m : Hidden) (o : Options) (s : FnSide) (dir : Option Str) (n : Nat) (f : Function) : Option P := do
  let d := s.details f
  let frame ← whenP o.printFunctionStackFrame ((listing s.tsz s.tref d).map (.field true (k "stack frame")))
  let inl ← listP (inlinedHiding m o s dir n) d.inlined
  let sites ← whenP o.printFunctionCalls ((callSitesP o s dir d.calls).map (.field true (k "call sites")))
  let calls ← whenP o.printFunctionCalls
    ((fnCalls s f).map fun l => .field true (k "calls") (.seqs (l.map fun x => .line [] (callVal o s x))))
  let insns ← whenP (o.printFunctionInstructions && !f.ranges.isEmpty)
    ((instructionsP s f).map (.fieldDetail (k "code") (k "instructions")))
  some (.seqs [leftOut m.linkageName (.line (k "linkage name") (strVal f.linkageName)),
    leftOut m.symbolName (.line (k "symbol name") (strVal f.symbolName)),
    sourceP o dir f.source, leftOut m.address (rangesP f.ranges),
    leftOut m.size (.line (k "size") (sizeVal f.size)),
    leftOut m.inline (.line (k "inline") (yesVal f.inline)), .line (k "declaration") (yesVal f.declaration),
    .field false (k "return type") (.line [] (returnVal s.toSide f.returnType)),
    .field false (k "parameters") (paramsP o s d.parameters),
    if o.printFunctionVariables then .field true (k "variables") (localsHiding m o s d.variables) else .skip,
    frame, .inline (.field true (k "inlined functions") inl), sites, calls, leftOut m.instructions insns])

/-- A function. -/
def functionHiding (m : Hidden) (o : Options) (s : FnSide) (dir : Option Str) (n : Nat) (f : Function) : Option P := do
  let b ← fnBodyHiding m o s dir n f
  some (.seq (.id (s.fnId f) (.line [] (fnName f)) b) .lineBreak)

/-- What a diff does not compare: what the user asked to ignore, instructions, and the order of
local variables. -/
def ignoredBy (o : Options) : Hidden where
  linkageName := o.ignoreFunctionLinkageName
  symbolName := o.ignoreFunctionSymbolName
  address := o.ignoreFunctionAddress
  size := o.ignoreFunctionSize
  inline := o.ignoreFunctionInline
  variableAddress := o.ignoreVariableAddress
  instructions := true
  byName := true

/-- At most one stack-frame location. -/
def OneLoc (l : List FrameLocation) : Prop := ∀ x ∈ l, ∀ y ∈ l, x = y

/-- No parameter or local variable of the function, or of anything inlined into it, has two
different stack-frame locations. -/
def OneLocation (d : FunctionDetails) : Prop :=
  (∀ p, ParamOf d p → OneLoc ((frameLocations p.locations).map (·.2))) ∧
  (∀ v, VarOf d v → OneLoc (localFrameLocations v.locations))

/-- The names that are listed on a line of their own are not empty: registers, PLT symbols, called
functions; and instruction listings have no blank lines. -/
structure NamedFn (s : FnSide) : Prop where
  regs : ∀ r, s.regName r ≠ some []
  plt : ∀ a, s.plt a ≠ some []
  fns : ∀ a f, s.fnByAddress a = some f → f.ns ≠ none ∨ f.name ≠ some []
  insns : ∀ f p, s.insns f = some p → ∀ http i x d, Line.brk ∉ p.lines http i x d

/-- No piece is an empty location, for which nothing is written. -/
def NoEmptyPiece (l : List Piece) : Prop := ∀ p ∈ l, p.location ≠ .empty

/-- What is listed for a call site is not empty: names of parameters, locations. -/
structure NamedCall (c : FunctionCall) : Prop where
  target : NoEmptyPiece c.target
  names : ∀ p ∈ c.parameters, p.name ≠ some []
  pieces : ∀ p ∈ c.parameters, NoEmptyPiece p.location ∧ NoEmptyPiece p.value ∧ NoEmptyPiece p.dataLocation ∧
    NoEmptyPiece p.dataValue

/-- A call site of the function or of something inlined into it. -/
def CallOf (d : FunctionDetails) (c : FunctionCall) : Prop :=
  c ∈ d.calls ∨ ∃ i, Within d.inlined i ∧ c ∈ i.calls

/-- The local variables of the function, and of everything inlined into it, are in the order of
their names. -/
def VarsByName (d : FunctionDetails) : Prop :=
  d.variables.Pairwise (fun a b => compare a.name b.name ≠ .gt) ∧
  ∀ i, Within d.inlined i → i.variables.Pairwise fun a b => compare a.name b.name ≠ .gt

/-- Neither one address on the old side with several on the new one nor the reverse. -/
def SameAddressForm (ra rb : List Range) : Prop :=
  ¬(ra.length = 1 ∧ rb.length > 1) ∧ ¬(rb.length = 1 ∧ ra.length > 1)

end Verif.Show
