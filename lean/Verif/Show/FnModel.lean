import Verif.Show.TypeModel
import Verif.Frame.Model
import Verif.Code.Model
/-!
# Model of the listing and the diff of a function

`main/src/print/function.rs`, `parameter.rs`, `local_variable.rs`, `register.rs`, `location.rs`,
`inlined_function.rs`, `function_call.rs` and `range.rs`. As in `Verif.Show.TypeModel`, `none` stands
for: the code does not return or panics. A closure passed to `inline` is part of the program even
where the inline depth keeps it from running, so `none` also covers panics in parts that are not
shown.
-/
namespace Verif.Show
open Verif.Print Verif.Item Verif.Namespace Verif.Types Verif.Path Verif.Opts Verif.Merge Verif.Range
  Verif.Frame

/-- What printing functions reads of one file, beside what types need: `Register::name`
(parser/src/location.rs:10-12), `Function::from_offset` (parser/src/function.rs:88-96),
`functions_by_address`, `Function::id`, `Function::details` (187-189), and of the code: `Code::plt`,
`Code::calls` of a range (`none` is a panic; without code `some []`) and what `print_instructions`
prints (`Verif.Cfi.printInstructions`, `Verif.Code.printInsn`). Simplification: the id is a function
of the contents of the function. -/
structure FnSide extends Side where
  regName : Nat → Option Str
  fnAt : Option Nat → Option Function
  fnByAddress : Nat → Option Function
  fnId : Function → Nat
  details : Function → FunctionDetails
  plt : Nat → Option Str
  callsOf : Range → Option (List (Nat × Nat))
  insns : Function → Option P

/-- What a diff of functions reads of its two files; `same` and `heap` as in `Pair`. -/
structure FnPair where
  a : FnSide
  b : FnSide
  same : Ty → Ty → Bool
  heap : Heap

/-- The part needed for types. -/
def FnPair.toPair (c : FnPair) : Pair := ⟨c.a.toSide, c.b.toSide, c.same, c.heap⟩

/-- `if flag { .. }` around a part of a listing. -/
def whenP (b : Bool) (p : Option P) : Option P := if b then p else some .skip
/-- `if flag { .. }` around a part of a diff. -/
def whenD (b : Bool) (e : Option D) : Option D := if b then e else some .skip

/-! ### Values -/

/-- `if let Some(x) = .. { write!(w, "{}", x) }` (main/src/print/function.rs:33-45). -/
def strVal : Option Str → Val
  | some s => .text s
  | none => .nil

/-- `if let Some(address) = .. { write!(w, "0x{:x}", address) }` (main/src/print/local_variable.rs:29-34),
also `{:#x}` (function_call.rs:17-22). -/
def addressVal : Option Nat → Val
  | some a => .text (k "0x" ++ hex a)
  | none => .nil

/-- The size in brackets (main/src/print/function.rs:81-84, parameter.rs:17-20,
local_variable.rs:20-23, inlined_function.rs:13-16). -/
def bracketed : Option Nat → Str
  | some n => k "[" ++ dec n ++ k "]"
  | none => k "[??]"

/-- `print::range::print_address` (main/src/print/range.rs:6-13). -/
def rangeText (r : Range) : Str :=
  if r.hi > r.lo then k "0x" ++ hex r.lo ++ k "-0x" ++ hex (r.hi - 1) else k "0x" ++ hex r.lo

/-- `print::range::print_address_and_size` (main/src/print/range.rs:15-28). -/
def rangeSizeText (r : Range) : Str :=
  if r.hi > r.lo then
    k "0x" ++ hex r.lo ++ k "-0x" ++ hex (r.hi - 1) ++ k " (" ++ dec (r.hi - r.lo) ++ k ")"
  else k "0x" ++ hex r.lo

/-- `print_range` (main/src/print/function.rs:51-56). -/
def rangeVal : Option Range → Val
  | some r => .text (rangeText r)
  | none => .nil

/-- The derived order of `Range` (parser/src/range.rs:4-11). -/
def cmpRange (a b : Range) : Ordering := (compare a.lo b.lo).then (compare a.hi b.hi)

/-- `print_name` (main/src/print/function.rs:24-31). -/
def fnName (f : Function) : Val := vals [.text (k "fn "), nsOpt f.ns, .name (f.name.getD anon)]

/-- `print_return_type` (main/src/print/function.rs:79-90). -/
def returnVal (s : Side) (ty : TypeOffset) : Val :=
  if fromOffset s.hash ty = some .void then .nil
  else vals [.text (bracketed (s.tsz ty)), .text (k "\t"), s.tref ty]

/-- The signed offset of `print::location::print` (main/src/print/location.rs:46-50 and the like);
`none` is the overflow of `-offset`. -/
def offsetText (o : Int) : Option Str :=
  if o < 0 then if I64 (-o) then some (k "-0x" ++ hex (-o).toNat) else none
  else if o > 0 then some (k "+0x" ++ hex o.toNat)
  else some []

/-- `print::location::print` (main/src/print/location.rs:37-78). -/
def locationVal (s : FnSide) : Location → Option Val
  | .empty => some .nil
  | .literal v => some (.text (k "0x" ++ hex v))
  | .register r => some (.text (Code.regVal s.regName r))
  | .registerOffset r o => (offsetText o).map fun t => .text (Code.regVal s.regName r ++ t)
  | .frameOffset o => (offsetText o).map fun t => .text (k "frame" ++ t)
  | .cfaOffset o => (offsetText o).map fun t => .text (k "cfa" ++ t)
  | .address a => some (.text (k "0x" ++ hex (a.getD 0)))
  | .tlsOffset o => some (.text (k "tls+0x" ++ hex o))
  | .other => some (.text (k "<other>"))

/-! ### Registers and locations -/

/-- `print::register::print_list` (main/src/print/register.rs:8-13); the element `print` is 41-43. -/
def regsP (s : FnSide) (regs : List Nat) : P :=
  .field false (k "registers")
    (.seqs ((sortDedup compare regs).map fun r => .line [] (.text (Code.regVal s.regName r))))

/-- `print::register::diff_list` (main/src/print/register.rs:15-28); the element `diff` is 45-47,
the costs 50-62. -/
def regsD (c : FnPair) (ra rb : List Nat) : Option D :=
  (listD c.heap (fun r => some (.line [] (.text (Code.regVal c.a.regName r))))
    (fun r => some (.line [] (.text (Code.regVal c.b.regName r))))
    (fun x y => some (.line [] (.text (Code.regVal c.a.regName x)) (.text (Code.regVal c.b.regName y))))
    (fun _ => 1) (fun _ => 1) (fun x y => if x = y then 0 else 1)
    (sortDedup compare ra) (sortDedup compare rb)).map (.field false (k "registers"))

/-- `impl Print for Location`, `print` (main/src/print/location.rs:83-85). -/
def locationP (s : FnSide) (l : Location) : Option P := (locationVal s l).map (.line [])

/-- `Location::diff` (main/src/print/location.rs:87-89). -/
def locationD (c : FnPair) (a b : Location) : Option D := do
  let x ← locationVal c.a a
  let y ← locationVal c.b b
  some (.line [] x y)

/-- `print_pieces` (main/src/print/location.rs:8-10, 20-22). -/
def piecesP (s : FnSide) (ps : List Piece) : Option P := listP (locationP s) (ps.map (·.location))

/-- `diff_pieces` (main/src/print/location.rs:12-18, 24-35); the costs are 92-104. -/
def piecesD (c : FnPair) (pa pb : List Piece) : Option D :=
  listD c.heap (locationP c.a) (locationP c.b) (locationD c) (fun _ => 1) (fun _ => 1)
    (fun x y => if x = y then 0 else 1) (pa.map (·.location)) (pb.map (·.location))

/-! ### Parameters and local variables -/

/-- `print_size_and_decl` (main/src/print/parameter.rs:16-23). -/
def paramVal (s : FnSide) (p : Parameter) : Val :=
  vals [.text (bracketed (p.byteSize s.tsz)), .text (k "\t"), Code.paramDecl s.tref p]

/-- `impl Print for Parameter`, `print` (main/src/print/parameter.rs:28-42). -/
def paramP (o : Options) (s : FnSide) (p : Parameter) : P :=
  .indent false (.line [] (paramVal s p))
    (if o.printVariableLocations then
      .seq (regsP s ((registers p.locations).map (·.2))) (printLocs ((frameLocations p.locations).map (·.2)))
    else .skip)

/-- `Parameter::diff` (main/src/print/parameter.rs:44-69). -/
def paramD (o : Options) (c : FnPair) (a b : Parameter) : Option D := do
  let body ← whenD o.printVariableLocations (do
    let rs ← regsD c ((registers a.locations).map (·.2)) ((registers b.locations).map (·.2))
    some (D.seq rs (diffLocs ((frameLocations a.locations).map (·.2)) ((frameLocations b.locations).map (·.2)))))
  some (.indent false (.line [] (paramVal c.a a) (paramVal c.b b)) body)

/-- `Parameter::diff_cost` (main/src/print/parameter.rs:77-95). -/
def paramCost (c : FnPair) (a b : Parameter) : Nat :=
  (if a.name = b.name then 0 else 1) + tyCost c.toPair 1 a.ty b.ty

/-- `state.list(unit, parameters)` (main/src/print/function.rs:117). -/
def paramsP (o : Options) (s : FnSide) (ps : List Parameter) : P := .seqs (ps.map (paramP o s))

/-- `state.list` of parameters (main/src/print/function.rs:208-215); `step_cost` is
parameter.rs:73-75. -/
def paramsD (o : Options) (c : FnPair) (pa pb : List Parameter) : Option D :=
  listD c.heap (fun p => some (paramP o c.a p)) (fun p => some (paramP o c.b p)) (paramD o c)
    (fun _ => 1) (fun _ => 1) (paramCost c) pa pb

/-- `print_size_and_decl` (main/src/print/local_variable.rs:18-27). -/
def localVal (s : FnSide) (v : LocalVariable) : Val :=
  vals [.text (bracketed (v.byteSize s.tsz)), .text (k "\t"), Code.varDecl s.tref v]

/-- `impl Print for LocalVariable`, `print` (main/src/print/local_variable.rs:39-51). -/
def localP (o : Options) (s : FnSide) (v : LocalVariable) : P :=
  .indent false (.line [] (localVal s v))
    (if o.printVariableLocations then
      .seqs [.line (k "address") (addressVal v.address), regsP s ((registers v.locations).map (·.2)),
        printLocs (localFrameLocations v.locations)]
    else .skip)

/-- `LocalVariable::diff` (main/src/print/local_variable.rs:53-84). -/
def localD (o : Options) (c : FnPair) (a b : LocalVariable) : Option D := do
  let body ← whenD o.printVariableLocations (do
    let rs ← regsD c ((registers a.locations).map (·.2)) ((registers b.locations).map (·.2))
    some (D.seqs [.ignoreDiff o.ignoreVariableAddress (.line (k "address") (addressVal a.address) (addressVal b.address)),
      rs, diffLocs (localFrameLocations a.locations) (localFrameLocations b.locations)]))
  some (.indent false (.line [] (localVal c.a a) (localVal c.b b)) body)

/-- `diff_cost` of local variables (main/src/print/local_variable.rs:92-110). -/
def localCost (c : FnPair) (a b : LocalVariable) : Nat :=
  (if a.name = b.name then 0 else 1) + tyCost c.toPair 1 a.ty b.ty

/-- `state.list(unit, variables)` (main/src/print/function.rs:119). -/
def localsP (o : Options) (s : FnSide) (vs : List LocalVariable) : P := .seqs (vs.map (localP o s))

/-- `variables.sort_by(LocalVariable::cmp_id)` (main/src/print/function.rs:217-220,
parser/src/variable.rs:280-282). -/
def sortLocals (vs : List LocalVariable) : List LocalVariable :=
  stableSort (fun x y => compare x.name y.name != .gt) vs

/-- The diff of local variables (main/src/print/function.rs:217-223, inlined_function.rs:79-90);
`step_cost` is local_variable.rs:88-90. -/
def localsD (o : Options) (c : FnPair) (va vb : List LocalVariable) : Option D :=
  listD c.heap (fun v => some (localP o c.a v)) (fun v => some (localP o c.b v)) (localD o c)
    (fun _ => 1) (fun _ => 1) (localCost c) (sortLocals va) (sortLocals vb)

/-! ### Call sites -/

/-- `Function::cmp_id(..) == Equal` (parser/src/function.rs:197-204). -/
def fnSame (a b : Function) : Bool := Namespace.cmpNsAndName a.ns a.name b.ns b.name == .eq

/-- `print_origin` (main/src/print/function_call.rs:38-63). -/
def originVal (s : FnSide) : Option CallOrigin → Val
  | some (.direct f) => .seq (.text (k " -> ")) (fnRef (s.fnId f) f)
  | some (.indirect (.variable_ v)) => .text (k " -> indirect(global:" ++ v.name.getD (k "<unknown>") ++ k ")")
  | some (.indirect (.localVariable _)) => .text (k " -> indirect(local variable)")
  | some (.indirect (.parameter _)) => .text (k " -> indirect(parameter)")
  | some (.indirect (.member _)) => .text (k " -> indirect(member)")
  | none => .nil

/-- `print_header` with `print_kind` (main/src/print/function_call.rs:9-15, 24-36). -/
def callHeader (s : FnSide) (f : FunctionCall) : Val :=
  vals [.text (match f.kind with | .normal => k "call" | .tail => k "tail call"), .text (k " at "),
    .text (match f.callAddress with
      | some a => k "0x" ++ hex a
      | none => if f.returnAddress.isSome then k "<before return>" else k "<unknown>"),
    originVal s f.origin]

/-- `print_parameter_header` (main/src/print/function_call.rs:221-237). -/
def callParamVal (s : FnSide) (p : CallParameter) : Val :=
  vals [.text (p.name.getD (k "<unnamed>")),
    match p.ty with
    | some t => if (fromOffset s.hash t).isSome then .seq (.text (k ": ")) (s.tref t) else .nil
    | none => .nil]

/-- `impl Print for FunctionCallParameter`, `print` (main/src/print/function_call.rs:242-268). -/
def callParamP (o : Options) (s : FnSide) (p : CallParameter) : Option P := do
  let body ← whenP o.printVariableLocations (do
    let l ← piecesP s p.location
    let v ← piecesP s p.value
    let dl ← piecesP s p.dataLocation
    let dv ← piecesP s p.dataValue
    some (P.seqs [.field false (k "location") l, .field false (k "value") v,
      .field false (k "data_location") dl, .field false (k "data_value_location") dv]))
  some (.indent false (.line [] (callParamVal s p)) body)

/-- `FunctionCallParameter::diff` (main/src/print/function_call.rs:270-306). -/
def callParamD (o : Options) (c : FnPair) (a b : CallParameter) : Option D := do
  let body ← whenD o.printVariableLocations (do
    let l ← piecesD c a.location b.location
    let v ← piecesD c a.value b.value
    let dl ← piecesD c a.dataLocation b.dataLocation
    let dv ← piecesD c a.dataValue b.dataValue
    some (D.seqs [.field false (k "location") l, .field false (k "value") v,
      .field false (k "data_location") dl, .field false (k "data_value_location") dv]))
  some (.indent false (.line [] (callParamVal c.a a) (callParamVal c.b b)) body)

/-- The loop over the parameters of two calls (main/src/print/function_call.rs:125-143) when those
of the old call are used up. -/
def callParamsAddD (o : Options) (c : FnPair) : List CallParameter → Option D
  | [] => some .skip
  | b :: bs => do
    let p ← callParamP o c.b b
    let r ← callParamsAddD o c bs
    some (.seq (.prefixAdd p) r)

/-- The loop over the parameters of two calls (main/src/print/function_call.rs:125-143). -/
def callParamsD (o : Options) (c : FnPair) : List CallParameter → List CallParameter → Option D
  | [], bs => callParamsAddD o c bs
  | a :: as, [] => do
    let p ← callParamP o c.a a
    let r ← callParamsD o c as []
    some (.seq (.prefixDelete p) r)
  | a :: as, b :: bs => do
    let e ← callParamD o c a b
    let r ← callParamsD o c as bs
    some (.seq e r)

/-- `impl Print for FunctionCall`, `print` (main/src/print/function_call.rs:68-97); `dir` is the
directory of the unit. -/
def callSiteP (o : Options) (s : FnSide) (dir : Option Str) (f : FunctionCall) : Option P := do
  let target ← whenP o.printVariableLocations ((piecesP s f.target).map (.field false (k "target")))
  let ps ← listP (callParamP o s) f.parameters
  some (.indent false (.line [] (callHeader s f))
    (.seqs [.line (k "return address") (addressVal f.returnAddress), target, sourceP o dir f.source,
      .field false (k "parameters") ps]))

/-- `FunctionCall::diff` (main/src/print/function_call.rs:99-153). -/
def callSiteD (o : Options) (c : FnPair) (da db : Option Str) (a b : FunctionCall) : Option D := do
  let target ← whenD o.printVariableLocations ((piecesD c a.target b.target).map (.field false (k "target")))
  let ps ← whenD (!(a.parameters.isEmpty && b.parameters.isEmpty))
    ((callParamsD o c a.parameters b.parameters).map (.field false (k "parameters")))
  some (.indent false (.line [] (callHeader c.a a) (callHeader c.b b))
    (.seqs [.line (k "return address") (addressVal a.returnAddress) (addressVal b.returnAddress), target,
      sourceD o da a.source db b.source, ps]))

/-- The part of `FunctionCall::diff_cost` for the origins (main/src/print/function_call.rs:179-213). -/
def originCost : Option CallOrigin → Option CallOrigin → Nat
  | some (.direct a), some (.direct b) => if fnSame a b then 0 else 1
  | some (.indirect a), some (.indirect b) =>
    match a, b with
    | .variable_ _, .variable_ _ => 0
    | .localVariable _, .localVariable _ => 0
    | .parameter _, .parameter _ => 0
    | .member _, .member _ => 0
    | _, _ => 1
  | some _, some _ => 2
  | none, none => 0
  | _, _ => 1

/-- `FunctionCall::diff_cost` (main/src/print/function_call.rs:161-217). -/
def callSiteCost (a b : FunctionCall) : Nat :=
  (if a.kind = b.kind then 0 else 1) + (if a.callAddress = b.callAddress then 0 else 1) +
    (if a.returnAddress = b.returnAddress then 0 else 1) + originCost a.origin b.origin

/-- `state.list(unit, calls)` (main/src/print/function.rs:131). -/
def callSitesP (o : Options) (s : FnSide) (dir : Option Str) (l : List FunctionCall) : Option P :=
  listP (callSiteP o s dir) l

/-- `state.list` of call sites (main/src/print/function.rs:243-245); `step_cost` is
function_call.rs:157-159. -/
def callSitesD (o : Options) (c : FnPair) (da db : Option Str) (la lb : List FunctionCall) : Option D :=
  listD c.heap (callSiteP o c.a da) (callSiteP o c.b db) (callSiteD o c da db) (fun _ => 1) (fun _ => 1)
    callSiteCost la lb

/-! ### Inlined functions -/

/-- `print_size_and_decl` (main/src/print/inlined_function.rs:8-23). -/
def inlinedVal (s : FnSide) (f : InlinedFunction) : Val :=
  vals [.text (bracketed f.size), .text (k "\t"),
    match s.fnAt f.origin with
    | some g => fnRef (s.fnId g) g
    | none => .text anon]

/-- `impl Print for InlinedFunction`, `print` (main/src/print/inlined_function.rs:32-62). `n` bounds
the depth of inlined functions. -/
def inlinedP (o : Options) (s : FnSide) (dir : Option Str) : Nat → InlinedFunction → Option P
  | 0, _ => none
  | n + 1, f => do
    let calls ← whenP o.printFunctionCalls ((callSitesP o s dir f.calls).map (.field true (k "call sites")))
    let inl ← listP (inlinedP o s dir n) f.inlined
    some (.indent true (.line [] (inlinedVal s f))
      (.seqs [if o.printSource then .line (k "call source") (sourceVal dir f.callSource) else .skip,
        if o.printInlinedFunctionParameters then .field false (k "parameters") (paramsP o s f.parameters) else .skip,
        if o.printFunctionVariables then .field true (k "variables") (localsP o s f.variables) else .skip,
        calls, .inline inl]))

/-- The part of `InlinedFunction::diff_cost` for the origins (main/src/print/inlined_function.rs:121-139). -/
def inlinedOriginCost (a b : Option Function) : Nat :=
  match a, b with
  | some f, some g => if fnSame f g then 0 else 3
  | none, none => 0
  | _, _ => 3

/-- `InlinedFunction::diff_cost` (main/src/print/inlined_function.rs:119-154). Simplification: no
overflow (the sum of the step costs, which is larger, is checked in `listD`). -/
def inlinedCost (c : FnPair) (da db : Option Str) (a b : InlinedFunction) : Nat :=
  (inlinedOriginCost (c.a.fnAt a.origin) (c.b.fnAt b.origin) +
    (if a.callSource.path da = b.callSource.path db ∧ a.callSource.line = b.callSource.line ∧
      a.callSource.column = b.callSource.column then 0 else 1)) *
    (1 + (a.size.getD 0 + b.size.getD 0))

/-- `InlinedFunction::step_cost` (main/src/print/inlined_function.rs:112-115). -/
def inlinedStep (f : InlinedFunction) : Nat := 2 + 4 * f.size.getD 0

/-- `InlinedFunction::diff` (main/src/print/inlined_function.rs:64-106). -/
def inlinedD (o : Options) (c : FnPair) (da db : Option Str) : Nat → InlinedFunction → InlinedFunction → Option D
  | 0, _, _ => none
  | n + 1, f, g => do
    let params ← whenD o.printInlinedFunctionParameters
      ((paramsD o c f.parameters g.parameters).map (.field false (k "parameters")))
    let vars ← whenD o.printFunctionVariables
      ((localsD o c f.variables g.variables).map (.field true (k "variables")))
    let calls ← whenD o.printFunctionCalls
      ((callSitesD o c da db f.calls g.calls).map (.field true (k "call sites")))
    let inl ← listD c.heap (inlinedP o c.a da n) (inlinedP o c.b db n) (inlinedD o c da db n)
      inlinedStep inlinedStep (inlinedCost c da db) f.inlined g.inlined
    some (.indent true (.line [] (inlinedVal c.a f) (inlinedVal c.b g))
      (.seqs [if o.printSource then
          .line (k "call source") (sourceVal da f.callSource) (sourceVal db g.callSource) else .skip,
        params, vars, calls, .inline inl]))

/-! ### Calls found in the code -/

/-- `calls` (main/src/print/function.rs:415-423). -/
def fnCalls (s : FnSide) (f : Function) : Option (List (Nat × Nat)) := (f.ranges.mapM s.callsOf).map List.flatten

/-- `print_call` (main/src/print/function.rs:341-362). -/
def callVal (o : Options) (s : FnSide) (c : Nat × Nat) : Val :=
  .seq (if o.ignoreFunctionAddress then .nil else .text (k "0x" ++ hex c.1 ++ k " -> 0x" ++ hex c.2 ++ k " "))
    (match s.fnByAddress c.2 with
      | some f => fnRef (s.fnId f) f
      | none => match s.plt c.2 with
        | some p => .text p
        | none => if o.ignoreFunctionAddress then .text (k "0x" ++ hex c.2) else .nil)

/-- `Call::diff_cost` (main/src/print/function.rs:389-412). -/
def callCost (c : FnPair) (a b : Nat × Nat) : Nat :=
  match c.a.fnByAddress a.2, c.b.fnByAddress b.2 with
  | some f, some g => if fnSame f g then 0 else 1
  | none, none => 0
  | _, _ => 1

/-- `state.list` of calls (main/src/print/function.rs:248); `Call::diff` is 373-381, `step_cost`
385-387. -/
def callsD (o : Options) (c : FnPair) (la lb : List (Nat × Nat)) : Option D :=
  listD c.heap (fun x => some (.line [] (callVal o c.a x))) (fun x => some (.line [] (callVal o c.b x)))
    (fun x y => some (.line [] (callVal o c.a x) (callVal o c.b y))) (fun _ => 1) (fun _ => 1) (callCost c) la lb

/-! ### The stack frame -/

/-- `FrameVariable::diff` (main/src/print/function.rs:723-726). -/
def frameEntryD (c : FnPair) (a b : Option Int × Entry) : Option D := do
  let x ← unknownVal a
  let y ← unknownVal b
  some (.seq (.line [] x y) (.line [] (entryVal c.a.tref a.2) (entryVal c.b.tref b.2)))

/-- The diff of the stack frame (main/src/print/function.rs:226-230). -/
def frameD (c : FnPair) (da db : FunctionDetails) : Option D := do
  let va ← frameVariables c.a.tsz da
  let vb ← frameVariables c.b.tsz db
  ordListD (fun x y => Entry.cmp x.2 y.2) (printEntry c.a.tref) (printEntry c.b.tref) (frameEntryD c) va vb

/-! ### Functions -/

/-- `print_instructions` (main/src/print/function.rs:425-483), with the test of 430-433. -/
def instructionsP (s : FnSide) (f : Function) : Option P :=
  if f.ranges = [] then some .skip else s.insns f

/-- The address or addresses of a function (main/src/print/function.rs:103-109). -/
def rangesP (rs : List Range) : P :=
  if rs.length > 1 then .field true (k "addresses") (.seqs (rs.map fun r => .line [] (.text (rangeSizeText r))))
  else .line (k "address") (rangeVal rs.head?)

/-- The diff of the address or addresses (main/src/print/function.rs:172-187). -/
def rangesD (ra rb : List Range) : D :=
  if ra.length > 1 ∨ rb.length > 1 then
    .field true (k "addresses") (D.ofItems (fun r => .line [] (.text (rangeSizeText r)))
      (fun r => .line [] (.text (rangeSizeText r)))
      (fun x y => .line [] (.text (rangeSizeText x)) (.text (rangeSizeText y)))
      (merged cmpRange ra rb (ra.length + rb.length)))
  else .line (k "address") (rangeVal ra.head?) (rangeVal rb.head?)

/-- `print_body` (main/src/print/function.rs:97-142). -/
def fnBodyP (o : Options) (s : FnSide) (dir : Option Str) (n : Nat) (f : Function) : Option P := do
  let d := s.details f
  let frame ← whenP o.printFunctionStackFrame ((listing s.tsz s.tref d).map (.field true (k "stack frame")))
  let inl ← listP (inlinedP o s dir n) d.inlined
  let sites ← whenP o.printFunctionCalls ((callSitesP o s dir d.calls).map (.field true (k "call sites")))
  let calls ← whenP o.printFunctionCalls
    ((fnCalls s f).map fun l => .field true (k "calls") (.seqs (l.map fun x => .line [] (callVal o s x))))
  let insns ← whenP (o.printFunctionInstructions && !f.ranges.isEmpty)
    ((instructionsP s f).map (.fieldDetail (k "code") (k "instructions")))
  some (.seqs [.line (k "linkage name") (strVal f.linkageName), .line (k "symbol name") (strVal f.symbolName),
    sourceP o dir f.source, rangesP f.ranges, .line (k "size") (sizeVal f.size),
    .line (k "inline") (yesVal f.inline), .line (k "declaration") (yesVal f.declaration),
    .field false (k "return type") (.line [] (returnVal s.toSide f.returnType)),
    .field false (k "parameters") (paramsP o s d.parameters),
    if o.printFunctionVariables then .field true (k "variables") (localsP o s d.variables) else .skip,
    frame, .inline (.field true (k "inlined functions") inl), sites, calls, insns])

/-- `diff_body` (main/src/print/function.rs:148-261). -/
def fnBodyD (o : Options) (c : FnPair) (da db : Option Str) (n : Nat) (f g : Function) : Option D := do
  let x := c.a.details f
  let y := c.b.details g
  let params ← paramsD o c x.parameters y.parameters
  let vars ← whenD o.printFunctionVariables
    ((localsD o c x.variables y.variables).map (.field true (k "variables")))
  let frame ← whenD o.printFunctionStackFrame ((frameD c x y).map (.field true (k "stack frame")))
  let inl ← listD c.heap (inlinedP o c.a da n) (inlinedP o c.b db n) (inlinedD o c da db n)
    inlinedStep inlinedStep (inlinedCost c da db) x.inlined y.inlined
  let sites ← whenD o.printFunctionCalls
    ((callSitesD o c da db x.calls y.calls).map (.field true (k "call sites")))
  let calls ← whenD o.printFunctionCalls (do
    let la ← fnCalls c.a f
    let lb ← fnCalls c.b g
    (callsD o c la lb).map (.field true (k "calls")))
  let insns ← whenD o.printFunctionInstructions (do
    let p ← instructionsP c.a f
    let q ← instructionsP c.b g
    some (D.field true (k "instructions") (.ignoreDiff true (.block p q))))
  some (.seqs [
    .ignoreDiff o.ignoreFunctionLinkageName (.line (k "linkage name") (strVal f.linkageName) (strVal g.linkageName)),
    .ignoreDiff o.ignoreFunctionSymbolName (.line (k "symbol name") (strVal f.symbolName) (strVal g.symbolName)),
    sourceD o da f.source db g.source,
    .ignoreDiff o.ignoreFunctionAddress (rangesD f.ranges g.ranges),
    .ignoreDiff o.ignoreFunctionSize (.line (k "size") (sizeVal f.size) (sizeVal g.size)),
    .ignoreDiff o.ignoreFunctionInline (.line (k "inline") (yesVal f.inline) (yesVal g.inline)),
    .line (k "declaration") (yesVal f.declaration) (yesVal g.declaration),
    .field false (k "return type") (.line [] (returnVal c.a.toSide f.returnType) (returnVal c.b.toSide g.returnType)),
    .field false (k "parameters") params, vars, frame,
    .inline (.field true (k "inlined functions") inl), sites, calls, insns])

/-- `impl Print for Function`, `print` (main/src/print/function.rs:267-275) with `print_header`
(93-95). -/
def functionP (o : Options) (s : FnSide) (dir : Option Str) (n : Nat) (f : Function) : Option P := do
  let b ← fnBodyP o s dir n f
  some (.seq (.id (s.fnId f) (.line [] (fnName f)) b) .lineBreak)

/-- `Function::diff` (main/src/print/function.rs:277-291) with `diff_header` (144-146). `uid` is the
id of the old unit, which the code passes. -/
def functionD (o : Options) (c : FnPair) (uid : Nat) (da db : Option Str) (n : Nat) (f g : Function) : Option D := do
  let b ← fnBodyD o c da db n f g
  some (.seq (.id uid (.line [] (fnName f) (fnName g)) b) .lineBreak)

end Verif.Show
