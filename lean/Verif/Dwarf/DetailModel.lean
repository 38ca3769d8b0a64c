import Verif.Dwarf.CallModel
/-!
# Model of the details of a function (`parser/src/file/dwarf.rs:2573-2678, 2831-3154, 3248-3370`)

Parameters, local variables and inlined calls, parsed on demand. `none` is a panic in the evaluation
of a location expression (see `EvalModel`); `Result` errors (undecodable data) are left out. Call
sites are in `CallModel`.
-/
namespace Verif.Dwarf
open Verif.Item Verif.Types Verif.Namespace Verif.Range Verif.Sentinel Verif.File

/-! ### Parameters -/

/-- A `DW_AT_location` of a parameter (parser/src/file/dwarf.rs:2603-2624). `asz` is the address
size of the unit. -/
def paramLocation (asz : Nat) (p : Parameter) : Val → Option Parameter
  | .exprloc _ e => parameterLocation asz Range.all e p
  | .loclist _ es => es.foldlM (fun p re => parameterLocation asz re.1 re.2 p) p
  | _ => some p

/-- The attribute loop of `parse_parameter` (parser/src/file/dwarf.rs:2588-2639): the parameter and
its abstract origin. -/
def detParamAttr (asz : Nat) (s : Parameter × Option Nat) : At × Val → Option (Parameter × Option Nat)
  | (.abstractOrigin, v) =>
    match v.offset with
    | some o => some (s.1, some o)
    | none => some s
  | (.name, v) => some ({ s.1 with name := v.str }, s.2)
  | (.type, v) =>
    match v.offset with
    | some o => some ({ s.1 with ty := some o }, s.2)
    | none => some s
  | (.location, v) => (paramLocation asz s.1 v).map fun p => (p, s.2)
  | _ => some s

/-- The parameter an entry describes, and its abstract origin (parser/src/file/dwarf.rs:2582-2639). -/
def ownDetParam (asz : Nat) (d : Die) : Option (Parameter × Option Nat) :=
  d.attrs.foldlM (detParamAttr asz) ({ offset := some d.offset }, none)

/-- The update of the parameter found (parser/src/file/dwarf.rs:2654-2662). -/
def overrideDetParam (p new : Parameter) : Parameter :=
  { p with
    name := if new.name.isSome then new.name else p.name
    ty := if new.ty.isSome then new.ty else p.ty
    locations := p.locations ++ new.locations }

/-- `parse_parameter` (parser/src/file/dwarf.rs:2573-2678). -/
def addDetParam (asz : Nat) (ps : List Parameter) (d : Die) : Option (List Parameter) :=
  (ownDetParam asz d).map fun r =>
    match r.2 with
    | some origin => (updateFirst (fun x => x.offset = some origin) (fun x => overrideDetParam x r.1) ps).getD (ps ++ [r.1])
    | none => ps ++ [r.1]

/-! ### Local variables -/

/-- A `DW_AT_location` of a local variable (parser/src/file/dwarf.rs:3283-3310). -/
def varLocation (asz : Nat) (v : LocalVariable) : Val → Option LocalVariable
  | .exprloc _ e => localVariableLocation asz Range.all e v
  | .loclist _ es => es.foldlM (fun v re => localVariableLocation asz re.1 re.2 v) v
  | _ => some v

/-- The attribute loop of `parse_local_variable` (parser/src/file/dwarf.rs:3263-3322). -/
def detVarAttr (asz : Nat) (s : LocalVariable × Option Nat) : At × Val → Option (LocalVariable × Option Nat)
  | (.abstractOrigin, v) =>
    match v.offset with
    | some o => some (s.1, some o)
    | none => some s
  | (.name, v) => some ({ s.1 with name := v.str }, s.2)
  | (.type, v) =>
    match v.offset with
    | some o => some ({ s.1 with ty := some o }, s.2)
    | none => some s
  | (.declFile, v) => some ({ s.1 with source := sourceFile s.1.source v }, s.2)
  | (.declLine, v) => some ({ s.1 with source := sourceLine s.1.source v }, s.2)
  | (.declColumn, v) => some ({ s.1 with source := sourceColumn s.1.source v }, s.2)
  | (.location, v) => (varLocation asz s.1 v).map fun x => (x, s.2)
  | _ => some s

/-- The local variable an entry describes, and its abstract origin
(parser/src/file/dwarf.rs:3257-3322). -/
def ownDetVar (asz : Nat) (d : Die) : Option (LocalVariable × Option Nat) :=
  d.attrs.foldlM (detVarAttr asz) ({ offset := some d.offset }, none)

/-- The update of the variable found (parser/src/file/dwarf.rs:3336-3354). -/
def overrideDetVar (v new : LocalVariable) : LocalVariable :=
  { v with
    name := if new.name.isSome then new.name else v.name
    ty := if new.ty.isSome then new.ty else v.ty
    source := if new.source.file.isSome then new.source else v.source
    address := if new.address.isSome then new.address else v.address
    size := if new.size.isSome then new.size else v.size
    locations := v.locations ++ new.locations }

/-- `parse_local_variable` (parser/src/file/dwarf.rs:3248-3370). -/
def addDetVar (asz : Nat) (vs : List LocalVariable) (d : Die) : Option (List LocalVariable) :=
  (ownDetVar asz d).map fun r =>
    match r.2 with
    | some origin => (updateFirst (fun x => x.offset = some origin) (fun x => overrideDetVar x r.1) vs).getD (vs ++ [r.1])
    | none => vs ++ [r.1]

/-! ### Abstract functions -/

mutual
/-- One entry of `parse_abstract_subprogram` (parser/src/file/dwarf.rs:3110-3125), if `top`, or of
`parse_abstract_lexical_block` (3140-3152). -/
def absWalk (asz : Nat) (top : Bool) : Die → List Parameter × List LocalVariable → Option (List Parameter × List LocalVariable)
  | .node o tag attrs cs, s =>
    match tag with
    | .formalParameter => if top then (addDetParam asz s.1 (.node o tag attrs cs)).map fun ps => (ps, s.2) else some s
    | .variable => (addDetVar asz s.2 (.node o tag attrs cs)).map fun vs => (s.1, vs)
    | .lexicalBlock => absWalkAll asz false cs s
    | _ => some s
/-- A list of entries, in order. -/
def absWalkAll (asz : Nat) (top : Bool) : List Die → List Parameter × List LocalVariable → Option (List Parameter × List LocalVariable)
  | [], s => some s
  | d :: ds, s => (absWalk asz top d s).bind (absWalkAll asz top ds)
end

/-- `parse_abstract_subprogram` (parser/src/file/dwarf.rs:3096-3127) for an abstract origin, if there
is one (parser/src/file/dwarf.rs:2860-2869, 3007-3019). -/
def abstractStart (lk : Lookup) : Option Nat → Option (List Parameter × List LocalVariable)
  | none => some ([], [])
  | some o =>
    match lk o with
    | some (asz, d) => absWalkAll asz true d.children ([], [])
    | none => some ([], [])

/-! ### Inlined calls -/

/-- The local variables of the attribute loop of `parse_inlined_subroutine_details`
(parser/src/file/dwarf.rs:2969-2973). -/
structure InlState where
  origin : Option Nat := none
  callSource : Source := {}
  lowPc : Option Nat := none
  highPc : Option Nat := none
  size : Option Nat := none
  ranges : Option (List Range) := none

/-- The attribute loop of `parse_inlined_subroutine_details` (parser/src/file/dwarf.rs:2974-3005). -/
def inlAttr (s : InlState) : At × Val → InlState
  | (.abstractOrigin, v) =>
    match v.offset with
    | some o => { s with origin := some o }
    | none => s
  | (.lowPc, v) => { s with lowPc := v.addr }
  | (.highPc, .udata n) => { s with size := some n }
  | (.highPc, v) => { s with highPc := v.addr }
  | (.ranges, v) => { s with ranges := v.rangesOf }
  | (.callFile, v) => { s with callSource := sourceFile s.callSource v }
  | (.callLine, v) => { s with callSource := sourceLine s.callSource v }
  | (.callColumn, v) => { s with callSource := sourceColumn s.callSource v }
  | _ => s

/-- The size and the ranges of an inlined call (parser/src/file/dwarf.rs:3021-3052). -/
def inlRanges (s : InlState) : Option Nat × List Range :=
  match s.ranges with
  | some rs =>
    let rs := rs.filter fun r => r.hi > r.lo
    (optNew ((rs.map fun r => r.hi - r.lo).sum % 2 ^ 64), rs)
  | none =>
    match s.size with
    | some size =>
      (optNew size, match s.lowPc with
        | some lowPc => [⟨lowPc, (lowPc + size) % 2 ^ 64⟩]
        | none => [])
    | none =>
      match s.lowPc, s.highPc with
      | some lowPc, some highPc =>
        (optNew ((highPc + 2 ^ 64 - lowPc) % 2 ^ 64), if highPc > lowPc then [⟨lowPc, highPc⟩] else [])
      | _, _ => (none, [])

/-- The attributes of an inlined call (parser/src/file/dwarf.rs:2969-3005). -/
def inlState (d : Die) : InlState := d.attrs.foldl inlAttr {}

/-- The record of an inlined call, given what its children add (parser/src/file/dwarf.rs:2960-3094). -/
def inlRecord (d : Die) (r : FunctionDetails) : InlinedFunction :=
  .mk (inlState d).origin (inlRanges (inlState d)).1 (inlRanges (inlState d)).2 r.parameters r.variables r.inlined r.calls
    (inlState d).callSource

mutual
/-- One entry of `parse_subprogram_details` (parser/src/file/dwarf.rs:2871-2907) or
`parse_inlined_subroutine_details` (3054-3092), if `top`, or of `parse_lexical_block_details`
(2925-2956). -/
def detWalk (lk : Lookup) (asz : Nat) (top : Bool) : Die → FunctionDetails → Option FunctionDetails
  | .node o tag attrs cs, s =>
    match tag with
    | .formalParameter =>
      if top then (addDetParam asz s.parameters (.node o tag attrs cs)).map fun ps => { s with parameters := ps } else some s
    | .variable => (addDetVar asz s.variables (.node o tag attrs cs)).map fun vs => { s with variables := vs }
    | .inlinedSubroutine =>
      (abstractStart lk (inlState (.node o tag attrs cs)).origin).bind fun a =>
        (detWalkAll lk asz true cs { parameters := a.1, variables := a.2 }).map fun r =>
          { s with inlined := s.inlined ++ [inlRecord (.node o tag attrs cs) r] }
    | .lexicalBlock => detWalkAll lk asz false cs s
    | .callSite gnu => (parseCall lk asz gnu (.node o tag attrs cs)).map fun c => { s with calls := s.calls ++ [c] }
    | _ => some s
/-- A list of entries, in order. -/
def detWalkAll (lk : Lookup) (asz : Nat) (top : Bool) : List Die → FunctionDetails → Option FunctionDetails
  | [], s => some s
  | d :: ds, s => (detWalk lk asz top d s).bind (detWalkAll lk asz top ds)
end

/-- The abstract origin of a function entry (parser/src/file/dwarf.rs:2840-2852). -/
def Die.originAttr (d : Die) : Option Nat :=
  d.attrs.foldl (fun s av => if av.1 = .abstractOrigin then (match av.2.offset with | some o => some o | none => s) else s) none

/-- `parse_subprogram_details` (parser/src/file/dwarf.rs:2831-2909). -/
def parseDetails (lk : Lookup) (asz : Nat) (d : Die) : Option FunctionDetails :=
  (abstractStart lk d.originAttr).bind fun a =>
    detWalkAll lk asz true d.children { parameters := a.1, variables := a.2 }

/-- `entry`, `tree` and `function_tree` (parser/src/file/dwarf.rs:293-343) for the entries of a file,
and the functions and variables of its `FileHash`; `us` are its parsed units. -/
def fileLookup (units : List RawUnit) (us : List CompUnit) : Lookup where
  entry o := (entryAt units o).map fun p => (p.1.addressSize, p.2)
  functions o := functionFromOffset us (some o)
  variables o := variableFromOffset us (some o)

/-- `Function::details` (parser/src/function.rs:187-189): `File::get_function_details`
(parser/src/file/mod.rs:197-205), `DebugInfo::get_function_details` (48-56) and
`DwarfDebugInfo::get_function_details` (parser/src/file/dwarf.rs:361-369). -/
def getDetails (units : List RawUnit) (us : List CompUnit) : Option Nat → Option FunctionDetails
  | none => some {}
  | some o =>
    match entryAt units o with
    | some (u, d) => parseDetails (fileLookup units us) u.addressSize d
    | none => some {}

end Verif.Dwarf
