import Verif.Dwarf.BoundsModel
/-!
# Model of call sites (`parser/src/file/dwarf.rs:3372-3575, 4191-4245`)

`none` is a panic in the evaluation of a location expression (see `EvalModel`); `Result` errors
(undecodable data) are left out.
-/
namespace Verif.Dwarf
open Verif.Item Verif.Types Verif.Namespace Verif.Range Verif.Sentinel Verif.File

/-- What the code looks up by offset: an entry, with the address size of its unit (`entry`, `tree`,
parser/src/file/dwarf.rs:293-315), and the functions and variables of the `FileHash`
(`Function::from_offset`, parser/src/function.rs:88-96; `Variable::from_offset`,
parser/src/variable.rs:61-69). -/
structure Lookup where
  entry : Nat → Option (Nat × Die)
  functions : Nat → Option Function := fun _ => none
  variables : Nat → Option Variable := fun _ => none

instance : CoeFun Lookup fun _ => Nat → Option (Nat × Die) := ⟨Lookup.entry⟩

/-- `parse_function_call_origin_offset` (parser/src/file/dwarf.rs:4191-4245). -/
def callOrigin (lk : Lookup) (v : Val) : Option CallOrigin :=
  v.offset.bind fun o =>
    match lk o with
    | none => none
    | some (_, d) =>
      match d.tag with
      | .subprogram => (lk.functions o).map .direct
      | .variable =>
        match lk.variables o with
        | some v => some (.indirect (.variable_ v))
        | none => some (.indirect (.localVariable (some o)))
      | .formalParameter => some (.indirect (.parameter (some o)))
      | .member => some (.indirect (.member (some o)))
      | _ => none

/-- An expression of a call site or of one of its parameters
(parser/src/file/dwarf.rs:3402-3411, 3489-3535). -/
def callExpr {σ : Type} (asz : Nat) (store : List Piece → σ) (old : σ) : Val → Option σ
  | .exprloc _ e =>
    (evaluateSimple asz e).map fun r =>
      match r with
      | some l => store l
      | none => old
  | _ => some old

/-- The attribute loop of `parse_call_site_parameter` (parser/src/file/dwarf.rs:3487-3553): the
parameter and its abstract origin. -/
def callParamAttr (asz : Nat) (s : CallParameter × Option Nat) : At × Val → Option (CallParameter × Option Nat)
  | (.location, v) => callExpr asz (fun l => ({ s.1 with location := l }, s.2)) s v
  | (.call .value, v) => callExpr asz (fun l => ({ s.1 with value := l }, s.2)) s v
  | (.call .dataLocation, v) => callExpr asz (fun l => ({ s.1 with dataLocation := l }, s.2)) s v
  | (.call .dataValue, v) => callExpr asz (fun l => ({ s.1 with dataValue := l }, s.2)) s v
  | (.call .parameter, v) =>
    match v.offset with
    | some o => some (s.1, some o)
    | none => some s
  | (.abstractOrigin, v) =>
    match v.offset with
    | some o => some (s.1, some o)
    | none => some s
  | (.name, v) => some ({ s.1 with name := v.str }, s.2)
  | (.type, v) =>
    match v.offset with
    | some o => some ({ s.1 with ty := some (some o) }, s.2)
    | none => some s
  | _ => some s

/-- The loop over the attributes of the abstract origin (parser/src/file/dwarf.rs:3558-3570). -/
def callOriginAttr (p : CallParameter) : At × Val → CallParameter
  | (.name, v) => { p with name := v.str }
  | (.type, v) =>
    match v.offset with
    | some o => { p with ty := some (some o) }
    | none => p
  | _ => p

/-- `parse_call_site_parameter` (parser/src/file/dwarf.rs:3475-3575). -/
def parseCallParam (lk : Lookup) (asz : Nat) (d : Die) : Option CallParameter :=
  (d.attrs.foldlM (callParamAttr asz) ({}, none)).map fun s =>
    match s.2.bind lk.entry with
    | some (_, e) => e.attrs.foldl callOriginAttr s.1
    | none => s.1

/-- The attribute loop of `parse_call_site` (parser/src/file/dwarf.rs:3386-3457). -/
def callAttr (lk : Lookup) (asz : Nat) (gnu : Bool) (s : FunctionCall) : At × Val → Option FunctionCall
  | (.call .origin, v) =>
    match callOrigin lk v with
    | some o => some { s with origin := some o }
    | none => some s
  | (.abstractOrigin, v) =>
    match callOrigin lk v with
    | some o => some { s with origin := some o }
    | none => some s
  | (.call .tail, _) => some { s with kind := .tail }
  | (.call (.target clobbered), v) =>
    (callExpr asz (fun l => { s with target := l }) s v).map fun s =>
      if clobbered then { s with targetIsClobbered := true } else s
  | (.lowPc, v) =>
    if gnu then
      match v.addr with
      | some a => some { s with returnAddress := some a }
      | none => some s
    else some s
  | (.call .returnPc, v) => some { s with returnAddress := v.addr }
  | (.call .pc, v) => some { s with callAddress := v.addr }
  | (.type, v) =>
    match v.offset with
    | some o => some { s with ty := some (some o) }
    | none => some s
  | (.callFile, v) => some { s with source := sourceFile s.source v }
  | (.callLine, v) => some { s with source := sourceLine s.source v }
  | (.callColumn, v) => some { s with source := sourceColumn s.source v }
  | _ => some s

/-- `parse_call_site` (parser/src/file/dwarf.rs:3372-3473): the call it adds. -/
def parseCall (lk : Lookup) (asz : Nat) (gnu : Bool) (d : Die) : Option FunctionCall :=
  (d.attrs.foldlM (callAttr lk asz gnu) {}).bind fun c =>
    ((d.children.filter fun x => x.tag = .callSiteParameter).mapM (parseCallParam lk asz)).map fun ps =>
      { c with parameters := ps }

end Verif.Dwarf
