import Verif.Dwarf.DieModel
/-!
# Model of the walk over a unit's entries and of the specification fixups
(`parser/src/file/dwarf.rs`)

Simplification: the code collects the members of a struct and the parameters of a function in the
same pass over the children in which it visits nested entries; here these are separate passes over
the same children (`structMembers`, `addParams`).
-/
namespace Verif.Dwarf
open Verif.Item Verif.Types Verif.Namespace Verif.Range Verif.Sentinel

/-- `Namespace::new` (parser/src/namespace.rs:24-34). -/
def newNs (parent : Option Namespace) (name : Option Str) (kind : NamespaceKind) : Option Namespace :=
  match parent with
  | some p => some (.child p name kind)
  | none => some (.root name kind)

/-- `DwarfSubprogram` (parser/src/file/dwarf.rs:392-397). The entry stands for its offset. -/
structure Deferred where
  die : Die
  specification : Nat
  abstractOrigin : Bool
  function : Function

/-- `DwarfVariable` (parser/src/file/dwarf.rs:399-403). -/
structure DeferredVar where
  offset : Nat
  specification : Option Nat
  var : Variable

/-- The vectors of the unit and the deferred entries. -/
structure Acc where
  functions : List Function := []
  variables : List Variable := []
  types : List TypeEntry := []
  subs : List Deferred := []
  vars : List DeferredVar := []

/-- The function whose `match` on tags applies to a list of entries: `parse_namespace_children`,
`parse_structure_type` and `parse_union_type`, `parse_enumeration_type`, `parse_subprogram_children`
and `parse_lexical_block`, `parse_variant_part`, `parse_variant`. -/
inductive Ctx
  | unit | type | union_ | enum | func | variantPart | variant
deriving DecidableEq, Repr

/-- `unit.types.push` (parser/src/file/dwarf.rs:948). -/
def Acc.addType (acc : Acc) (d : Die) (kind : Ty) : Acc := { acc with types := acc.types ++ [⟨some d.offset, kind⟩] }

/-- The variable cases of `parse_namespace_children` (parser/src/file/dwarf.rs:794-802). -/
def Acc.addVariable (acc : Acc) (ns : Option Namespace) (d : Die) : Acc :=
  match ownVariable ns d with
  | (v, some s) => { acc with vars := acc.vars ++ [⟨d.offset, some s, v⟩] }
  | (v, none) => { acc with variables := acc.variables ++ [v] }

/-- A static data member (parser/src/file/dwarf.rs:1618-1631). -/
def Acc.addMember (acc : Acc) (env : Env) (ns : Option Namespace) (d : Die) : Acc :=
  if (memberState env d).declaration then { acc with variables := acc.variables ++ [(ownVariable ns d).1] } else acc

/-- The function with the parameters found among its children, as stored. -/
def finishFunction (f : Function) (d : Die) : Function := { f with parameters := addParams f.parameters d.children }

mutual
/-- One entry: `parse_namespace_children` (parser/src/file/dwarf.rs:770-820) and `parse_namespace`
(824-863), the children of `parse_structure_type` (1252-1299), `parse_union_type` (1349-1380),
`parse_enumeration_type` (1818-1836), `parse_variant_part` (1414-1436) and `parse_variant` (1471-1495),
`parse_subprogram_children` (2431-2487) and `parse_lexical_block` (2707-2758); with `parse_subprogram`
(2357-2377) and `parse_type` (891-950). -/
def walk (env : Env) : Ctx → Option Namespace → Die → Acc → Acc
  | ctx, ns, .node o tag attrs cs, acc =>
    match ctx, tag with
    | .variantPart, .member => acc.addMember env ns (.node o tag attrs cs)
    | .variantPart, .variant => walkAll env .variant ns cs acc
    | .variantPart, _ => acc
    | .variant, .member => acc.addMember env ns (.node o tag attrs cs)
    | .variant, _ => acc
    | _, .subprogram =>
      let s := subState env.lowPc ns (.node o tag attrs cs)
      let f := subRanges s
      match s.specification with
      | some spec => { acc with subs := acc.subs ++ [⟨.node o tag attrs cs, spec, s.abstractOrigin, f⟩] }
      | none =>
        let acc := walkAll env .func (newNs f.ns f.name .function) cs acc
        { acc with functions := acc.functions ++ [finishFunction f (.node o tag attrs cs)] }
    | .enum, _ => acc
    | .unit, .namespace_ => walkAll env .unit (newNs ns (Die.node o tag attrs cs).nameAttr .namespace_) cs acc
    | .unit, .variable => acc.addVariable ns (.node o tag attrs cs)
    | .type, .member => acc.addMember env ns (.node o tag attrs cs)
    | .type, .variantPart => walkAll env .variantPart ns cs acc
    | .union_, .member => acc.addMember env ns (.node o tag attrs cs)
    | .func, .lexicalBlock => walkAll env .func ns cs acc
    | _, .baseType =>
      acc.addType (.node o tag attrs cs) (.base (Die.node o tag attrs cs).nameAttr ((Die.node o tag attrs cs).sizeAttr Opt64.none))
    | _, .typedef =>
      acc.addType (.node o tag attrs cs) (.def_ ns (Die.node o tag attrs cs).nameAttr (Die.node o tag attrs cs).typeAttr)
    | _, .structure_ =>
      (walkAll env .type (newNs ns (Die.node o tag attrs cs).nameAttr .type) cs acc).addType (.node o tag attrs cs)
        (ownStruct env ns (.node o tag attrs cs))
    | _, .union_ =>
      (walkAll env .union_ (newNs ns (Die.node o tag attrs cs).nameAttr .type) cs acc).addType (.node o tag attrs cs)
        (ownUnion env ns (.node o tag attrs cs))
    | _, .enumeration =>
      (walkAll env .enum (newNs ns (Die.node o tag attrs cs).nameAttr .type) cs acc).addType (.node o tag attrs cs)
        (ownEnum ns (.node o tag attrs cs))
    | _, .unspecified => acc.addType (.node o tag attrs cs) (.unspecified ns (Die.node o tag attrs cs).nameAttr)
    | _, _ => acc
/-- A list of entries, in order. -/
def walkAll (env : Env) : Ctx → Option Namespace → List Die → Acc → Acc
  | _, _, [], acc => acc
  | ctx, ns, d :: ds, acc => walkAll env ctx ns ds (walk env ctx ns d acc)
end

/-! ### Ordered maps -/

/-- `BTreeMap::insert`: entries in increasing order of the key, the last value inserted wins. -/
def mapInsert (k : Nat) (v : β) : List (Nat × β) → List (Nat × β)
  | [] => [(k, v)]
  | (k', v') :: m => if k < k' then (k, v) :: (k', v') :: m else if k = k' then (k, v) :: m else (k', v') :: mapInsert k v m

/-- `BTreeMap::get`. -/
def mapGet (k : Nat) : List (Nat × β) → Option β
  | [] => none
  | (k', v) :: m => if k = k' then some v else mapGet k m

/-- The number in an offset (`FunctionOffset`, `VariableOffset`). -/
def rawOffset (o : Option Nat) : Nat := o.getD (2 ^ 64 - 1)

/-- Moving functions into the map (parser/src/file/dwarf.rs:626-628, 655-657, 683-685). -/
def drain (functions : List (Nat × Function)) (fs : List Function) : List (Nat × Function) :=
  fs.foldl (fun m f => mapInsert (rawOffset f.offset) f m) functions

/-! ### Fixups -/

/-- The state of `fixup_subprogram_specifications`: the map, and the vectors (where `subs` is the
vector `subprograms`). -/
structure Fix where
  functions : List (Nat × Function)
  acc : Acc
  progress : Bool := false

/-- Parsing the children of a deferred function and storing it
(parser/src/file/dwarf.rs:643-657, 671-685). -/
def storeSub (env : Env) (s : Fix) (d : Deferred) (f : Function) : Fix :=
  let acc := walkAll env .func (newNs f.ns f.name .function) d.die.children s.acc
  let functions := mapInsert d.die.offset (finishFunction f d.die) s.functions
  { s with functions := drain functions acc.functions, acc := { acc with functions := [] } }

/-- One iteration of the first inner loop (parser/src/file/dwarf.rs:636-662). -/
def resolveSub (env : Env) (s : Fix) (d : Deferred) : Fix :=
  match mapGet d.specification s.functions with
  | some spec => { storeSub env s d (inheritSub d.function spec d.abstractOrigin) with progress := true }
  | none => { s with acc := { s.acc with subs := s.acc.subs ++ [d] } }

/-- One iteration of the outer loop (parser/src/file/dwarf.rs:632-689). -/
def fixRound (env : Env) (s : Fix) : Fix :=
  let s' := s.acc.subs.foldl (resolveSub env) { s with acc := { s.acc with subs := [] }, progress := false }
  if s'.progress then s'
  else s'.acc.subs.foldl (fun s d => storeSub env s d d.function) { s' with acc := { s'.acc with subs := [] } }

/-- The outer loop, cut off after `n` iterations (`none`). -/
def fixSubs (env : Env) : Nat → Fix → Option Fix
  | n, s =>
    if s.acc.subs.isEmpty then some s
    else match n with
      | 0 => none
      | n + 1 => fixSubs env n (fixRound env s)

/-- One iteration of the inner loop of `fixup_variable_specifications`
(parser/src/file/dwarf.rs:715-738): the map, `defer`, `progress`. -/
def resolveVar (s : List (Nat × Variable) × List DeferredVar × Bool) (v : DeferredVar) :
    List (Nat × Variable) × List DeferredVar × Bool :=
  match v.specification.bind fun o => mapGet o s.1 with
  | some spec => (mapInsert v.offset (inheritVar v.var spec) s.1, s.2.1, true)
  | none => (s.1, s.2.1 ++ [v], s.2.2)

/-- The loop of `fixup_variable_specifications` (parser/src/file/dwarf.rs:711-752), cut off after
`n` iterations. In the branch without progress the code drains `variables`, which is empty. -/
def fixVars : Nat → List (Nat × Variable) → List DeferredVar → Option (List (Nat × Variable))
  | 0, _, _ => none
  | n + 1, m, vars =>
    match vars.foldl resolveVar (m, [], false) with
    | (m, defer, progress) =>
      if defer.isEmpty then some m
      else if progress then fixVars n m defer
      else some (([] : List DeferredVar).foldl (fun m v => mapInsert v.offset v.var m) m)

/-- The parsed contents of a unit. -/
structure UnitItems where
  functions : List Function
  variables : List Variable
  types : List TypeEntry

/-- The end of `parse_unit` (parser/src/file/dwarf.rs:588-608), with
`fixup_subprogram_specifications` (625-692) and `fixup_variable_specifications` (705-755): `none` if
the loops have not ended after `n` iterations. -/
def parseItems (env : Env) (n : Nat) (root : List Die) : Option UnitItems :=
  let acc := walkAll env .unit none root {}
  match fixSubs env n { functions := drain [] acc.functions, acc := { acc with functions := [] } } with
  | none => none
  | some s =>
    (fixVars n (s.acc.variables.foldl (fun m v => mapInsert (rawOffset v.offset) v m) []) s.acc.vars).map fun vars =>
      { functions := s.functions.map (·.2), variables := vars.map (·.2), types := s.acc.types }

end Verif.Dwarf
