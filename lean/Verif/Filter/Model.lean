import Verif.Opts.Model
/-!
# Model of `main/src/filter.rs`
-/
namespace Verif.Filter
open Verif.Item Verif.Opts Verif.Types Verif.Namespace

/-- `filter_unit` (main/src/filter.rs:33-41). -/
def okUnit (o : Options) (u : CompUnit) : Bool :=
  match o.filterUnit with
  | some f =>
    let (pre, suf) := o.mapPrefix (u.name.getD [])
    compare (pre ++ suf) f == .eq
  | none => true

/-- `filter_units` (main/src/filter.rs:11-19). -/
def filterUnits (us : List CompUnit) (o : Options) : List CompUnit := us.filter (okUnit o)

/-- `iter().enumerate().filter(|a| p(a.1))` (main/src/filter.rs:25-29, 86-90, 107-111,
128-132). -/
def enumFilter {α : Type} (p : α → Bool) (l : List α) : List (Nat × α) :=
  (l.zipIdx.map fun (a, i) => (i, a)).filter fun a => p a.2

/-- `enumerate_and_filter_units` (main/src/filter.rs:21-30). -/
def enumFilterUnits (us : List CompUnit) (o : Options) : List (Nat × CompUnit) := enumFilter (okUnit o) us

/-- `Member::is_inline` (parser/src/types.rs:981-995). -/
def memberInline (h : Hash) (m : Member) : Bool :=
  match m.name with
  | some s =>
    if (k "RUST$ENCODED$ENUM$").isPrefixOf s then true
    else match fromOffset h m.ty with
      | some ty => ty.isAnon
      | none => false
  | none => true

/-- `inline_types` (main/src/filter.rs:44-62); the `HashSet` is the list of its insertions. -/
def inlineTypes (h : Hash) (u : CompUnit) : List TypeOffset :=
  u.types.flatMap fun t =>
    (if t.kind.isAnon && t.offset.isSome then [t.offset] else []) ++
    t.kind.members.filterMap fun m =>
      if memberInline h m && m.ty.isSome then some m.ty else none

/-- The first `match` of `filter_type` with `filter_base`, `filter_type_def`, `filter_struct`,
`filter_union`, `filter_enumeration`, `filter_unspecified`
(main/src/filter.rs:161-177, 203-225). -/
def okTypeOptions (o : Options) : Ty → Bool
  | .base name _ => o.okName name && o.okNamespace none
  | .def_ ns name _ => o.okName name && o.okNamespace ns
  | .struct_ ns name _ _ _ _ => o.okName name && o.okNamespace ns
  | .union_ ns name _ _ => o.okName name && o.okNamespace ns
  | .enum_ ns name _ _ => o.okName name && o.okNamespace ns
  | .unspecified ns name => o.okName name && o.okNamespace ns
  | .void | .array .. | .function .. | .pointerToMember .. | .modifier .. | .subrange .. =>
    o.filterName.isNone

/-- The second `match` of `filter_type` (main/src/filter.rs:178-198). -/
def okTypeKind (diff : Bool) : Ty → Bool
  | .struct_ _ name _ _ _ _ => !(diff && name == some (k "closure"))
  | .base .. | .def_ .. | .union_ .. | .enum_ .. => true
  | .void | .array .. | .function .. | .unspecified .. | .pointerToMember .. | .modifier ..
  | .subrange .. => false

/-- `filter_type` (main/src/filter.rs:155-201). -/
def okType (o : Options) (diff : Bool) (inl : List TypeOffset) (t : TypeEntry) : Bool :=
  if !okTypeOptions o t.kind then false
  else if !okTypeKind diff t.kind then false
  else t.offset.isSome && !inl.contains t.offset

/-- `filter_types` (main/src/filter.rs:66-77). -/
def filterTypes (h : Hash) (u : CompUnit) (o : Options) (diff : Bool) : List TypeEntry :=
  u.types.filter (okType o diff (inlineTypes h u))

/-- `enumerate_and_filter_types` (main/src/filter.rs:79-91). -/
def enumFilterTypes (h : Hash) (u : CompUnit) (o : Options) (diff : Bool) : List (Nat × TypeEntry) :=
  enumFilter (okType o diff (inlineTypes h u)) u.types

/-- `filter_function` (main/src/filter.rs:135-145). -/
def okFunction (o : Options) (f : Function) : Bool :=
  if !f.inline && (f.address.isNone || f.size.isNone) then false
  else o.okName f.name && o.okNamespace f.ns && o.okInline f.inline

/-- `filter_functions` (main/src/filter.rs:93-101). -/
def filterFunctions (u : CompUnit) (o : Options) : List Function := u.functions.filter (okFunction o)

/-- `enumerate_and_filter_functions` (main/src/filter.rs:103-112). -/
def enumFilterFunctions (u : CompUnit) (o : Options) : List (Nat × Function) :=
  enumFilter (okFunction o) u.functions

/-- `filter_variable` (main/src/filter.rs:147-153). -/
def okVariable (o : Options) (v : Variable) : Bool :=
  if !v.declaration && v.address.isNone then false
  else o.okName v.name && o.okNamespace v.ns

/-- `filter_variables` (main/src/filter.rs:114-122). -/
def filterVariables (u : CompUnit) (o : Options) : List Variable := u.variables.filter (okVariable o)

/-- `enumerate_and_filter_variables` (main/src/filter.rs:124-133). -/
def enumFilterVariables (u : CompUnit) (o : Options) : List (Nat × Variable) :=
  enumFilter (okVariable o) u.variables

end Verif.Filter
