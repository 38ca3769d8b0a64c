import Verif.Types.Model
import Verif.Item.Model
import Verif.Opts.Model
import Verif.Merge.Model
import Verif.Sort
/-!
# Model of the orders in which items are listed and paired

`SortList` for `Type`, `Function`, `Variable` and `Unit` (`main/src/print/*.rs`), the two
`sort_list` functions, and `merged_types`, `merged_functions`, `merged_variables`,
`merged_units`. Comparing types may fail to return on cyclic types, so a comparison has a fuel
argument `n` and a result in `Res` as in `Verif.Types`; `debug_assert_ne!` is taken as compiled
out (release build, see C63).
-/
namespace Verif.Order
open Verif.Types Verif.Item Verif.Opts Verif.Merge Verif.Namespace

/-- `slice::sort_by` (library) with a comparison that may not return: `none` if some comparison of
two elements does not return. Simplification: the library sort compares only some of the pairs. -/
def sortWith (r : α → α → Res Ordering) (l : List α) : Option (List α) :=
  if l.all (fun x => l.all fun y => r x y != .diverge && r x y != .panic) then
    some (stableSort (fun x y => r x y != .ok .gt) l)
  else none

/-- The ordering in a result. -/
def theOrd : Res Ordering → Ordering
  | .ok o => o
  | _ => .eq

/-- Iterating `MergeIterator::new(l, r, cmp)` to the end (main/src/print/mod.rs:998-1048) with a
comparison that may not return. Simplification as in `sortWith`. -/
def mergeWith (r : α → β → Res Ordering) (l : List α) (l' : List β) :
    Option (List (MergeResult α β)) :=
  if l.all (fun x => l'.all fun y => r x y != .diverge && r x y != .panic) then
    some (merged (fun x y => theOrd (r x y)) l l' (l.length + l'.length))
  else none

/-- `<Type as SortList>::cmp_by` (main/src/print/types.rs:316-328). -/
def typeCmpBy (o : Options) (n : Nat) (a : TypeEntry) (ha : Hash) (b : TypeEntry) (hb : Hash) :
    Res Ordering :=
  match o.sort with
  | .none => .ok (cmpNoneLast a.offset b.offset)
  | .name => cmpId false n ha a.kind hb b.kind
  | .size => (byteSize n ha a.kind).bind fun x => (byteSize n hb b.kind).bind fun y =>
      .ok (compare x y)

/-- `Function::cmp_id` (parser/src/function.rs:197-204). -/
def functionCmpId (a b : Function) : Ordering := Namespace.cmpNsAndName a.ns a.name b.ns b.name

/-- `<Function as SortList>::cmp_id_for_sort` (main/src/print/function.rs:303-323). -/
def functionCmpIdForSort (n : Nat) (a : Function) (ha : Hash) (b : Function) (hb : Hash) :
    Res Ordering :=
  lexR (.ok (functionCmpId a b))
    (lexR (cmpParams (fun x y => cmpId false n ha x hb y) ha hb (a.parameters.map (·.ty))
        (b.parameters.map (·.ty)))
      (.ok (compare a.parameters.length b.parameters.length)))

/-- `<Function as SortList>::cmp_by` (main/src/print/function.rs:325-338). -/
def functionCmpBy (o : Options) (n : Nat) (a : Function) (ha : Hash) (b : Function) (hb : Hash) :
    Res Ordering :=
  match o.sort with
  | .none => .ok (compare a.address b.address)
  | .name => functionCmpIdForSort n a ha b hb
  | .size => .ok (compare a.size b.size)

/-- `Variable::cmp_id` (parser/src/variable.rs:166-173). -/
def variableCmpId (a b : Variable) : Ordering := Namespace.cmpNsAndName a.ns a.name b.ns b.name

/-- `Variable::byte_size` (parser/src/variable.rs:129-135). -/
def variableByteSize (n : Nat) (h : Hash) (v : Variable) : Res (Option Nat) :=
  if v.size.isSome then .ok v.size else
    match fromOffset h v.ty with
    | some t => byteSize n h t
    | none => .ok none

/-- `<Variable as SortList>::cmp_by` (main/src/print/variable.rs:174-187). -/
def variableCmpBy (o : Options) (n : Nat) (a : Variable) (ha : Hash) (b : Variable) (hb : Hash) :
    Res Ordering :=
  match o.sort with
  | .none => .ok (compare a.address b.address)
  | .name => .ok (variableCmpId a b)
  | .size => (variableByteSize n ha a).bind fun x => (variableByteSize n hb b).bind fun y =>
      .ok (compare x y)

/-- `s.split_once('@').map(|(a, _)| a).unwrap_or(s)` (main/src/print/unit.rs:357-358). -/
def cutAt (s : Str) : Str := s.takeWhile (· != 64)

/-- The bytes compared by `<Unit as SortList>::cmp_id` (main/src/print/unit.rs:354-360). -/
def unitKey (o : Options) (u : CompUnit) : Str :=
  let (pre, suf) := o.mapPrefix (u.name.getD [])
  pre ++ cutAt suf

/-- `<Unit as SortList>::cmp_id` (main/src/print/unit.rs:347-362). -/
def unitCmpId (o : Options) (a b : CompUnit) : Ordering := compare (unitKey o a) (unitKey o b)

/-- `Unit::size` (parser/src/unit.rs:91-94), modelled in `Verif.Item` (`none` there is a panic), as
a result. -/
def unitSizeRes (t : TypeOffset → Option Nat) (u : CompUnit) : Res (Option Nat) :=
  match u.size t with
  | some s => .ok (some s)
  | none => .panic

/-- `<Unit as SortList>::cmp_by` (main/src/print/unit.rs:364-376). `ta`, `tb` give the sizes of
the types of the two files. -/
def unitCmpBy (o : Options) (_n : Nat) (a : CompUnit) (ta : TypeOffset → Option Nat)
    (b : CompUnit) (tb : TypeOffset → Option Nat) : Res Ordering :=
  match o.sort with
  | .none => .ok .eq
  | .name => .ok (unitCmpId o a b)
  | .size => (unitSizeRes ta a).bind fun x => (unitSizeRes tb b).bind fun y => .ok (compare x y)

/-- The order in which `PrintState::sort_list` prints (main/src/print/mod.rs:365-371): every
item is printed with the single file `h`. -/
def printOrder (cmpBy : α → γ → α → γ → Res Ordering) (h : γ) (l : List α) : Option (List α) :=
  sortWith (fun a b => cmpBy a h b h) l

/-- The order in which `DiffState::sort_list` visits merged items
(main/src/print/mod.rs:827-831). -/
def diffOrder (cmpBy : α → γ → α → γ → Res Ordering) (ha hb : γ) (l : List (MergeResult α α)) :
    Option (List (MergeResult α α)) :=
  sortWith (MergeResult.cmp cmpBy ha hb) l

/-- `merged_types` after filtering (main/src/print/unit.rs:19-25). -/
def mergedTypes (n : Nat) (ha : Hash) (la : List TypeEntry) (hb : Hash) (lb : List TypeEntry) :
    Option (List (MergeResult TypeEntry TypeEntry)) := do
  let sa ← sortWith (fun x y : TypeEntry => cmpId false n ha x.kind ha y.kind) la
  let sb ← sortWith (fun x y : TypeEntry => cmpId false n hb x.kind hb y.kind) lb
  mergeWith (fun x y : TypeEntry => cmpId false n ha x.kind hb y.kind) sa sb

/-- The merge of `merged_functions` after filtering, before it is split
(main/src/print/unit.rs:38-46). -/
def mergedFunctionsAll (n : Nat) (ha : Hash) (la : List Function) (hb : Hash)
    (lb : List Function) : Option (List (MergeResult Function Function)) := do
  let sa ← sortWith (fun x y => functionCmpIdForSort n x ha y ha) la
  let sb ← sortWith (fun x y => functionCmpIdForSort n x hb y hb) lb
  mergeWith (fun x y => .ok (functionCmpId x y)) sa sb

/-- `inline` in `merged_functions` (main/src/print/unit.rs:47-51). -/
def mergedInline : MergeResult Function Function → Bool
  | .both a b => a.size.isNone || b.size.isNone
  | .left a => a.size.isNone
  | .right b => b.size.isNone

/-- `merged_functions` after filtering (main/src/print/unit.rs:28-59): functions, then inlined
functions. -/
def mergedFunctions (n : Nat) (ha : Hash) (la : List Function) (hb : Hash) (lb : List Function) :
    Option (List (MergeResult Function Function) × List (MergeResult Function Function)) := do
  let m ← mergedFunctionsAll n ha la hb lb
  pure (m.filter (fun x => !mergedInline x), m.filter mergedInline)

/-- `merged_variables` after filtering (main/src/print/unit.rs:68-75). -/
def mergedVariables (la lb : List Variable) : Option (List (MergeResult Variable Variable)) := do
  let sa ← sortWith (fun x y => .ok (variableCmpId x y)) la
  let sb ← sortWith (fun x y => .ok (variableCmpId x y)) lb
  mergeWith (fun x y => .ok (variableCmpId x y)) sa sb

/-- `merged_units` after filtering (main/src/print/file.rs:312-319). -/
def mergedUnits (o : Options) (la lb : List CompUnit) :
    Option (List (MergeResult CompUnit CompUnit)) := do
  let sa ← sortWith (fun x y => .ok (unitCmpId o x y)) la
  let sb ← sortWith (fun x y => .ok (unitCmpId o x y)) lb
  mergeWith (fun x y => .ok (unitCmpId o x y)) sa sb

end Verif.Order
