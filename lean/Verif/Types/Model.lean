import Verif.Namespace.Model
import Verif.Sentinel.Model
/-!
# Model of `parser/src/types.rs`: type lookup, sizes and identity comparison

References between types are offsets resolved through the file, so the graph of types may be
cyclic. The recursive queries take fuel; running out of it is the distinct result `diverge`.
A panic (overflow check or `debug_assert`) is the distinct result `panic`.

`Source` fields, ids and parameter names are left out: no modelled function reads them.
-/
namespace Verif.Types
open Verif.Sentinel Verif.Namespace

/-- `Size` (parser/src/lib.rs:169-224). -/
abbrev Size := Opt64

/-- `TypeOffset` (parser/src/types.rs:60-101). Simplification: `none` stands for the sentinel;
`C06_*` justify this. -/
abbrev TypeOffset := Option Nat

/-- Outcome of a query: does not return within the fuel, panics, or returns. -/
inductive Res (α : Type u)
  | diverge
  | panic
  | ok (a : α)
deriving DecidableEq, Repr

/-- Sequencing of two computations. -/
def Res.bind : Res α → (α → Res β) → Res β
  | .diverge, _ => .diverge
  | .panic, _ => .panic
  | .ok a, f => f a

/-- `TypeModifierKind` (parser/src/types.rs:303-330). -/
inductive ModKind
  | pointer | reference | const_ | packed | volatile | restrict | shared | rvalueReference
  | atomic | other
deriving DecidableEq, Repr

/-- `TypeModifierKind::discriminant_value` (parser/src/types.rs:332-347). -/
def ModKind.discr : ModKind → Nat
  | pointer => 1 | reference => 2 | const_ => 3 | packed => 4 | volatile => 5 | restrict => 6
  | shared => 7 | rvalueReference => 8 | atomic => 9 | other => 10

/-- `TypeModifier::is_pointer_like` (parser/src/types.rs:370-383). -/
def ModKind.isPointerLike : ModKind → Bool
  | const_ | packed | volatile | restrict | shared | atomic | other => false
  | pointer | reference | rvalueReference => true

/-- `Member` (parser/src/types.rs:917-927). `offset` is the debuginfo offset. -/
structure Member where
  offset : Nat
  name : Option Str
  ty : TypeOffset
  bitOffset : Nat
  bitSize : Size
deriving DecidableEq, Repr

/-- `Variant` (parser/src/types.rs:794-800). -/
structure Variant where
  discrValue : Option Nat
  name : Option Str
  members : List Member
deriving DecidableEq, Repr

/-- `VariantPart` (parser/src/types.rs:738-742). -/
structure VariantPart where
  discr : Option Nat
  variants : List Variant
deriving DecidableEq, Repr

/-- `Inherit` (parser/src/types.rs:998-1004). -/
structure Inherit where
  ty : TypeOffset
  bitOffset : Nat
deriving DecidableEq, Repr

/-- `TypeKind` and the structures it contains (parser/src/types.rs:12-39, 292-301, 481-488,
526-533, 576-587, 671-680, 1119-1129, 1235-1243, 1325-1333, 1400-1406, 1472-1478, 1512-1517,
1542-1550). Parameters are their `ty` offsets (parameter names and offsets are not used). -/
inductive Ty
  | void
  | base (name : Option Str) (byteSize : Size)
  | def_ (ns : Option Namespace) (name : Option Str) (ty : TypeOffset)
  | struct_ (ns : Option Namespace) (name : Option Str) (byteSize : Size)
      (members : List Member) (variantParts : List VariantPart) (inherits : List Inherit)
  | union_ (ns : Option Namespace) (name : Option Str) (byteSize : Size) (members : List Member)
  | enum_ (ns : Option Namespace) (name : Option Str) (ty : TypeOffset) (byteSize : Size)
  | array (ty : TypeOffset) (count : Size) (counts : List Size) (byteSize : Size)
  | function (params : List TypeOffset) (ret : TypeOffset) (byteSize : Size)
  | unspecified (ns : Option Namespace) (name : Option Str)
  | pointerToMember (ty containingTy : TypeOffset) (byteSize : Size) (addressSize : Option Nat)
  | modifier (kind : ModKind) (ty : TypeOffset) (byteSize : Size) (addressSize : Option Nat)
  | subrange (name : Option Str) (ty : TypeOffset) (lower upper : Option Nat) (byteSize : Size)
deriving DecidableEq, Repr

/-- `TypeKind::discriminant_value` (parser/src/types.rs:41-58). -/
def Ty.discr : Ty → Nat
  | void => 1
  | base .. => 2
  | def_ .. => 3
  | struct_ .. => 4
  | union_ .. => 5
  | enum_ .. => 6
  | array .. => 7
  | function .. => 8
  | unspecified .. => 9
  | pointerToMember .. => 10
  | modifier .. => 11
  | subrange .. => 12

/-- The part of `FileHash` used for types (parser/src/file/mod.rs:455-490): the map of parsed
types and the on-demand `File::get_type`. -/
structure Hash where
  types : Nat → Option Ty
  fileTypes : Nat → Option Ty

/-- `Type::from_offset` (parser/src/types.rs:125-136). -/
def fromOffset (h : Hash) : TypeOffset → Option Ty
  | none => some .void
  | some o => (h.types o).or (h.fileTypes o)

/-- Checked multiplication (`*`, `*=` on `u64` in a build with overflow checks). -/
def mulU64 (a b : Nat) : Res Nat := if a * b ≤ top then .ok (a * b) else .panic

/-- `ArrayType::counts_as_slice` (parser/src/types.rs:1279-1285). -/
def countsAsSlice (count : Size) (counts : List Size) : List Size :=
  if counts.isEmpty then [count] else counts

/-- The loop of `ArrayType::byte_size` (parser/src/types.rs:1266-1273). -/
def mulCounts (size : Nat) : List Size → Res (Option Nat)
  | [] => .ok (some size)
  | c :: cs => match c.get with
    | some n => (mulU64 size n).bind (fun s => mulCounts s cs)
    | none => .ok none

/-- `Type::is_function` (parser/src/types.rs:213-234). -/
def isFunction : Nat → Hash → Ty → Res Bool
  | 0, _, _ => .diverge
  | n + 1, h, t => match t with
    | .function .. => .ok true
    | .def_ _ _ ty => match fromOffset h ty with
      | some t' => isFunction n h t'
      | none => .ok false
    | .modifier _ ty _ _ => match fromOffset h ty with
      | some t' => isFunction n h t'
      | none => .ok false
    | _ => .ok false

/-- `Type::byte_size` and the per-kind `byte_size` (parser/src/types.rs:177-192, 386-395,
499-501, 560-562, 615-617, 702-704, 1162-1168, 1258-1277, 1361-1367, 1423-1425, 1572-1584). -/
def byteSize : Nat → Hash → Ty → Res (Option Nat)
  | 0, _, _ => .diverge
  | n + 1, h, t => match t with
    | .void => .ok (some 0)
    | .base _ s => .ok s.get
    | .def_ _ _ ty => match fromOffset h ty with
      | some t' => byteSize n h t'
      | none => .ok none
    | .struct_ _ _ s _ _ _ => .ok s.get
    | .union_ _ _ s _ => .ok s.get
    | .enum_ _ _ ty s =>
      if s.isSome then .ok s.get
      else match fromOffset h ty with
        | some t' => byteSize n h t'
        | none => .ok none
    | .array ty count counts s =>
      if s.isSome then .ok s.get
      else match fromOffset h ty with
        | some t' => (byteSize n h t').bind fun
          | some size => mulCounts size (countsAsSlice count counts)
          | none => .ok none
        | none => .ok none
    | .function _ _ s => .ok s.get
    | .unspecified .. => .ok none
    | .pointerToMember ty _ s addressSize =>
      if s.isSome then .ok s.get
      else match fromOffset h ty with
        | some t' => (isFunction n h t').bind fun
          | true => match addressSize with
            | some v => (mulU64 v 2).bind (fun s => .ok (some s))
            | none => .ok none
          | false => .ok addressSize
        | none => .ok none
    | .modifier kind ty s addressSize =>
      if s.isSome then .ok s.get
      else if kind.isPointerLike then .ok addressSize
      else match fromOffset h ty with
        | some t' => byteSize n h t'
        | none => .ok none
    | .subrange _ ty _ _ s =>
      if s.isSome then .ok s.get
      else match fromOffset h ty with
        | some t' => byteSize n h t'
        | none => .ok none

/-- `if ord != Equal { return ord; }` followed by more code
(parser/src/types.rs:411-416 and similar). -/
def lexR : Res Ordering → Res Ordering → Res Ordering
  | .ok .eq, y => y
  | .ok .lt, _ => .ok .lt
  | .ok .gt, _ => .ok .gt
  | .diverge, _ => .diverge
  | .panic, _ => .panic

/-- The `match (&a.ty(hash_a), &b.ty(hash_b))` used by every structural `cmp_id`
(parser/src/types.rs:410-424, 1306-1320, 1381-1395, 1452-1466, 1503-1508, 1599-1628). -/
def cmpOptTy (r : Ty → Ty → Res Ordering) : Option Ty → Option Ty → Res Ordering
  | some a, some b => r a b
  | some _, none => .ok .lt
  | none, some _ => .ok .gt
  | none, none => .ok .eq

/-- The loop over zipped parameters of `FunctionType::cmp_id`
(parser/src/types.rs:1440-1445) with `ParameterType::cmp_id` (1497-1509). -/
def cmpParams (r : Ty → Ty → Res Ordering) (ha hb : Hash) :
    List TypeOffset → List TypeOffset → Res Ordering
  | a :: as, b :: bs =>
    lexR (cmpOptTy r (fromOffset ha a) (fromOffset hb b)) (cmpParams r ha hb as bs)
  | _, _ => .ok .eq

/-- Body of `Type::cmp_id` with the per-kind `cmp_id` (parser/src/types.rs:261-289, 404-428,
521-523, 571-573, 666-668, 729-731, 1193-1195, 1300-1322, 1375-1397, 1434-1469, 1537-1539,
1593-1630), with the recursive call as parameter `r`. `dbg` says whether `debug_assert_ne!`
(line 285) is compiled in. -/
def cmpStep (dbg : Bool) (r : Ty → Ty → Res Ordering) (ha hb : Hash) (a b : Ty) : Res Ordering :=
  match a, b with
  | .base n1 _, .base n2 _ => .ok (compare n1 n2)
  | .def_ ns1 n1 _, .def_ ns2 n2 _ => .ok (Namespace.cmpNsAndName ns1 n1 ns2 n2)
  | .struct_ ns1 n1 _ _ _ _, .struct_ ns2 n2 _ _ _ _ =>
    .ok (Namespace.cmpNsAndName ns1 n1 ns2 n2)
  | .union_ ns1 n1 _ _, .union_ ns2 n2 _ _ => .ok (Namespace.cmpNsAndName ns1 n1 ns2 n2)
  | .enum_ ns1 n1 _ _, .enum_ ns2 n2 _ _ => .ok (Namespace.cmpNsAndName ns1 n1 ns2 n2)
  | .array t1 c1 _ _, .array t2 c2 _ _ =>
    lexR (cmpOptTy r (fromOffset ha t1) (fromOffset hb t2)) (.ok (c1.cmp c2))
  | .function p1 r1 _, .function p2 r2 _ =>
    lexR (cmpParams r ha hb p1 p2)
      (lexR (.ok (compare p1.length p2.length))
        (lexR (cmpOptTy r (fromOffset ha r1) (fromOffset hb r2)) (.ok .eq)))
  | .unspecified ns1 n1, .unspecified ns2 n2 => .ok (Namespace.cmpNsAndName ns1 n1 ns2 n2)
  | .pointerToMember t1 c1 _ _, .pointerToMember t2 c2 _ _ =>
    lexR (cmpOptTy r (fromOffset ha c1) (fromOffset hb c2))
      (lexR (cmpOptTy r (fromOffset ha t1) (fromOffset hb t2)) (.ok .eq))
  | .modifier k1 t1 _ _, .modifier k2 t2 _ _ =>
    lexR (cmpOptTy r (fromOffset ha t1) (fromOffset hb t2)) (.ok (compare k1.discr k2.discr))
  | .subrange _ t1 l1 u1 _, .subrange _ t2 l2 u2 _ =>
    lexR (cmpOptTy r (fromOffset ha t1) (fromOffset hb t2))
      (lexR (.ok (compare l1 l2)) (.ok (compare u1 u2)))
  | a, b =>
    if dbg && a.discr == b.discr then .panic else .ok (compare a.discr b.discr)

/-- `Type::cmp_id` (parser/src/types.rs:261-289). -/
def cmpId (dbg : Bool) : Nat → Hash → Ty → Hash → Ty → Res Ordering
  | 0, _, _, _, _ => .diverge
  | n + 1, ha, a, hb, b => cmpStep dbg (fun x y => cmpId dbg n ha x hb y) ha hb a b

/-- `Type::is_anon`, `StructType::is_anon`, `UnionType::is_anon`
(parser/src/types.rs:195-210, 626-628, 713-715). -/
def Ty.isAnon : Ty → Bool
  | struct_ ns name _ _ _ _ => name.isNone || Namespace.isAnonType ns
  | union_ ns name _ _ => name.isNone || Namespace.isAnonType ns
  | _ => false

/-- `Type::members` (parser/src/types.rs:237-252). -/
def Ty.members : Ty → List Member
  | struct_ _ _ _ ms _ _ => ms
  | union_ _ _ _ ms => ms
  | _ => []

end Verif.Types
