import Verif.Show.Refs
import Verif.Layout.Model
import Verif.Path.Spec
import Verif.Filter.Model
/-!
# Model of the listing and the diff of a type

`main/src/print/types.rs`, `base_type.rs`, `type_def.rs`, `struct_type.rs`, `union_type.rs`,
`enumeration.rs`, `member.rs` and `inherit.rs`. A closure over `PrintState` or `DiffState` is a
program `P` or `D` (`Verif.Print`). The result `none` stands for: the code does not return, panics
or returns an error.

What the printing code reads of a file through `FileHash` is a `Side`. The size of a referenced
type (`Type::byte_size`, `Verif.Types.byteSize`) and what `print::types::print_ref` writes for it
(`Verif.Show.typeRef`) are functions of the `Side`; the result of `Type::cmp_id` on two types of the
two files is a function of the `Pair`.
-/
namespace Verif.Show
open Verif.Print Verif.Item Verif.Namespace Verif.Types Verif.Layout Verif.Path Verif.Opts Verif.Merge

/-- `BaseTypeEncoding` (parser/src/types.rs:445-463). -/
inductive Encoding
  | other | boolean | address | signed | signedChar | unsigned | unsignedChar | float
deriving DecidableEq, Repr

/-- `Endianity` (parser/src/types.rs:433-441). -/
inductive Endianity
  | default_ | big | little
deriving DecidableEq, Repr

/-- `EnumeratorValue` (parser/src/types.rs:1221-1233). -/
inductive EnumValue
  | other | signed (v : Int) | unsigned (v : Nat)
deriving DecidableEq, Repr

/-- `Enumerator` (parser/src/types.rs:1200-1203). -/
structure Enumerator where
  name : Option Str
  value : EnumValue
deriving DecidableEq, Repr

/-- What is printed of a type beside its `Ty`: `Type::id` (parser/src/types.rs:106),
`BaseType::encoding` and `endianity` (486-487), `source` and `declaration` of the named types
(532, 581-583, 676-678, 1125-1126), `EnumerationType::enumerators` (1180-1185),
`TypeModifier::name` (297) and the names of the parameters of a `FunctionType` (1475). -/
structure Extra where
  id : Nat := 0
  encoding : Encoding := .other
  endianity : Endianity := .default_
  source : Source := {}
  declaration : Bool := false
  enumerators : List Enumerator := []
  name : Option Str := none
  paramNames : List (Option Str) := []
deriving DecidableEq, Repr

/-- What printing reads of one file. `tsz` and `tref` stand for
`Type::from_offset(hash, o).and_then(|t| t.byte_size(hash))` and for what
`print::types::print_ref(Type::from_offset(hash, o), w, hash)` writes. -/
structure Side where
  hash : Hash
  extra : TypeOffset → Extra
  tsz : TypeOffset → Option Nat
  tref : TypeOffset → Val

/-- What a diff reads of its two files. `same` stands for `Type::cmp_id(..) == Equal`; `heap` is
the priority queue of `shortest_path`. -/
structure Pair where
  a : Side
  b : Side
  same : Ty → Ty → Bool
  heap : Heap

/-! ### Lists -/

/-- `PrintState::list` (main/src/print/mod.rs:358-363). -/
def listP (print : α → Option P) (l : List α) : Option P := (l.mapM print).map P.seqs

/-- The body of the loop of `DiffState::list` and `ord_list` (main/src/print/mod.rs:762-779,
796-806). -/
def itemD (print print' : α → Option P) (diff : α → α → Option D) : MergeResult α α → Option D
  | .both a b => diff a b
  | .left a => (print a).map .prefixDelete
  | .right b => (print' b).map .prefixAdd

/-- `DiffState::list` (main/src/print/mod.rs:745-782). Simplification: `none` also when the sum of
all the costs of adding and deleting does not fit in a `usize`. -/
def listD {α : Type} (Q : Heap) (print print' : α → Option P) (diff : α → α → Option D)
    (c1 c2 : α → Nat) (cost : α → α → Nat) (la lb : List α) : Option D :=
  if replaceCost c1 c2 la lb < usizeMax then
    match diffList Q la lb c1 c2 cost (enoughFuel la lb) with
    | .ok items => (items.mapM (itemD print print' diff)).map D.seqs
    | _ => none
  else none

/-- `DiffState::ord_list` (main/src/print/mod.rs:788-809). -/
def ordListD {α : Type} (cmp : α → α → Ordering) (print print' : α → Option P)
    (diff : α → α → Option D) (la lb : List α) : Option D :=
  ((merged cmp la lb (la.length + lb.length)).mapM (itemD print print' diff)).map D.seqs

/-! ### Values -/

/-- What several `write!`, `name` and `link` calls write one after the other. -/
def vals : List Val → Val
  | [] => .nil
  | v :: vs => .seq v (vals vs)

/-- `format_bit` (main/src/print/member.rs:289-297). -/
def formatBit (n : Nat) : Str :=
  if n % 8 = 0 then dec (n / 8) else dec (n / 8) ++ k "." ++ dec (n % 8)

/-- `if let Some(size) = .. { write!(w, "{}", size) }` (main/src/print/base_type.rs:48-55,
type_def.rs:30-35, struct_type.rs:66-73, union_type.rs:64-71, enumeration.rs:75-82). -/
def sizeVal : Option Nat → Val
  | some n => .text (dec n)
  | none => .nil

/-- `if .. { write!(w, "yes") }` (main/src/print/struct_type.rs:75-80, union_type.rs:73-78,
enumeration.rs:68-73). -/
def yesVal (b : Bool) : Val := if b then .text (k "yes") else .nil

/-- `print_source` (main/src/print/struct_type.rs:62-64 and the same in type_def.rs:26-28,
union_type.rs:60-62, enumeration.rs:64-66). -/
def sourceVal (dir : Option Str) (s : Source) : Val := .text (s.print dir)

/-- The `source` field of a listing (main/src/print/struct_type.rs:25-27 and the like). -/
def sourceP (o : Options) (dir : Option Str) (s : Source) : P :=
  if o.printSource then .line (k "source") (sourceVal dir s) else .skip

/-- The `source` field of a diff (main/src/print/struct_type.rs:45-52 and the like). -/
def sourceD (o : Options) (da : Option Str) (a : Source) (db : Option Str) (b : Source) : D :=
  if o.printSource then .line (k "source") (sourceVal da a) (sourceVal db b) else .skip

/-- `print_encoding` (main/src/print/base_type.rs:57-70). -/
def encodingVal : Encoding → Val
  | .other => .nil
  | .boolean => .text (k "boolean")
  | .address => .text (k "address")
  | .signed => .text (k "signed")
  | .signedChar => .text (k "signed char")
  | .unsigned => .text (k "unsigned")
  | .unsignedChar => .text (k "unsigned char")
  | .float => .text (k "floating-point")

/-- `print_endianity` (main/src/print/base_type.rs:72-80). -/
def endianityVal : Endianity → Val
  | .default_ => .nil
  | .big => .text (k "big")
  | .little => .text (k "little")

/-- `if let Some(namespace) = .. { print::namespace::print(..) }`. -/
def nsOpt : Option Namespace → Val
  | some ns => nsVal ns
  | none => .nil

/-- `print_name` of a base type (main/src/print/base_type.rs:6-9). -/
def baseName (name : Option Str) : Val := .text (k "base " ++ name.getD anon)

/-- `print_name` of a typedef (main/src/print/type_def.rs:6-12). -/
def defName (ns : Option Namespace) (name : Option Str) : Val :=
  vals [nsOpt ns, .name (name.getD (k "<anon-typedef>"))]

/-- `print_name` of a struct, union or enumeration (main/src/print/struct_type.rs:6-13,
union_type.rs:6-13, enumeration.rs:6-13). -/
def taggedName (tag : Str) (ns : Option Namespace) (name : Option Str) : Val :=
  vals [.text tag, nsOpt ns, .name (name.getD anon)]

/-- `print_def` (main/src/print/type_def.rs:18-24). -/
def defVal (s : Side) (ns : Option Namespace) (name : Option Str) (ty : TypeOffset) : Val :=
  vals [.text (k "type "), defName ns name, .text (k " = "), s.tref ty]

/-- `print_enumerator` (main/src/print/enumeration.rs:84-92). -/
def enumeratorVal (e : Enumerator) : Val :=
  .text (e.name.getD anon ++
    match e.value with
    | .other => []
    | .signed v => k "(" ++ (if v < 0 then k "-" ++ dec (-v).toNat else dec v.toNat) ++ k ")"
    | .unsigned v => k "(" ++ dec v ++ k ")")

/-- `print_member` (main/src/print/member.rs:8-23). -/
def memberVal (s : Side) (m : Member) : Val :=
  vals [.text (formatBit m.bitOffset),
    .text (match memberBitSize s.tsz m with
      | some n => k "[" ++ formatBit n ++ k "]"
      | none => k "[??]"),
    .text (k "\t" ++ m.name.getD anon ++ k ": "), s.tref m.ty]

/-- The offset and size of a layout item (main/src/print/member.rs:31-36, 59-64, 70-75). -/
def extentStr (l : Layout) : Str :=
  formatBit l.bitOffset ++ k "[" ++ formatBit (l.bitSize.get.getD 0) ++ k "]\t"

/-- `print_variant_part` (main/src/print/member.rs:25-38). -/
def variantPartVal (l : Layout) : Val := .text (extentStr l ++ k "<variant part>")

/-- `print_variant` (main/src/print/member.rs:40-51). -/
def variantVal (v : Variant) : Val :=
  vals [match v.name with
      | some n => .text (n ++ k ": ")
      | none => .nil,
    match v.discrValue with
      | some d => .text (k "<" ++ dec d ++ k ">")
      | none => .text (k "<default>")]

/-- `print_inherit` of a layout item (main/src/print/member.rs:53-67). -/
def layoutInheritVal (s : Side) (l : Layout) (i : Inherit) : Val :=
  vals [.text (extentStr l ++ k "<inherit>: "), s.tref i.ty]

/-- `print_padding` (main/src/print/member.rs:69-77). -/
def paddingVal (l : Layout) : Val := .text (extentStr l ++ k "<padding>")

/-! ### Members -/

/-- The type whose members are listed below a member (main/src/print/member.rs:83-89, 97-108). -/
def inlineTy (s : Side) (m : Member) : Option Ty :=
  if Filter.memberInline s.hash m then fromOffset s.hash m.ty else none

/-- `impl Print for Member`, `print` (main/src/print/member.rs:82-94); `rec` is
`print::types::print_members`. -/
def memberP (s : Side) (rec : Option Ty → Option P) (m : Member) : Option P := do
  let body ← rec (inlineTy s m)
  some (.indent false (.line [] (memberVal s m)) body)

/-- `impl Print for Layout`, `print` (main/src/print/member.rs:203-219); `variants` is the list of
the variants of a variant part. -/
def layoutItemP (s : Side) (rec : Option Ty → Option P)
    (variants : Layout → List Variant → Option P) (l : Layout) : Option P :=
  match l.item with
  | .padding => some (.line [] (paddingVal l))
  | .member m => memberP s rec m
  | .variantPart vp => do
    let body ← variants l vp.variants
    some (.indent false (.line [] (variantPartVal l)) body)
  | .inherit i => some (.line [] (layoutInheritVal s l i))

/-- `impl Print for Variant`, `print` (main/src/print/member.rs:145-157); `l` is the item of the
variant part. The layout of a variant has no variant parts (`Variant::layout`,
parser/src/types.rs:865-872, passes none), so the case for them is not reached. -/
def variantP (s : Side) (rec : Option Ty → Option P) (l : Layout) (v : Variant) : Option P := do
  let body ← listP (layoutItemP s rec fun _ _ => some .skip)
    (Variant.layout v l.bitOffset l.bitSize.get s.tsz)
  some (.indent false (.line [] (variantVal v)) body)

/-- `impl Print for Layout`, `print` (main/src/print/member.rs:203-219). -/
def layoutP (s : Side) (rec : Option Ty → Option P) (l : Layout) : Option P :=
  layoutItemP s rec (fun l vs => listP (variantP s rec l) vs) l

/-- `print_members` (main/src/print/types.rs:250-259, struct_type.rs:82-85, union_type.rs:80-82).
`n` bounds the depth of members listed below members. -/
def membersP (s : Side) : Nat → Option Ty → Option P
  | 0, _ => none
  | n + 1, t =>
    match t with
    | some (.struct_ _ _ size ms vps inh) =>
      listP (layoutP s (membersP s n)) (structLayout ms inh vps size s.tsz)
    | some (.union_ _ _ _ ms) => listP (memberP s (membersP s n)) ms
    | _ => some .skip

/-- The part of a `diff_cost` for two types (main/src/print/member.rs:126-138,
inherit.rs:62-74, parameter.rs:81-93, local_variable.rs:95-107). -/
def tyCost (c : Pair) (w : Nat) (a b : TypeOffset) : Nat :=
  match fromOffset c.a.hash a, fromOffset c.b.hash b with
  | some x, some y => if c.same x y then 0 else w
  | none, none => 0
  | _, _ => w

/-- `Member::diff_cost` (main/src/print/member.rs:121-140). -/
def memberCost (c : Pair) (a b : Member) : Nat :=
  (if a.name = b.name then 0 else 1) + tyCost c 1 a.ty b.ty

/-- `Variant::diff_cost` (main/src/print/member.rs:182-197). -/
def variantCost (a b : Variant) : Nat :=
  (if a.name = b.name then 0 else 1) + (if a.discrValue = b.discrValue then 0 else 1)

/-- `Inherit::diff_cost` (main/src/print/inherit.rs:60-75). -/
def inheritCost (c : Pair) (a b : Inherit) : Nat := tyCost c 2 a.ty b.ty

/-- `Layout::diff_cost` (main/src/print/member.rs:270-286). -/
def layoutCost (c : Pair) (a b : Layout) : Nat :=
  match a.item, b.item with
  | .padding, .padding => 0
  | .member a, .member b => memberCost c a b
  | .variantPart _, .variantPart _ => 0
  | .inherit a, .inherit b => inheritCost c a b
  | _, _ => 2

/-- `print_members` of the two files and `diff_members`, as used by the functions below. -/
structure Recs where
  pa : Option Ty → Option P
  pb : Option Ty → Option P
  d : Option Ty → Option Ty → Option D

/-- `Member::diff` (main/src/print/member.rs:96-113). -/
def memberD (c : Pair) (r : Recs) (a b : Member) : Option D := do
  let body ← r.d (inlineTy c.a a) (inlineTy c.b b)
  some (.indent false (.line [] (memberVal c.a a) (memberVal c.b b)) body)

/-- `Layout::diff` (main/src/print/member.rs:222-261); the variants of a variant part are
`pa`, `pb`, `d`. -/
def layoutItemD (c : Pair) (r : Recs) (pa pb : Layout → List Variant → Option P)
    (d : Layout → List Variant → Layout → List Variant → Option D) (a b : Layout) : Option D :=
  match a.item, b.item with
  | .padding, .padding => some (.line [] (paddingVal a) (paddingVal b))
  | .member x, .member y => memberD c r x y
  | .variantPart x, .variantPart y => do
    let body ← d a x.variants b y.variants
    some (.indent false (.line [] (variantPartVal a) (variantPartVal b)) body)
  | .inherit x, .inherit y =>
    some (.line [] (layoutInheritVal c.a a x) (layoutInheritVal c.b b y))
  | _, _ => do
    let p ← layoutItemP c.a r.pa pa a
    let q ← layoutItemP c.b r.pb pb b
    some (.block p q)

/-- `Variant::diff` (main/src/print/member.rs:159-174). -/
def variantD (c : Pair) (r : Recs) (la lb : Layout) (a b : Variant) : Option D := do
  let body ← listD c.heap (layoutItemP c.a r.pa fun _ _ => some .skip)
    (layoutItemP c.b r.pb fun _ _ => some .skip)
    (layoutItemD c r (fun _ _ => some .skip) (fun _ _ => some .skip) fun _ _ _ _ => some .skip)
    (fun _ => 1) (fun _ => 1) (layoutCost c)
    (Variant.layout a la.bitOffset la.bitSize.get c.a.tsz)
    (Variant.layout b lb.bitOffset lb.bitSize.get c.b.tsz)
  some (.indent false (.line [] (variantVal a) (variantVal b)) body)

/-- `Layout::diff` (main/src/print/member.rs:222-261). -/
def layoutD (c : Pair) (r : Recs) (a b : Layout) : Option D :=
  layoutItemD c r (fun l vs => listP (variantP c.a r.pa l) vs)
    (fun l vs => listP (variantP c.b r.pb l) vs)
    (fun la va lb vb => listD c.heap (variantP c.a r.pa la) (variantP c.b r.pb lb)
      (variantD c r la lb) (fun _ => 1) (fun _ => 1) variantCost va vb) a b

/-- `diff_members` (main/src/print/types.rs:261-284, struct_type.rs:87-97, union_type.rs:84-93). -/
def membersD (c : Pair) : Nat → Option Ty → Option Ty → Option D
  | 0, _, _ => none
  | n + 1, ta, tb =>
    let r : Recs := ⟨membersP c.a n, membersP c.b n, membersD c n⟩
    match ta, tb with
    | some (.struct_ _ _ size ms vps inh), some (.struct_ _ _ size' ms' vps' inh') =>
      listD c.heap (layoutP c.a r.pa) (layoutP c.b r.pb) (layoutD c r) (fun _ => 1) (fun _ => 1)
        (layoutCost c) (structLayout ms inh vps size c.a.tsz) (structLayout ms' inh' vps' size' c.b.tsz)
    | some (.union_ _ _ _ ms), some (.union_ _ _ _ ms') =>
      listD c.heap (memberP c.a r.pa) (memberP c.b r.pb) (memberD c r) (fun _ => 1) (fun _ => 1)
        (memberCost c) ms ms'
    | ta, tb => do
      let p ← membersP c.a (n + 1) ta
      let q ← membersP c.b (n + 1) tb
      some (.block p q)

/-! ### Base classes -/

/-- `print_inherit` (main/src/print/inherit.rs:39-41). -/
def inheritVal (s : Side) (i : Inherit) : Val := s.tref i.ty

/-- `impl Print for Inherit`, `print` (main/src/print/inherit.rs:46-48). -/
def inheritP (s : Side) (i : Inherit) : P := .line [] (inheritVal s i)

/-- `print_list` (main/src/print/inherit.rs:8-15). -/
def inheritsP (s : Side) : List Inherit → P
  | [] => .skip
  | [i] => .line (k "inherits") (inheritVal s i)
  | l => .field false (k "inherits") (.seqs (l.map (inheritP s)))

/-- The closure of main/src/print/inherit.rs:29-34. -/
def inheritOpt (s : Side) : Option Inherit → Val
  | some i => inheritVal s i
  | none => .nil

/-- `diff_list` (main/src/print/inherit.rs:17-37); `Inherit::diff` is 50-52, `step_cost` 56-58. -/
def inheritsD (c : Pair) (la lb : List Inherit) : Option D :=
  if la.length > 1 ∨ lb.length > 1 then
    (listD c.heap (fun i => some (inheritP c.a i)) (fun i => some (inheritP c.b i))
      (fun x y => some (.line [] (inheritVal c.a x) (inheritVal c.b y))) (fun _ => 1) (fun _ => 1)
      (inheritCost c) la lb).map (.field false (k "inherits"))
  else some (.line (k "inherits") (inheritOpt c.a la.head?) (inheritOpt c.b lb.head?))

/-! ### Enumerators -/

/-- `Enumerator::diff_cost` (main/src/print/enumeration.rs:117-128). -/
def enumeratorCost (a b : Enumerator) : Nat :=
  (if a.name = b.name then 0 else 4) + (if a.value = b.value then 0 else 2)

/-- `impl Print for Enumerator`, `print` (main/src/print/enumeration.rs:97-99). -/
def enumeratorP (e : Enumerator) : P := .line [] (enumeratorVal e)

/-- `state.list` of enumerators (main/src/print/enumeration.rs:58-60); `Enumerator::diff` is
101-109, `step_cost` 113-115. -/
def enumeratorsD (Q : Heap) (la lb : List Enumerator) : Option D :=
  listD Q (fun e => some (enumeratorP e)) (fun e => some (enumeratorP e))
    (fun a b => some (.line [] (enumeratorVal a) (enumeratorVal b))) (fun _ => 3) (fun _ => 3)
    enumeratorCost la lb

/-! ### Types -/

/-- `EnumerationType::byte_size` (parser/src/types.rs:1162-1168). -/
def enumSize (s : Side) (ty : TypeOffset) (size : Size) : Option Nat :=
  if size.isSome then size.get else s.tsz ty

/-- The value of `print_header` (main/src/print/types.rs:12-27 with base_type.rs:19-21,
type_def.rs:38-40, struct_type.rs:20-22, union_type.rs:20-22, enumeration.rs:20-22). -/
def headerVal (s : Side) : Ty → Option Val
  | .base name _ => some (baseName name)
  | .def_ ns name ty => some (defVal s ns name ty)
  | .struct_ ns name .. => some (taggedName (k "struct ") ns name)
  | .union_ ns name .. => some (taggedName (k "union ") ns name)
  | .enum_ ns name .. => some (taggedName (k "enum ") ns name)
  | _ => none

/-- The type whose members are shown below a typedef (main/src/print/type_def.rs:48-50,
79-82, 88-93). -/
def defInline (s : Side) (ty : TypeOffset) : Option Ty :=
  match fromOffset s.hash ty with
  | some t => if t.isAnon then some t else none
  | none => none

/-- `print_body` (main/src/print/base_type.rs:23-27, type_def.rs:42-56, struct_type.rs:24-32,
union_type.rs:24-31, enumeration.rs:24-32); `dir` is the directory of the unit. -/
def bodyP (o : Options) (s : Side) (dir : Option Str) (n : Nat) (x : Extra) : Ty → Option P
  | .base _ size => some (.seqs [.line (k "size") (sizeVal size.get),
      .line (k "encoding") (encodingVal x.encoding), .line (k "endianity") (endianityVal x.endianity)])
  | .def_ _ _ ty =>
    match defInline s ty with
    | some t => do
      let ms ← membersP s n (some t)
      some (.seqs [sourceP o dir x.source, .line (k "size") (sizeVal (s.tsz ty)),
        .field false (k "members") ms])
    | none => some (.seqs [sourceP o dir x.source, .line (k "size") (sizeVal (s.tsz ty))])
  | .struct_ ns name size ms vps inh => do
    let members ← membersP s n (some (.struct_ ns name size ms vps inh))
    some (.seqs [sourceP o dir x.source, .line (k "declaration") (yesVal x.declaration),
      .line (k "size") (sizeVal size.get), inheritsP s inh, .field false (k "members") members])
  | .union_ ns name size ms => do
    let members ← membersP s n (some (.union_ ns name size ms))
    some (.seqs [sourceP o dir x.source, .line (k "declaration") (yesVal x.declaration),
      .line (k "size") (sizeVal size.get), .field false (k "members") members])
  | .enum_ _ _ ty size =>
    some (.seqs [sourceP o dir x.source, .line (k "declaration") (yesVal x.declaration),
      .line (k "size") (sizeVal (enumSize s ty size)),
      .field false (k "enumerators") (.seqs (x.enumerators.map enumeratorP))])
  | _ => none

/-- `print` (main/src/print/types.rs:29-38). -/
def typeP (o : Options) (s : Side) (dir : Option Str) (n : Nat) (t : TypeEntry) : Option P := do
  let x := s.extra t.offset
  let h ← headerVal s t.kind
  let b ← bodyP o s dir n x t.kind
  some (.seq (.id x.id (.line [] h) b) .lineBreak)

/-- `diff_header` (main/src/print/types.rs:204-214): the values on the two sides, for two types of
the same kind that has a header. -/
def headerD (c : Pair) : Ty → Ty → Option D
  | .base n1 _, .base n2 _ => some (.line [] (baseName n1) (baseName n2))
  | .def_ ns1 n1 t1, .def_ ns2 n2 t2 => some (.line [] (defVal c.a ns1 n1 t1) (defVal c.b ns2 n2 t2))
  | .struct_ ns1 n1 .., .struct_ ns2 n2 .. =>
    some (.line [] (taggedName (k "struct ") ns1 n1) (taggedName (k "struct ") ns2 n2))
  | .union_ ns1 n1 .., .union_ ns2 n2 .. =>
    some (.line [] (taggedName (k "union ") ns1 n1) (taggedName (k "union ") ns2 n2))
  | .enum_ ns1 n1 .., .enum_ ns2 n2 .. =>
    some (.line [] (taggedName (k "enum ") ns1 n1) (taggedName (k "enum ") ns2 n2))
  | _, _ => none

/-- `diff_body` (main/src/print/types.rs:216-232, base_type.rs:33-45, type_def.rs:62-85,
struct_type.rs:38-59, union_type.rs:37-57, enumeration.rs:38-61). -/
def bodyD (o : Options) (c : Pair) (da db : Option Str) (n : Nat) (x y : Extra) : Ty → Ty → Option D
  | .base _ s1, .base _ s2 => some (.seqs [.line (k "size") (sizeVal s1.get) (sizeVal s2.get),
      .line (k "encoding") (encodingVal x.encoding) (encodingVal y.encoding),
      .line (k "endianity") (endianityVal x.endianity) (endianityVal y.endianity)])
  | .def_ _ _ t1, .def_ _ _ t2 => do
    let ms ← membersD c n (defInline c.a t1) (defInline c.b t2)
    some (.seqs [sourceD o da x.source db y.source,
      .line (k "size") (sizeVal (c.a.tsz t1)) (sizeVal (c.b.tsz t2)), .field false (k "members") ms])
  | .struct_ ns1 n1 s1 ms1 v1 i1, .struct_ ns2 n2 s2 ms2 v2 i2 => do
    let ms ← membersD c n (some (.struct_ ns1 n1 s1 ms1 v1 i1)) (some (.struct_ ns2 n2 s2 ms2 v2 i2))
    let inh ← inheritsD c i1 i2
    some (.seqs [sourceD o da x.source db y.source,
      .line (k "declaration") (yesVal x.declaration) (yesVal y.declaration),
      .line (k "size") (sizeVal s1.get) (sizeVal s2.get), inh, .field false (k "members") ms])
  | .union_ ns1 n1 s1 ms1, .union_ ns2 n2 s2 ms2 => do
    let ms ← membersD c n (some (.union_ ns1 n1 s1 ms1)) (some (.union_ ns2 n2 s2 ms2))
    some (.seqs [sourceD o da x.source db y.source,
      .line (k "declaration") (yesVal x.declaration) (yesVal y.declaration),
      .line (k "size") (sizeVal s1.get) (sizeVal s2.get), .field false (k "members") ms])
  | .enum_ _ _ t1 s1, .enum_ _ _ t2 s2 => do
    let es ← enumeratorsD c.heap x.enumerators y.enumerators
    some (.seqs [sourceD o da x.source db y.source,
      .line (k "declaration") (yesVal x.declaration) (yesVal y.declaration),
      .line (k "size") (sizeVal (enumSize c.a t1 s1)) (sizeVal (enumSize c.b t2 s2)),
      .field false (k "enumerators") es])
  | _, _ => none

/-- `diff` (main/src/print/types.rs:234-248). -/
def typeD (o : Options) (c : Pair) (da db : Option Str) (n : Nat) (a b : TypeEntry) : Option D := do
  let x := c.a.extra a.offset
  let y := c.b.extra b.offset
  let h ← headerD c a.kind b.kind
  let body ← bodyD o c da db n x y a.kind b.kind
  some (.seq (.id x.id h body) .lineBreak)

end Verif.Show
