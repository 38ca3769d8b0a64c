import Verif.Dwarf.EvalModel
import Verif.Str
/-!
# Model of debugging information entries and of the attribute loops of `parser/src/file/dwarf.rs`

Not modelled: decoding of the sections by `gimli`. An entry (DIE) is its offset, tag, attributes in
order, and children; an attribute value is what the `gimli` accessors the code calls give for it.
`Result` errors (undecodable data) are left out. Arithmetic is that of a release build: it wraps
modulo 2^64.
-/
namespace Verif.Dwarf
open Verif.Item Verif.Types Verif.Namespace Verif.Range Verif.Sentinel

/-- The `DW_TAG_*` constants that the code tells apart. -/
inductive Tag
  | namespace_ | subprogram | variable | baseType | typedef | structure_ | union_ | enumeration | unspecified
  | member | inheritance | variantPart | variant | formalParameter | inlinedSubroutine | lexicalBlock
  | array | subrange | subroutine | ptrToMember | modifier (k : ModKind) | enumerator
  | callSite (gnu : Bool) | callSiteParameter | other
deriving DecidableEq, Repr

/-- The `DW_AT_*` constants of call sites, with or without `GNU`, that are used in
`parse_call_site` and `parse_call_site_parameter` only (parser/src/file/dwarf.rs:3386-3542). -/
inductive CallAt
  /-- `DW_AT_call_origin` -/
  | origin
  /-- `DW_AT_call_tail_call`, `DW_AT_GNU_tail_call` -/
  | tail
  /-- `DW_AT_call_target`, `DW_AT_GNU_call_site_target`, and the same with `_clobbered` -/
  | target (clobbered : Bool)
  | returnPc | pc
  /-- `DW_AT_call_value`, `DW_AT_GNU_call_site_value` -/
  | value
  | dataLocation | dataValue | parameter
deriving DecidableEq, Repr

/-- The `DW_AT_*` constants that the code tells apart. -/
inductive At
  | name | linkageName | declFile | declLine | declColumn | inline | lowPc | highPc | ranges | type | specification
  | abstractOrigin | declaration | dataMemberLocation | dataBitOffset | bitOffset | byteSize | bitSize | discr
  | discrValue | constValue | location | count | lowerBound | upperBound | containingType
  | callFile | callLine | callColumn | call (c : CallAt) | compDir | language | encoding | endianity | other
deriving DecidableEq, Repr

/-- `gimli::AttributeValue`, with references to other sections followed: a `string` is the result of
`dwarf.string`, a `rangeList` the ranges, a `file` the entry of the line table, an `exprloc` the
pieces that `evaluate` (parser/src/file/dwarf.rs:4026-4070) gives: the address, for a piece in
memory at a fixed address, and the size in bits; and the operations of the expression. A `loclist`
is the offset as written, and the entries of the list, with their operations. -/
inductive Val
  | string (s : Option Str)
  | udata (n : Nat)
  | sdata (z : Int)
  /-- `DataN` in `bytes` bytes -/
  | data (bytes n : Nat)
  | address (a : Nat)
  | ref (o : Nat)
  | flag (b : Bool)
  | inline (b : Bool)
  | rangeList (rs : List Range)
  | file (file directory : Option Str) (validDirectory : Bool)
  | exprloc (pieces : List (Option Nat × Option Nat)) (ops : List Oper := [])
  | loclist (o : Nat) (entries : List (Range × List Oper) := [])
  /-- a `DW_LANG_*` constant -/
  | lang (n : Nat)
  /-- a `DW_ATE_*` constant -/
  | encoding (n : Nat)
  /-- a `DW_END_*` constant -/
  | endianity (n : Nat)
  | other
deriving DecidableEq, Repr

/-- A debugging information entry. -/
inductive Die
  | node (offset : Nat) (tag : Tag) (attrs : List (At × Val)) (children : List Die)

/-- The offset in the section. -/
def Die.offset : Die → Nat | .node o _ _ _ => o
/-- The tag. -/
def Die.tag : Die → Tag | .node _ t _ _ => t
/-- The attributes. -/
def Die.attrs : Die → List (At × Val) | .node _ _ a _ => a
/-- The children. -/
def Die.children : Die → List Die | .node _ _ _ c => c

mutual
/-- All entries of a tree, in the order of the section. -/
def dies : Die → List Die
  | .node o t a cs => .node o t a cs :: diesAll cs
/-- All entries of a list of trees. -/
def diesAll : List Die → List Die
  | [] => []
  | d :: ds => dies d ++ diesAll ds
end

/-- `dwarf.string` (parser/src/file/dwarf.rs:268-277): no string for other values. -/
def Val.str : Val → Option Str
  | .string s => s
  | _ => none

/-- `gimli`'s `udata_value`. -/
def Val.udataValue : Val → Option Nat
  | .udata n => some n
  | .data _ n => some n
  | .sdata z => if 0 ≤ z then some z.toNat else none
  | _ => none

/-- `gimli`'s `sdata_value`: sign extension of data. -/
def Val.sdataValue : Val → Option Int
  | .sdata z => some z
  | .udata n => if n < 2 ^ 63 then some n else none
  | .data k n => some (if n < 2 ^ (8 * k - 1) then n else (n : Int) - 2 ^ (8 * k))
  | _ => none

/-- `gimli`'s `attr_address`. -/
def Val.addr : Val → Option Nat
  | .address a => some a
  | _ => none

/-- `parse_debug_info_offset` and the functions that call it (parser/src/file/dwarf.rs:4124-4189). -/
def Val.offset : Val → Option Nat
  | .ref o => some o
  | _ => none

/-- `gimli`'s `attr_ranges_offset` followed by `ranges`. -/
def Val.rangesOf : Val → Option (List Range)
  | .rangeList rs => some rs
  | _ => none

/-- `Address::new`, `Size::new`, ... in a release build (parser/src/lib.rs:129-132, 179-182). -/
def optNew (n : Nat) : Option Nat := if n = 2 ^ 64 - 1 then none else some n

/-- `parse_source_file` (parser/src/file/dwarf.rs:4247-4276). A zero or invalid index is an
`other` value. -/
def sourceFile (s : Source) : Val → Source
  | .file f d valid => if valid then { s with file := f, directory := d } else { s with file := f }
  | _ => s

/-- `parse_source_line` (parser/src/file/dwarf.rs:4278-4296). -/
def sourceLine (s : Source) : Val → Source
  | .udata n => if n ≠ 0 then (if n ≤ 2 ^ 32 - 1 then { s with line := n } else s) else s
  | _ => s

/-- `parse_source_column` (parser/src/file/dwarf.rs:4298-4316). -/
def sourceColumn (s : Source) : Val → Source
  | .udata n => if n ≠ 0 then (if n ≤ 2 ^ 32 - 1 then { s with column := n } else s) else s
  | _ => s

/-- The three source attributes, as they occur in every attribute loop. -/
def sourceAttr (s : Source) : At → Val → Source
  | .declFile, v => sourceFile s v
  | .declLine, v => sourceLine s v
  | .declColumn, v => sourceColumn s v
  | _, _ => s

/-! ### Functions -/

/-- The local variables of `parse_subprogram` (parser/src/file/dwarf.rs:2208-2230). -/
structure SubState where
  function : Function
  specification : Option Nat := none
  abstractOrigin : Bool := false
  highPc : Option Nat := none
  size : Option Nat := none
  ranges : Option (List Range) := none
deriving DecidableEq, Repr

/-- The attribute loop of `parse_subprogram` (parser/src/file/dwarf.rs:2233-2323). `lowPc` is
`unit.low_pc`. -/
def subAttr (lowPc : Option Nat) (s : SubState) : At × Val → SubState
  | (.name, v) => { s with function := { s.function with name := v.str } }
  | (.linkageName, v) => { s with function := { s.function with linkageName := v.str } }
  | (.declFile, v) => { s with function := { s.function with source := sourceFile s.function.source v } }
  | (.declLine, v) => { s with function := { s.function with source := sourceLine s.function.source v } }
  | (.declColumn, v) => { s with function := { s.function with source := sourceColumn s.function.source v } }
  | (.inline, .inline b) => { s with function := { s.function with inline := b } }
  | (.lowPc, v) =>
    match v.addr with
    | some a => if a ≠ 0 ∨ lowPc = some 0 then { s with function := { s.function with address := optNew a } } else s
    | none => s
  | (.highPc, .udata n) => if n ≠ 0 then { s with size := some n } else s
  | (.highPc, v) => { s with highPc := v.addr }
  | (.ranges, v) => { s with ranges := v.rangesOf }
  | (.type, v) =>
    match v.offset with
    | some o => { s with function := { s.function with returnType := some o } }
    | none => s
  | (.specification, v) =>
    match v.offset with
    | some o => { s with specification := some o, abstractOrigin := false }
    | none => s
  | (.abstractOrigin, v) =>
    match v.offset with
    | some o => { s with specification := some o, abstractOrigin := true }
    | none => s
  | (.declaration, .flag b) => { s with function := { s.function with declaration := b } }
  | _ => s

/-- The address ranges of a function (parser/src/file/dwarf.rs:2325-2355). -/
def subRanges (s : SubState) : Function :=
  match s.ranges with
  | some rs =>
    let rs := rs.filter fun r => r.hi > r.lo
    { s.function with
      size := optNew ((rs.map fun r => r.hi - r.lo).sum % 2 ^ 64)
      ranges := s.function.ranges ++ rs
      address := optNew (((s.function.ranges ++ rs).head?.map fun r => r.lo).getD 0) }
  | none =>
    match s.function.address with
    | some address =>
      match s.highPc with
      | some highPc =>
        if highPc > address then
          { s.function with size := optNew (highPc - address), ranges := s.function.ranges ++ [⟨address, highPc⟩] }
        else s.function
      | none =>
        match s.size with
        | some size =>
          { s.function with size := optNew size, ranges := s.function.ranges ++ [⟨address, (address + size) % 2 ^ 64⟩] }
        | none => s.function
    | none => s.function

/-- `parse_subprogram` up to the handling of children (parser/src/file/dwarf.rs:2208-2355): the
function and its specification. -/
def subState (lowPc : Option Nat) (ns : Option Namespace) (d : Die) : SubState :=
  d.attrs.foldl (subAttr lowPc) { function := { offset := some d.offset, ns := ns } }

/-- The function record before its children are looked at. -/
def ownFunction (lowPc : Option Nat) (ns : Option Namespace) (d : Die) : Function := subRanges (subState lowPc ns d)

/-- The attribute loop of `parse_parameter_type` (parser/src/file/dwarf.rs:2500-2535). -/
def paramAttr (s : ParameterType × Option Nat) : At × Val → ParameterType × Option Nat
  | (.abstractOrigin, v) =>
    match v.offset with
    | some o => (s.1, some o)
    | none => s
  | (.name, v) => ({ s.1 with name := v.str }, s.2)
  | (.type, v) =>
    match v.offset with
    | some o => ({ s.1 with ty := some o }, s.2)
    | none => s
  | _ => s

/-- The parameter described by an entry, and its abstract origin. -/
def ownParam (d : Die) : ParameterType × Option Nat := d.attrs.foldl paramAttr (⟨some d.offset, none, none⟩, none)

/-- `p.name = parameter.name` and `p.ty = parameter.ty` if given (parser/src/file/dwarf.rs:2549-2555). -/
def overrideParam (p new : ParameterType) : ParameterType :=
  { p with name := if new.name.isSome then new.name else p.name, ty := if new.ty.isSome then new.ty else p.ty }

/-- Replace the first element that satisfies a test: `position` and an assignment. -/
def updateFirst (q : α → Bool) (f : α → α) : List α → Option (List α)
  | [] => none
  | x :: xs => if q x then some (f x :: xs) else (updateFirst q f xs).map (x :: ·)

/-- `parse_parameter_type` (parser/src/file/dwarf.rs:2491-2571). -/
def addParam (ps : List ParameterType) (d : Die) : List ParameterType :=
  match ownParam d with
  | (p, some origin) => (updateFirst (fun x => x.offset = some origin) (fun x => overrideParam x p) ps).getD (ps ++ [p])
  | (p, none) => ps ++ [p]

/-- The parameters among the children of a function: the `DW_TAG_formal_parameter` case of
`parse_subprogram_children` (parser/src/file/dwarf.rs:2433-2435). The code does this in the same
pass over the children as the rest. -/
def addParams (ps : List ParameterType) (children : List Die) : List ParameterType :=
  (children.filter fun c => c.tag = .formalParameter).foldl addParam ps

/-- `inherit_subprogram` (parser/src/file/dwarf.rs:2391-2411), once the specification is found. -/
def inheritSub (f s : Function) (abstractOrigin : Bool) : Function :=
  { f with
    ns := s.ns
    name := if f.name.isNone then s.name else f.name
    linkageName := if f.linkageName.isNone then s.linkageName else f.linkageName
    source := if f.source.file.isNone then s.source else f.source
    returnType := if f.returnType.isNone then s.returnType else f.returnType
    parameters := if abstractOrigin then s.parameters else f.parameters }

/-! ### Variables -/

/-- `evaluate_variable_location` (parser/src/file/dwarf.rs:3599-3633): the first piece at an
address. -/
def variableLocation : List (Option Nat × Option Nat) → Option (Option Nat × Option Nat)
  | [] => none
  | (some a, bits) :: _ => some (optNew a, bits.bind fun n => optNew ((n + 7) / 8))
  | (none, _) :: ps => variableLocation ps

/-- The attribute loop of `parse_variable` (parser/src/file/dwarf.rs:3166-3230): the variable and
its specification. -/
def varAttr (s : Variable × Option Nat) : At × Val → Variable × Option Nat
  | (.name, v) => ({ s.1 with name := v.str }, s.2)
  | (.linkageName, v) => ({ s.1 with linkageName := v.str }, s.2)
  | (.type, v) =>
    match v.offset with
    | some o => ({ s.1 with ty := some o }, s.2)
    | none => s
  | (.specification, v) =>
    match v.offset with
    | some o => (s.1, some o)
    | none => s
  | (.declaration, .flag b) => ({ s.1 with declaration := b }, s.2)
  | (.declFile, v) => ({ s.1 with source := sourceFile s.1.source v }, s.2)
  | (.declLine, v) => ({ s.1 with source := sourceLine s.1.source v }, s.2)
  | (.declColumn, v) => ({ s.1 with source := sourceColumn s.1.source v }, s.2)
  | (.location, .exprloc ps _) =>
    match variableLocation ps with
    | some (a, size) => ({ s.1 with address := a, size := if size.isSome then size else s.1.size }, s.2)
    | none => s
  | _ => s

/-- `parse_variable` (parser/src/file/dwarf.rs:3156-3246). -/
def ownVariable (ns : Option Namespace) (d : Die) : Variable × Option Nat :=
  d.attrs.foldl varAttr ({ offset := some d.offset, ns := ns }, none)

/-- The inheritance in `fixup_variable_specifications` (parser/src/file/dwarf.rs:718-728). -/
def inheritVar (v s : Variable) : Variable :=
  { v with
    ns := s.ns
    name := if v.name.isNone then s.name else v.name
    linkageName := if v.linkageName.isNone then s.linkageName else v.linkageName
    ty := if v.ty.isNone then s.ty else v.ty }

/-! ### Types -/

/-- `Size::new`/`none` of an optional size, as a raw `Size`. -/
def sizeAttr (old : Size) (v : Val) : Size :=
  match v.udataValue with
  | some n => Opt64.new n
  | none => old

/-- The name an attribute loop ends with; used for namespaces and types. -/
def Die.nameAttr (d : Die) : Option Str :=
  d.attrs.foldl (fun s av => if av.1 = .name then av.2.str else s) none

/-- The type reference an attribute loop ends with. -/
def Die.typeAttr (d : Die) : TypeOffset :=
  d.attrs.foldl (fun s av => if av.1 = .type then (match av.2.offset with | some o => some o | none => s) else s) none

/-- The byte size an attribute loop ends with. -/
def Die.sizeAttr (d : Die) (init : Size) : Size :=
  d.attrs.foldl (fun s av => if av.1 = .byteSize then Dwarf.sizeAttr s av.2 else s) init

/-- `evaluate_member_location` (parser/src/file/dwarf.rs:3577-3597). -/
def memberLocation : List (Option Nat × Option Nat) → Option Nat
  | [(some a, _)] => some (a * 8 % 2 ^ 64)
  | _ => none

/-- `parse_data_member_location` (parser/src/file/dwarf.rs:1723-1760). -/
def dataMemberLocation (version : Nat) : Val → Option Nat
  | .udata v => some (v * 8 % 2 ^ 64)
  | .sdata v => if 0 ≤ v then some (v.toNat * 8 % 2 ^ 64) else none
  | .exprloc ps _ => memberLocation ps
  | .loclist o _ => if version = 3 then some (o * 8 % 2 ^ 64) else none
  | _ => none

/-- The local variables of `parse_member` (parser/src/file/dwarf.rs:1551-1557). -/
structure MemberState where
  member : Member
  bitOffset : Option Nat := none
  byteSize : Option Nat := none
  declaration : Bool := false
deriving DecidableEq, Repr

/-- The attribute loop of `parse_member` (parser/src/file/dwarf.rs:1559-1616). -/
def memberAttr (version : Nat) (s : MemberState) : At × Val → MemberState
  | (.name, v) => { s with member := { s.member with name := v.str } }
  | (.type, v) =>
    match v.offset with
    | some o => { s with member := { s.member with ty := some o } }
    | none => s
  | (.dataMemberLocation, v) =>
    match dataMemberLocation version v with
    | some o => { s with member := { s.member with bitOffset := o } }
    | none => s
  | (.dataBitOffset, v) =>
    match v.udataValue with
    | some o => { s with member := { s.member with bitOffset := o } }
    | none => s
  | (.bitOffset, v) => { s with bitOffset := v.udataValue }
  | (.byteSize, v) => { s with byteSize := v.udataValue }
  | (.bitSize, v) => { s with member := { s.member with bitSize := Dwarf.sizeAttr s.member.bitSize v } }
  | (.declaration, _) => { s with declaration := true }
  | _ => s

/-- The position of an old-style bit field (parser/src/file/dwarf.rs:1633-1663), with wrapping
64-bit arithmetic. -/
def bitFieldOffset (bigEndian : Bool) (base : Nat) (bitOffset bitSize : Nat) (byteSize : Option Nat) : Nat :=
  if bigEndian then (base + bitOffset) % 2 ^ 64
  else match byteSize with
    | some byteSize =>
      ((base + byteSize * 8 % 2 ^ 64) % 2 ^ 64 + (2 ^ 64 - (bitOffset + bitSize) % 2 ^ 64)) % 2 ^ 64
    | none => base

/-- What the file and unit say about all entries: byte order, DWARF version, `unit.low_pc`, whether
`unit.language` is `DW_LANG_Rust`, and the entry of this unit at an offset. -/
structure Env where
  bigEndian : Bool := false
  version : Nat := 4
  lowPc : Option Nat := none
  rust : Bool := false
  entry : Nat → Option Die := fun _ => none

/-- The attributes of a member entry. -/
def memberState (env : Env) (d : Die) : MemberState :=
  d.attrs.foldl (memberAttr env.version) { member := ⟨d.offset, none, none, 0, Opt64.none⟩ }

/-- `parse_member` for a member that is not a declaration (parser/src/file/dwarf.rs:1633-1673). -/
def ownMember (env : Env) (d : Die) : Member :=
  let s := memberState env d
  match s.bitOffset, s.member.bitSize.get with
  | some bo, some bs => { s.member with bitOffset := bitFieldOffset env.bigEndian s.member.bitOffset bo bs s.byteSize }
  | _, _ => s.member

/-- The data members among the children: the `DW_TAG_member` cases (parser/src/file/dwarf.rs:1265-1267,
1362-1364, 1474-1483). -/
def childMembers (env : Env) (children : List Die) : List Member :=
  (children.filter fun c => c.tag = .member ∧ (memberState env c).declaration = false).map (ownMember env)

/-- `gimli`'s `attr_value`: the first attribute with this name. -/
def Die.firstAttr (d : Die) (a : At) : Option Val := (d.attrs.find? fun av => av.1 = a).map (·.2)

/-- The struct whose members `parse_variant` takes for those of the variant: for Rust, the type of the
single member (parser/src/file/dwarf.rs:1501-1509). An offset in the unit where no entry starts is
treated as no struct; `gimli` would try to decode what is there. -/
def variantStruct (env : Env) (members : List Member) : Option Die :=
  if env.rust then
    match members with
    | [m] => (m.ty.bind env.entry).bind fun s => if s.tag = .structure_ then some s else none
    | _ => none
  else none

/-- The attribute loop of `parse_variant` (parser/src/file/dwarf.rs:1455-1470). -/
def discrValueOf (d : Die) : Option Nat :=
  d.attrs.foldl (fun s av => if av.1 = .discrValue then (match av.2.udataValue with | some n => some n | none => s) else s) none

/-- `parse_variant` (parser/src/file/dwarf.rs:1442-1538). Left out: if the struct that a Rust variant
consists of has declared static members (which rustc does not emit), the code adds them to the
variables of the unit a second time. -/
def ownVariant (env : Env) (d : Die) : Variant :=
  match variantStruct env (childMembers env d.children) with
  | some s => { discrValue := discrValueOf d, name := (s.firstAttr .name).bind Val.str, members := childMembers env s.children }
  | none => { discrValue := discrValueOf d, name := none, members := childMembers env d.children }

/-- `parse_variant_part` (parser/src/file/dwarf.rs:1396-1440) without the members, which belong to
the struct. -/
def ownVariantPart (env : Env) (d : Die) : VariantPart :=
  { discr := d.attrs.foldl (fun s av => if av.1 = .discr then (match av.2.offset with | some n => some n | none => s) else s) none
    variants := (d.children.filter fun c => c.tag = .variant).map (ownVariant env) }

/-- `parse_inheritance` (parser/src/file/dwarf.rs:1677-1721). -/
def ownInherit (env : Env) (d : Die) : Inherit :=
  { ty := d.typeAttr
    bitOffset := d.attrs.foldl (fun s av => if av.1 = .dataMemberLocation then
      (match dataMemberLocation env.version av.2 with | some n => n | none => s) else s) 0 }

/-- The members of a struct, including those of its variant parts (parser/src/file/dwarf.rs:1265-1281,
1417-1421). -/
def structMembers (env : Env) (children : List Die) : List Member :=
  children.flatMap fun c =>
    if c.tag = .variantPart then childMembers env c.children else childMembers env [c]

/-- `parse_structure_type` (parser/src/file/dwarf.rs:1206-1301) apart from what it adds to the unit. -/
def ownStruct (env : Env) (ns : Option Namespace) (d : Die) : Ty :=
  .struct_ ns d.nameAttr (d.sizeAttr Opt64.none) (structMembers env d.children)
    ((d.children.filter fun c => c.tag = .variantPart).map (ownVariantPart env))
    ((d.children.filter fun c => c.tag = .inheritance).map (ownInherit env))

/-- `parse_union_type` (parser/src/file/dwarf.rs:1303-1382) apart from what it adds to the unit. -/
def ownUnion (env : Env) (ns : Option Namespace) (d : Die) : Ty :=
  .union_ ns d.nameAttr (d.sizeAttr Opt64.none) (childMembers env d.children)

/-- `parse_enumeration_type` (parser/src/file/dwarf.rs:1762-1838) apart from what it adds to the unit. -/
def ownEnum (ns : Option Namespace) (d : Die) : Ty := .enum_ ns d.nameAttr d.typeAttr (d.sizeAttr Opt64.none)

end Verif.Dwarf
