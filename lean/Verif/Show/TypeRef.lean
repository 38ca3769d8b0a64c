import Verif.Show.TypeModel
import Verif.Namespace.Spec
/-!
# C78: how a reference to a type is written

Model of `print::types::print_ref` and `ref_id` (main/src/print/types.rs:40-202), a specification of
the text and of the links, and the proof that they agree.
-/
namespace Verif.Show
open Verif.Print Verif.Item Verif.Namespace Verif.Types Verif.Opts Verif.Path

/-! ## Model -/

/-- `ref_id` (main/src/print/types.rs:70-87). The first argument bounds the recursion; `none`: the
bound was reached. -/
def refId : Nat → Hash → (TypeOffset → Extra) → TypeOffset → Option (Option Nat)
  | 0, _, _, _ => none
  | n + 1, h, x, o =>
    match fromOffset h o with
    | none => some none
    | some t =>
      match t with
      | .void | .function .. | .unspecified .. | .pointerToMember .. => some none
      | .base .. | .def_ .. | .struct_ .. | .union_ .. | .enum_ .. => some (some (x o).id)
      | .array ty _ _ _ => refId n h x ty
      | .modifier _ ty _ _ => refId n h x ty
      | .subrange _ ty _ _ _ => refId n h x ty

/-- A count of an array, or `??` (main/src/print/types.rs:98-110). -/
def countText (c : Size) : Str :=
  match c.get with
  | some n => dec n
  | none => k "??"

/-- The counts of an array (main/src/print/types.rs:97-110). -/
def countsText : List Size → Str
  | [] => []
  | c :: cs => k "; " ++ countText c ++ (cs.map fun c => k ", " ++ countText c).flatten

/-- The names of the parameters of a `FunctionType` with what was written for their types
(main/src/print/types.rs:118-128): simplification, the names are a separate list. -/
def withNames : List (Option Str) → List Val → List (Option Str × Val)
  | _, [] => []
  | [], v :: vs => (none, v) :: withNames [] vs
  | n :: ns, v :: vs => (n, v) :: withNames ns vs

/-- One parameter (main/src/print/types.rs:124-127). -/
def paramRef : Option Str × Val → Val
  | (some name, v) => vals [.text (name ++ k ": "), v]
  | (none, v) => v

/-- The parameters (main/src/print/types.rs:116-128). -/
def paramRefs : List (Option Str × Val) → Val
  | [] => .nil
  | p :: ps => .seq (paramRef p) (vals (ps.map fun p => .seq (.text (k ", ")) (paramRef p)))

/-- Whether `-> ..` follows (main/src/print/types.rs:131-133). -/
def returnShown (h : Hash) (o : TypeOffset) : Bool :=
  match fromOffset h o with
  | none | some .void => false
  | some _ => true

/-- What is written for a modifier without a name before the type it modifies
(main/src/print/types.rs:168-178). -/
def modifierText : ModKind → Str
  | .pointer => k "* "
  | .reference | .rvalueReference => k "& "
  | .const_ => k "const "
  | .volatile => k "volatile "
  | .restrict => k "restrict "
  | .packed | .shared | .atomic | .other => []

/-- The name of a modifier or subrange, linked if there is a type to link to
(main/src/print/types.rs:161-166, 186-191). -/
def namedRef (name : Str) : Option Nat → Val
  | some id => .link id (.name name)
  | none => .name name

/-- The bounds of a subrange (main/src/print/types.rs:196-200). -/
def boundsText : Option Nat → Option Nat → Str
  | some l, some u => k " " ++ dec l ++ k ".." ++ dec u
  | some l, none => k " " ++ dec l ++ k ".."
  | none, some u => k " .." ++ dec u
  | none, none => []

/-- `print_ref` of the type at an offset (main/src/print/types.rs:40-69, 89-202, with
base_type.rs:11-16, type_def.rs:14-16, struct_type.rs:15-17, union_type.rs:15-17,
enumeration.rs:15-17). The first argument bounds the recursion; `none`: the bound was reached. -/
def typeRef : Nat → Hash → (TypeOffset → Extra) → TypeOffset → Option Val
  | 0, _, _, _ => none
  | n + 1, h, x, o =>
    match fromOffset h o with
    | none => some (.text (k "<invalid-type>"))
    | some t =>
      match t with
      | .void => some (.text (k "void"))
      | .base name _ => some (.link (x o).id (.text (name.getD (k "<anon-base-type>"))))
      | .def_ ns name _ => some (.link (x o).id (defName ns name))
      | .struct_ ns name .. => some (.link (x o).id (taggedName (k "struct ") ns name))
      | .union_ ns name .. => some (.link (x o).id (taggedName (k "union ") ns name))
      | .enum_ ns name .. => some (.link (x o).id (taggedName (k "enum ") ns name))
      | .array ty count counts _ => do
        let e ← typeRef n h x ty
        some (vals [.text (k "["), e, .text (countsText (countsAsSlice count counts)), .text (k "]")])
      | .function ps ret _ => do
        let vs ← ps.mapM (typeRef n h x)
        let head := vals [.text (k "("), paramRefs (withNames (x o).paramNames vs), .text (k ")")]
        if returnShown h ret then do
          let r ← typeRef n h x ret
          some (vals [head, .text (k " -> "), r])
        else some head
      | .unspecified ns name => some (vals [nsOpt ns, .name (name.getD (k "<void>"))])
      | .pointerToMember ty containing _ _ => do
        let c ← typeRef n h x containing
        let m ← typeRef n h x ty
        some (vals [c, .text (k "::* "), m])
      | .modifier kind ty _ _ =>
        match (x o).name with
        | some name => (refId n h x ty).map (namedRef name)
        | none => do
          let v ← typeRef n h x ty
          some (vals [.text (modifierText kind), v])
      | .subrange name ty lower upper _ => do
        let v ← match name with
          | some name => (refId n h x ty).map (namedRef name)
          | none => typeRef n h x ty
        some (vals [v, .text (boundsText lower upper)])

/-! ## Specification -/

/-- The scopes of a name as they are written: `a::b::`, with `()` after a function. -/
def scopeText : Option Namespace → Str
  | none => []
  | some ns => ns.scopes.flatMap fun (name, kind) =>
      name.getD (Str.ofString "<anon>") ++ (if kind = .function then Str.ofString "()" else []) ++ Str.ofString "::"

/-- Items with a separator in between. -/
def joined (sep : Str) : List Str → Str
  | [] => []
  | [s] => s
  | s :: ss => s ++ sep ++ joined sep ss

/-- A dimension of an array. -/
def dimText : Option Nat → Str
  | some n => dec n
  | none => Str.ofString "??"

/-- The dimensions an array has: its list of counts, or its only count. -/
def dims (count : Size) (counts : List Size) : List (Option Nat) :=
  (match counts with | [] => [count] | cs => cs).map Sentinel.Opt64.get

/-- Following array elements, modified types and the base types of subranges from this offset comes
to an end: at another kind of type, or at an offset without a type. -/
inductive Ends (h : Hash) : TypeOffset → Prop
  | missing {o} : fromOffset h o = none → Ends h o
  | array {o ty c cs s} : fromOffset h o = some (.array ty c cs s) → Ends h ty → Ends h o
  | modifier {o kd ty s a} : fromOffset h o = some (.modifier kd ty s a) → Ends h ty → Ends h o
  | subrange {o nm ty l u s} : fromOffset h o = some (.subrange nm ty l u s) → Ends h ty → Ends h o
  | other {o t} : fromOffset h o = some t → (∀ ty c cs s, t ≠ .array ty c cs s) →
      (∀ kd ty s a, t ≠ .modifier kd ty s a) → (∀ nm ty l u s, t ≠ .subrange nm ty l u s) → Ends h o

/-- Each parameter with its name, if it has one. -/
def labelled : List (Option Str) → List Str → List Str
  | _, [] => []
  | (some nm) :: ns, t :: ts => (nm ++ Str.ofString ": " ++ t) :: labelled ns ts
  | ns, t :: ts => t :: labelled ns.tail ts

/-- What a modifier puts before the type it modifies. -/
def prefixOf (kd : ModKind) : Str :=
  if kd = .pointer then Str.ofString "* "
  else if kd = .reference ∨ kd = .rvalueReference then Str.ofString "& "
  else if kd = .const_ then Str.ofString "const "
  else if kd = .volatile then Str.ofString "volatile "
  else if kd = .restrict then Str.ofString "restrict "
  else []

/-- The bounds of a subrange, with `..` between them, if there is one. -/
def between (l u : Option Nat) : Str :=
  if l = none ∧ u = none then []
  else Str.ofString " " ++ l.elim [] dec ++ Str.ofString ".." ++ u.elim [] dec

/-- `Spelled h x o s`: a reference to the type at offset `o` reads `s`. -/
inductive Spelled (h : Hash) (x : TypeOffset → Extra) : TypeOffset → Str → Prop
  | missing {o} : fromOffset h o = none → Spelled h x o (Str.ofString "<invalid-type>")
  | void {o} : fromOffset h o = some .void → Spelled h x o (Str.ofString "void")
  | base {o nm s} : fromOffset h o = some (.base nm s) → Spelled h x o (nm.getD (Str.ofString "<anon-base-type>"))
  | typedef {o ns nm ty} : fromOffset h o = some (.def_ ns nm ty) →
      Spelled h x o (scopeText ns ++ nm.getD (Str.ofString "<anon-typedef>"))
  | struct_ {o ns nm s ms vs is} : fromOffset h o = some (.struct_ ns nm s ms vs is) →
      Spelled h x o (Str.ofString "struct " ++ scopeText ns ++ nm.getD (Str.ofString "<anon>"))
  | union_ {o ns nm s ms} : fromOffset h o = some (.union_ ns nm s ms) →
      Spelled h x o (Str.ofString "union " ++ scopeText ns ++ nm.getD (Str.ofString "<anon>"))
  | enum_ {o ns nm ty s} : fromOffset h o = some (.enum_ ns nm ty s) →
      Spelled h x o (Str.ofString "enum " ++ scopeText ns ++ nm.getD (Str.ofString "<anon>"))
  | array {o ty c cs s e} : fromOffset h o = some (.array ty c cs s) → Spelled h x ty e →
      Spelled h x o (Str.ofString "[" ++ e ++ Str.ofString "; " ++ joined (Str.ofString ", ") ((dims c cs).map dimText) ++ Str.ofString "]")
  | procedure {o ps ret s} {ts : List Str} : fromOffset h o = some (.function ps ret s) →
      ts.length = ps.length → (∀ i (hp : i < ps.length) (ht : i < ts.length), Spelled h x ps[i] ts[i]) →
      (fromOffset h ret = none ∨ fromOffset h ret = some .void) →
      Spelled h x o (Str.ofString "(" ++ joined (Str.ofString ", ") (labelled (x o).paramNames ts) ++ Str.ofString ")")
  | function {o ps ret s r t} {ts : List Str} : fromOffset h o = some (.function ps ret s) →
      ts.length = ps.length → (∀ i (hp : i < ps.length) (ht : i < ts.length), Spelled h x ps[i] ts[i]) →
      fromOffset h ret = some t → t ≠ .void → Spelled h x ret r →
      Spelled h x o (Str.ofString "(" ++ joined (Str.ofString ", ") (labelled (x o).paramNames ts) ++ Str.ofString ") -> " ++ r)
  | unspecified {o ns nm} : fromOffset h o = some (.unspecified ns nm) →
      Spelled h x o (scopeText ns ++ nm.getD (Str.ofString "<void>"))
  | pointerToMember {o ty cty s a c m} : fromOffset h o = some (.pointerToMember ty cty s a) →
      Spelled h x cty c → Spelled h x ty m → Spelled h x o (c ++ Str.ofString "::* " ++ m)
  | namedModifier {o kd ty s a nm} : fromOffset h o = some (.modifier kd ty s a) → (x o).name = some nm →
      Ends h ty → Spelled h x o nm
  | modifier {o kd ty s a e} : fromOffset h o = some (.modifier kd ty s a) → (x o).name = none →
      Spelled h x ty e → Spelled h x o (prefixOf kd ++ e)
  | namedSubrange {o nm ty l u s} : fromOffset h o = some (.subrange (some nm) ty l u s) → Ends h ty →
      Spelled h x o (nm ++ between l u)
  | subrange {o ty l u s e} : fromOffset h o = some (.subrange none ty l u s) → Spelled h x ty e →
      Spelled h x o (e ++ between l u)

end Verif.Show
