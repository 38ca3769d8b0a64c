import Verif.Types.Model
import Verif.Namespace.Spec
/-!
# Specification vocabulary for types
-/
namespace Verif.Types
open Verif.Sentinel Verif.Namespace

/-- What identifies a type, as a tree: the kind, and either the qualified name or the identities
of the components. An absent (`none`) component is a dangling reference. -/
inductive Ident
  | void
  | base (name : Option Str)
  | named (kind : Nat) (path : Option (List (Option Str))) (name : Option Str)
  | array (elem : Option Ident) (count : Option Nat)
  | function (params : List (Option Ident)) (ret : Option Ident)
  | pointerToMember (containing member : Option Ident)
  | modifier (kind : ModKind) (inner : Option Ident)
  | subrange (inner : Option Ident) (lower upper : Option Nat)

/-- Pointwise relation of two optional values. -/
inductive OptRel (R : α → β → Prop) : Option α → Option β → Prop
  | none : OptRel R none none
  | some {a b} : R a b → OptRel R (some a) (some b)

/-- Pointwise relation of two lists. -/
inductive All2 (R : α → β → Prop) : List α → List β → Prop
  | nil : All2 R [] []
  | cons {a b as bs} : R a b → All2 R as bs → All2 R (a :: as) (b :: bs)

/-- `IdentOf h t i`: in the file `h`, the type `t` is identified by `i`. -/
inductive IdentOf (h : Hash) : Ty → Ident → Prop
  | void : IdentOf h .void .void
  | base {n s} : IdentOf h (.base n s) (.base n)
  | def_ {ns n ty} : IdentOf h (.def_ ns n ty) (.named 3 (ns.map Namespace.path) n)
  | struct_ {ns n s ms vs is} :
      IdentOf h (.struct_ ns n s ms vs is) (.named 4 (ns.map Namespace.path) n)
  | union_ {ns n s ms} : IdentOf h (.union_ ns n s ms) (.named 5 (ns.map Namespace.path) n)
  | enum_ {ns n ty s} : IdentOf h (.enum_ ns n ty s) (.named 6 (ns.map Namespace.path) n)
  | unspecified {ns n} : IdentOf h (.unspecified ns n) (.named 9 (ns.map Namespace.path) n)
  | array {ty c cs s i} : OptRel (IdentOf h) (fromOffset h ty) i →
      IdentOf h (.array ty c cs s) (.array i c.get)
  | function {ps rt s is j} : All2 (OptRel (IdentOf h)) (ps.map (fromOffset h)) is →
      OptRel (IdentOf h) (fromOffset h rt) j →
      IdentOf h (.function ps rt s) (.function is j)
  | pointerToMember {ty c s a i j} : OptRel (IdentOf h) (fromOffset h c) i →
      OptRel (IdentOf h) (fromOffset h ty) j →
      IdentOf h (.pointerToMember ty c s a) (.pointerToMember i j)
  | modifier {k ty s a i} : OptRel (IdentOf h) (fromOffset h ty) i →
      IdentOf h (.modifier k ty s a) (.modifier k i)
  | subrange {n ty l u s i} : OptRel (IdentOf h) (fromOffset h ty) i →
      IdentOf h (.subrange n ty l u s) (.subrange i l u)

/-- The references of a type that take part in its identity. -/
def Ty.idRefs : Ty → List TypeOffset
  | .array ty _ _ _ => [ty]
  | .function ps rt _ => ps ++ [rt]
  | .pointerToMember ty c _ _ => [c, ty]
  | .modifier _ ty _ _ => [ty]
  | .subrange _ ty _ _ _ => [ty]
  | _ => []

/-- `t'` is directly referenced, for identity, by `t`. `Acc (IdRef h) t` says that no infinite
(in a finite file: no cyclic) chain of references starts at `t`. -/
def IdRef (h : Hash) (t' t : Ty) : Prop := ∃ o ∈ t.idRefs, fromOffset h o = some t'

/-- The function type reached through aliases and modifiers, if any. -/
inductive IsFn (h : Hash) : Ty → Bool → Prop
  | function {ps rt s} : IsFn h (.function ps rt s) true
  | def_ {ns n ty t b} : fromOffset h ty = some t → IsFn h t b → IsFn h (.def_ ns n ty) b
  | modifier {k ty s a t b} : fromOffset h ty = some t → IsFn h t b →
      IsFn h (.modifier k ty s a) b
  | danglingDef {ns n ty} : fromOffset h ty = none → IsFn h (.def_ ns n ty) false
  | danglingMod {k ty s a} : fromOffset h ty = none → IsFn h (.modifier k ty s a) false
  | other {t} : t.discr ≠ 8 → t.discr ≠ 3 → t.discr ≠ 11 → IsFn h t false

/-- The modifiers whose objects are addresses: pointers and both kinds of references. -/
def ModKind.refersTo (k : ModKind) : Bool := k = .pointer ∨ k = .reference ∨ k = .rvalueReference

/-- The size a type declares itself, if it does. -/
def Ty.declared : Ty → Option Nat
  | .base _ s | .struct_ _ _ s _ _ _ | .union_ _ _ s _ | .enum_ _ _ _ s | .array _ _ _ s
  | .function _ _ s | .pointerToMember _ _ s _ | .modifier _ _ s _ | .subrange _ _ _ _ s => s.get
  | .void | .def_ .. | .unspecified .. => none

/-- The dimensions of an array type. -/
def dims (count : Size) (counts : List Size) : List (Option Nat) :=
  match counts with
  | [] => [count.get]
  | cs => cs.map Opt64.get

/-- Product of the known numbers, unknown if one is unknown. -/
def prodAll : List (Option Nat) → Option Nat
  | [] => some 1
  | none :: _ => none
  | some n :: ns => (prodAll ns).map (n * ·)

/-- The type a type is built on. -/
def Ty.idTarget : Ty → Option TypeOffset
  | .def_ _ _ ty | .enum_ _ _ ty _ | .array ty _ _ _ | .pointerToMember ty _ _ _
  | .modifier _ ty _ _ | .subrange _ ty _ _ _ => some ty
  | _ => none

/-- `SizeOf h t s`: the size in bytes of `t` is `s` (`none`: unknown), over unbounded numbers. -/
inductive SizeOf (h : Hash) : Ty → Option Nat → Prop
  | void : SizeOf h .void (some 0)
  | declared {t n} : t.declared = some n → SizeOf h t (some n)
  /-- kinds that carry their own size only -/
  | undeclared {t} : t.declared = none → t.discr ∈ [2, 4, 5, 8, 9] → SizeOf h t none
  /-- aliases, enumerations, subranges and non-pointer modifiers take the size of the target -/
  | target {t ty t' s} : t.declared = none →
      (t.discr ∈ [3, 6, 12] ∨ ∃ k s' a, t = .modifier k ty s' a ∧ k.refersTo = false) →
      t.idTarget = some ty → fromOffset h ty = some t' → SizeOf h t' s → SizeOf h t s
  | dangling {t ty} : t.declared = none →
      (t.discr ∈ [3, 6, 7, 10, 12] ∨ ∃ k s' a, t = .modifier k ty s' a ∧ k.refersTo = false) →
      t.idTarget = some ty → fromOffset h ty = none → SizeOf h t none
  | pointer {k ty s a} : s.get = none → k.refersTo = true → SizeOf h (.modifier k ty s a) a
  | array {ty c cs s t' n} : s.get = none → fromOffset h ty = some t' → SizeOf h t' (some n) →
      SizeOf h (.array ty c cs s) ((prodAll (dims c cs)).map (n * ·))
  | arrayUnknown {ty c cs s t'} : s.get = none → fromOffset h ty = some t' → SizeOf h t' none →
      SizeOf h (.array ty c cs s) none
  | memberFn {ty c s a t'} : s.get = none → fromOffset h ty = some t' → IsFn h t' true →
      SizeOf h (.pointerToMember ty c s a) (a.map (· * 2))
  | memberData {ty c s a t'} : s.get = none → fromOffset h ty = some t' → IsFn h t' false →
      SizeOf h (.pointerToMember ty c s a) a

/-- A size-related query on a type. -/
inductive Q
  | size (t : Ty)
  | isFn (t : Ty)

/-- The one other query that answering a query depends on, if any: the size of an alias,
enumeration, subrange, array or non-pointer modifier without a declared size depends on the size
of its target; the size of a pointer to member on whether the member is a function; which for an
alias or modifier depends on its target. -/
def Q.next (h : Hash) : Q → Option Q
  | .size t => match t.declared, t with
    | none, .def_ _ _ ty | none, .enum_ _ _ ty _ | none, .array ty _ _ _
    | none, .subrange _ ty _ _ _ => (fromOffset h ty).map .size
    | none, .modifier k ty _ _ => if k.refersTo then none else (fromOffset h ty).map .size
    | none, .pointerToMember ty _ _ _ => (fromOffset h ty).map .isFn
    | _, _ => none
  | .isFn t => match t with
    | .def_ _ _ ty | .modifier _ ty _ _ => (fromOffset h ty).map .isFn
    | _ => none

/-- The query reached after `n` dependencies, if the chain is that long. -/
def chain (h : Hash) : Nat → Q → Option Q
  | 0, q => some q
  | n + 1, q => (q.next h).bind (chain h n)

/-- A multiplication needed for the size of `t` exceeds 64 bits. -/
inductive Overflows (h : Hash) : Ty → Prop
  | array {ty c cs s t' n pre post p} : s.get = none → fromOffset h ty = some t' →
      SizeOf h t' (some n) → dims c cs = pre ++ post → prodAll pre = some p → top < n * p →
      Overflows h (.array ty c cs s)
  | memberFn {ty c s t' a} : s.get = none → fromOffset h ty = some t' → IsFn h t' true →
      top < a * 2 → Overflows h (.pointerToMember ty c s (some a))
  | target {t t'} : Q.next h (.size t) = some (.size t') → Overflows h t' → Overflows h t

end Verif.Types
