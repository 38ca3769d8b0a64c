import Verif.Str
/-!
# Model of `parser/src/namespace.rs`
-/
namespace Verif.Namespace

/-- `NamespaceKind` (parser/src/namespace.rs:5-13). -/
inductive NamespaceKind
  | namespace_ | function | type
deriving DecidableEq, Repr

/-- `Namespace` (parser/src/namespace.rs:17-21). `root` has `parent: None`, `child` has
`parent: Some(..)`. -/
inductive Namespace
  | root (name : Option Str) (kind : NamespaceKind)
  | child (parent : Namespace) (name : Option Str) (kind : NamespaceKind)
deriving DecidableEq, Repr

namespace Namespace

/-- `Namespace::parent` (parser/src/namespace.rs:37-39). -/
def parent : Namespace → Option Namespace
  | root _ _ => none
  | child p _ _ => some p

/-- `Namespace::name` (parser/src/namespace.rs:43-45). -/
def name : Namespace → Option Str
  | root n _ => n
  | child _ n _ => n

/-- `Namespace::kind` (parser/src/namespace.rs:49-51). -/
def kind : Namespace → NamespaceKind
  | root _ k => k
  | child _ _ k => k

/-- `Namespace::len` (parser/src/namespace.rs:53-58). -/
def len : Namespace → Nat
  | root _ _ => 1
  | child p _ _ => p.len + 1

/-- `Namespace::up` (parser/src/namespace.rs:60-69). -/
def up : Namespace → Nat → Namespace
  | ns, 0 => ns
  | child p _ _, n + 1 => p.up n
  | root n k, _ + 1 => root n k

/-- `Namespace::is_anon_type` (parser/src/namespace.rs:71-79), for `Some(namespace)`. -/
def isAnonType' : Namespace → Bool
  | root n k => k == .type && (n.isNone || false)
  | child p n k => k == .type && (n.isNone || p.isAnonType')

/-- `Namespace::is_anon_type` (parser/src/namespace.rs:71-79). -/
def isAnonType : Option Namespace → Bool
  | some ns => ns.isAnonType'
  | none => false

/-- The part of `_is_within` after the recursive call (parser/src/namespace.rs:87-98). -/
def isWithinStep (name : Option Str) (f : List Str) : Bool × Nat → Bool × Nat
  | (true, offset) =>
    if h : offset < f.length then
      match name with
      | some n => (n == f[offset], offset + 1)
      | none => (false, offset + 1)
    else (true, offset)
  | (false, _) => (false, 0)

/-- `Namespace::_is_within` (parser/src/namespace.rs:81-99). -/
def isWithin' : Namespace → List Str → Bool × Nat
  | root n _, f => isWithinStep n f (true, 0)
  | child p n _, f => isWithinStep n f (p.isWithin' f)

/-- `Namespace::is_within` (parser/src/namespace.rs:104-106). -/
def isWithin (ns : Namespace) (f : List Str) : Bool := ns.isWithin' f == (true, f.length)

/-- `Namespace::_cmp` (parser/src/namespace.rs:108-120); the `debug_assert_eq!` on lengths holds
at every call (see `C07_cmp_assert_holds`). -/
def cmp' : Namespace → Namespace → Ordering
  | child p1 n1 _, child p2 n2 _ =>
    let ord := cmp' p1 p2
    if ord ≠ .eq then ord else compare n1 n2
  | a, b => compare a.name b.name

/-- `Namespace::cmp` (parser/src/namespace.rs:122-142). -/
def cmp (a b : Namespace) : Ordering :=
  match compare a.len b.len with
  | .eq => cmp' a b
  | .lt => match cmp' a (b.up (b.len - a.len)) with
    | .eq => .lt
    | o => o
  | .gt => match cmp' (a.up (a.len - b.len)) b with
    | .eq => .gt
    | o => o

/-- `Namespace::cmp_ns_and_name` (parser/src/namespace.rs:144-159). -/
def cmpNsAndName (ns1 : Option Namespace) (name1 : Option Str) (ns2 : Option Namespace)
    (name2 : Option Str) : Ordering :=
  match ns1, ns2 with
  | some ns1, some ns2 => match cmp ns1 ns2 with
    | .eq => compare name1 name2
    | o => o
  | some _, none => .gt
  | none, some _ => .lt
  | none, none => compare name1 name2

end Namespace
end Verif.Namespace
