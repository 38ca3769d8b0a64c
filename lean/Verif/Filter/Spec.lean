import Verif.Filter.Model
import Verif.Item.Spec
import Verif.Namespace.Spec
/-! # Specification vocabulary for filters -/
namespace Verif.Filter
open Verif.Item Verif.Opts Verif.Types Verif.Namespace

/-- A name as rewritten by a list of prefix mappings: the first that applies. -/
inductive MapsTo : List (Str × Str) → Str → Str → Prop
  | none {n} : MapsTo [] n n
  | hit {old new l r} : MapsTo ((old, new) :: l) (old ++ r) (new ++ r)
  | miss {old new l n m} : (∀ r, n ≠ old ++ r) → MapsTo l n m → MapsTo ((old, new) :: l) n m

/-- The unit the user asked for, if one was asked for: the one whose mapped name is the filter. -/
def WantedUnit (o : Options) (u : CompUnit) : Prop :=
  ∀ f, o.filterUnit = some f → MapsTo o.prefixMap (u.name.getD []) f

/-- The name filter: if a name was asked for, the item has exactly that name. -/
def NameOk (o : Options) (name : Option Str) : Prop :=
  ∀ f, o.filterName = some f → name = some f

/-- The namespace filter: if a (non-empty) path was asked for, the item is in a namespace, and the
path begins that namespace's qualified path. -/
def NamespaceOk (o : Options) (ns : Option Namespace) : Prop :=
  o.filterNamespace ≠ [] →
    ∃ n, ns = some n ∧ o.filterNamespace.map some <+: n.path

/-- The inline filter: if an inline status was asked for, the function has it. -/
def InlineOk (o : Options) (inline : Bool) : Prop :=
  ∀ b, o.filterFunctionInline = some b → inline = b

/-- The functions to list. -/
def WantedFunction (o : Options) (f : Function) : Prop :=
  (f.inline = true ∨ (∃ a, f.address = some a) ∧ (∃ s, f.size = some s)) ∧
  NameOk o f.name ∧ NamespaceOk o f.ns ∧ InlineOk o f.inline

/-- The variables to list. -/
def WantedVariable (o : Options) (v : Variable) : Prop :=
  (v.declaration = true ∨ ∃ a, v.address = some a) ∧ NameOk o v.name ∧ NamespaceOk o v.ns

/-- Name and namespace of a type of a kind that is listed on its own. -/
inductive Listed : Ty → Option Str → Option Namespace → Prop
  | base {n s} : Listed (.base n s) n none
  | typedef {ns n t} : Listed (.def_ ns n t) n ns
  | struct {ns n s ms vs is} : Listed (.struct_ ns n s ms vs is) n ns
  | union {ns n s ms} : Listed (.union_ ns n s ms) n ns
  | enum {ns n t s} : Listed (.enum_ ns n t s) n ns

/-- The namespace is inside an unnamed type, with only types in between. -/
def InAnonymous (ns : Option Namespace) : Prop :=
  ∃ n, ns = some n ∧ ∃ outer inner : List (Option Str × NamespaceKind),
    n.scopes = outer ++ (none, .type) :: inner ∧ ∀ s ∈ inner, s.2 = .type

/-- A struct or union without a name, or nested within an unnamed type. -/
inductive Anonymous : Ty → Prop
  | struct {ns n s ms vs is} : n = none ∨ InAnonymous ns → Anonymous (.struct_ ns n s ms vs is)
  | union {ns n s ms} : n = none ∨ InAnonymous ns → Anonymous (.union_ ns n s ms)

/-- A member whose type is shown in place: it has no name, an encoded-enum name, or an anonymous
type. -/
def ShownInPlace (h : Hash) (m : Member) : Prop :=
  m.name = none ∨ (∃ r, m.name = some (k "RUST$ENCODED$ENUM$" ++ r)) ∨
    ∃ t, fromOffset h m.ty = some t ∧ Anonymous t

/-- A member of a struct or of a union. -/
inductive MemberOf (m : Member) : Ty → Prop
  | struct {ns n s ms vs is} : m ∈ ms → MemberOf m (.struct_ ns n s ms vs is)
  | union {ns n s ms} : m ∈ ms → MemberOf m (.union_ ns n s ms)

/-- A type of the unit that appears inside another: it is anonymous, or is the type of a member
shown in place. -/
def Nested (h : Hash) (u : CompUnit) (off : Nat) : Prop :=
  (∃ t ∈ u.types, t.offset = some off ∧ Anonymous t.kind) ∨
  (∃ t ∈ u.types, ∃ m, MemberOf m t.kind ∧ m.ty = some off ∧ ShownInPlace h m)

/-- The types to list on their own. -/
def WantedType (h : Hash) (u : CompUnit) (o : Options) (diff : Bool) (t : TypeEntry) : Prop :=
  (∃ name ns, Listed t.kind name ns ∧ NameOk o name ∧ NamespaceOk o ns) ∧
  (diff = true → ¬ ∃ ns s ms vs is, t.kind = .struct_ ns (some (k "closure")) s ms vs is) ∧
  ∃ off, t.offset = some off ∧ ¬ Nested h u off

end Verif.Filter
