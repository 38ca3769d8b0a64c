import Verif.Order.Model
import Verif.Types.Spec
import Verif.Merge.Spec
/-!
# What a listing order and a pairing should be
-/
namespace Verif.Order
open Verif.Types Verif.Item Verif.Opts Verif.Merge Verif.Namespace

/-- `l'` lists `l` in the order `r`: the same items, none before a smaller one, and items that
are equal in the order stay as they were. -/
structure Arranged (r : α → α → Res Ordering) (l l' : List α) : Prop where
  perm : l'.Perm l
  sorted : l'.Pairwise (fun x y => ∃ o, r x y = .ok o ∧ o ≠ .gt)
  stable : ∀ p : α → Bool, (∀ x ∈ l, ∀ y ∈ l, p x = true → p y = true → r x y = .ok .eq) →
    l'.filter p = l.filter p

/-- `out` pairs the items of `la` and `lb`: every item occurs exactly once, a pair has the same
identity, and no item is reported as deleted while one with the same identity is reported as
added. -/
structure Paired (same : α → α → Prop) (la lb : List α) (out : List (MergeResult α α)) : Prop where
  old : (oldItems out).Perm la
  new : (newItems out).Perm lb
  pairs : ∀ a b, .both a b ∈ out → same a b
  maximal : ∀ a b, .left a ∈ out → .right b ∈ out → ¬ same a b

/-- The qualified name of an item: its namespace path, and its own name. -/
def qname (ns : Option Namespace) (name : Option Str) : Option (List (Option Str)) × Option Str :=
  (ns.map Namespace.path, name)

/-- No reference cycle is reachable from the type (see `IdRef`), and `byte_size` returns for it. -/
def GoodType (h : Hash) (t : Ty) : Prop :=
  Acc (IdRef h) t ∧ ∃ n s, byteSize n h t = .ok s

/-- No reference cycle is reachable from the parameters. -/
def GoodFunction (h : Hash) (f : Function) : Prop :=
  ∀ p ∈ f.parameters, ∀ t, fromOffset h p.ty = some t → Acc (IdRef h) t

/-- `byte_size` returns for the type of the variable. -/
def GoodVariable (h : Hash) (v : Variable) : Prop :=
  ∀ t, fromOffset h v.ty = some t → ∃ n s, byteSize n h t = .ok s

/-- `head` is what comes before the first `@` (byte 64) of `s`. -/
def CutAt (s head : Str) : Prop :=
  64 ∉ head ∧ (s = head ∨ ∃ rest, s = head ++ 64 :: rest)

/-- The name units are compared by: the first matching prefix is replaced, and everything from the
first `@` of the rest is cut off. -/
inductive UnitName (o : Options) (u : CompUnit) : Str → Prop
  | mapped {before after old new rest head} : o.prefixMap = before ++ (old, new) :: after →
      u.name.getD [] = old ++ rest → (∀ e ∈ before, ¬ e.1 <+: u.name.getD []) →
      CutAt rest head → UnitName o u (new ++ head)
  | plain {head} : (∀ e ∈ o.prefixMap, ¬ e.1 <+: u.name.getD []) →
      CutAt (u.name.getD []) head → UnitName o u head

end Verif.Order
