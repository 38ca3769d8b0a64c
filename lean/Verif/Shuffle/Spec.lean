import Verif.Show.FileModel
import Verif.Types.Spec
import Verif.Order.Props
/-!
# C102: the same file with its units and entries in another order
-/
namespace Verif.Shuffle
open Verif.Types Verif.Item Verif.Opts Verif.Order Verif.Show

/-- `l'` has the items of `l` in another order, in which items that the comparison `r` does not
tell apart follow each other as in `l`. If `r` tells all items apart, this is any order
(`reordered_of_distinct`). -/
structure Reordered {α : Type} (r : α → α → Res Ordering) (l l' : List α) : Prop where
  perm : l.Perm l'
  ties : ∀ x ∈ l, l.filter (fun y => decide (r x y = .ok .eq)) = l'.filter (fun y => decide (r x y = .ok .eq))

/-- Comparisons of the four kinds of items. -/
structure Keys where
  unit : CompUnit → CompUnit → Res Ordering
  type : TypeEntry → TypeEntry → Res Ordering
  function : Function → Function → Res Ordering
  var : Variable → Variable → Res Ordering

/-- What a listing is sorted by (see C53 for what these compare). -/
def listingKeys (o : Options) (n : Nat) (s : FileSide) : Keys where
  unit x y := unitCmpBy o n x s.tsz y s.tsz
  type x y := typeCmpBy o n x s.hash y s.hash
  function x y := functionCmpBy o n x s.hash y s.hash
  var x y := variableCmpBy o n x s.hash y s.hash

/-- What items of two files are paired by: the mapped name of a unit, the identity of a type, the
qualified name and the types of the parameters of a function, the qualified name of a variable. -/
def pairingKeys (o : Options) (n : Nat) (s : FileSide) : Keys where
  unit x y := .ok (unitCmpId o x y)
  type x y := cmpId false n s.hash x.kind s.hash y.kind
  function x y := functionCmpIdForSort n x s.hash y s.hash
  var x y := .ok (variableCmpId x y)

/-- The unit `u'` of `s'` is the unit `u` of `s` with its types, functions and variables in another order.
Where the summary of a unit is shown or sorted by, functions and variables are in the same order. -/
structure SameUnit (o : Options) (k : Keys) (s s' : FileSide) (u u' : CompUnit) : Prop where
  rest : u' = { u with types := u'.types, functions := u'.functions, variables := u'.variables }
  id : s'.unitId u' = s.unitId u
  types : Reordered k.type u.types u'.types
  functions : Reordered k.function u.functions u'.functions
  variables : Reordered k.var u.variables u'.variables
  summary : o.categoryUnit = true ∨ o.sort = .size → u'.functions = u.functions ∧ u'.variables = u.variables

/-- `s'` is the file `s` with its units in another order, and the entries of the units too, for each of the
comparisons `ks`. What the printers look up in the file (types and functions by offset, functions by address,
code) is the same. -/
structure SameFile (o : Options) (ks : List Keys) (s s' : FileSide) : Prop where
  side : s'.toFnSide = s.toFnSide
  varId : s'.varId = s.varId
  units : ∃ us, All2 (fun u u' => ∀ k ∈ ks, SameUnit o k s s' u u') s.file.units us ∧
    ∀ k ∈ ks, Reordered k.unit us s'.file.units

/-- The two files of a diff, each in another order. Entries and units are reordered for the pairing, and for
the listing too, which is how a unit that is in one of the files only is shown. -/
structure SamePair (o : Options) (n : Nat) (c c' : FilePair) : Prop where
  a : SameFile o [pairingKeys o n c.a, listingKeys o n c.a] c.a c'.a
  b : SameFile o [pairingKeys o n c.b, listingKeys o n c.b] c.b c'.b
  same : c'.same = c.same
  heap : c'.heap = c.heap

/-! ## Files in which names are distinct -/

/-- No two units of the file have the same mapped name; no two types of a unit are identical, no two functions
of a unit have the same qualified name, and no two variables. -/
structure Distinct (o : Options) (s : FileSide) : Prop where
  units : s.file.units.Pairwise fun a b => ∀ x, UnitName o a x → ¬ UnitName o b x
  types : ∀ u ∈ s.file.units, u.types.Pairwise fun a b => ¬ ∀ i, IdentOf s.hash a.kind i ↔ IdentOf s.hash b.kind i
  functions : ∀ u ∈ s.file.units, u.functions.Pairwise fun a b => qname a.ns a.name ≠ qname b.ns b.name
  variables : ∀ u ∈ s.file.units, u.variables.Pairwise fun a b => qname a.ns a.name ≠ qname b.ns b.name

/-- `u'` is `u` with its types, functions and variables in any order. -/
structure UnitAnyOrder (s s' : FileSide) (u u' : CompUnit) : Prop where
  rest : u' = { u with types := u'.types, functions := u'.functions, variables := u'.variables }
  id : s'.unitId u' = s.unitId u
  types : u.types.Perm u'.types
  functions : u.functions.Perm u'.functions
  variables : u.variables.Perm u'.variables

/-- `s'` is `s` with its units, and their entries, in any order. -/
structure AnyOrder (s s' : FileSide) : Prop where
  side : s'.toFnSide = s.toFnSide
  varId : s'.varId = s.varId
  units : ∃ us, All2 (UnitAnyOrder s s') s.file.units us ∧ us.Perm s'.file.units

end Verif.Shuffle
