import Verif.Show.FileSpec
import Verif.Html.Read
/-!
# What an HTML page of a file consists of
-/
namespace Verif.Web
open Verif.Print Verif.Html Verif.Item Verif.Opts Verif.Show Verif.Merge Verif.Order Verif.Namespace Verif.Types Verif.File

/-- `nodes` are the listings of the items `l`, one after the other, in the order `cmpBy`. -/
def PageItems {α γ : Type} (o : Options) (cmpBy : α → γ → α → γ → Res Ordering) (h : γ) (print : α → Option P)
    (d : Nat) (l : List α) (nodes : List Node) : Prop :=
  ∃ order parts, Arranged (fun x y => cmpBy x h y h) l order ∧
    All2 (fun a ns => ∃ p, print a = some p ∧ ns = pageP o.http .same p d) order parts ∧
    nodes = parts.flatten

/-- A section with a name; nothing if it is empty. -/
def named (l : Str) (kids : List Node) : List Node :=
  match kids with
  | [] => []
  | k :: ks => [.item [⟨.same, l, .nil⟩] (some (k :: ks))]

/-- The body of a unit on a page: its own lines, and a section each for types, functions with code of their own,
functions that are only inlined, and variables. -/
structure PagesUnit (o : Options) (s : FileSide) (n : Nat) (u : CompUnit) (d : Nat) (body : List Node) : Prop where
  parts : ∃ part types fns inl vars,
    body = part ++ named (k "types") types ++ named (k "functions") fns ++ named (k "inlined functions") inl ++
      named (k "variables") vars ∧
    (o.categoryUnit = false → part = []) ∧
    (o.categoryUnit = true → ∃ p, unitPartP o s.toSide u = some p ∧ part = pageP o.http .same p d) ∧
    (o.categoryType = false → types = []) ∧
    (o.categoryType = true →
      PageItems o (typeCmpBy o n) s.hash (typeP o s.toSide u.dir n) d (wantedTypes o false s.hash u) types) ∧
    (o.categoryFunction = false → fns = [] ∧ inl = []) ∧
    (o.categoryFunction = true →
      PageItems o (functionCmpBy o n) s.hash (functionP o s.toFnSide u.dir n) d
        ((wantedFunctions o u).filter fun f => decide (f.size ≠ none)) fns ∧
      PageItems o (functionCmpBy o n) s.hash (functionP o s.toFnSide u.dir n) d
        ((wantedFunctions o u).filter fun f => decide (f.size = none)) inl) ∧
    (o.categoryVariable = false → vars = []) ∧
    (o.categoryVariable = true →
      PageItems o (variableCmpBy o n) s.hash (fun x => some (variableP o s u.dir x)) d (wantedVariables o u) vars)

/-- What the page of a diff shows for one item of the pairing: a pair is always shown; deleted and added items are
shown as their listings, marked, unless the user ignores them. -/
inductive ItemNodes {α : Type} (same : Val → Val → Bool) (o : Options) (print print' : α → Option P)
    (diff : α → α → Option D) (d : Nat) : MergeResult α α → List Node → Prop
  | pair {a b e} : diff a b = some e → ItemNodes same o print print' diff d (.both a b) (pageD same o.http e d)
  | deleted {a p} : o.ignoreDeleted = false → print a = some p →
      ItemNodes same o print print' diff d (.left a) (pageP o.http .del p d)
  | notDeleted {a} : o.ignoreDeleted = true → ItemNodes same o print print' diff d (.left a) []
  | added {b p} : o.ignoreAdded = false → print' b = some p →
      ItemNodes same o print print' diff d (.right b) (pageP o.http .add p d)
  | notAdded {b} : o.ignoreAdded = true → ItemNodes same o print print' diff d (.right b) []

/-- `nodes` shows the paired items `order`, one after the other, in the order `cmpBy`. -/
def PageDiffItems {α γ : Type} (same : Val → Val → Bool) (o : Options) (cmpBy : α → γ → α → γ → Res Ordering) (ha hb : γ)
    (print print' : α → Option P) (diff : α → α → Option D) (d : Nat) (order : List (MergeResult α α))
    (nodes : List Node) : Prop :=
  order.Pairwise (fun x y => ∃ c, cmpBy (shown ha hb x).1 (shown ha hb x).2 (shown ha hb y).1 (shown ha hb y).2 = .ok c ∧
    c ≠ .gt) ∧
  ∃ parts, All2 (ItemNodes same o print print' diff d) order parts ∧ nodes = parts.flatten

/-- The body of a unit of which both files have a version, on the page of a diff. -/
structure PagesUnitDiff (same : Val → Val → Bool) (o : Options) (c : FilePair) (n : Nat) (u v : CompUnit) (d : Nat)
    (body : List Node) : Prop where
  parts : ∃ part types fns inl vars,
    body = part ++ named (k "types") types ++ named (k "functions") fns ++ named (k "inlined functions") inl ++
      named (k "variables") vars ∧
    (o.categoryUnit = false → part = []) ∧
    (o.categoryUnit = true → ∃ e, unitPartD o c.a.toSide c.b.toSide u v = some e ∧ part = pageD same o.http e d) ∧
    (o.categoryType = false → types = []) ∧
    (o.categoryType = true → ∃ order,
      Paired (SameTypeIdent c.a.hash c.b.hash) (wantedTypes o true c.a.hash u) (wantedTypes o true c.b.hash v) order ∧
      PageDiffItems same o (typeCmpBy o n) c.a.hash c.b.hash (typeP o c.a.toSide u.dir n) (typeP o c.b.toSide v.dir n)
        (typeD o c.toFnPair.toPair u.dir v.dir n) d order types) ∧
    (o.categoryFunction = false → fns = [] ∧ inl = []) ∧
    (o.categoryFunction = true → ∃ order order',
      Paired (fun f g : Function => qname f.ns f.name = qname g.ns g.name) (wantedFunctions o u) (wantedFunctions o v)
        (order ++ order') ∧
      (∀ x ∈ order, ¬ InlinedItem x) ∧ (∀ x ∈ order', InlinedItem x) ∧
      PageDiffItems same o (functionCmpBy o n) c.a.hash c.b.hash (functionP o c.a.toFnSide u.dir n)
        (functionP o c.b.toFnSide v.dir n) (functionD o c.toFnPair (c.a.unitId u) u.dir v.dir n) d order fns ∧
      PageDiffItems same o (functionCmpBy o n) c.a.hash c.b.hash (functionP o c.a.toFnSide u.dir n)
        (functionP o c.b.toFnSide v.dir n) (functionD o c.toFnPair (c.a.unitId u) u.dir v.dir n) d order' inl) ∧
    (o.categoryVariable = false → vars = []) ∧
    (o.categoryVariable = true → ∃ order,
      Paired (fun x y : Variable => qname x.ns x.name = qname y.ns y.name) (wantedVariables o u) (wantedVariables o v)
        order ∧
      PageDiffItems same o (variableCmpBy o n) c.a.hash c.b.hash (fun x => some (variableP o c.a u.dir x))
        (fun x => some (variableP o c.b v.dir x)) (fun x y => some (variableD o c u.dir v.dir x y)) d order vars)

end Verif.Web
