import Verif.Show.FileModel
import Verif.Show.FnSpec
import Verif.Filter.Spec
import Verif.Print.Spec
import Verif.Order.Spec
/-!
# What the listing and the diff of a file should show
-/
namespace Verif.Show
open Verif.Print Verif.Item Verif.Namespace Verif.Types Verif.Path Verif.Opts Verif.Merge Verif.Range
  Verif.File Verif.Order Verif.Filter

open Classical in
/-- The items of a list that are wanted, in their order. -/
noncomputable def wanted {α : Type} (W : α → Prop) (l : List α) : List α := l.filter fun a => decide (W a)

/-- The units of the file to list. -/
noncomputable def wantedUnits (o : Options) (f : File) : List CompUnit := wanted (WantedUnit o) f.units

/-- The types of a unit to list, and to compare (closures are not compared). -/
noncomputable def wantedTypes (o : Options) (diff : Bool) (h : Hash) (u : CompUnit) : List TypeEntry :=
  wanted (WantedType h u o diff) u.types

/-- The functions of a unit to list. -/
noncomputable def wantedFunctions (o : Options) (u : CompUnit) : List Function :=
  wanted (WantedFunction o) u.functions

/-- The variables of a unit to list. -/
noncomputable def wantedVariables (o : Options) (u : CompUnit) : List Variable :=
  wanted (WantedVariable o) u.variables

/-- The items of `la` and `lb` can be paired so that `R` holds for every pair; what is left over on
the old side is there because the user ignores deletions, on the new side because the user ignores
additions. -/
def Matched {α : Type} (o : Options) (R : α → α → Prop) (la lb : List α) : Prop :=
  ∃ (pairs : List (α × α)) (gone new : List α),
    (pairs.map (·.1) ++ gone).Perm la ∧ (pairs.map (·.2) ++ new).Perm lb ∧ (∀ p ∈ pairs, R p.1 p.2) ∧
    (gone ≠ [] → o.ignoreDeleted = true) ∧ (new ≠ [] → o.ignoreAdded = true)

/-- Both listings exist, and are the same lines; `d` levels of inlined functions are listed. -/
def SameText (http : Bool) (d : Nat) (p q : Option P) : Prop :=
  ∃ a b, p = some a ∧ q = some b ∧ ∀ i, a.lines http i .none d = b.lines http i .none d

/-- The listing of a variable without what the user asked to ignore. -/
def variableHiding (o : Options) (s : Side) (dir : Option Str) (v : Variable) : P :=
  .seq (.indent true (.line [] (variableName s v))
    (.seqs [leftOut o.ignoreVariableLinkageName (.line (k "linkage name") (strVal v.linkageName)),
      leftOut o.ignoreVariableSymbolName (.line (k "symbol name") (strVal v.symbolName)),
      sourceP o dir v.source,
      leftOut o.ignoreVariableAddress (.line (k "address") (addressVal v.address)),
      .line (k "size") (sizeVal (v.byteSize s.tsz)), .line (k "declaration") (yesVal v.declaration)])) .lineBreak

/-- Nothing that is listed for the two units differs, apart from what the user asked to ignore (and
the instructions and the order of local variables of functions). -/
structure SameUnit (o : Options) (c : FilePair) (n d : Nat) (u v : CompUnit) : Prop where
  name : o.categoryUnit = true ∨ o.html = true → u.printRef = v.printRef
  part : o.categoryUnit = true → SameText o.http d (unitPartP o c.a.toSide u) (unitPartP o c.b.toSide v)
  types : o.categoryType = true →
    Matched o (fun s t => SameText o.http d (typeP o c.a.toSide u.dir n s) (typeP o c.b.toSide v.dir n t))
      (wantedTypes o true c.a.hash u) (wantedTypes o true c.b.hash v)
  functions : o.categoryFunction = true →
    Matched o (fun f g => SameText o.http d (functionHiding (ignoredBy o) o c.a.toFnSide u.dir n f)
        (functionHiding (ignoredBy o) o c.b.toFnSide v.dir n g))
      (wantedFunctions o u) (wantedFunctions o v)
  variables : o.categoryVariable = true →
    Matched o (fun x y => SameText o.http d (some (variableHiding o c.a.toSide u.dir x))
        (some (variableHiding o c.b.toSide v.dir y)))
      (wantedVariables o u) (wantedVariables o v)

/-! ## What is written for lists of items -/

/-- What the diff of a list writes for one item of the pairing: a pair whose diff reports a
difference is written as that diff, a pair without difference is not written, deleted and added items
are written as their listings, marked, unless the user ignores them. -/
inductive ItemText {α : Type} (o : Options) (print print' : α → Option P) (diff : α → α → Option D) (i d : Nat) :
    MergeResult α α → Str → Prop
  | changed {a b e} : diff a b = some e → e.flag (printOpts o) i .equal d = true →
      ItemText o print print' diff i d (.both a b) (render (e.lines (printOpts o) i .equal d))
  | unchanged {a b e} : diff a b = some e → e.flag (printOpts o) i .equal d = false →
      ItemText o print print' diff i d (.both a b) []
  | deleted {a p} : o.ignoreDeleted = false → print a = some p →
      ItemText o print print' diff i d (.left a) (render (p.lines o.http i .delete d))
  | notDeleted {a} : o.ignoreDeleted = true → ItemText o print print' diff i d (.left a) []
  | added {b p} : o.ignoreAdded = false → print' b = some p →
      ItemText o print print' diff i d (.right b) (render (p.lines o.http i .add d))
  | notAdded {b} : o.ignoreAdded = true → ItemText o print print' diff i d (.right b) []

/-- `text` shows the paired items `order`, one after the other; they are in the order `cmpBy`, in
which the new item stands for a pair. -/
def ShowsItems {α γ : Type} (o : Options) (cmpBy : α → γ → α → γ → Res Ordering) (ha hb : γ)
    (print print' : α → Option P) (diff : α → α → Option D) (i d : Nat) (order : List (MergeResult α α))
    (text : Str) : Prop :=
  order.Pairwise (fun x y => ∃ c, cmpBy (shown ha hb x).1 (shown ha hb x).2 (shown ha hb y).1 (shown ha hb y).2 = .ok c ∧
    c ≠ .gt) ∧
  ∃ texts, All2 (ItemText o print print' diff i d) order texts ∧ text = texts.flatten

/-- `text` is the listings of the items `l`, one after the other, in the order `cmpBy`. -/
def ListsItems {α γ : Type} (o : Options) (cmpBy : α → γ → α → γ → Res Ordering) (h : γ) (print : α → Option P)
    (i d : Nat) (l : List α) (text : Str) : Prop :=
  ∃ order texts, Arranged (fun x y => cmpBy x h y h) l order ∧
    All2 (fun a t => ∃ p, print a = some p ∧ t = render (p.lines o.http i .none d)) order texts ∧
    text = texts.flatten

/-- Two types of different files with the same identity. -/
def SameTypeIdent (ha hb : Hash) (a b : TypeEntry) : Prop := ∃ i, IdentOf ha a.kind i ∧ IdentOf hb b.kind i

/-- Some function of the pair, or the only one, has no size: it is only inlined. -/
def InlinedItem (x : MergeResult Function Function) : Prop :=
  (∃ a, oldItem x = some a ∧ a.size = none) ∨ (∃ b, newItem x = some b ∧ b.size = none)

/-- What is written for a unit of which both files have a version, in this order: the unit's own
lines, types, functions, functions that are only inlined, variables; each if it is wanted. -/
structure ShowsUnit (o : Options) (c : FilePair) (n : Nat) (u v : CompUnit) (i d : Nat) (text : Str) : Prop where
  parts : ∃ part types fns inl vars, text = part ++ types ++ fns ++ inl ++ vars ∧
    (o.categoryUnit = false → part = []) ∧
    (o.categoryUnit = true → ∃ e, unitPartD o c.a.toSide c.b.toSide u v = some e ∧
      part = render ((D.indent true (.line [] (unitName u) (unitName v)) e).lines (printOpts o) i .equal d)) ∧
    (o.categoryType = false → types = []) ∧
    (o.categoryType = true → ∃ order,
      Paired (SameTypeIdent c.a.hash c.b.hash) (wantedTypes o true c.a.hash u) (wantedTypes o true c.b.hash v) order ∧
      ShowsItems o (typeCmpBy o n) c.a.hash c.b.hash (typeP o c.a.toSide u.dir n) (typeP o c.b.toSide v.dir n)
        (typeD o c.toFnPair.toPair u.dir v.dir n) i d order types) ∧
    (o.categoryFunction = false → fns = [] ∧ inl = []) ∧
    (o.categoryFunction = true → ∃ order order',
      Paired (fun f g : Function => qname f.ns f.name = qname g.ns g.name) (wantedFunctions o u) (wantedFunctions o v)
        (order ++ order') ∧
      (∀ x ∈ order, ¬ InlinedItem x) ∧ (∀ x ∈ order', InlinedItem x) ∧
      ShowsItems o (functionCmpBy o n) c.a.hash c.b.hash (functionP o c.a.toFnSide u.dir n)
        (functionP o c.b.toFnSide v.dir n) (functionD o c.toFnPair (c.a.unitId u) u.dir v.dir n) i d order fns ∧
      ShowsItems o (functionCmpBy o n) c.a.hash c.b.hash (functionP o c.a.toFnSide u.dir n)
        (functionP o c.b.toFnSide v.dir n) (functionD o c.toFnPair (c.a.unitId u) u.dir v.dir n) i d order' inl) ∧
    (o.categoryVariable = false → vars = []) ∧
    (o.categoryVariable = true → ∃ order,
      Paired (fun x y : Variable => qname x.ns x.name = qname y.ns y.name) (wantedVariables o u) (wantedVariables o v)
        order ∧
      ShowsItems o (variableCmpBy o n) c.a.hash c.b.hash (fun x => some (variableP o c.a u.dir x))
        (fun x => some (variableP o c.b v.dir x)) (fun x y => some (variableD o c u.dir v.dir x y)) i d order vars)

/-- What is written for a unit of a file. -/
structure ListsUnit (o : Options) (s : FileSide) (n : Nat) (u : CompUnit) (i d : Nat) (text : Str) : Prop where
  parts : ∃ part types fns vars, text = part ++ types ++ fns ++ vars ∧
    (o.categoryUnit = false → part = []) ∧
    (o.categoryUnit = true → ∃ p, unitPartP o s.toSide u = some p ∧
      part = render ((P.indent false (.line [] (unitName u)) p).lines o.http i .none d)) ∧
    (o.categoryType = false → types = []) ∧
    (o.categoryType = true →
      ListsItems o (typeCmpBy o n) s.hash (typeP o s.toSide u.dir n) i d (wantedTypes o false s.hash u) types) ∧
    (o.categoryFunction = false → fns = []) ∧
    (o.categoryFunction = true →
      ListsItems o (functionCmpBy o n) s.hash (functionP o s.toFnSide u.dir n) i d (wantedFunctions o u) fns) ∧
    (o.categoryVariable = false → vars = []) ∧
    (o.categoryVariable = true →
      ListsItems o (variableCmpBy o n) s.hash (fun x => some (variableP o s u.dir x)) i d (wantedVariables o u) vars)

end Verif.Show
