import Verif.Web.Model
import Verif.Order.Model
/-!
# Model of the bytes the web server answers with when it shows a diff, and of the printed diff

As in `Verif.Web.Model`, `none` stands for: the code does not return or panics, or ends half-way with an error.
-/
namespace Verif.Web
open Verif.Print Verif.Html Verif.Item Verif.Opts Verif.Show Verif.Ids Verif.Serve Verif.Types Verif.Order

/-- What a new HTML printer writes for a diff (main/src/print/html.rs:241-250; `DiffState::new`,
main/src/print/mod.rs:413-430). -/
def freshD (t : EntityTable) (alnum : Nat → Bool) (o : Options) (e : D) : Str :=
  (e.run (htmlPrinter t alnum) (printOpts o) (Html.new o.inlineDepth o.http) false).1.w

/-- What `diff_id` writes (main/src/print/file.rs:520-742). -/
def diffText (t : EntityTable) (alnum : Nat → Bool) (o : Options) (c : FilePair) (n : Nat) : DiffShown → Option Str
  | .diff (.unit u) (.unit v) => (unitBodyD o c n u v).map (freshD t alnum o)
  | .diff (.type u x) (.type v y) =>
    (bodyD o c.toFnPair.toPair u.dir v.dir n (c.a.extra x.offset) (c.b.extra y.offset) x.kind y.kind).map (freshD t alnum o)
  | .diff (.function u f) (.function v g) => (fnBodyD o c.toFnPair u.dir v.dir n f g).map (freshD t alnum o)
  | .diff (.var u x) (.var v y) => some (freshD t alnum o (variableBodyD o c.a.toSide c.b.toSide u.dir v.dir x y))
  | .diff _ _ => some []
  | .onlyA x => (shownP o c.a n x).map (fresh t alnum o)
  | .onlyB x => (shownP o c.b n x).map (fresh t alnum o)
  | .nothing => some []
  | .panic => none

/-- `begin`, `diff`, `end` (main/src/main.rs:545-563 with html output, 574-585). -/
def diffPage (t : EntityTable) (alnum : Nat → Bool) (fr : Frame) (o : Options) (c : FilePair) (n : Nat) : Option Str :=
  (fileD o c n).map fun e => fr.header ++ freshD t alnum o e ++ fr.footer

/-- The file an item is from. -/
def sideHash (ha hb : Hash) : Sided α → Hash
  | .inl _ => ha
  | .inr _ => hb

/-- The item. -/
def sideItem : Sided α → α
  | .inl x => x
  | .inr x => x

/-- The comparison functions `assign_merged_ids` uses (main/src/print/file.rs:51-58, 146-159, 199-207, 258-264), as
modelled in `Verif.Order`. A comparison that does not return counts as equal; the page is `none` then. -/
def realCmps (o : Options) (n : Nat) (ha hb : Hash) : Cmps where
  unit x y := unitCmpId o (sideItem x) (sideItem y)
  typeSort x y := theOrd (cmpId false n (sideHash ha hb x) (sideItem x).kind (sideHash ha hb y) (sideItem y).kind)
  type x y := theOrd (cmpId false n (sideHash ha hb x) (sideItem x).kind (sideHash ha hb y) (sideItem y).kind)
  functionSort x y := theOrd (functionCmpIdForSort n (sideItem x) (sideHash ha hb x) (sideItem y) (sideHash ha hb y))
  function x y := functionCmpId (sideItem x) (sideItem y)
  varSort x y := variableCmpId (sideItem x) (sideItem y)
  var x y := variableCmpId (sideItem x) (sideItem y)

/-- The index of a diff (`diff_index`, main/src/print/file.rs:450-453, called at main/src/main.rs:466). -/
def indexOf (o : Options) (c : FilePair) (n : Nat) : AssignedPair :=
  assignMerged (realCmps o n c.a.hash c.b.hash) o c.a.hash c.b.hash c.a.file.units c.b.file.units

/-- The answer of the server to a request (main/src/main.rs:572-607, 711-719). -/
def answerDiff (t : EntityTable) (alnum : Nat → Bool) (fr : Frame) (o : Options) (c : FilePair) (n : Nat) (path : Str) :
    Option Str :=
  match serve (serveDiffFile c.a.file.units c.b.file.units (indexOf o c n).ids) path with
  | .empty => some []
  | .page => diffPage t alnum fr o c n
  | .diff x => diffText t alnum o c n x
  | .panic => none
  | .item _ => none
  | .number _ => none
  | .callers _ => none

/-- What the script of the page gets. -/
def loadsD (t : EntityTable) (alnum : Nat → Bool) (fr : Frame) (o : Options) (c : FilePair) (n : Nat) (i : Nat)
    (detail : Option Str) : Str :=
  (answerDiff t alnum fr o c n (idPath i detail)).getD []

/-- The ids that the items carry are the ones that were assigned (main/src/print/file.rs:47-303). As ids are a
function of the contents here, no two items of a file with an id may have the same contents; their offsets
differ. -/
structure IdsOfPair (o : Options) (c : FilePair) (n : Nat) : Prop where
  unitA : ∀ (i : Nat) u, c.a.file.units[i]? = some u → c.a.unitId u = (indexOf o c n).storeA (.unit i)
  unitB : ∀ (i : Nat) u, c.b.file.units[i]? = some u → c.b.unitId u = (indexOf o c n).storeB (.unit i)
  typeA : ∀ (i : Nat) u (j : Nat) x, c.a.file.units[i]? = some u → u.types[j]? = some x →
    (c.a.extra x.offset).id = (indexOf o c n).storeA (.type i j)
  typeB : ∀ (i : Nat) u (j : Nat) x, c.b.file.units[i]? = some u → u.types[j]? = some x →
    (c.b.extra x.offset).id = (indexOf o c n).storeB (.type i j)
  functionA : ∀ (i : Nat) u (j : Nat) f, c.a.file.units[i]? = some u → u.functions[j]? = some f →
    c.a.fnId f = (indexOf o c n).storeA (.function i j)
  functionB : ∀ (i : Nat) u (j : Nat) f, c.b.file.units[i]? = some u → u.functions[j]? = some f →
    c.b.fnId f = (indexOf o c n).storeB (.function i j)
  varA : ∀ (i : Nat) u (j : Nat) v, c.a.file.units[i]? = some u → u.variables[j]? = some v →
    c.a.varId v = (indexOf o c n).storeA (.var i j)
  varB : ∀ (i : Nat) u (j : Nat) v, c.b.file.units[i]? = some u → u.variables[j]? = some v →
    c.b.varId v = (indexOf o c n).storeB (.var i j)

end Verif.Web
