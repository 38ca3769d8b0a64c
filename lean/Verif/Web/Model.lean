import Verif.Web.Spec
import Verif.Serve.Model
import Verif.Show.FileModel
/-!
# Model of the bytes the web server answers with, and of the printed page

`Verif.Serve` models which item a path stands for; this adds what is written for it. `none` stands for: the code
does not return or panics. Simplification: a body that ends with an error half-way (`.ok()` of
main/src/print/file.rs:398, 412 and the like) is `none` too.
-/
namespace Verif.Web
open Verif.Print Verif.Html Verif.Item Verif.Opts Verif.Show Verif.Ids Verif.Serve

/-- What `print_id` prints for an item (main/src/print/file.rs:384-444). -/
def shownP (o : Options) (s : FileSide) (n : Nat) : Ids.Shown → Option P
  | .unit u => unitBodyP o s n u
  | .type u t => bodyP o s.toSide u.dir n (s.extra t.offset) t.kind
  | .function u f => fnBodyP o s.toFnSide u.dir n f
  | .code f => instructionsP s.toFnSide f
  | .var u v => some (variableBodyP o s.toSide u.dir v)

/-- What a new HTML printer writes for a program (main/src/print/html.rs:241-250). -/
def fresh (t : EntityTable) (alnum : Nat → Bool) (o : Options) (p : P) : Str :=
  (p.run (htmlPrinter t alnum) o.http (Html.new o.inlineDepth o.http)).w

/-- `HEADER`, `FOOTER` (main/src/print/html.rs:8-228) around a page: `begin`, `end` (252-260). -/
structure Frame where
  header : Str
  footer : Str

/-- `begin`, `print`, `end` (main/src/main.rs:545-563 with html output, 618-624). -/
def printPage (t : EntityTable) (alnum : Nat → Bool) (fr : Frame) (o : Options) (s : FileSide) (n : Nat) : Option Str :=
  (fileP o s n).map fun p => fr.header ++ fresh t alnum o p ++ fr.footer

/-- The answer of the server to a request (main/src/main.rs:615-661, 711-719); `serve` and `servePrintFile` find
the item. -/
def answer (t : EntityTable) (alnum : Nat → Bool) (fr : Frame) (o : Options) (s : FileSide) (n : Nat) (path : Str) :
    Option Str :=
  match serve (servePrintFile s.file.units (assignIds s.file.units)) path with
  | .empty => some []
  | .page => printPage t alnum fr o s n
  | .item x => (shownP o s n x).map (fresh t alnum o)
  | .number m => some (dec m)
  | .panic => none
  | .diff _ => none
  | .callers _ => none

/-- The path the script of the page asks for (main/src/print/html.rs:117, 137). -/
def idPath (n : Nat) (detail : Option Str) : Str :=
  k "/id/" ++ dec n ++ (match detail with
    | none => []
    | some d => k "/" ++ d)

/-- What the script gets. -/
def loads (t : EntityTable) (alnum : Nat → Bool) (fr : Frame) (o : Options) (s : FileSide) (n : Nat) (i : Nat)
    (detail : Option Str) : Str :=
  (answer t alnum fr o s n (idPath i detail)).getD []

/-- The ids that the listing carries are the ones that were assigned (`print_index`, main/src/print/file.rs:326-329,
called at main/src/main.rs:504). Items with the same contents share an id (a simplification of `FileSide`). -/
structure IdsOf (s : FileSide) : Prop where
  unit : ∀ u ∈ s.file.units, ∃ i, s.file.units[i]? = some u ∧ s.unitId u = (assignIds s.file.units).store (.unit i)
  type : ∀ u ∈ s.file.units, ∀ t ∈ u.types, ∃ i j : Nat, s.file.units[i]? = some u ∧ u.types[j]? = some t ∧
    (s.extra t.offset).id = (assignIds s.file.units).store (.type i j)
  function : ∀ u ∈ s.file.units, ∀ f ∈ u.functions, ∃ i j : Nat, s.file.units[i]? = some u ∧ u.functions[j]? = some f ∧
    s.fnId f = (assignIds s.file.units).store (.function i j)
  var : ∀ u ∈ s.file.units, ∀ v ∈ u.variables, ∃ i j : Nat, s.file.units[i]? = some u ∧ u.variables[j]? = some v ∧
    s.varId v = (assignIds s.file.units).store (.var i j)

end Verif.Web
