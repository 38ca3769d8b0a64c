import Verif.Html.ReadText
import Verif.Show.FileRowsSpec
import Verif.Show.FileSpec
import Verif.Show.RowsSpec
/-!
# What a page should show

A page is a tree of items. The definitions here say which items the page of a file has, in which order and how they are
nested, and which rows each of them shows: the rows of `Verif.Show.RowsSpec` and `Verif.Show.FileRowsSpec`.
-/
namespace Verif.Page
open Verif.Print Verif.Html Verif.Item Verif.Types Verif.Opts Verif.Show Verif.Order Verif.Filter

/-- A row as it is read on a page, in items at depth `i`. -/
def rowAt (m : Mark) (i : Nat) (r : Row) : Entry := ⟨i + r.depth, if r.text = [] then .same else m, r.label, r.text⟩

/-- The items show these rows, headings included, in order and at the same depths; and they show no other text. -/
def Says (m : Mark) (rows : List Row) (ns : List Node) : Prop :=
  (rows.map (rowAt m 0)).Sublist (flats 0 ns) ∧
    (flats 0 ns).filter (fun e => e.text ≠ []) = (rows.map (rowAt m 0)).filter (fun e => e.text ≠ [])

/-- One item for every element of the list, in the given order. -/
def OnePer {α γ : Type} (cmpBy : α → γ → α → γ → Res Ordering) (h : γ) (R : α → Node → Prop) (l : List α)
    (ns : List Node) : Prop :=
  ∃ order, Arranged (fun x y => cmpBy x h y h) l order ∧ All2 R order ns

/-- The elements if they are wanted. -/
def ifWanted {α : Type} (b : Bool) (l : List α) : List α := if b then l else []

/-- The items under a heading; no heading if there is nothing. -/
def headed (l : Str) (ns : List Node) : List Node := if ns.isEmpty then [] else [.item [⟨.same, l, .nil⟩] (some ns)]

/-- The item of a type, its lines marked `m`. -/
def TypeItem (m : Mark) (o : Options) (s : FileSide) (u : CompUnit) (t : TypeEntry) (n : Node) : Prop :=
  ∃ rows, TypeRows o s.toSide u.dir (s.extra t.offset) t.kind rows ∧ Says m rows [n]

/-- The item of a function, its lines marked `m`. -/
def FunctionItem (m : Mark) (o : Options) (s : FileSide) (u : CompUnit) (f : Function) (n : Node) : Prop :=
  ∃ rows, FunctionRows {} o s.toFnSide u.dir o.inlineDepth f rows ∧ Says m rows [n]

/-- The item of a variable, its lines marked `m`. -/
def VariableItem (m : Mark) (o : Options) (s : FileSide) (u : CompUnit) (v : Item.Variable) (n : Node) : Prop :=
  Says m (variableRows false false false o s.toSide u.dir v) [n]

/-- The item of a unit: its name; in it its own rows and, under headings, its types, the functions with code, those that
are only inlined, and the variables. -/
def UnitItem (m : Mark) (o : Options) (s : FileSide) (n : Nat) (u : CompUnit) (x : Node) : Prop :=
  ∃ name part types fns inl vars,
    x = .item [⟨m, [], name⟩] (some (part ++ headed (k "types") types ++ headed (k "functions") fns ++
      headed (k "inlined functions") inl ++ headed (k "variables") vars)) ∧
    name.text' = unitText u ∧
    (o.categoryUnit = false → part = []) ∧
    (o.categoryUnit = true → ∃ rows, UnitRows o s.tsz u rows ∧ Says m rows part) ∧
    OnePer (typeCmpBy o n) s.hash (TypeItem m o s u) (ifWanted o.categoryType (wantedTypes o false s.hash u)) types ∧
    OnePer (functionCmpBy o n) s.hash (FunctionItem m o s u)
      (ifWanted o.categoryFunction ((wantedFunctions o u).filter (·.size.isSome))) fns ∧
    OnePer (functionCmpBy o n) s.hash (FunctionItem m o s u)
      (ifWanted o.categoryFunction ((wantedFunctions o u).filter (!·.size.isSome))) inl ∧
    OnePer (variableCmpBy o n) s.hash (VariableItem m o s u) (ifWanted o.categoryVariable (wantedVariables o u)) vars

/-- The items of a file: the summary if it is wanted, and one item for every wanted unit. -/
def FilePage (o : Options) (s : FileSide) (n : Nat) (ns : List Node) : Prop :=
  ∃ head units, ns = head ++ units ∧
    (o.categoryFile = false → head = []) ∧
    (o.categoryFile = true → ∃ rows, FileRows o s rows ∧ Says .same rows head) ∧
    OnePer (unitCmpBy o n) s.tsz (UnitItem .same o s n) (wantedUnits o s.file) units

end Verif.Page
