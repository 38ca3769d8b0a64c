import Verif.Page.Spec
import Verif.Whole.Spec
/-!
# What a page should show of the debug information

As `Verif.Whole.Spec`, for HTML pages.
-/
namespace Verif.Page
open Verif.Print Verif.Html Verif.Item Verif.Types Verif.Opts Verif.Show Verif.Order Verif.Filter Verif.Dwarf Verif.Whole
  Verif.Namespace

/-- One item for each of exactly those things for which `which` holds, in some order. -/
def ItemFor {α : Type} (which : α → Prop) (shows : α → Node → Prop) (ns : List Node) : Prop :=
  ∃ order, order.Nodup ∧ (∀ x, x ∈ order ↔ which x) ∧ All2 shows order ns

/-- `x`, the item of the unit `u` of the debug information: its name; in it its own rows and, under headings, one item for
every wanted entry of a type, of a function with code, of a function that is only inlined, and of a variable, wherever in the
unit the entry is; and each item says what the record of its entry says. -/
def EntriesShown (m : Mark) (o : Options) (r : RawObject) (s : FileSide) (u : RawUnit) (cu : CompUnit) (x : Node) : Prop :=
  ∃ name part types fns inl vars,
    x = .item [⟨m, [], name⟩] (some (part ++ headed (k "types") types ++ headed (k "functions") fns ++
      headed (k "inlined functions") inl ++ headed (k "variables") vars)) ∧
    name.text' = unitText cu ∧
    (o.categoryUnit = false → part = []) ∧
    (o.categoryUnit = true → ∃ rows, UnitRows o s.tsz cu rows ∧ Says m rows part) ∧
    (o.categoryType = false → types = []) ∧
    (o.categoryType = true →
      ItemFor (fun x : Option Namespace × Die =>
          NamedType u cu x.1 x.2 ∧ WantedType s.hash cu o false (typeAt r u cu x.1 x.2))
        (fun x t => ∃ rows, TypeRows o s.toSide cu.dir (typeExtra r.units s.hash x.2) (typeAt r u cu x.1 x.2).kind rows ∧
          Says m rows [t]) types) ∧
    (o.categoryFunction = false → fns = [] ∧ inl = []) ∧
    (o.categoryFunction = true →
      ItemFor (fun x : Option Namespace × Die × Function =>
          FnEntry u cu x.1 x.2.1 x.2.2 ∧ WantedFunction o x.2.2 ∧ x.2.2.size ≠ none)
        (fun x t => FunctionItem m o s cu x.2.2 t) fns ∧
      ItemFor (fun x : Option Namespace × Die × Function =>
          FnEntry u cu x.1 x.2.1 x.2.2 ∧ WantedFunction o x.2.2 ∧ x.2.2.size = none)
        (fun x t => FunctionItem m o s cu x.2.2 t) inl) ∧
    (o.categoryVariable = false → vars = []) ∧
    (o.categoryVariable = true →
      ItemFor (fun x : Option Namespace × Die × Variable => VarEntry u cu x.1 x.2.1 x.2.2 ∧ WantedVariable o x.2.2)
        (fun x t => VariableItem m o s cu x.2.2 t) vars)

/-- The items of a file: the summary if it is wanted, and one item for every wanted unit, with its name, its own rows and its
types, functions and variables in the order that was asked for; for a unit of the debug information, these are the wanted
entries of the unit. -/
def ObjectPage (o : Options) (r : RawObject) (s : FileSide) (n : Nat) (ns : List Node) : Prop :=
  ∃ head, ∃ units : List (CompUnit × Node), ns = head ++ units.map (·.2) ∧
    (o.categoryFile = false → head = []) ∧
    (o.categoryFile = true → ∃ rows, FileRows o s rows ∧ Says .same rows head) ∧
    Arranged (fun a b => unitCmpBy o n a s.tsz b s.tsz) (wantedUnits o s.file) (units.map (·.1)) ∧
    ∀ cu x, (cu, x) ∈ units → UnitItem .same o s n cu x ∧
      ∀ (k : Nat) u, r.units[k]? = some u → s.file.units[k]? = some cu → EntriesShown .same o r s u cu x

end Verif.Page
