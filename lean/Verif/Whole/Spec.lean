import Verif.Whole.Model
import Verif.Dwarf.LookupProps
import Verif.Show.RowsProps
import Verif.Show.FileItems
/-!
# What the listing of an object file should say about its debug information
-/
namespace Verif.Whole
open Verif.Item Verif.Types Verif.Namespace Verif.Range Verif.Sentinel Verif.File Verif.Dwarf Verif.Show
  Verif.Filter Verif.Opts Verif.Print

/-- `text` consists of the texts of exactly those things for which `which` holds, each once, in some
order. -/
def Consists {α : Type} (which : α → Prop) (says : α → Str → Prop) (text : Str) : Prop :=
  ∃ order texts, order.Nodup ∧ (∀ x, x ∈ order ↔ which x) ∧ All2 says order texts ∧ text = texts.flatten

/-- The text of some rows, from level `i` on, with an empty line below. -/
def rowsText (i : Nat) (rows : List Row) : Str := render (rows.map (Row.line .none i) ++ [.brk])

/-- The variable a unit lists at an offset. -/
def varOf (cu : CompUnit) (o : Nat) : Option Variable := cu.variables.find? fun v => v.offset = some o

/-- The entry is a function of the unit in scope `ns`, and `f` is its record. -/
def FnEntry (u : RawUnit) (cu : CompUnit) (ns : Option Namespace) (d : Die) (f : Function) : Prop :=
  FnAt (fnOf cu) u.root.children ns d ∧ fnOf cu d.offset = some f

/-- The entry is a variable of the unit in scope `ns`, and `v` is its record. -/
def VarEntry (u : RawUnit) (cu : CompUnit) (ns : Option Namespace) (d : Die) (v : Variable) : Prop :=
  VarAt (fnOf cu) u.root.children ns d ∧ varOf cu d.offset = some v

/-- The record of the named type entry `d` in scope `ns`. -/
def typeAt (r : RawObject) (u : RawUnit) (cu : CompUnit) (ns : Option Namespace) (d : Die) : TypeEntry :=
  ⟨some d.offset, tyOf (envOf r.bigEndian u cu) ns d⟩

/-- `text`, the listing of the unit `u` of the debug information: its own rows, then its types, its
functions and its variables, each kind if the user wants it; and of each kind one item for every entry
that is wanted, which says what its record says. -/
structure EntriesListed (o : Options) (r : RawObject) (s : FileSide) (u : RawUnit) (cu : CompUnit) (i d : Nat) (text : Str) :
    Prop where
  parts : ∃ part types fns vars, text = part ++ types ++ fns ++ vars ∧
    (o.categoryUnit = false → part = []) ∧
    (o.categoryUnit = true → ∃ rows, UnitRows o s.tsz cu rows ∧
      part = render (.line .none i [] (unitText cu) :: rows.map (Row.line .none (i + 1)) ++ [.brk])) ∧
    (o.categoryType = false → types = []) ∧
    (o.categoryType = true →
      Consists (fun x : Option Namespace × Die =>
          NamedType u cu x.1 x.2 ∧ WantedType s.hash cu o false (typeAt r u cu x.1 x.2))
        (fun x t => ∃ rows, TypeRows o s.toSide cu.dir (typeExtra r.units s.hash x.2) (typeAt r u cu x.1 x.2).kind rows ∧
          t = rowsText i rows) types) ∧
    (o.categoryFunction = false → fns = []) ∧
    (o.categoryFunction = true →
      Consists (fun x : Option Namespace × Die × Function => FnEntry u cu x.1 x.2.1 x.2.2 ∧ WantedFunction o x.2.2)
        (fun x t => ∃ rows code, FunctionRows {} o s.toFnSide cu.dir d x.2.2 rows ∧
          CodeLines o s.toFnSide x.2.2 o.http (i + 1) .none d code ∧
          t = render (rows.map (Row.line .none i) ++ code ++ [.brk])) fns) ∧
    (o.categoryVariable = false → vars = []) ∧
    (o.categoryVariable = true →
      Consists (fun x : Option Namespace × Die × Variable => VarEntry u cu x.1 x.2.1 x.2.2 ∧ WantedVariable o x.2.2)
        (fun x t => t = rowsText i (variableRows false false false o s.toSide cu.dir x.2.2)) vars)

/-- `text` consists of the texts of the wanted units; a unit of the debug information is listed as
`EntriesListed` says. -/
def UnitsListed (o : Options) (r : RawObject) (f : File) (s : FileSide) (m i d : Nat) (text : Str) : Prop :=
  ∃ parts : List (CompUnit × Str), text = (parts.map (·.2)).flatten ∧
    (parts.map (·.1)).Perm (wantedUnits o f) ∧
    ∀ cu t, (cu, t) ∈ parts → ListsUnit o s m cu i d t ∧
      ∀ (k : Nat) u, r.units[k]? = some u → f.units[k]? = some cu → EntriesListed o r s u cu i d t

/-- The record without symbol name. -/
def noSymbol (f : Function) : Function := { f with symbolName := none }
/-- The record without symbol name. -/
def noSymbolVar (v : Variable) : Variable := { v with symbolName := none }

end Verif.Whole
