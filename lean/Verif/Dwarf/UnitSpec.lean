import Verif.Dwarf.UnitModel
import Verif.Dwarf.AttrSpec
import Verif.Range.Exact
/-!
# Specification vocabulary for the ranges of a unit
-/
namespace Verif.Dwarf
open Verif.Item Verif.Types Verif.Namespace Verif.Range Verif.Sentinel

/-- `r` is the extent of a sequence of the line table: row `i`, at `r.lo`, follows a row that ends a
sequence, or is the first one; row `j`, at `r.hi`, is the next one that ends a sequence. -/
def Sequence (rows : List LineRow) (r : Range) : Prop :=
  ∃ i j : Nat, i < j ∧ rows[i]? = some (r.lo, false) ∧ rows[j]? = some (r.hi, true) ∧
    (∀ k a, i < k → k < j → rows[k]? ≠ some (a, true)) ∧ (i = 0 ∨ ∃ a, rows[i - 1]? = some (a, true))

/-- The range list of `DW_AT_ranges`. -/
def Die.rangesAttr (d : Die) : Option (List Range) := (d.last .ranges).bind Val.rangesOf

/-- Where `DW_AT_high_pc` puts the end of a unit that starts at `lo`. -/
def Die.unitEnd (d : Die) (lo : Nat) : Option Nat :=
  match d.lastOf .highPc (fun v => match v with | .udata _ => none | v => v.addr) with
  | some hi => some hi
  | none => match d.lastOf .highPc (fun v => match v with | .udata n => some n | _ => none) with
    | some n => if lo + n < 2 ^ 64 then some (lo + n) else none
    | none => none

/-- `r` is a range of code that the unit claims, from the best source there is: the sequences of the
line table that do not start at zero; without a line table, `DW_AT_ranges`; without that, from
`DW_AT_low_pc` to `DW_AT_high_pc`. -/
def Claims (line : Option (List LineRow)) (d : Die) (r : Range) : Prop :=
  match line with
  | some rows => Sequence rows r ∧ r.lo ≠ 0
  | none =>
    match d.rangesAttr with
    | some rs => r ∈ rs
    | none => (d.last .lowPc).bind Val.addr = some r.lo ∧ d.unitEnd r.lo = some r.hi

end Verif.Dwarf
