import Verif.Whole.Spec
import Verif.Show.FileFactsSpec
import Verif.Types.Spec
/-!
# What the diff of two object files should say about their debug information
-/
namespace Verif.Whole
open Verif.Item Verif.Types Verif.Namespace Verif.Range Verif.Sentinel Verif.File Verif.Dwarf Verif.Show
  Verif.Filter Verif.Opts Verif.Code
open Verif.Print (P)

/-- `s` is what printing reads of the object file `r`, parsed to `f`: with some code, names of registers, ids
and listings of instructions. -/
def Reads (r : RawObject) (f : File) (s : FileSide) : Prop :=
  ∃ (b : Nat) (code : Option Code) (disasm : List Nat → Nat → Option (List Insn)) (regName : Nat → Option Str) (ids : Nat → Nat)
    (fnId : Function → Nat) (varId : Variable → Nat) (unitId : CompUnit → Nat) (insns : Function → Option P),
    s = sideOf b r f code disasm regName ids fnId varId unitId insns

/-- `same` says whether `Type::cmp_id` (parser/src/types.rs:228-262) calls two types of the files equal. -/
def SameIs (same : Ty → Ty → Bool) (ha hb : Hash) : Prop :=
  ∀ a b, same a b = true ↔ ∃ m, cmpId false m ha a hb b = .ok .eq

/-- No type of the file refers to itself through the parts that identify it (a pointer to itself, say). -/
def NoCycles (h : Hash) : Prop := ∀ off t, fromOffset h off = some t → Acc (IdRef h) t

/-- Every entry of the unit `u` of one file that the user wants compared has a counterpart in the unit `cv`
of the other file, with the same facts; `r` and `r'` say in which direction facts are compared. If the other unit
comes from the debug information, the counterpart is the record of one of its entries. -/
structure HasCounterparts (o : Options) (r : RawObject) (s s' : FileSide) (u : RawUnit) (cu : CompUnit) (v : Option RawUnit)
    (cv : CompUnit) (r' : RawObject)
    (types : TypeEntry → TypeEntry → Prop) (functions : Function → Function → Prop) (variables : Variable → Variable → Prop) : Prop where
  types : o.categoryType = true → ∀ ns die, NamedType u cu ns die → WantedType s.hash cu o true (typeAt r u cu ns die) →
    ∃ t ∈ cv.types, WantedType s'.hash cv o true t ∧ types (typeAt r u cu ns die) t ∧
      ∀ w, v = some w → ∃ ns' die', NamedType w cv ns' die' ∧ typeAt r' w cv ns' die' = t
  functions : o.categoryFunction = true → ∀ ns die g, FnEntry u cu ns die g → WantedFunction o g →
    ∃ g' ∈ cv.functions, WantedFunction o g' ∧ functions g g' ∧ ∀ w, v = some w → ∃ ns' die', FnEntry w cv ns' die' g'
  variables : o.categoryVariable = true → ∀ ns die x, VarEntry u cu ns die x → WantedVariable o x →
    ∃ x' ∈ cv.variables, WantedVariable o x' ∧ variables x x' ∧ ∀ w, v = some w → ∃ ns' die', VarEntry w cv ns' die' x'

end Verif.Whole
