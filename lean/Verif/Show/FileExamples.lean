import Verif.Show.FileItems
import Verif.Show.FnExamples
/-!
# Concrete files for C82, and what the listing and the diff of files get wrong
-/
namespace Verif.Show
open Verif.Print Verif.Item Verif.Namespace Verif.Types Verif.Path Verif.Opts Verif.Merge Verif.Range
  Verif.File Verif.Order Verif.Filter Verif.Frame

/-- A file with the given units and one section. -/
def exFileSide (size : Nat) (us : List CompUnit) : FileSide where
  toFnSide := exFnSide {}
  path := k "a.out"
  file := {
    sections := [{ name := some (k ".text"), address := some 0x1000, size := size }], units := us }
  varId := fun _ => 0
  unitId := fun _ => 0

/-- Two such files. -/
def exFilePair (n m : Nat) (us vs : List CompUnit) : FilePair :=
  ⟨exFileSide n us, exFileSide m vs, fun a b => a == b, listHeap⟩

private def fn (name : String) (size : Nat) : Function := {
  name := some (k name), address := some 0x1000, size := some size, ranges := [⟨0x1000, 0x1000 + size⟩] }
private def unit1 : CompUnit := {
  name := some (k "x.c"), ranges := [⟨0x1000, 0x1040⟩], functions := [fn "f" 32],
  types := [⟨some 1, .base (some (k "int")) ⟨4⟩⟩, ⟨some 9, .struct_ none (some (k "S")) ⟨4⟩ [⟨30, some (k "a"), some 1, 0, ⟨32⟩⟩] [] []⟩],
  variables := [{ name := some (k "v"), ty := some 1, address := some 0x2000 }] }
private def unit2 : CompUnit := {
  name := some (k "x.c"), ranges := [⟨0x1000, 0x1040⟩], functions := [fn "f" 32, fn "g" 16],
  types := [⟨some 1, .base (some (k "int")) ⟨4⟩⟩],
  variables := [{ name := some (k "v"), ty := some 2, address := some 0x2000 }] }
private def unit3 : CompUnit := { name := some (k "y.c"), functions := [fn "h" 8] }

/-- All categories. -/
private def opts : Options := {
  categoryFile := true, categoryUnit := true, categoryType := true,
  categoryFunction := true, categoryVariable := true, printUnitAddress := true }

set_option maxRecDepth 4000 in
example : textP (fileP opts (exFileSide 64 [unit1, unit3]) 3) = (["file a.out\n", "\tsize: 68\n", "\tfn size: 40\n", "\tvar size: 4\n", "\tother size: 24\n", "\tsections:\n", "\t\t.text\n", "\t\t\taddress: 0x1000-0x103f\n", "\t\t\tsize: 64\n", "\n", "unit x.c\n", "\taddresses:\n", "\t\t0x1000-0x101f (32)\n", "\t\t0x2000-0x2003 (4)\n", "\tunknown addresses:\n", "\t\t0x1020-0x103f (32)\n", "\tfn size: 32\n", "\tvar size: 4\n", "\tunknown size: 32\n", "\n", "base int\n", "\tsize: 4\n", "\n", "struct S\n", "\tsize: 4\n", "\tmembers:\n", "\t\t0[4]\ta: int\n", "\n", "fn f\n", "\taddress: 0x1000-0x101f\n", "\tsize: 32\n", "\n", "var v: int\n", "\taddress: 0x2000\n", "\tsize: 4\n", "\n", "unit y.c\n", "\taddress: 0x1000-0x1007\n", "\tfn size: 8\n", "\n", "fn h\n", "\taddress: 0x1000-0x1007\n", "\tsize: 8\n", "\n"].flatMap k) := by
  decide +kernel

set_option maxRecDepth 4000 in
example : textD (fileD opts (exFilePair 64 80 [unit1, unit3] [unit2]) 3) = (["  file a.out\n", "- \tsize: 68\n", "+ \tsize: 72 (+4)\n", "- \tfn size: 40\n", "+ \tfn size: 32 (-8)\n", "- \tvar size: 4\n", "+ \tvar size: 8 (+4)\n", "- \tother size: 24\n", "+ \tother size: 32 (+8)\n", "  \tsections:\n", "  \t\t.text\n", "- \t\t\taddress: 0x1000-0x103f\n", "+ \t\t\taddress: 0x1000-0x104f\n", "- \t\t\tsize: 64\n", "+ \t\t\tsize: 80 (+16)\n", "\n", "  unit x.c\n", "  \taddresses:\n", "  \t\t0x1000-0x101f (32)\n", "- \t\t0x2000-0x2003 (4)\n", "+ \t\t0x2000-0x2007 (8)\n", "  \tunknown addresses:\n", "  \t\t0x1020-0x103f (32)\n", "  \tfn size: 32\n", "- \tvar size: 4\n", "+ \tvar size: 8 (+4)\n", "  \tunknown size: 32\n", "\n", "- struct S\n", "- \tsize: 4\n", "- \tmembers:\n", "- \t\t0[4]\ta: int\n", "\n", "+ fn g\n", "+ \taddress: 0x1000-0x100f\n", "+ \tsize: 16\n", "\n", "- var v: int\n", "+ var v: long\n", "  \taddress: 0x2000\n", "- \tsize: 4\n", "+ \tsize: 8\n", "\n", "- unit y.c\n", "- \taddress: 0x1000-0x1007\n", "- \tfn size: 8\n", "\n", "- fn h\n", "- \taddress: 0x1000-0x1007\n", "- \tsize: 8\n", "\n"].flatMap k) := by
  decide +kernel

/-! The hypotheses of the theorems hold for these files. -/

example : ∀ o, ((exFileSide 64 [unit1, unit3]).tref o).text' ≠ [] := by
  intro o
  simp only [exFileSide, exFnSide, exSide]
  repeat' split
  all_goals decide

example : ∀ u ∈ (exFileSide 64 [unit1, unit3]).file.units, ∀ f ∈ u.functions,
    OneLocation ((exFileSide 64 [unit1, unit3]).details f) := by
  intro u _ f _
  have h : ∀ i, ¬ Within ([] : List InlinedFunction) i := by
    intro i hi
    cases hi with
    | here h => cases h
    | deeper h _ => cases h
  constructor
  · rintro p (hp | ⟨i, hi, hp⟩)
    · cases hp
    · exact absurd hi (h i)
  · rintro p (hp | ⟨i, hi, hp⟩)
    · cases hp
    · exact absurd hi (h i)

example : ∀ t ∈ unit1.types, Acc (IdRef (exFileSide 64 [unit1]).hash) t.kind := by
  intro t ht
  refine ⟨_, fun y ⟨o, ho, _⟩ => ?_⟩
  simp only [unit1, List.mem_cons, List.not_mem_nil, or_false] at ht
  rcases ht with rfl | rfl <;> simp [Ty.idRefs] at ho

/-- A unit compared with itself is not shown: what is written for equal files is the summary. -/
example : textD (fileD opts (exFilePair 64 64 [unit1, unit3] [unit1, unit3]) 3) = (["  file a.out\n", "  \tsize: 68\n", "  \tfn size: 40\n", "  \tvar size: 4\n", "  \tother size: 24\n", "  \tsections:\n", "  \t\t.text\n", "  \t\t\taddress: 0x1000-0x103f\n", "  \t\t\tsize: 64\n", "\n"].flatMap k) := by
  decide +kernel

/-! ### Findings -/

/-- A unit that only the new file has, and of which nothing is wanted, makes the diff report a
difference although nothing is written. -/
theorem C82_empty_unit_witness :
    let e := fileD { categoryType := true } (exFilePair 64 64 [] [unit3]) 3
    textD e = [] ∧ (e.map fun e => e.flag ⟨false, false, false, false⟩ 0 .equal 3) = some true := by
  decide +kernel

end Verif.Show
