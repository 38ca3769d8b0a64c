import Verif.Web.Form
import Verif.Show.FileExamples
/-!
# A concrete file for C88
-/
namespace Verif.Web
open Verif.Print Verif.Html Verif.Item Verif.Opts Verif.Show Verif.Ids Verif.Serve Verif.Types Verif.Filter

private def fnF : Function := {
  name := some (k "f"), address := some 0x1000, size := some 32, ranges := [⟨0x1000, 0x1020⟩] }
private def fnH : Function := {
  name := some (k "h"), address := some 0x2000, size := some 8, ranges := [⟨0x2000, 0x2008⟩] }
private def varV : Item.Variable := { name := some (k "v"), ty := some 1, address := some 0x3000 }
private def unitX : CompUnit := {
  name := some (k "x.c"), functions := [fnF], variables := [varV],
  types := [⟨some 1, .base (some (k "int")) ⟨4⟩⟩] }
private def unitY : CompUnit := { name := some (k "y.c"), functions := [fnH] }

/-- The numbers are: unit `x.c` 0, `int` 1, `f` 2, `v` 3, unit `y.c` 4, `h` 5. -/
def exWebSide : FileSide where
  toFnSide := { exFnSide {} with
    insns := fun _ => some (.instruction (some 0) (k "nop") .nil), fnId := fun f => if f = fnF then 2 else 5 }
  path := k "a.out"
  file := { sections := [], units := [unitX, unitY] }
  varId := fun _ => 3
  unitId := fun u => if u = unitX then 0 else 4

/-- All functions, with their instructions. -/
def exWebOpts : Options := {
  categoryUnit := true, categoryType := true, categoryFunction := true, categoryVariable := true,
  printFunctionInstructions := true, html := true, http := true, inlineDepth := 1 }

private def fr : Frame := ⟨lit "<ul>", lit "</ul>"⟩

/-- The hypotheses of `C88_print` and `C88_link` hold. -/
theorem exWeb_ids : IdsOf exWebSide where
  unit := by
    intro u hu
    rcases List.mem_cons.1 hu with rfl | hu
    · exact ⟨0, rfl, by decide +kernel⟩
    · rw [List.mem_singleton.1 hu]
      exact ⟨1, rfl, by decide +kernel⟩
  type := by
    intro u hu
    rcases List.mem_cons.1 hu with rfl | hu
    · intro t ht
      rw [List.mem_singleton.1 ht]
      exact ⟨0, 0, rfl, rfl, by decide +kernel⟩
    · rw [List.mem_singleton.1 hu]
      intro t ht; cases ht
  function := by
    intro u hu
    rcases List.mem_cons.1 hu with rfl | hu
    · intro f hf
      rw [List.mem_singleton.1 hf]
      exact ⟨0, 0, rfl, rfl, by decide +kernel⟩
    · rw [List.mem_singleton.1 hu]
      intro f hf
      rw [List.mem_singleton.1 hf]
      exact ⟨1, 0, rfl, rfl, by decide +kernel⟩
  var := by
    intro u hu
    rcases List.mem_cons.1 hu with rfl | hu
    · intro v hv
      rw [List.mem_singleton.1 hv]
      exact ⟨0, 0, rfl, rfl, by decide +kernel⟩
    · rw [List.mem_singleton.1 hu]
      intro v hv; cases hv

example : (∀ f p, exWebSide.insns f = some p → OnlyRows p) ∧ (∀ f p, exWebSide.insns f = some p → CodeP p) ∧
    (assignIds exWebSide.file.units).ids.length ≤ 2 ^ 64 ∧ exWebSide.file.units.Nodup := by
  refine ⟨fun f p h => ?_, fun f p h => ?_, by decide +kernel, by decide +kernel⟩
  · cases h; trivial
  · cases h; show Html.Plain _; decide

example : ListedIn exWebOpts exWebSide unitX 2 (fnName fnF) :=
  .function (f := fnF) rfl (by decide +kernel) ((okFunction_iff _ _).1 (by decide +kernel))

set_option maxRecDepth 4000 in
/-- The page, the answer for the unit `x.c`, for the function in it and for its instructions. -/
example :
    answer stdTable asciiAlnum fr exWebOpts exWebSide 2 (k "/") = some (lit ("<ul>" ++
      "<li class=\"treebranch lazy\" id=\"0\"><span class=\"field\">unit x.c</span><ul style=\"display:none\">\n</ul></li>\n" ++
      "<li class=\"treebranch lazy\" id=\"4\"><span class=\"field\">unit y.c</span><ul style=\"display:none\">\n</ul></li>\n" ++
      "</ul>")) ∧
    loads stdTable asciiAlnum fr exWebOpts exWebSide 2 4 none = lit (
      "<li><span class=\"field\">fn size:</span> <span class=\"field\">8</span></li>\n" ++
      "<li class=\"treebranch\"><span>functions:</span><ul style=\"display:none\">\n" ++
      "<li class=\"treebranch lazy\" id=\"5\"><span class=\"field\">fn h</span><ul style=\"display:none\">\n</ul></li>\n" ++
      "</ul></li>\n") ∧
    loads stdTable asciiAlnum fr exWebOpts exWebSide 2 5 none = lit (
      "<li><span class=\"field\">address:</span> <span class=\"field\">0x2000-0x2007</span></li>\n" ++
      "<li><span class=\"field\">size:</span> <span class=\"field\">8</span></li>\n" ++
      "<li class=\"detail\" data-detail=\"code\"><span>instructions:</span></li>\n") ∧
    loads stdTable asciiAlnum fr exWebOpts exWebSide 2 5 (some (k "code")) =
      lit "<tr><td>0</td><td>nop</td><td></td></tr>" ∧
    loads stdTable asciiAlnum fr exWebOpts exWebSide 2 5 (some (k "parent")) = lit "4" := by
  decide +kernel

end Verif.Web
