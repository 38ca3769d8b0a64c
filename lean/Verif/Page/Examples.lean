import Verif.Page.Props
import Verif.Web.Examples
/-!
# A concrete page
-/
namespace Verif.Page
open Verif.Print Verif.Html Verif.Item Verif.Types Verif.Opts Verif.Show Verif.Order Verif.Filter Verif.Web

/-- Units with types, functions and variables, in one page. -/
def exPageOpts : Options := {
  categoryUnit := true, categoryType := true, categoryFunction := true, categoryVariable := true, html := true,
  inlineDepth := 1 }

private def exFrame : Frame := ⟨lit "<ul>", lit "</ul>"⟩

set_option maxRecDepth 4000 in
private theorem exPage_some : (printPage stdTable asciiAlnum exFrame exPageOpts exWebSide 2).isSome = true := by
  decide +kernel

/-- The hypotheses of `C106_page` hold for it, so the page shows both units. -/
example : ∃ page items ns, printPage stdTable asciiAlnum exFrame exPageOpts exWebSide 2 = some page ∧
    page = exFrame.header ++ items ++ exFrame.footer ∧ Html.Reads stdTable asciiAlnum items ns ∧
    FilePage exPageOpts exWebSide 2 ns := by
  obtain ⟨page, hp⟩ := Option.isSome_iff_exists.1 exPage_some
  obtain ⟨items, ns, h⟩ := C106_page stdTable asciiAlnum exFrame exPageOpts exWebSide 2 rfl rfl rfl page hp
  exact ⟨page, items, ns, hp, h⟩

set_option maxRecDepth 4000 in
/-- What the page shows. -/
example : ∃ p, fileP exPageOpts exWebSide 2 = some p ∧ flats 0 (pageP false .same p 1) =
    [⟨0, .same, [], lit "unit x.c"⟩, ⟨1, .same, lit "fn size", lit "32"⟩, ⟨1, .same, lit "var size", lit "4"⟩,
      ⟨1, .same, lit "types", []⟩, ⟨2, .same, [], lit "base int"⟩, ⟨3, .same, lit "size", lit "4"⟩,
      ⟨1, .same, lit "functions", []⟩, ⟨2, .same, [], lit "fn f"⟩, ⟨3, .same, lit "address", lit "0x1000-0x101f"⟩,
      ⟨3, .same, lit "size", lit "32"⟩,
      ⟨1, .same, lit "variables", []⟩, ⟨2, .same, [], lit "var v: int"⟩, ⟨3, .same, lit "address", lit "0x3000"⟩,
      ⟨3, .same, lit "size", lit "4"⟩,
      ⟨0, .same, [], lit "unit y.c"⟩, ⟨1, .same, lit "fn size", lit "8"⟩, ⟨1, .same, lit "functions", []⟩,
      ⟨2, .same, [], lit "fn h"⟩, ⟨3, .same, lit "address", lit "0x2000-0x2007"⟩, ⟨3, .same, lit "size", lit "8"⟩] := by
  refine ⟨(fileP exPageOpts exWebSide 2).get (by decide +kernel), (Option.some_get _).symm, ?_⟩
  decide +kernel

/-- Rows that are said, and items that say something else: a wrong number, a missing row, a row too many, another depth. -/
example :
    let rows : List Row := [⟨0, [], lit "var v"⟩, ⟨1, lit "size", lit "4"⟩]
    let item (size : Str) : List Node := [.item [⟨.same, [], .text (lit "var v")⟩]
      (some [.item [⟨.same, lit "size", .text size⟩] none])]
    Says .same rows (item (lit "4")) ∧ ¬ Says .same rows (item (lit "8")) ∧
    ¬ Says .same rows [.item [⟨.same, [], .text (lit "var v")⟩] none] ∧
    ¬ Says .same [⟨0, [], lit "var v"⟩] (item (lit "4")) ∧
    ¬ Says .same rows [.item [⟨.same, [], .text (lit "var v")⟩, ⟨.same, lit "size", .text (lit "4")⟩] none] := by
  simp only [Says]
  decide +kernel

end Verif.Page
