import Verif.Web.DiffPage
import Verif.Show.FileExamples
/-!
# A concrete pair of files for the page of a diff (C82)
-/
namespace Verif.Web
open Verif.Print Verif.Html Verif.Item Verif.Opts Verif.Show Verif.Types Verif.Namespace

private def fn (name : String) (size : Nat) : Function := {
  name := some (k name), address := some 0x1000, size := some size, ranges := [⟨0x1000, 0x1000 + size⟩] }
private def unitX : CompUnit := {
  name := some (k "x.c"), types := [⟨some 1, .base (some (k "int")) ⟨4⟩⟩] }
private def unitX' : CompUnit := { name := some (k "x.c"), functions := [fn "g" 8] }

private def opts : Options := { categoryType := true, html := true, inlineDepth := 1 }

private def page (o : Options) : Option Str :=
  (fileD o (exFilePair 64 64 [unitX] [unitX']) 2).map fun e =>
    (e.run (htmlPrinter stdTable asciiAlnum) (printOpts o) (Html.new o.inlineDepth o.http) false).1.w

set_option maxRecDepth 4000 in
/-- A type that is gone. -/
example : page opts = some (lit (
    "<li class=\"treebranch\" id=\"0\"><span class=\"field mod\">unit x.c</span><ul style=\"display:none\">\n" ++
    "<li class=\"treebranch\"><span class=\"field mod\">types:</span><ul style=\"display:none\">\n" ++
    "<li class=\"treebranch\" id=\"1\"><span class=\"field del\">base int</span><ul style=\"display:none\">\n" ++
    "<li><span class=\"field\">size:</span> <span class=\"field del\">4</span></li>\n" ++
    "</ul></li>\n</ul></li>\n" ++
    "</ul></li>\n")) := by
  decide +kernel

/-- The hypothesis of `C82_unit_page_diff` holds. -/
example : ∀ t ∈ unitX.types, Acc (IdRef (exFilePair 64 64 [unitX] [unitX']).a.hash) t.kind := by
  intro t ht
  rw [List.mem_singleton.1 ht]
  exact ⟨_, fun y ⟨o, ho, _⟩ => by simp [Ty.idRefs] at ho⟩

end Verif.Web
