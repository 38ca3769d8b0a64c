import Verif.Html.ReadText
import Verif.Html.Props
/-!
# C80: what a page shows
-/
namespace Verif.Html
open Verif.Print

/-- The page of a listing reads as the tree of its sections and lines, all unmarked. -/
theorem C80_print (t : EntityTable) (alnum : Nat → Bool) (http : Bool) (p : P) (hp : TreeP p) (depth : Nat) :
    Reads t alnum (p.run (htmlPrinter t alnum) http (Html.new depth http)).w (pageP http .same p depth) := by
  obtain ⟨o, h1, h2⟩ := treeP_reads (t := t) (alnum := alnum) http p hp (Html.new depth http) rfl rfl
  rw [h1]
  exact h2

/-- The page of a diff reads as the tree of its sections and lines: what only the old file has is marked as
deleted, what only the new file has as added, and nothing else is marked as either. -/
theorem C80_diff (t : EntityTable) (alnum : Nat → Bool) (o : Opts) (ho : o.html = true) (e : D) (he : TreeD e) (depth : Nat) :
    Reads t alnum (e.run (htmlPrinter t alnum) o (Html.new depth o.http) false).1.w
      (pageD (fun a b => decide (valueHtml t alnum a = valueHtml t alnum b)) o.http e depth) := by
  obtain ⟨out, x, f', h1, h2⟩ := treeD_reads (t := t) (alnum := alnum) o ho e he (Html.new depth o.http) false rfl rfl
  rw [h1]
  exact h2

/-- Values that are written in the same way are the same text, also where names are abbreviated: no page
shows a changed value as unchanged. -/
theorem C80_no_missed (t : EntityTable) (alnum : Nat → Bool) (a b : Val)
    (h : valueHtml t alnum a = valueHtml t alnum b) : a.text' = b.text' :=
  text_of_html h

/-- The page of a listing shows the lines of the text listing, at the same depths. -/
theorem C80_text (p : P) (hp : TreeP p) (hr : Regular p) (depth : Nat) :
    textEntries (p.lines false 0 .none depth) = flats 0 (pageP false .same p depth) := by
  rw [P.lines_eq]
  exact treeP_entries p hp hr 0 .none depth

/-- The page of a diff shows the lines of the text diff, at the same depths and with the same marks (a page
has no mark on a label without a value). -/
theorem C80_text_diff (t : EntityTable) (alnum : Nat → Bool) (o : Opts) (ho : o.http = false) (e : D) (he : TreeD e)
    (hr : RegularD (fun a b => decide (valueHtml t alnum a = valueHtml t alnum b)) e) (hn : e.NoHide) (depth : Nat) :
    textEntries (e.lines o 0 .none depth) =
      flats 0 (pageD (fun a b => decide (valueHtml t alnum a = valueHtml t alnum b)) false e depth) := by
  rw [D.lines_eq]
  exact (treeD_entries (fun a b h => text_of_html (of_decide_eq_true h)) o ho e he hr hn 0 .none depth).1

/-! ### Examples -/

/-- A diff with a changed size, a removed member and an unchanged one. -/
def exReadDiff : D :=
  .id 5 (.line [] (.text (lit "struct S")) (.text (lit "struct S")))
    (.seq (.line (lit "size") (.text (lit "4")) (.text (lit "8")))
      (.field true (lit "members")
        (.seq (.prefixDelete (.field false (lit "old") (.line [] (.name (lit "x")))))
          (.line [] (.link 3 (.text (lit "y"))) (.link 3 (.text (lit "y")))))))

example : TreeD exReadDiff := by simp only [exReadDiff, TreeD, FlatD, TreeP]; decide +kernel

example : RegularD (fun a b => decide (valueHtml stdTable asciiAlnum a = valueHtml stdTable asciiAlnum b)) exReadDiff := by
  simp only [exReadDiff, RegularD, Regular, NoBreakD, NoBreak]; decide +kernel

example : exReadDiff.NoHide := by simp [exReadDiff, D.NoHide]

/-- What the page of the example shows. -/
theorem C80_example_witness : flats 0 (pageD (fun a b => decide (valueHtml stdTable asciiAlnum a = valueHtml stdTable asciiAlnum b)) false exReadDiff 1) =
    [⟨0, .same, [], lit "struct S"⟩, ⟨1, .del, lit "size", lit "4"⟩, ⟨1, .add, lit "size", lit "8"⟩,
     ⟨1, .same, lit "members", []⟩, ⟨2, .same, lit "old", []⟩, ⟨3, .del, [], lit "x"⟩, ⟨2, .same, [], lit "y"⟩] := by
  decide +kernel

/-- Finding: the label of a deleted section is not marked on the page, while the text diff marks it. -/
theorem C80_label_witness :
    (D.lines ⟨true, false, false, false⟩ (.prefixDelete (.field false (lit "old") (.line [] (.text (lit "x"))))) 0 .none 1) =
      [.line .delete 0 (lit "old") [], .line .delete 1 [] (lit "x")] ∧
    ((D.prefixDelete (.field false (lit "old") (.line [] (.text (lit "x"))))).run (htmlPrinter stdTable asciiAlnum)
      ⟨true, false, false, false⟩ (Html.new 1 false) false).1.w =
      lit ("<li class=\"treebranch\"><span>old:</span><ul>\n" ++
        "<li><span class=\"field del\">x</span></li>\n</ul></li>\n") := by
  decide +kernel

/-- Two values with the same text and different links are shown as a change on the page only. -/
theorem C80_link_witness :
    let a := Val.link 1 (.text (lit "T"))
    let b := Val.link 2 (.text (lit "T"))
    lineGroup (fun a b => decide (valueHtml stdTable asciiAlnum a = valueHtml stdTable asciiAlnum b)) [] a b =
      [[⟨.del, [], a⟩, ⟨.add, [], b⟩]] ∧ a.text' = b.text' := by decide +kernel

end Verif.Html
