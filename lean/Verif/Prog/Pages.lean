import Verif.Prog.Props
import Verif.Page.EntryProps
import Verif.Page.DiffProps
import Verif.Html.LookTree
/-!
# C105: what the pages the program prints show
-/
namespace Verif.Prog
open Verif.Item Verif.Types Verif.Range Verif.File Verif.Show Verif.Opts Verif.Main Verif.Whole Verif.Cli Verif.Filter
  Verif.Namespace Verif.Dwarf Verif.Web Verif.Page
open Verif.Print (P D)
open Verif.Html (Items)

variable {c : Parts}

/-- **C105** (pages). `ddbug -o html FILE` prints a page: header, well-formed items, footer. The items are the summary, if it is
wanted, and one for every wanted unit, in which every wanted entry of the debug information has its item, which says what
the entry says; and this is what a reader sees who knows only the page. -/
theorem C105_page (hc : Faithful c) (hk : Healthy c.sink) {argv : List Str} {path : Str} {o : Options} (h : Invoked argv (.print path) o)
    (ho : o.html = true) (hh : o.http = false) (hins : o.printFunctionInstructions = false) {l : Loaded} (hl : Holds c path l)
    (hp : Placed l.raw.units) (hok : ∀ u ∈ l.file.units, WantedUnit o u → UnitOk o (c.side l) u) :
    ∃ N, ∀ n, N ≤ n → ∃ items ns,
      ddbug c n argv = some (printed [path] (c.frame.header ++ items ++ c.frame.footer)) ∧ Items c.table items ∧
      Html.Reads c.table c.alnum items ns ∧
      Html.look c.table items = Html.sights c.alnum ns ∧ ObjectPage o l.raw (c.side l) n ns := by
  have hs := hc.side l
  have hf : (c.side l).file = l.file := by obtain ⟨_, _, _, _, _, _, _, _, _, hs⟩ := hs; rw [hs]; rfl
  obtain ⟨N, hN⟩ := C92_print o (c.side l) (hf ▸ hok)
  refine ⟨N, fun n hn => ?_⟩
  obtain ⟨p, hpr⟩ := hN n hn
  obtain ⟨p', items, hp', hpage, hi, hr⟩ := C88_page_wellformed c.table c.alnum c.frame o (c.side l) n hh ho hins
    (c.frame.header ++ fresh c.table c.alnum o p ++ c.frame.footer) (by simp only [printPage, hpr, Option.map_some])
  obtain rfl : p = p' := Option.some.inj (hpr.symm.trans hp')
  obtain ⟨r, -, -, hparse⟩ := id hl
  obtain ⟨b, code, disasm, regName, ids, fnId, varId, unitId, insns, hs⟩ := hs
  refine ⟨items, _, ?_, hi, hr, Html.C80_look hr, C106_object hc.search hparse hp hs (file_page hins ho hpr)⟩
  have := shows hc hk n h hh (.print (load_holds.2 hl)) (t := fresh c.table c.alnum o p)
    (by simp only [written, hpr, Option.map_some, printedP, ho]; rfl)
  rw [this, ho, ← hpage]
  rfl

/-- **C105** (pages of diffs). `ddbug -o html --diff A B` prints header, well-formed items, footer; and the items show the
comparison of the two files as C106 says, and this is what a reader sees who knows only the page. -/
theorem C105_diff_page (hc : Faithful c) (hk : Healthy c.sink) {argv : List Str} {pa pb : Str} {o : Options} (h : Invoked argv (.diff pa pb) o)
    (ho : o.html = true) (hh : o.http = false) (hins : o.printFunctionInstructions = false) {a b : Loaded} (ha : Holds c pa a) (hb : Holds c pb b)
    (hoka : DiffOk o (c.side a)) (hokb : DiffOk o (c.side b))
    (hty : ∀ u ∈ a.file.units, ∀ t ∈ u.types, Acc (IdRef (c.side a).hash) t.kind) :
    ∃ N, ∀ n, N ≤ n → ∃ items ns,
      ddbug c n argv = some (printed [pa, pb] (c.frame.header ++ items ++ c.frame.footer)) ∧ Items c.table items ∧
      Html.Reads c.table c.alnum items ns ∧
      Html.look c.table items = Html.sights c.alnum ns ∧ DiffPage o ⟨c.side a, c.side b, c.same a b, c.heap⟩ n ns := by
  have hs := hc.side a
  have hf : (c.side a).file = a.file := by obtain ⟨_, _, _, _, _, _, _, _, _, hs⟩ := hs; rw [hs]; rfl
  obtain ⟨N, hN⟩ := C105_html_diff hc hk h ho hh hins ha hb hoka hokb
  refine ⟨N, fun n hn => ?_⟩
  obtain ⟨items, e, h1, h2, h3, h4⟩ := hN n hn
  refine ⟨items, _, h1, h2, h4, Html.C80_look h4, ?_⟩
  exact file_diff (c := ⟨c.side a, c.side b, c.same a b, c.heap⟩)
    (same := fun x y => decide (Html.valueHtml c.table c.alnum x = Html.valueHtml c.table c.alnum y))
    (fun x y h => Html.text_of_html (of_decide_eq_true h)) hins hh ho h3 (hf ▸ hty)

end Verif.Prog
