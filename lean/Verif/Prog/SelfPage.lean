import Verif.Prog.Pages
import Verif.Prog.Examples
import Verif.Page.Unmarked
/-!
# C105: the page of a file compared with itself
-/
namespace Verif.Prog
open Verif.Item Verif.Types Verif.Range Verif.File Verif.Show Verif.Opts Verif.Main Verif.Whole Verif.Cli Verif.Filter
  Verif.Namespace Verif.Dwarf Verif.Web Verif.Page

variable {c : Parts}

/-- **C105** (the same file twice, as a page). `ddbug -o html --diff FILE FILE` prints header, items and footer, and whoever reads the
items, tag by tag, sees no line that is marked as deleted or added. -/
theorem C105_self_page (hc : Faithful c) (hk : Healthy c.sink) {argv : List Str} {path : Str} {o : Options} (h : Invoked argv (.diff path path) o)
    (ho : o.html = true) (hh : o.http = false) (hins : o.printFunctionInstructions = false) {l : Loaded} (hl : Holds c path l)
    (hcy : NoCycles (fileHash l.raw.units l.file.units)) (hok : DiffOk o (c.side l)) :
    ∃ N, ∀ n, N ≤ n → ∃ items,
      ddbug c n argv = some (printed [path, path] (c.frame.header ++ items ++ c.frame.footer)) ∧ Html.Items c.table items ∧
      ∀ m x, Html.Sight.line m x ∈ Html.look c.table items → m = .same := by
  have hs := hc.side l
  have hash : (c.side l).hash = fileHash l.raw.units l.file.units := by obtain ⟨_, _, _, _, _, _, _, _, _, hs⟩ := hs; rw [hs]; rfl
  obtain ⟨N, hN⟩ := C105_html_diff hc hk h ho hh hins hl hl hok hok
  refine ⟨N, fun n hn => ?_⟩
  obtain ⟨items, e, h1, h2, h3, h4⟩ := hN n hn
  refine ⟨items, h1, h2, fun m x hx => ?_⟩
  rw [Html.C80_look h4] at hx
  refine nodes_sights (pageD_alike (by simp) _ (fileD_alike (fun off t ht => ?_) hins h3) _) hx
  exact (hc.same l l t t).2 (C10_cmpId_total (c.side l).hash (c.side l).hash t (hash ▸ hcy off t (hash ▸ ht))).2

/-- The hypotheses of C105 (the same file twice, as a page). -/
example : ∃ N, ∀ n, N ≤ n → ∃ items, ddbug exReal n (exArgs ++ [k "-o=html", k "-d", k "a", k "a"]) =
    some (printed [k "a", k "a"] (k "<html>" ++ items ++ k "</html>")) ∧
    ∀ m x, Html.Sight.line m x ∈ Html.look Html.stdTable items → m = .same := by
  obtain ⟨N, hN⟩ := C105_self_page exFaithful (fun _ => rfl) (argv := exArgs ++ [k "-o=html", k "-d", k "a", k "a"]) (o := pageOpts)
    (invoked (ms := _) rfl (.inl ⟨_, _, rfl, rfl⟩) (by rfl) (fun _ => ⟨_, _, rfl⟩)) rfl rfl rfl (holdsA _ (.inl rfl))
    (simpleA' _).noCycles (diffOk_page (simpleA' _).diffOk)
  refine ⟨N, fun n hn => ?_⟩
  obtain ⟨items, h1, -, h3⟩ := hN n hn
  exact ⟨items, h1, h3⟩

end Verif.Prog
