import Verif.Prog.Pages
import Verif.Prog.Examples
/-!
# Cases of C105 (pages)
-/
namespace Verif.Prog
open Verif.Item Verif.Types Verif.Range Verif.File Verif.Show Verif.Opts Verif.Main Verif.Whole Verif.Cli Verif.Filter
  Verif.Namespace Verif.Dwarf Verif.Web Verif.Page

/-- The hypotheses of C105 (pages). -/
example : ∃ N, ∀ n, N ≤ n → ∃ items ns, ddbug exReal n (exArgs ++ [k "-o=html", k "a"]) =
    some (printed [k "a"] (k "<html>" ++ items ++ k "</html>")) ∧
    Html.Reads Html.stdTable Html.asciiAlnum items ns ∧
    ObjectPage pageOpts (exA (k "a")).raw (sideS (exA (k "a")).raw fileA) n ns := by
  obtain ⟨N, hN⟩ := C105_page exFaithful (fun _ => rfl) (argv := exArgs ++ [k "-o=html", k "a"]) (o := pageOpts)
    (invoked (ms := _) rfl (.inr (.inr ⟨_, rfl, rfl⟩)) (by rfl) (by rintro (h | h) <;> exact absurd rfl h)) rfl rfl rfl (holdsA _ (.inl rfl))
    placedA (fun u hu hw => unitOk_page ((simpleA' (k "a")).diffOk.units u hu hw).1)
  refine ⟨N, fun n hn => ?_⟩
  obtain ⟨items, ns, h1, -, h2, -, h3⟩ := hN n hn
  exact ⟨items, ns, h1, h2, h3⟩

/-- The hypotheses of C105 (pages of diffs). -/
example : ∃ N, ∀ n, N ≤ n → ∃ items ns, ddbug exReal n (exArgs ++ [k "-o=html", k "-d", k "a", k "b"]) =
    some (printed [k "a", k "b"] (k "<html>" ++ items ++ k "</html>")) ∧
    Html.Reads Html.stdTable Html.asciiAlnum items ns ∧
    DiffPage pageOpts ⟨exReal.side (exA (k "a")), exReal.side exB, exReal.same (exA (k "a")) exB, exReal.heap⟩ n ns := by
  obtain ⟨N, hN⟩ := C105_diff_page exFaithful (fun _ => rfl) (argv := exArgs ++ [k "-o=html", k "-d", k "a", k "b"]) (o := pageOpts)
    (invoked (ms := _) rfl (.inl ⟨_, _, rfl, rfl⟩) (by rfl) (fun _ => ⟨_, _, rfl⟩)) rfl rfl rfl (holdsA _ (.inl rfl)) holdsB
    (diffOk_page (simpleA' _).diffOk) (diffOk_page simpleB'.diffOk)
    (fun u hu t ht => acc_of_discr (.inr ((simpleA' (k "a")).listed u hu t ht).1))
  refine ⟨N, fun n hn => ?_⟩
  obtain ⟨items, ns, h1, -, h2, -, h3⟩ := hN n hn
  exact ⟨items, ns, h1, h2, h3⟩

end Verif.Prog
