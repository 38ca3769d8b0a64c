import Verif.Prog.Pages
import Verif.Prog.SelfPage
import Verif.Page.Agree
/-!
# C105: the page of a diff without marks
-/
namespace Verif.Prog
open Verif.Item Verif.Types Verif.Range Verif.File Verif.Show Verif.Opts Verif.Main Verif.Whole Verif.Cli Verif.Filter
  Verif.Namespace Verif.Dwarf Verif.Web Verif.Page

variable {c : Parts}

/-- **C105** (no mark, no difference). If whoever reads what `ddbug -o html --diff A B` prints sees no line that is marked, the
same is said of both files. -/
theorem C105_unmarked_page (hc : Faithful c) (hk : Healthy c.sink) {argv : List Str} {pa pb : Str} {o : Options} (h : Invoked argv (.diff pa pb) o)
    (ho : o.html = true) (hh : o.http = false) (hins : o.printFunctionInstructions = false) {a b : Loaded} (ha : Holds c pa a) (hb : Holds c pb b)
    (hoka : DiffOk o (c.side a)) (hokb : DiffOk o (c.side b))
    (hty : ∀ u ∈ a.file.units, ∀ t ∈ u.types, Acc (IdRef (c.side a).hash) t.kind) :
    ∃ N, ∀ n, N ≤ n → ∃ items,
      ddbug c n argv = some (printed [pa, pb] (c.frame.header ++ items ++ c.frame.footer)) ∧
      ((∀ m x, Html.Sight.line m x ∈ Html.look c.table items → m = .same) →
        FilesSay o ⟨c.side a, c.side b, c.same a b, c.heap⟩) := by
  obtain ⟨N, hN⟩ := C105_diff_page hc hk h ho hh hins ha hb hoka hokb hty
  refine ⟨N, fun n hn => ?_⟩
  obtain ⟨items, ns, h1, -, -, h4, h5⟩ := hN n hn
  refine ⟨items, h1, fun hm => page_agree h5 (unmarked_nodes (alnum := c.alnum) ?_)⟩
  rw [← h4]
  exact hm

/-- The hypotheses of C105 (no mark, no difference): of a file and itself the same is said, since their page has no mark. -/
example : FilesSay pageOpts ⟨exReal.side (exA (k "a")), exReal.side (exA (k "a")), exReal.same (exA (k "a")) (exA (k "a")), exReal.heap⟩ := by
  have h : Invoked (exArgs ++ [k "-o=html", k "-d", k "a", k "a"]) (.diff (k "a") (k "a")) pageOpts :=
    invoked (ms := _) rfl (.inl ⟨_, _, rfl, rfl⟩) (by rfl) (fun _ => ⟨_, _, rfl⟩)
  have ha := holdsA (k "a") (.inl rfl)
  have hok := diffOk_page (simpleA' (k "a")).diffOk
  obtain ⟨N, hN⟩ := C105_unmarked_page exFaithful (fun _ => rfl) h rfl rfl rfl ha ha hok hok
    (fun u hu t ht => acc_of_discr (.inr ((simpleA' (k "a")).listed u hu t ht).1))
  obtain ⟨M, hM⟩ := C105_self_page exFaithful (fun _ => rfl) h rfl rfl rfl ha (simpleA' _).noCycles hok
  obtain ⟨items, e1, h1⟩ := hN (max N M) (Nat.le_max_left ..)
  obtain ⟨items', e2, -, h2⟩ := hM (max N M) (Nat.le_max_right ..)
  rw [e1] at e2
  have e3 := congrArg Main.Shown.stdout (Option.some.inj e2)
  have : items = items' := List.append_cancel_left (List.append_cancel_right e3)
  exact h1 (this ▸ h2)

end Verif.Prog
