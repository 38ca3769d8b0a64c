import Verif.Prog.Props
import Verif.Whole.DiffExamples
import Verif.Html.Props
import Verif.Web.Examples
/-!
# Cases of C105

Three files on a disk: `a`, `b`, and `c`, a copy of `a`.
-/
namespace Verif.Prog
open Verif.Item Verif.Types Verif.Range Verif.File Verif.Show Verif.Opts Verif.Main Verif.Whole Verif.Cli Verif.Bloat Verif.Filter
  Verif.Namespace Verif.Dwarf Verif.Web Verif.Ids
open Verif.Print (P D Line DiffPrefix render)

/-- The program with this disk. -/
def exParts (same : Loaded → Loaded → Ty → Ty → Bool) : Parts where
  disk p := if p = k "a" ∨ p = k "c" then .ok objA else if p = k "b" then .ok objB else .error (k "open failed")
  search := firstSearch
  bound := 10
  badObject := k "bad object"
  side l := sideS l.raw l.file
  same := same
  heap := Path.listHeap
  calls _ := none
  iter l := l
  table := Html.stdTable
  alnum := Html.asciiAlnum
  frame := ⟨k "<html>", k "</html>"⟩
  cut t := [t]
  cap := 8192
  sink _ := none

/-- With the comparison of types of the code. -/
noncomputable def exReal : Parts := exParts fun l l' => decides (sideS l.raw l.file).hash (sideS l'.raw l'.file).hash

/-- With a comparison of types that can be computed and is the same for these files. -/
def exRun : Parts := exParts fun l l' x y => (cmpId false 5 (sideS l.raw l.file).hash x (sideS l'.raw l'.file).hash y) == .ok .eq

theorem exFaithful : Faithful exReal where
  search := validSearch_linear
  side l := readsS l.raw l.file
  same _ _ := decides_is _ _
  iter l := .refl l
  cut t := by simp [exReal, exParts]

/-- From what clap finds to `Invoked`. -/
theorem invoked {argv : List Str} {ms : Matches} {m : Mode Str} {o : Options} (h : getMatches argv = some ms)
    (hn : Names ms.paths m) (ho : parseOptions ms.args = some o)
    (hi : (ms.args.ignore ≠ none ∨ ms.args.prefixMap ≠ none) → ∃ x y, m = .diff x y) : Invoked argv m o := by
  obtain ⟨items, h1, h2, h3⟩ := (C99_reads argv _ _).1 ⟨ms, h, rfl, rfl⟩
  exact ⟨items, _, _, h1, h2, h3, hn, ho, hi⟩

/-- The arguments of the cases. -/
def exArgs : List Str := [k "-c", k "type,function", k "--category=variable", k "--inline-depth", k "0"]

theorem ex_print (p : Str) (hp : p = k "a" ∨ p = k "nothing") : Invoked (exArgs ++ [p]) (.print p) listOpts := by
  rcases hp with rfl | rfl <;>
  exact invoked (ms := _) rfl (.inr (.inr ⟨_, rfl, rfl⟩)) (by rfl) (by rintro (h | h) <;> exact absurd rfl h)

theorem ex_diff (q : Str) (hq : q = k "b" ∨ q = k "c") : Invoked (exArgs ++ [k "-d", k "a", q]) (.diff (k "a") q) listOpts := by
  rcases hq with rfl | rfl <;>
  exact invoked (ms := _) rfl (.inl ⟨_, _, rfl, rfl⟩) (by rfl) (fun _ => ⟨_, _, rfl⟩)

/-- The files of the cases. -/
def exA (p : Str) : Loaded := ⟨{ objA with path := p }, fileA⟩
/-- See `exA`. -/
def exB : Loaded := ⟨{ objB with path := k "b" }, fileB⟩

theorem holdsA (p : Str) (hp : p = k "a" ∨ p = k "c") : Holds exReal p (exA p) :=
  ⟨objA, by simp [exReal, exParts, hp], rfl, parseA⟩
theorem holdsB : Holds exReal (k "b") exB := ⟨objB, by rfl, rfl, parseB⟩

theorem simpleA' (p : Str) : Simple { objA with path := p } fileA :=
  ⟨simpleA.types, simpleA.details, simpleA.listed, simpleA.names, simpleA.variables, simpleA.sections⟩
theorem simpleB' : Simple { objB with path := k "b" } fileB :=
  ⟨simpleB.types, simpleB.details, simpleB.listed, simpleB.names, simpleB.variables, simpleB.sections⟩

/-- The hypotheses of C105 (print). -/
example : ∃ N, ∀ n, N ≤ n → ∃ units, ddbug exReal n (exArgs ++ [k "a"]) = some (printed [k "a"] units) ∧
    UnitsListed listOpts (exA (k "a")).raw fileA (sideS (exA (k "a")).raw fileA) n 0 0 units := by
  obtain ⟨N, hN⟩ := C105_print exFaithful (fun _ => rfl) (ex_print (k "a") (.inl rfl)) rfl (holdsA _ (.inl rfl)) placedA
    (fun u hu hw => ((simpleA' (k "a")).diffOk.units u hu hw).1)
  refine ⟨N, fun n hn => ?_⟩
  obtain ⟨head, units, h1, h2, -, h4⟩ := hN n hn
  rw [h2 rfl] at h1
  exact ⟨units, h1, h4⟩

/-- The hypotheses of C105 (diff). -/
example : ∃ N, ∀ n, N ≤ n → ∃ text, ddbug exReal n (exArgs ++ [k "-d", k "a", k "b"]) = some (printed [k "a", k "b"] text) ∧
    EntriesCompared exReal n listOpts (exA (k "a")) exB text :=
  C105_diff exFaithful (fun _ => rfl) (ex_diff (k "b") (.inl rfl)) rfl (holdsA _ (.inl rfl)) holdsB placedA placedB
    (simpleA' _).diffOk simpleB'.diffOk (simpleA' _).readable simpleB'.readable (fun _ => simpleB'.oneLocation)
    (fun u hu t ht => acc_of_discr (.inr ((simpleA' (k "a")).listed u hu t ht).1))

/-- A copy. -/
example : ∃ N, ∀ n, N ≤ n → ddbug exReal n (exArgs ++ [k "-d", k "a", k "c"]) = some (printed [k "a", k "c"] []) :=
  C105_copy exFaithful (fun _ => rfl) (ex_diff (k "c") (.inr rfl)) rfl rfl rfl (holdsA _ (.inl rfl)) (fun _ _ => rfl)
    (simpleA' _).noCycles (simpleA' _).diffOk

/-- A file that is not there. -/
example (n : Nat) : ddbug exReal n (exArgs ++ [k "nothing"]) =
    some { opened := [k "nothing"], stdout := [], errors := [k "nothing: open failed"], served := none } := by
  rw [C105_unreadable n (ex_print (k "nothing") (.inr rfl)) (before := []) (after := []) rfl (e := k "open failed") (.inl (by rfl)) (by simp)]
  rfl

/-- The same file twice. -/
example : ∃ N, ∀ n, N ≤ n → ∃ lines, ddbug exReal n (exArgs ++ [k "-d", k "a", k "a"]) = some (printed [k "a", k "a"] (render lines)) ∧
    ∀ x ∈ lines, x.marked = false := by
  obtain ⟨N, hN⟩ := C105_self exFaithful (fun _ => rfl) (argv := exArgs ++ [k "-d", k "a", k "a"]) (o := listOpts)
    (invoked (ms := _) rfl (.inl ⟨_, _, rfl, rfl⟩) (by rfl) (fun _ => ⟨_, _, rfl⟩)) rfl (holdsA _ (.inl rfl))
    (simpleA' _).noCycles (simpleA' _).diffOk
  refine ⟨N, fun n hn => ?_⟩
  obtain ⟨lines, p, h1, h2, -⟩ := hN n hn
  exact ⟨lines, h1, h2⟩

/-- The hypotheses of C105 (bloat). -/
example (n : Nat) : ∃ lines, ddbug exReal n (exArgs ++ [k "--bloat", k "b"]) = some (printed [k "b"] (render lines)) ∧
    BloatLines none fileB.units lines :=
  C105_bloat exFaithful (fun _ => rfl) n (argv := exArgs ++ [k "--bloat", k "b"]) (o := listOpts)
    (invoked (ms := _) rfl (.inr (.inl ⟨_, rfl, rfl⟩)) (by rfl) (by rintro (h | h) <;> exact absurd rfl h)) rfl holdsB (by decide +kernel)

/-- The options of an HTML page. -/
def pageOpts : Options := { listOpts with html := true }

theorem unitOk_page {s : FileSide} {u : CompUnit} (h : UnitOk listOpts s u) : UnitOk pageOpts s u := 
  ⟨h.types, fun hc f hf hw => ⟨(h.functions hc f hf hw).1, let g := (h.functions hc f hf hw).2; ⟨g.frame, g.calls, g.code, g.insns⟩⟩, h.variables⟩
theorem diffOk_page {s : FileSide} (h : DiffOk listOpts s) : DiffOk pageOpts s :=
  ⟨h.summary, fun u hu hw => ⟨unitOk_page (h.units u hu hw).1, (h.units u hu hw).2⟩, h.types, h.functions⟩

/-- The hypotheses of C105 (HTML). -/
example : ∃ N, ∀ n, N ≤ n → ∃ items, ddbug exReal n (exArgs ++ [k "-o=html", k "a"]) =
    some (printed [k "a"] (k "<html>" ++ items ++ k "</html>")) ∧ Html.Items Html.stdTable items := by
  obtain ⟨N, hN⟩ := C105_html exFaithful (fun _ => rfl) (argv := exArgs ++ [k "-o=html", k "a"]) (o := pageOpts)
    (invoked (ms := _) rfl (.inr (.inr ⟨_, rfl, rfl⟩)) (by rfl) (by rintro (h | h) <;> exact absurd rfl h)) rfl rfl rfl (holdsA _ (.inl rfl))
    (fun u hu hw => unitOk_page ((simpleA' (k "a")).diffOk.units u hu hw).1)
  refine ⟨N, fun n hn => ?_⟩
  obtain ⟨items, head, units, h1, h2, -⟩ := hN n hn
  exact ⟨items, h1, h2⟩

/-- The hypotheses of C105 (HTML diff). -/
example : ∃ N, ∀ n, N ≤ n → ∃ items, ddbug exReal n (exArgs ++ [k "-o=html", k "-d", k "a", k "b"]) =
    some (printed [k "a", k "b"] (k "<html>" ++ items ++ k "</html>")) ∧ Html.Items Html.stdTable items := by
  obtain ⟨N, hN⟩ := C105_html_diff exFaithful (fun _ => rfl) (argv := exArgs ++ [k "-o=html", k "-d", k "a", k "b"]) (o := pageOpts)
    (invoked (ms := _) rfl (.inl ⟨_, _, rfl, rfl⟩) (by rfl) (fun _ => ⟨_, _, rfl⟩)) rfl rfl rfl (holdsA _ (.inl rfl)) holdsB
    (diffOk_page (simpleA' _).diffOk) (diffOk_page simpleB'.diffOk)
  refine ⟨N, fun n hn => ?_⟩
  obtain ⟨items, e, h1, h2, -⟩ := hN n hn
  exact ⟨items, h1, h2⟩

/-- The hypotheses of C105 (served). -/
example (n : Nat) : ∃ o, ddbug { exReal with side := fun _ => exWebSide } n [k "-ohttp", k "a"] =
    some { opened := [k "a"], stdout := [], errors := [], served := some (.print (exA (k "a")), o) } :=
  ⟨_, (C105_served (c := { exReal with side := fun _ => exWebSide }) n (argv := [k "-ohttp", k "a"])
    (invoked (ms := _) rfl (.inr (.inr ⟨_, rfl, rfl⟩)) (by rfl) (by rintro (h | h) <;> exact absurd rfl h)) (by rfl)
    (holdsA _ (.inl rfl)) exWeb_ids (fun f p h => by cases h; trivial) (by decide +kernel)).1⟩

/-! ### What the program prints -/

/-- What is seen of a run. -/
def seen (r : Option (Main.Shown Loaded)) : Option (List Str × Str × List Str) := r.map fun r => (r.opened, r.stdout, r.errors)

example : seen (ddbug exRun 5 (exArgs ++ [k "a"])) = some ([k "a"],
    ["base int\n", "\tsize: 4\n", "\tencoding: signed\n", "\n", "base char\n", "\tsize: 1\n", "\tencoding: signed char\n", "\n", "fn main\n", "\taddress: 0x1000-0x100f\n", "\tsize: 16\n", "\treturn type:\n", "\t\t[4]\tint\n", "\n", "fn old\n", "\taddress: 0x1010-0x101f\n", "\tsize: 16\n", "\n", "var v: int\n", "\taddress: 0x2000\n", "\tsize: 4\n", "\n"].flatMap k, []) := by
  decide +kernel

example : seen (ddbug exRun 5 (exArgs ++ [k "-d", k "a", k "b"])) = some ([k "a", k "b"],
    ["+ fn new\n", "+ \taddress: 0x1010-0x101f\n", "+ \tsize: 16\n", "\n", "- fn old\n", "- \taddress: 0x1010-0x101f\n", "- \tsize: 16\n", "\n", "- var v: int\n", "+ var v: char\n", "  \taddress: 0x2000\n", "- \tsize: 4\n", "+ \tsize: 1\n", "\n"].flatMap k, []) := by
  decide +kernel

example : seen (ddbug exRun 5 (exArgs ++ [k "-d", k "a", k "c"])) = some ([k "a", k "c"], [], []) := by decide +kernel

example : seen (ddbug exRun 5 [k "--bloat=b"]) = some ([k "b"],
    ["16 main\n", "\t16 a.c\n", "16 new\n", "\t16 a.c\n"].flatMap k, []) := by
  decide +kernel

example : seen (ddbug exRun 5 [k "b", k "-cvariable", k "-o", k "html"]) = some ([k "b"],
    ["<html><li class=\"treebranch\" id=\"0\"><span class=\"field\">unit a.c</span><ul style=\"display:none\">\n", "<li class=\"treebranch\"><span>variables:</span><ul style=\"display:none\">\n", "<li class=\"treebranch\" id=\"0\"><span class=\"field\">var v: char</span><ul style=\"display:none\">\n", "<li><span class=\"field\">address:</span> <span class=\"field\">0x2000</span></li>\n", "<li><span class=\"field\">size:</span> <span class=\"field\">1</span></li>\n", "</ul></li>\n", "</ul></li>\n", "</ul></li>\n", "<li class=\"treebranch\" id=\"0\"><span class=\"field\">unit &lt;symtab&gt;</span><ul style=\"display:none\">\n", "</ul></li>\n", "<li class=\"treebranch\" id=\"0\"><span class=\"field\">unit &lt;unknown&gt;</span><ul style=\"display:none\">\n", "</ul></li>\n", "</html>"].flatMap k, []) := by
  decide +kernel

example : (ddbug exRun 5 [k "a", k "b"]).isNone = true := by decide +kernel

end Verif.Prog
