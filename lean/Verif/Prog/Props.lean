import Verif.Prog.Spec
import Verif.Cli.Props
import Verif.Main.Props
import Verif.Whole.Diff
import Verif.Bloat.Props
import Verif.Web.Form
import Verif.Web.DiffPage
import Verif.Web.DProps
import Verif.Opts.Props
import Verif.Show.Total
/-!
# C105: from the command line to the output
-/
namespace Verif.Prog
open Verif.Item Verif.Types Verif.Range Verif.File Verif.Show Verif.Opts Verif.Main Verif.Whole Verif.Cli Verif.Bloat Verif.Filter
  Verif.Namespace Verif.Dwarf Verif.Web Verif.Ids
open Verif.Print (P D Line DiffPrefix render)
open Verif.Html (Items)

variable {c : Parts}

/-- **C105** (which runs). The program runs iff the command line asks for a mode with options, and then it runs that mode
with these. -/
theorem C105_run (n : Nat) (argv : List Str) (r : Main.Shown Loaded) :
    ddbug c n argv = some r ↔ ∃ m o, Invoked argv m o ∧ r = runMode (world c n) o m := by
  unfold ddbug
  rw [C99_program]
  constructor
  · rintro ⟨items, p, a, h1, h2, h3, h4⟩
    obtain ⟨m, o, h5, h6, h7, h8⟩ := (C98_mode _ p a r).1 h4
    exact ⟨m, o, ⟨items, p, a, h1, h2, h3, h5, h6, h7⟩, h8⟩
  · rintro ⟨m, o, ⟨items, p, a, h1, h2, h3, h5, h6, h7⟩, h8⟩
    exact ⟨items, p, a, h1, h2, h3, (C98_mode _ p a r).2 ⟨m, o, h5, h6, h7, h8⟩⟩

/-- **C105** (one meaning). A command line asks for at most one mode, with one set of options. -/
theorem C105_one_meaning {argv : List Str} {m m' : Mode Str} {o o' : Options} (h : Invoked argv m o) (h' : Invoked argv m' o') :
    m = m' ∧ o = o' := by
  obtain ⟨items, p, a, h1, h2, h3, h4, h5, -⟩ := h
  obtain ⟨items', p', a', g1, g2, g3, g4, g5, -⟩ := h'
  obtain ⟨rfl, rfl⟩ := C99_unambiguous argv items items' p p' a a' h1 h2 h3 g1 g2 g3
  rw [h5] at g5
  refine ⟨?_, Option.some.inj g5⟩
  rcases h4 with ⟨x, y, rfl, rfl⟩ | ⟨x, rfl, rfl⟩ | ⟨x, rfl, rfl⟩ <;> rcases g4 with ⟨x', y', e, rfl⟩ | ⟨x', e, rfl⟩ | ⟨x', e, rfl⟩ <;>
    cases e <;> rfl

/-- Text output is not for the server. -/
theorem Invoked.http {argv : List Str} {m : Mode Str} {o : Options} (h : Invoked argv m o) (hh : o.http = true) : o.html = true := by
  obtain ⟨_, _, a, _, _, _, _, h5, _⟩ := h
  have hs := C31_settings a o h5
  exact hs.1.2 (.inr (hs.2.1.1 hh))

theorem load_holds {path : Str} {l : Loaded} : load c path = .ok l ↔ Holds c path l := by
  unfold load Holds
  constructor
  · intro h
    cases hd : c.disk path with
    | error e => rw [hd] at h; cases h
    | ok r =>
      rw [hd] at h
      simp only at h
      cases hp : parseObject c.search c.bound { r with path := path } with
      | none => rw [hp] at h; cases h
      | some f =>
        rw [hp] at h
        cases h
        exact ⟨r, rfl, rfl, hp⟩
  · rintro ⟨r, h1, h2, h3⟩
    rw [h2] at h3
    rw [h1]
    simp only [h3]
    cases l
    simp only at h2
    subst h2
    rfl

theorem load_unreadable {path e : Str} : load c path = .error e ↔ Unreadable c path e := by
  unfold load Unreadable
  cases hd : c.disk path with
  | error e' => simp
  | ok r =>
    simp only [reduceCtorEq, Except.ok.injEq, exists_eq_left', false_or]
    cases hp : parseObject c.search c.bound { r with path := path } with
    | none => simp [eq_comm]
    | some f => simp

/-- **C105** (every file is readable or not). -/
theorem C105_readable (path : Str) : (∃ l, Holds c path l) ∨ ∃ e, Unreadable c path e := by
  cases h : load c path with
  | ok l => exact .inl ⟨l, load_holds.1 h⟩
  | error e => exact .inr ⟨e, load_unreadable.1 h⟩

/-- **C105** (unreadable files). The first file named that cannot be read is reported, and nothing is printed. -/
theorem C105_unreadable (n : Nat) {argv : List Str} {m : Mode Str} {o : Options} (h : Invoked argv m o) {before after : List Str} {p e : Str}
    (hm : m.paths = before ++ p :: after) (hp : Unreadable c p e) (hb : ∀ q ∈ before, ∃ l, Holds c q l) :
    ddbug c n argv = some { opened := before ++ [p], stdout := [], errors := [p ++ k ": " ++ e], served := none } := by
  rw [C105_run]
  exact ⟨m, o, h, (C98_unreadable (world c n) o m before p e ⟨⟨after, hm⟩, load_unreadable.2 hp,
    fun q hq => (hb q hq).imp fun l hl => load_holds.2 hl⟩).symm⟩

/-- A run that prints. -/
theorem shows (hc : Faithful c) (hk : Healthy c.sink) (n : Nat) {argv : List Str} {m : Mode Str} {o : Options} (h : Invoked argv m o)
    (hh : o.http = false) {f : Mode Loaded} (hr : Read (world c n) m f) {t : Str} (ht : written c n o f = some t) :
    ddbug c n argv = some (printed m.paths (if o.html then c.frame.header ++ t ++ c.frame.footer else t)) := by
  rw [C105_run]
  refine ⟨m, o, h, ?_⟩
  rw [C98_printed (world c n) o m f hr hh hk]
  have : ((world c n).pieces f o).flatten = t := by
    simp only [world, ht, Option.getD_some]
    exact hc.cut t
  simp only [printed, complete, this]
  rfl

/-- **C105** (print). `ddbug FILE` prints the listing of the file: its summary if wanted, and the listings of the wanted units, in which
every wanted entry of the debug information has its item. -/
theorem C105_print (hc : Faithful c) (hk : Healthy c.sink) {argv : List Str} {path : Str} {o : Options} (h : Invoked argv (.print path) o)
    (ho : o.html = false) {l : Loaded} (hl : Holds c path l) (hp : Placed l.raw.units)
    (hok : ∀ u ∈ l.file.units, WantedUnit o u → UnitOk o (c.side l) u) :
    ∃ N, ∀ n, N ≤ n → ∃ head units, ddbug c n argv = some (printed [path] (head ++ units)) ∧
      (o.categoryFile = false → head = []) ∧
      (o.categoryFile = true → ∃ rows, FileRows o (c.side l) rows ∧ head = rowsText 0 rows) ∧
      UnitsListed o l.raw l.file (c.side l) n 0 o.inlineDepth units := by
  have hhttp : o.http = false := Bool.eq_false_iff.2 fun hx => by rw [h.http hx] at ho; cases ho
  obtain ⟨b, code, disasm, regName, ids, fnId, varId, unitId, insns, hs⟩ := hc.side l
  have hf : (c.side l).file = l.file := by rw [hs]; rfl
  obtain ⟨N, hN⟩ := C92_print o (c.side l) (hf ▸ hok)
  refine ⟨N, fun n hn => ?_⟩
  obtain ⟨p, hp'⟩ := hN n hn
  have hl' := hl
  obtain ⟨r, -, -, hparse⟩ := hl'
  obtain ⟨head, units, h1, h2, h3, h4⟩ := C91_listing hc.search hparse hp ho hs hp' 0 o.inlineDepth
  refine ⟨head, units, ?_, h2, h3, h4⟩
  have := shows hc hk n h hhttp (.print (load_holds.2 hl))
    (t := render (p.lines o.http 0 .none o.inlineDepth)) (by simp only [written, hp', Option.map_some, printedP, ho]; rfl)
  rw [this, ho, h1]
  rfl

/-- **C105** (diff). `ddbug --diff A B` prints a text in which every wanted entry of the debug information of both files is
accounted for. -/
theorem C105_diff (hc : Faithful c) (hk : Healthy c.sink) {argv : List Str} {pa pb : Str} {o : Options} (h : Invoked argv (.diff pa pb) o)
    (ho : o.html = false) {a b : Loaded} (ha : Holds c pa a) (hb : Holds c pb b) (hpa : Placed a.raw.units) (hpb : Placed b.raw.units)
    (hoka : DiffOk o (c.side a)) (hokb : DiffOk o (c.side b)) (hra : ReadableFile (c.side a)) (hrb : ReadableFile (c.side b))
    (hloc : o.printVariableLocations = true → ∀ u ∈ b.file.units, ∀ f ∈ u.functions, OneLocation ((c.side b).details f))
    (hty : ∀ u ∈ a.file.units, ∀ t ∈ u.types, Acc (IdRef (c.side a).hash) t.kind) :
    ∃ N, ∀ n, N ≤ n → ∃ text, ddbug c n argv = some (printed [pa, pb] text) ∧ EntriesCompared c n o a b text := by
  have hhttp : o.http = false := Bool.eq_false_iff.2 fun hx => by rw [h.http hx] at ho; cases ho
  obtain ⟨N, hN⟩ := C92_diff o ⟨c.side a, c.side b, c.same a b, c.heap⟩ hoka hokb
  refine ⟨N, fun n hn => ?_⟩
  obtain ⟨e, he⟩ := hN n hn
  have hsa := hc.side a
  have hsb := hc.side b
  have hxa := ha
  have hxb := hb
  obtain ⟨ra, -, -, hparsea⟩ := hxa
  obtain ⟨rb, -, -, hparseb⟩ := hxb
  refine ⟨render (e.lines (printOpts o) 0 .none o.inlineDepth), ?_, ?_⟩
  · have := shows hc hk n h hhttp (.diff (load_holds.2 ha) (load_holds.2 hb))
      (t := render (e.lines (printOpts o) 0 .none o.inlineDepth))
      (by simp only [written, he, Option.map_some, printedD, ho]; rfl)
    rw [this, ho]
    rfl
  · constructor
    · intro hcat k u cu hk hcu hw ns die g hg hgt hwg
      exact C93_old_types ho he hsa hsb hra hrb hc.search hparsea hpa hty hcat 0 o.inlineDepth .none hk hcu hw hg hgt hwg
    · intro hcat k u cu hk hcu hw ns die g hg hgt hwg
      exact C93_new_types ho he hsa hsb hra hrb hc.search hparseb hpb hty hcat 0 o.inlineDepth .none hk hcu hw hg hgt hwg
    · intro hcat k u cu hk hcu hw ns die g hg hwg
      exact C93_old_functions ho he hsa hsb hra hrb hloc hcat 0 o.inlineDepth .none hk hcu hw hg hwg
    · intro hcat k u cu hk hcu hw ns die g hg hwg
      exact C93_new_functions ho he hsa hsb hra hrb hloc hcat 0 o.inlineDepth .none hk hcu hw hg hwg
    · intro hcat k u cu hk hcu hw ns die g hg hwg
      exact C93_old_variables ho he hsa hsb hra hrb hcat 0 o.inlineDepth .none hk hcu hw hg hwg
    · intro hcat k u cu hk hcu hw ns die g hg hwg
      exact C93_new_variables ho he hsa hsb hra hrb hcat 0 o.inlineDepth .none hk hcu hw hg hwg

/-- **C105** (bloat). `ddbug --bloat FILE` prints the report of C38, if every function of known size has an address. -/
theorem C105_bloat (hc : Faithful c) (hk : Healthy c.sink) (n : Nat) {argv : List Str} {path : Str} {o : Options}
    (h : Invoked argv (.bloat path) o) (ho : o.html = false) {l : Loaded} (hl : Holds c path l)
    (hadr : ∀ u ∈ l.file.units, ∀ f ∈ u.functions, f.size.isSome = true → f.address.isSome = true) :
    ∃ lines, ddbug c n argv = some (printed [path] (render lines)) ∧ BloatLines (c.calls l) l.file.units lines := by
  have hhttp : o.http = false := Bool.eq_false_iff.2 fun hx => by rw [h.http hx] at ho; cases ho
  obtain ⟨p, hp, hlines⟩ := (C38_report c.iter hc.iter (c.calls l) l.file.units (assignIds l.file.units).store).2 hadr
  obtain ⟨g1, g2, g3, g4⟩ := C38_groups c.iter hc.iter (c.calls l) l.file.units
  refine ⟨p.lines o.http 0 .none o.inlineDepth, ?_, _, g1, g2, g3, g4, hlines _ _ _⟩
  have := shows hc hk n h hhttp (.bloat (load_holds.2 hl))
    (t := render (p.lines o.http 0 .none o.inlineDepth)) (by simp only [written, hp, Option.map_some, printedP, ho]; rfl)
  rw [this, ho]
  rfl

/-- Paths are shown in the summary only. -/
theorem fileD_path (o : Options) (h : o.categoryFile = false) (s s' : FileSide) (p q : Str) (same : Ty → Ty → Bool) (heap : Path.Heap)
    (n : Nat) :
    fileD o ⟨{ s with path := p }, { s' with path := q }, same, heap⟩ n = fileD o ⟨s, s', same, heap⟩ n := by
  simp only [fileD, h, whenD]
  rfl

/-- **C105** (the same file twice). `ddbug --diff FILE FILE` reports no difference: no line is marked, and the lines are those of the summary of
the file, if it is wanted. -/
theorem C105_self (hc : Faithful c) (hk : Healthy c.sink) {argv : List Str} {path : Str} {o : Options} (h : Invoked argv (.diff path path) o)
    (ho : o.html = false) {l : Loaded} (hl : Holds c path l) (hcy : NoCycles (fileHash l.raw.units l.file.units))
    (hok : DiffOk o (c.side l)) :
    ∃ N, ∀ n, N ≤ n → ∃ lines p, ddbug c n argv = some (printed [path, path] (render lines)) ∧ (∀ x ∈ lines, x.marked = false) ∧
      whenP o.categoryFile (filePartP o (c.side l)) = some p ∧
      lines.map Line.erase = (p.lines o.http 0 .none o.inlineDepth).map Line.erase := by
  have hhttp : o.http = false := Bool.eq_false_iff.2 fun hx => by rw [h.http hx] at ho; cases ho
  obtain ⟨N, hN⟩ := C93_self (hc.side l) hcy (hc.same l l) c.heap ho hok
  refine ⟨N, fun n hn => ?_⟩
  obtain ⟨e, he, hall⟩ := hN n hn
  obtain ⟨-, h2, p, h3, h4⟩ := hall 0 .none o.inlineDepth
  refine ⟨_, p, ?_, h2, h3, h4⟩
  have := shows hc hk n h hhttp (.diff (load_holds.2 hl) (load_holds.2 hl))
    (t := render (e.lines (printOpts o) 0 .none o.inlineDepth)) (by simp only [written, he, Option.map_some, printedD, ho]; rfl)
  rw [this, ho]
  rfl

/-- **C105** (a copy). `ddbug --diff A B` prints nothing if the two files have the same contents and the summaries are not
wanted, whatever their paths. -/
theorem C105_copy (hc : Faithful c) (hk : Healthy c.sink) {argv : List Str} {pa pb : Str} {o : Options} (h : Invoked argv (.diff pa pb) o)
    (ho : o.html = false) (hcat : o.categoryFile = false) (hcopy : c.disk pa = c.disk pb) {l : Loaded} (hl : Holds c pa l)
    (hpath : ∀ (l : Loaded) p, c.side ⟨{ l.raw with path := p }, l.file⟩ = { c.side l with path := p })
    (hcy : NoCycles (fileHash l.raw.units l.file.units)) (hok : DiffOk o (c.side l)) :
    ∃ N, ∀ n, N ≤ n → ddbug c n argv = some (printed [pa, pb] []) := by
  have hhttp : o.http = false := Bool.eq_false_iff.2 fun hx => by rw [h.http hx] at ho; cases ho
  have hl2 : Holds c pb ⟨{ l.raw with path := pb }, l.file⟩ := by
    obtain ⟨r, h1, h2, h3⟩ := hl
    refine ⟨r, hcopy ▸ h1, by rw [h2], ?_⟩
    rw [← h3]; rfl
  have hs2 := hpath l pb
  have hsame : SameIs (c.same l ⟨{ l.raw with path := pb }, l.file⟩) (c.side l).hash (c.side l).hash := by
    have := hc.same l ⟨{ l.raw with path := pb }, l.file⟩
    rw [hs2] at this
    exact this
  obtain ⟨N, hN⟩ := C93_self (hc.side l) hcy hsame c.heap ho hok
  refine ⟨N, fun n hn => ?_⟩
  obtain ⟨e, he, hall⟩ := hN n hn
  obtain ⟨-, -, p, h3, h4⟩ := hall 0 .none o.inlineDepth
  have hnil : e.lines (printOpts o) 0 .none o.inlineDepth = [] := by
    rw [hcat] at h3
    simp only [whenP, Bool.false_eq_true, if_false, Option.some.injEq] at h3
    subst h3
    exact List.map_eq_nil_iff.1 h4
  have he' : fileD o ⟨c.side l, c.side ⟨{ l.raw with path := pb }, l.file⟩, c.same l ⟨{ l.raw with path := pb }, l.file⟩, c.heap⟩ n = some e := by
    rw [hs2, ← he]
    exact fileD_path o hcat (c.side l) (c.side l) (c.side l).path pb _ _ n
  have := shows hc hk n h hhttp (.diff (load_holds.2 hl) (load_holds.2 hl2))
    (t := render (e.lines (printOpts o) 0 .none o.inlineDepth)) (by simp only [written, he', Option.map_some, printedD, ho]; rfl)
  rw [this, ho, hnil]
  rfl

/-- **C105** (HTML). `ddbug -o html FILE` prints a page: header, well-formed items, footer; and reading the items gives the summary if
it is wanted and every wanted unit. -/
theorem C105_html (hc : Faithful c) (hk : Healthy c.sink) {argv : List Str} {path : Str} {o : Options} (h : Invoked argv (.print path) o)
    (ho : o.html = true) (hh : o.http = false) (hins : o.printFunctionInstructions = false) {l : Loaded} (hl : Holds c path l)
    (hok : ∀ u ∈ l.file.units, WantedUnit o u → UnitOk o (c.side l) u) :
    ∃ N, ∀ n, N ≤ n → ∃ items head units,
      ddbug c n argv = some (printed [path] (c.frame.header ++ items ++ c.frame.footer)) ∧ Items c.table items ∧
      Html.Reads c.table c.alnum items (head ++ units) ∧
      (o.categoryFile = false → head = []) ∧
      (o.categoryFile = true → ∃ q, filePartP o (c.side l) = some q ∧ head = Html.pageP false .same q o.inlineDepth) ∧
      PageItems o (Order.unitCmpBy o n) (c.side l).tsz (unitP o (c.side l) n) o.inlineDepth (wantedUnits o l.file) units := by
  have hs := hc.side l
  have hf : (c.side l).file = l.file := by obtain ⟨_, _, _, _, _, _, _, _, _, hs⟩ := hs; rw [hs]; rfl
  obtain ⟨N, hN⟩ := C92_print o (c.side l) (hf ▸ hok)
  refine ⟨N, fun n hn => ?_⟩
  obtain ⟨p, hp⟩ := hN n hn
  obtain ⟨p', items, hp', hpage, hi, hr⟩ := C88_page_wellformed c.table c.alnum c.frame o (c.side l) n hh ho hins
    (c.frame.header ++ fresh c.table c.alnum o p ++ c.frame.footer) (by simp only [printPage, hp, Option.map_some])
  obtain rfl : p = p' := Option.some.inj (hp.symm.trans hp')
  obtain ⟨head, units, g1, g2, g3, g4⟩ := C82_page o (c.side l) n p hp o.inlineDepth
  rw [hh] at g1 g3
  rw [hf] at g4
  rw [g1] at hr
  refine ⟨items, head, units, ?_, hi, hr, g2, g3, g4⟩
  have := shows hc hk n h hh (.print (load_holds.2 hl)) (t := fresh c.table c.alnum o p)
    (by simp only [written, hp, Option.map_some, printedP, ho]; rfl)
  rw [this, ho, ← hpage]
  rfl

/-- **C105** (HTML diff). `ddbug -o html --diff A B` prints header, well-formed items that read as the diff does, footer. -/
theorem C105_html_diff (hc : Faithful c) (hk : Healthy c.sink) {argv : List Str} {pa pb : Str} {o : Options} (h : Invoked argv (.diff pa pb) o)
    (ho : o.html = true) (hh : o.http = false) (hins : o.printFunctionInstructions = false) {a b : Loaded} (ha : Holds c pa a) (hb : Holds c pb b)
    (hoka : DiffOk o (c.side a)) (hokb : DiffOk o (c.side b)) :
    ∃ N, ∀ n, N ≤ n → ∃ items e,
      ddbug c n argv = some (printed [pa, pb] (c.frame.header ++ items ++ c.frame.footer)) ∧ Items c.table items ∧
      fileD o ⟨c.side a, c.side b, c.same a b, c.heap⟩ n = some e ∧
      Html.Reads c.table c.alnum items (Html.pageD (fun x y => decide (Html.valueHtml c.table c.alnum x = Html.valueHtml c.table c.alnum y))
        false e o.inlineDepth) := by
  obtain ⟨N, hN⟩ := C92_diff o ⟨c.side a, c.side b, c.same a b, c.heap⟩ hoka hokb
  refine ⟨N, fun n hn => ?_⟩
  obtain ⟨e, he⟩ := hN n hn
  obtain ⟨h1, h2⟩ := C82_diff_reads c.table c.alnum o ho hins _ n e he
  refine ⟨freshD c.table c.alnum o e, e, ?_, h1, he, by
    have e1 : Html.pageD (fun x y => decide (Html.valueHtml c.table c.alnum x = Html.valueHtml c.table c.alnum y)) false e o.inlineDepth =
      Html.pageD (fun x y => decide (Html.valueHtml c.table c.alnum x = Html.valueHtml c.table c.alnum y)) o.http e o.inlineDepth := by rw [hh]
    rw [e1]; exact h2⟩
  have := shows hc hk n h hh (.diff (load_holds.2 ha) (load_holds.2 hb)) (t := freshD c.table c.alnum o e)
    (by simp only [written, he, Option.map_some, printedD, ho]; rfl)
  rw [this, ho]
  rfl

/-- **C105** (served). `ddbug -o http FILE` prints nothing and starts the server with the file; its answer to the root path, with
all items opened, is the page that HTML output with the same options would be. -/
theorem C105_served (n : Nat) {argv : List Str} {path : Str} {o : Options} (h : Invoked argv (.print path) o)
    (hh : o.http = true) {l : Loaded} (hl : Holds c path l) (hids : IdsOf (c.side l))
    (hrows : ∀ f p, (c.side l).insns f = some p → OnlyRows p) (hsmall : (assignIds (c.side l).file.units).ids.length ≤ 2 ^ 64) :
    ddbug c n argv = some { opened := [path], stdout := [], errors := [], served := some (.print l, o) } ∧
    ∀ root, Serve.IsRoot root → ∀ page, printPage c.table c.alnum c.frame { o with http := false } (c.side l) n = some page →
      ∃ served, answer c.table c.alnum c.frame o (c.side l) n root = some served ∧
        Opens c.table c.alnum (loads c.table c.alnum c.frame o (c.side l) n) none served page := by
  constructor
  · rw [C105_run]
    exact ⟨_, o, h, (C98_served (world c n) o (.print path) (.print l) (.print (load_holds.2 hl)) hh).symm⟩
  · intro root hroot page hpage
    obtain ⟨h1, h2⟩ := C88_print c.table c.alnum c.frame o (c.side l) n hh (h.http hh) hids hrows hsmall root hroot
    cases ha : answer c.table c.alnum c.frame o (c.side l) n root with
    | none => rw [h1.1 ha] at hpage; cases hpage
    | some served => exact ⟨served, rfl, h2 served page ha hpage⟩

/-- **C105** (any standard output). Whatever standard output does, a run of any mode with text output gives a beginning of what it
gives when no write fails, and reports nothing but failed writes. -/
theorem C105_any_output (hc : Faithful c) (n : Nat) {argv : List Str} {m : Mode Str} {o : Options} (h : Invoked argv m o)
    (ho : o.html = false) {f : Mode Loaded} (hr : Read (world c n) m f) {t : Str} (ht : written c n o f = some t) :
    (∃ r, ddbug c n argv = some r ∧ r.opened = m.paths ∧ r.served = none ∧ r.stdout <+: t ∧
      ∀ x ∈ r.errors, ∃ i j e, c.sink i = some (j, e) ∧ (x = e ∨ ∃ p ∈ m.paths, x = p ++ k ": " ++ e)) ∧
    (Healthy c.sink → ddbug c n argv = some (printed m.paths t)) := by
  have hhttp : o.http = false := Bool.eq_false_iff.2 fun hx => by rw [h.http hx] at ho; cases ho
  have hfl : ((world c n).pieces f o).flatten = t := by
    simp only [world, ht, Option.getD_some]
    exact hc.cut t
  constructor
  · obtain ⟨h1, h2, h3, h4⟩ := C98_messages (world c n) o m f hr hhttp
    refine ⟨_, (C105_run n argv _).2 ⟨m, o, h, rfl⟩, h2, h1, ?_, h4⟩
    have := C97_received_is_a_beginning (world c n) o f (fun hx => by rw [ho] at hx; cases hx)
    rw [h3]
    simp only [complete, ho, Bool.false_eq_true, if_false, hfl] at this
    exact this
  · intro hk
    have := shows hc hk n h hhttp hr ht
    rw [this, ho]
    rfl

end Verif.Prog
