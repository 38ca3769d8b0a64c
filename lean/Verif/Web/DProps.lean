import Verif.Web.DSite
import Verif.Show.FileExamples
import Verif.Html.ReadProps
/-!
# C89: the web view of a diff shows what the printed diff shows
-/
namespace Verif.Web
open Verif.Print Verif.Html Verif.Item Verif.Opts Verif.Show Verif.Ids Verif.Serve Verif.Types Verif.Order Verif.Merge
  Verif.Filter

section
variable (t : EntityTable) (alnum : Nat → Bool) (fr : Frame) (o : Options) (c : FilePair) (n : Nat)

/-- **C89 (diff).** The server answers the root path with the page that a diff with HTML output writes, up to the
bodies of the items: opening them, each by the request of the page's script, gives the printed page, except that lines
of items that only one of the files has lose their marks; if such items are ignored, it gives exactly the printed page.
Partial: instructions are not printed and no function is in both files, see `C89_function`, `C89_detail`. -/
theorem C89_diff_partial (hhttp : o.http = true) (hhtml : o.html = true) (hinsns : o.printFunctionInstructions = false)
    (hids : IdsOfPair o c n) (hsmall : (indexOf o c n).ids.length ≤ 2 ^ 64)
    (hno : o.categoryFunction = true → ∀ u ∈ c.a.file.units, ∀ f ∈ u.functions, ∀ v ∈ c.b.file.units,
      ∀ g ∈ v.functions, qname f.ns f.name ≠ qname g.ns g.name)
    (path : Str) (hpath : IsRoot path) :
    (answerDiff t alnum fr o c n path = none ↔ diffPage t alnum fr { o with http := false } c n = none) ∧
    ∀ served page, answerDiff t alnum fr o c n path = some served →
      diffPage t alnum fr { o with http := false } c n = some page →
      ∃ full, Opens t alnum (loadsD t alnum fr o c n) none served full ∧ Unmarks page full ∧
        (o.ignoreAdded = true → o.ignoreDeleted = true → full = page) := by
  have hS : SetupD o c n := ⟨hhttp, hhtml, hinsns, hids, hsmall⟩
  have ha : answerDiff t alnum fr o c n path = diffPage t alnum fr o c n := by
    simp [answerDiff, (C39_diff c.a.file.units c.b.file.units (indexOf o c n).ids path).1 hpath]
  rw [ha]
  have hh := fileD_http o false c n
  unfold diffPage
  rw [hh]
  cases hp : fileD o c n with
  | none => simp
  | some e =>
    refine ⟨by simp, fun served page h1 h2 => ?_⟩
    simp only [Option.map_some, Option.some.injEq] at h1 h2
    subst h1 h2
    have hs := siteD_file (t := t) (alnum := alnum) (fr := fr) hS
      (fun hc u hu f hf v hv g hg h => hno hc u hu f hf v hv g hg ((sameQName (f.ns, f.name) (g.ns, g.name)).1 h)) hp
    have e1 : freshD t alnum { o with http := false } e = (htmlD t alnum false e o.inlineDepth .none false).1 := by
      unfold freshD
      rw [runD_html (printOpts { o with http := false }) hhtml e hs.flat _ false rfl rfl]
      rfl
    obtain ⟨full, h1, h2, h3, _⟩ := siteD_opens hs .none false
    rw [← freshD_html hhttp hhtml hs.flat] at h1
    rw [← e1] at h2 h3
    exact ⟨fr.header ++ full ++ fr.footer, .append (.append (.same _ _) h1) (.same _ _),
      .append (.append (.same _) h2) (.same _), fun i1 i2 => by rw [h3 (by simp [common, i1, i2])]⟩

/-- **C89 (functions).** What is missing in general: a function that both files have carries the id of its old unit, so
opening it asks for, and gets, the diff of the whole unit. -/
theorem C89_function (hids : IdsOfPair o c n) (hsmall : (indexOf o c n).ids.length ≤ 2 ^ 64) (i j : Nat) (u v : CompUnit)
    (hp : (Id.unit i, Id.unit j) ∈ (indexOf o c n).ids) (hu : c.a.file.units[i]? = some u) (hv : c.b.file.units[j]? = some v)
    (f g : Function) (e : D) (he : functionD o c.toFnPair (c.a.unitId u) u.dir v.dir n f g = some e)
    (body : D) (hb : unitBodyD o c n u v = some body) :
    ∃ i h b, e = .seq (.id i h b) .lineBreak ∧ fnBodyD o c.toFnPair u.dir v.dir n f g = some b ∧
      loadsD t alnum fr o c n i none = freshD t alnum o body := by
  simp only [functionD, Option.bind_eq_bind, Option.bind_eq_some_iff, Option.some.injEq] at he
  obtain ⟨b, hfb, rfl⟩ := he
  refine ⟨_, _, b, rfl, hfb, ?_⟩
  rw [hids.unitA i u hu]
  have hp' : (Id.unit i, Id.unit j) ∈ entries o c n := by
    have := (assignMerged_spec (realCmps o n c.a.hash c.b.hash) o c.a.hash c.b.hash c.a.file.units c.b.file.units).1
    unfold entries
    rw [← this]
    exact hp
  refine loadsD_both hsmall hp' (sx := .unit u) (sy := .unit v) (by simp [item, hu]) (by simp [item, hv]) rfl ?_
  simp only [diffText, hb, Option.map_some]

/-- **C89 (requests).** The server answers the request for an item that both files have with the body that the diff has
for the two. -/
theorem C89_requests (hsmall : (indexOf o c n).ids.length ≤ 2 ^ 64) (i j k l : Nat) (u v : CompUnit)
    (hu : c.a.file.units[i]? = some u) (hv : c.b.file.units[k]? = some v) :
    (∀ f g uid i' h b, (Id.function i j, Id.function k l) ∈ (indexOf o c n).ids → u.functions[j]? = some f →
      v.functions[l]? = some g → functionD o c.toFnPair uid u.dir v.dir n f g = some (.seq (.id i' h b) .lineBreak) →
      loadsD t alnum fr o c n ((indexOf o c n).storeA (.function i j)) none = freshD t alnum o b) ∧
    (∀ x y p h b, (Id.var i j, Id.var k l) ∈ (indexOf o c n).ids → u.variables[j]? = some x →
      v.variables[l]? = some y → variableD o c u.dir v.dir x y = .seq (.indent p h b) .lineBreak →
      loadsD t alnum fr o c n ((indexOf o c n).storeA (.var i j)) none = freshD t alnum o b) := by
  have hin : ∀ p ∈ (indexOf o c n).ids, p ∈ entries o c n := by
    intro p hp
    have := (assignMerged_spec (realCmps o n c.a.hash c.b.hash) o c.a.hash c.b.hash c.a.file.units c.b.file.units).1
    unfold entries
    rw [← this]
    exact hp
  refine ⟨fun f g uid i' h b hp hf hg he => ?_, fun x y p h b hp hx hy he => ?_⟩
  · simp only [functionD, Option.bind_eq_bind, Option.bind_eq_some_iff, Option.some.injEq] at he
    obtain ⟨b', hfb, e⟩ := he
    injection e with e1 e2
    injection e1 with e3 e4 e5
    subst e5
    refine loadsD_both hsmall (hin _ hp) (sx := .function u f) (sy := .function v g) (by simp [item, hu, hf]) (by simp [item, hv, hg])
      rfl ?_
    simp only [diffText, hfb, Option.map_some]
  · unfold variableD at he
    injection he with e1 e2
    injection e1 with e3 e4 e5
    subst e5
    exact loadsD_both hsmall (hin _ hp) (sx := .var u x) (sy := .var v y) (by simp [item, hu, hx]) (by simp [item, hv, hy])
      rfl rfl

/-- **C89 (details).** What is missing in general: the instructions of a function that only one file has are asked for
when they are opened, but the server of a diff answers no such request. -/
theorem C89_detail (i : Nat) (hi : i < 2 ^ 64) (detail : Str) (hd : 47 ∉ detail) :
    loadsD t alnum fr o c n i (some detail) = [] := by
  have := (C39_diff c.a.file.units c.b.file.units (indexOf o c n).ids (idPath i (some detail))).2.2.1 i detail
    (idPath_some hi hd)
  simp [loadsD, answerDiff, this]

end

/-! ### Concrete files -/

private def fn (name : String) (size : Nat) : Function := {
  name := some (k name), address := some 0x1000, size := some size, ranges := [⟨0x1000, 0x1000 + size⟩] }
private def tyInt : TypeEntry := ⟨some 1, .base (some (k "int")) ⟨4⟩⟩
private def tyInt' : TypeEntry := ⟨some 1, .base (some (k "int")) ⟨8⟩⟩
private def tyLong : TypeEntry := ⟨some 2, .base (some (k "long")) ⟨8⟩⟩
private def unitA : CompUnit := { name := some (k "x.c"), types := [tyInt, tyLong], functions := [fn "f" 32] }
private def unitB : CompUnit := { name := some (k "x.c"), types := [tyInt'], functions := [fn "g" 8] }
private def unitC : CompUnit := { name := some (k "y.c") }

private def side (us : List CompUnit) (f : Nat) : FileSide where
  toFnSide := { exFnSide {} with
    fnId := fun _ => f
    extra := fun x => { id := if x = some 1 then 1 else 2 } }
  path := k "a.out"
  file := { sections := [], units := us }
  varId := fun _ => 0
  unitId := fun u => if u = unitC then 5 else 0

/-- The numbers are: unit `x.c` 0, `int` 1, `long` 2, `f` 3, `g` 4, unit `y.c` 5. -/
def exWebPair : FilePair := ⟨side [unitA] 3, side [unitB, unitC] 4, fun a b => a == b, Path.listHeap⟩

/-- Types and functions. -/
def exWebDiffOpts : Options := { categoryType := true, categoryFunction := true, html := true, http := true, inlineDepth := 1 }

private def fr : Frame := ⟨lit "<ul>", lit "</ul>"⟩

example : (indexOf exWebDiffOpts exWebPair 2).ids =
    [(.unit 0, .unit 0), (.type 0 0, .type 0 0), (.type 0 1, .none), (.function 0 0, .none), (.none, .function 0 0),
      (.none, .unit 1)] := by
  decide +kernel

/-- The hypotheses of `C89_diff_partial` hold. -/
theorem exWebPair_ids : IdsOfPair exWebDiffOpts exWebPair 2 where
  unitA := by
    intro i u h
    match i with
    | 0 => cases h; decide +kernel
    | i + 1 => simp [exWebPair, side] at h
  unitB := by
    intro i u h
    match i with
    | 0 => cases h; decide +kernel
    | 1 => cases h; decide +kernel
    | i + 2 => simp [exWebPair, side] at h
  typeA := by
    intro i u j x h g
    match i with
    | 0 =>
      cases h
      match j with
      | 0 => cases g; decide +kernel
      | 1 => cases g; decide +kernel
      | j + 2 => simp [unitA] at g
    | i + 1 => simp [exWebPair, side] at h
  typeB := by
    intro i u j x h g
    match i with
    | 0 =>
      cases h
      match j with
      | 0 => cases g; decide +kernel
      | j + 1 => simp [unitB] at g
    | 1 => cases h; simp [unitC] at g
    | i + 2 => simp [exWebPair, side] at h
  functionA := by
    intro i u j x h g
    match i with
    | 0 =>
      cases h
      match j with
      | 0 => cases g; decide +kernel
      | j + 1 => simp [unitA] at g
    | i + 1 => simp [exWebPair, side] at h
  functionB := by
    intro i u j x h g
    match i with
    | 0 =>
      cases h
      match j with
      | 0 => cases g; decide +kernel
      | j + 1 => simp [unitB] at g
    | 1 => cases h; simp [unitC] at g
    | i + 2 => simp [exWebPair, side] at h
  varA := by
    intro i u j x h g
    match i with
    | 0 => cases h; simp [unitA] at g
    | i + 1 => simp [exWebPair, side] at h
  varB := by
    intro i u j x h g
    match i with
    | 0 => cases h; simp [unitB] at g
    | 1 => cases h; simp [unitC] at g
    | i + 2 => simp [exWebPair, side] at h

example : (indexOf exWebDiffOpts exWebPair 2).ids.length ≤ 2 ^ 64 ∧
    ∀ u ∈ exWebPair.a.file.units, ∀ f ∈ u.functions, ∀ v ∈ exWebPair.b.file.units,
      ∀ g ∈ v.functions, qname f.ns f.name ≠ qname g.ns g.name := by
  refine ⟨by decide +kernel, fun u hu f hf v hv g hg => ?_⟩
  rw [List.mem_singleton.1 hu] at hf
  rw [List.mem_singleton.1 hf]
  rcases List.mem_cons.1 hv with rfl | hv
  · rw [List.mem_singleton.1 hg]; decide
  · rw [List.mem_singleton.1 hv] at hg; cases hg

set_option maxRecDepth 4000 in
/-- The page, the answer for the unit `x.c`, for the changed type in it and for the deleted one. -/
example :
    answerDiff stdTable asciiAlnum fr exWebDiffOpts exWebPair 2 (k "/") = some (lit ("<ul>" ++
      "<li class=\"treebranch lazy\" id=\"0\"><span class=\"field mod\">unit x.c</span><ul style=\"display:none\">\n</ul></li>\n" ++
      "<li class=\"treebranch lazy\" id=\"5\"><span class=\"field add\">unit y.c</span><ul style=\"display:none\">\n</ul></li>\n" ++
      "</ul>")) ∧
    loadsD stdTable asciiAlnum fr exWebDiffOpts exWebPair 2 1 none = lit (
      "<li><span class=\"field\">size:</span> <span class=\"field\"><span class=\"del\">4</span><br>\n" ++
      "<span class=\"add\">8</span></span></li>\n") ∧
    loadsD stdTable asciiAlnum fr exWebDiffOpts exWebPair 2 2 none = lit (
      "<li><span class=\"field\">size:</span> <span class=\"field\">8</span></li>\n") := by
  decide +kernel

private def unitF : CompUnit := { name := some (k "x.c"), functions := [fn "f" 32] }
private def unitF' : CompUnit := { name := some (k "x.c"), functions := [fn "f" 48] }

/-- One unit, number 0, with one function, number 1, that changed. -/
def exWebFnPair : FilePair := ⟨side [unitF] 1, side [unitF'] 1, fun a b => a == b, Path.listHeap⟩

set_option maxRecDepth 4000 in
/-- What is missing: opening the unit shows its function with the unit's own number, so opening the function shows the
contents of the unit again; the printed page has the contents of the function there. -/
theorem C89_function_witness :
    loadsD stdTable asciiAlnum fr exWebDiffOpts exWebFnPair 2 0 none = lit (
      "<li class=\"treebranch\"><span class=\"field mod\">functions:</span><ul style=\"display:none\">\n" ++
      "<li class=\"treebranch lazy\" id=\"0\"><span class=\"field mod\">fn f</span><ul style=\"display:none\">\n</ul></li>\n" ++
      "</ul></li>\n") ∧
    diffPage stdTable asciiAlnum fr { exWebDiffOpts with http := false } exWebFnPair 2 = some (lit ("<ul>" ++
      "<li class=\"treebranch\" id=\"0\"><span class=\"field mod\">unit x.c</span><ul style=\"display:none\">\n" ++
      "<li class=\"treebranch\"><span class=\"field mod\">functions:</span><ul style=\"display:none\">\n" ++
      "<li class=\"treebranch\" id=\"0\"><span class=\"field mod\">fn f</span><ul style=\"display:none\">\n" ++
      "<li><span class=\"field\">address:</span> <span class=\"field\"><span class=\"del\">0x1000-0x101f</span><br>\n" ++
      "<span class=\"add\">0x1000-0x102f</span></span></li>\n" ++
      "<li><span class=\"field\">size:</span> <span class=\"field\"><span class=\"del\">32</span><br>\n" ++
      "<span class=\"add\">48</span></span></li>\n" ++
      "</ul></li>\n</ul></li>\n</ul></li>\n</ul>")) := by
  decide +kernel

set_option maxRecDepth 4000 in
/-- What is missing: the contents of an item that only one file has are marked on the printed page but not when opened. -/
theorem C89_marks_witness :
    loadsD stdTable asciiAlnum fr exWebDiffOpts exWebPair 2 2 none = (["<li><span class=\"field\">size:</span> <span class", "=\"field\">8</span></li>\n"].flatMap lit) ∧
    ∃ a b, diffPage stdTable asciiAlnum fr { exWebDiffOpts with http := false } exWebPair 2 = some (a ++ lit (
      "<li class=\"treebranch\" id=\"2\"><span class=\"field del\">base long</span><ul style=\"display:none\">\n" ++
      "<li><span class=\"field\">size:</span> <span class=\"field del\">8</span></li>\n</ul></li>\n") ++ b) := by
  refine ⟨by decide +kernel, ((diffPage stdTable asciiAlnum fr { exWebDiffOpts with http := false } exWebPair 2).getD []).take
    418, ((diffPage stdTable asciiAlnum fr { exWebDiffOpts with http := false } exWebPair 2).getD []).drop 600, ?_⟩
  decide +kernel

end Verif.Web
