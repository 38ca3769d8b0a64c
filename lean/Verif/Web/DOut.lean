import Verif.Web.Out
/-!
# The HTML of a diff as a function of the program
-/
namespace Verif.Web
open Verif.Print Verif.Html

variable {t : EntityTable} {alnum : Nat → Bool}

/-- A line inside an open item, or an item of one line. -/
def wrapLine (started : Bool) (h : Str) : Str := if started then h else leafHtml h

/-- The mark of a line that is in both files. -/
def bothPfx (x : DiffPrefix) : DiffPrefix := if x = .modify then .modify else .equal

/-- The line for an old and a new value: what is written, and the mark and the flag afterwards. -/
def lineD (t : EntityTable) (alnum : Nat → Bool) (started : Bool) (l : Str) (a b : Val) (x : DiffPrefix) (f : Bool) :
    Str × DiffPrefix × Bool :=
  if valueHtml t alnum a = valueHtml t alnum b then
    if (valueHtml t alnum a).isEmpty then ([], x, f)
    else (wrapLine started (lineIn (bothPfx x) l (valueHtml t alnum a)), bothPfx x, f)
  else if (valueHtml t alnum a).isEmpty then (wrapLine started (lineIn .add l (valueHtml t alnum b)), .add, true)
  else if (valueHtml t alnum b).isEmpty then (wrapLine started (lineIn .delete l (valueHtml t alnum a)), .delete, true)
  else (wrapLine started (lineDiffIn l (valueHtml t alnum a) (valueHtml t alnum b)), x, true)

/-- The lines of a header. -/
def headD (t : EntityTable) (alnum : Nat → Bool) (started : Bool) : D → DiffPrefix → Bool → Str × DiffPrefix × Bool
  | .seq p q, x, f =>
    let r := headD t alnum started p x f
    let r' := headD t alnum started q r.2.1 r.2.2
    (r.1 ++ r'.1, r'.2)
  | .label l, x, f => (wrapLine started (lineIn (bothPfx x) l []), bothPfx x, f)
  | .line l a b, x, f => lineD t alnum started l a b x f
  | .printIfDiff e, x, f =>
    let r := headD t alnum started e x false
    (r.1, x, f || r.2.2)
  | .ignoreDiff g e, x, f =>
    let r := headD t alnum started e x f
    (r.1, r.2.1, if g then f else r.2.2)
  | _, x, f => ([], x, f)

/-- The mark of a header. -/
def headPfx (changed : Bool) : DiffPrefix := if changed then .modify else .equal

/-- What a diff writes, and the mark and the flag afterwards. -/
def htmlD (t : EntityTable) (alnum : Nat → Bool) (http : Bool) : D → Nat → DiffPrefix → Bool → Str × DiffPrefix × Bool
  | .skip, _, x, f => ([], x, f)
  | .lineBreak, _, x, f => ([], x, f)
  | .seq p q, d, x, f =>
    let r := htmlD t alnum http p d x f
    let r' := htmlD t alnum http q d r.2.1 r.2.2
    (r.1 ++ r'.1, r'.2)
  | .label l, _, x, f => (leafHtml (lineIn (bothPfx x) l []), bothPfx x, f)
  | .line l a b, _, x, f => lineD t alnum false l a b x f
  | .indent c h b, d, x, f =>
    let r := htmlD t alnum http b d .equal false
    if r.1.isEmpty then headD t alnum false h x f
    else
      let q := headD t alnum true h (headPfx r.2.2) false
      (branchHtml c q.1 r.1, q.2.1, f || (r.2.2 || q.2.2))
  | .field c l b, d, x, f =>
    let r := htmlD t alnum http b d .equal false
    if r.1.isEmpty then ([], x, f)
    else (branchHtml c (lineIn (headPfx r.2.2) l []) r.1, headPfx r.2.2, f || r.2.2)
  | .id n h b, d, _, f =>
    let r := htmlD t alnum http b d .equal false
    let q := headD t alnum true h (headPfx r.2.2) false
    (idHtml http n q.1 r.1, q.2.1, f || (r.2.2 || q.2.2))
  | .inline e, d, x, f => if d = 0 then ([], x, f) else htmlD t alnum http e (d - 1) x f
  | .prefixDelete p, d, _, _ => (html t alnum http .delete p d, .delete, true)
  | .prefixAdd p, d, _, _ => (html t alnum http .add p d, .add, true)
  | .block a b, d, x, f =>
    let r := html t alnum http .delete a d ++ html t alnum http .add b d
    if r.isEmpty then ([], x, f) else (r, x, true)
  | .printIfDiff e, d, x, f =>
    let r := htmlD t alnum http e d x false
    (r.1, x, f || r.2.2)
  | .ignoreDiff g e, d, x, f =>
    let r := htmlD t alnum http e d x f
    (r.1, r.2.1, if g then f else r.2.2)

/-- Headers write lines only. -/
def FlatHeadsD : D → Prop
  | .seq p q => FlatHeadsD p ∧ FlatHeadsD q
  | .indent _ h b => FlatD h ∧ FlatHeadsD b
  | .field _ _ b => FlatHeadsD b
  | .id _ h b => FlatD h ∧ FlatHeadsD b
  | .inline e => FlatHeadsD e
  | .prefixDelete p => FlatHeads p
  | .prefixAdd p => FlatHeads p
  | .block a b => FlatHeads a ∧ FlatHeads b
  | .printIfDiff e => FlatHeadsD e
  | .ignoreDiff _ e => FlatHeadsD e
  | _ => True

theorem line_wrap (l buf : Str) (s : Html) :
    s.line l buf = s.put (wrapLine s.lineStarted (lineIn s.pfx l buf)) := by
  rw [line_eq]
  cases s.lineStarted
  · rw [if_neg (by simp), ← leaf_eq]; rfl
  · rw [if_pos rfl]; rfl

theorem lineDiff_wrap (l a b : Str) (s : Html) :
    s.lineDiff l a b = s.put (wrapLine s.lineStarted (lineDiffIn l a b)) := by
  rw [lineDiff_eq]
  cases s.lineStarted
  · rw [if_neg (by simp), ← leaf_eq]; rfl
  · rw [if_pos rfl]; rfl

theorem diffLabel_run (l : Str) (s : Html) (f : Bool) :
    diffLabel (htmlPrinter t alnum) l s f =
      (withPfx (bothPfx s.pfx) (s.put (wrapLine s.lineStarted (lineIn (bothPfx s.pfx) l []))), f) := by
  have e : diffLabel (htmlPrinter t alnum) l s f =
      ((if s.pfx ≠ .modify then withPfx .equal s else s).line l [], f) := rfl
  rw [e]
  unfold bothPfx
  by_cases hx : s.pfx = .modify
  · rw [if_neg (by simpa using hx), if_pos hx, line_wrap, hx]
    cases s; simp only at hx; subst hx; rfl
  · rw [if_pos hx, if_neg hx, line_wrap]; rfl

theorem diffLine_run (l : Str) (va vb : Val) (s : Html) (f : Bool) :
    diffLine (htmlPrinter t alnum) l va vb s f =
      let r := lineD t alnum s.lineStarted l va vb s.pfx f
      (withPfx r.2.1 (s.put r.1), r.2.2) := by
  have e : diffLine (htmlPrinter t alnum) l va vb s f =
      if valueHtml t alnum va = valueHtml t alnum vb then
        if (!(valueHtml t alnum va).isEmpty) = true then
          ((if s.pfx ≠ .modify then withPfx .equal s else s).line l (valueHtml t alnum va), f)
        else (s, f)
      else if (valueHtml t alnum va).isEmpty then
        ((withPfx .add s).line l (valueHtml t alnum vb), true)
      else if (valueHtml t alnum vb).isEmpty then
        ((withPfx .delete s).line l (valueHtml t alnum va), true)
      else (s.lineDiff l (valueHtml t alnum va) (valueHtml t alnum vb), true) := rfl
  rw [e]
  unfold lineD
  by_cases hab : valueHtml t alnum va = valueHtml t alnum vb
  · rw [if_pos hab, if_pos hab]
    cases hb : (valueHtml t alnum va).isEmpty
    · simp only [Bool.not_false, Bool.false_eq_true, if_false, if_true]
      unfold bothPfx
      by_cases hx : s.pfx = .modify
      · simp only [hx, ne_eq, not_true, if_false, if_true]
        rw [line_wrap, hx]
        cases s; simp only at hx; subst hx; rfl
      · simp only [hx, ne_eq, not_false_eq_true, if_false, if_true]
        rw [line_wrap]; rfl
    · simp only [Bool.not_true, Bool.false_eq_true, if_false, if_true, put_nil]; rfl
  · rw [if_neg hab, if_neg hab]
    cases ha : (valueHtml t alnum va).isEmpty
    · cases hb : (valueHtml t alnum vb).isEmpty
      · simp only [Bool.false_eq_true, if_false]; rw [lineDiff_wrap]; rfl
      · simp only [Bool.false_eq_true, if_false, if_true]; rw [line_wrap]; rfl
    · simp only [if_true]; rw [line_wrap]; rfl

theorem withPfx_put (x : DiffPrefix) (out : Str) (s : Html) : (withPfx x (s.put out)).w = s.w ++ out := rfl

theorem printIfDiff_run (o : Opts) (p : D) (s : Html) (f : Bool) :
    (D.printIfDiff p).run (htmlPrinter t alnum) o s f =
        (if ((D.run (htmlPrinter t alnum) o p ({ s with w := [] } : Html) false).2 || o.html) = true
          then s.put (D.run (htmlPrinter t alnum) o p ({ s with w := [] } : Html) false).1.w else s,
          f || (D.run (htmlPrinter t alnum) o p ({ s with w := [] } : Html) false).2) := rfl

theorem headD_run (o : Opts) (ho : o.html = true) (e : D) (he : FlatD e) (s : Html) (f : Bool) :
    e.run (htmlPrinter t alnum) o s f =
      let r := headD t alnum s.lineStarted e s.pfx f
      (withPfx r.2.1 (s.put r.1), r.2.2) := by
  induction e generalizing s f with
  | skip => simp only [D.run, headD, put_nil]; rfl
  | seq p q ihp ihq =>
    rw [D.run, ihp he.1 s f]
    dsimp only
    rw [ihq he.2 _ _]
    simp only [headD]
    rw [← put_put]; rfl
  | lineBreak => simp only [D.run, headD, put_nil]; rfl
  | label l => exact diffLabel_run l s f
  | line l a b => exact diffLine_run l a b s f
  | printIfDiff p ih =>
    rw [printIfDiff_run, ih he { s with w := [] } false, ho]
    simp only [Bool.or_true, if_true, withPfx_put, List.nil_append, headD]
    rfl
  | ignoreDiff flag p ih =>
    rw [D.run, ih he s f]
    rfl
  | _ => exact he.elim

theorem diffIndent_run (opt c : Bool) (header body : Html → Bool → Html × Bool) (s : Html) (f : Bool)
    (hs : s.lineStarted = false) (b h1 h2 : Str × DiffPrefix × Bool)
    (hbody : body { s with w := [], indent := s.indent + 1, lineStarted := false, pfx := .equal } false =
      (withPfx b.2.1 (Html.put b.1 { s with w := [], indent := s.indent + 1, lineStarted := false, pfx := .equal }), b.2.2))
    (hhead : header (withPfx (headPfx b.2.2) (opened (lit "<li class=\"treebranch\">") s)) false =
      (withPfx h1.2.1 (Html.put h1.1 (opened (lit "<li class=\"treebranch\">") s)), h1.2.2))
    (hleaf : opt = false → header s f = (withPfx h2.2.1 (s.put h2.1), h2.2.2)) :
    diffIndent (htmlPrinter t alnum) opt c header body s f =
      let r := if b.1.isEmpty then (if opt then ([], s.pfx, f) else h2)
        else (branchHtml c h1.1 b.1, h1.2.1, f || (b.2.2 || h1.2.2))
      (withPfx r.2.1 (s.put r.1), r.2.2) := by
  have e : diffIndent (htmlPrinter t alnum) opt c header body s f =
      let r := body { s with w := [], indent := s.indent + 1, lineStarted := false, pfx := .equal } false
      if (!r.1.w.isEmpty) = true then
        let q := (htmlPrinter t alnum).indentHeader c r.1.w
          (fun s => header (withPfx (if r.2 then .modify else .equal) s) false) s
        (q.1, f || (r.2 || q.2))
      else if (!opt) = true then header s f else (s, f) := rfl
  rw [e, hbody]
  have ew : (withPfx b.2.1 (Html.put b.1 { s with
      w := [], indent := s.indent + 1, lineStarted := false, pfx := .equal })).w = b.1 := by
    simp [withPfx, Html.put]
  dsimp only
  rw [ew]
  cases hb : b.1.isEmpty
  · rw [if_pos (show (!false) = true from rfl), if_neg (show ¬ (false = true) by simp)]
    have ed := indentHeader_def (t := t) (alnum := alnum) c b.1
      (fun s => header (withPfx (if b.2.2 then .modify else .equal) s) false) s hs
    have hh := hhead
    unfold headPfx at hh
    rw [hh] at ed
    refine (congrArg (fun q : Html × Bool => (q.1, f || (b.2.2 || q.2))) ed).trans ?_
    cases s
    simp only at hs
    subst hs
    simp [withPfx, Html.put, opened, branchHtml, List.append_assoc]
  · cases opt
    · simpa using hleaf rfl
    · simp only [Bool.not_true, Bool.false_eq_true, if_false, if_true, put_nil]; rfl

/-- Running a diff writes its HTML, sets the mark and the flag, and changes nothing else. -/
theorem runD_html (o : Opts) (ho : o.html = true) (e : D) (he : FlatHeadsD e) (s : Html) (f : Bool)
    (hs : s.lineStarted = false) (hh : s.http = o.http) :
    e.run (htmlPrinter t alnum) o s f =
      let r := htmlD t alnum o.http e s.inlineDepth s.pfx f
      (withPfx r.2.1 (s.put r.1), r.2.2) := by
  induction e generalizing s f with
  | skip => simp only [D.run, htmlD, put_nil]; rfl
  | lineBreak => simp only [D.run, htmlD, put_nil]; rfl
  | seq p q ihp ihq =>
    rw [D.run, ihp he.1 s f hs hh]
    dsimp only
    rw [ihq he.2 _ _ (by exact hs) (by exact hh)]
    simp only [htmlD]
    rw [← put_put]; rfl
  | label l =>
    rw [D.run, diffLabel_run, hs]; rfl
  | line l a b =>
    rw [D.run, diffLine_run, hs]; rfl
  | indent c h b ihh ihb =>
    rw [D.run]
    rw [diffIndent_run false c _ _ s f hs (htmlD t alnum o.http b s.inlineDepth .equal false)
      (headD t alnum true h (headPfx (htmlD t alnum o.http b s.inlineDepth .equal false).2.2) false)
      (headD t alnum false h s.pfx f) (ihb he.2 _ _ rfl hh) (headD_run o ho h he.1 _ _)
      (fun _ => by have := headD_run (t := t) (alnum := alnum) o ho h he.1 s f; rw [hs] at this; exact this)]
    rfl
  | field c l b ihb =>
    rw [D.run]
    rw [diffIndent_run true c _ _ s f hs (htmlD t alnum o.http b s.inlineDepth .equal false)
      (lineIn (headPfx (htmlD t alnum o.http b s.inlineDepth .equal false).2.2) l [],
        headPfx (htmlD t alnum o.http b s.inlineDepth .equal false).2.2, false)
      ([], s.pfx, f) (ihb he _ _ rfl hh) ?_ (fun h => by cases h)]
    · simp [htmlD]
    · rw [diffLabel_run]
      cases (htmlD t alnum o.http b s.inlineDepth .equal false).2.2 <;> rfl
  | id n h b ihh ihb =>
    have e : (D.id n h b).run (htmlPrinter t alnum) o s f =
        let r := b.run (htmlPrinter t alnum) o ({ s with
          w := [], indent := s.indent + 1, lineStarted := false, pfx := .equal } : Html) false
        let q := (htmlPrinter t alnum).indentId n
            (fun s => h.run (htmlPrinter t alnum) o
              (withPfx (if r.2 then .modify else .equal) s) false) (fun s => s.put r.1.w) s
        (q.1, f || (r.2 || q.2)) := rfl
    rw [e, ihb he.2 _ _ rfl (by exact hh)]
    simp only [htmlD]
    have eb : htmlD t alnum o.http b ({ s with
      w := [], indent := s.indent + 1, lineStarted := false, pfx := .equal } : Html).inlineDepth ({ s with
      w := [], indent := s.indent + 1, lineStarted := false, pfx := .equal } : Html).pfx false =
      htmlD t alnum o.http b s.inlineDepth .equal false := rfl
    rw [eb]
    generalize htmlD t alnum o.http b s.inlineDepth .equal false = r
    have ew : (withPfx r.2.1 (Html.put r.1 { s with
      w := [], indent := s.indent + 1, lineStarted := false, pfx := .equal })).w = r.1 := by
      simp [withPfx, Html.put]
    rw [ew]
    have hd := headD_run (t := t) (alnum := alnum) o ho h he.1
      (withPfx (headPfx r.2.2) (opened (lit "<li class=\"treebranch" ++ (if s.http then lit " lazy" else []) ++
      lit "\" id=\"" ++ dec n ++ lit "\">") s)) false
    have hd' : h.run (htmlPrinter t alnum) o
      (withPfx (headPfx r.2.2) (opened (lit "<li class=\"treebranch" ++ (if s.http then lit " lazy" else []) ++
      lit "\" id=\"" ++ dec n ++ lit "\">") s)) false = _ := hd
    have ed := indentId_def (t := t) (alnum := alnum) n
      (fun s => h.run (htmlPrinter t alnum) o
              (withPfx (headPfx r.2.2) s) false) (fun s => s.put r.1) s hs
    dsimp only at ed
    rw [hd'] at ed
    refine (congrArg (fun q : Html × Bool => (q.1, f || (r.2.2 || q.2))) ed).trans ?_
    have el : (withPfx (headPfx r.2.2) (opened (lit "<li class=\"treebranch" ++ (if s.http then lit " lazy" else []) ++
      lit "\" id=\"" ++ dec n ++ lit "\">") s)).lineStarted = true := rfl
    have ep : (withPfx (headPfx r.2.2) (opened (lit "<li class=\"treebranch" ++ (if s.http then lit " lazy" else []) ++
      lit "\" id=\"" ++ dec n ++ lit "\">") s)).pfx = headPfx r.2.2 := rfl
    rw [el, ep]
    generalize headD t alnum true h (headPfx r.2.2) false = q
    cases s
    simp only at hs hh
    subst hs
    subst hh
    simp only [withPfx, Html.put, opened, idHtml]
    cases o.http <;> simp
  | inline p ih =>
    rw [D.run]
    simp only [htmlD]
    by_cases h : s.inlineDepth = 0
    · simp only [h, if_true, put_nil]; rfl
    · simp only [h, if_false]
      rw [ih he { s with inlineDepth := s.inlineDepth - 1 } f hs hh]
      cases s
      simp [Html.put, withPfx] at *
      omega
  | prefixDelete p =>
    rw [D.run]
    show (P.run (htmlPrinter t alnum) o.http p (withPfx .delete s), true) = _
    rw [run_html o.http p he (withPfx .delete s) hs hh]; rfl
  | prefixAdd p =>
    rw [D.run]
    show (P.run (htmlPrinter t alnum) o.http p (withPfx .add s), true) = _
    rw [run_html o.http p he (withPfx .add s) hs hh]; rfl
  | block a b =>
    have e : (D.block a b).run (htmlPrinter t alnum) o s f =
      let buf := (P.run (htmlPrinter t alnum) o.http b (withPfx .add
        (P.run (htmlPrinter t alnum) o.http a (withPfx .delete { s with w := [] })))).w
      if (!buf.isEmpty) = true then (s.put buf, true) else (s, f) := rfl
    rw [e, run_html o.http a he.1 (withPfx .delete { s with w := [] }) hs hh]
    rw [run_html o.http b he.2 (withPfx .add (Html.put (html t alnum o.http (withPfx .delete { s with w := [] }).pfx a
          (withPfx .delete { s with w := [] }).inlineDepth) (withPfx .delete { s with w := [] }))) hs hh]
    simp only [htmlD]
    have ew : (Html.put (html t alnum o.http .add b s.inlineDepth) (withPfx .add (Html.put
        (html t alnum o.http .delete a s.inlineDepth) (withPfx .delete { s with w := [] })))).w =
      html t alnum o.http .delete a s.inlineDepth ++ html t alnum o.http .add b s.inlineDepth := by
      simp [withPfx, Html.put]
    have ew' : (Html.put (html t alnum o.http
        (withPfx .add (Html.put (html t alnum o.http (withPfx .delete { s with w := [] }).pfx a
          (withPfx .delete { s with w := [] }).inlineDepth) (withPfx .delete { s with w := [] }))).pfx b
        (withPfx .add (Html.put (html t alnum o.http (withPfx .delete { s with w := [] }).pfx a
          (withPfx .delete { s with w := [] }).inlineDepth) (withPfx .delete { s with w := [] }))).inlineDepth)
        (withPfx .add (Html.put (html t alnum o.http (withPfx .delete { s with w := [] }).pfx a
          (withPfx .delete { s with w := [] }).inlineDepth) (withPfx .delete { s with w := [] })))).w =
      html t alnum o.http .delete a s.inlineDepth ++ html t alnum o.http .add b s.inlineDepth := ew
    rw [ew']
    cases hb : (html t alnum o.http .delete a s.inlineDepth ++ html t alnum o.http .add b s.inlineDepth).isEmpty
    · simp only [Bool.not_false, if_true, Bool.false_eq_true, if_false]; rfl
    · simp only [Bool.not_true, Bool.false_eq_true, if_false, if_true, put_nil]; rfl
  | printIfDiff p ih =>
    rw [printIfDiff_run, ih he { s with w := [] } false hs hh, ho]
    simp only [Bool.or_true, if_true, withPfx_put, List.nil_append, htmlD]
    rfl
  | ignoreDiff flag p ih =>
    rw [D.run, ih he s f hs hh]
    rfl

end Verif.Web
