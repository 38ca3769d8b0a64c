import Verif.Web.Spec
import Verif.Html.ReadLemmas
/-!
# The HTML of a listing as a function of the program
-/
namespace Verif.Web
open Verif.Print Verif.Html

variable {t : EntityTable} {alnum : Nat → Bool}

/-- A line inside an open item. -/
def headHtml (t : EntityTable) (alnum : Nat → Bool) (x : DiffPrefix) : P → Str
  | .seq p q => headHtml t alnum x p ++ headHtml t alnum x q
  | .label l => lineIn x l []
  | .line l v => if blank v then [] else lineIn x l (valueHtml t alnum v)
  | _ => []

/-- An item of one line. -/
def leafHtml (h : Str) : Str := lit "<li>" ++ h ++ lit "</li>\n"

/-- A section. -/
def branchHtml (collapsed : Bool) (h body : Str) : Str :=
  lit "<li class=\"treebranch\">" ++ h ++
    (if collapsed then lit "<ul style=\"display:none\">\n" else lit "<ul>\n") ++ body ++ lit "</ul></li>\n"

/-- An item with an id. -/
def idHtml (http : Bool) (n : Nat) (h body : Str) : Str :=
  lit "<li class=\"treebranch" ++ (if http then lit " lazy" else []) ++ lit "\" id=\"" ++ dec n ++ lit "\">" ++ h ++
    lit "<ul style=\"display:none\">\n" ++ (if http then [] else body) ++ lit "</ul></li>\n"

/-- The items of header lines that have no body. -/
def leavesHtml (t : EntityTable) (alnum : Nat → Bool) (x : DiffPrefix) : P → Str
  | .seq p q => leavesHtml t alnum x p ++ leavesHtml t alnum x q
  | .label l => leafHtml (lineIn x l [])
  | .line l v => if blank v then [] else leafHtml (lineIn x l (valueHtml t alnum v))
  | _ => []

/-- A row of the table of instructions. -/
def rowHtml (a : Option Nat) (m buf : Str) : Str :=
  lit "<tr><td>" ++ (match a with | some a => hex a | none => []) ++ lit "</td><td>" ++ m ++ lit "</td><td>" ++ buf ++
    lit "</td></tr>"

/-- What a program writes. -/
def html (t : EntityTable) (alnum : Nat → Bool) (http : Bool) (x : DiffPrefix) : P → Nat → Str
  | .seq p q, d => html t alnum http x p d ++ html t alnum http x q d
  | .label l, _ => leafHtml (lineIn x l [])
  | .line l v, _ => if blank v then [] else leafHtml (lineIn x l (valueHtml t alnum v))
  | .instruction a m v, _ => rowHtml a m (valueHtml t alnum v)
  | .indent c h b, d =>
    if (html t alnum http x b d).isEmpty then leavesHtml t alnum x h
    else branchHtml c (headHtml t alnum x h) (html t alnum http x b d)
  | .field c l b, d =>
    if (html t alnum http x b d).isEmpty then []
    else branchHtml c (lineIn x l []) (html t alnum http x b d)
  | .id n h b, d => idHtml http n (headHtml t alnum x h) (html t alnum http x b d)
  | .fieldDetail i l b, d =>
    if http then lit "<li class=\"detail\" data-detail=\"" ++ i ++ lit "\">" ++ lineIn x l [] ++ lit "</li>\n"
    else if (html t alnum http x b d).isEmpty then []
    else branchHtml true (lineIn x l []) (html t alnum http x b d)
  | .inline p, d => if d = 0 then [] else html t alnum http x p (d - 1)
  | .skip, _ => []
  | .lineBreak, _ => []

/-- Headers write lines only. -/
def FlatHeads : P → Prop
  | .seq p q => FlatHeads p ∧ FlatHeads q
  | .indent _ h b => FlatP h ∧ FlatHeads b
  | .field _ _ b => FlatHeads b
  | .id _ h b => FlatP h ∧ FlatHeads b
  | .fieldDetail _ _ b => FlatHeads b
  | .inline p => FlatHeads p
  | _ => True

theorem head_run (http : Bool) (p : P) (hp : FlatP p) (s : Html) (hs : s.lineStarted = true) :
    p.run (htmlPrinter t alnum) http s = s.put (headHtml t alnum s.pfx p) := by
  induction p generalizing s with
  | skip => simp [P.run, headHtml]
  | seq p q ihp ihq =>
    rw [P.run, ihp hp.1 s hs, ihq hp.2 (s.put _) hs, put_put]
    rfl
  | lineBreak => simp [P.run, headHtml]
  | label l => rw [P.run]; show s.line l [] = _; rw [line_eq, if_pos hs]; rfl
  | line l v =>
    rw [P.run]
    simp only [headHtml, blank_isEmpty]
    cases h : blank v
    · simp only [Bool.not_false, if_true, Bool.false_eq_true, if_false]; rw [line_eq, if_pos hs]
    · simp
  | _ => exact hp.elim

theorem leaf_eq (h : Str) : leafHtml h = lit "<li" ++ [] ++ lit ">" ++ h ++ lit "</li>\n" := by
  unfold leafHtml
  rw [show lit "<li>" = lit "<li" ++ [] ++ lit ">" by decide]

theorem leaves_run (http : Bool) (p : P) (hp : FlatP p) (s : Html) (hs : s.lineStarted = false) :
    p.run (htmlPrinter t alnum) http s = s.put (leavesHtml t alnum s.pfx p) := by
  induction p generalizing s with
  | skip => simp [P.run, leavesHtml]
  | seq p q ihp ihq =>
    rw [P.run, ihp hp.1 s hs, ihq hp.2 (s.put _) hs, put_put]
    rfl
  | lineBreak => simp [P.run, leavesHtml]
  | label l =>
    rw [P.run]; show s.line l [] = _
    rw [line_eq, if_neg (by simp [hs]), ← leaf_eq]; rfl
  | line l v =>
    rw [P.run]
    simp only [leavesHtml, blank_isEmpty]
    cases h : blank v
    · simp only [Bool.not_false, if_true, Bool.false_eq_true, if_false]
      rw [line_eq, if_neg (by simp [hs]), ← leaf_eq]
    · simp
  | _ => exact hp.elim

theorem indentHeader_run {β : Type} (c : Bool) (body : Str) (header : Html → Html × β) (s : Html)
    (hs : s.lineStarted = false) (out : Str) (b : β)
    (hh : header (opened (lit "<li class=\"treebranch\">") s) =
      ((opened (lit "<li class=\"treebranch\">") s).put out, b)) :
    (htmlPrinter t alnum).indentHeader c body header s = (s.put (branchHtml c out body), b) := by
  rw [indentHeader_def _ _ _ _ hs, hh]
  cases s
  subst hs
  simp [opened, Html.put, branchHtml, List.append_assoc]

theorem printIndent_run (opt c : Bool) (header body : Html → Html) (s : Html) (hs : s.lineStarted = false)
    (bo ho lo : Str)
    (hbody : body { s with w := [], indent := s.indent + 1, lineStarted := false } =
      ({ s with w := [], indent := s.indent + 1, lineStarted := false } : Html).put bo)
    (hhead : header (opened (lit "<li class=\"treebranch\">") s) = (opened (lit "<li class=\"treebranch\">") s).put ho)
    (hleaf : opt = false → header s = s.put lo) :
    printIndent (htmlPrinter t alnum) opt c header body s =
      s.put (if bo.isEmpty then (if opt then [] else lo) else branchHtml c ho bo) := by
  unfold printIndent
  have hbuf : ((htmlPrinter t alnum).indentBody (fun s => (body s, ())) s) = (bo, ()) := by
    show ((body { s with w := [], indent := s.indent + 1, lineStarted := false }).w, ()) = _
    rw [hbody]; rfl
  rw [hbuf]
  show (if (!bo.isEmpty) = true then _ else _) = _
  cases he : bo.isEmpty with
  | false =>
    rw [if_pos (by simp)]
    have := indentHeader_run (t := t) (alnum := alnum) c bo (fun s => (header s, ())) s hs ho () (by rw [hhead])
    exact congrArg Prod.fst this
  | true =>
    cases opt with
    | false => simp [hleaf rfl]
    | true => simp

/-- Running a program writes its HTML and changes nothing else. -/
theorem run_html (http : Bool) (p : P) (hp : FlatHeads p) (s : Html) (hs : s.lineStarted = false) (hh : s.http = http) :
    p.run (htmlPrinter t alnum) http s = s.put (html t alnum http s.pfx p s.inlineDepth) := by
  induction p generalizing s with
  | skip => simp [P.run, html]
  | seq p q ihp ihq =>
    rw [P.run, ihp hp.1 s hs hh, ihq hp.2 (s.put _) hs hh, put_put]
    rfl
  | lineBreak => simp [P.run, html]
  | label l =>
    rw [P.run]; show s.line l [] = _
    rw [line_eq, if_neg (by simp [hs]), ← leaf_eq]; rfl
  | line l v =>
    rw [P.run]
    simp only [html, blank_isEmpty]
    cases h : blank v
    · simp only [Bool.not_false, if_true, Bool.false_eq_true, if_false]
      rw [line_eq, if_neg (by simp [hs]), ← leaf_eq]
    · simp
  | instruction a m v =>
    rw [P.run]
    simp only [html, rowHtml, Html.instruction]
    cases a <;> simp [Html.put, List.append_assoc]
  | indent c h b ihh ihb =>
    rw [P.run, printIndent_run false c _ _ s hs _ _ _ (ihb hp.2 _ rfl hh) (head_run http h hp.1 _ rfl)
      (fun _ => leaves_run http h hp.1 s hs)]
    rfl
  | field c l b ihb =>
    rw [P.run, printIndent_run true c _ _ s hs _ (lineIn s.pfx l []) [] (ihb hp _ rfl hh)
      (by show Html.line l [] _ = _; rw [line_eq]; rfl) (by simp)]
    rfl
  | fieldDetail i l b ihb =>
    rw [P.run]
    simp only [html]
    cases http with
    | false =>
      simp only [Bool.false_eq_true, if_false]
      rw [printIndent_run true true _ _ s hs _ (lineIn s.pfx l []) [] (ihb hp _ rfl hh)
        (by show Html.line l [] _ = _; rw [line_eq]; rfl) (by simp)]
      rfl
    | true =>
      simp only [if_true, hh, hs, Bool.not_false, assert_true]
      rw [line_eq, if_pos rfl]
      cases s
      simp only at hs
      subst hs
      simp [Html.put, List.append_assoc]
  | id n h b ihh ihb =>
    rw [P.run, indentId_def _ _ _ _ hs]
    let x := lit "<li class=\"treebranch" ++ (if s.http then lit " lazy" else []) ++
      lit "\" id=\"" ++ dec n ++ lit "\">"
    show Html.put (lit "</ul></li>\n")
      (let u : Html := { (P.run (htmlPrinter t alnum) http h (opened x s)) with
        w := (P.run (htmlPrinter t alnum) http h (opened x s)).w ++
          lit "<ul style=\"display:none\">\n", lineStarted := false }
       if (!u.http) = true then P.run (htmlPrinter t alnum) http b u else u) = _
    rw [head_run http h hp.1 (opened x s) rfl]
    have hu : ({ (opened x s).put (headHtml t alnum s.pfx h) with
        w := ((opened x s).put (headHtml t alnum s.pfx h)).w ++ lit "<ul style=\"display:none\">\n",
        lineStarted := false } : Html) =
        s.put (x ++ (headHtml t alnum s.pfx h ++ lit "<ul style=\"display:none\">\n")) := by
      cases s; subst hs; simp [opened, Html.put]
    show Html.put _ (let u : Html := { (opened x s).put (headHtml t alnum s.pfx h) with
        w := ((opened x s).put (headHtml t alnum s.pfx h)).w ++ lit "<ul style=\"display:none\">\n",
        lineStarted := false }
      if (!u.http) = true then P.run (htmlPrinter t alnum) http b u else u) = _
    rw [hu]
    simp only [html, idHtml]
    cases hht : s.http with
    | true =>
      have hh' : http = true := hh.symm.trans hht
      subst hh'
      simp [hht, x, List.append_assoc, put_put]
    | false =>
      have hh' : http = false := hh.symm.trans hht
      subst hh'
      have hr := ihb hp.2 (s.put (x ++ (headHtml t alnum s.pfx h ++ lit "<ul style=\"display:none\">\n"))) hs hh
      have hc : (!(s.put (x ++ (headHtml t alnum s.pfx h ++ lit "<ul style=\"display:none\">\n"))).http) = true := by
        show (!s.http) = true
        rw [hht]; rfl
      show Html.put _ (if (!(s.put (x ++ (headHtml t alnum s.pfx h ++ lit "<ul style=\"display:none\">\n"))).http) = true
        then _ else _) = _
      rw [if_pos hc, hr]
      simp [hht, x, List.append_assoc, put_put]
      rfl
  | inline p ih =>
    rw [P.run]
    simp only [html]
    by_cases h : s.inlineDepth = 0
    · simp [h]
    · simp only [h, if_false]
      rw [ih hp { s with inlineDepth := s.inlineDepth - 1 } hs hh]
      cases s
      simp [Html.put] at *
      omega


end Verif.Web
