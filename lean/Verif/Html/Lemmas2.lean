import Verif.Html.Lemmas
namespace Verif.Html
open Verif.Print

variable {t : EntityTable} {alnum : Nat → Bool}

theorem items_line (t : EntityTable) (x : DiffPrefix) {label buf : Str} (hl : Plain label)
    (hb : Inline t buf) :
    Items t (lit "<li" ++ [] ++ lit ">" ++ lineIn x label buf ++ lit "</li>\n") :=
  .leaf _ _ (by decide) (inline_lineIn t x hl hb)

/-- A closure run as a header (inside an open `<li>`) writes inline content and changes nothing
else. -/
theorem flatP_run (http : Bool) (p : P) (hp : FlatP p) (s : Html) (hs : s.lineStarted = true) :
    ∃ out, p.run (htmlPrinter t alnum) http s = s.put out ∧ Inline t out := by
  induction p generalizing s with
  | skip => exact ⟨[], by simp [P.run], Inline.nil⟩
  | seq p q ihp ihq =>
    obtain ⟨a, ha, ha'⟩ := ihp hp.1 s hs
    obtain ⟨b, hb, hb'⟩ := ihq hp.2 (s.put a) hs
    exact ⟨a ++ b, by rw [P.run, ha, hb, put_put], ha'.append hb'⟩
  | lineBreak => exact ⟨[], by simp [P.run], Inline.nil⟩
  | label l =>
    exact ⟨_, by rw [P.run]; show s.line l [] = _; rw [line_eq, if_pos hs],
      inline_lineIn t _ hp Inline.nil⟩
  | line l v =>
    by_cases h : (valueHtml t alnum v).isEmpty
    · exact ⟨[], by rw [P.run]; simp [h], Inline.nil⟩
    · exact ⟨_, by
        rw [P.run]; simp only [h]; show s.line l _ = _; rw [line_eq, if_pos hs],
        inline_lineIn t _ hp (inline_value t alnum v)⟩
  | _ => exact hp.elim

theorem items_branch (t : EntityTable) (collapsed : Bool) {attrs h l : Str} (ha : AttrText attrs)
    (hh : Inline t h) (hl : Items t l) :
    Items t (lit "<li" ++ attrs ++ lit ">" ++ (h ++ ((if collapsed then
      lit "<ul style=\"display:none\">\n" else lit "<ul>\n") ++ (l ++ lit "</ul></li>\n")))) := by
  have := Items.branch attrs h (if collapsed then lit " style=\"display:none\"" else []) l ha hh
    (by split <;> decide) hl
  have e : (if collapsed then lit "<ul style=\"display:none\">\n" else lit "<ul>\n") =
      lit "<ul" ++ (if collapsed then lit " style=\"display:none\"" else []) ++ lit ">\n" := by
    cases collapsed <;> decide
  rw [e]
  simpa only [List.append_assoc] using this

theorem treebranch : lit "<li class=\"treebranch\">" =
    lit "<li" ++ lit " class=\"treebranch\"" ++ lit ">" := by decide

/-- The printer inside a just opened `<li>`. -/
def opened (x : Str) (s : Html) : Html := { s with w := s.w ++ x, lineStarted := true }

theorem indentHeader_def {β : Type} (c : Bool) (body : Str) (header : Html → Html × β) (s : Html)
    (hs : s.lineStarted = false) :
    (htmlPrinter t alnum).indentHeader c body header s =
      ({ (header (opened (lit "<li class=\"treebranch\">") s)).1 with
          w := (header (opened (lit "<li class=\"treebranch\">") s)).1.w ++
            ((if c then lit "<ul style=\"display:none\">\n" else lit "<ul>\n") ++
              (body ++ lit "</ul></li>\n")), lineStarted := false },
        (header (opened (lit "<li class=\"treebranch\">") s)).2) := by
  simp only [hs, Bool.not_false, assert_true]
  have : ({ Html.put (lit "<li class=\"treebranch\">") s with lineStarted := true } : Html) =
    opened (lit "<li class=\"treebranch\">") s := rfl
  rw [this]
  cases c <;> simp [Html.put]

theorem indentId_def {β : Type} (n : Nat) (header : Html → Html × β) (body : Html → Html)
    (s : Html) (hs : s.lineStarted = false) :
    (htmlPrinter t alnum).indentId n header body s =
      let x := lit "<li class=\"treebranch" ++ (if s.http then lit " lazy" else []) ++
        lit "\" id=\"" ++ dec n ++ lit "\">"
      let r := header (opened x s)
      let u : Html := { r.1 with
        w := r.1.w ++ lit "<ul style=\"display:none\">\n", lineStarted := false }
      let v := if !u.http then body u else u
      (v.put (lit "</ul></li>\n"), r.2) := by
  simp only [hs, Bool.not_false, assert_true]
  rfl

theorem indentHeader_html {β : Type} (c : Bool) (body : Str) (header : Html → Html × β) (s : Html)
    (hs : s.lineStarted = false) (out : Str) (x : DiffPrefix) (b : β)
    (hh : header (opened (lit "<li class=\"treebranch\">") s) =
      ({ (opened (lit "<li class=\"treebranch\">") s).put out with pfx := x }, b))
    (hout : Inline t out) (hbody : Items t body) :
    ∃ o, (htmlPrinter t alnum).indentHeader c body header s = ({ s.put o with pfx := x }, b) ∧
      Items t o := by
  refine ⟨_, ?_, items_branch t c (attrs := lit " class=\"treebranch\"") (by decide) hout hbody⟩
  rw [indentHeader_def _ _ _ _ hs, hh, treebranch]
  cases s
  subst hs
  simp [opened, Html.put, List.append_assoc]

theorem printIndent_html (opt c : Bool) (header body : Html → Html) (s : Html)
    (hs : s.lineStarted = false)
    (hbody : ∀ u : Html, u.lineStarted = false → u.http = s.http →
      ∃ o, body u = u.put o ∧ Items t o)
    (hhead : ∀ u : Html, u.lineStarted = true → ∃ o, header u = u.put o ∧ Inline t o)
    (hheadN : ∀ u : Html, u.lineStarted = false → ∃ o, header u = u.put o ∧ Items t o) :
    ∃ o, printIndent (htmlPrinter t alnum) opt c header body s = s.put o ∧ Items t o := by
  unfold printIndent
  obtain ⟨bo, hb1, hb2⟩ := hbody { s with w := [], indent := s.indent + 1, lineStarted := false }
    rfl rfl
  have hbuf : ((htmlPrinter t alnum).indentBody (fun s => (body s, ())) s) = (bo, ()) := by
    show ((body { s with w := [], indent := s.indent + 1, lineStarted := false }).w, ()) = _
    rw [hb1]; rfl
  rw [hbuf]
  show ∃ o, (if (!bo.isEmpty) = true then _ else _) = _ ∧ _
  cases he : bo.isEmpty with
  | false =>
    rw [if_pos (by simp)]
    obtain ⟨ho, hh1, hh2⟩ := hhead (opened (lit "<li class=\"treebranch\">") s) rfl
    obtain ⟨o, h1, h2⟩ := indentHeader_html (t := t) (alnum := alnum) c bo
      (fun s => (header s, ())) s hs ho s.pfx () (by rw [hh1]; rfl) hh2 hb2
    exact ⟨o, congrArg Prod.fst h1, h2⟩
  | true =>
    cases opt with
    | false =>
      obtain ⟨o, h1, h2⟩ := hheadN s hs
      exact ⟨o, by simp [h1], h2⟩
    | true => exact ⟨[], by simp, .nil⟩

theorem line_items (t : EntityTable) {l buf : Str} (hl : Plain l) (hb : Inline t buf) (s : Html)
    (hs : s.lineStarted = false) : ∃ o, s.line l buf = s.put o ∧ Items t o :=
  ⟨_, by rw [line_eq, if_neg (by simp [hs])], items_line t _ hl hb⟩

theorem line_inline (t : EntityTable) {l buf : Str} (hl : Plain l) (hb : Inline t buf) (s : Html)
    (hs : s.lineStarted = true) : ∃ o, s.line l buf = s.put o ∧ Inline t o :=
  ⟨_, by rw [line_eq, if_pos hs], inline_lineIn t _ hl hb⟩

theorem flatP_items (http : Bool) (p : P) (hp : FlatP p) (s : Html) (hs : s.lineStarted = false) :
    ∃ out, p.run (htmlPrinter t alnum) http s = s.put out ∧ Items t out := by
  induction p generalizing s with
  | skip => exact ⟨[], by simp [P.run], .nil⟩
  | seq p q ihp ihq =>
    obtain ⟨a, ha, ha'⟩ := ihp hp.1 s hs
    obtain ⟨b, hb, hb'⟩ := ihq hp.2 (s.put a) hs
    exact ⟨a ++ b, by rw [P.run, ha, hb, put_put], .append _ _ ha' hb'⟩
  | lineBreak => exact ⟨[], by simp [P.run], .nil⟩
  | label l =>
    rw [P.run]
    exact line_items t hp Inline.nil s hs
  | line l v =>
    by_cases h : (valueHtml t alnum v).isEmpty
    · exact ⟨[], by rw [P.run]; simp [h], .nil⟩
    · rw [P.run]
      simp only [h]
      exact line_items t hp (inline_value t alnum v) s hs
  | _ => exact hp.elim

theorem treebranch_id (http : Bool) (n : Nat) :
    lit "<li class=\"treebranch" ++ (if http then lit " lazy" else []) ++
      lit "\" id=\"" ++ dec n ++ lit "\">" =
    lit "<li" ++ (lit " class=\"treebranch" ++ (if http then lit " lazy" else []) ++
      lit "\" id=\"" ++ dec n ++ lit "\"") ++ lit ">" := by
  have e1 : lit "<li class=\"treebranch" = lit "<li" ++ lit " class=\"treebranch" := by decide
  have e2 : lit "\">" = lit "\"" ++ lit ">" := by decide
  rw [e1, e2]
  simp only [List.append_assoc]

theorem attr_id (http : Bool) (n : Nat) : AttrText (lit " class=\"treebranch" ++
    (if http then lit " lazy" else []) ++ lit "\" id=\"" ++ dec n ++ lit "\"") := by
  refine AttrText.append (AttrText.append (AttrText.append (AttrText.append (by decide) ?_)
    (by decide)) (attr_dec n)) (by decide)
  split <;> decide

theorem treeP_run (http : Bool) (p : P) (hp : TreeP p) (s : Html) (hs : s.lineStarted = false)
    (hh : s.http = http) :
    ∃ out, p.run (htmlPrinter t alnum) http s = s.put out ∧ Items t out := by
  induction p generalizing s with
  | skip => exact ⟨[], by simp [P.run], .nil⟩
  | seq p q ihp ihq =>
    obtain ⟨a, ha, ha'⟩ := ihp hp.1 s hs hh
    obtain ⟨b, hb, hb'⟩ := ihq hp.2 (s.put a) hs hh
    exact ⟨a ++ b, by rw [P.run, ha, hb, put_put], .append _ _ ha' hb'⟩
  | lineBreak => exact ⟨[], by simp [P.run], .nil⟩
  | label l =>
    rw [P.run]
    exact line_items t hp Inline.nil s hs
  | line l v =>
    by_cases h : (valueHtml t alnum v).isEmpty
    · exact ⟨[], by rw [P.run]; simp [h], .nil⟩
    · rw [P.run]
      simp only [h]
      exact line_items t hp (inline_value t alnum v) s hs
  | instruction a m v => exact hp.elim
  | indent c h b ihh ihb =>
    rw [P.run]
    exact printIndent_html _ _ _ _ s hs (fun u h1 h2 => ihb hp.2 u h1 (h2.trans hh))
      (fun u h1 => flatP_run http h hp.1 u h1) (fun u h1 => flatP_items http h hp.1 u h1)
  | field c l b ihb =>
    rw [P.run]
    exact printIndent_html _ _ _ _ s hs (fun u h1 h2 => ihb hp.2 u h1 (h2.trans hh))
      (fun u h1 => line_inline t hp.1 Inline.nil u h1) (fun u h1 => line_items t hp.1 Inline.nil u h1)
  | fieldDetail i l b ihb =>
    rw [P.run]
    cases http with
    | false =>
      simp only [Bool.false_eq_true, if_false]
      exact printIndent_html _ _ _ _ s hs (fun u h1 h2 => ihb hp.2.2 u h1 (h2.trans hh))
        (fun u h1 => line_inline t hp.2.1 Inline.nil u h1)
        (fun u h1 => line_items t hp.2.1 Inline.nil u h1)
    | true =>
      have e : lit "<li class=\"detail\" data-detail=\"" ++ i ++ lit "\">" =
          lit "<li" ++ (lit " class=\"detail\" data-detail=\"" ++ i ++ lit "\"") ++ lit ">" := by
        have e1 : lit "<li class=\"detail\" data-detail=\"" =
          lit "<li" ++ lit " class=\"detail\" data-detail=\"" := by decide
        have e2 : lit "\">" = lit "\"" ++ lit ">" := by decide
        rw [e1, e2]; simp only [List.append_assoc]
      refine ⟨_, ?_, Items.leaf (lit " class=\"detail\" data-detail=\"" ++ i ++ lit "\"") _
        (((by decide : AttrText (lit " class=\"detail\" data-detail=\"")).append
          (plain_attr hp.1)).append (by decide)) (inline_lineIn t s.pfx hp.2.1 Inline.nil)⟩
      simp only [if_true, hh, hs, Bool.not_false, assert_true]
      rw [line_eq, if_pos rfl, e]
      cases s
      simp only [Html.put] at *
      subst hs
      simp [List.append_assoc]
  | id n h b ihh ihb =>
    rw [P.run, indentId_def _ _ _ _ hs]
    let x := lit "<li class=\"treebranch" ++ (if s.http then lit " lazy" else []) ++
      lit "\" id=\"" ++ dec n ++ lit "\">"
    obtain ⟨ho, hh1, hh2⟩ := flatP_run (t := t) (alnum := alnum) http h hp.1 (opened x s) rfl
    show ∃ out, Html.put (lit "</ul></li>\n")
      (let u : Html := { (P.run (htmlPrinter t alnum) http h (opened x s)) with
        w := (P.run (htmlPrinter t alnum) http h (opened x s)).w ++
          lit "<ul style=\"display:none\">\n", lineStarted := false }
       if (!u.http) = true then P.run (htmlPrinter t alnum) http b u else u) = _ ∧ _
    rw [hh1]
    have hu : ({ (opened x s).put ho with
        w := ((opened x s).put ho).w ++ lit "<ul style=\"display:none\">\n",
        lineStarted := false } : Html) =
        s.put (x ++ (ho ++ lit "<ul style=\"display:none\">\n")) := by
      cases s; subst hs; simp [opened, Html.put]
    rw [hu]
    have hx : x = _ := treebranch_id s.http n
    cases hht : s.http with
    | true =>
      refine ⟨_, ?_, items_branch t true (attr_id s.http n) hh2 .nil⟩
      rw [← hx]
      simp [hht]
    | false =>
      obtain ⟨bo, hb1, hb2⟩ := ihb hp.2 (s.put (x ++ (ho ++ lit "<ul style=\"display:none\">\n")))
        hs hh
      refine ⟨_, ?_, items_branch t true (attr_id s.http n) hh2 hb2⟩
      rw [← hx]
      simp [hht, hb1]
  | inline p ih =>
    rw [P.run]
    by_cases h : s.inlineDepth = 0
    · exact ⟨[], by simp [h], .nil⟩
    · simp only [h, if_false]
      obtain ⟨o, h1, h2⟩ := ih hp { s with inlineDepth := s.inlineDepth - 1 } hs hh
      refine ⟨o, ?_, h2⟩
      rw [h1]
      cases s
      simp [Html.put] at *
      omega

end Verif.Html
