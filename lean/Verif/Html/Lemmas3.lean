import Verif.Html.Lemmas2
namespace Verif.Html
open Verif.Print

variable {t : EntityTable} {alnum : Nat → Bool}

/-- Inline content inside an open item, items otherwise. -/
def Good (t : EntityTable) (started : Bool) (out : Str) : Prop :=
  if started then Inline t out else Items t out

theorem Good.nil {b : Bool} : Good t b [] := by
  cases b
  · exact Items.nil
  · exact Inline.nil

theorem Good.append {b : Bool} {x y : Str} (hx : Good t b x) (hy : Good t b y) :
    Good t b (x ++ y) := by
  cases b
  · exact Items.append _ _ hx hy
  · exact Inline.append hx hy

/-- The printer with another marker. -/
def withPfx (x : DiffPrefix) (s : Html) : Html := { s with pfx := x }

theorem line_good {l buf : Str} (hl : Plain l) (hb : Inline t buf) (s : Html) :
    ∃ o, s.line l buf = s.put o ∧ Good t s.lineStarted o := by
  cases h : s.lineStarted
  · exact line_items t hl hb s h
  · exact line_inline t hl hb s h

theorem lineDiff_good {l a b : Str} (hl : Plain l) (ha : Inline t a) (hb : Inline t b) (s : Html) :
    ∃ o, s.lineDiff l a b = s.put o ∧ Good t s.lineStarted o := by
  rw [lineDiff_eq]
  cases h : s.lineStarted
  · exact ⟨_, by rw [if_neg (by simp)], Items.leaf _ _ (by decide) (inline_lineDiffIn t hl ha hb)⟩
  · exact ⟨_, by rw [if_pos rfl], inline_lineDiffIn t hl ha hb⟩

theorem diffLabel_html {l : Str} (hl : Plain l) (s : Html) (f : Bool) :
    ∃ o x f', diffLabel (htmlPrinter t alnum) l s f = (withPfx x (s.put o), f') ∧
      Good t s.lineStarted o := by
  unfold diffLabel
  by_cases h : s.pfx = .modify
  · obtain ⟨o, h1, h2⟩ := line_good (t := t) hl Inline.nil s
    refine ⟨o, s.pfx, f, ?_, h2⟩
    show ((if s.pfx ≠ .modify then _ else s : Html).line l [], f) = _
    rw [if_neg (by simpa using h), h1]; rfl
  · obtain ⟨o, h1, h2⟩ := line_good (t := t) hl Inline.nil (withPfx .equal s)
    refine ⟨o, .equal, f, ?_, h2⟩
    show ((if s.pfx ≠ .modify then (withPfx .equal s) else s : Html).line l [], f) = _
    rw [if_pos (by simpa using h), h1]; rfl

theorem diffLine_html {l : Str} (hl : Plain l) (va vb : Val) (s : Html) (f : Bool) :
    ∃ o x f', diffLine (htmlPrinter t alnum) l va vb s f = (withPfx x (s.put o), f') ∧
      Good t s.lineStarted o := by
  have ia := inline_value t alnum va
  have ib := inline_value t alnum vb
  have e : diffLine (htmlPrinter t alnum) l va vb s f =
      if valueHtml t alnum va = valueHtml t alnum vb then
        if (!(valueHtml t alnum va).isEmpty) = true then
          ((if s.pfx ≠ .modify then withPfx .equal s else s).line l (valueHtml t alnum va), f)
        else (s, f)
      else if (valueHtml t alnum va).isEmpty then
        ((withPfx .add s).line l (valueHtml t alnum vb), true)
      else if (valueHtml t alnum vb).isEmpty then
        ((withPfx .delete s).line l (valueHtml t alnum va), true)
      else (s.lineDiff l (valueHtml t alnum va) (valueHtml t alnum vb), true) := rfl
  rw [e]
  split
  · split
    · split
      · obtain ⟨o, h1, h2⟩ := line_good (t := t) hl ia (withPfx .equal s)
        exact ⟨o, .equal, f, by rw [h1]; rfl, h2⟩
      · obtain ⟨o, h1, h2⟩ := line_good (t := t) hl ia s
        exact ⟨o, s.pfx, f, by rw [h1]; rfl, h2⟩
    · exact ⟨[], s.pfx, f, by rw [put_nil]; rfl, .nil⟩
  · split
    · obtain ⟨o, h1, h2⟩ := line_good (t := t) hl ib (withPfx .add s)
      exact ⟨o, .add, true, by rw [h1]; rfl, h2⟩
    · split
      · obtain ⟨o, h1, h2⟩ := line_good (t := t) hl ia (withPfx .delete s)
        exact ⟨o, .delete, true, by rw [h1]; rfl, h2⟩
      · obtain ⟨o, h1, h2⟩ := lineDiff_good (t := t) hl ia ib s
        exact ⟨o, s.pfx, true, by rw [h1]; rfl, h2⟩

theorem flatD_run (o : Opts) (e : D) (he : FlatD e) (s : Html) (f : Bool) :
    ∃ out x f', e.run (htmlPrinter t alnum) o s f = (withPfx x (s.put out), f') ∧
      Good t s.lineStarted out := by
  induction e generalizing s f with
  | skip => exact ⟨[], s.pfx, f, by rw [D.run, put_nil]; rfl, .nil⟩
  | seq p q ihp ihq =>
    obtain ⟨a, x, f1, h1, g1⟩ := ihp he.1 s f
    obtain ⟨b, y, f2, h2, g2⟩ := ihq he.2 (withPfx x (s.put a)) f1
    refine ⟨a ++ b, y, f2, ?_, g1.append g2⟩
    rw [D.run, h1]
    show D.run (htmlPrinter t alnum) _ q (withPfx x (s.put a)) f1 = _
    rw [h2, ← put_put]; rfl
  | lineBreak => exact ⟨[], s.pfx, f, by rw [D.run, put_nil]; rfl, .nil⟩
  | label l => rw [D.run]; exact diffLabel_html he s f
  | line l a b => rw [D.run]; exact diffLine_html he a b s f
  | printIfDiff p ih =>
    obtain ⟨a, x, f1, h1, g1⟩ := ih he { s with w := [] } false
    have e : (D.printIfDiff p).run (htmlPrinter t alnum) o s f =
        (if ((D.run (htmlPrinter t alnum) o p ({ s with w := [] } : Html) false).2 || o.html) = true
          then s.put (D.run (htmlPrinter t alnum) o p ({ s with w := [] } : Html) false).1.w else s,
          f || (D.run (htmlPrinter t alnum) o p ({ s with w := [] } : Html) false).2) := rfl
    rw [e, h1]
    have ew : (withPfx x (Html.put a { s with w := [] })).w = a := by simp [withPfx]
    rw [ew]
    dsimp only
    split
    · exact ⟨a, s.pfx, _, rfl, g1⟩
    · exact ⟨[], s.pfx, _, by rw [put_nil]; rfl, .nil⟩
  | ignoreDiff flag p ih =>
    obtain ⟨a, x, f1, h1, g1⟩ := ih he s f
    refine ⟨a, x, if flag then f else f1, ?_, g1⟩
    rw [D.run, h1]
  | _ => exact he.elim

/-- `DiffState::indent_impl` on the HTML printer. -/
theorem diffIndent_html (opt c : Bool) (header body : Html → Bool → Html × Bool) (s : Html)
    (f : Bool) (hs : s.lineStarted = false)
    (hbody : ∀ (u : Html) (f : Bool), u.lineStarted = false → u.http = s.http →
      ∃ o x f', body u f = (withPfx x (u.put o), f') ∧ Items t o)
    (hhead : ∀ (u : Html) (f : Bool),
      ∃ o x f', header u f = (withPfx x (u.put o), f') ∧ Good t u.lineStarted o) :
    ∃ o x f', diffIndent (htmlPrinter t alnum) opt c header body s f = (withPfx x (s.put o), f') ∧
      Items t o := by
  obtain ⟨bo, bx, bf, hb1, hb2⟩ := hbody
    { s with w := [], indent := s.indent + 1, lineStarted := false, pfx := .equal } false rfl rfl
  have e : diffIndent (htmlPrinter t alnum) opt c header body s f =
      let r := body { s with w := [], indent := s.indent + 1, lineStarted := false, pfx := .equal } false
      if (!r.1.w.isEmpty) = true then
        let q := (htmlPrinter t alnum).indentHeader c r.1.w
          (fun s => header (withPfx (if r.2 then .modify else .equal) s) false) s
        (q.1, f || (r.2 || q.2))
      else if (!opt) = true then header s f else (s, f) := rfl
  rw [e, hb1]
  have ew : (withPfx bx (Html.put bo { s with
      w := [], indent := s.indent + 1, lineStarted := false, pfx := .equal })).w = bo := by
    simp [withPfx]
  dsimp only
  rw [ew]
  split
  · obtain ⟨ho, hx, hf, hh1, hh2⟩ := hhead
      (withPfx (if bf then .modify else .equal) (opened (lit "<li class=\"treebranch\">") s)) false
    obtain ⟨q, h1, h2⟩ := indentHeader_html (t := t) (alnum := alnum) c bo
      (fun s => header (withPfx (if bf then .modify else .equal) s) false) s hs ho hx hf
      (by rw [hh1]; rfl) hh2 hb2
    exact ⟨q, hx, f || (bf || hf),
      congrArg (fun q : Html × Bool => (q.1, f || (bf || q.2))) h1, h2⟩
  · split
    · obtain ⟨ho, hx, hf, hh1, hh2⟩ := hhead s f
      rw [hs] at hh2
      exact ⟨ho, hx, hf, hh1, hh2⟩
    · exact ⟨[], s.pfx, f, by rw [put_nil]; rfl, .nil⟩

theorem treeD_run (o : Opts) (e : D) (he : TreeD e) (s : Html) (f : Bool)
    (hs : s.lineStarted = false) (hh : s.http = o.http) :
    ∃ out x f', e.run (htmlPrinter t alnum) o s f = (withPfx x (s.put out), f') ∧ Items t out := by
  induction e generalizing s f with
  | skip => exact ⟨[], s.pfx, f, by rw [D.run, put_nil]; rfl, .nil⟩
  | seq p q ihp ihq =>
    obtain ⟨a, x, f1, h1, g1⟩ := ihp he.1 s f hs hh
    obtain ⟨b, y, f2, h2, g2⟩ := ihq he.2 (withPfx x (s.put a)) f1 hs hh
    refine ⟨a ++ b, y, f2, ?_, .append _ _ g1 g2⟩
    rw [D.run, h1]
    show D.run (htmlPrinter t alnum) _ q (withPfx x (s.put a)) f1 = _
    rw [h2, ← put_put]; rfl
  | lineBreak => exact ⟨[], s.pfx, f, by rw [D.run, put_nil]; rfl, .nil⟩
  | label l =>
    rw [D.run]
    have := diffLabel_html (t := t) (alnum := alnum) he s f
    rw [hs] at this; exact this
  | line l a b =>
    rw [D.run]
    have := diffLine_html (t := t) (alnum := alnum) he a b s f
    rw [hs] at this; exact this
  | indent c h b ihh ihb =>
    rw [D.run]
    exact diffIndent_html _ _ _ _ s f hs (fun u f h1 h2 => ihb he.2 u f h1 (h2.trans hh))
      (fun u f => flatD_run o h he.1 u f)
  | field c l b ihb =>
    rw [D.run]
    exact diffIndent_html _ _ _ _ s f hs (fun u f h1 h2 => ihb he.2 u f h1 (h2.trans hh))
      (fun u f => diffLabel_html he.1 u f)
  | id n h b ihh ihb =>
    obtain ⟨bo, bx, bf, hb1, hb2⟩ := ihb he.2
      { s with w := [], indent := s.indent + 1, lineStarted := false, pfx := .equal } false rfl hh
    have e : (D.id n h b).run (htmlPrinter t alnum) o s f =
        let r := b.run (htmlPrinter t alnum) o ({ s with
          w := [], indent := s.indent + 1, lineStarted := false, pfx := .equal } : Html) false
        let q := (htmlPrinter t alnum).indentId n
            (fun s => h.run (htmlPrinter t alnum) o
              (withPfx (if r.2 then .modify else .equal) s) false) (fun s => s.put r.1.w) s
        (q.1, f || (r.2 || q.2)) := rfl
    rw [e, hb1]
    have ew : (withPfx bx (Html.put bo { s with
      w := [], indent := s.indent + 1, lineStarted := false, pfx := .equal })).w = bo := by
      simp [withPfx]
    dsimp only
    rw [ew]
    let x := lit "<li class=\"treebranch" ++ (if s.http then lit " lazy" else []) ++
      lit "\" id=\"" ++ dec n ++ lit "\">"
    obtain ⟨ho, hx, hf, hh1, hh2⟩ := flatD_run (t := t) (alnum := alnum) o h he.1
      (withPfx (if bf then .modify else .equal) (opened x s)) false
    have ed := indentId_def (t := t) (alnum := alnum) n
      (fun s => h.run (htmlPrinter t alnum) o
              (withPfx (if bf then .modify else .equal) s) false) (fun s => s.put bo) s hs
    dsimp only at ed
    rw [show lit "<li class=\"treebranch" ++ (if s.http = true then lit " lazy" else []) ++
      lit "\" id=\"" ++ dec n ++ lit "\">" = x from rfl, hh1] at ed
    have hh2' : Inline t ho := hh2
    have hxx : x = _ := treebranch_id s.http n
    refine ⟨x ++ (ho ++ (lit "<ul style=\"display:none\">\n" ++
      ((if s.http then [] else bo) ++ lit "</ul></li>\n"))), hx, f || (bf || hf), ?_, ?_⟩
    · refine (congrArg (fun q : Html × Bool => (q.1, f || (bf || q.2))) ed).trans ?_
      cases s
      simp only at hs
      subst hs
      simp only [withPfx, Html.put, opened]
      rename_i w ind px idp htt
      cases htt <;> simp
    · rw [hxx]
      refine items_branch t true (attr_id s.http n) hh2' ?_
      split
      · exact .nil
      · exact hb2
  | inline p ih =>
    rw [D.run]
    by_cases h : s.inlineDepth = 0
    · exact ⟨[], s.pfx, f, by simp only [h, if_true]; rw [put_nil]; rfl, .nil⟩
    · simp only [h, if_false]
      obtain ⟨a, x, f1, h1, h2⟩ := ih he { s with inlineDepth := s.inlineDepth - 1 } f hs hh
      refine ⟨a, x, f1, ?_, h2⟩
      rw [h1]
      cases s
      simp [Html.put, withPfx] at *
      omega
  | prefixDelete p =>
    obtain ⟨a, h1, h2⟩ := treeP_run (t := t) (alnum := alnum) o.http p he (withPfx .delete s) hs hh
    exact ⟨a, .delete, true, by
      rw [D.run]
      show (P.run (htmlPrinter t alnum) o.http p (withPfx .delete s), true) = _
      rw [h1]; rfl, h2⟩
  | prefixAdd p =>
    obtain ⟨a, h1, h2⟩ := treeP_run (t := t) (alnum := alnum) o.http p he (withPfx .add s) hs hh
    exact ⟨a, .add, true, by
      rw [D.run]
      show (P.run (htmlPrinter t alnum) o.http p (withPfx .add s), true) = _
      rw [h1]; rfl, h2⟩
  | block a b =>
    obtain ⟨x, h1, g1⟩ := treeP_run (t := t) (alnum := alnum) o.http a he.1
      (withPfx .delete { s with w := [] }) hs hh
    obtain ⟨y, h2, g2⟩ := treeP_run (t := t) (alnum := alnum) o.http b he.2
      (withPfx .add ((withPfx .delete { s with w := [] }).put x)) hs hh
    have e : (D.block a b).run (htmlPrinter t alnum) o s f =
      let buf := (P.run (htmlPrinter t alnum) o.http b (withPfx .add
        (P.run (htmlPrinter t alnum) o.http a (withPfx .delete { s with w := [] })))).w
      if (!buf.isEmpty) = true then (s.put buf, true) else (s, f) := rfl
    rw [e, h1, h2]
    have ew : (Html.put y (withPfx .add (Html.put x (withPfx .delete { s with w := [] })))).w =
      x ++ y := by simp [withPfx]
    rw [ew]
    dsimp only
    split
    · exact ⟨x ++ y, s.pfx, true, rfl, .append _ _ g1 g2⟩
    · exact ⟨[], s.pfx, f, by rw [put_nil]; rfl, .nil⟩
  | printIfDiff p ih =>
    obtain ⟨a, x, f1, h1, g1⟩ := ih he { s with w := [] } false hs hh
    have e : (D.printIfDiff p).run (htmlPrinter t alnum) o s f =
        (if ((D.run (htmlPrinter t alnum) o p ({ s with w := [] } : Html) false).2 || o.html) = true
          then s.put (D.run (htmlPrinter t alnum) o p ({ s with w := [] } : Html) false).1.w else s,
          f || (D.run (htmlPrinter t alnum) o p ({ s with w := [] } : Html) false).2) := rfl
    rw [e, h1]
    have ew : (withPfx x (Html.put a { s with w := [] })).w = a := by simp [withPfx]
    rw [ew]
    dsimp only
    split
    · exact ⟨a, s.pfx, _, rfl, g1⟩
    · exact ⟨[], s.pfx, _, by rw [put_nil]; rfl, .nil⟩
  | ignoreDiff flag p ih =>
    obtain ⟨a, x, f1, h1, g1⟩ := ih he s f hs hh
    refine ⟨a, x, if flag then f else f1, ?_, g1⟩
    rw [D.run, h1]

theorem hexDigit_plain (n : Nat) : ∀ d ∈ Nat.toDigits 16 n, special d.toNat = false := by
  induction n using Nat.strongRecOn with
  | _ n ih =>
    intro d hd
    by_cases h : n < 16
    · rw [Nat.toDigits_of_lt_base h] at hd
      simp only [List.mem_singleton] at hd
      subst hd
      have : ∀ k < 16, special (Nat.digitChar k).toNat = false := by decide
      exact this n h
    · rw [Nat.toDigits_of_base_le (by decide) (by omega)] at hd
      rcases List.mem_append.1 hd with hd | hd
      · exact ih (n / 16) (by omega) d hd
      · simp only [List.mem_singleton] at hd
        subst hd
        have : ∀ k < 16, special (Nat.digitChar k).toNat = false := by decide
        exact this (n % 16) (by omega)

end Verif.Html
