import Verif.Html.Read
import Verif.Html.Lemmas3
namespace Verif.Html
open Verif.Print

variable {t : EntityTable} {alnum : Nat → Bool}

theorem escape_nil_iff (t : EntityTable) (s : Str) : escape t s = [] ↔ s = [] := by
  cases s with
  | nil => simp [escape]
  | cons c s => simp only [escape, List.append_eq_nil_iff, reduceCtorEq, iff_false, not_and]; intro h; split at h <;> simp at h

theorem blank_iff (t : EntityTable) (alnum : Nat → Bool) (v : Val) : valueHtml t alnum v = [] ↔ blank v = true := by
  induction v with
  | nil => simp [valueHtml, blank]
  | text s => simp [valueHtml, blank, escape_nil_iff]
  | name s =>
    simp only [valueHtml, nameHtml, blank, List.isEmpty_iff]
    split
    · next h =>
      constructor
      · intro h'
        simp only [List.append_eq_nil_iff] at h'
        exact absurd h'.1.1.1.1 (by decide)
      · rintro rfl; exact absurd rfl h
    · exact escape_nil_iff t s
  | link id v ih =>
    simp only [valueHtml, blank]
    split
    · next h => simp [h, ih]
    · next h =>
      simp only [Bool.and_eq_true, beq_iff_eq, h, false_and, iff_false]
      intro h'
      simp only [List.append_eq_nil_iff] at h'
      exact absurd h'.2 (by decide)
  | seq v w ihv ihw => simp [valueHtml, blank, ihv, ihw]

theorem blank_isEmpty (t : EntityTable) (alnum : Nat → Bool) (v : Val) : (valueHtml t alnum v).isEmpty = blank v := by
  have := blank_iff t alnum v
  cases h : blank v <;> rw [h] at this
  · simp only [Bool.false_eq_true, iff_false] at this
    cases h' : valueHtml t alnum v with
    | nil => exact absurd h' this
    | cons _ _ => rfl
  · rw [this.2 rfl]; rfl

/-- The mark of a printer's marker. -/
def markOf : DiffPrefix → Mark
  | .delete => .del
  | .add => .add
  | _ => .same

theorem lit_append (a b : String) : lit (a ++ b) = lit a ++ lit b := by
  simp [lit, Str.ofString]

theorem content_value (t : EntityTable) (alnum : Nat → Bool) (v : Val) : Content t (valueHtml t alnum v) (shownText alnum v) := by
  induction v with
  | nil => exact .text _ _ .nil
  | text s => exact .text _ _ (decodes_escape t s)
  | name s =>
    simp only [valueHtml, nameHtml, shownText]
    split
    · have := Content.span (t := t) (lit "\"" ++ escape t s ++ lit "\"") _ _
        (((by decide : AttrText (lit "\"")).append (attr_escape t s)).append (by decide))
        (.text _ _ (decodes_escape t (abbreviate alnum s)))
      have e1 : lit "<span title=\"" = lit "<span title=" ++ lit "\"" := by decide
      have e2 : lit "\">" = lit "\"" ++ lit ">" := by decide
      rw [e1, e2]
      simpa only [List.append_assoc] using this
    · rename_i h
      rw [← Decidable.not_not.1 h]
      exact .text _ _ (decodes_escape t s)
  | link id v ih =>
    simp only [valueHtml, shownText]
    split
    · exact ih
    · have := Content.anchor (t := t) (lit " class=\"link\" data-link=\"" ++ dec id ++
        lit "\" href=\"#" ++ dec id ++ lit "\"") _ _
        (((((by decide : AttrText (lit " class=\"link\" data-link=\"")).append
          (attr_dec id)).append (by decide)).append (attr_dec id)).append (by decide)) ih
      have e1 : lit "<a class=\"link\" data-link=\"" =
        lit "<a" ++ lit " class=\"link\" data-link=\"" := by decide
      have e2 : lit "\">" = lit "\"" ++ lit ">" := by decide
      rw [e1, e2]
      simpa only [List.append_assoc] using this
  | seq v w ihv ihw => exact .append _ _ _ _ ihv ihw

theorem ne_nil_of_blank {v : Val} (h : blank v = false) : v ≠ .nil := by
  rintro rfl; cases h

theorem lineReads_label (x : DiffPrefix) {l : Str} (hl : Plain l) : LineReads t alnum (lineIn x l []) [⟨.same, l, .nil⟩] := by
  unfold lineIn
  simp only [List.isEmpty_nil, if_true]
  by_cases hx : x = .modify
  · rw [if_pos hx]
    have := LineReads.labelMod (t := t) (alnum := alnum) l hl
    have e1 : lit "<span class=\"field mod\">" = lit "<span" ++ (lit " class=\"field mod\"" ++ lit ">") := by decide
    have e2 : lit ":</span>" = lit ":" ++ lit "</span>" := by decide
    rw [e1, e2] at this
    simpa only [List.append_assoc] using this
  · rw [if_neg hx]
    have := LineReads.label (t := t) (alnum := alnum) l hl
    have e1 : lit "<span>" = lit "<span" ++ lit ">" := by decide
    have e2 : lit ":</span>" = lit ":" ++ lit "</span>" := by decide
    rw [e1, e2] at this
    simpa only [List.append_assoc, List.nil_append] using this

theorem classOf_eq (x : DiffPrefix) : ∃ c, (markOf x).HasClass c ∧ classOf x ++ lit ">" = lit " class=\"" ++ c ++ lit "\">" := by
  cases x
  · exact ⟨lit "field", .inl rfl, by decide⟩
  · exact ⟨lit "field", .inl rfl, by decide⟩
  · exact ⟨lit "field del", rfl, by decide⟩
  · exact ⟨lit "field add", rfl, by decide⟩
  · exact ⟨lit "field mod", .inr rfl, by decide⟩

theorem labelPart_eq (l : Str) : (if !l.isEmpty then lit "<span" ++ lit " class=\"field\"" ++ lit ">" ++ (l ++ lit ":")
      ++ lit "</span>" ++ lit " " else []) = labelPart l := by
  unfold labelPart
  cases l.isEmpty
  · have e1 : lit "<span class=\"field\">" = lit "<span" ++ (lit " class=\"field\"" ++ lit ">") := by decide
    have e2 : lit ":</span> " = lit ":" ++ (lit "</span>" ++ lit " ") := by decide
    rw [e1, e2]; simp
  · rfl

theorem lineReads_value (x : DiffPrefix) {l : Str} (hl : Plain l) (v : Val) (h : blank v = false) :
    LineReads t alnum (lineIn x l (valueHtml t alnum v)) [⟨markOf x, l, v⟩] := by
  unfold lineIn
  rw [blank_isEmpty, h, if_neg (by simp), labelPart_eq]
  obtain ⟨c, hc, e⟩ := classOf_eq x
  have := LineReads.value (t := t) (alnum := alnum) (markOf x) l c _ v hl (ne_nil_of_blank h) hc (content_value t alnum v)
  have e1 : lit "<span class=\"" = lit "<span" ++ lit " class=\"" := by decide
  rw [e1] at this
  have e3 : lit "<span" ++ classOf x ++ lit ">" = lit "<span" ++ (lit " class=\"" ++ c ++ lit "\">") := by rw [List.append_assoc, e]
  rw [e3]
  simpa only [List.append_assoc] using this

theorem lineReads_changed {l : Str} (hl : Plain l) (a b : Val) (ha : blank a = false) (hb : blank b = false) :
    LineReads t alnum (lineDiffIn l (valueHtml t alnum a) (valueHtml t alnum b)) [⟨.del, l, a⟩, ⟨.add, l, b⟩] := by
  unfold lineDiffIn
  rw [labelPart_eq]
  have := LineReads.changed (t := t) (alnum := alnum) l _ _ a b hl (ne_nil_of_blank ha) (ne_nil_of_blank hb)
    (content_value t alnum a) (content_value t alnum b)
  have e5 : lit "<span class=\"field\"><span class=\"del\">" = lit "<span" ++
    (lit " class=\"field\"" ++ (lit ">" ++ (lit "<span" ++ (lit " class=\"del\"" ++ lit ">")))) := by
    decide
  have e6 : lit "</span><br>\n<span class=\"add\">" = lit "</span>" ++ (lit "<br>\n" ++
    (lit "<span" ++ (lit " class=\"add\"" ++ lit ">"))) := by decide
  have e7 : lit "</span></span>" = lit "</span>" ++ lit "</span>" := by decide
  rw [e5, e6, e7] at this
  simpa only [List.append_assoc] using this

/-- Lines inside an open item, items otherwise. -/
def ReadsAs (t : EntityTable) (alnum : Nat → Bool) (started : Bool) (out : Str) (gs : List (List Shown)) : Prop :=
  if started then HeadReads t alnum out gs.flatten else Reads t alnum out (leaves gs)

theorem ReadsAs.nil {b : Bool} : ReadsAs t alnum b [] [] := by
  cases b
  · exact Reads.nil
  · exact HeadReads.nil

theorem ReadsAs.append {b : Bool} {x y : Str} {gs hs : List (List Shown)} (hx : ReadsAs t alnum b x gs) (hy : ReadsAs t alnum b y hs) :
    ReadsAs t alnum b (x ++ y) (gs ++ hs) := by
  cases b
  · have := Reads.append hx hy
    rw [← show leaves (gs ++ hs) = leaves gs ++ leaves hs from List.map_append ..] at this
    exact this
  · have := HeadReads.append hx hy
    rw [← List.flatten_append] at this
    exact this

/-- A line, in an item or on its own. -/
theorem line_reads {l buf : Str} (s : Html) (g : List Shown) (h : LineReads t alnum (lineIn s.pfx l buf) g) :
    ∃ o, s.line l buf = s.put o ∧ ReadsAs t alnum s.lineStarted o [g] := by
  rw [line_eq]
  cases hs : s.lineStarted
  · refine ⟨_, if_neg (by simp), ?_⟩
    exact Reads.leaf (by decide) (.line h)
  · refine ⟨_, if_pos rfl, ?_⟩
    show HeadReads t alnum _ ([g] : List (List Shown)).flatten
    rw [List.flatten_cons, List.flatten_nil, List.append_nil]
    exact .line h

theorem lineDiff_reads {l : Str} (hl : Plain l) (s : Html) (a b : Val) (ha : blank a = false) (hb : blank b = false) :
    ∃ o, s.lineDiff l (valueHtml t alnum a) (valueHtml t alnum b) = s.put o ∧
      ReadsAs t alnum s.lineStarted o [[⟨.del, l, a⟩, ⟨.add, l, b⟩]] := by
  rw [lineDiff_eq]
  cases hs : s.lineStarted
  · refine ⟨_, if_neg (by simp), ?_⟩
    exact Reads.leaf (by decide) (.line (lineReads_changed hl a b ha hb))
  · exact ⟨_, if_pos rfl, .line (lineReads_changed hl a b ha hb)⟩

theorem flatP_reads (http : Bool) (p : P) (hp : FlatP p) (s : Html) :
    ∃ out, p.run (htmlPrinter t alnum) http s = s.put out ∧ ReadsAs t alnum s.lineStarted out (headsP (markOf s.pfx) p) := by
  induction p generalizing s with
  | skip => exact ⟨[], by simp [P.run], .nil⟩
  | seq p q ihp ihq =>
    obtain ⟨a, ha, ha'⟩ := ihp hp.1 s
    obtain ⟨b, hb, hb'⟩ := ihq hp.2 (s.put a)
    exact ⟨a ++ b, by rw [P.run, ha, hb, put_put], ha'.append hb'⟩
  | lineBreak => exact ⟨[], by simp [P.run], .nil⟩
  | label l => exact line_reads s _ (lineReads_label _ hp)
  | line l v =>
    rw [P.run]
    simp only [headsP, blank_isEmpty]
    cases h : blank v
    · simp only [Bool.not_false, if_true]; exact line_reads s _ (lineReads_value _ hp v h)
    · exact ⟨[], by simp, .nil⟩
  | _ => exact hp.elim

theorem reads_nil {out : Str} {ns : List Node} (h : Reads t alnum out ns) : out = [] ↔ ns = [] := by
  induction h with
  | nil => simp
  | leaf _ _ => simp only [List.append_eq_nil_iff, reduceCtorEq, iff_false]; intro h; exact absurd h.2 (by decide)
  | branch _ _ _ _ => simp only [List.append_eq_nil_iff, reduceCtorEq, iff_false]; intro h; exact absurd h.2 (by decide)
  | append _ _ ih1 ih2 => simp [ih1, ih2]

theorem reads_isEmpty {out : Str} {ns : List Node} (h : Reads t alnum out ns) : out.isEmpty = ns.isEmpty := by
  have := reads_nil h
  cases out <;> cases ns <;> simp at this <;> rfl

theorem reads_branch (collapsed : Bool) {attrs h l : Str} {ls : List Shown} {kids : List Node} (ha : AttrText attrs)
    (hh : HeadReads t alnum h ls) (hl : Reads t alnum l kids) :
    Reads t alnum (lit "<li" ++ attrs ++ lit ">" ++ (h ++ ((if collapsed then
      lit "<ul style=\"display:none\">\n" else lit "<ul>\n") ++ (l ++ lit "</ul></li>\n")))) [.item ls (some kids)] := by
  have := Reads.branch (uattrs := if collapsed then lit " style=\"display:none\"" else []) ha hh (by split <;> decide) hl
  have e : (if collapsed then lit "<ul style=\"display:none\">\n" else lit "<ul>\n") =
      lit "<ul" ++ (if collapsed then lit " style=\"display:none\"" else []) ++ lit ">\n" := by
    cases collapsed <;> decide
  rw [e]
  simpa only [List.append_assoc] using this

theorem indentHeader_reads {β : Type} (c : Bool) (body : Str) (header : Html → Html × β) (s : Html)
    (hs : s.lineStarted = false) (out : Str) (x : DiffPrefix) (b : β) {ls : List Shown} {kids : List Node}
    (hh : header (opened (lit "<li class=\"treebranch\">") s) =
      ({ (opened (lit "<li class=\"treebranch\">") s).put out with pfx := x }, b))
    (hout : HeadReads t alnum out ls) (hbody : Reads t alnum body kids) :
    ∃ o, (htmlPrinter t alnum).indentHeader c body header s = ({ s.put o with pfx := x }, b) ∧
      Reads t alnum o [.item ls (some kids)] := by
  refine ⟨_, ?_, reads_branch c (attrs := lit " class=\"treebranch\"") (by decide) hout hbody⟩
  rw [indentHeader_def _ _ _ _ hs, hh, treebranch]
  cases s
  subst hs
  simp [opened, Html.put, List.append_assoc]

theorem printIndent_reads (opt c : Bool) (header body : Html → Html) (s : Html) (gs : List (List Shown)) (kids : List Node)
    (hs : s.lineStarted = false)
    (hbody : ∀ u : Html, u.lineStarted = false → u.http = s.http → u.pfx = s.pfx → u.inlineDepth = s.inlineDepth →
      ∃ o, body u = u.put o ∧ Reads t alnum o kids)
    (hhead : ∀ u : Html, u.pfx = s.pfx → ∃ o, header u = u.put o ∧ ReadsAs t alnum u.lineStarted o gs) :
    ∃ o, printIndent (htmlPrinter t alnum) opt c header body s = s.put o ∧
      Reads t alnum o (if kids.isEmpty then (if opt then [] else leaves gs) else [.item gs.flatten (some kids)]) := by
  unfold printIndent
  obtain ⟨bo, hb1, hb2⟩ := hbody { s with w := [], indent := s.indent + 1, lineStarted := false } rfl rfl rfl rfl
  have hbuf : ((htmlPrinter t alnum).indentBody (fun s => (body s, ())) s) = (bo, ()) := by
    show ((body { s with w := [], indent := s.indent + 1, lineStarted := false }).w, ()) = _
    rw [hb1]; rfl
  rw [hbuf]
  show ∃ o, (if (!bo.isEmpty) = true then _ else _) = _ ∧ _
  rw [← reads_isEmpty hb2]
  cases he : bo.isEmpty with
  | false =>
    rw [if_pos (by simp), if_neg (by simp)]
    obtain ⟨ho, hh1, hh2⟩ := hhead (opened (lit "<li class=\"treebranch\">") s) rfl
    obtain ⟨o, h1, h2⟩ := indentHeader_reads (t := t) (alnum := alnum) c bo
      (fun s => (header s, ())) s hs ho s.pfx () (by rw [hh1]; rfl) hh2 hb2
    exact ⟨o, congrArg Prod.fst h1, h2⟩
  | true =>
    cases opt with
    | false =>
      obtain ⟨o, h1, h2⟩ := hhead s rfl
      rw [hs] at h2
      exact ⟨o, by simp [h1], h2⟩
    | true => exact ⟨[], by simp, .nil⟩

theorem detail_reads (i l : Str) (hi : Plain i) (hl : Plain l) (s : Html) (hs : s.lineStarted = false) (hh : s.http = true) :
    ∃ out, (htmlPrinter t alnum).indentDetail i l s = s.put out ∧ Reads t alnum out (leaves [[⟨.same, l, .nil⟩]]) := by
  have e : lit "<li class=\"detail\" data-detail=\"" ++ i ++ lit "\">" =
      lit "<li" ++ (lit " class=\"detail\" data-detail=\"" ++ i ++ lit "\"") ++ lit ">" := by
    have e1 : lit "<li class=\"detail\" data-detail=\"" =
      lit "<li" ++ lit " class=\"detail\" data-detail=\"" := by decide
    have e2 : lit "\">" = lit "\"" ++ lit ">" := by decide
    rw [e1, e2]; simp only [List.append_assoc]
  refine ⟨_, ?_, Reads.leaf (attrs := lit " class=\"detail\" data-detail=\"" ++ i ++ lit "\"")
    (((by decide : AttrText (lit " class=\"detail\" data-detail=\"")).append (plain_attr hi)).append (by decide))
    (.line (lineReads_label s.pfx hl))⟩
  rw [← e]
  simp only [hs, hh, Bool.not_false, assert_true]
  rw [line_eq, if_pos rfl]
  cases s
  simp only at hs
  subst hs
  simp [Html.put, List.append_assoc]

theorem treeP_reads (http : Bool) (p : P) (hp : TreeP p) (s : Html) (hs : s.lineStarted = false)
    (hh : s.http = http) :
    ∃ out, p.run (htmlPrinter t alnum) http s = s.put out ∧ Reads t alnum out (pageP http (markOf s.pfx) p s.inlineDepth) := by
  induction p generalizing s with
  | skip => exact ⟨[], by simp [P.run], .nil⟩
  | seq p q ihp ihq =>
    obtain ⟨a, ha, ha'⟩ := ihp hp.1 s hs hh
    obtain ⟨b, hb, hb'⟩ := ihq hp.2 (s.put a) hs hh
    exact ⟨a ++ b, by rw [P.run, ha, hb, put_put], .append ha' hb'⟩
  | lineBreak => exact ⟨[], by simp [P.run], .nil⟩
  | label l =>
    obtain ⟨o, h1, h2⟩ := line_reads (t := t) (alnum := alnum) s _ (lineReads_label _ hp)
    rw [hs] at h2
    exact ⟨o, h1, h2⟩
  | line l v =>
    rw [P.run]
    simp only [pageP, blank_isEmpty]
    cases h : blank v
    · simp only [Bool.not_false, if_true]
      obtain ⟨o, h1, h2⟩ := line_reads (t := t) (alnum := alnum) s _ (lineReads_value _ hp v h)
      rw [hs] at h2
      exact ⟨o, h1, h2⟩
    · exact ⟨[], by simp, .nil⟩
  | instruction a m v => exact hp.elim
  | indent c h b ihh ihb =>
    rw [P.run]
    obtain ⟨o, h1, h2⟩ := printIndent_reads (t := t) (alnum := alnum) false c (h.run (htmlPrinter t alnum) http)
      (b.run (htmlPrinter t alnum) http) s (headsP (markOf s.pfx) h) (pageP http (markOf s.pfx) b s.inlineDepth) hs
      (fun u h1 h2 h3 h4 => by rw [← h3, ← h4]; exact ihb hp.2 u h1 (h2.trans hh))
      (fun u h1 => by rw [← h1]; exact flatP_reads http h hp.1 u)
    exact ⟨o, h1, h2⟩
  | field c l b ihb =>
    rw [P.run]
    obtain ⟨o, h1, h2⟩ := printIndent_reads (t := t) (alnum := alnum) true c (fun s => s.line l [])
      (b.run (htmlPrinter t alnum) http) s [[⟨.same, l, .nil⟩]] (pageP http (markOf s.pfx) b s.inlineDepth) hs
      (fun u h1 h2 h3 h4 => by rw [← h3, ← h4]; exact ihb hp.2 u h1 (h2.trans hh))
      (fun u h1 => line_reads u _ (lineReads_label _ hp.1))
    exact ⟨o, h1, h2⟩
  | fieldDetail i l b ihb =>
    rw [P.run]
    cases http with
    | false =>
      simp only [Bool.false_eq_true, if_false]
      obtain ⟨o, h1, h2⟩ := printIndent_reads (t := t) (alnum := alnum) true true (fun s => s.line l [])
        (b.run (htmlPrinter t alnum) false) s [[⟨.same, l, .nil⟩]] (pageP false (markOf s.pfx) b s.inlineDepth) hs
        (fun u h1 h2 h3 h4 => by rw [← h3, ← h4]; exact ihb hp.2.2 u h1 (h2.trans hh))
        (fun u h1 => line_reads u _ (lineReads_label _ hp.2.1))
      exact ⟨o, h1, h2⟩
    | true => exact detail_reads i l hp.1 hp.2.1 s hs hh
  | id n h b ihh ihb =>
    rw [P.run, indentId_def _ _ _ _ hs]
    let x := lit "<li class=\"treebranch" ++ (if s.http then lit " lazy" else []) ++
      lit "\" id=\"" ++ dec n ++ lit "\">"
    obtain ⟨ho, hh1, hh2⟩ := flatP_reads (t := t) (alnum := alnum) http h hp.1 (opened x s)
    show ∃ out, Html.put (lit "</ul></li>\n")
      (let u : Html := { (P.run (htmlPrinter t alnum) http h (opened x s)) with
        w := (P.run (htmlPrinter t alnum) http h (opened x s)).w ++
          lit "<ul style=\"display:none\">\n", lineStarted := false }
       if (!u.http) = true then P.run (htmlPrinter t alnum) http b u else u) = _ ∧ _
    rw [hh1]
    have hu : ({ (opened x s).put ho with
        w := ((opened x s).put ho).w ++ lit "<ul style=\"display:none\">\n",
        lineStarted := false } : Html) =
        s.put (x ++ (ho ++ lit "<ul style=\"display:none\">\n")) := by
      cases s; subst hs; simp [opened, Html.put]
    rw [hu]
    have hx : x = _ := treebranch_id s.http n
    have hh2' : HeadReads t alnum ho (headsP (markOf s.pfx) h).flatten := hh2
    simp only [pageP]
    cases hht : s.http with
    | true =>
      have hh' : http = true := hh.symm.trans hht
      simp only [hh', if_true]
      refine ⟨_, ?_, reads_branch true (attr_id s.http n) hh2' .nil⟩
      rw [← hx]
      simp [hht]
    | false =>
      obtain ⟨bo, hb1, hb2⟩ := ihb hp.2 (s.put (x ++ (ho ++ lit "<ul style=\"display:none\">\n")))
        hs hh
      have hh' : http = false := hh.symm.trans hht
      rw [hh'] at hb1 hb2
      simp only [hh', Bool.false_eq_true, if_false]
      refine ⟨_, ?_, reads_branch true (attr_id s.http n) hh2' hb2⟩
      rw [← hx]
      simp [hht, hb1]
  | inline p ih =>
    rw [P.run]
    simp only [pageP]
    by_cases h : s.inlineDepth = 0
    · exact ⟨[], by simp [h], by simp only [h, if_true]; exact .nil⟩
    · simp only [h, if_false]
      obtain ⟨o, h1, h2⟩ := ih hp { s with inlineDepth := s.inlineDepth - 1 } hs hh
      refine ⟨o, ?_, h2⟩
      rw [h1]
      cases s
      simp [Html.put] at *
      omega

/-! ### Diffs -/

/-- Two values are written in the same way. -/
def sameHtml (t : EntityTable) (alnum : Nat → Bool) (a b : Val) : Bool := decide (valueHtml t alnum a = valueHtml t alnum b)

theorem diffLabel_reads {l : Str} (hl : Plain l) (s : Html) (f : Bool) :
    ∃ o x f', diffLabel (htmlPrinter t alnum) l s f = (withPfx x (s.put o), f') ∧
      ReadsAs t alnum s.lineStarted o [[⟨.same, l, .nil⟩]] := by
  unfold diffLabel
  by_cases h : s.pfx = .modify
  · obtain ⟨o, h1, h2⟩ := line_reads (t := t) (alnum := alnum) s _ (lineReads_label _ hl)
    refine ⟨o, s.pfx, f, ?_, h2⟩
    show ((if s.pfx ≠ .modify then _ else s : Html).line l [], f) = _
    rw [if_neg (by simpa using h), h1]; rfl
  · obtain ⟨o, h1, h2⟩ := line_reads (t := t) (alnum := alnum) (withPfx .equal s) _ (lineReads_label _ hl)
    refine ⟨o, .equal, f, ?_, h2⟩
    show ((if s.pfx ≠ .modify then (withPfx .equal s) else s : Html).line l [], f) = _
    rw [if_pos (by simpa using h), h1]; rfl

theorem diffLine_reads {l : Str} (hl : Plain l) (va vb : Val) (s : Html) (f : Bool) :
    ∃ o x f', diffLine (htmlPrinter t alnum) l va vb s f = (withPfx x (s.put o), f') ∧
      ReadsAs t alnum s.lineStarted o (lineGroup (sameHtml t alnum) l va vb) := by
  have e : diffLine (htmlPrinter t alnum) l va vb s f =
      if valueHtml t alnum va = valueHtml t alnum vb then
        if (!(valueHtml t alnum va).isEmpty) = true then
          ((if s.pfx ≠ .modify then withPfx .equal s else s).line l (valueHtml t alnum va), f)
        else (s, f)
      else if (valueHtml t alnum va).isEmpty then
        ((withPfx .add s).line l (valueHtml t alnum vb), true)
      else if (valueHtml t alnum vb).isEmpty then
        ((withPfx .delete s).line l (valueHtml t alnum va), true)
      else (s.lineDiff l (valueHtml t alnum va) (valueHtml t alnum vb), true) := rfl
  rw [e]
  unfold lineGroup sameHtml
  by_cases hab : valueHtml t alnum va = valueHtml t alnum vb
  · rw [if_pos hab, decide_eq_true hab, if_pos (c := true = true) rfl, blank_isEmpty]
    cases hb : blank va
    · rw [if_pos (c := (!false) = true) rfl, if_neg (c := false = true) (by simp)]
      by_cases hx : s.pfx = .modify
      · obtain ⟨o, h1, h2⟩ := line_reads (t := t) (alnum := alnum) s _ (lineReads_value _ hl va hb)
        rw [hx] at h2
        refine ⟨o, s.pfx, f, by rw [if_neg (by simpa using hx), h1]; rfl, h2⟩
      · obtain ⟨o, h1, h2⟩ := line_reads (t := t) (alnum := alnum) (withPfx .equal s) _ (lineReads_value _ hl va hb)
        exact ⟨o, .equal, f, by rw [if_pos (by simpa using hx), h1]; rfl, h2⟩
    · exact ⟨[], s.pfx, f, by rw [put_nil]; rfl, .nil⟩
  · rw [if_neg hab, decide_eq_false hab, if_neg (c := false = true) (by simp), blank_isEmpty, blank_isEmpty]
    cases ha : blank va
    · cases hb : blank vb
      · simp only [Bool.false_eq_true, if_false]
        obtain ⟨o, h1, h2⟩ := lineDiff_reads (t := t) (alnum := alnum) hl s va vb ha hb
        exact ⟨o, s.pfx, true, by rw [h1]; rfl, h2⟩
      · simp only [Bool.false_eq_true, if_false, if_true]
        obtain ⟨o, h1, h2⟩ := line_reads (t := t) (alnum := alnum) (withPfx .delete s) _ (lineReads_value _ hl va ha)
        exact ⟨o, .delete, true, by rw [h1]; rfl, h2⟩
    · simp only [if_true]
      have hb : blank vb = false := by
        cases hb : blank vb
        · rfl
        · exact absurd (((blank_iff t alnum va).2 ha).trans ((blank_iff t alnum vb).2 hb).symm) hab
      obtain ⟨o, h1, h2⟩ := line_reads (t := t) (alnum := alnum) (withPfx .add s) _ (lineReads_value _ hl vb hb)
      exact ⟨o, .add, true, by rw [h1]; rfl, h2⟩

theorem flatD_reads (o : Opts) (ho : o.html = true) (e : D) (he : FlatD e) (s : Html) (f : Bool) :
    ∃ out x f', e.run (htmlPrinter t alnum) o s f = (withPfx x (s.put out), f') ∧
      ReadsAs t alnum s.lineStarted out (headsD (sameHtml t alnum) e) := by
  induction e generalizing s f with
  | skip => exact ⟨[], s.pfx, f, by rw [D.run, put_nil]; rfl, .nil⟩
  | seq p q ihp ihq =>
    obtain ⟨a, x, f1, h1, g1⟩ := ihp he.1 s f
    obtain ⟨b, y, f2, h2, g2⟩ := ihq he.2 (withPfx x (s.put a)) f1
    refine ⟨a ++ b, y, f2, ?_, g1.append g2⟩
    rw [D.run, h1]
    show D.run (htmlPrinter t alnum) _ q (withPfx x (s.put a)) f1 = _
    rw [h2, ← put_put]; rfl
  | lineBreak => exact ⟨[], s.pfx, f, by rw [D.run, put_nil]; rfl, .nil⟩
  | label l => rw [D.run]; exact diffLabel_reads he s f
  | line l a b => rw [D.run]; exact diffLine_reads he a b s f
  | printIfDiff p ih =>
    obtain ⟨a, x, f1, h1, g1⟩ := ih he { s with w := [] } false
    have e : (D.printIfDiff p).run (htmlPrinter t alnum) o s f =
        (if ((D.run (htmlPrinter t alnum) o p ({ s with w := [] } : Html) false).2 || o.html) = true
          then s.put (D.run (htmlPrinter t alnum) o p ({ s with w := [] } : Html) false).1.w else s,
          f || (D.run (htmlPrinter t alnum) o p ({ s with w := [] } : Html) false).2) := rfl
    rw [e, h1]
    have ew : (withPfx x (Html.put a { s with w := [] })).w = a := by simp [withPfx, Html.put]
    rw [ew]
    dsimp only
    rw [if_pos (by simp [ho])]
    exact ⟨a, s.pfx, _, rfl, g1⟩
  | ignoreDiff flag p ih =>
    obtain ⟨a, x, f1, h1, g1⟩ := ih he s f
    refine ⟨a, x, if flag then f else f1, ?_, g1⟩
    rw [D.run, h1]
  | _ => exact he.elim

theorem diffIndent_reads (opt c : Bool) (header body : Html → Bool → Html × Bool) (s : Html)
    (f : Bool) (gs : List (List Shown)) (kids : List Node) (hs : s.lineStarted = false)
    (hbody : ∀ (u : Html) (f : Bool), u.lineStarted = false → u.http = s.http → u.inlineDepth = s.inlineDepth →
      ∃ o x f', body u f = (withPfx x (u.put o), f') ∧ Reads t alnum o kids)
    (hhead : ∀ (u : Html) (f : Bool),
      ∃ o x f', header u f = (withPfx x (u.put o), f') ∧ ReadsAs t alnum u.lineStarted o gs) :
    ∃ o x f', diffIndent (htmlPrinter t alnum) opt c header body s f = (withPfx x (s.put o), f') ∧
      Reads t alnum o (if kids.isEmpty then (if opt then [] else leaves gs) else [.item gs.flatten (some kids)]) := by
  obtain ⟨bo, bx, bf, hb1, hb2⟩ := hbody
    { s with w := [], indent := s.indent + 1, lineStarted := false, pfx := .equal } false rfl rfl rfl
  have e : diffIndent (htmlPrinter t alnum) opt c header body s f =
      let r := body { s with w := [], indent := s.indent + 1, lineStarted := false, pfx := .equal } false
      if (!r.1.w.isEmpty) = true then
        let q := (htmlPrinter t alnum).indentHeader c r.1.w
          (fun s => header (withPfx (if r.2 then .modify else .equal) s) false) s
        (q.1, f || (r.2 || q.2))
      else if (!opt) = true then header s f else (s, f) := rfl
  rw [e, hb1]
  have ew : (withPfx bx (Html.put bo { s with
      w := [], indent := s.indent + 1, lineStarted := false, pfx := .equal })).w = bo := by
    simp [withPfx, Html.put]
  dsimp only
  rw [ew, ← reads_isEmpty hb2]
  cases he : bo.isEmpty
  · rw [if_pos (c := (!false) = true) rfl, if_neg (c := false = true) (by simp)]
    obtain ⟨ho, hx, hf, hh1, hh2⟩ := hhead
      (withPfx (if bf then .modify else .equal) (opened (lit "<li class=\"treebranch\">") s)) false
    obtain ⟨q, h1, h2⟩ := indentHeader_reads (t := t) (alnum := alnum) c bo
      (fun s => header (withPfx (if bf then .modify else .equal) s) false) s hs ho hx hf
      (by rw [hh1]; rfl) hh2 hb2
    exact ⟨q, hx, f || (bf || hf),
      congrArg (fun q : Html × Bool => (q.1, f || (bf || q.2))) h1, h2⟩
  · rw [if_neg (c := (!true) = true) (by simp), if_pos (c := true = true) rfl]
    cases opt
    · obtain ⟨ho, hx, hf, hh1, hh2⟩ := hhead s f
      rw [hs] at hh2
      exact ⟨ho, hx, hf, hh1, hh2⟩
    · exact ⟨[], s.pfx, f, by rw [put_nil]; rfl, .nil⟩

theorem treeD_reads (o : Opts) (ho : o.html = true) (e : D) (he : TreeD e) (s : Html) (f : Bool)
    (hs : s.lineStarted = false) (hh : s.http = o.http) :
    ∃ out x f', e.run (htmlPrinter t alnum) o s f = (withPfx x (s.put out), f') ∧
      Reads t alnum out (pageD (sameHtml t alnum) o.http e s.inlineDepth) := by
  induction e generalizing s f with
  | skip => exact ⟨[], s.pfx, f, by rw [D.run, put_nil]; rfl, .nil⟩
  | seq p q ihp ihq =>
    obtain ⟨a, x, f1, h1, g1⟩ := ihp he.1 s f hs hh
    obtain ⟨b, y, f2, h2, g2⟩ := ihq he.2 (withPfx x (s.put a)) f1 hs hh
    refine ⟨a ++ b, y, f2, ?_, .append g1 g2⟩
    rw [D.run, h1]
    show D.run (htmlPrinter t alnum) _ q (withPfx x (s.put a)) f1 = _
    rw [h2, ← put_put]; rfl
  | lineBreak => exact ⟨[], s.pfx, f, by rw [D.run, put_nil]; rfl, .nil⟩
  | label l =>
    rw [D.run]
    have := diffLabel_reads (t := t) (alnum := alnum) he s f
    rw [hs] at this; exact this
  | line l a b =>
    rw [D.run]
    have := diffLine_reads (t := t) (alnum := alnum) he a b s f
    rw [hs] at this; exact this
  | indent c h b ihh ihb =>
    rw [D.run]
    exact diffIndent_reads false c _ _ s f _ _ hs
      (fun u f h1 h2 h3 => by rw [← h3]; exact ihb he.2 u f h1 (h2.trans hh)) (fun u f => flatD_reads o ho h he.1 u f)
  | field c l b ihb =>
    rw [D.run]
    exact diffIndent_reads true c _ _ s f _ _ hs
      (fun u f h1 h2 h3 => by rw [← h3]; exact ihb he.2 u f h1 (h2.trans hh)) (fun u f => diffLabel_reads he.1 u f)
  | id n h b ihh ihb =>
    obtain ⟨bo, bx, bf, hb1, hb2⟩ := ihb he.2
      { s with w := [], indent := s.indent + 1, lineStarted := false, pfx := .equal } false rfl hh
    have e : (D.id n h b).run (htmlPrinter t alnum) o s f =
        let r := b.run (htmlPrinter t alnum) o ({ s with
          w := [], indent := s.indent + 1, lineStarted := false, pfx := .equal } : Html) false
        let q := (htmlPrinter t alnum).indentId n
            (fun s => h.run (htmlPrinter t alnum) o
              (withPfx (if r.2 then .modify else .equal) s) false) (fun s => s.put r.1.w) s
        (q.1, f || (r.2 || q.2)) := rfl
    rw [e, hb1]
    have ew : (withPfx bx (Html.put bo { s with
      w := [], indent := s.indent + 1, lineStarted := false, pfx := .equal })).w = bo := by
      simp [withPfx, Html.put]
    dsimp only
    rw [ew]
    let x := lit "<li class=\"treebranch" ++ (if s.http then lit " lazy" else []) ++
      lit "\" id=\"" ++ dec n ++ lit "\">"
    obtain ⟨hout, hx, hf, hh1, hh2⟩ := flatD_reads (t := t) (alnum := alnum) o ho h he.1
      (withPfx (if bf then .modify else .equal) (opened x s)) false
    have ed := indentId_def (t := t) (alnum := alnum) n
      (fun s => h.run (htmlPrinter t alnum) o
              (withPfx (if bf then .modify else .equal) s) false) (fun s => s.put bo) s hs
    dsimp only at ed
    rw [show lit "<li class=\"treebranch" ++ (if s.http = true then lit " lazy" else []) ++
      lit "\" id=\"" ++ dec n ++ lit "\">" = x from rfl, hh1] at ed
    have hh2' : HeadReads t alnum hout _ := hh2
    have hxx : x = _ := treebranch_id s.http n
    refine ⟨x ++ (hout ++ (lit "<ul style=\"display:none\">\n" ++
      ((if s.http then [] else bo) ++ lit "</ul></li>\n"))), hx, f || (bf || hf), ?_, ?_⟩
    · refine (congrArg (fun q : Html × Bool => (q.1, f || (bf || q.2))) ed).trans ?_
      cases s
      simp only at hs
      subst hs
      simp only [withPfx, Html.put, opened]
      rename_i w ind px idp htt
      cases htt <;> simp
    · rw [hxx]
      refine reads_branch true (attr_id s.http n) hh2' ?_
      rw [← hh]
      split
      · exact .nil
      · rw [hh]; exact hb2
  | inline p ih =>
    rw [D.run]
    simp only [pageD]
    by_cases h : s.inlineDepth = 0
    · exact ⟨[], s.pfx, f, by simp only [h, if_true]; rw [put_nil]; rfl, by rw [if_pos h]; exact .nil⟩
    · simp only [h, if_false]
      obtain ⟨a, x, f1, h1, h2⟩ := ih he { s with inlineDepth := s.inlineDepth - 1 } f hs hh
      refine ⟨a, x, f1, ?_, h2⟩
      rw [h1]
      cases s
      simp [Html.put, withPfx] at *
      omega
  | prefixDelete p =>
    obtain ⟨a, h1, h2⟩ := treeP_reads (t := t) (alnum := alnum) o.http p he (withPfx .delete s) hs hh
    exact ⟨a, .delete, true, by
      rw [D.run]
      show (P.run (htmlPrinter t alnum) o.http p (withPfx .delete s), true) = _
      rw [h1]; rfl, h2⟩
  | prefixAdd p =>
    obtain ⟨a, h1, h2⟩ := treeP_reads (t := t) (alnum := alnum) o.http p he (withPfx .add s) hs hh
    exact ⟨a, .add, true, by
      rw [D.run]
      show (P.run (htmlPrinter t alnum) o.http p (withPfx .add s), true) = _
      rw [h1]; rfl, h2⟩
  | block a b =>
    obtain ⟨x, h1, g1⟩ := treeP_reads (t := t) (alnum := alnum) o.http a he.1
      (withPfx .delete { s with w := [] }) hs hh
    obtain ⟨y, h2, g2⟩ := treeP_reads (t := t) (alnum := alnum) o.http b he.2
      (withPfx .add ((withPfx .delete { s with w := [] }).put x)) hs hh
    have e : (D.block a b).run (htmlPrinter t alnum) o s f =
      let buf := (P.run (htmlPrinter t alnum) o.http b (withPfx .add
        (P.run (htmlPrinter t alnum) o.http a (withPfx .delete { s with w := [] })))).w
      if (!buf.isEmpty) = true then (s.put buf, true) else (s, f) := rfl
    rw [e, h1, h2]
    have ew : (Html.put y (withPfx .add (Html.put x (withPfx .delete { s with w := [] })))).w =
      x ++ y := by simp [withPfx, Html.put]
    rw [ew]
    dsimp only
    have g := Reads.append g1 g2
    split
    · exact ⟨x ++ y, s.pfx, true, rfl, g⟩
    · next hn =>
      have : x ++ y = [] := by simpa using hn
      rw [this] at g
      exact ⟨[], s.pfx, f, by rw [put_nil]; rfl, g⟩
  | printIfDiff p ih =>
    obtain ⟨a, x, f1, h1, g1⟩ := ih he { s with w := [] } false hs hh
    have e : (D.printIfDiff p).run (htmlPrinter t alnum) o s f =
        (if ((D.run (htmlPrinter t alnum) o p ({ s with w := [] } : Html) false).2 || o.html) = true
          then s.put (D.run (htmlPrinter t alnum) o p ({ s with w := [] } : Html) false).1.w else s,
          f || (D.run (htmlPrinter t alnum) o p ({ s with w := [] } : Html) false).2) := rfl
    rw [e, h1]
    have ew : (withPfx x (Html.put a { s with w := [] })).w = a := by simp [withPfx, Html.put]
    rw [ew]
    dsimp only
    rw [if_pos (by simp [ho])]
    exact ⟨a, s.pfx, _, rfl, g1⟩
  | ignoreDiff flag p ih =>
    obtain ⟨a, x, f1, h1, g1⟩ := ih he s f hs hh
    refine ⟨a, x, if flag then f else f1, ?_, g1⟩
    rw [D.run, h1]

end Verif.Html
