import Verif.Html.Spec
import Verif.Print.Lemmas3
namespace Verif.Html
open Verif.Print

/-! ## Escaping -/

theorem escape_append (t : EntityTable) (a b : Str) :
    escape t (a ++ b) = escape t a ++ escape t b := by
  induction a with
  | nil => rfl
  | cons c s ih => simp [escape, ih]

theorem special_iff (c : Nat) : special c = true ↔ c ∈ [34, 38, 39, 60, 62] := by
  simp [special]

theorem decodes_escape (t : EntityTable) (s : Str) : Decodes t (escape t s) s := by
  induction s with
  | nil => exact .nil
  | cons c s ih =>
    cases h : special c with
    | true =>
      have : escape t (c :: s) = 38 :: (t.name c ++ 59 :: escape t s) := by simp [escape, h]
      rw [this]; exact .entity c _ _ h ih
    | false =>
      have : escape t (c :: s) = c :: escape t s := by simp [escape, h]
      rw [this]; exact .plain c _ _ h ih

theorem name_split (t : EntityTable) {c c' : Nat} (hc : special c = true) (hc' : special c' = true)
    {h h' : Str} (e : t.name c ++ 59 :: h = t.name c' ++ 59 :: h') : c = c' ∧ h = h' := by
  have hn : 59 ∉ t.name c := fun hm => (t.plain c ((special_iff c).1 hc) 59 hm).2 rfl
  have hn' : 59 ∉ t.name c' := fun hm => (t.plain c' ((special_iff c').1 hc') 59 hm).2 rfl
  have key : ∀ (a b : Str) (h h' : Str), 59 ∉ a → 59 ∉ b → a ++ 59 :: h = b ++ 59 :: h' →
      a = b ∧ h = h' := by
    intro a
    induction a with
    | nil =>
      intro b h h' _ hb e
      cases b with
      | nil => simpa using e
      | cons y ys => simp at e; exact absurd (by simp [e.1]) hb
    | cons x xs ih =>
      intro b h h' ha hb e
      cases b with
      | nil => simp at e; exact absurd (by simp [e.1]) ha
      | cons y ys =>
        simp only [List.cons_append, List.cons.injEq] at e
        simp only [List.mem_cons, not_or] at ha hb
        have := ih ys h h' ha.2 hb.2 e.2
        exact ⟨by rw [e.1, this.1], this.2⟩
  obtain ⟨h1, h2⟩ := key _ _ _ _ hn hn' e
  exact ⟨t.inj c ((special_iff c).1 hc) c' ((special_iff c').1 hc') h1, h2⟩

theorem decodes_unique (t : EntityTable) {h s s' : Str} (h1 : Decodes t h s)
    (h2 : Decodes t h s') : s = s' := by
  induction h1 generalizing s' with
  | nil => cases h2; rfl
  | plain c h s hc hd ih =>
    cases h2 with
    | plain _ _ s2 _ hd' => rw [ih hd']
    | entity c' h' s2 hc' hd' => simp [special] at hc
  | entity c h s hc hd ih =>
    generalize hx : (38 :: (t.name c ++ 59 :: h) : Str) = x at h2
    cases h2 with
    | nil => cases hx
    | plain c' h' s2 hc' hd' =>
      simp only [List.cons.injEq] at hx
      rw [← hx.1] at hc'; simp [special] at hc'
    | entity c' h' s2 hc' hd' =>
      simp only [List.cons.injEq, true_and] at hx
      obtain ⟨rfl, rfl⟩ := name_split t hc hc' hx
      rw [ih hd']

theorem escape_inj (t : EntityTable) {a b : Str} (h : escape t a = escape t b) : a = b :=
  decodes_unique t (decodes_escape t a) (h ▸ decodes_escape t b)

/-- No quote, apostrophe or angle bracket survives escaping. -/
theorem escape_clean (t : EntityTable) (s : Str) :
    ∀ c ∈ escape t s, c ≠ 34 ∧ c ≠ 39 ∧ c ≠ 60 ∧ c ≠ 62 := by
  induction s with
  | nil => simp [escape]
  | cons c s ih =>
    intro b hb
    simp only [escape, List.mem_append] at hb
    rcases hb with hb | hb
    · cases h : special c with
      | true =>
        rw [h] at hb
        simp only [if_true, List.mem_append, List.mem_singleton] at hb
        rcases hb with (rfl | hb) | rfl
        · decide
        · have := (t.plain c ((special_iff c).1 h) b hb).1
          simp at this; omega
        · decide
      | false =>
        rw [h] at hb
        simp only [Bool.false_eq_true, if_false, List.mem_singleton] at hb
        subst hb
        simp [special] at h; omega
    · exact ih b hb

theorem escape_plain (t : EntityTable) {s : Str} (h : Plain s) : escape t s = s := by
  induction s with
  | nil => rfl
  | cons c s ih =>
    rw [escape, h c (by simp), ih (fun b hb => h b (by simp [hb]))]
    rfl

theorem decodes_plain (t : EntityTable) {s : Str} (h : Plain s) : Decodes t s s := by
  have := decodes_escape t s
  rwa [escape_plain t h] at this

/-! ## Inline content -/

theorem Inline.text {t : EntityTable} {s : Str} (h : Plain s) : Inline t s :=
  ⟨s, .text _ _ (decodes_plain t h)⟩

theorem Inline.append {t : EntityTable} {a b : Str} (ha : Inline t a) (hb : Inline t b) :
    Inline t (a ++ b) := by
  obtain ⟨x, hx⟩ := ha
  obtain ⟨y, hy⟩ := hb
  exact ⟨_, .append _ _ _ _ hx hy⟩

theorem Inline.span {t : EntityTable} {attrs a : Str} (h : AttrText attrs) (ha : Inline t a) :
    Inline t (lit "<span" ++ attrs ++ lit ">" ++ a ++ lit "</span>") := by
  obtain ⟨x, hx⟩ := ha
  exact ⟨_, .span _ _ _ h hx⟩

theorem Inline.nil {t : EntityTable} : Inline t [] := Inline.text (by simp [Plain])

theorem AttrText.append {a b : Str} (ha : AttrText a) (hb : AttrText b) : AttrText (a ++ b) := by
  intro c hc
  rcases List.mem_append.1 hc with h | h
  · exact ha c h
  · exact hb c h

theorem attr_escape (t : EntityTable) (s : Str) : AttrText (escape t s) :=
  fun c hc => ⟨(escape_clean t s c hc).2.2.1, (escape_clean t s c hc).2.2.2⟩

theorem dec_digit (n : Nat) : ∀ c ∈ dec n, 48 ≤ c ∧ c ≤ 57 := by
  intro c hc
  obtain ⟨x, hx, rfl⟩ := List.mem_map.1 hc
  have := Nat.isDigit_of_mem_toDigits (by decide) (by decide) hx
  simp only [Char.isDigit, Bool.and_eq_true, decide_eq_true_eq] at this
  exact ⟨UInt32.le_iff_toNat_le.1 this.1, UInt32.le_iff_toNat_le.1 this.2⟩

theorem attr_dec (n : Nat) : AttrText (dec n) := by
  intro c hc
  have := dec_digit n c hc
  omega

theorem plain_attr {s : Str} (h : Plain s) : AttrText s := by
  intro c hc
  have := h c hc
  simp [special] at this
  omega

theorem shows_value (t : EntityTable) (alnum : Nat → Bool) (v : Val) :
    Shows t (valueHtml t alnum v) (shownText alnum v) := by
  induction v with
  | nil => exact .text _ _ .nil
  | text s => exact .text _ _ (decodes_escape t s)
  | name s =>
    simp only [valueHtml, nameHtml, shownText]
    split
    · have := Shows.span (t := t) (lit " title=\"" ++ escape t s ++ lit "\"") _ _
        (((by decide : AttrText (lit " title=\"")).append (attr_escape t s)).append (by decide))
        (.text _ _ (decodes_escape t (abbreviate alnum s)))
      have e : lit "<span" ++ (lit " title=\"" ++ escape t s ++ lit "\"") ++ lit ">" ++
          escape t (abbreviate alnum s) ++ lit "</span>" =
          lit "<span title=\"" ++ escape t s ++ lit "\">" ++ escape t (abbreviate alnum s) ++
          lit "</span>" := by
        have e1 : lit "<span title=\"" = lit "<span" ++ lit " title=\"" := by decide
        have e2 : lit "\">" = lit "\"" ++ lit ">" := by decide
        rw [e1, e2]; simp only [List.append_assoc]
      rw [← e]; exact this
    · rename_i h
      rw [← Decidable.not_not.1 h]
      exact .text _ _ (decodes_escape t s)
  | link id v ih =>
    simp only [valueHtml, shownText]
    split
    · exact ih
    · have := Shows.anchor (t := t) (lit " class=\"link\" data-link=\"" ++ dec id ++
        lit "\" href=\"#" ++ dec id ++ lit "\"") _ _
        (((((by decide : AttrText (lit " class=\"link\" data-link=\"")).append
          (attr_dec id)).append (by decide)).append (attr_dec id)).append (by decide)) ih
      have e : lit "<a" ++ (lit " class=\"link\" data-link=\"" ++ dec id ++
          lit "\" href=\"#" ++ dec id ++ lit "\"") ++ lit ">" ++ valueHtml t alnum v ++ lit "</a>" =
          lit "<a class=\"link\" data-link=\"" ++ dec id ++ lit "\" href=\"#" ++ dec id ++
          lit "\">" ++ valueHtml t alnum v ++ lit "</a>" := by
        have e1 : lit "<a class=\"link\" data-link=\"" =
          lit "<a" ++ lit " class=\"link\" data-link=\"" := by decide
        have e2 : lit "\">" = lit "\"" ++ lit ">" := by decide
        rw [e1, e2]; simp only [List.append_assoc]
      rw [← e]; exact this
  | seq v w ihv ihw => exact .append _ _ _ _ ihv ihw

theorem inline_value (t : EntityTable) (alnum : Nat → Bool) (v : Val) :
    Inline t (valueHtml t alnum v) := ⟨_, shows_value t alnum v⟩

/-! ## Lines -/

@[simp] theorem put_put (a b : Str) (s : Html) : (s.put a).put b = s.put (a ++ b) := by
  simp [Html.put]
@[simp] theorem put_nil (s : Html) : s.put [] = s := by simp [Html.put]
@[simp] theorem put_lineStarted (a : Str) (s : Html) : (s.put a).lineStarted = s.lineStarted := rfl
@[simp] theorem put_pfx (a : Str) (s : Html) : (s.put a).pfx = s.pfx := rfl
@[simp] theorem put_http (a : Str) (s : Html) : (s.put a).http = s.http := rfl
@[simp] theorem put_w (a : Str) (s : Html) : (s.put a).w = s.w ++ a := rfl
@[simp] theorem assert_true (s : Html) : s.assert true = s := rfl

/-- The inline part of `line`. -/
def lineIn (x : DiffPrefix) (label buf : Str) : Str :=
  if buf.isEmpty then
    lit "<span" ++ (if x = .modify then lit " class=\"field mod\"" else []) ++
      lit ">" ++ (label ++ lit ":") ++ lit "</span>"
  else
    (if !label.isEmpty then lit "<span" ++ lit " class=\"field\"" ++ lit ">" ++ (label ++ lit ":")
      ++ lit "</span>" ++ lit " " else []) ++
    (lit "<span" ++ classOf x ++ lit ">" ++ buf ++ lit "</span>")

theorem Plain.append {a b : Str} (ha : Plain a) (hb : Plain b) : Plain (a ++ b) := by
  intro c hc
  rcases List.mem_append.1 hc with h | h
  · exact ha c h
  · exact hb c h

theorem attr_class (x : DiffPrefix) : AttrText (classOf x) := by cases x <;> decide

theorem inline_lineIn (t : EntityTable) (x : DiffPrefix) {label buf : Str} (hl : Plain label)
    (hb : Inline t buf) : Inline t (lineIn x label buf) := by
  have hlab : Inline t (label ++ lit ":") := Inline.text (hl.append (by decide))
  unfold lineIn
  split
  · refine Inline.span ?_ hlab
    split <;> decide
  · refine Inline.append ?_ (Inline.span (attr_class x) hb)
    split
    · exact Inline.append (Inline.span (by decide) hlab) (Inline.text (by decide))
    · exact Inline.nil

theorem line_eq (label buf : Str) (s : Html) : s.line label buf =
    if s.lineStarted then s.put (lineIn s.pfx label buf)
    else s.put (lit "<li" ++ [] ++ lit ">" ++ lineIn s.pfx label buf ++ lit "</li>\n") := by
  have e1 : lit "<li>" = lit "<li" ++ lit ">" := by decide
  have e2 : lit ":</span>" = lit ":" ++ lit "</span>" := by decide
  have e3 : lit ":</span> " = lit ":" ++ (lit "</span>" ++ lit " ") := by decide
  have e4 : lit "<span class=\"field\">" = lit "<span" ++ (lit " class=\"field\"" ++ lit ">") := by
    decide
  unfold Html.line lineIn
  rw [e1, e2, e3, e4]
  cases hs : s.lineStarted <;> cases hb : buf.isEmpty <;> cases hl : label.isEmpty <;>
    by_cases hx : s.pfx = .modify <;>
    simp [hs, hx, List.append_assoc]

/-- The inline part of `line_diff`. -/
def lineDiffIn (label a b : Str) : Str :=
  (if !label.isEmpty then lit "<span" ++ lit " class=\"field\"" ++ lit ">" ++ (label ++ lit ":")
      ++ lit "</span>" ++ lit " " else []) ++
  (lit "<span" ++ lit " class=\"field\"" ++ lit ">" ++
    ((lit "<span" ++ lit " class=\"del\"" ++ lit ">" ++ a ++ lit "</span>") ++ (lit "<br>\n" ++
      (lit "<span" ++ lit " class=\"add\"" ++ lit ">" ++ b ++ lit "</span>"))) ++ lit "</span>")

theorem inline_lineDiffIn (t : EntityTable) {label a b : Str} (hl : Plain label)
    (ha : Inline t a) (hb : Inline t b) : Inline t (lineDiffIn label a b) := by
  have hlab : Inline t (label ++ lit ":") := Inline.text (hl.append (by decide))
  unfold lineDiffIn
  refine Inline.append ?_ (Inline.span (by decide) (Inline.append (Inline.span (by decide) ha)
    (Inline.append ⟨_, .br⟩ (Inline.span (by decide) hb))))
  split
  · exact Inline.append (Inline.span (by decide) hlab) (Inline.text (by decide))
  · exact Inline.nil

theorem lineDiff_eq (label a b : Str) (s : Html) : s.lineDiff label a b =
    if s.lineStarted then s.put (lineDiffIn label a b)
    else s.put (lit "<li" ++ [] ++ lit ">" ++ lineDiffIn label a b ++ lit "</li>\n") := by
  have e1 : lit "<li>" = lit "<li" ++ lit ">" := by decide
  have e3 : lit ":</span> " = lit ":" ++ (lit "</span>" ++ lit " ") := by decide
  have e4 : lit "<span class=\"field\">" = lit "<span" ++ (lit " class=\"field\"" ++ lit ">") := by
    decide
  have e5 : lit "<span class=\"field\"><span class=\"del\">" = lit "<span" ++
    (lit " class=\"field\"" ++ (lit ">" ++ (lit "<span" ++ (lit " class=\"del\"" ++ lit ">")))) := by
    decide
  have e6 : lit "</span><br>\n<span class=\"add\">" = lit "</span>" ++ (lit "<br>\n" ++
    (lit "<span" ++ (lit " class=\"add\"" ++ lit ">"))) := by decide
  have e7 : lit "</span></span>" = lit "</span>" ++ lit "</span>" := by decide
  unfold Html.lineDiff lineDiffIn
  rw [e1, e3, e4, e5, e6, e7]
  cases hs : s.lineStarted <;> cases hl : label.isEmpty <;>
    simp [hs, List.append_assoc]

end Verif.Html
