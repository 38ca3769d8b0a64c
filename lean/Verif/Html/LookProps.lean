import Verif.Html.Look
import Verif.Html.ReadProps
/-!
# A page can be read in one way only
-/
namespace Verif.Html
open Verif.Print

variable {t : EntityTable} {alnum : Nat → Bool}

/-- Reading `h` brings a reader from `r` to `r'`, whatever comes after. -/
def Runs (t : EntityTable) (r : Reader) (h : Str) (r' : Reader) : Prop :=
  ∀ k, (toks none (h ++ k)).foldl (Reader.step t) r = (toks none k).foldl (Reader.step t) r'

theorem Runs.nil (r : Reader) : Runs t r [] r := fun _ => rfl

theorem Runs.append {r r' r'' : Reader} {h k : Str} (a : Runs t r h r') (b : Runs t r' k r'') : Runs t r (h ++ k) r'' := by
  intro x
  rw [List.append_assoc, a, b]

theorem runs_char (r : Reader) {c : Nat} (h : special c = false) : Runs t r [c] (r.char c) := by
  intro k
  simp [special] at h
  simp only [List.cons_append, List.nil_append, toks]
  rw [if_neg (by omega), if_neg (by omega)]
  rfl

theorem toks_tag (s : Str) (hs : ∀ c ∈ s, c ≠ 62) (a k : Str) :
    toks (some (true, a)) (s ++ 62 :: k) = .tag (a ++ s) :: toks none k := by
  induction s generalizing a with
  | nil => simp [toks]
  | cons c s ih =>
    have := hs c (by simp)
    simp only [List.cons_append, toks, this, if_false]
    rw [ih (fun c hc => hs c (List.mem_cons_of_mem _ hc))]
    simp

theorem toks_entity (s : Str) (hs : ∀ c ∈ s, c ≠ 59) (a k : Str) :
    toks (some (false, a)) (s ++ 59 :: k) = .entity (a ++ s) :: toks none k := by
  induction s generalizing a with
  | nil => simp [toks]
  | cons c s ih =>
    have := hs c (by simp)
    simp only [List.cons_append, toks, this, if_false]
    rw [ih (fun c hc => hs c (List.mem_cons_of_mem _ hc))]
    simp

theorem runs_tag (r : Reader) (s : Str) (hs : ∀ c ∈ s, c ≠ 62) : Runs t r (60 :: (s ++ [62])) (r.tag s) := by
  intro k
  have := toks_tag s hs [] k
  simp only [List.cons_append, List.append_assoc, List.nil_append, toks, if_true] at this ⊢
  rw [this]
  rfl

theorem named_name {c : Nat} (h : special c = true) : named t (t.name c) = c := by
  have hc := (special_iff c).1 h
  unfold named
  cases hf : [34, 38, 39, 60, 62].find? fun x => decide (t.name x = t.name c) with
  | none => rw [List.find?_eq_none] at hf; exact absurd (by simp) (hf c hc)
  | some x =>
    have h1 := List.mem_of_find?_eq_some hf
    have h2 := List.find?_some hf
    simp only [decide_eq_true_eq] at h2
    exact t.inj x h1 c hc h2

/-- A reader in a line. -/
def Reader.more (r : Reader) (s : Str) : Reader :=
  match r.line with
  | some (m, x) => { r with line := some (m, x ++ s) }
  | none => r

theorem more_nil {r : Reader} {m : Mark} {x : Str} (h : r.line = some (m, x)) : r.more [] = r := by
  cases r; simp only at h; subst h; simp [Reader.more]

theorem runs_decodes {h s : Str} (hd : Decodes t h s) (r : Reader) (hr : r.line.isSome = true) : Runs t r h (r.more s) := by
  induction hd generalizing r with
  | nil =>
    obtain ⟨⟨m, x⟩, hx⟩ := Option.isSome_iff_exists.1 hr
    rw [more_nil hx]; exact .nil r
  | plain c h s hc _ ih =>
    obtain ⟨⟨m, x⟩, hx⟩ := Option.isSome_iff_exists.1 hr
    have h1 := runs_char (t := t) r hc
    have h2 := ih (r.char c) (by simp [Reader.char, hx])
    have e : (r.char c).more s = r.more (c :: s) := by simp [Reader.char, Reader.more, hx]
    rw [← e]
    exact h1.append h2
  | entity c h s hc _ ih =>
    obtain ⟨⟨m, x⟩, hx⟩ := Option.isSome_iff_exists.1 hr
    have h2 := ih (r.char c) (by simp [Reader.char, hx])
    have e : (r.char c).more s = r.more (c :: s) := by simp [Reader.char, Reader.more, hx]
    rw [← e]
    have h1 : Runs t r (38 :: (t.name c ++ [59])) (r.char c) := by
      intro k
      have hn : ∀ b ∈ t.name c, b ≠ 59 := fun b hb => (t.plain c ((special_iff c).1 hc) b hb).2
      have := toks_entity (t.name c) hn [] k
      simp only [List.cons_append, List.append_assoc, List.nil_append, toks, if_true] at this ⊢
      rw [if_neg (by decide), this]
      simp only [List.foldl_cons, Reader.step, named_name hc]
    have := h1.append h2
    simpa using this

theorem runs_plain {s : Str} (hs : Plain s) (r : Reader) (hr : r.line.isSome = true) : Runs t r s (r.more s) := by
  refine runs_decodes ?_ r hr
  induction s with
  | nil => exact .nil
  | cons c s ih => exact .plain c _ _ (hs c (by simp)) (ih fun c hc => hs c (List.mem_cons_of_mem _ hc))

theorem more_more {r : Reader} (a b : Str) : (r.more a).more b = r.more (a ++ b) := by
  cases r with
  | mk spans line label seen =>
    cases line with
    | none => rfl
    | some p => obtain ⟨m, x⟩ := p; simp [Reader.more]

theorem more_isSome {r : Reader} (a : Str) : (r.more a).line.isSome = r.line.isSome := by
  cases r with
  | mk spans line label seen => cases line <;> rfl

theorem tag_title (r : Reader) (s : Str) : r.tag (lit "span title=" ++ s) = { r with spans := false :: r.spans } := by
  have h0 : lit "span title=" ++ s ≠ lit "/span" := by
    intro h; have := congrArg List.head? h; simp [lit, Str.ofString] at this
  have h1 : (lit "span title=" ++ s).take 11 = lit "span title=" := by simp [lit, Str.ofString]
  have key : ∀ x : Str, x.take 11 ≠ lit "span title=" → lit "span title=" ++ s ≠ x := by
    intro x hx h; exact hx (by rw [← h, h1])
  have h2 : tagMark (lit "span title=" ++ s) = none := by
    unfold tagMark
    rw [if_neg, if_neg, if_neg]
    · rintro (h | h) <;> exact key _ (by decide) h
    · rintro (h | h) <;> exact key _ (by decide) h
    · rintro (h | h | h) <;> exact key _ (by decide) h
  unfold Reader.tag
  rw [if_neg h0, h2]
  simp only [h1, if_true]

/-- Tags without a meaning to the reader. -/
theorem tag_anchor (r : Reader) (s : Str) : r.tag (lit "a" ++ s) = r := by
  have key : ∀ x : Str, x.head? ≠ some 97 → lit "a" ++ s ≠ x := by
    rintro x hx rfl; exact hx (by rfl)
  have h2 : tagMark (lit "a" ++ s) = none := by
    unfold tagMark
    rw [if_neg, if_neg, if_neg]
    · rintro (h | h) <;> exact key _ (by decide) h
    · rintro (h | h) <;> exact key _ (by decide) h
    · rintro (h | h | h) <;> exact key _ (by decide) h
  have key2 : ∀ n, ∀ x : Str, x.head? ≠ some 97 → x ≠ [] → (lit "a" ++ s).take (n + 1) ≠ x := by
    rintro n x hx _ rfl; exact hx (by rfl)
  unfold Reader.tag
  rw [if_neg (key _ (by decide)), h2]
  simp only
  rw [if_neg (key2 10 _ (by decide) (by decide)), if_neg (key2 1 _ (by decide) (by decide)),
    if_neg (key2 1 _ (by decide) (by decide)), if_neg (key _ (by decide)), if_neg (key _ (by decide))]

theorem runs_content {h s : Str} (hc : Content t h s) (r : Reader) (hr : r.line.isSome = true) : Runs t r h (r.more s) := by
  induction hc generalizing r with
  | text h s hd => exact runs_decodes hd r hr
  | span title h s ha _ ih =>
    obtain ⟨⟨m, x⟩, hx⟩ := Option.isSome_iff_exists.1 hr
    have h1 := runs_tag (t := t) r (lit "span title=" ++ title) (by
      intro c hc
      rcases List.mem_append.1 hc with hc | hc
      · exact ((by decide : ∀ c ∈ lit "span title=", c ≠ 62) c hc)
      · exact (ha c hc).2)
    rw [tag_title] at h1
    have h2 := ih { r with spans := false :: r.spans } hr
    have h3 := runs_tag (t := t) (Reader.more { r with spans := false :: r.spans } s) (lit "/span") (by decide)
    have e : (Reader.more { r with spans := false :: r.spans } s).tag (lit "/span") = r.more s := by
      cases r
      simp only at hx
      subst hx
      simp [Reader.more, Reader.tag]
    rw [e] at h3
    have := (h1.append h2).append h3
    have e1 : lit "<span title=" = 60 :: lit "span title=" := by decide
    have e2 : lit "</span>" = 60 :: (lit "/span" ++ [62]) := by decide
    have e3 : lit ">" = [62] := by decide
    rw [e1, e2, e3]
    simpa only [List.append_assoc, List.cons_append, List.nil_append] using this
  | anchor attrs h s ha _ ih =>
    have h1 := runs_tag (t := t) r (lit "a" ++ attrs) (by
      intro c hc
      rcases List.mem_append.1 hc with hc | hc
      · exact ((by decide : ∀ c ∈ lit "a", c ≠ 62) c hc)
      · exact (ha c hc).2)
    rw [tag_anchor] at h1
    have h2 := ih r hr
    have h3 := runs_tag (t := t) (r.more s) (lit "/a") (by decide)
    have e : (r.more s).tag (lit "/a") = r.more s := rfl
    rw [e] at h3
    have := (h1.append h2).append h3
    have e1 : lit "<a" = 60 :: lit "a" := by decide
    have e2 : lit "</a>" = 60 :: (lit "/a" ++ [62]) := by decide
    have e3 : lit ">" = [62] := by decide
    rw [e1, e2, e3]
    simpa only [List.append_assoc, List.cons_append, List.nil_append] using this
  | append h k s u _ _ ih1 ih2 =>
    rw [← more_more]
    exact (ih1 r hr).append (ih2 _ (by rw [more_isSome]; exact hr))

/-- A reader between lines. -/
def at_ (seen : List Sight) : Reader := { seen := seen }

/-- Reading a line, from between lines to between lines. -/
theorem runs_line {h : Str} {ls : List Shown} (hl : LineReads t alnum h ls) (seen : List Sight) :
    Runs t (at_ seen) h (at_ ((ls.map fun x => Sight.line x.mark (lineText alnum x)).reverse ++ seen)) := by
  have close : lit "</span>" = 60 :: (lit "/span" ++ [62]) := by decide
  have colon : lit ":" = [58] := by decide
  have lab : ∀ (l g : Str), Plain l → (∀ c ∈ g, c ≠ 62) → tagMark g = some .same → g ≠ lit "/span" → ∀ seen : List Sight,
      Runs t (at_ seen) (60 :: (g ++ [62]) ++ l ++ lit ":" ++ lit "</span>") (at_ (.line .same (l ++ lit ":") :: seen)) := by
    intro l g hl hg hm hne seen
    have h1 := runs_tag (t := t) (at_ seen) g hg
    have e1 : (at_ seen).tag g = { spans := [true], line := some (.same, []), label := [], seen := seen } := by
      unfold Reader.tag; rw [if_neg hne, hm]; rfl
    rw [e1] at h1
    have h2 := runs_plain (t := t) hl { spans := [true], line := some (.same, []), label := [], seen := seen } rfl
    have h3 := runs_char (t := t) (Reader.more { spans := [true], line := some (.same, []), label := [], seen := seen } l)
      (c := 58) (by decide)
    have h4 := runs_tag (t := t) ((Reader.more { spans := [true], line := some (.same, []), label := [], seen := seen } l).char 58)
      (lit "/span") (by decide)
    rw [close, colon]
    have := ((h1.append h2).append h3).append h4
    exact this
  have part : ∀ (l : Str), Plain l → ∀ seen : List Sight, Runs t (at_ seen) (labelPart l)
      { label := if l = [] then [] else l ++ lit ": ", seen := seen } := by
    intro l hl seen
    unfold labelPart
    by_cases h0 : l = []
    · subst h0; exact .nil _
    · have : l.isEmpty = false := by cases l with | nil => exact absurd rfl h0 | cons => rfl
      rw [this, if_neg (by simp), if_neg h0]
      have h1 := lab l (lit "span class=\"field\"") hl (by decide) (by decide) (by decide) seen
      have h2 := runs_char (t := t) (at_ (.line .same (l ++ lit ":") :: seen)) (c := 32) (by decide)
      have e : (at_ (.line .same (l ++ lit ":") :: seen)).char 32 = { label := l ++ lit ": ", seen := seen } := by
        simp [at_, Reader.char, lit, Str.ofString]
      rw [e] at h2
      have e1 : lit "<span class=\"field\">" = 60 :: (lit "span class=\"field\"" ++ [62]) := by decide
      have e2 : lit ":</span> " = lit ":" ++ (lit "</span>" ++ [32]) := by decide
      rw [e1, e2]
      have := h1.append h2
      simpa only [List.append_assoc] using this
  -- a span with content, in other spans or not
  have body : ∀ (g h s : Str) (m : Mark) (r : Reader), (∀ c ∈ g, c ≠ 62) → tagMark g = some m → g ≠ lit "/span" →
      Content t h s → Runs t r (60 :: (g ++ [62]) ++ h ++ lit "</span>")
        { r with line := none, label := if r.spans = [] then [] else r.label, seen := .line m (r.label ++ s) :: r.seen } := by
    intro g h s m r hg hm hne hc
    have h1 := runs_tag (t := t) r g hg
    have e1 : r.tag g = { r with spans := true :: r.spans, line := some (m, []) } := by
      unfold Reader.tag; rw [if_neg hne, hm]
    rw [e1] at h1
    have h2 := runs_content hc { r with spans := true :: r.spans, line := some (m, []) } rfl
    have h3 := runs_tag (t := t) (Reader.more { r with spans := true :: r.spans, line := some (m, []) } s) (lit "/span") (by decide)
    rw [close]
    have := (h1.append h2).append h3
    exact this
  have text_of : ∀ (m : Mark) (l : Str) (v : Val), v ≠ .nil → lineText alnum ⟨m, l, v⟩ =
      (if l = [] then [] else l ++ lit ": ") ++ shownText alnum v := by
    intro m l v hv; simp [lineText, hv]
  cases hl with
  | label l hp =>
    have := lab l (lit "span") hp (by decide) (by decide) (by decide) seen
    have e1 : lit "<span>" = 60 :: (lit "span" ++ [62]) := by decide
    have e2 : lit ":</span>" = lit ":" ++ lit "</span>" := by decide
    rw [e1, e2]
    simp only [List.append_assoc] at this ⊢
    exact this
  | labelMod l hp =>
    have := lab l (lit "span class=\"field mod\"") hp (by decide) (by decide) (by decide) seen
    have e1 : lit "<span class=\"field mod\">" = 60 :: (lit "span class=\"field mod\"" ++ [62]) := by decide
    have e2 : lit ":</span>" = lit ":" ++ lit "</span>" := by decide
    rw [e1, e2]
    simp only [List.append_assoc] at this ⊢
    exact this
  | value m l c h v hp hv hm hc =>
    have h1 := part l hp seen
    have key : ∃ g, lit "<span class=\"" ++ c ++ lit "\">" = 60 :: (g ++ [62]) ∧ (∀ c ∈ g, c ≠ 62) ∧ tagMark g = some m ∧
        g ≠ lit "/span" := by
      cases m with
      | same =>
        rcases hm with rfl | rfl
        · exact ⟨lit "span class=\"field\"", by decide, by decide, by decide, by decide⟩
        · exact ⟨lit "span class=\"field mod\"", by decide, by decide, by decide, by decide⟩
      | del => cases hm; exact ⟨lit "span class=\"field del\"", by decide, by decide, by decide, by decide⟩
      | add => cases hm; exact ⟨lit "span class=\"field add\"", by decide, by decide, by decide, by decide⟩
    obtain ⟨g, e, hg, hgm, hne⟩ := key
    have h2 := body g h _ m { label := if l = [] then [] else l ++ lit ": ", seen := seen } hg hgm hne hc
    have := h1.append h2
    rw [← e] at this
    simp only [List.map_cons, List.map_nil, List.reverse_cons, List.reverse_nil, List.nil_append, List.singleton_append,
      text_of m l v hv]
    simp only [List.append_assoc, if_true] at this ⊢
    exact this
  | changed l h k a b hp ha hb hca hcb =>
    have h1 := part l hp seen
    have ta := text_of .del l a ha
    have tb := text_of .add l b hb
    generalize (if l = [] then [] else l ++ lit ": " : Str) = lb at h1 ta tb
    have h2 := runs_tag (t := t) ⟨[], none, lb, seen⟩ (lit "span class=\"field\"") (by decide)
    have e1 : Reader.tag (⟨[], none, lb, seen⟩ : Reader) (lit "span class=\"field\"") =
        ⟨[true], some (.same, []), lb, seen⟩ := by
      unfold Reader.tag
      rw [if_neg (by decide), (by decide : tagMark (lit "span class=\"field\"") = some .same)]
    rw [e1] at h2
    have h3 := body (lit "span class=\"del\"") h _ .del
      ⟨[true], some (.same, []), lb, seen⟩ (by decide) (by decide) (by decide) hca
    simp only [List.cons_ne_nil, if_false] at h3
    have h4 := runs_tag (t := t) ⟨[true], none, lb, .line .del (lb ++ shownText alnum a) :: seen⟩ (lit "br") (by decide)
    have h5 := runs_char (t := t) ⟨[true], none, lb, .line .del (lb ++ shownText alnum a) :: seen⟩ (c := 10) (by decide)
    have h6 := body (lit "span class=\"add\"") k _ .add
      ⟨[true], none, lb, .line .del (lb ++ shownText alnum a) :: seen⟩ (by decide) (by decide) (by decide) hcb
    simp only [List.cons_ne_nil, if_false] at h6
    have h7 := runs_tag (t := t) ⟨[true], none, lb, .line .add (lb ++ shownText alnum b) :: .line .del (lb ++ shownText alnum a) :: seen⟩ (lit "/span") (by decide)
    have := (((((h1.append h2).append h3).append h4).append h5).append h6).append h7
    have e2 : lit "<span class=\"field\"><span class=\"del\">" = 60 :: (lit "span class=\"field\"" ++ [62]) ++
      60 :: (lit "span class=\"del\"" ++ [62]) := by decide
    have e3 : lit "</span><br>\n<span class=\"add\">" = lit "</span>" ++ 60 :: (lit "br" ++ [62]) ++ [10] ++
      60 :: (lit "span class=\"add\"" ++ [62]) := by decide
    have e4 : lit "</span></span>" = lit "</span>" ++ 60 :: (lit "/span" ++ [62]) := by decide
    rw [e2, e3, e4]
    simp only [List.map_cons, List.map_nil, List.reverse_cons, List.reverse_nil, List.nil_append, List.singleton_append,
      ta, tb, List.cons_append]
    simp only [List.append_assoc, List.cons_append, List.nil_append] at this ⊢
    exact this

theorem runs_head {h : Str} {ls : List Shown} (hl : HeadReads t alnum h ls) (seen : List Sight) :
    Runs t (at_ seen) h (at_ ((ls.map fun x => Sight.line x.mark (lineText alnum x)).reverse ++ seen)) := by
  induction hl generalizing seen with
  | nil => exact .nil _
  | line h => exact runs_line h seen
  | append _ _ ih1 ih2 =>
    have := (ih1 seen).append (ih2 _)
    simpa only [List.map_append, List.reverse_append, List.append_assoc] using this

theorem sights_append (a b : List Node) : sights alnum (a ++ b) = sights alnum a ++ sights alnum b := by
  induction a with
  | nil => rfl
  | cons n a ih => simp [sights, ih]

theorem tag_li (seen : List Sight) (s : Str) : (at_ seen).tag (lit "li" ++ s) = at_ (.openItem :: seen) := by
  have key : ∀ x : Str, x.head? ≠ some 108 → lit "li" ++ s ≠ x := by
    rintro x hx rfl; exact hx (by rfl)
  have h2 : tagMark (lit "li" ++ s) = none := by
    unfold tagMark
    rw [if_neg, if_neg, if_neg]
    · rintro (h | h) <;> exact key _ (by decide) h
    · rintro (h | h) <;> exact key _ (by decide) h
    · rintro (h | h | h) <;> exact key _ (by decide) h
  have key2 : (lit "li" ++ s).take 11 ≠ lit "span title=" := by
    intro h; have := congrArg List.head? h; simp [lit, Str.ofString] at this
  unfold Reader.tag
  rw [if_neg (key _ (by decide)), h2]
  simp only
  rw [if_neg key2, if_pos (by simp [lit, Str.ofString])]
  rfl

theorem tag_ul (seen : List Sight) (s : Str) : (at_ seen).tag (lit "ul" ++ s) = at_ (.openList :: seen) := by
  have key : ∀ x : Str, x.head? ≠ some 117 → lit "ul" ++ s ≠ x := by
    rintro x hx rfl; exact hx (by rfl)
  have h2 : tagMark (lit "ul" ++ s) = none := by
    unfold tagMark
    rw [if_neg, if_neg, if_neg]
    · rintro (h | h) <;> exact key _ (by decide) h
    · rintro (h | h) <;> exact key _ (by decide) h
    · rintro (h | h | h) <;> exact key _ (by decide) h
  have key2 : (lit "ul" ++ s).take 11 ≠ lit "span title=" := by
    intro h; have := congrArg List.head? h; simp [lit, Str.ofString] at this
  have key3 : (lit "ul" ++ s).take 2 ≠ lit "li" := by
    intro h; have := congrArg List.head? h; simp [lit, Str.ofString] at this
  unfold Reader.tag
  rw [if_neg (key _ (by decide)), h2]
  simp only
  rw [if_neg key2, if_neg key3, if_pos (by simp [lit, Str.ofString])]
  rfl

theorem runs_open (a s : Str) (ha : AttrText s) (hl : ∀ c ∈ a, c ≠ 62) (r : Reader) :
    Runs t r (60 :: a ++ s ++ lit ">") (r.tag (a ++ s)) := by
  have := runs_tag (t := t) r (a ++ s) (by
    intro c hc
    rcases List.mem_append.1 hc with hc | hc
    · exact hl c hc
    · exact (ha c hc).2)
  have e : lit ">" = [62] := by decide
  rw [e]
  simpa only [List.append_assoc, List.cons_append] using this

/-- The newline after an item, or at the start of a list. -/
theorem char_newline (seen : List Sight) : (at_ seen).char 10 = at_ seen := rfl

theorem runs_reads {h : Str} {ns : List Node} (hr : Reads t alnum h ns) (seen : List Sight) :
    Runs t (at_ seen) h (at_ ((sights alnum ns).reverse ++ seen)) := by
  have li : lit "<li" = 60 :: lit "li" := by decide
  have ul : lit "<ul" = 60 :: lit "ul" := by decide
  have endli : ∀ seen : List Sight, Runs t (at_ seen) (lit "</li>\n") (at_ (.closeItem :: seen)) := by
    intro seen
    have h1 := runs_tag (t := t) (at_ seen) (lit "/li") (by decide)
    have h2 := runs_char (t := t) (at_ (.closeItem :: seen)) (c := 10) (by decide)
    exact h1.append h2
  induction hr generalizing seen with
  | nil => exact .nil _
  | @leaf attrs h ls ha hh =>
    have h1 := runs_open (t := t) (lit "li") attrs ha (by decide) (at_ seen)
    rw [tag_li] at h1
    have := (h1.append (runs_head hh _)).append (endli _)
    rw [li]
    simp only [sights, Node.sights, kidsSights, List.append_nil, List.reverse_append, List.reverse_cons, List.reverse_nil,
      List.nil_append, List.cons_append, List.append_assoc]
    simpa only [List.cons_append, List.append_assoc, List.nil_append] using this
  | @branch attrs h uattrs l ls kids ha hh hu _ ih =>
    have h1 := runs_open (t := t) (lit "li") attrs ha (by decide) (at_ seen)
    rw [tag_li] at h1
    have h2 := runs_head hh (.openItem :: seen)
    have h3 := runs_open (t := t) (lit "ul") uattrs hu (by decide) (at_ ((ls.map fun x => Sight.line x.mark (lineText alnum x)).reverse ++
      .openItem :: seen))
    rw [tag_ul] at h3
    have h4 := runs_char (t := t) (at_ (.openList :: ((ls.map fun x => Sight.line x.mark (lineText alnum x)).reverse ++
      .openItem :: seen))) (c := 10) (by decide)
    rw [char_newline] at h4
    have h5 := ih (.openList :: ((ls.map fun x => Sight.line x.mark (lineText alnum x)).reverse ++ .openItem :: seen))
    have h6 := runs_tag (t := t) (at_ ((sights alnum kids).reverse ++ .openList :: ((ls.map fun x => Sight.line x.mark (lineText alnum x)).reverse ++
      .openItem :: seen))) (lit "/ul") (by decide)
    have h7 := endli (.closeList :: ((sights alnum kids).reverse ++ .openList :: ((ls.map fun x => Sight.line x.mark (lineText alnum x)).reverse ++
      .openItem :: seen)))
    have := (((((h1.append h2).append h3).append h4).append h5).append h6).append h7
    have e1 : lit ">\n" = lit ">" ++ [10] := by decide
    have e2 : lit "</ul></li>\n" = 60 :: (lit "/ul" ++ [62]) ++ lit "</li>\n" := by decide
    rw [li, ul, e1, e2]
    simp only [sights, Node.sights, kidsSights, List.append_nil, List.reverse_append, List.reverse_cons, List.reverse_nil,
      List.nil_append, List.cons_append, List.append_assoc]
    simpa only [List.cons_append, List.append_assoc, List.nil_append] using this
  | append _ _ ih1 ih2 =>
    have := (ih1 seen).append (ih2 _)
    simpa only [sights_append, List.reverse_append, List.append_assoc] using this

/-- **C80 (reader).** If a page reads as some items, then a reader who goes through it once, tag by tag and character by
character, sees exactly these items, with their lines, marks and texts. -/
theorem C80_look {h : Str} {ns : List Node} (hr : Reads t alnum h ns) : look t h = sights alnum ns := by
  have := runs_reads hr [] []
  unfold look
  rw [List.append_nil] at this
  show ((toks none h).foldl (Reader.step t) (at_ [])).seen.reverse = _
  rw [this]
  simp [toks, at_]

end Verif.Html
