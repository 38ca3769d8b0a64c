import Verif.Html.Lemmas3
/-!
# Properties of the HTML printer
-/
namespace Verif.Html
open Verif.Print

/-- The usual names of the five character references; shows that `EntityTable` is inhabited. -/
def stdTable : EntityTable where
  name c := if c = 34 then lit "quot" else if c = 38 then lit "amp" else
    if c = 39 then lit "#39" else if c = 60 then lit "lt" else lit "gt"
  plain := by
    intro c hc
    simp only [List.mem_cons, List.not_mem_nil, or_false] at hc
    rcases hc with rfl | rfl | rfl | rfl | rfl <;> decide
  inj := by decide

/-- Letters and digits, standing in for `char::is_alphanumeric`. -/
def asciiAlnum (c : Nat) : Bool :=
  (48 ≤ c && c ≤ 57) || (65 ≤ c && c ≤ 90) || (97 ≤ c && c ≤ 122)

/-! ## C27: escaping -/

/-- No quote, apostrophe or angle bracket survives. -/
theorem C27_no_specials (t : EntityTable) (s : Str) :
    ∀ c ∈ escape t s, c ≠ 34 ∧ c ≠ 39 ∧ c ≠ 60 ∧ c ≠ 62 := escape_clean t s

/-- Reading the character references back gives exactly the original text, and no other. In
particular every `&` starts a complete character reference. -/
theorem C27_decode (t : EntityTable) (s : Str) :
    Decodes t (escape t s) s ∧ ∀ s', Decodes t (escape t s) s' → s' = s :=
  ⟨decodes_escape t s, fun _ h => decodes_unique t h (decodes_escape t s)⟩

/-- However the text is split over writes, the output is the same. -/
theorem C27_compositional (t : EntityTable) (writes : List Str) :
    (writes.map (escape t)).flatten = escape t writes.flatten := by
  induction writes with
  | nil => rfl
  | cons w ws ih => simp [ih, escape_append]

/-- A printed value is well-formed inline HTML whose text content is the text of the value (names
abbreviated). -/
theorem C27_value (t : EntityTable) (alnum : Nat → Bool) (v : Val) :
    Shows t (valueHtml t alnum v) (shownText alnum v) := shows_value t alnum v

example : escape stdTable (Str.ofString "Vec<&'a T>") =
    Str.ofString "Vec&lt;&amp;&#39;a T&gt;" := by decide +kernel

/-! ## C28: nesting -/

/-- Printing any tree of sections outside an item produces a well-formed sequence of list items and
leaves the printer as it was, apart from the output. -/
theorem C28_print (t : EntityTable) (alnum : Nat → Bool) (http : Bool) (p : P) (hp : TreeP p)
    (s : Html) (hs : s.lineStarted = false) (hh : s.http = http) :
    ∃ out, p.run (htmlPrinter t alnum) http s = { s with w := s.w ++ out } ∧ Items t out :=
  treeP_run http p hp s hs hh

/-- The same for diffs; the marker may change. -/
theorem C28_diff (t : EntityTable) (alnum : Nat → Bool) (o : Opts) (e : D) (he : TreeD e)
    (s : Html) (f : Bool) (hs : s.lineStarted = false) (hh : s.http = o.http) :
    ∃ out x f', e.run (htmlPrinter t alnum) o s f = ({ s with w := s.w ++ out, pfx := x }, f') ∧
      Items t out := by
  obtain ⟨out, x, f', h1, h2⟩ := treeD_run (t := t) (alnum := alnum) o e he s f hs hh
  exact ⟨out, x, f', h1, h2⟩

/-- A listing of machine instructions (the detail page of a function) is a well-formed sequence
of table rows. -/
theorem C28_instructions (t : EntityTable) (alnum : Nat → Bool) (http : Bool) (p : P)
    (hp : CodeP p) (s : Html) :
    ∃ out, p.run (htmlPrinter t alnum) http s = { s with w := s.w ++ out } ∧ Rows t out := by
  show ∃ out, p.run (htmlPrinter t alnum) http s = s.put out ∧ Rows t out
  induction p generalizing s with
  | skip => exact ⟨[], by simp [P.run], .nil⟩
  | seq p q ihp ihq =>
    obtain ⟨a, ha, ha'⟩ := ihp hp.1 s
    obtain ⟨b, hb, hb'⟩ := ihq hp.2 (s.put a)
    exact ⟨a ++ b, by rw [P.run, ha, hb, put_put], .append _ _ ha' hb'⟩
  | instruction a m v =>
    have hx : ∀ n : Nat, Plain (hex n) := by
      intro n c hc
      obtain ⟨d, hd, rfl⟩ := List.mem_map.1 hc
      exact hexDigit_plain n d hd
    refine ⟨_, ?_, Rows.row (match a with | some a => hex a | none => []) m (valueHtml t alnum v)
      ?_ (Inline.text hp) (inline_value t alnum v)⟩
    · rw [P.run]
      show Html.instruction _ _ _ s = _
      unfold Html.instruction
      cases a <;> simp
    · cases a
      · exact Inline.nil
      · exact Inline.text (hx _)
  | _ => exact hp.elim

/-- A non-trivial closure meeting the hypotheses of C28. -/
def exTree : P :=
  .id 7 (.line [] (.seq (.text (lit "fn ")) (.name (lit "f<a::B>"))))
    (.seq (.line (lit "size") (.text (lit "4")))
      (.seq (.field true (lit "types") (.line [] (.link 3 (.text (lit "x<y")))))
        (.fieldDetail (lit "code") (lit "instructions") .skip)))

example : TreeP exTree := by
  simp only [exTree, TreeP, FlatP]
  decide +kernel

example : (exTree.run (htmlPrinter stdTable asciiAlnum) false (Html.new 1 false)).w =
    lit ("<li class=\"treebranch\" id=\"7\"><span class=\"field\">fn <span title=\"f&lt;a::B&gt;\">" ++
      "f&lt;B&gt;</span></span><ul style=\"display:none\">\n" ++
      "<li><span class=\"field\">size:</span> <span class=\"field\">4</span></li>\n" ++
      "<li class=\"treebranch\"><span>types:</span><ul style=\"display:none\">\n" ++
      "<li><span class=\"field\"><a class=\"link\" data-link=\"3\" href=\"#3\">x&lt;y</a></span></li>\n" ++
      "</ul></li>\n</ul></li>\n") := by decide +kernel

/-- Finding: in HTML output without the server, a section of instructions puts table rows directly
inside a list, which no list-item grammar allows. -/
theorem C28_rows_in_list :
    ((P.fieldDetail (lit "code") (lit "instructions")
        (.instruction (some 16) (lit "nop") .nil)).run (htmlPrinter stdTable asciiAlnum) false
      (Html.new 1 false)).w =
    lit ("<li class=\"treebranch\"><span>instructions:</span><ul style=\"display:none\">\n" ++
      "<tr><td>10</td><td>nop</td><td></td></tr></ul></li>\n") := by decide +kernel

/-! ## C29: abbreviated names -/

/-- The full name is always in the output: either it is the text shown, or it is the `title` of the
element showing the abbreviation. -/
theorem C29_recoverable (t : EntityTable) (alnum : Nat → Bool) (name : Str) :
    (nameHtml t alnum name = escape t name ∧ abbreviate alnum name = name) ∨
    (nameHtml t alnum name = lit "<span title=\"" ++ escape t name ++ lit "\">" ++
      escape t (abbreviate alnum name) ++ lit "</span>" ∧ abbreviate alnum name ≠ name) := by
  unfold nameHtml
  by_cases h : name = abbreviate alnum name
  · left; simp [← h]
  · right; simp only [ne_eq, h, not_false_eq_true, if_true, true_and]; exact Ne.symm h

/-- A name without generic arguments and braces is shown in full. -/
theorem C29_plain_kept (alnum : Nat → Bool) (name : Str) (h : 60 ∉ name) (hb : 123 ∉ name)
    (hb' : 125 ∉ name) : abbreviate alnum name = name := by
  have key : ∀ (l : Str) (r : Str), 60 ∉ l → 123 ∉ l → 125 ∉ l →
      l.foldl (nameStep alnum) ⟨0, 0, 0, r, []⟩ = ⟨0, 0, 0, r ++ l, []⟩ := by
    intro l
    induction l with
    | nil => simp
    | cons c l ih =>
      intro r h1 h2 h3
      simp only [List.mem_cons, not_or] at h1 h2 h3
      have hs : nameStep alnum ⟨0, 0, 0, r, []⟩ c = ⟨0, 0, 0, r ++ [c], []⟩ := by
        unfold nameStep
        rw [if_neg (Ne.symm h2.1), if_neg (Ne.symm h3.1)]
        by_cases h4 : c = 62 <;> simp [h4, Ne.symm h1.1]
      rw [List.foldl_cons, hs, ih _ h1.2 h2.2 h3.2]
      simp
  unfold abbreviate
  rw [key name [] h hb hb']
  simp

/-- What an abbreviation shows of a name without braces are characters of the name in their order,
apart from dots. -/
theorem C29_subsequence (alnum : Nat → Bool) (name : Str) (hb : 123 ∉ name) (hb' : 125 ∉ name) :
    ((abbreviate alnum name).filter (· ≠ 46)).Sublist (name.filter (· ≠ 46)) := by
  have key : ∀ (l done : Str) (st : NameState), 123 ∉ l → 125 ∉ l → st.brace = 0 →
      (st.generic ≠ 1 → st.s = []) →
      ((st.result ++ st.s).filter (· ≠ 46)).Sublist (done.filter (· ≠ 46)) →
      (((l.foldl (nameStep alnum) st).result ++ (l.foldl (nameStep alnum) st).s).filter
        (· ≠ 46)).Sublist ((done ++ l).filter (· ≠ 46)) := by
    intro l
    induction l with
    | nil => intro done st _ _ _ _ h; simpa using h
    | cons c l ih =>
      intro done st h1 h2 h3 h4 h5
      simp only [List.mem_cons, not_or] at h1 h2
      have step : (nameStep alnum st c).brace = 0 ∧
          ((nameStep alnum st c).generic ≠ 1 → (nameStep alnum st c).s = []) ∧
          (((nameStep alnum st c).result ++ (nameStep alnum st c).s).filter (· ≠ 46)).Sublist
            ((done ++ [c]).filter (· ≠ 46)) := by
        have hdrop : ((st.result ++ st.s).filter (· ≠ 46)).Sublist
            ((done ++ [c]).filter (· ≠ 46)) := by
          rw [List.filter_append (l₁ := done)]
          exact h5.trans (List.sublist_append_left _ _)
        have hres : (st.result.filter (· ≠ 46)).Sublist ((done ++ [c]).filter (· ≠ 46)) := by
          refine List.Sublist.trans ?_ hdrop
          rw [List.filter_append]
          exact List.sublist_append_left _ _
        have hpush : ((st.result ++ st.s ++ [c]).filter (· ≠ 46)).Sublist
            ((done ++ [c]).filter (· ≠ 46)) := by
          rw [List.filter_append, List.filter_append (l₁ := done)]
          exact h5.append (List.Sublist.refl _)
        have hdots : ∀ x : Str, (x ++ lit "...").filter (· ≠ 46) = x.filter (· ≠ 46) := by
          intro x
          have : lit "..." = [46, 46, 46] := by decide
          rw [this, List.filter_append]; simp
        unfold nameStep
        rw [if_neg (Ne.symm h1.1), if_neg (Ne.symm h2.1), if_neg (by omega)]
        split
        · -- '<'
          dsimp only
          split
          · rename_i hg
            dsimp only at hg ⊢
            split
            · refine ⟨h3, fun _ => rfl, ?_⟩
              show ((st.result ++ st.s ++ [c] ++ lit "..." ++ []).filter _).Sublist _
              rw [List.append_nil, hdots]
              exact hpush
            · refine ⟨h3, fun _ => rfl, ?_⟩
              show ((st.result ++ st.s ++ [c] ++ []).filter _).Sublist _
              rw [List.append_nil]
              exact hpush
          · rename_i hg
            dsimp only at hg ⊢
            rw [if_neg (by omega)]
            refine ⟨h3, fun _ => rfl, ?_⟩
            show ((st.result ++ st.s ++ []).filter _).Sublist _
            rw [List.append_nil]
            exact hdrop
        · split
          · -- '>'
            by_cases hg : st.generic ≤ 2
            · rw [if_pos hg]
              dsimp only
              split
              · refine ⟨h3, fun _ => rfl, ?_⟩
                show ((st.result ++ st.s ++ [c] ++ []).filter _).Sublist _
                rw [List.append_nil]
                exact hpush
              · refine ⟨h3, fun _ => rfl, ?_⟩
                show ((st.result ++ st.s ++ [c] ++ []).filter _).Sublist _
                rw [List.append_nil]
                exact hpush
            · rw [if_neg hg, if_pos (by omega)]
              exact ⟨h3, fun _ => h4 (by omega), hdrop⟩
          · split
            · -- outside generics
              rename_i hg
              have hs : st.s = [] := h4 (by omega)
              refine ⟨h3, fun _ => hs, ?_⟩
              show ((st.result ++ [c] ++ st.s).filter _).Sublist _
              rw [hs, List.append_nil] at hpush
              rw [hs, List.append_nil]
              exact hpush
            · split
              · exact ⟨h3, h4, hdrop⟩
              · have hg1 : st.generic = 1 := by omega
                split
                · split
                  · refine ⟨h3, fun h => absurd hg1 h, ?_⟩
                    show ((st.result ++ (st.s ++ [c])).filter _).Sublist _
                    rw [← List.append_assoc]; exact hpush
                  · refine ⟨h3, fun _ => rfl, ?_⟩
                    show ((st.result ++ []).filter _).Sublist _
                    rw [List.append_nil]; exact hres
                · split
                  · refine ⟨h3, fun h => absurd hg1 h, ?_⟩
                    show ((st.result ++ (st.s ++ [c])).filter _).Sublist _
                    rw [← List.append_assoc]; exact hpush
                  · refine ⟨h3, fun _ => rfl, ?_⟩
                    show ((st.result ++ st.s ++ [c] ++ []).filter _).Sublist _
                    rw [List.append_nil]; exact hpush
      have := ih (done ++ [c]) _ h1.2 h2.2 step.1 step.2.1 step.2.2
      simpa [List.foldl_cons] using this
  have := key name [] ⟨0, 0, 0, [], []⟩ hb hb' rfl (fun _ => rfl) (by simp)
  simpa [abbreviate] using this

/-- Finding: a brace outside generic arguments is shown after the text that follows it, so the
shown name is not an abbreviation of the real one. -/
theorem C29_brace_reordered :
    abbreviate asciiAlnum (lit "a::{closure#0}::b") = lit "a::::b{closure#0}" := by decide +kernel

example : abbreviate asciiAlnum (lit "a::Vec<std::Map<u8, b::C>>") = lit "a::Vec<Map<...>>" := by
  decide +kernel

/-! ## C67: highlighting -/

/-- Finding: an unchanged line after a changed section of the same body is highlighted as modified,
although the same line alone is not. -/
theorem C67_modify_leaks :
    let o : Opts := ⟨true, false, false, false⟩
    let same := D.line (lit "size") (.text (lit "4")) (.text (lit "4"))
    let changed := D.field false (lit "args") (.line [] (.text (lit "1")) (.text (lit "2")))
    let start : Html := { Html.new 1 false with pfx := .equal }
    (same.run (htmlPrinter stdTable asciiAlnum) o start false).1.w =
      (["<li><span class=\"field\">size:</span> <span class", "=\"field\">4</span></li>\n"].flatMap lit) ∧
    ((["<li><span class=\"field\">size:</span> <span class", "=\"field mod\">4</span></li>\n"].flatMap lit)).isSuffixOf
      ((D.seq changed same).run (htmlPrinter stdTable asciiAlnum) o start false).1.w = true := by
  decide +kernel

end Verif.Html
