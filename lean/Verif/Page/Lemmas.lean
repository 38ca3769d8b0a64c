import Verif.Page.Spec
import Verif.Web.Form
import Verif.Show.RowsProps
import Verif.Show.FileItems
/-!
# From the rows of a listing to the items of a page
-/
namespace Verif.Page
open Verif.Print Verif.Html Verif.Item Verif.Types Verif.Opts Verif.Show Verif.Order Verif.Filter Verif.Web

/-- The entries with a text. -/
abbrev texts (l : List Html.Entry) : List Html.Entry := l.filter (fun e => e.text ≠ [])

theorem texts_append (l m : List Html.Entry) : texts (l ++ m) = texts l ++ texts m := List.filter_append ..

theorem texts_label (i : Nat) (m : Mark) (l : Str) (es : List Html.Entry) : texts (Html.entry i m l [] :: es) = texts es := by
  simp [texts, Html.entry]

theorem blank_of_ne {v : Val} (h : v.text' ≠ []) : blank v = false := by
  cases hb : blank v with
  | false => rfl
  | true => exact absurd (text_of_blank hb) h

/-- The head of a section: what is written as lines is shown, and no other text. -/
theorem heads_show (p : P) (hp : FlatP p) (i : Nat) (x : DiffPrefix) (d : Nat) :
    (textEntries (p.ls false i x d)).Sublist (headEntries i (headsP (markOf x) p)) ∧
      texts (headEntries i (headsP (markOf x) p)) = texts (textEntries (p.ls false i x d)) := by
  induction p with
  | skip => exact ⟨.slnil, rfl⟩
  | seq p q ihp ihq =>
    simp only [P.ls, headsP, textEntries_append, headEntries_append, texts_append, (ihp hp.1).2, (ihq hp.2).2, and_true]
    exact (ihp hp.1).1.append (ihq hp.2).1
  | lineBreak => exact ⟨.slnil, rfl⟩
  | label l => exact ⟨.refl _, rfl⟩
  | line l v =>
    simp only [P.ls, headsP]
    by_cases hv : v.text' = []
    · rw [if_pos hv]
      refine ⟨List.nil_sublist _, ?_⟩
      split
      · rfl
      · simp [headEntries, Html.entry, hv, textEntries]
    · rw [if_neg hv, blank_of_ne hv]
      exact ⟨.refl _, rfl⟩
  | _ => exact hp.elim

/-- Only lines that say something. -/
def AllLines (ls : List Line) : Prop := ∀ l ∈ ls, lineEntry l ≠ none

theorem AllLines.append {l m : List Line} (h : AllLines (l ++ m)) : AllLines l ∧ AllLines m :=
  ⟨fun x hx => h x (by simp [hx]), fun x hx => h x (by simp [hx])⟩

/-- Such lines have entries. -/
theorem entries_ne {ls : List Line} (h : AllLines ls) (hn : ls ≠ []) : textEntries ls ≠ [] := by
  cases ls with
  | nil => exact absurd rfl hn
  | cons l ls =>
    have := h l (by simp)
    cases hl : lineEntry l with
    | none => exact absurd hl this
    | some e => simp [textEntries, hl]

theorem flats_ne {i : Nat} {ns : List Node} (h : flats i ns ≠ []) : ns ≠ [] := by
  rintro rfl; exact h rfl

theorem opt_shows (x : DiffPrefix) (i : Nat) (l : Str) (b : P) (d : Nat)
    (ih : AllLines (b.ls false (i + 1) x d) → (textEntries (b.ls false (i + 1) x d)).Sublist (flats (i + 1) (pageP false (markOf x) b d)) ∧
        texts (flats (i + 1) (pageP false (markOf x) b d)) = texts (textEntries (b.ls false (i + 1) x d)))
    (hb : AllLines (if b.ls false (i + 1) x d = [] then [] else Line.line x i l [] :: b.ls false (i + 1) x d)) :
      (textEntries (if b.ls false (i + 1) x d = [] then [] else Line.line x i l [] :: b.ls false (i + 1) x d)).Sublist
        (flats i (optSection l (pageP false (markOf x) b d))) ∧
      texts (flats i (optSection l (pageP false (markOf x) b d))) =
        texts (textEntries (if b.ls false (i + 1) x d = [] then [] else Line.line x i l [] :: b.ls false (i + 1) x d)) := by
  have e : ∀ ns, ns ≠ [] → flats i (optSection l ns) = Html.entry i .same l [] :: flats (i + 1) ns := by
    intro ns h
    cases ns with
    | nil => exact absurd rfl h
    | cons n ns => simp [optSection, flats, Node.flat, flatKids, Val.text']
  by_cases h : b.ls false (i + 1) x d = []
  · rw [if_pos h]
    have := (ih (by rw [h]; intro l hl; cases hl)).2
    refine ⟨List.nil_sublist _, ?_⟩
    by_cases hn : pageP false (markOf x) b d = []
    · rw [hn]; rfl
    · rw [e _ hn, texts_label, this, h]
  · rw [if_neg h] at hb ⊢
    have hb' : AllLines (b.ls false (i + 1) x d) := fun l hl => hb l (by simp [hl])
    obtain ⟨h1, h2⟩ := ih hb'
    have hn : pageP false (markOf x) b d ≠ [] := flats_ne (i := i + 1) fun h' => by
      rw [h', List.sublist_nil] at h1
      exact entries_ne hb' h h1
    have e2 : textEntries (Line.line x i l [] :: b.ls false (i + 1) x d) =
        Html.entry i .same l [] :: textEntries (b.ls false (i + 1) x d) := by
      simp [textEntries, lineEntry, Html.entry]
    rw [e _ hn, e2]
    exact ⟨h1.cons_cons _, by rw [texts_label, texts_label, h2]⟩

/-- Whatever a listing writes is on its page, at the same depth, and the page has no other text. -/
theorem tree_shows (p : P) (hp : TreeP p) (i : Nat) (x : DiffPrefix) (d : Nat) (hb : AllLines (p.ls false i x d)) :
    (textEntries (p.ls false i x d)).Sublist (flats i (pageP false (markOf x) p d)) ∧
      texts (flats i (pageP false (markOf x) p d)) = texts (textEntries (p.ls false i x d)) := by
  induction p generalizing i d with
  | skip => exact ⟨.slnil, rfl⟩
  | seq p q ihp ihq =>
    have hb := AllLines.append hb
    have h1 := ihp hp.1 i d hb.1
    have h2 := ihq hp.2 i d hb.2
    simp only [P.ls, pageP, textEntries_append, flats_append, texts_append, h1.2, h2.2, and_true]
    exact h1.1.append h2.1
  | lineBreak => exact ⟨.slnil, rfl⟩
  | label l => exact ⟨.refl _, rfl⟩
  | line l v =>
    simp only [P.ls, pageP]
    by_cases hv : v.text' = []
    · rw [if_pos hv]
      refine ⟨List.nil_sublist _, ?_⟩
      split
      · rfl
      · simp [leaves, flats, Node.flat, flatKids, Html.entry, hv, textEntries]
    · rw [if_neg hv, blank_of_ne hv]
      exact ⟨.refl _, rfl⟩
  | instruction a m v => exact hp.elim
  | indent c h b ihh ihb =>
    have hb := AllLines.append hb
    have h1 := heads_show h hp.1 i x d
    have h2 := ihb hp.2 (i + 1) d hb.2
    simp only [P.ls, pageP, textEntries_append, flats_section, texts_append, h1.2, h2.2, and_true]
    exact h1.1.append h2.1
  | field c l b ihb => exact opt_shows x i l b d (ihb hp.2 (i + 1) d) hb
  | id n h b ihh ihb =>
    have hb := AllLines.append hb
    have h1 := heads_show h hp.1 i x d
    have h2 := ihb hp.2 (i + 1) d hb.2
    have e : flats i (pageP false (markOf x) (.id n h b) d) =
        headEntries i (headsP (markOf x) h) ++ flats (i + 1) (pageP false (markOf x) b d) := by
      simp [pageP, flats, Node.flat, flatKids, headEntries]
    rw [e]
    simp only [P.ls, textEntries_append, texts_append, h1.2, h2.2, and_true]
    exact h1.1.append h2.1
  | fieldDetail j l b ihb =>
    simp only [P.ls, pageP, Bool.false_eq_true, if_false] at hb ⊢
    exact opt_shows x i l b d (ihb hp.2.2 (i + 1) d) hb
  | inline p ih =>
    simp only [P.ls, pageP] at hb ⊢
    split
    · exact ⟨.slnil, rfl⟩
    · next h => rw [if_neg h] at hb; exact ih hp i (d - 1) hb

/-- The entries of rows. -/
theorem textEntries_rows (x : DiffPrefix) (i : Nat) (rows : List Row) :
    textEntries (rows.map (Row.line x i)) = rows.map (rowAt (markOf x) i) := by
  induction rows with
  | nil => rfl
  | cons r rows ih =>
    rw [List.map_cons, List.map_cons, ← ih]
    rfl

/-- A listing that writes these rows has a page that says them. -/
theorem says_rows {p : P} (hp : TreeP p) {d : Nat} {rows : List Row} (x : DiffPrefix)
    (h : p.ls false 0 x d = rows.map (Row.line x 0)) : Says (markOf x) rows (pageP false (markOf x) p d) := by
  have hb : AllLines (p.ls false 0 x d) := by
    rw [h]
    intro l hl
    obtain ⟨r, _, rfl⟩ := List.mem_map.1 hl
    simp [Row.line, lineEntry]
  have := tree_shows p hp 0 x d hb
  rw [h, textEntries_rows] at this
  exact this

/-- The same with a blank line at the end. -/
theorem says_seq {p : P} (hp : TreeP p) {d : Nat} {rows : List Row} (x : DiffPrefix)
    (h : (P.seq p .lineBreak).ls false 0 x d = rows.map (Row.line x 0) ++ [.brk]) :
    Says (markOf x) rows (pageP false (markOf x) (.seq p .lineBreak) d) := by
  have e : pageP false (markOf x) (.seq p .lineBreak) d = pageP false (markOf x) p d := by simp [pageP]
  rw [e]
  refine says_rows hp x ?_
  simpa [P.ls] using h

end Verif.Page
