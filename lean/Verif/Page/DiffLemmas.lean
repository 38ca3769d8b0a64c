import Verif.Page.Props
import Verif.Page.DiffSpec
import Verif.Web.DiffPage
/-!
# From the two sides of a diff to the lines of its page
-/
namespace Verif.Page
open Verif.Print Verif.Html Verif.Item Verif.Types Verif.Opts Verif.Show Verif.Order Verif.Filter Verif.Web Verif.Merge

/-- What a line says, if it has a text. -/
def lineRow : Line → Option Row
  | .line _ i l b => if b = [] then none else some ⟨i, l, b⟩
  | _ => none

/-- The lines with a text. -/
def values (ls : List Line) : List Row := ls.filterMap lineRow

theorem values_append (l m : List Line) : values (l ++ m) = values l ++ values m := List.filterMap_append ..

/-- The entries of one version. -/
def ver (new : Bool) (es : List Html.Entry) : List Row :=
  (es.filter fun e => e.text ≠ [] ∧ e.mark ≠ otherMark new).map fun e => ⟨e.depth, e.label, e.text⟩

theorem ver_append (new : Bool) (l m : List Html.Entry) : ver new (l ++ m) = ver new l ++ ver new m := by
  simp [ver, List.filter_append]

theorem ver_label (new : Bool) (i : Nat) (m : Mark) (l : Str) (es : List Html.Entry) :
    ver new (Html.entry i m l [] :: es) = ver new es := by simp [ver, Html.entry]

theorem values_label (x : DiffPrefix) (i : Nat) (l : Str) (ls : List Line) :
    values (.line x i l [] :: ls) = values ls := by simp [values, lineRow]

theorem ver_entry (new : Bool) (i : Nat) (m : Mark) (l s : Str) :
    ver new [Html.entry i m l s] = if s = [] ∨ m = otherMark new then [] else [⟨i, l, s⟩] := by
  by_cases hs : s = []
  · simp [ver, Html.entry, hs]
  · by_cases hm : m = otherMark new <;> simp [ver, Html.entry, hs, hm]

theorem flats_opt (i : Nat) (l : Str) (ns : List Node) (new : Bool) :
    ver new (flats i (optSection l ns)) = ver new (flats (i + 1) ns) := by
  cases ns with
  | nil => rfl
  | cons n ns =>
    have e : flats i (optSection l (n :: ns)) = Html.entry i .same l [] :: flats (i + 1) (n :: ns) := by
      simp [optSection, flats, Node.flat, flatKids, Val.text']
    rw [e, ver_label]

theorem values_opt (x : DiffPrefix) (i : Nat) (l : Str) (ls : List Line) :
    values (if ls = [] then [] else .line x i l [] :: ls) = values ls := by
  split
  · next h => rw [h]
  · rw [values_label]

theorem same_ne (new : Bool) : Mark.same ≠ otherMark new := by cases new <;> decide

/-- The lines of a head of one version. -/
theorem headP_ver (new : Bool) (m : Mark) (hm : m ≠ otherMark new) (p : P) (hp : FlatP p) (i : Nat) (x : DiffPrefix)
    (d : Nat) : ver new (headEntries i (headsP m p)) = values (p.ls false i x d) := by
  induction p with
  | seq p q ihp ihq => simp only [P.ls, headsP, headEntries_append, ver_append, values_append, ihp hp.1, ihq hp.2]
  | skip => rfl
  | lineBreak => rfl
  | label l => simp [headsP, headEntries, P.ls, values, lineRow, Val.text', ver_entry]
  | line l v =>
    simp only [P.ls, headsP]
    by_cases hv : v.text' = []
    · rw [if_pos hv]
      split
      · rfl
      · simp [headEntries, hv, ver_entry, values]
    · rw [if_neg hv, blank_of_ne hv]
      simp [headEntries, hv, ver_entry, values, lineRow, hm]
  | _ => exact hp.elim

theorem pageP_ver (new : Bool) (m : Mark) (hm : m ≠ otherMark new) (p : P) (hp : TreeP p) (i : Nat) (x : DiffPrefix)
    (d : Nat) : ver new (flats i (pageP false m p d)) = values (p.ls false i x d) := by
  induction p generalizing i d with
  | skip => rfl
  | seq p q ihp ihq => simp only [P.ls, pageP, flats_append, ver_append, values_append, ihp hp.1, ihq hp.2]
  | lineBreak => rfl
  | label l => simp [pageP, leaves, flats, Node.flat, flatKids, P.ls, values, lineRow, Val.text', ver_entry]
  | line l v =>
    simp only [P.ls, pageP]
    by_cases hv : v.text' = []
    · rw [if_pos hv]
      split
      · rfl
      · simp [leaves, flats, Node.flat, flatKids, hv, ver_entry, values]
    · rw [if_neg hv, blank_of_ne hv]
      simp [leaves, flats, Node.flat, flatKids, hv, ver_entry, values, lineRow, hm]
  | instruction a m v => exact hp.elim
  | indent c h b _ ihb =>
    simp only [P.ls, pageP, flats_section, ver_append, values_append, ihb hp.2, headP_ver new m hm h hp.1 i x d]
  | field c l b ihb =>
    simp only [P.ls, pageP, flats_opt, values_opt, ihb hp.2]
  | id n h b _ ihb =>
    have e : flats i (pageP false m (.id n h b) d) =
        headEntries i (headsP m h) ++ flats (i + 1) (pageP false m b d) := by
      simp [pageP, flats, Node.flat, flatKids, headEntries]
    rw [e]
    simp only [P.ls, ver_append, values_append, ihb hp.2, headP_ver new m hm h hp.1 i x d]
  | fieldDetail j l b ihb =>
    simp only [P.ls, pageP, Bool.false_eq_true, if_false, flats_opt, values_opt, ihb hp.2.2]
  | inline p ih =>
    simp only [P.ls, pageP]
    split
    · rfl
    · exact ih hp i (d - 1)

/-- Nothing of the other version is shown for this one. -/
theorem headP_hidden (new : Bool) (p : P) (i : Nat) : ver new (headEntries i (headsP (otherMark new) p)) = [] := by
  induction p with
  | seq p q ihp ihq => simp only [headsP, headEntries_append, ver_append, ihp, ihq, List.append_nil]
  | label l => simp [headsP, headEntries, Val.text', ver_entry]
  | line l v =>
    simp only [headsP]
    split
    · rfl
    · simp [headEntries, ver_entry]
  | _ => rfl

theorem pageP_hidden (new : Bool) (p : P) (i : Nat) (d : Nat) :
    ver new (flats i (pageP false (otherMark new) p d)) = [] := by
  induction p generalizing i d with
  | seq p q ihp ihq => simp only [pageP, flats_append, ver_append, ihp, ihq, List.append_nil]
  | label l => simp [pageP, leaves, flats, Node.flat, flatKids, Val.text', ver_entry]
  | line l v =>
    simp only [pageP]
    split
    · rfl
    · simp [leaves, flats, Node.flat, flatKids, ver_entry]
  | indent c h b _ ihb => simp only [pageP, flats_section, ver_append, ihb, headP_hidden, List.append_nil]
  | field c l b ihb => simp only [pageP, flats_opt, ihb]
  | id n h b _ ihb =>
    have e : flats i (pageP false (otherMark new) (.id n h b) d) =
        headEntries i (headsP (otherMark new) h) ++ flats (i + 1) (pageP false (otherMark new) b d) := by
      simp [pageP, flats, Node.flat, flatKids, headEntries]
    rw [e, ver_append, ihb, headP_hidden]; rfl
  | fieldDetail j l b ihb => simp only [pageP, Bool.false_eq_true, if_false, flats_opt, ihb]
  | inline p ih =>
    simp only [pageP]
    split
    · rfl
    · exact ih i (d - 1)
  | _ => rfl

/-- An old and a new value: the version's own is shown. -/
theorem lineGroup_ver {same : Val → Val → Bool} (hsame : ∀ a b, same a b = true → a.text' = b.text') (new : Bool)
    (l : Str) (a b : Val) (i : Nat) (x : DiffPrefix) (d : Nat) :
    ver new (headEntries i (lineGroup same l a b)) = values ((P.line l (if new then b else a)).ls false i x d) := by
  have h1 : ∀ v : Val, values ((P.line l v).ls false i x d) = if v.text' = [] then [] else [⟨i, l, v.text'⟩] := by
    intro v
    simp only [P.ls]
    split
    · rfl
    · next h => simp [values, lineRow, h]
  have two : ∀ e f : Html.Entry, ver new [e, f] = ver new [e] ++ ver new [f] := fun e f => ver_append new [e] [f]
  rw [h1]
  unfold lineGroup
  split
  · next hs =>
    have ht := hsame a b hs
    have : (if new = true then b else a).text' = a.text' := by cases new <;> simp [ht]
    rw [this]
    split
    · next hb => rw [if_pos (text_of_blank hb)]; rfl
    · simp [headEntries, ver_entry, same_ne]
  · split
    · next hb =>
      have ha := text_of_blank hb
      cases new <;> simp [headEntries, ver_entry, otherMark, ha]
    · split
      · next hb =>
        have hb := text_of_blank hb
        cases new <;> simp [headEntries, ver_entry, otherMark, hb]
      · cases new <;> simp [headEntries, two, ver_entry, otherMark]

theorem headD_ver {same : Val → Val → Bool} (hsame : ∀ a b, same a b = true → a.text' = b.text') (new : Bool) (e : D)
    (he : FlatD e) (i : Nat) (x : DiffPrefix) (d : Nat) :
    ver new (headEntries i (headsD same e)) = values ((e.side new).ls false i x d) := by
  induction e with
  | skip => rfl
  | seq p q ihp ihq => simp only [D.side, P.ls, headsD, headEntries_append, ver_append, values_append, ihp he.1, ihq he.2]
  | lineBreak => rfl
  | label l => simp [headsD, D.side, headEntries, P.ls, values, lineRow, Val.text', ver_entry]
  | line l a b => exact lineGroup_ver hsame new l a b i x d
  | printIfDiff e ih => exact ih he
  | ignoreDiff f e ih => exact ih he
  | _ => exact he.elim

/-- What the page of a diff shows of one version is what that version's listing says. -/
theorem pageD_ver {same : Val → Val → Bool} (hsame : ∀ a b, same a b = true → a.text' = b.text') (new : Bool) (e : D)
    (he : TreeD e) (i : Nat) (x : DiffPrefix) (d : Nat) :
    ver new (flats i (pageD same false e d)) = values ((e.side new).ls false i x d) := by
  induction e generalizing i d with
  | skip => rfl
  | seq p q ihp ihq => simp only [D.side, P.ls, pageD, flats_append, ver_append, values_append, ihp he.1, ihq he.2]
  | lineBreak => rfl
  | label l => simp [pageD, D.side, leaves, flats, Node.flat, flatKids, P.ls, values, lineRow, Val.text', ver_entry]
  | line l a b =>
    simp only [pageD, flats_leaves]
    exact lineGroup_ver hsame new l a b i x d
  | indent c h b _ ihb =>
    simp only [D.side, P.ls, pageD, flats_section, ver_append, values_append, ihb he.2, headD_ver hsame new h he.1 i x d]
  | field c l b ihb => simp only [D.side, P.ls, pageD, flats_opt, values_opt, ihb he.2]
  | id n h b _ ihb =>
    have e' : flats i (pageD same false (.id n h b) d) =
        headEntries i (headsD same h) ++ flats (i + 1) (pageD same false b d) := by
      simp [pageD, flats, Node.flat, flatKids, headEntries]
    rw [e']
    simp only [D.side, P.ls, ver_append, values_append, ihb he.2, headD_ver hsame new h he.1 i x d]
  | inline p ih =>
    simp only [D.side, P.ls, pageD]
    split
    · rfl
    · exact ih he i (d - 1)
  | prefixDelete p =>
    cases new with
    | false => exact pageP_ver false .del (by decide) p he i x d
    | true => exact pageP_hidden true p i d
  | prefixAdd p =>
    cases new with
    | false => exact pageP_hidden false p i d
    | true => exact pageP_ver true .add (by decide) p he i x d
  | block a b =>
    simp only [pageD, flats_append, ver_append]
    cases new with
    | false => rw [pageP_ver false .del (by decide) a he.1 i x d, show pageP false .add b d = pageP false (otherMark false) b d from rfl, pageP_hidden]; simp [D.side]
    | true => rw [pageP_ver true .add (by decide) b he.2 i x d, show pageP false .del a d = pageP false (otherMark true) a d from rfl, pageP_hidden]; simp [D.side]
  | printIfDiff p ih => exact ih he i d
  | ignoreDiff f p ih => exact ih he i d

theorem values_rows (x : DiffPrefix) (rows : List Row) : values (rows.map (Row.line x 0)) = valued rows := by
  induction rows with
  | nil => rfl
  | cons r rows ih =>
    have : values ((r :: rows).map (Row.line x 0)) = values [Row.line x 0 r] ++ values (rows.map (Row.line x 0)) :=
      values_append [_] _
    rw [this, ih]
    by_cases h : r.text = []
    · simp [valued, values, Row.line, lineRow, h]
    · simp [valued, values, Row.line, lineRow, h]

theorem values_brk (ls : List Line) : values (ls ++ [.brk]) = values ls := by
  rw [values_append]; simp [values, lineRow]

end Verif.Page
