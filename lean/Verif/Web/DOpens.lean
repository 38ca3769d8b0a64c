import Verif.Web.DOut
import Verif.Web.DWalk
import Verif.Web.Opens
import Verif.Web.DiffSpec
/-!
# When opening the items of a served diff gives the printed diff
-/
namespace Verif.Web
open Verif.Print Verif.Html

variable {t : EntityTable} {alnum : Nat → Bool}

/-! ### What a diff writes does not depend on `http` where there are no ids -/

theorem CleanD.flat {e : D} (h : CleanD e) : FlatHeadsD e := by
  induction e with
  | seq p q ihp ihq => exact ⟨ihp h.1, ihq h.2⟩
  | indent c hd b _ ih => exact ⟨h.1, ih h.2⟩
  | field c l b ih => exact ih h.2
  | id => exact h.elim
  | inline p ih => exact ih h
  | prefixDelete p => exact (Clean.noIds h).flat
  | prefixAdd p => exact (Clean.noIds h).flat
  | block a b => exact ⟨(Clean.noIds h.1).flat, (Clean.noIds h.2).flat⟩
  | printIfDiff p ih => exact ih h
  | ignoreDiff g p ih => exact ih h
  | _ => trivial

theorem CleanD.html_eq {e : D} (h : CleanD e) (d : Nat) (x : DiffPrefix) (f : Bool) :
    htmlD t alnum true e d x f = htmlD t alnum false e d x f := by
  induction e generalizing d x f with
  | seq p q ihp ihq => simp only [htmlD, ihp h.1, ihq h.2]
  | indent c hd b _ ih => simp only [htmlD, ih h.2]
  | field c l b ih => simp only [htmlD, ih h.2]
  | id => exact h.elim
  | inline p ih => simp only [htmlD, ih h]
  | prefixDelete p => simp only [htmlD, (Clean.noIds h).html_eq]
  | prefixAdd p => simp only [htmlD, (Clean.noIds h).html_eq]
  | block a b => simp only [htmlD, (Clean.noIds h.1).html_eq, (Clean.noIds h.2).html_eq]
  | printIfDiff p ih => simp only [htmlD, ih h]
  | ignoreDiff g p ih => simp only [htmlD, ih h]
  | _ => rfl

/-! ### The mark before does not matter, unless it is `modify` -/

/-- Results that are the same up to the mark. -/
def Alike (r r' : Str × DiffPrefix × Bool) : Prop :=
  r.1 = r'.1 ∧ (r.2.1 = .modify ↔ r'.2.1 = .modify) ∧ r.2.2 = r'.2.2

theorem Alike.refl (r : Str × DiffPrefix × Bool) : Alike r r := ⟨rfl, Iff.rfl, rfl⟩

theorem bothPfx_alike {x y : DiffPrefix} (h : x = .modify ↔ y = .modify) : bothPfx x = bothPfx y := by
  unfold bothPfx
  simp only [h]

theorem lineD_alike (s : Bool) (l : Str) (a b : Val) {x y : DiffPrefix} (h : x = .modify ↔ y = .modify) (f : Bool) :
    Alike (lineD t alnum s l a b x f) (lineD t alnum s l a b y f) := by
  unfold lineD
  rw [bothPfx_alike h]
  (repeat' split) <;> first | exact ⟨rfl, h, rfl⟩ | exact Alike.refl _

theorem headD_alike (s : Bool) (e : D) {x y : DiffPrefix} (h : x = .modify ↔ y = .modify) (f : Bool) :
    Alike (headD t alnum s e x f) (headD t alnum s e y f) := by
  induction e generalizing x y f with
  | seq p q ihp ihq =>
    obtain ⟨h1, h2, h3⟩ := ihp h f
    obtain ⟨g1, g2, g3⟩ := ihq h2 (headD t alnum s p x f).2.2
    simp only [headD]
    rw [← h3]
    exact ⟨by simp only [h1, g1], g2, g3⟩
  | label l => simp only [headD]; rw [bothPfx_alike h]; exact Alike.refl _
  | line l a b => exact lineD_alike s l a b h f
  | printIfDiff p ih =>
    obtain ⟨h1, h2, h3⟩ := ih h false
    exact ⟨h1, h, by simp only [headD, h3]⟩
  | ignoreDiff g p ih =>
    obtain ⟨h1, h2, h3⟩ := ih h f
    exact ⟨h1, h2, by simp only [headD, h3]⟩
  | _ => exact ⟨rfl, h, rfl⟩

theorem htmlD_alike (http : Bool) (e : D) (d : Nat) {x y : DiffPrefix} (h : x = .modify ↔ y = .modify) (f : Bool) :
    Alike (htmlD t alnum http e d x f) (htmlD t alnum http e d y f) := by
  induction e generalizing d x y f with
  | seq p q ihp ihq =>
    obtain ⟨h1, h2, h3⟩ := ihp d h f
    obtain ⟨g1, g2, g3⟩ := ihq d h2 (htmlD t alnum http p d x f).2.2
    simp only [htmlD]
    rw [← h3]
    exact ⟨by simp only [h1, g1], g2, g3⟩
  | label l => simp only [htmlD]; rw [bothPfx_alike h]; exact Alike.refl _
  | line l a b => exact lineD_alike _ l a b h f
  | indent c hd b _ ih =>
    simp only [htmlD]
    split
    · exact headD_alike _ hd h f
    · exact Alike.refl _
  | field c l b ih =>
    simp only [htmlD]
    split
    · exact ⟨rfl, h, rfl⟩
    · exact Alike.refl _
  | id n hd b _ _ => exact Alike.refl _
  | inline p ih =>
    simp only [htmlD]
    split
    · exact ⟨rfl, h, rfl⟩
    · exact ih _ h f
  | prefixDelete p => exact Alike.refl _
  | prefixAdd p => exact Alike.refl _
  | block a b =>
    simp only [htmlD]
    split
    · exact ⟨rfl, h, rfl⟩
    · exact ⟨rfl, h, rfl⟩
  | printIfDiff p ih =>
    obtain ⟨h1, h2, h3⟩ := ih d h false
    exact ⟨h1, h, by simp only [htmlD, h3]⟩
  | ignoreDiff g p ih =>
    obtain ⟨h1, h2, h3⟩ := ih d h f
    exact ⟨h1, h2, by simp only [htmlD, h3]⟩
  | _ => exact ⟨rfl, h, rfl⟩

/-! ### Headers -/

theorem wrap_reads {h : Str} {ls : List Shown} (hr : LineReads t alnum h ls) : HeadReads t alnum (wrapLine true h) ls := .line hr

theorem lineD_reads {l : Str} (hl : Plain l) (a b : Val) (x : DiffPrefix) (f : Bool) :
    ∃ ls, HeadReads t alnum (lineD t alnum true l a b x f).1 ls := by
  unfold lineD
  by_cases hab : valueHtml t alnum a = valueHtml t alnum b
  · rw [if_pos hab]
    cases ha : (valueHtml t alnum a).isEmpty
    · exact ⟨_, wrap_reads (lineReads_value (bothPfx x) hl a (by rw [← blank_isEmpty t alnum]; exact ha))⟩
    · exact ⟨[], .nil⟩
  · rw [if_neg hab]
    cases ha : (valueHtml t alnum a).isEmpty
    · cases hb : (valueHtml t alnum b).isEmpty
      · exact ⟨_, wrap_reads (lineReads_changed hl a b (by rw [← blank_isEmpty t alnum]; exact ha) (by rw [← blank_isEmpty t alnum]; exact hb))⟩
      · exact ⟨_, wrap_reads (lineReads_value .delete hl a (by rw [← blank_isEmpty t alnum]; exact ha))⟩
    · have hb : (valueHtml t alnum b).isEmpty = false := by
        cases hb : (valueHtml t alnum b).isEmpty with
        | false => rfl
        | true =>
          rw [List.isEmpty_iff] at ha hb
          exact absurd (ha.trans hb.symm) hab
      exact ⟨_, wrap_reads (lineReads_value .add hl b (by rw [← blank_isEmpty t alnum]; exact hb))⟩

theorem headD_reads {e : D} (he : FlatD e) (x : DiffPrefix) (f : Bool) :
    ∃ ls, HeadReads t alnum (headD t alnum true e x f).1 ls := by
  induction e generalizing x f with
  | skip => exact ⟨[], .nil⟩
  | seq p q ihp ihq =>
    obtain ⟨l1, h1⟩ := ihp he.1 x f
    obtain ⟨l2, h2⟩ := ihq he.2 (headD t alnum true p x f).2.1 (headD t alnum true p x f).2.2
    exact ⟨l1 ++ l2, .append h1 h2⟩
  | lineBreak => exact ⟨[], .nil⟩
  | label l => exact ⟨_, wrap_reads (lineReads_label (bothPfx x) he)⟩
  | line l a b => exact lineD_reads he a b x f
  | printIfDiff p ih => exact ih he x false
  | ignoreDiff g p ih => exact ih he x f
  | _ => exact he.elim

/-! ### Marks -/

theorem Unmarks.mid {a a' : Str} (h : Unmarks a a') (l r : Str) : Unmarks (l ++ a ++ r) (l ++ a' ++ r) :=
  .append (.append (.same l) h) (.same r)

theorem unmark_line {x : DiffPrefix} (hx : x = .delete ∨ x = .add) (l buf : Str) :
    Unmarks (lineIn x l buf) (lineIn .none l buf) := by
  cases hb : buf.isEmpty with
  | true =>
    rw [List.isEmpty_iff] at hb
    subst hb
    have : lineIn x l [] = lineIn .none l [] := by
      rcases hx with rfl | rfl <;> rfl
    rw [this]
    exact .same _
  | false =>
    unfold lineIn
    simp only [hb, Bool.false_eq_true, if_false]
    have e1 : lit "<span" ++ classOf .delete ++ lit ">" = lit "<span class=\"field del\">" := by decide
    have e2 : lit "<span" ++ classOf .add ++ lit ">" = lit "<span class=\"field add\">" := by decide
    have e3 : lit "<span" ++ classOf .none ++ lit ">" = lit "<span class=\"field\">" := by decide
    refine .append (.same _) (.append (.append ?_ (.same _)) (.same _))
    rw [e3]
    rcases hx with rfl | rfl
    · rw [e1]; exact .del
    · rw [e2]; exact .add

theorem unmark_head {x : DiffPrefix} (hx : x = .delete ∨ x = .add) (p : P) :
    Unmarks (headHtml t alnum x p) (headHtml t alnum .none p) := by
  induction p with
  | seq p q ihp ihq => exact .append ihp ihq
  | label l => exact unmark_line hx l []
  | line l v =>
    simp only [headHtml]
    split
    · exact .same _
    · exact unmark_line hx l _
  | _ => exact .same _

theorem unmark_leaf {a b : Str} (h : Unmarks a b) : Unmarks (leafHtml a) (leafHtml b) := h.mid _ _

theorem unmark_leaves {x : DiffPrefix} (hx : x = .delete ∨ x = .add) (p : P) :
    Unmarks (leavesHtml t alnum x p) (leavesHtml t alnum .none p) := by
  induction p with
  | seq p q ihp ihq => exact .append ihp ihq
  | label l => exact unmark_leaf (unmark_line hx l [])
  | line l v =>
    simp only [leavesHtml]
    split
    · exact .same _
    · exact unmark_leaf (unmark_line hx l _)
  | _ => exact .same _

theorem unmark_branch (c : Bool) {h h' b b' : Str} (hh : Unmarks h h') (hb : Unmarks b b') :
    Unmarks (branchHtml c h b) (branchHtml c h' b') :=
  .append (.append (.append (.append (.same _) hh) (.same _)) hb) (.same _)

theorem leaves_empty (x y : DiffPrefix) (p : P) : leavesHtml t alnum x p = [] ↔ leavesHtml t alnum y p = [] := by
  induction p with
  | seq p q ihp ihq => simp only [leavesHtml, List.append_eq_nil_iff, ihp, ihq]
  | label l => simp [leavesHtml, leaf_ne]
  | line l v => simp only [leavesHtml]; split <;> simp [leaf_ne]
  | _ => exact Iff.rfl

theorem html_empty (http : Bool) (x y : DiffPrefix) (p : P) (d : Nat) :
    html t alnum http x p d = [] ↔ html t alnum http y p d = [] := by
  induction p generalizing d with
  | seq p q ihp ihq => simp only [html, List.append_eq_nil_iff, ihp, ihq]
  | label l => simp [html, leaf_ne]
  | line l v => simp only [html]; split <;> simp [leaf_ne]
  | instruction a m v => exact Iff.rfl
  | indent c h b _ ih =>
    have e : (html t alnum http x b d).isEmpty = (html t alnum http y b d).isEmpty := by
      rw [Bool.eq_iff_iff, List.isEmpty_iff, List.isEmpty_iff]; exact ih d
    simp only [html, e]
    split
    · exact leaves_empty x y h
    · simp [branch_ne]
  | field c l b ih =>
    have e : (html t alnum http x b d).isEmpty = (html t alnum http y b d).isEmpty := by
      rw [Bool.eq_iff_iff, List.isEmpty_iff, List.isEmpty_iff]; exact ih d
    simp only [html, e]
    split
    · exact Iff.rfl
    · simp [branch_ne]
  | id n h b _ ih => simp [html, id_ne]
  | fieldDetail i l b ih =>
    have e : (html t alnum http x b d).isEmpty = (html t alnum http y b d).isEmpty := by
      rw [Bool.eq_iff_iff, List.isEmpty_iff, List.isEmpty_iff]; exact ih d
    simp only [html, e]
    have e4 : lit "</li>\n" ≠ [] := by decide
    cases http
    · simp only [Bool.false_eq_true, if_false]
      split
      · exact Iff.rfl
      · simp [branch_ne]
    · simp [e4]
  | inline p ih =>
    simp only [html]
    split
    · exact Iff.rfl
    · exact ih _
  | _ => exact Iff.rfl

theorem html_isEmpty (http : Bool) (x y : DiffPrefix) (p : P) (d : Nat) :
    (html t alnum http x p d).isEmpty = (html t alnum http y p d).isEmpty := by
  rw [Bool.eq_iff_iff, List.isEmpty_iff, List.isEmpty_iff]; exact html_empty http x y p d

theorem unmark_html {x : DiffPrefix} (hx : x = .delete ∨ x = .add) (p : P) (d : Nat) :
    Unmarks (html t alnum false x p d) (html t alnum false .none p d) := by
  induction p generalizing d with
  | seq p q ihp ihq => exact .append (ihp d) (ihq d)
  | label l => exact unmark_leaf (unmark_line hx l [])
  | line l v =>
    simp only [html]
    split
    · exact .same _
    · exact unmark_leaf (unmark_line hx l _)
  | indent c h b _ ih =>
    simp only [html, html_isEmpty false x .none b d]
    split
    · exact unmark_leaves hx h
    · exact unmark_branch c (unmark_head hx h) (ih d)
  | field c l b ih =>
    simp only [html, html_isEmpty false x .none b d]
    split
    · exact .same _
    · exact unmark_branch c (unmark_line hx l []) (ih d)
  | id n h b _ ih =>
    simp only [html, idHtml, Bool.false_eq_true, if_false]
    exact .append (.append (.append (.append (.same _) (unmark_head hx h)) (.same _)) (ih d)) (.same _)
  | fieldDetail i l b ih =>
    simp only [html, Bool.false_eq_true, if_false, html_isEmpty false x .none b d]
    split
    · exact .same _
    · exact unmark_branch true (unmark_line hx l []) (ih d)
  | inline p ih =>
    simp only [html]
    split
    · exact .same _
    · exact ih _
  | _ => exact .same _

/-! ### Deleted and added items -/

/-- Opening the items of something deleted or added gives what is printed, up to marks. -/
theorem site_opens_marked {load : Nat → Option Str → Str} {d : Nat} {own : Option Nat} {p : P}
    (h : Site t alnum load d own p) {x : DiffPrefix} (hx : x = .delete ∨ x = .add) :
    ∃ full, Opens t alnum load own (html t alnum true x p d) full ∧ Unmarks (html t alnum false x p d) full ∧
      (own = none → (html t alnum true x p d = [] ↔ html t alnum false x p d = [])) := by
  have hemp : own = none → (html t alnum true x p d = [] ↔ html t alnum false x p d = []) := fun e => by
    rw [html_empty true x .none, html_empty false x .none]
    exact (site_opens h).2 e
  suffices hs : ∃ full, Opens t alnum load own (html t alnum true x p d) full ∧ Unmarks (html t alnum false x p d) full by
    obtain ⟨full, h1, h2⟩ := hs
    exact ⟨full, h1, h2, hemp⟩
  clear hemp
  induction p generalizing own with
  | seq p q ihp ihq =>
    obtain ⟨f1, a1, b1⟩ := ihp h.1
    obtain ⟨f2, a2, b2⟩ := ihq h.2
    exact ⟨f1 ++ f2, .append a1 a2, .append b1 b2⟩
  | indent c hd b _ ih =>
    obtain ⟨f, b1, b2⟩ := ih h.2
    have e : (html t alnum true x b d).isEmpty = (html t alnum false x b d).isEmpty := by
      rw [html_isEmpty true x .none, html_isEmpty false x .none, Bool.eq_iff_iff, List.isEmpty_iff, List.isEmpty_iff]
      exact (site_opens h.2).2 rfl
    simp only [html, e]
    split
    · exact ⟨_, .same _ _, .same _⟩
    · exact ⟨_, branch_opens c _ (b1.weaken rfl own), unmark_branch c (.same _) b2⟩
  | field c l b ih =>
    obtain ⟨f, b1, b2⟩ := ih h
    have e : (html t alnum true x b d).isEmpty = (html t alnum false x b d).isEmpty := by
      rw [html_isEmpty true x .none, html_isEmpty false x .none, Bool.eq_iff_iff, List.isEmpty_iff, List.isEmpty_iff]
      exact (site_opens (p := b) h).2 rfl
    simp only [html, e]
    split
    · exact ⟨_, .same _ _, .same _⟩
    · exact ⟨_, branch_opens c _ (b1.weaken rfl own), unmark_branch c (.same _) b2⟩
  | id n hd b _ ih =>
    have b1 := (site_opens h.2.2).1
    rw [← h.2.1] at b1
    have := Opens.item own n (head_reads h.1 x) b1
    have e1 : lit "<li class=\"treebranch lazy\" id=\"" = lit "<li class=\"treebranch" ++ lit " lazy" ++ lit "\" id=\"" := by
      decide
    have e2 : lit "<li class=\"treebranch\" id=\"" = lit "<li class=\"treebranch" ++ [] ++ lit "\" id=\"" := by
      decide
    rw [e1, e2] at this
    simp only [html, idHtml, if_true, Bool.false_eq_true, if_false, List.append_nil] at this ⊢
    exact ⟨_, this, .append (.append (.append (.append (.same _) (.same _)) (.same _)) (unmark_html hx b d)) (.same _)⟩
  | fieldDetail i l b ih =>
    cases own with
    | none => exact h.elim
    | some n =>
      have := Opens.detail (t := t) (alnum := alnum) (load := load) n i l
      have e1 : lit "\"><span>" = lit "\">" ++ lit "<span>" := by decide
      have e2 : lit ":</span></li>\n" = lit ":</span>" ++ lit "</li>\n" := by decide
      have el : lineIn x l [] = lineIn .none l [] := by rcases hx with rfl | rfl <;> rfl
      have e3 : detailSection l (load n (some i)) =
          if (html t alnum false .none b d).isEmpty then []
          else branchHtml true (lineIn .none l []) (html t alnum false .none b d) := by
        rw [h.2, h.1.html_eq, detailSection]
        simp only [List.isEmpty_iff]
        split
        · rfl
        · have e4 : lit "<li class=\"treebranch\"><span>" = lit "<li class=\"treebranch\">" ++ lit "<span>" := by decide
          have e5 : lit ":</span><ul style=\"display:none\">\n" = lit ":</span>" ++ lit "<ul style=\"display:none\">\n" := by
            decide
          rw [branchHtml, lineIn_label, e4, e5, if_pos rfl]
          simp only [List.append_assoc]
      rw [e1, e2] at this
      refine ⟨detailSection l (load n (some i)), ?_, ?_⟩
      · simp only [html, if_true, el, lineIn_label, List.append_assoc] at this ⊢
        exact this
      · rw [e3]
        simp only [html, Bool.false_eq_true, if_false, html_isEmpty false x .none b d, el]
        split
        · exact .same _
        · exact unmark_branch true (.same _) (unmark_html hx b d)
  | inline p ih =>
    have : html t alnum true x (.inline p) d = html t alnum false x (.inline p) d :=
      NoIds.html_eq (p := .inline p) h x d
    rw [this]
    exact ⟨_, .same _ _, .same _⟩
  | _ => exact ⟨_, .same _ _, .same _⟩

/-! ### Diffs -/

/-- The answers `load` are right for all items of a diff; `d` is the inline depth. If `strict`, nothing deleted or
added has items that are not opened. -/
def SiteD (t : EntityTable) (alnum : Nat → Bool) (load : Nat → Option Str → Str) (strict : Bool) (d : Nat) : D → Prop
  | .seq p q => SiteD t alnum load strict d p ∧ SiteD t alnum load strict d q
  | .indent _ h b => FlatD h ∧ SiteD t alnum load strict d b
  | .field _ _ b => SiteD t alnum load strict d b
  | .id n h b => FlatD h ∧ load n none = (htmlD t alnum true b d .none false).1 ∧ SiteD t alnum load strict d b
  | .inline e => CleanD e
  | .prefixDelete p => Site t alnum load d none p ∧ (strict = true → NoIds p)
  | .prefixAdd p => Site t alnum load d none p ∧ (strict = true → NoIds p)
  | .block a b => NoIds a ∧ NoIds b
  | .printIfDiff e => SiteD t alnum load strict d e
  | .ignoreDiff _ e => SiteD t alnum load strict d e
  | _ => True

theorem SiteD.flat {load : Nat → Option Str → Str} {strict : Bool} {d : Nat} {e : D} (h : SiteD t alnum load strict d e) :
    FlatHeadsD e := by
  induction e with
  | seq p q ihp ihq => exact ⟨ihp h.1, ihq h.2⟩
  | indent c hd b _ ih => exact ⟨h.1, ih h.2⟩
  | field c l b ih => exact ih h
  | id n hd b _ ih => exact ⟨h.1, ih h.2.2⟩
  | inline p ih => exact CleanD.flat h
  | prefixDelete p => exact h.1.flat
  | prefixAdd p => exact h.1.flat
  | block a b => exact ⟨h.1.flat, h.2.flat⟩
  | printIfDiff p ih => exact ih h
  | ignoreDiff g p ih => exact ih h
  | _ => trivial

theorem CleanD.siteD {e : D} (h : CleanD e) (load : Nat → Option Str → Str) (strict : Bool) (d : Nat) :
    SiteD t alnum load strict d e := by
  induction e with
  | seq p q ihp ihq => exact ⟨ihp h.1, ihq h.2⟩
  | indent c hd b _ ih => exact ⟨h.1, ih h.2⟩
  | field c l b ih => exact ih h.2
  | id => exact h.elim
  | inline p ih => exact h
  | prefixDelete p => exact ⟨(Clean.noIds h).site _ _ _, fun _ => Clean.noIds h⟩
  | prefixAdd p => exact ⟨(Clean.noIds h).site _ _ _, fun _ => Clean.noIds h⟩
  | block a b => exact ⟨Clean.noIds h.1, Clean.noIds h.2⟩
  | printIfDiff p ih => exact ih h
  | ignoreDiff g p ih => exact ih h
  | _ => trivial

/-- Opening the items of the served diff gives the printed diff, up to marks. -/
theorem siteD_opens {load : Nat → Option Str → Str} {strict : Bool} {d : Nat} {e : D}
    (h : SiteD t alnum load strict d e) (x : DiffPrefix) (f : Bool) :
    ∃ full, Opens t alnum load none (htmlD t alnum true e d x f).1 full ∧
      Unmarks (htmlD t alnum false e d x f).1 full ∧ (strict = true → full = (htmlD t alnum false e d x f).1) ∧
      ((htmlD t alnum true e d x f).1 = [] ↔ (htmlD t alnum false e d x f).1 = []) ∧
      (htmlD t alnum true e d x f).2 = (htmlD t alnum false e d x f).2 := by
  have same : ∀ {e : D}, htmlD t alnum true e d x f = htmlD t alnum false e d x f →
    ∃ full, Opens t alnum load none (htmlD t alnum true e d x f).1 full ∧
      Unmarks (htmlD t alnum false e d x f).1 full ∧ (strict = true → full = (htmlD t alnum false e d x f).1) ∧
      ((htmlD t alnum true e d x f).1 = [] ↔ (htmlD t alnum false e d x f).1 = []) ∧
      (htmlD t alnum true e d x f).2 = (htmlD t alnum false e d x f).2 := fun {e} he => by
    rw [he]
    exact ⟨_, .same _ _, .same _, fun _ => rfl, Iff.rfl, rfl⟩
  induction e generalizing x f with
  | seq p q ihp ihq =>
    obtain ⟨f1, a1, a2, a3, a4, a5⟩ := ihp h.1 x f (fun he => by rw [he]; exact ⟨_, .same _ _, .same _, fun _ => rfl, Iff.rfl, rfl⟩)
    obtain ⟨f2, b1, b2, b3, b4, b5⟩ := ihq h.2 (htmlD t alnum false p d x f).2.1 (htmlD t alnum false p d x f).2.2
      (fun he => by rw [he]; exact ⟨_, .same _ _, .same _, fun _ => rfl, Iff.rfl, rfl⟩)
    simp only [htmlD, a5]
    exact ⟨f1 ++ f2, .append a1 b1, .append a2 b2, fun hs => by rw [a3 hs, b3 hs],
      by simp only [List.append_eq_nil_iff, a4, b4], b5⟩
  | indent c hd b _ ih =>
    obtain ⟨f1, a1, a2, a3, a4, a5⟩ := ih h.2 .equal false
      (fun he => by rw [he]; exact ⟨_, .same _ _, .same _, fun _ => rfl, Iff.rfl, rfl⟩)
    have e : (htmlD t alnum true b d .equal false).1.isEmpty = (htmlD t alnum false b d .equal false).1.isEmpty := by
      rw [Bool.eq_iff_iff, List.isEmpty_iff, List.isEmpty_iff]; exact a4
    simp only [htmlD, e, a5]
    split
    · exact ⟨_, .same _ _, .same _, fun _ => rfl, Iff.rfl, rfl⟩
    · exact ⟨_, branch_opens c _ a1, unmark_branch c (.same _) a2, fun hs => by rw [a3 hs], by simp [branch_ne], rfl⟩
  | field c l b ih =>
    obtain ⟨f1, a1, a2, a3, a4, a5⟩ := ih h .equal false
      (fun he => by rw [he]; exact ⟨_, .same _ _, .same _, fun _ => rfl, Iff.rfl, rfl⟩)
    have e : (htmlD t alnum true b d .equal false).1.isEmpty = (htmlD t alnum false b d .equal false).1.isEmpty := by
      rw [Bool.eq_iff_iff, List.isEmpty_iff, List.isEmpty_iff]; exact a4
    simp only [htmlD, e, a5]
    split
    · exact ⟨_, .same _ _, .same _, fun _ => rfl, Iff.rfl, rfl⟩
    · exact ⟨_, branch_opens c _ a1, unmark_branch c (.same _) a2, fun hs => by rw [a3 hs], by simp [branch_ne], rfl⟩
  | id n hd b _ ih =>
    obtain ⟨f1, a1, a2, a3, a4, a5⟩ := ih h.2.2 .none false
      (fun he => by rw [he]; exact ⟨_, .same _ _, .same _, fun _ => rfl, Iff.rfl, rfl⟩)
    obtain ⟨g1, g2, g3⟩ := htmlD_alike (t := t) (alnum := alnum) false b d (x := .none) (y := .equal) (by simp) false
    obtain ⟨k1, k2, k3⟩ := htmlD_alike (t := t) (alnum := alnum) true b d (x := .none) (y := .equal) (by simp) false
    have ef : (htmlD t alnum true b d .equal false).2.2 = (htmlD t alnum false b d .equal false).2.2 := by
      rw [← k3, ← g3, a5]
    rw [← h.2.1] at a1
    obtain ⟨ls, hls⟩ := headD_reads (t := t) (alnum := alnum) h.1 (headPfx (htmlD t alnum true b d .equal false).2.2) false
    have := Opens.item none n hls (a1.weaken rfl (some n))
    have e1 : lit "<li class=\"treebranch lazy\" id=\"" = lit "<li class=\"treebranch" ++ lit " lazy" ++ lit "\" id=\"" := by
      decide
    have e2 : lit "<li class=\"treebranch\" id=\"" = lit "<li class=\"treebranch" ++ [] ++ lit "\" id=\"" := by
      decide
    rw [e1, e2] at this
    simp only [htmlD, ef, idHtml, if_true, Bool.false_eq_true, if_false, List.append_nil] at this ⊢
    rw [g1] at a2 a3
    refine ⟨_, this, .append (.append (.append (.append (.same _) (.same _)) (.same _)) a2) (.same _),
      fun hs => by rw [a3 hs], ?_, trivial⟩
    simp only [List.append_eq_nil_iff]
    constructor <;> intro hh <;> exact absurd hh.2 (by decide)
  | inline p ih => exact same (CleanD.html_eq (e := .inline p) h d x f)
  | prefixDelete p =>
    obtain ⟨f1, a1, a2, a3⟩ := site_opens_marked h.1 (x := .delete) (.inl rfl)
    by_cases hs : strict = true
    · exact same (by simp only [htmlD, (h.2 hs).html_eq])
    · exact ⟨f1, a1, a2, fun h => absurd h hs, a3 rfl, rfl⟩
  | prefixAdd p =>
    obtain ⟨f1, a1, a2, a3⟩ := site_opens_marked h.1 (x := .add) (.inr rfl)
    by_cases hs : strict = true
    · exact same (by simp only [htmlD, (h.2 hs).html_eq])
    · exact ⟨f1, a1, a2, fun h => absurd h hs, a3 rfl, rfl⟩
  | block a b => exact same (by simp only [htmlD, h.1.html_eq, h.2.html_eq])
  | printIfDiff p ih =>
    obtain ⟨f1, a1, a2, a3, a4, a5⟩ := ih h x false
      (fun he => by rw [he]; exact ⟨_, .same _ _, .same _, fun _ => rfl, Iff.rfl, rfl⟩)
    simp only [htmlD, a5]
    exact ⟨f1, a1, a2, a3, a4, trivial⟩
  | ignoreDiff g p ih =>
    obtain ⟨f1, a1, a2, a3, a4, a5⟩ := ih h x f same
    simp only [htmlD, a5]
    exact ⟨f1, a1, a2, a3, a4, trivial⟩
  | _ => exact same rfl

end Verif.Web
