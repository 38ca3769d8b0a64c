import Verif.Web.Out
/-!
# When opening the items of a served page gives the printed page
-/
namespace Verif.Web
open Verif.Print Verif.Html

variable {t : EntityTable} {alnum : Nat → Bool}

/-- A program without ids and details, and with headers that only write lines. -/
def NoIds : P → Prop
  | .seq p q => NoIds p ∧ NoIds q
  | .indent _ h b => FlatP h ∧ NoIds b
  | .field _ _ b => NoIds b
  | .id .. => False
  | .fieldDetail .. => False
  | .inline p => NoIds p
  | _ => True

/-- The answers `load` are right for all items of a program, which is the body of the item `own`;
`d` is the inline depth. -/
def Site (t : EntityTable) (alnum : Nat → Bool) (load : Nat → Option Str → Str) (d : Nat) : Option Nat → P → Prop
  | own, .seq p q => Site t alnum load d own p ∧ Site t alnum load d own q
  | _, .indent _ h b => FlatP h ∧ Site t alnum load d none b
  | _, .field _ _ b => Site t alnum load d none b
  | _, .id n h b => FlatP h ∧ load n none = html t alnum true .none b d ∧ Site t alnum load d (some n) b
  | some n, .fieldDetail i _ b => NoIds b ∧ load n (some i) = html t alnum true .none b d
  | none, .fieldDetail .. => False
  | _, .inline p => NoIds p
  | _, _ => True

theorem NoIds.flat {p : P} (h : NoIds p) : FlatHeads p := by
  induction p with
  | seq p q ihp ihq => exact ⟨ihp h.1, ihq h.2⟩
  | indent c hd b _ ih => exact ⟨h.1, ih h.2⟩
  | field c l b ih => exact ih h
  | id => exact h.elim
  | fieldDetail => exact h.elim
  | inline p ih => exact ih h
  | _ => trivial

theorem NoIds.site {p : P} (h : NoIds p) (load : Nat → Option Str → Str) (d : Nat) (own : Option Nat) :
    Site t alnum load d own p := by
  induction p generalizing own with
  | seq p q ihp ihq => exact ⟨ihp h.1 own, ihq h.2 own⟩
  | indent c hd b _ ih => exact ⟨h.1, ih h.2 none⟩
  | field c l b ih => exact ih h none
  | id => exact h.elim
  | fieldDetail => exact h.elim
  | inline p ih => exact h
  | _ => trivial

theorem Site.flat {load : Nat → Option Str → Str} {d : Nat} {own : Option Nat} {p : P} (h : Site t alnum load d own p) :
    FlatHeads p := by
  induction p generalizing own with
  | seq p q ihp ihq => exact ⟨ihp h.1, ihq h.2⟩
  | indent c hd b _ ih => exact ⟨h.1, ih h.2⟩
  | field c l b ih => exact ih h
  | id n hd b _ ih => exact ⟨h.1, ih h.2.2⟩
  | fieldDetail i l b ih =>
    cases own with
    | none => exact h.elim
    | some n => exact h.1.flat
  | inline p ih => exact NoIds.flat h
  | _ => trivial

theorem NoIds.html_eq {p : P} (h : NoIds p) (x : DiffPrefix) (d : Nat) :
    html t alnum true x p d = html t alnum false x p d := by
  induction p generalizing d with
  | seq p q ihp ihq => simp only [html, ihp h.1, ihq h.2]
  | indent c hd b _ ih => simp only [html, ih h.2]
  | field c l b ih => simp only [html, ih h]
  | id => exact h.elim
  | fieldDetail => exact h.elim
  | inline p ih => simp only [html, ih h]
  | _ => rfl

theorem head_reads {p : P} (h : FlatP p) (x : DiffPrefix) :
    HeadReads t alnum (headHtml t alnum x p) (headsP (markOf x) p).flatten := by
  induction p with
  | skip => exact .nil
  | seq p q ihp ihq =>
    simp only [headHtml, headsP, List.flatten_append]
    exact .append (ihp h.1) (ihq h.2)
  | lineBreak => exact .nil
  | label l => exact .line (lineReads_label x h)
  | line l v =>
    simp only [headHtml, headsP]
    cases hv : blank v
    · exact .line (lineReads_value x h v hv)
    · exact .nil
  | _ => exact h.elim

theorem Opens.weaken {load : Nat → Option Str → Str} {own : Option Nat} {a b : Str} (h : Opens t alnum load own a b) :
    own = none → ∀ own', Opens t alnum load own' a b := by
  induction h with
  | same => exact fun _ own' => .same own' _
  | append _ _ ih1 ih2 => exact fun e own' => .append (ih1 e own') (ih2 e own')
  | item own n h1 h2 _ => exact fun _ own' => .item own' n h1 h2
  | detail => intro e; cases e

theorem leaf_ne (h : Str) : leafHtml h ≠ [] := by
  unfold leafHtml
  intro e
  simp only [List.append_eq_nil_iff] at e
  exact absurd e.2 (by decide)

theorem branch_ne (c : Bool) (h b : Str) : branchHtml c h b ≠ [] := by
  unfold branchHtml
  intro e
  simp only [List.append_eq_nil_iff] at e
  exact absurd e.2 (by decide)

theorem id_ne (http : Bool) (n : Nat) (h b : Str) : idHtml http n h b ≠ [] := by
  unfold idHtml
  intro e
  simp only [List.append_eq_nil_iff] at e
  exact absurd e.2 (by decide)

theorem branch_opens {load : Nat → Option Str → Str} {own : Option Nat} (c : Bool) (h : Str) {a b : Str}
    (hab : Opens t alnum load own a b) : Opens t alnum load own (branchHtml c h a) (branchHtml c h b) :=
  .append (.append (.same _ _) hab) (.same _ _)

theorem lineIn_label (l : Str) : lineIn .none l [] = lit "<span>" ++ l ++ lit ":</span>" := by
  have e : lit "<span>" = lit "<span" ++ lit ">" := by decide
  have e2 : lit ":</span>" = lit ":" ++ lit "</span>" := by decide
  rw [e, e2]
  simp [lineIn, List.append_assoc]

/-- Opening the items of the served page gives the printed page. -/
theorem site_opens {load : Nat → Option Str → Str} {d : Nat} {own : Option Nat} {p : P}
    (h : Site t alnum load d own p) :
    Opens t alnum load own (html t alnum true .none p d) (html t alnum false .none p d) ∧
      (own = none → (html t alnum true .none p d = [] ↔ html t alnum false .none p d = [])) := by
  induction p generalizing own with
  | seq p q ihp ihq =>
    obtain ⟨p1, p2⟩ := ihp h.1
    obtain ⟨q1, q2⟩ := ihq h.2
    exact ⟨.append p1 q1, fun e => by simp only [html, List.append_eq_nil_iff, p2 e, q2 e]⟩
  | indent c hd b _ ih =>
    obtain ⟨b1, b2⟩ := ih h.2
    have e : (html t alnum true .none b d).isEmpty = (html t alnum false .none b d).isEmpty := by
      rw [Bool.eq_iff_iff, List.isEmpty_iff, List.isEmpty_iff]; exact b2 rfl
    simp only [html, e]
    split
    · exact ⟨.same _ _, fun _ => Iff.rfl⟩
    · exact ⟨branch_opens c _ (b1.weaken rfl own), fun _ => by simp [branch_ne]⟩
  | field c l b ih =>
    obtain ⟨b1, b2⟩ := ih h
    have e : (html t alnum true .none b d).isEmpty = (html t alnum false .none b d).isEmpty := by
      rw [Bool.eq_iff_iff, List.isEmpty_iff, List.isEmpty_iff]; exact b2 rfl
    simp only [html, e]
    split
    · exact ⟨.same _ _, fun _ => Iff.rfl⟩
    · exact ⟨branch_opens c _ (b1.weaken rfl own), fun _ => by simp [branch_ne]⟩
  | id n hd b _ ih =>
    obtain ⟨b1, b2⟩ := ih h.2.2
    refine ⟨?_, fun _ => by simp [html, id_ne]⟩
    rw [← h.2.1] at b1
    have := Opens.item own n (head_reads h.1 .none) b1
    have e1 : lit "<li class=\"treebranch lazy\" id=\"" = lit "<li class=\"treebranch" ++ lit " lazy" ++ lit "\" id=\"" := by
      decide
    have e2 : lit "<li class=\"treebranch\" id=\"" = lit "<li class=\"treebranch" ++ [] ++ lit "\" id=\"" := by
      decide
    rw [e1, e2] at this
    simp only [html, idHtml, if_true, Bool.false_eq_true, if_false, List.append_nil] at this ⊢
    exact this
  | fieldDetail i l b ih =>
    cases own with
    | none => exact h.elim
    | some n =>
      refine ⟨?_, fun e => by cases e⟩
      have := Opens.detail (t := t) (alnum := alnum) (load := load) n i l
      have e1 : lit "\"><span>" = lit "\">" ++ lit "<span>" := by decide
      have e2 : lit ":</span></li>\n" = lit ":</span>" ++ lit "</li>\n" := by decide
      have e3 : detailSection l (load n (some i)) =
          if (html t alnum false .none b d).isEmpty then []
          else branchHtml true (lineIn .none l []) (html t alnum false .none b d) := by
        rw [h.2, h.1.html_eq, detailSection]
        simp only [List.isEmpty_iff]
        split
        · rfl
        · have e4 : lit "<li class=\"treebranch\"><span>" = lit "<li class=\"treebranch\">" ++ lit "<span>" := by decide
          have e5 : lit ":</span><ul style=\"display:none\">\n" = lit ":</span>" ++ lit "<ul style=\"display:none\">\n" := by
            decide
          rw [branchHtml, lineIn_label, e4, e5, if_pos rfl]
          simp only [List.append_assoc]
      rw [e3, e1, e2] at this
      simp only [html, if_true, Bool.false_eq_true, if_false, lineIn_label, List.append_assoc] at this ⊢
      exact this
  | inline p ih =>
    have : html t alnum true .none (.inline p) d = html t alnum false .none (.inline p) d :=
      NoIds.html_eq (p := .inline p) h .none d
    rw [this]
    exact ⟨.same _ _, fun _ => Iff.rfl⟩
  | _ => exact ⟨.same _ _, fun _ => Iff.rfl⟩

/-- The pages themselves. -/
theorem site_pages {load : Nat → Option Str → Str} {d : Nat} {p : P} (h : Site t alnum load d none p) :
    Opens t alnum load none (p.run (htmlPrinter t alnum) true (Html.new d true)).w
      (p.run (htmlPrinter t alnum) false (Html.new d false)).w := by
  rw [run_html true p h.flat _ rfl rfl, run_html false p h.flat _ rfl rfl]
  exact (site_opens h).1

end Verif.Web
