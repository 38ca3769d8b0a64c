import Verif.Show.Align
import Verif.Show.FileLemmas
import Verif.Print.Lemmas2
/-!
# C104: diffs that print and report alike

`Twin` relates two diffs that are empty together and report together.
-/
namespace Verif.Turn
open Verif.Print Verif.Item Verif.Namespace Verif.Types Verif.Layout Verif.Path Verif.Opts Verif.Merge Verif.Range
  Verif.File Verif.Show Verif.Order

variable {po : Print.Opts}

/-- Nothing is printed. -/
def Empty (po : Print.Opts) (e : D) (i d : Nat) : Prop := ∀ x, (e.den po i x d).1 = []
/-- A difference is reported. -/
def Flag (po : Print.Opts) (e : D) (i d : Nat) : Prop := ∀ x, (e.den po i x d).2.1 = true

/-- Whether something is printed, or reported, does not depend on the marker. -/
theorem steady (po : Print.Opts) (ho : po.html = false) (e : D) : ∀ i x y d,
    ((e.den po i x d).1 = [] ↔ (e.den po i y d).1 = []) ∧ (e.den po i x d).2.1 = (e.den po i y d).2.1 := by
  induction e with
  | skip => intro i x y d; simp [D.den]
  | seq p q ihp ihq =>
    intro i x y d
    have h1 := ihp i x y d
    have h2 := ihq i (p.den po i x d).2.2 (p.den po i y d).2.2 d
    simp only [D.den, List.append_eq_nil_iff, h1.1, h2.1, h1.2, h2.2, and_self]
  | lineBreak => intro i x y d; simp [D.den]
  | label l => intro i x y d; simp [D.den]
  | line l a b =>
    intro i x y d
    simp only [D.den]
    by_cases hab : a.text' = b.text' <;> by_cases h0 : a.text' = [] <;> by_cases h1 : b.text' = [] <;>
      simp [hab, h0, h1]
  | indent c h b ihh ihb =>
    intro i x y d
    simp only [D.den]
    split
    · exact ihh i x y d
    · simp
  | field c l b ih =>
    intro i x y d
    simp only [D.den]
    split <;> simp
  | id n h b ihh ihb => intro i x y d; simp [D.den]
  | inline p ih =>
    intro i x y d
    simp only [D.den]
    split
    · simp
    · exact ih i x y (d - 1)
  | prefixDelete p => intro i x y d; simp [D.den]
  | prefixAdd p => intro i x y d; simp [D.den]
  | block a b => intro i x y d; simp [D.den]
  | printIfDiff p ih =>
    intro i x y d
    have h := ih i x y d
    simp only [D.den, ho, Bool.or_false, h.2]
    cases (p.den po i y d).2.1 <;> simp [h.1]
  | ignoreDiff f p ih =>
    intro i x y d
    have h := ih i x y d
    simp only [D.den, h.1, h.2, and_self]

/-- Two diffs that print something together, and report together. -/
def Twin (po : Print.Opts) (e e' : D) : Prop := ∀ i d x y,
  ((e.den po i x d).1 = [] ↔ (e'.den po i y d).1 = []) ∧ (e.den po i x d).2.1 = (e'.den po i y d).2.1

theorem Twin.symm {e e' : D} (h : Twin po e e') : Twin po e' e := fun i d x y =>
  ⟨(h i d y x).1.symm, (h i d y x).2.symm⟩

theorem Twin.refl (ho : po.html = false) (e : D) : Twin po e e := fun i d x y => steady po ho e i x y d

theorem Twin.skip : Twin po .skip .skip := fun i d x y => by simp [D.den]
theorem Twin.lineBreak : Twin po .lineBreak .lineBreak := fun i d x y => by simp [D.den]

theorem Twin.line (l : Str) {a b a' b' : Val} (h : a'.text' = b.text') (h' : b'.text' = a.text') :
    Twin po (.line l a b) (.line l a' b') := by
  intro i d x y
  simp only [D.den, h, h']
  by_cases hab : a.text' = b.text'
  · rw [if_pos hab, if_pos hab.symm]
    by_cases h0 : a.text' = []
    · rw [if_pos h0, if_pos (hab.symm.trans h0)]; simp
    · rw [if_neg h0, if_neg (fun h => h0 (hab.trans h))]; simp
  · rw [if_neg hab, if_neg (Ne.symm hab)]
    by_cases h0 : a.text' = [] <;> by_cases h1 : b.text' = [] <;> simp [h0, h1]

theorem Twin.lineSwap (l : Str) (a b : Val) : Twin po (.line l a b) (.line l b a) := Twin.line l rfl rfl

theorem Twin.seq {p q p' q' : D} (h : Twin po p p') (h' : Twin po q q') : Twin po (.seq p q) (.seq p' q') := by
  intro i d x y
  have h1 := h i d x y
  have h2 := h' i d (p.den po i x d).2.2 (p'.den po i y d).2.2
  simp only [D.den, List.append_eq_nil_iff, h1.1, h2.1, h1.2, h2.2, and_self]

theorem Twin.seqs {l l' : List D} (h : All2 (Twin po) l l') : Twin po (.seqs l) (.seqs l') := by
  induction h with
  | nil => exact Twin.skip
  | cons h _ ih => exact Twin.seq h ih

theorem Twin.indent (c : Bool) {p q p' q' : D} (h : Twin po p p') (h' : Twin po q q') :
    Twin po (.indent c p q) (.indent c p' q') := by
  intro i d x y
  have h2 := h' (i + 1) d .equal .equal
  simp only [D.den]
  by_cases h0 : (q.den po (i + 1) .equal d).1 = []
  · rw [if_pos h0, if_pos (h2.1.1 h0)]
    exact h i d x y
  · rw [if_neg h0, if_neg (fun h' => h0 (h2.1.2 h'))]
    have h1 := h i d (if (q.den po (i + 1) .equal d).2.1 then .modify else .equal)
      (if (q'.den po (i + 1) .equal d).2.1 then .modify else .equal)
    refine ⟨?_, ?_⟩
    · simp only [List.append_eq_nil_iff]; exact and_congr h1.1 h2.1
    · show (_ || _) = (_ || _)
      rw [h1.2, h2.2]

theorem Twin.field (c : Bool) (l : Str) {q q' : D} (h' : Twin po q q') :
    Twin po (.field c l q) (.field c l q') := by
  intro i d x y
  have h2 := h' (i + 1) d .equal .equal
  simp only [D.den]
  by_cases h0 : (q.den po (i + 1) .equal d).1 = []
  · rw [if_pos h0, if_pos (h2.1.1 h0)]
    simp
  · rw [if_neg h0, if_neg (fun h' => h0 (h2.1.2 h'))]
    simp [h2.2]

theorem Twin.id (n n' : Nat) {p q p' q' : D} (h : Twin po p p') (h' : Twin po q q') :
    Twin po (.id n p q) (.id n' p' q') := by
  intro i d x y
  have h2 := h' (i + 1) d .equal .equal
  have h1 := h i d (if (q.den po (i + 1) .equal d).2.1 then .modify else .equal)
      (if (q'.den po (i + 1) .equal d).2.1 then .modify else .equal)
  simp only [D.den]
  exact ⟨by simp only [List.append_eq_nil_iff]; exact and_congr h1.1 h2.1, congr (congrArg or h2.2) h1.2⟩

theorem ls_nil (http : Bool) (p : P) : ∀ i x y d, p.ls http i x d = [] ↔ p.ls http i y d = [] := by
  induction p with
  | skip => intros; simp [P.ls]
  | seq p q ihp ihq => intro i x y d; simp only [P.ls, List.append_eq_nil_iff, ihp i x y d, ihq i x y d]
  | lineBreak => intros; simp [P.ls]
  | label => intros; simp [P.ls]
  | line l v => intro i x y d; simp only [P.ls]; split <;> simp
  | instruction => intros; simp [P.ls]
  | indent c h b ihh ihb =>
    intro i x y d; simp only [P.ls, List.append_eq_nil_iff, ihh i x y d, ihb (i + 1) x y d]
  | field c l b ih =>
    intro i x y d
    have := ih (i + 1) x y d
    simp only [P.ls]
    by_cases h0 : b.ls http (i + 1) x d = []
    · simp [h0, this.1 h0]
    · simp [h0, mt this.2 h0]
  | id n h b ihh ihb =>
    intro i x y d; simp only [P.ls, List.append_eq_nil_iff, ihh i x y d, ihb (i + 1) x y d]
  | fieldDetail c l b ih =>
    intro i x y d
    have := ih (i + 1) x y d
    simp only [P.ls]
    by_cases h0 : b.ls http (i + 1) x d = []
    · simp [h0, this.1 h0]
    · simp [h0, mt this.2 h0]
  | inline p ih =>
    intro i x y d
    simp only [P.ls]
    split
    · simp
    · exact ih i x y (d - 1)

theorem Twin.deleted (p : P) : Twin po (.prefixDelete p) (.prefixAdd p) := fun i d x y => by
  simp only [D.den, ls_nil po.http p i .delete .add d, and_self]

theorem Twin.block (p q : P) : Twin po (.block p q) (.block q p) := by
  intro i d x y
  have h : (p.ls po.http i .delete d ++ q.ls po.http i .add d = []) ↔
      (q.ls po.http i .delete d ++ p.ls po.http i .add d = []) := by
    simp only [List.append_eq_nil_iff, ls_nil po.http p i .delete .add d, ls_nil po.http q i .delete .add d]
    exact And.comm
  simp only [D.den, h, true_and]
  rw [Bool.eq_iff_iff]
  simp only [Bool.not_eq_true', List.isEmpty_eq_false_iff, ne_eq, h]

theorem Twin.printIfDiff (ho : po.html = false) {e e' : D} (h : Twin po e e') : Twin po (.printIfDiff e) (.printIfDiff e') := by
  intro i d x y
  have h1 := h i d x y
  simp only [D.den, ho, Bool.or_false, h1.2]
  cases (e'.den po i y d).2.1 <;> simp [h1.1]

theorem Twin.ignoreDiff (f : Bool) {e e' : D} (h : Twin po e e') : Twin po (.ignoreDiff f e) (.ignoreDiff f e') := by
  intro i d x y
  have h1 := h i d x y
  simp only [D.den, h1.1, h1.2, and_self]

theorem Twin.whenSkip {b : Bool} {e e' : D} (h : Twin po e e') : Twin po (if b then e else .skip) (if b then e' else .skip) := by
  cases b
  · exact Twin.skip
  · exact h

/-! ### Sequences, by membership -/

theorem seqs_den (po : Print.Opts) (ho : po.html = false) (l : List D) (i : Nat) (x y : DiffPrefix) (d : Nat) :
    (((D.seqs l).den po i x d).1 = [] ↔ ∀ e ∈ l, (e.den po i y d).1 = []) ∧
    (((D.seqs l).den po i x d).2.1 = true ↔ ∃ e ∈ l, (e.den po i y d).2.1 = true) := by
  induction l generalizing x with
  | nil => simp [D.seqs, D.den]
  | cons a l ih =>
    have h := ih (a.den po i x d).2.2
    have h' := steady po ho a i x y d
    simp only [D.seqs, D.den, List.append_eq_nil_iff, h.1, h'.1, Bool.or_eq_true, h.2, h'.2, List.mem_cons, forall_eq_or_imp,
      exists_eq_or_imp, and_self]

/-- Two lists of diffs each of which has a twin in the other. -/
theorem Twin.seqs_mem (ho : po.html = false) {l l' : List D} (h : ∀ e ∈ l, ∃ e' ∈ l', Twin po e e')
    (h' : ∀ e' ∈ l', ∃ e ∈ l, Twin po e e') : Twin po (.seqs l) (.seqs l') := by
  intro i d x y
  have a := seqs_den po ho l i x .none d
  have b := seqs_den po ho l' i y .none d
  constructor
  · rw [a.1, b.1]
    constructor
    · intro hl e' he'
      obtain ⟨e, he, ht⟩ := h' e' he'
      exact (ht i d .none .none).1.1 (hl e he)
    · intro hl e he
      obtain ⟨e', he', ht⟩ := h e he
      exact (ht i d .none .none).1.2 (hl e' he')
  · rw [Bool.eq_iff_iff, a.2, b.2]
    constructor
    · rintro ⟨e, he, hf⟩
      obtain ⟨e', he', ht⟩ := h e he
      exact ⟨e', he', ((ht i d .none .none).2).symm.trans hf⟩
    · rintro ⟨e', he', hf⟩
      obtain ⟨e, he, ht⟩ := h' e' he'
      exact ⟨e, he, ((ht i d .none .none).2).trans hf⟩

end Verif.Turn
