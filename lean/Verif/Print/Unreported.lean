import Verif.Print.Props
/-!
# A diff that reports no difference

`C66` says how the two listings can be read off a diff; here: when the diff reports no difference
the two listings are the same text.
-/
namespace Verif.Print

/-- The closure without the sections whose differences are ignored (`ignore_diff(true, ..)`). -/
def D.dropIgnored : D → D
  | .seq p q => .seq p.dropIgnored q.dropIgnored
  | .indent c h b => .indent c h.dropIgnored b.dropIgnored
  | .field c l b => .field c l b.dropIgnored
  | .id n h b => .id n h.dropIgnored b.dropIgnored
  | .inline d => .inline d.dropIgnored
  | .printIfDiff d => .printIfDiff d.dropIgnored
  | .ignoreDiff true _ => .skip
  | .ignoreDiff false d => .ignoreDiff false d.dropIgnored
  | d => d

theorem D.dropIgnored_self (e : D) (h : e.NoIgnore) : e.dropIgnored = e := by
  induction e with
  | seq p q ihp ihq => simp only [D.dropIgnored, ihp h.1, ihq h.2]
  | indent c x b ihh ihb => simp only [D.dropIgnored, ihh h.1, ihb h.2]
  | field c l b ih => simp only [D.dropIgnored, ih h]
  | id n x b ihh ihb => simp only [D.dropIgnored, ihh h.1, ihb h.2]
  | inline d ih => simp only [D.dropIgnored, ih h]
  | printIfDiff d ih => simp only [D.dropIgnored, ih h]
  | ignoreDiff f d ih =>
    obtain ⟨rfl, h⟩ := h
    simp only [D.dropIgnored, ih h]
  | _ => rfl

theorem P.ls_nil (http : Bool) (p : P) (i : Nat) (x y : DiffPrefix) (d : Nat)
    (h : p.ls http i x d = []) : p.ls http i y d = [] := by
  have := P.ls_erase http p i x y d
  rw [h] at this
  simpa using this

theorem D.den_silent (o : Opts) (e : D) (i : Nat) (x y : DiffPrefix) (d : Nat)
    (h : (e.den o i x d).1 = [] ∨ (e.den o i x d).2.1 = false) :
    (e.dropIgnored.side false).ls o.http i y d = (e.dropIgnored.side true).ls o.http i y d := by
  induction e generalizing i x d with
  | skip => rfl
  | seq p q ihp ihq =>
    simp only [D.den, List.append_eq_nil_iff, Bool.or_eq_false_iff] at h
    simp only [D.dropIgnored, D.side, P.ls]
    rw [ihp i x d (h.imp (·.1) (·.1)), ihq i (p.den o i x d).2.2 d (h.imp (·.2) (·.2))]
  | lineBreak => rfl
  | label l => rfl
  | line l a b =>
    have hab : a.text' = b.text' := by
      simp only [D.den] at h
      by_cases hab : a.text' = b.text'
      · exact hab
      · simp only [hab, if_false] at h
        split at h
        · simp at h
        · split at h <;> simp at h
    simp [D.dropIgnored, D.side, P.ls, hab]
  | indent c hd b ihh ihb =>
    simp only [D.den] at h
    simp only [D.dropIgnored, D.side, P.ls]
    split at h
    · rename_i h0
      rw [ihh i x d h, ihb (i + 1) .equal d (.inl h0)]
    · rename_i h0
      simp only [List.append_eq_nil_iff, h0, and_false, false_or, Bool.or_eq_false_iff] at h
      rw [ihh i _ d (.inr h.2), ihb (i + 1) .equal d (.inr h.1)]
  | field c l b ihb =>
    simp only [D.den] at h
    simp only [D.dropIgnored, D.side, P.ls]
    split at h
    · rename_i h0
      rw [ihb (i + 1) .equal d (.inl h0)]
    · rename_i h0
      simp only [reduceCtorEq, false_or] at h
      rw [ihb (i + 1) .equal d (.inr h)]
  | id n hd b ihh ihb =>
    simp only [D.den, List.append_eq_nil_iff, Bool.or_eq_false_iff] at h
    simp only [D.dropIgnored, D.side, P.ls]
    rw [ihh i _ d (h.imp (·.1) (·.2)), ihb (i + 1) .equal d (h.imp (·.2) (·.1))]
  | inline p ih =>
    simp only [D.den] at h
    simp only [D.dropIgnored, D.side, P.ls]
    split
    · rfl
    · rename_i h0
      simp only [h0, if_false] at h
      exact ih i x (d - 1) h
  | prefixDelete p =>
    simp only [D.den, Bool.true_eq_false, or_false] at h
    simp [D.dropIgnored, D.side, P.ls, P.ls_nil _ _ _ _ y _ h]
  | prefixAdd p =>
    simp only [D.den, Bool.true_eq_false, or_false] at h
    simp [D.dropIgnored, D.side, P.ls, P.ls_nil _ _ _ _ y _ h]
  | block a b =>
    simp only [D.den, Bool.not_eq_false', List.isEmpty_iff, or_self, List.append_eq_nil_iff] at h
    simp [D.dropIgnored, D.side, P.ls_nil _ _ _ _ y _ h.1, P.ls_nil _ _ _ _ y _ h.2]
  | printIfDiff p ih =>
    simp only [D.den] at h
    simp only [D.dropIgnored, D.side]
    refine ih i x d ?_
    rcases h with h | h
    · split at h
      · exact .inl h
      · rename_i h0
        right
        cases hf : (p.den o i x d).2.1
        · rfl
        · simp [hf] at h0
    · exact .inr h
  | ignoreDiff flag p ih =>
    cases flag
    · simp only [D.den, Bool.false_eq_true, if_false] at h
      simp only [D.dropIgnored, D.side]
      exact ih i x d h
    · rfl

/-! ## C75: a diff that reports nothing means equal listings -/

/-- When a diff reports no difference, the listing of the old file and the listing of the new file
are the same lines, apart from the sections whose differences the user asked to ignore (or that are
never compared). Nothing else that is printed can differ without being reported. -/
theorem C75_unreported (o : Opts) (e : D) (i : Nat) (x : DiffPrefix) (d : Nat)
    (h : e.flag o i x d = false) :
    (e.dropIgnored.side false).lines o.http i .none d =
      (e.dropIgnored.side true).lines o.http i .none d := by
  rw [D.flag_eq] at h
  rw [P.lines_eq, P.lines_eq]
  exact D.den_silent o e i x .none d (.inr h)

/-- Without ignored sections, the two listings themselves are equal. -/
theorem C75_unreported_all (o : Opts) (e : D) (hn : e.NoIgnore) (i : Nat) (x : DiffPrefix) (d : Nat)
    (h : e.flag o i x d = false) :
    (e.side false).lines o.http i .none d = (e.side true).lines o.http i .none d := by
  have := C75_unreported o e i x d h
  rwa [D.dropIgnored_self e hn] at this

/-- A diff that prints nothing (as hidden unchanged items do) also means equal listings. -/
theorem C75_nothing_printed (o : Opts) (e : D) (i : Nat) (x : DiffPrefix) (d : Nat)
    (h : e.lines o i x d = []) :
    (e.dropIgnored.side false).lines o.http i .none d =
      (e.dropIgnored.side true).lines o.http i .none d := by
  rw [D.lines_eq] at h
  rw [P.lines_eq, P.lines_eq]
  exact D.den_silent o e i x .none d (.inl h)

private def exQuiet : D :=
  .indent false (.line [] (.text (Str.ofString "fn")) (.name (Str.ofString "fn")))
    (.seq (.line (Str.ofString "size") (.text (Str.ofString "1")) (.text (Str.ofString "1")))
      (.ignoreDiff true (.line (Str.ofString "address") (.text (Str.ofString "2"))
        (.text (Str.ofString "3")))))

example : exQuiet.flag ⟨false, false, false, false⟩ 0 .equal 1 = false ∧
    render ((exQuiet.dropIgnored.side false).lines false 0 .none 1) =
      Str.ofString "fn\n\tsize: 1\n" := by decide +kernel

end Verif.Print
