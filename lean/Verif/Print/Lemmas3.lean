import Verif.Print.Lemmas2
namespace Verif.Print
open Verif.Merge

/-! ## Both listings can be read off a diff -/

/-- Lines marked as deleted (`new = false`) or added (`new = true`). -/
def markedFor (new : Bool) (l : Line) : Bool := if new then l.isAdd else l.isDel

theorem erase_filter_sub (f : Line → Bool) (l : List Line) :
    ((l.filter f).map Line.erase).Sublist (l.map Line.erase) :=
  List.filter_sublist.map _

/-- The lines marked for one side, without markers. -/
def mineOf (new : Bool) (l : List Line) : List Line := (l.filter (markedFor new)).map Line.erase
/-- The lines not marked for the other side, without markers. -/
def notOther (new : Bool) (l : List Line) : List Line :=
  (l.filter (fun x => !markedFor (!new) x)).map Line.erase

theorem mineOf_append (new : Bool) (l m : List Line) :
    mineOf new (l ++ m) = mineOf new l ++ mineOf new m := by simp [mineOf]

theorem notOther_append (new : Bool) (l m : List Line) :
    notOther new (l ++ m) = notOther new l ++ notOther new m := by simp [notOther]

theorem mineOf_sub (new : Bool) (l : List Line) : (mineOf new l).Sublist (l.map Line.erase) :=
  erase_filter_sub _ _

theorem notOther_sub (new : Bool) (l : List Line) : (notOther new l).Sublist (l.map Line.erase) :=
  erase_filter_sub _ _

theorem mineOf_line {x : DiffPrefix} (h : x = .modify ∨ x = .equal) (new : Bool) (i : Nat)
    (a b : Str) (l : List Line) : mineOf new (.line x i a b :: l) = mineOf new l := by
  rcases h with rfl | rfl <;> cases new <;> rfl

theorem notOther_line {x : DiffPrefix} (h : x = .modify ∨ x = .equal) (new : Bool) (i : Nat)
    (a b : Str) (l : List Line) :
    notOther new (.line x i a b :: l) = .line .none i a b :: notOther new l := by
  rcases h with rfl | rfl <;> cases new <;> rfl

theorem P.ls_mine_other (http : Bool) (p : P) (i : Nat) (d : Nat) (new : Bool) (x : DiffPrefix)
    (hx : x = if new then .delete else .add) : mineOf new (p.ls http i x d) = [] := by
  unfold mineOf
  rw [List.map_eq_nil_iff, List.filter_eq_nil_iff]
  intro l hl
  rcases P.ls_pfx http p i x d l hl with h | h
  · subst h; cases new <;> simp [markedFor, Line.isAdd, Line.isDel]
  · subst hx
    cases new <;> cases l <;> simp [Line.pfx] at h <;> subst h <;>
      simp [markedFor, Line.isAdd, Line.isDel]

theorem P.ls_notOther_mine (http : Bool) (p : P) (i : Nat) (d : Nat) (new : Bool) (x : DiffPrefix)
    (hx : x = if new then .add else .delete) :
    notOther new (p.ls http i x d) = (p.ls http i .none d).map Line.erase := by
  unfold notOther
  rw [List.filter_eq_self.2 ?_]
  · exact P.ls_erase http p i .none x d
  · intro l hl
    rcases P.ls_pfx http p i x d l hl with h | h
    · subst h; cases new <;> simp [markedFor, Line.isAdd, Line.isDel]
    · subst hx
      cases new <;> cases l <;> simp [Line.pfx] at h <;> subst h <;>
        simp [markedFor, Line.isAdd, Line.isDel]

theorem D.den_side (o : Opts) (e : D) (hn : e.NoHide) (new : Bool) (i : Nat) (x : DiffPrefix)
    (d : Nat) :
    (mineOf new (e.den o i x d).1).Sublist (((e.side new).ls o.http i .none d).map Line.erase) ∧
    (((e.side new).ls o.http i .none d).map Line.erase).Sublist
      (notOther new (e.den o i x d).1) := by
  induction e generalizing i x d with
  | skip => simp [D.den, D.side, P.ls, mineOf, notOther]
  | seq p q ihp ihq =>
    have h1 := ihp hn.1 i x d
    have h2 := ihq hn.2 i (p.den o i x d).2.2 d
    simp only [D.den, D.side, P.ls, mineOf_append, notOther_append, List.map_append]
    exact ⟨h1.1.append h2.1, h1.2.append h2.2⟩
  | lineBreak => cases new <;> simp [D.den, D.side, P.ls, mineOf, notOther, markedFor, Line.isAdd,
      Line.isDel]
  | label l =>
    simp only [D.den, D.side, P.ls, List.map_cons, List.map_nil]
    rw [mineOf_line (ite_mod _), notOther_line (ite_mod _)]
    simp [mineOf, notOther, Line.erase]
  | line l a b =>
    simp only [D.den, D.side, P.ls]
    by_cases h : a.text' = b.text'
    · simp only [h, if_true]
      have hc : (if new = true then b else a).text' = b.text' := by cases new <;> simp [h]
      rw [hc]
      split
      · simp [mineOf, notOther]
      · simp only [List.map_cons, List.map_nil]
        rw [mineOf_line (ite_mod _), notOther_line (ite_mod _)]
        simp [mineOf, notOther, Line.erase]
    · simp only [h, if_false]
      by_cases ha : a.text' = []
      · have hb : ¬ b.text' = [] := by rw [ha] at h; exact fun hb => h hb.symm
        cases new <;>
          simp [ha, hb, mineOf, notOther, markedFor, Line.isAdd, Line.isDel, Line.erase]
      · by_cases hb : b.text' = []
        · cases new <;>
          simp [ha, hb, mineOf, notOther, markedFor, Line.isAdd, Line.isDel, Line.erase]
        · cases new <;>
          simp [ha, hb, mineOf, notOther, markedFor, Line.isAdd, Line.isDel, Line.erase]
  | indent c h b ihh ihb =>
    simp only [D.den, D.side, P.ls, List.map_append]
    have h2 := ihb hn.2 (i + 1) .equal d
    split
    · rename_i h0
      have h1 := ihh hn.1 i x d
      rw [h0] at h2
      have : ((b.side new).ls o.http (i + 1) .none d).map Line.erase = [] :=
        List.eq_nil_of_sublist_nil (by simpa [notOther] using h2.2)
      rw [this, List.append_nil]
      exact h1
    · have h1 := ihh hn.1 i (if (b.den o (i + 1) .equal d).2.1 = true then .modify else .equal) d
      simp only [mineOf_append, notOther_append]
      exact ⟨h1.1.append h2.1, h1.2.append h2.2⟩
  | field c l b ihb =>
    simp only [D.den, D.side, P.ls]
    have h2 := ihb hn (i + 1) .equal d
    split
    · rename_i h0
      rw [h0] at h2
      have : ((b.side new).ls o.http (i + 1) .none d).map Line.erase = [] :=
        List.eq_nil_of_sublist_nil (by simpa [notOther] using h2.2)
      rw [List.map_eq_nil_iff] at this
      simp [this, mineOf, notOther]
    · rw [mineOf_line (ite_mod _), notOther_line (ite_mod _)]
      split
      · rename_i h0
        rw [h0] at h2
        exact ⟨h2.1, List.nil_sublist _⟩
      · simp only [List.map_cons]
        exact ⟨h2.1.trans (List.sublist_cons_self _ _), h2.2.cons_cons _⟩
  | id n h b ihh ihb =>
    simp only [D.den, D.side, P.ls, List.map_append]
    have h2 := ihb hn.2 (i + 1) .equal d
    have h1 := ihh hn.1 i (if (b.den o (i + 1) .equal d).2.1 = true then .modify else .equal) d
    simp only [mineOf_append, notOther_append]
    exact ⟨h1.1.append h2.1, h1.2.append h2.2⟩
  | inline p ih =>
    simp only [D.den, D.side, P.ls]
    split
    · simp [mineOf, notOther]
    · exact ih hn _ _ _
  | prefixDelete p =>
    simp only [D.den, D.side]
    cases new
    · rw [P.ls_notOther_mine _ _ i d false .delete rfl]
      simp only [Bool.false_eq_true, if_false]
      refine ⟨(mineOf_sub _ _).trans ?_, List.Sublist.refl _⟩
      rw [P.ls_erase o.http p i .none .delete d]
      exact List.Sublist.refl _
    · simp only [if_true, P.ls, List.map_nil]
      rw [P.ls_mine_other _ _ i d true .delete rfl]
      exact ⟨List.Sublist.refl _, List.nil_sublist _⟩
  | prefixAdd p =>
    simp only [D.den, D.side]
    cases new
    · simp only [Bool.false_eq_true, if_false, P.ls, List.map_nil]
      rw [P.ls_mine_other _ _ i d false .add rfl]
      exact ⟨List.Sublist.refl _, List.nil_sublist _⟩
    · rw [P.ls_notOther_mine _ _ i d true .add rfl]
      simp only [if_true]
      refine ⟨(mineOf_sub _ _).trans ?_, List.Sublist.refl _⟩
      rw [P.ls_erase o.http p i .none .add d]
      exact List.Sublist.refl _
  | block a b =>
    simp only [D.den, D.side, mineOf_append, notOther_append]
    cases new
    · rw [P.ls_notOther_mine o.http a i d false .delete rfl, P.ls_mine_other o.http b i d false .add rfl]
      simp only [Bool.false_eq_true, if_false, List.append_nil]
      refine ⟨(mineOf_sub _ _).trans ?_, List.sublist_append_left _ _⟩
      rw [P.ls_erase o.http a i .none .delete d]
      exact List.Sublist.refl _
    · rw [P.ls_notOther_mine o.http b i d true .add rfl, P.ls_mine_other o.http a i d true .delete rfl]
      simp only [if_true, List.nil_append]
      refine ⟨(mineOf_sub _ _).trans ?_, List.sublist_append_right _ _⟩
      rw [P.ls_erase o.http b i .none .add d]
      exact List.Sublist.refl _
  | printIfDiff p ih => exact hn.elim
  | ignoreDiff flag p ih =>
    simp only [D.den, D.side]
    exact ih hn _ _ _

theorem D.den_same_pfx (o : Opts) (e : D) (hs : e.Same) (i : Nat) (x : DiffPrefix) (d : Nat)
    (hx : x ≠ .modify) : (e.den o i x d).2.2 ≠ .modify ∧
      ∀ l ∈ (e.den o i x d).1, l.pfx ≠ some .modify := by
  induction e generalizing i x d with
  | skip => simpa [D.den] using hx
  | seq p q ihp ihq =>
    have h1 := ihp hs.1 i x d hx
    have h2 := ihq hs.2 i _ d h1.1
    simp only [D.den, List.mem_append]
    refine ⟨h2.1, ?_⟩
    rintro l (hl | hl)
    · exact h1.2 _ hl
    · exact h2.2 _ hl
  | lineBreak => simp [D.den, Line.pfx, hx]
  | label l => simp [D.den, hx, Line.pfx]
  | line l a b =>
    simp only [D.Same] at hs
    simp only [D.den, hs, if_true]
    split
    · simp [hx]
    · simp [hx, Line.pfx]
  | indent c h b ihh ihb =>
    have hf := (D.den_same o b hs.2 (i + 1) .equal d).1
    simp only [D.den, hf, Bool.false_eq_true, if_false]
    split
    · exact ihh hs.1 _ _ _ hx
    · have h1 := ihh hs.1 i .equal d (by simp)
      have h2 := ihb hs.2 (i + 1) .equal d (by simp)
      refine ⟨h1.1, ?_⟩
      intro l hl
      rcases List.mem_append.1 hl with hl | hl
      · exact h1.2 _ hl
      · exact h2.2 _ hl
  | field c l b ihb =>
    have hf := (D.den_same o b hs (i + 1) .equal d).1
    simp only [D.den, hf, Bool.false_eq_true, if_false]
    split
    · simp [hx]
    · have h2 := ihb hs (i + 1) .equal d (by simp)
      refine ⟨by simp, ?_⟩
      intro l hl
      rcases List.mem_cons.1 hl with rfl | hl
      · simp [Line.pfx]
      · exact h2.2 _ hl
  | id n h b ihh ihb =>
    have hf := (D.den_same o b hs.2 (i + 1) .equal d).1
    simp only [D.den, hf, Bool.false_eq_true, if_false]
    have h1 := ihh hs.1 i .equal d (by simp)
    have h2 := ihb hs.2 (i + 1) .equal d (by simp)
    refine ⟨h1.1, ?_⟩
    intro l hl
    rcases List.mem_append.1 hl with hl | hl
    · exact h1.2 _ hl
    · exact h2.2 _ hl
  | inline p ih =>
    simp only [D.den]
    split
    · simp [hx]
    · exact ih hs _ _ _ hx
  | prefixDelete p => exact hs.elim
  | prefixAdd p => exact hs.elim
  | block a b =>
    simp only [D.Same] at hs
    simp [D.den, hs.1, hs.2, P.ls, hx]
  | printIfDiff p ih =>
    have := ih hs i x d hx
    simp only [D.den]
    refine ⟨hx, ?_⟩
    split
    · exact this.2
    · simp
  | ignoreDiff flag p ih =>
    have := ih hs i x d hx
    simp only [D.den]
    exact this

/-! ## Lists -/

theorem merged_self (cmp : α → α → Ordering) (hc : ∀ a, cmp a a = .eq) (l : List α) (n : Nat)
    (hn : l.length ≤ n) : merged cmp l l n = l.map (fun a => .both a a) := by
  unfold merged MergeIterator.new
  induction l generalizing n with
  | nil => cases n <;> simp [MergeIterator.take, MergeIterator.next]
  | cons a l ih =>
    cases n with
    | zero => simp at hn
    | succ n =>
      simp only [List.length_cons, Nat.add_le_add_iff_right] at hn
      simp [MergeIterator.take, MergeIterator.next, hc, ih n hn]

/-! ## Decimal numbers -/

theorem dec_inj {a b : Nat} (h : dec a = dec b) : a = b := by
  have h1 : Nat.toDigits 10 a = Nat.toDigits 10 b := by
    refine List.map_inj_right (f := Char.toNat) ?_ |>.1 h
    intro x y hxy
    exact Char.ext (UInt32.toNat_inj.1 hxy)
  rw [← Nat.ofDigitChars_ten_toDigits (n := a), h1, Nat.ofDigitChars_ten_toDigits]

theorem dec_ne_nil (a : Nat) : dec a ≠ [] := by
  simp [dec, Nat.toDigits_ne_nil]

theorem dec_no_space (a : Nat) : 32 ∉ dec a := by
  intro h
  obtain ⟨c, hc, h2⟩ := List.mem_map.1 h
  have := Nat.isDigit_of_mem_toDigits (by decide) (by decide) hc
  simp only [Char.isDigit, Bool.and_eq_true, decide_eq_true_eq] at this
  have h3 : (48 : UInt32).toNat ≤ c.val.toNat := UInt32.le_iff_toNat_le.1 this.1
  have h4 : c.val.toNat = 32 := h2
  rw [h4] at h3
  exact absurd h3 (by decide)

end Verif.Print
