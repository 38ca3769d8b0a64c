import Verif.Print.Lemmas
namespace Verif.Print
open Verif.Merge

/-! ## Properties of the compositional description -/

theorem P.ls_pfx (http : Bool) (p : P) (i : Nat) (x : DiffPrefix) (d : Nat) :
    ∀ l ∈ p.ls http i x d, l = .brk ∨ l.pfx = some x := by
  induction p generalizing i x d with
  | skip => simp [P.ls]
  | seq p q ihp ihq =>
    intro l hl
    simp only [P.ls, List.mem_append] at hl
    rcases hl with hl | hl
    · exact ihp _ _ _ _ hl
    · exact ihq _ _ _ _ hl
  | lineBreak => simp [P.ls]
  | label l => simp [P.ls, Line.pfx]
  | line l v => simp only [P.ls]; split <;> simp [Line.pfx]
  | instruction a m v => simp [P.ls, Line.pfx]
  | indent c h b ihh ihb =>
    intro l hl
    simp only [P.ls, List.mem_append] at hl
    rcases hl with hl | hl
    · exact ihh _ _ _ _ hl
    · exact ihb _ _ _ _ hl
  | field c l b ihb =>
    intro l hl
    simp only [P.ls] at hl
    split at hl
    · simp at hl
    · rcases List.mem_cons.1 hl with rfl | hl
      · right; rfl
      · exact ihb _ _ _ _ hl
  | id n h b ihh ihb =>
    intro l hl
    simp only [P.ls, List.mem_append] at hl
    rcases hl with hl | hl
    · exact ihh _ _ _ _ hl
    · exact ihb _ _ _ _ hl
  | fieldDetail n l b ihb =>
    intro l hl
    simp only [P.ls] at hl
    split at hl
    · simp at hl
    split at hl
    · simp at hl
    · rcases List.mem_cons.1 hl with rfl | hl
      · right; rfl
      · exact ihb _ _ _ _ hl
  | inline p ih =>
    intro l hl
    simp only [P.ls] at hl
    split at hl
    · simp at hl
    · exact ih _ _ _ _ hl

/-- The line with another marker. -/
def Line.setPfx (x : DiffPrefix) : Line → Line
  | .brk => .brk
  | .line _ i l b => .line x i l b
  | .instr _ i a m b => .instr x i a m b

/-- The line moved right by `k` levels. -/
def Line.shift (k : Nat) : Line → Line
  | .brk => .brk
  | .line p i l b => .line p (i + k) l b
  | .instr p i a m b => .instr p (i + k) a m b

theorem P.ls_map (http : Bool) (p : P) (i k : Nat) (x y : DiffPrefix) (d : Nat) :
    p.ls http (i + k) y d = (p.ls http i x d).map (fun l => (l.shift k).setPfx y) := by
  induction p generalizing i x y d with
  | skip => simp [P.ls]
  | seq p q ihp ihq => simp [P.ls, ihp i x y d, ihq i x y d]
  | lineBreak => simp [P.ls, Line.shift, Line.setPfx]
  | label l => simp [P.ls, Line.shift, Line.setPfx]
  | line l v => simp only [P.ls]; split <;> simp [Line.shift, Line.setPfx]
  | instruction a m v => simp [P.ls, Line.shift, Line.setPfx]
  | indent c h b ihh ihb =>
    have : i + k + 1 = i + 1 + k := by omega
    simp [P.ls, ihh i x y d, ihb (i + 1) x y d, this]
  | field c l b ihb =>
    have : i + k + 1 = i + 1 + k := by omega
    simp only [P.ls, this, ihb (i + 1) x y d, List.map_eq_nil_iff]
    split <;> simp [Line.shift, Line.setPfx]
  | id n h b ihh ihb =>
    have : i + k + 1 = i + 1 + k := by omega
    simp [P.ls, ihh i x y d, ihb (i + 1) x y d, this]
  | fieldDetail n l b ihb =>
    have : i + k + 1 = i + 1 + k := by omega
    simp only [P.ls, this, ihb (i + 1) x y d, List.map_eq_nil_iff]
    split
    · simp
    · split <;> simp [Line.shift, Line.setPfx]
  | inline p ih =>
    simp only [P.ls]
    split
    · simp
    · exact ih _ _ _ _

theorem Line.erase_setPfx (l : Line) (y : DiffPrefix) : (l.setPfx y).erase = l.erase := by
  cases l <;> rfl

theorem Line.shift_zero (l : Line) : l.shift 0 = l := by cases l <;> rfl

theorem P.ls_erase (http : Bool) (p : P) (i : Nat) (x y : DiffPrefix) (d : Nat) :
    (p.ls http i y d).map Line.erase = (p.ls http i x d).map Line.erase := by
  have := P.ls_map http p i 0 x y d
  simp only [Nat.add_zero] at this
  rw [this, List.map_map]
  congr 1
  funext l
  simp [Line.erase_setPfx, Line.shift_zero]

theorem P.ls_indent (http : Bool) (p : P) (i : Nat) (x : DiffPrefix) (d : Nat) :
    ∀ l ∈ p.ls http i x d, ∀ j, l.indent = some j → i ≤ j := by
  intro l hl j hj
  have h := P.ls_map http p 0 i x x d
  simp only [Nat.zero_add] at h
  rw [h] at hl
  obtain ⟨m, -, rfl⟩ := List.mem_map.1 hl
  cases m <;> simp [Line.shift, Line.setPfx, Line.indent] at hj <;> omega

/-! ### Marked lines and the flag -/

theorem marked_of_pfx {l : Line} (h : l.pfx = some .delete ∨ l.pfx = some .add) :
    l.marked = true := by
  cases l <;> simp [Line.pfx] at h <;> rcases h with rfl | rfl <;> rfl

theorem not_marked_line {x : DiffPrefix} (h : x = .modify ∨ x = .equal) (i : Nat) (l b : Str) :
    (Line.line x i l b).marked = false := by
  rcases h with rfl | rfl <;> rfl

theorem ite_mod (c : Prop) [Decidable c] :
    (if c then DiffPrefix.modify else DiffPrefix.equal) = .modify ∨
    (if c then DiffPrefix.modify else DiffPrefix.equal) = .equal := by
  split <;> simp

theorem D.den_unflagged (o : Opts) (ho : o.html = false) (e : D) (hn : e.NoIgnore) (i : Nat)
    (x : DiffPrefix) (d : Nat) (hf : (e.den o i x d).2.1 = false) :
    ∀ l ∈ (e.den o i x d).1, l.marked = false := by
  induction e generalizing i x d with
  | skip => simp [D.den]
  | seq p q ihp ihq =>
    simp only [D.den, Bool.or_eq_false_iff] at hf
    intro l hl
    simp only [D.den, List.mem_append] at hl
    rcases hl with hl | hl
    · exact ihp hn.1 _ _ _ hf.1 _ hl
    · exact ihq hn.2 _ _ _ hf.2 _ hl
  | lineBreak => simp [D.den]; rfl
  | label l => simp only [D.den, List.mem_singleton]; rintro _ rfl; exact not_marked_line (ite_mod _) _ _ _
  | line l a b =>
    simp only [D.den] at hf ⊢
    by_cases h : a.text' = b.text'
    · simp only [h, if_true]
      split
      · simp
      · simp only [List.mem_singleton]; rintro _ rfl; exact not_marked_line (ite_mod _) _ _ _
    · simp only [h, if_false] at hf
      split at hf
      · simp at hf
      · split at hf <;> simp at hf
  | indent c h b ihh ihb =>
    simp only [D.den] at hf ⊢
    split
    · rename_i h0
      simp only [h0, if_true] at hf
      exact ihh hn.1 _ _ _ hf
    · rename_i h0
      simp only [h0, if_false, Bool.or_eq_false_iff] at hf
      intro l hl
      rcases List.mem_append.1 hl with hl | hl
      · exact ihh hn.1 _ _ _ hf.2 _ hl
      · exact ihb hn.2 _ _ _ hf.1 _ hl
  | field c l b ihb =>
    simp only [D.den] at hf ⊢
    split
    · simp
    · rename_i h0
      simp only [h0, if_false] at hf
      intro l hl
      rcases List.mem_cons.1 hl with rfl | hl
      · exact not_marked_line (ite_mod _) _ _ _
      · exact ihb hn _ _ _ hf _ hl
  | id n h b ihh ihb =>
    simp only [D.den, Bool.or_eq_false_iff] at hf ⊢
    intro l hl
    rcases List.mem_append.1 hl with hl | hl
    · exact ihh hn.1 _ _ _ hf.2 _ hl
    · exact ihb hn.2 _ _ _ hf.1 _ hl
  | inline p ih =>
    simp only [D.den] at hf ⊢
    split
    · simp
    · rename_i h0
      simp only [h0, if_false] at hf
      exact ih hn _ _ _ hf
  | prefixDelete p => simp [D.den] at hf
  | prefixAdd p => simp [D.den] at hf
  | block a b =>
    simp only [D.den, Bool.not_eq_false', List.isEmpty_iff] at hf ⊢
    simp [hf]
  | printIfDiff p ih =>
    simp only [D.den] at hf ⊢
    simp [hf, ho]
  | ignoreDiff flag p ih =>
    simp only [D.NoIgnore] at hn
    simp only [D.den, hn.1, Bool.false_eq_true, if_false] at hf ⊢
    exact ih hn.2 _ _ _ hf

theorem exists_marked_of_visible {http : Bool} {p : P} {i : Nat} {x : DiffPrefix} {d : Nat}
    (hx : x = .delete ∨ x = .add) (h : ∃ l ∈ p.lines http i x d, l ≠ .brk) :
    ∃ l ∈ p.ls http i x d, l.marked = true := by
  obtain ⟨l, hl, hne⟩ := h
  rw [P.lines_eq] at hl
  refine ⟨l, hl, ?_⟩
  rcases P.ls_pfx http p i x d l hl with h | h
  · exact absurd h hne
  · apply marked_of_pfx
    rcases hx with rfl | rfl
    · exact .inl h
    · exact .inr h

theorem D.den_flagged (o : Opts) (e : D) (hv : e.Visible o.http) (i : Nat)
    (x : DiffPrefix) (d : Nat) (hf : (e.den o i x d).2.1 = true) :
    ∃ l ∈ (e.den o i x d).1, l.marked = true := by
  induction e generalizing i x d with
  | skip => simp [D.den] at hf
  | seq p q ihp ihq =>
    simp only [D.den, Bool.or_eq_true] at hf
    simp only [D.den, List.mem_append]
    rcases hf with hf | hf
    · obtain ⟨l, h1, h2⟩ := ihp hv.1 _ _ _ hf
      exact ⟨l, .inl h1, h2⟩
    · obtain ⟨l, h1, h2⟩ := ihq hv.2 _ _ _ hf
      exact ⟨l, .inr h1, h2⟩
  | lineBreak => simp [D.den] at hf
  | label l => simp [D.den] at hf
  | line l a b =>
    simp only [D.den] at hf ⊢
    split
    · rename_i h; rw [if_pos h] at hf; split at hf <;> simp at hf
    · split
      · simp [Line.marked, Line.isDel, Line.isAdd]
      · split <;> simp [Line.marked, Line.isDel, Line.isAdd]
  | indent c h b ihh ihb =>
    simp only [D.den] at hf ⊢
    split
    · rename_i h0
      simp only [h0, if_true] at hf
      exact ihh hv.1 _ _ _ hf
    · rename_i h0
      simp only [h0, if_false, Bool.or_eq_true] at hf
      simp only [List.mem_append]
      rcases hf with hf | hf
      · obtain ⟨l, h1, h2⟩ := ihb hv.2 _ _ _ hf
        exact ⟨l, .inr h1, h2⟩
      · obtain ⟨l, h1, h2⟩ := ihh hv.1 _ _ _ hf
        exact ⟨l, .inl h1, h2⟩
  | field c l b ihb =>
    simp only [D.den] at hf ⊢
    split
    · rename_i h0
      simp [h0] at hf
    · rename_i h0
      simp only [h0, if_false] at hf
      obtain ⟨l, h1, h2⟩ := ihb hv _ _ _ hf
      exact ⟨l, List.mem_cons.2 (.inr h1), h2⟩
  | id n h b ihh ihb =>
    simp only [D.den, Bool.or_eq_true, List.mem_append] at hf ⊢
    rcases hf with hf | hf
    · obtain ⟨l, h1, h2⟩ := ihb hv.2 _ _ _ hf
      exact ⟨l, .inr h1, h2⟩
    · obtain ⟨l, h1, h2⟩ := ihh hv.1 _ _ _ hf
      exact ⟨l, .inl h1, h2⟩
  | inline p ih =>
    simp only [D.den] at hf ⊢
    split
    · rename_i h0; simp [h0] at hf
    · rename_i h0
      simp only [h0, if_false] at hf
      exact ih hv _ _ _ hf
  | prefixDelete p => exact exists_marked_of_visible (.inl rfl) (hv i .delete d)
  | prefixAdd p => exact exists_marked_of_visible (.inr rfl) (hv i .add d)
  | block a b =>
    simp only [D.den, Bool.not_eq_true', List.isEmpty_eq_false_iff, ne_eq,
      List.append_eq_nil_iff, List.mem_append] at hf ⊢
    rcases hv.1 i .delete d with ha | ha
    · rcases hv.2 i .add d with hb | hb
      · rw [P.lines_eq] at ha hb; exact absurd ⟨ha, hb⟩ hf
      · obtain ⟨l, h1, h2⟩ := exists_marked_of_visible (.inr rfl) hb
        exact ⟨l, .inr h1, h2⟩
    · obtain ⟨l, h1, h2⟩ := exists_marked_of_visible (.inl rfl) ha
      exact ⟨l, .inl h1, h2⟩
  | printIfDiff p ih =>
    simp only [D.den] at hf ⊢
    simp only [hf, Bool.true_or, if_true]
    exact ih hv _ _ _ hf
  | ignoreDiff flag p ih =>
    simp only [D.den] at hf ⊢
    cases flag
    · exact ih hv _ _ _ (by simpa using hf)
    · simp at hf

/-! ### Identical sides -/

theorem D.den_same (o : Opts) (e : D) (hs : e.Same) (i : Nat) (x : DiffPrefix) (d : Nat) :
    (e.den o i x d).2.1 = false ∧ ∀ l ∈ (e.den o i x d).1, l.marked = false := by
  induction e generalizing i x d with
  | skip => simp [D.den]
  | seq p q ihp ihq =>
    have h1 := ihp hs.1 i x d
    have h2 := ihq hs.2 i (p.den o i x d).2.2 d
    simp only [D.den, h1.1, h2.1, Bool.or_false, List.mem_append, true_and]
    rintro l (hl | hl)
    · exact h1.2 _ hl
    · exact h2.2 _ hl
  | lineBreak => simp [D.den]; rfl
  | label l =>
    simp only [D.den, List.mem_singleton, true_and]; rintro _ rfl; exact not_marked_line (ite_mod _) _ _ _
  | line l a b =>
    simp only [D.Same] at hs
    simp only [D.den, hs, if_true]
    split
    · simp
    · simp only [List.mem_singleton, true_and]; rintro _ rfl; exact not_marked_line (ite_mod _) _ _ _
  | indent c h b ihh ihb =>
    simp only [D.den]
    split
    · exact ihh hs.1 _ _ _
    · have h2 := ihb hs.2 (i + 1) .equal d
      simp only [h2.1, Bool.false_eq_true, if_false, Bool.false_or]
      have h1 := ihh hs.1 i .equal d
      refine ⟨h1.1, ?_⟩
      intro l hl
      rcases List.mem_append.1 hl with hl | hl
      · exact h1.2 _ hl
      · exact h2.2 _ hl
  | field c l b ihb =>
    simp only [D.den]
    split
    · simp
    · have h2 := ihb hs (i + 1) .equal d
      refine ⟨h2.1, ?_⟩
      intro l hl
      rcases List.mem_cons.1 hl with rfl | hl
      · exact not_marked_line (ite_mod _) _ _ _
      · exact h2.2 _ hl
  | id n h b ihh ihb =>
    simp only [D.den]
    have h2 := ihb hs.2 (i + 1) .equal d
    simp only [h2.1, Bool.false_eq_true, if_false, Bool.false_or]
    have h1 := ihh hs.1 i .equal d
    refine ⟨h1.1, ?_⟩
    intro l hl
    rcases List.mem_append.1 hl with hl | hl
    · exact h1.2 _ hl
    · exact h2.2 _ hl
  | inline p ih =>
    simp only [D.den]
    split
    · simp
    · exact ih hs _ _ _
  | prefixDelete p => exact hs.elim
  | prefixAdd p => exact hs.elim
  | block a b =>
    simp only [D.Same] at hs
    simp [D.den, hs.1, hs.2, P.ls]
  | printIfDiff p ih =>
    have := ih hs i x d
    simp only [D.den]
    refine ⟨this.1, ?_⟩
    split
    · exact this.2
    · simp
  | ignoreDiff flag p ih =>
    have := ih hs i x d
    simp only [D.den]
    refine ⟨?_, this.2⟩
    split
    · rfl
    · exact this.1

/-! ### The starting marker does not matter -/

/-- `modify` and `equal` lines look the same in text. -/
def DiffPrefix.canon : DiffPrefix → DiffPrefix
  | .modify => .equal
  | x => x

/-- The line with its marker made canonical. -/
def Line.canon : Line → Line
  | .brk => .brk
  | .line p i l b => .line p.canon i l b
  | .instr p i a m b => .instr p.canon i a m b

theorem Line.render_canon (l : Line) : l.canon.render = l.render := by
  cases l with
  | brk => rfl
  | line p i l b => cases p <;> rfl
  | instr p i a m b => cases p <;> rfl

theorem canon_line_ite (c c' : Prop) [Decidable c] [Decidable c'] (i : Nat) (l b : Str) :
    (Line.line (if c then .modify else .equal) i l b).canon =
    (Line.line (if c' then .modify else .equal) i l b).canon := by
  by_cases h : c <;> by_cases h' : c' <;> simp [h, h', Line.canon, DiffPrefix.canon]

theorem D.den_canon (o : Opts) (e : D) (i : Nat) (x y : DiffPrefix) (d : Nat) :
    (e.den o i x d).1.map Line.canon = (e.den o i y d).1.map Line.canon ∧
    (e.den o i x d).2.1 = (e.den o i y d).2.1 := by
  induction e generalizing i x y d with
  | skip => simp [D.den]
  | seq p q ihp ihq =>
    have h1 := ihp i x y d
    have h2 := ihq i (p.den o i x d).2.2 (p.den o i y d).2.2 d
    simp [D.den, h1.1, h1.2, h2.1, h2.2]
  | lineBreak => simp [D.den]
  | label l => exact ⟨congrArg (fun l => [l]) (canon_line_ite _ _ _ _ _), rfl⟩
  | line l a b =>
    simp only [D.den]
    split
    · split
      · simp
      · exact ⟨congrArg (fun l => [l]) (canon_line_ite _ _ _ _ _), rfl⟩
    · split
      · simp
      · split <;> simp
  | indent c h b ihh ihb =>
    simp only [D.den]
    split
    · exact ihh _ _ _ _
    · simp
  | field c l b ihb => simp only [D.den]; split <;> simp
  | id n h b ihh ihb => simp [D.den]
  | inline p ih =>
    simp only [D.den]
    split
    · simp
    · exact ih _ _ _ _
  | prefixDelete p => simp [D.den]
  | prefixAdd p => simp [D.den]
  | block a b => simp [D.den]
  | printIfDiff p ih =>
    have h := ih i x y d
    simp only [D.den, h.2, and_true]
    split
    · exact h.1
    · rfl
  | ignoreDiff flag p ih =>
    have h := ih i x y d
    simp only [D.den, h.2, and_true]
    exact h.1

theorem render_canon (l : List Line) : render (l.map Line.canon) = render l := by
  unfold render
  rw [List.flatMap_map]
  congr 1
  funext l
  exact Line.render_canon l

theorem D.render_start (o : Opts) (e : D) (i : Nat) (x y : DiffPrefix) (d : Nat) :
    render (e.den o i x d).1 = render (e.den o i y d).1 := by
  rw [← render_canon, (D.den_canon o e i x y d).1, render_canon]

theorem render_append (l m : List Line) : render (l ++ m) = render l ++ render m := by
  simp [render]

theorem D.render_seqs (o : Opts) (es : List D) (i : Nat) (x : DiffPrefix) (d : Nat) :
    render ((D.seqs es).den o i x d).1 = es.flatMap (fun e => render (e.den o i .equal d).1) ∧
    ((D.seqs es).den o i x d).2.1 = es.any (fun e => (e.den o i .equal d).2.1) := by
  induction es generalizing x with
  | nil => simp [D.seqs, D.den, render]
  | cons e es ih =>
    have h := ih (e.den o i x d).2.2
    simp only [D.seqs, D.den, render_append, List.flatMap_cons, List.any_cons, h.1, h.2]
    rw [D.render_start o e i x .equal d, (D.den_canon o e i x .equal d).2]
    exact ⟨rfl, rfl⟩

/-! ### Inline expansion -/

theorem P.ls_expand (http : Bool) (p : P) (i : Nat) (x : DiffPrefix) (d d' : Nat) :
    (p.expand d).ls http i x d' = p.ls http i x d := by
  induction p generalizing i x d with
  | skip => simp [P.expand, P.ls]
  | seq p q ihp ihq => simp [P.expand, P.ls, ihp, ihq]
  | lineBreak => simp [P.expand, P.ls]
  | label l => simp [P.expand, P.ls]
  | line l v => simp [P.expand, P.ls]
  | instruction a m v => simp [P.expand, P.ls]
  | indent c h b ihh ihb => simp [P.expand, P.ls, ihh, ihb]
  | field c l b ihb => simp [P.expand, P.ls, ihb]
  | id n h b ihh ihb => simp [P.expand, P.ls, ihh, ihb]
  | fieldDetail n l b ihb => simp [P.expand, P.ls, ihb]
  | inline p ih => cases d <;> simp [P.expand, P.ls, ih]

theorem D.den_expand (o : Opts) (e : D) (i : Nat) (x : DiffPrefix) (d d' : Nat) :
    (e.expand d).den o i x d' = e.den o i x d := by
  induction e generalizing i x d with
  | skip => simp [D.expand, D.den]
  | seq p q ihp ihq => simp [D.expand, D.den, ihp, ihq]
  | lineBreak => simp [D.expand, D.den]
  | label l => simp [D.expand, D.den]
  | line l a b => simp [D.expand, D.den]
  | indent c h b ihh ihb => simp [D.expand, D.den, ihh, ihb]
  | field c l b ihb => simp [D.expand, D.den, ihb]
  | id n h b ihh ihb => simp [D.expand, D.den, ihh, ihb]
  | inline p ih => cases d <;> simp [D.expand, D.den, ih]
  | prefixDelete p => simp [D.expand, D.den, P.ls_expand]
  | prefixAdd p => simp [D.expand, D.den, P.ls_expand]
  | block a b => simp [D.expand, D.den, P.ls_expand]
  | printIfDiff p ih => simp [D.expand, D.den, ih]
  | ignoreDiff f p ih => simp [D.expand, D.den, ih]

end Verif.Print
