import Verif.Select.Listing
import Verif.Print.Lemmas2
/-!
# Lemmas: a part of a diff
-/
namespace Verif.Select
open Verif.Print Verif.Item Verif.Namespace Verif.Types Verif.Opts Verif.Merge Verif.Order Verif.Show

/-- Wherever both are run, with whatever marker left over, the lines of `d` are among those of `e`
(but for markers that look the same), in the same order, and if `d` reports a difference, so does
`e`. -/
def DSub (d e : D) : Prop :=
  ∀ (o o' : Print.Opts), o.http = o'.http → o.html = o'.html → ∀ i x y n m, n ≤ m →
    ((d.den o i x n).1.map Line.canon).Sublist ((e.den o' i y m).1.map Line.canon) ∧
    ((d.den o i x n).2.1 = true → (e.den o' i y m).2.1 = true)

theorem DSub.skip (e : D) : DSub .skip e :=
  fun _ _ _ _ _ _ _ _ _ _ => ⟨List.nil_sublist _, fun h => by cases h⟩

theorem DSub.seq {d e d' e' : D} (h : DSub d d') (h' : DSub e e') : DSub (.seq d e) (.seq d' e') := by
  intro o o' h1 h2 i x y n m hn
  simp only [D.den, List.map_append, Bool.or_eq_true]
  have a := h o o' h1 h2 i x y n m hn
  have b := h' o o' h1 h2 i (d.den o i x n).2.2 (d'.den o' i y m).2.2 n m hn
  exact ⟨a.1.append b.1, Or.imp a.2 b.2⟩

theorem nil_of_map {a b : List Line} (h : (a.map Line.canon).Sublist (b.map Line.canon)) (hb : b = []) : a = [] := by
  subst hb
  simpa using h

theorem DSub.indent {h b h' b' : D} (c : Bool) (hh : DSub h h') (hb : DSub b b') :
    DSub (.indent c h b) (.indent c h' b') := by
  intro o o' h1 h2 i x y n m hn
  have B := hb o o' h1 h2 (i + 1) .equal .equal n m hn
  simp only [D.den]
  by_cases e : (b.den o (i + 1) .equal n).1 = []
  · rw [if_pos e]
    by_cases e' : (b'.den o' (i + 1) .equal m).1 = []
    · rw [if_pos e']
      exact hh o o' h1 h2 i x y n m hn
    · rw [if_neg e']
      have A := hh o o' h1 h2 i x (if (b'.den o' (i + 1) .equal m).2.1 then .modify else .equal) n m hn
      simp only [List.map_append, Bool.or_eq_true]
      exact ⟨A.1.trans (List.sublist_append_left _ _), fun f => .inr (A.2 f)⟩
  · have e' : (b'.den o' (i + 1) .equal m).1 ≠ [] := fun e' => e (nil_of_map B.1 e')
    rw [if_neg e, if_neg e']
    have A := hh o o' h1 h2 i (if (b.den o (i + 1) .equal n).2.1 then .modify else .equal)
      (if (b'.den o' (i + 1) .equal m).2.1 then .modify else .equal) n m hn
    simp only [List.map_append, Bool.or_eq_true]
    exact ⟨A.1.append B.1, Or.imp B.2 A.2⟩

theorem DSub.id {h b h' b' : D} (c c' : Nat) (hh : DSub h h') (hb : DSub b b') :
    DSub (.id c h b) (.id c' h' b') := by
  intro o o' h1 h2 i x y n m hn
  have B := hb o o' h1 h2 (i + 1) .equal .equal n m hn
  have A := hh o o' h1 h2 i (if (b.den o (i + 1) .equal n).2.1 then .modify else .equal)
    (if (b'.den o' (i + 1) .equal m).2.1 then .modify else .equal) n m hn
  simp only [D.den, List.map_append, Bool.or_eq_true]
  exact ⟨A.1.append B.1, Or.imp B.2 A.2⟩

theorem DSub.field {b b' : D} (c : Bool) (l : Str) (hb : DSub b b') : DSub (.field c l b) (.field c l b') := by
  intro o o' h1 h2 i x y n m hn
  have B := hb o o' h1 h2 (i + 1) .equal .equal n m hn
  simp only [D.den]
  by_cases e : (b.den o (i + 1) .equal n).1 = []
  · rw [if_pos e]
    exact ⟨List.nil_sublist _, fun f => by cases f⟩
  · have e' : (b'.den o' (i + 1) .equal m).1 ≠ [] := fun e' => e (nil_of_map B.1 e')
    rw [if_neg e, if_neg e']
    refine ⟨?_, B.2⟩
    simp only [List.map_cons]
    rw [canon_line_ite ((b.den o (i + 1) .equal n).2.1 = true) ((b'.den o' (i + 1) .equal m).2.1 = true)]
    exact B.1.cons_cons _

theorem DSub.inline {d e : D} (h : DSub d e) : DSub (.inline d) (.inline e) := by
  intro o o' h1 h2 i x y n m hn
  simp only [D.den]
  by_cases h0 : n = 0
  · rw [if_pos h0]; exact ⟨List.nil_sublist _, fun f => by cases f⟩
  · rw [if_neg h0, if_neg (by omega)]
    exact h o o' h1 h2 i x y _ _ (by omega)

theorem DSub.prefixDelete {p q : P} (h : Sub p q) : DSub (.prefixDelete p) (.prefixDelete q) := by
  intro o o' h1 _ i x y n m hn
  simp only [D.den, h1]
  exact ⟨(h _ i _ n m hn).map _, fun _ => trivial⟩

theorem DSub.prefixAdd {p q : P} (h : Sub p q) : DSub (.prefixAdd p) (.prefixAdd q) := by
  intro o o' h1 _ i x y n m hn
  simp only [D.den, h1]
  exact ⟨(h _ i _ n m hn).map _, fun _ => trivial⟩

theorem DSub.block {p q p' q' : P} (h : Sub p p') (h' : Sub q q') : DSub (.block p q) (.block p' q') := by
  intro o o' h1 _ i x y n m hn
  simp only [D.den, h1]
  have hs := (h o'.http i .delete n m hn).append (h' o'.http i .add n m hn)
  refine ⟨hs.map _, fun f => ?_⟩
  simp only [Bool.not_eq_true', List.isEmpty_eq_false_iff] at f ⊢
  intro e
  rw [e] at hs
  exact f (List.sublist_nil.1 hs)

theorem DSub.printIfDiff {d e : D} (h : DSub d e) : DSub (.printIfDiff d) (.printIfDiff e) := by
  intro o o' h1 h2 i x y n m hn
  have A := h o o' h1 h2 i x y n m hn
  simp only [D.den]
  refine ⟨?_, A.2⟩
  by_cases c : ((d.den o i x n).2.1 || o.html) = true
  · have c' : ((e.den o' i y m).2.1 || o'.html) = true := by
      rw [← h2]
      simp only [Bool.or_eq_true] at c ⊢
      exact c.imp A.2 (fun h => h)
    rw [if_pos c, if_pos c']
    exact A.1
  · rw [if_neg c]; exact List.nil_sublist _

theorem DSub.ignoreDiff {d e : D} {f f' : Bool} (hf : f' = true → f = true) (h : DSub d e) :
    DSub (.ignoreDiff f d) (.ignoreDiff f' e) := by
  intro o o' h1 h2 i x y n m hn
  have A := h o o' h1 h2 i x y n m hn
  simp only [D.den]
  refine ⟨A.1, ?_⟩
  cases f with
  | true => intro c; cases c
  | false =>
    cases f' with
    | true => cases hf rfl
    | false => exact A.2

theorem DSub.refl (d : D) : DSub d d := by
  induction d with
  | skip => exact .skip _
  | seq p q ihp ihq => exact ihp.seq ihq
  | lineBreak => exact fun _ _ _ _ _ _ _ _ _ _ => ⟨List.Sublist.refl _, fun h => h⟩
  | label l =>
    intro o o' h1 h2 i x y n m hn
    simp only [D.den, List.map_cons, List.map_nil]
    rw [canon_line_ite (x = .modify) (y = .modify)]
    exact ⟨List.Sublist.refl _, fun h => h⟩
  | line l a b =>
    intro o o' h1 h2 i x y n m hn
    simp only [D.den]
    repeat' split
    all_goals first
      | exact ⟨List.Sublist.refl _, fun h => h⟩
      | skip
    all_goals
      simp only [List.map_cons, List.map_nil, Line.canon, DiffPrefix.canon]
      exact ⟨List.Sublist.refl _, fun h => h⟩
  | indent c h b ihh ihb => exact ihh.indent c ihb
  | field c l b ih => exact ih.field c l
  | id n h b ihh ihb => exact ihh.id n n ihb
  | inline p ih => exact ih.inline
  | prefixDelete p => exact .prefixDelete (.refl p)
  | prefixAdd p => exact .prefixAdd (.refl p)
  | block a b => exact .block (.refl a) (.refl b)
  | printIfDiff d ih => exact ih.printIfDiff
  | ignoreDiff f d ih => exact ih.ignoreDiff fun h => h

theorem DSub.ite {b b' : Bool} {p p' : D} (hb : b = true → b' = true) (h : DSub p p') :
    DSub (if b then p else .skip) (if b' then p' else .skip) := by
  cases b
  · exact .skip _
  · rw [hb rfl]; exact h

/-- If the larger diff is made, so is the smaller, and it is a part of it. -/
def ODSub (p q : Option D) : Prop := ∀ q', q = some q' → ∃ p', p = some p' ∧ DSub p' q'

theorem ODSub.some {p q : D} (h : DSub p q) : ODSub (Option.some p) (Option.some q) := by
  rintro _ ⟨⟩; exact ⟨p, rfl, h⟩

theorem ODSub.refl (p : Option D) : ODSub p p := fun q h => ⟨q, h, .refl q⟩

theorem ODSub.bind {a b : Option D} {f g : D → Option D} (h : ODSub a b)
    (hf : ∀ p q, DSub p q → ODSub (f p) (g q)) : ODSub (a.bind f) (b.bind g) := by
  intro q hq
  obtain ⟨x, hx, hq⟩ := Option.bind_eq_some_iff.1 hq
  obtain ⟨y, hy, hxy⟩ := h x hx
  rw [hy]
  exact hf y x hxy q hq

theorem ODSub.bindP {a b : Option P} {f g : P → Option D} (h : OSub a b)
    (hf : ∀ p q, Sub p q → ODSub (f p) (g q)) : ODSub (a.bind f) (b.bind g) := by
  intro q hq
  obtain ⟨x, hx, hq⟩ := Option.bind_eq_some_iff.1 hq
  obtain ⟨y, hy, hxy⟩ := h x hx
  rw [hy]
  exact hf y x hxy q hq

theorem ODSub.same {α : Type} {a : Option α} {f g : α → Option D} (hf : ∀ x, ODSub (f x) (g x)) :
    ODSub (a.bind f) (a.bind g) := by
  cases a with
  | none => intro q hq; cases hq
  | some x => exact hf x

theorem ODSub.mapD {a b : Option D} {f : D → D} (h : ODSub a b) (hf : ∀ p q, DSub p q → DSub (f p) (f q)) :
    ODSub (a.map f) (b.map f) := by
  intro q hq
  obtain ⟨x, hx, rfl⟩ := Option.map_eq_some_iff.1 hq
  obtain ⟨y, hy, hxy⟩ := h x hx
  exact ⟨f y, by rw [hy]; rfl, hf y x hxy⟩

theorem ODSub.mapPD {a b : Option P} {f : P → D} (h : OSub a b) (hf : ∀ p q, Sub p q → DSub (f p) (f q)) :
    ODSub (a.map f) (b.map f) := by
  intro q hq
  obtain ⟨x, hx, rfl⟩ := Option.map_eq_some_iff.1 hq
  obtain ⟨y, hy, hxy⟩ := h x hx
  exact ⟨f y, by rw [hy]; rfl, hf y x hxy⟩

theorem ODSub.when {b b' : Bool} {p q : Option D} (hb : b = true → b' = true) (h : b = true → ODSub p q) :
    ODSub (whenD b p) (whenD b' q) := by
  cases b
  · intro q' _; exact ⟨.skip, rfl, .skip _⟩
  · rw [hb rfl]; exact h rfl

theorem ODSub.mapM {α : Type} {f g : α → Option D} (h : ∀ a, ODSub (f a) (g a)) (l : List α) :
    ODSub ((l.mapM f).map D.seqs) ((l.mapM g).map D.seqs) := by
  induction l with
  | nil => exact .refl _
  | cons a l ih =>
    intro q hq
    rw [List.mapM_cons] at hq
    obtain ⟨ps, hps, rfl⟩ := Option.map_eq_some_iff.1 hq
    simp only [Bind.bind, Option.bind_eq_some_iff, pure, Option.some.injEq] at hps
    obtain ⟨p, hp, ps, hps, rfl⟩ := hps
    obtain ⟨p', h1, h2⟩ := ih (D.seqs ps) (by simp [hps])
    obtain ⟨p'', h3, h4⟩ := h a p hp
    obtain ⟨ms, h5, rfl⟩ := Option.map_eq_some_iff.1 h1
    exact ⟨.seq p'' (D.seqs ms), by simp [List.mapM_cons, h3, h5, D.seqs], h4.seq h2⟩

theorem itemD_sub {α : Type} {f f' g g' : α → Option P} {d e : α → α → Option D}
    (hf : ∀ a, OSub (f a) (g a)) (hf' : ∀ a, OSub (f' a) (g' a)) (hd : ∀ a b, ODSub (d a b) (e a b))
    (r : MergeResult α α) : ODSub (itemD f f' d r) (itemD g g' e r) := by
  cases r with
  | both a b => exact hd a b
  | left a => exact (hf a |> fun h => ODSub.mapPD h fun _ _ h => .prefixDelete h)
  | right b => exact (hf' b |> fun h => ODSub.mapPD h fun _ _ h => .prefixAdd h)

theorem ODSub.list {α : Type} {f f' g g' : α → Option P} {d e : α → α → Option D}
    (hf : ∀ a, OSub (f a) (g a)) (hf' : ∀ a, OSub (f' a) (g' a)) (hd : ∀ a b, ODSub (d a b) (e a b))
    (Q : Path.Heap) (c1 c2 : α → Nat) (cost : α → α → Nat) (la lb : List α) :
    ODSub (listD Q f f' d c1 c2 cost la lb) (listD Q g g' e c1 c2 cost la lb) := by
  unfold listD
  split
  · split
    · exact ODSub.mapM (itemD_sub hf hf' hd) _
    · exact .refl _
  · exact .refl _

end Verif.Select
