import Verif.Show.Rows
import Verif.Show.Facts
/-! # Splitting the rows of a listing into its parts -/
namespace Verif.Show
open Verif.Print Verif.Item Verif.Types Verif.Opts

theorem deeper_inj {r s : Row} (h : r.deeper = s.deeper) : r = s := by
  cases r; cases s
  simp only [Row.deeper, Row.mk.injEq, Nat.add_right_cancel_iff] at h ⊢
  exact h

theorem map_deeper_inj : ∀ {r s : List Row}, r.map Row.deeper = s.map Row.deeper → r = s
  | [], [], _ => rfl
  | [], _ :: _, h => by cases h
  | _ :: _, [], h => by cases h
  | a :: r, b :: s, h => by
    simp only [List.map_cons, List.cons.injEq] at h
    rw [deeper_inj h.1, map_deeper_inj h.2]

theorem row_line_inj {x : DiffPrefix} {i : Nat} {r s : Row} (h : r.line x i = s.line x i) : r = s := by
  cases r; cases s
  simp only [Row.line, Line.line.injEq, true_and] at h
  obtain ⟨h1, h2, h3⟩ := h
  have : i + _ = i + _ := h1
  simp only [Row.mk.injEq]
  exact ⟨by omega, h2, h3⟩

theorem map_row_line_inj {x : DiffPrefix} {i : Nat} : ∀ {r s : List Row}, r.map (Row.line x i) = s.map (Row.line x i) → r = s
  | [], [], _ => rfl
  | [], _ :: _, h => by cases h
  | _ :: _, [], h => by cases h
  | a :: r, b :: s, h => by
    simp only [List.map_cons, List.cons.injEq] at h
    rw [row_line_inj h.1, map_row_line_inj h.2]

theorem oneRow_eq {L t t' : Str} (h : oneRow L t = oneRow L t') : t = t' := by
  unfold oneRow at h
  split at h <;> split at h
  · rename_i h1 h2; rw [h1, h2]
  · cases h
  · cases h
  · simpa using h

theorem under_eq {L : Str} {r r' : List Row} (h : under L r = under L r') : r = r' := by
  unfold under at h
  split at h <;> split at h
  · rename_i h1 h2; rw [h1, h2]
  · cases h
  · cases h
  · exact map_deeper_inj (List.cons.inj h).2

theorem entry_eq {t t' : Str} {r r' : List Row} (ht : t ≠ []) (ht' : t' ≠ []) (h : entry t r = entry t' r') :
    t = t' ∧ r = r' := by
  simp only [entry, oneRow, ht, ht', if_false, List.cons_append, List.nil_append, List.cons.injEq, Row.mk.injEq,
    true_and] at h
  exact ⟨h.1, map_deeper_inj h.2⟩

theorem shownIf_eq {b : Bool} {r r' : List Row} (h : shownIf b r = shownIf b r') (hb : b = true) : r = r' := by
  subst hb; exact h

theorem oneRows_eq {L : Str} : ∀ {ts ts' : List Str}, (∀ t ∈ ts, t ≠ []) → (∀ t ∈ ts', t ≠ []) →
    ts.flatMap (oneRow L) = ts'.flatMap (oneRow L) → ts = ts'
  | [], [], _, _, _ => rfl
  | [], t :: ts', _, h', e => by
    have := h' t (List.mem_cons_self ..)
    simp [oneRow, this] at e
  | t :: ts, [], h, _, e => by
    have := h t (List.mem_cons_self ..)
    simp [oneRow, this] at e
  | t :: ts, t' :: ts', h, h', e => by
    have h1 := h t (List.mem_cons_self ..)
    have h2 := h' t' (List.mem_cons_self ..)
    simp only [List.flatMap_cons] at e
    simp only [oneRow, h1, h2, if_false, List.cons_append, List.nil_append, List.cons.injEq, Row.mk.injEq, true_and] at e
    rw [e.1]
    congr 1
    refine oneRows_eq (L := L) (fun t ht => h t (List.mem_cons_of_mem _ ht)) (fun t ht => h' t (List.mem_cons_of_mem _ ht)) ?_
    simpa [oneRow] using e.2

/-! ## Labelled blocks -/

/-- The first row, if there is one, is at the top level. -/
def TopFirst (rows : List Row) : Prop := ∀ r, rows.head? = some r → r.depth = 0

/-- Rows whose top-level rows have the label `L`. -/
structure Block (L : Str) (rows : List Row) : Prop where
  first : TopFirst rows
  label : ∀ r ∈ rows, r.depth = 0 → r.label = L

/-- The rows that belong to top-level rows with the label `L`; `b` says whether the rows at the
start do. -/
def pick (L : Str) : Bool → List Row → List Row
  | _, [] => []
  | b, r :: rs =>
    if r.depth = 0 then if r.label = L then r :: pick L true rs else pick L false rs
    else if b then r :: pick L true rs else pick L false rs

theorem pick_top {L : Str} {rows : List Row} (h : TopFirst rows) (b c : Bool) : pick L b rows = pick L c rows := by
  cases rows with
  | nil => rfl
  | cons r rs =>
    have := h r rfl
    simp [pick, this]

theorem pick_within {L L' : Str} {rest : List Row} (hr : TopFirst rest) : ∀ {B : List Row},
    (∀ r ∈ B, r.depth = 0 → r.label = L) →
    pick L' (decide (L = L')) (B ++ rest) = (if L = L' then B else []) ++ pick L' false rest
  | [], _ => by
    simp only [List.nil_append, ite_self]
    exact pick_top hr _ _
  | r :: B, h => by
    have ih := pick_within hr (fun x hx => h x (List.mem_cons_of_mem _ hx)) (B := B) (L' := L')
    have hl := h r (List.mem_cons_self ..)
    simp only [List.cons_append, pick]
    by_cases hL : L = L'
    · subst hL
      simp only [decide_true, if_true] at ih ⊢
      by_cases hd : r.depth = 0
      · simp [hd, hl hd, ih]
      · simp [hd, ih]
    · simp only [hL, decide_false, if_false, List.nil_append] at ih ⊢
      by_cases hd : r.depth = 0
      · simp [hd, hl hd, hL, ih]
      · simp [hd, ih]

theorem pick_block {L L' : Str} {B rest : List Row} (hB : Block L B) (hr : TopFirst rest) :
    pick L' false (B ++ rest) = (if L = L' then B else []) ++ pick L' false rest := by
  rw [← pick_within hr hB.label]
  refine pick_top ?_ _ _
  intro r h
  cases B with
  | nil => exact hr r h
  | cons a B => exact hB.first r h

theorem topFirst_blocks {Ls : List Str} {Bs : List (List Row)} (h : All2 Block Ls Bs) : TopFirst Bs.flatten := by
  induction h with
  | nil => intro r hr; cases hr
  | @cons L B _ _ hB _ ih =>
    intro r hr
    cases B with
    | nil => exact ih r hr
    | cons a B => exact hB.first r hr

theorem blocks_eq {Ls : List Str} {Bs Bs' : List (List Row)} (hn : Ls.Nodup) (h : All2 Block Ls Bs)
    (h' : All2 Block Ls Bs') (e : Bs.flatten = Bs'.flatten) : Bs = Bs' := by
  have pf : ∀ {Ls : List Str} {Bs : List (List Row)}, All2 Block Ls Bs → ∀ L, L ∉ Ls → pick L false Bs.flatten = [] := by
    intro Ls Bs h L hL
    induction h with
    | nil => rfl
    | @cons L0 B Ls Bs hB hs ih =>
      rw [List.flatten_cons, pick_block hB (topFirst_blocks hs)]
      have h1 : L0 ≠ L := fun h => hL (by simp [h])
      simp only [h1, if_false, List.nil_append]
      exact ih fun h => hL (by simp [h])
  have e : ∀ L ∈ Ls, pick L false Bs.flatten = pick L false Bs'.flatten := by rw [e]; exact fun _ _ => rfl
  rename Bs.flatten = Bs'.flatten => e0
  clear e0
  induction h generalizing Bs' with
  | nil => cases h'; rfl
  | @cons L B Ls Bs hB hs ih =>
    cases h' with
    | @cons _ B' _ Bs' hB' hs' =>
      obtain ⟨hL, hn⟩ := List.nodup_cons.1 hn
      have e0 := e L (List.mem_cons_self ..)
      rw [List.flatten_cons, List.flatten_cons, pick_block hB (topFirst_blocks hs), pick_block hB' (topFirst_blocks hs'),
        pf hs L hL, pf hs' L hL] at e0
      simp only [if_true, List.append_nil] at e0
      rw [e0, ih hn hs' ?_]
      intro M hM
      have hne : L ≠ M := fun h => hL (h ▸ hM)
      have e1 := e M (List.mem_cons_of_mem _ hM)
      rw [List.flatten_cons, List.flatten_cons, pick_block hB (topFirst_blocks hs), pick_block hB' (topFirst_blocks hs')] at e1
      simpa [hne] using e1

theorem block_nil (L : Str) : Block L [] := ⟨nofun, nofun⟩

theorem block_oneRow (L t : Str) : Block L (oneRow L t) := by
  unfold oneRow
  split
  · exact block_nil L
  · exact ⟨by intro r h; cases h; rfl, by intro r h _; simp at h; rw [h]⟩

theorem block_under (L : Str) (rows : List Row) : Block L (under L rows) := by
  unfold under
  split
  · exact block_nil L
  · refine ⟨by intro r h; cases h; rfl, ?_⟩
    intro r hr h0
    rcases List.mem_cons.1 hr with rfl | hr
    · rfl
    · obtain ⟨s, -, rfl⟩ := List.mem_map.1 hr
      simp [Row.deeper] at h0

theorem block_shownIf {L : Str} {rows : List Row} (b : Bool) (h : Block L rows) : Block L (shownIf b rows) := by
  cases b
  · exact block_nil L
  · exact h

theorem block_append {L : Str} {r s : List Row} (hr : Block L r) (hs : Block L s) : Block L (r ++ s) := by
  constructor
  · intro x hx
    cases r with
    | nil => exact hs.first x hx
    | cons a r => exact hr.first x hx
  · intro x hx
    rcases List.mem_append.1 hx with hx | hx
    · exact hr.label x hx
    · exact hs.label x hx

theorem block_flatMap {α : Type} {L : Str} {f : α → List Row} (h : ∀ a, Block L (f a)) : ∀ l : List α, Block L (l.flatMap f)
  | [] => block_nil L
  | a :: l => block_append (h a) (block_flatMap h l)

/-! ## Entries -/

/-- A row at the top level and rows below it. -/
def RowGroup (g : List Row) : Prop := ∃ r rest, g = r :: rest ∧ r.depth = 0 ∧ ∀ x ∈ rest, 0 < x.depth

theorem group_entry {t : Str} (ht : t ≠ []) (rows : List Row) : RowGroup (entry t rows) := by
  refine ⟨⟨0, [], t⟩, rows.map Row.deeper, by simp [entry, oneRow, ht], rfl, ?_⟩
  intro x hx
  obtain ⟨r, -, rfl⟩ := List.mem_map.1 hx
  simp [Row.deeper]

theorem block_entry (t : Str) (rows : List Row) (ht : t ≠ []) : Block [] (entry t rows) := by
  constructor
  · intro r hr; simp [entry, oneRow, ht] at hr; rw [← hr]
  · intro r hr h0
    simp only [entry, oneRow, ht, if_false, List.cons_append, List.nil_append] at hr
    rcases List.mem_cons.1 hr with rfl | hr
    · rfl
    · obtain ⟨s, -, rfl⟩ := List.mem_map.1 hr
      simp [Row.deeper] at h0

theorem rowGroups_eq {gs gs' : List (List Row)} (h : ∀ g ∈ gs, RowGroup g) (h' : ∀ g ∈ gs', RowGroup g)
    (e : gs.flatten = gs'.flatten) : gs = gs' := by
  have starts : ∀ {gs : List (List Row)}, (∀ g ∈ gs, RowGroup g) → ∀ x, gs.flatten.head? = some x → ¬ 0 < x.depth := by
    intro gs h x hx
    cases gs with
    | nil => cases hx
    | cons g gs =>
      obtain ⟨a, r, rfl, ha, -⟩ := h _ (List.mem_cons_self ..)
      simp at hx
      rw [← hx, ha]
      omega
  induction gs generalizing gs' with
  | nil =>
    cases gs' with
    | nil => rfl
    | cons g gs' =>
      obtain ⟨a, r, rfl, -, -⟩ := h' _ (List.mem_cons_self ..)
      simp at e
  | cons g gs ih =>
    cases gs' with
    | nil =>
      obtain ⟨a, r, rfl, -, -⟩ := h _ (List.mem_cons_self ..)
      simp at e
    | cons g' gs' =>
      obtain ⟨a, r, rfl, ha, hr⟩ := h _ (List.mem_cons_self ..)
      obtain ⟨a', r', rfl, ha', hr'⟩ := h' _ (List.mem_cons_self ..)
      have t := fun g hg => h g (List.mem_cons_of_mem _ hg)
      have t' := fun g hg => h' g (List.mem_cons_of_mem _ hg)
      simp only [List.flatten_cons, List.cons_append, List.cons.injEq] at e
      obtain ⟨h1, h2⟩ := cut_eq (p := fun x : Row => 0 < x.depth) e.2 hr hr' (starts t) (starts t')
      rw [e.1, h1, ih t t' h2]

theorem all2_join {α β γ : Type} {R : α → γ → Prop} {S : β → γ → Prop} : ∀ {l : List α} {m : List β} {gs : List γ},
    All2 R l gs → All2 S m gs → All2 (fun a b => a ∈ l ∧ b ∈ m ∧ ∃ g, R a g ∧ S b g) l m
  | [], _, _, .nil, .nil => .nil
  | a :: l, _, _, .cons h t, .cons h' t' => by
    refine .cons ⟨List.mem_cons_self .., List.mem_cons_self .., _, h, h'⟩ ?_
    have := all2_join t t'
    have lift : ∀ {l' : List α} {m' : List β} {R S : α → β → Prop}, (∀ a b, R a b → S a b) → All2 R l' m' → All2 S l' m' := by
      intro l' m' R S hRS h
      induction h with
      | nil => exact .nil
      | cons h _ ih => exact .cons (hRS _ _ h) ih
    exact lift (fun a b ⟨h1, h2, h3⟩ => ⟨List.mem_cons_of_mem _ h1, List.mem_cons_of_mem _ h2, h3⟩) this

theorem all2_groups {α : Type} {R : α → List Row → Prop} {l : List α} {gs : List (List Row)} (h : All2 R l gs)
    (hg : ∀ a ∈ l, ∀ g, R a g → RowGroup g) : ∀ g ∈ gs, RowGroup g := by
  induction h with
  | nil => nofun
  | cons h _ ih =>
    intro g hg'
    rcases List.mem_cons.1 hg' with rfl | hg'
    · exact hg _ (List.mem_cons_self ..) _ h
    · exact ih (fun a ha => hg a (List.mem_cons_of_mem _ ha)) g hg'

theorem each_eq {α β : Type} {R : α → List Row → Prop} {S : β → List Row → Prop} {l : List α} {m : List β}
    {rows : List Row} (h : Each R l rows) (h' : Each S m rows) (hg : ∀ a ∈ l, ∀ g, R a g → RowGroup g)
    (hg' : ∀ a ∈ m, ∀ g, S a g → RowGroup g) : All2 (fun a b => a ∈ l ∧ b ∈ m ∧ ∃ g, R a g ∧ S b g) l m := by
  obtain ⟨gs, h1, h2⟩ := h
  obtain ⟨gs', h1', h2'⟩ := h'
  have := rowGroups_eq (all2_groups h1 hg) (all2_groups h1' hg') (h2 ▸ h2')
  subst this
  exact all2_join h1 h1'

theorem each_flatMap {α : Type} (f : α → List Row) (l : List α) : Each (fun a rows => rows = f a) l (l.flatMap f) :=
  ⟨l.map f, all2_map f l fun _ _ => rfl, List.flatMap_def ..⟩

theorem block_each {α : Type} {R : α → List Row → Prop} {L : Str} {l : List α} {rows : List Row} (h : Each R l rows)
    (hb : ∀ a ∈ l, ∀ g, R a g → Block L g) : Block L rows := by
  obtain ⟨gs, h1, rfl⟩ := h
  induction h1 with
  | nil => exact block_nil L
  | cons h _ ih => exact block_append (hb _ (List.mem_cons_self ..) _ h) (ih fun a ha => hb a (List.mem_cons_of_mem _ ha))

end Verif.Show
