import Verif.Show.Facts
/-! # Splitting the lines of a listing into its parts -/
namespace Verif.Show
open Verif.Print Verif.Item Verif.Namespace Verif.Types Verif.Layout Verif.Path Verif.Opts Verif.Merge

/-- All lines stand at a level below `i`. -/
def Deeper (i : Nat) (ls : List Line) : Prop := ∀ l ∈ ls, ∃ j, l.indent = some j ∧ i < j

/-- A line at level `i` and what is below it. -/
def Group (i : Nat) (ls : List Line) : Prop := ∃ h r, ls = h :: r ∧ h.indent = some i ∧ Deeper i r

/-- Nothing, or a line at level `i` with the label `L` and what is below it. -/
def Part (i : Nat) (L : Str) (ls : List Line) : Prop := ls = [] ∨ ∃ x b r, ls = .line x i L b :: r ∧ Deeper i r

theorem Deeper.nil (i : Nat) : Deeper i [] := by intro l hl; cases hl

theorem deeper_ls {p : P} (h : NoBlank p) (http : Bool) (i : Nat) (x : DiffPrefix) (d : Nat) :
    Deeper i (p.ls http (i + 1) x d) := by
  intro l hl
  cases hi : l.indent with
  | none =>
    cases l <;> simp [Line.indent] at hi
    exact (h http (i + 1) x d hl).elim
  | some j =>
    have := P.ls_indent http p (i + 1) x d l hl j hi
    exact ⟨j, rfl, this⟩

/-- The first line of what follows stands at level `i`. -/
def Starts (i : Nat) (ls : List Line) : Prop := ∀ l, ls.head? = some l → l.indent = some i

theorem below_eq {i : Nat} {r r' t t' : List Line} (h : r ++ t = r' ++ t') (hr : Deeper i r) (hr' : Deeper i r')
    (ht : Starts i t) (ht' : Starts i t') : r = r' ∧ t = t' :=
  cut_eq (p := fun l : Line => ∃ j, l.indent = some j ∧ i < j) h hr hr'
    (fun l hl ⟨j, h1, h2⟩ => by rw [ht l hl] at h1; cases h1; omega)
    (fun l hl ⟨j, h1, h2⟩ => by rw [ht' l hl] at h1; cases h1; omega)

theorem starts_groups {i : Nat} {gs : List (List Line)} (h : ∀ g ∈ gs, Group i g) : Starts i gs.flatten := by
  cases gs with
  | nil => intro l hl; cases hl
  | cons g gs =>
    obtain ⟨a, r, rfl, ha, -⟩ := h _ (List.mem_cons_self ..)
    intro l hl
    simp at hl
    rw [← hl]; exact ha

theorem groups_eq {i : Nat} {gs gs' : List (List Line)} (h : ∀ g ∈ gs, Group i g) (h' : ∀ g ∈ gs', Group i g)
    (e : gs.flatten = gs'.flatten) : gs = gs' := by
  induction gs generalizing gs' with
  | nil =>
    cases gs' with
    | nil => rfl
    | cons g gs' =>
      obtain ⟨a, r, rfl, -, -⟩ := h' _ (List.mem_cons_self ..)
      simp at e
  | cons g gs ih =>
    cases gs' with
    | nil =>
      obtain ⟨a, r, rfl, -, -⟩ := h _ (List.mem_cons_self ..)
      simp at e
    | cons g' gs' =>
      obtain ⟨a, r, rfl, ha, hr⟩ := h _ (List.mem_cons_self ..)
      obtain ⟨a', r', rfl, ha', hr'⟩ := h' _ (List.mem_cons_self ..)
      have t := fun g hg => h g (List.mem_cons_of_mem _ hg)
      have t' := fun g hg => h' g (List.mem_cons_of_mem _ hg)
      simp only [List.flatten_cons, List.cons_append, List.cons.injEq] at e
      obtain ⟨h1, h2⟩ := below_eq e.2 hr hr' (starts_groups t) (starts_groups t')
      rw [e.1, h1, ih t t' h2]

/-- Two lists of items with equal listings: item by item, the listings are equal. -/
theorem listP_split {α β : Type} {f : α → Option P} {g : β → Option P} {l : List α} {m : List β} {p q : P}
    (hp : listP f l = some p) (hq : listP g m = some q) {http : Bool} {i : Nat} {x : DiffPrefix} {d : Nat}
    (hf : ∀ a ∈ l, ∀ p, f a = some p → Group i (p.ls http i x d))
    (hg : ∀ a ∈ m, ∀ p, g a = some p → Group i (p.ls http i x d))
    (e : p.ls http i x d = q.ls http i x d) :
    All2 (fun a b => a ∈ l ∧ b ∈ m ∧ ∃ p q, f a = some p ∧ g b = some q ∧ p.ls http i x d = q.ls http i x d) l m := by
  obtain ⟨ps, hps, rfl⟩ := listP_inv hp
  obtain ⟨qs, hqs, rfl⟩ := listP_inv hq
  rw [P.ls_seqs, P.ls_seqs] at e
  rw [List.flatMap_def, List.flatMap_def] at e
  have e' := groups_eq (i := i) ?_ ?_ e
  · clear e hp hq
    have key : ∀ (l : List α) (m : List β) (ps qs : List P), l.mapM f = some ps → m.mapM g = some qs →
        ps.map (fun p => p.ls http i x d) = qs.map (fun p => p.ls http i x d) →
        All2 (fun a b => a ∈ l ∧ b ∈ m ∧ ∃ p q, f a = some p ∧ g b = some q ∧ p.ls http i x d = q.ls http i x d) l m := by
      intro l
      induction l with
      | nil =>
        intro m ps qs h1 h2 e
        cases h1
        cases qs with
        | cons _ _ => simp at e
        | nil =>
          cases m with
          | nil => exact .nil
          | cons b m => simp [List.mapM_cons, Option.bind_eq_some_iff] at h2
      | cons a l ih =>
        intro m ps qs h1 h2 e
        simp only [List.mapM_cons, Option.bind_eq_bind, Option.pure_def, Option.bind_eq_some_iff, Option.some.injEq] at h1
        obtain ⟨p, hp, ps, hps, rfl⟩ := h1
        cases m with
        | nil => cases h2; simp at e
        | cons b m =>
          simp only [List.mapM_cons, Option.bind_eq_bind, Option.pure_def, Option.bind_eq_some_iff, Option.some.injEq] at h2
          obtain ⟨q, hq, qs, hqs, rfl⟩ := h2
          simp only [List.map_cons, List.cons.injEq] at e
          refine .cons ⟨List.mem_cons_self .., List.mem_cons_self .., p, q, hp, hq, e.1⟩ ?_
          have lift : ∀ {l' : List α} {m' : List β} {R S : α → β → Prop}, (∀ a b, R a b → S a b) → All2 R l' m' → All2 S l' m' := by
            intro l' m' R S hRS h
            induction h with
            | nil => exact .nil
            | cons h _ ih => exact .cons (hRS _ _ h) ih
          refine lift ?_ (ih m ps qs hps hqs e.2)
          rintro a b ⟨h1, h2, h3⟩
          exact ⟨List.mem_cons_of_mem _ h1, List.mem_cons_of_mem _ h2, h3⟩
    exact key l m ps qs hps hqs e'
  · intro g' hg'
    obtain ⟨p, hp, rfl⟩ := List.mem_map.1 hg'
    obtain ⟨a, ha, h'⟩ := mapM_mem hps p hp
    exact hf a ha p h'
  · intro g' hg'
    obtain ⟨p, hp, rfl⟩ := List.mem_map.1 hg'
    obtain ⟨a, ha, h'⟩ := mapM_mem hqs p hp
    exact hg a ha p h'

/-! ## Labelled parts -/

theorem starts_parts {i : Nat} {ps : List (Str × List Line)} (h : ∀ p ∈ ps, Part i p.1 p.2) :
    ∀ l, ((ps.map (·.2)).flatten).head? = some l → ∃ x L b, L ∈ ps.map (·.1) ∧ l = .line x i L b := by
  induction ps with
  | nil => intro l hl; cases hl
  | cons p ps ih =>
    intro l hl
    rcases h p (List.mem_cons_self ..) with h1 | ⟨x, b, r, h1, -⟩
    · simp only [List.map_cons, List.flatten_cons, h1, List.nil_append] at hl
      obtain ⟨x, L, b, h2, h3⟩ := ih (fun p hp => h p (List.mem_cons_of_mem _ hp)) l hl
      exact ⟨x, L, b, List.mem_cons_of_mem _ h2, h3⟩
    · simp only [List.map_cons, List.flatten_cons, h1, List.cons_append, List.head?_cons, Option.some.injEq] at hl
      exact ⟨x, p.1, b, List.mem_cons_self .., hl.symm⟩

theorem parts_eq {i : Nat} {ps qs : List (Str × List Line)} (hl : ps.map (·.1) = qs.map (·.1))
    (hn : (ps.map (·.1)).Nodup) (h : ∀ p ∈ ps, Part i p.1 p.2) (h' : ∀ p ∈ qs, Part i p.1 p.2)
    (e : (ps.map (·.2)).flatten = (qs.map (·.2)).flatten) : ps = qs := by
  induction ps generalizing qs with
  | nil =>
    cases qs with
    | nil => rfl
    | cons q qs => simp at hl
  | cons p ps ih =>
    cases qs with
    | nil => simp at hl
    | cons q qs =>
      obtain ⟨L, p⟩ := p
      obtain ⟨L', q⟩ := q
      simp only [List.map_cons, List.cons.injEq] at hl
      obtain ⟨rfl, hl⟩ := hl
      simp only [List.map_cons, List.nodup_cons] at hn
      have t := fun p hp => h p (List.mem_cons_of_mem _ hp)
      have t' := fun p hp => h' p (List.mem_cons_of_mem _ hp)
      have s := starts_parts t
      have s' := starts_parts t'
      simp only [List.map_cons, List.flatten_cons] at e
      have key : p = q ∧ (ps.map (·.2)).flatten = (qs.map (·.2)).flatten := by
        rcases h _ (List.mem_cons_self ..) with h1 | ⟨x, b, r, h1, hr⟩
        · rcases h' _ (List.mem_cons_self ..) with h2 | ⟨x', b', r', h2, hr'⟩
          · dsimp only at h1 h2
            subst h1; subst h2
            exact ⟨rfl, e⟩
          · dsimp only at h1 h2
            subst h1; subst h2
            obtain ⟨y, L', c, hL, hy⟩ := s (.line x' i L b') (by
              rw [List.nil_append] at e; rw [e]; rfl)
            cases hy
            exact absurd hL hn.1
        · rcases h' _ (List.mem_cons_self ..) with h2 | ⟨x', b', r', h2, hr'⟩
          · dsimp only at h1 h2
            subst h1; subst h2
            obtain ⟨y, L', c, hL, hy⟩ := s' (.line x i L b) (by
              rw [List.nil_append] at e; rw [← e]; rfl)
            cases hy
            exact absurd (hl ▸ hL) hn.1
          · dsimp only at h1 h2
            subst h1; subst h2
            simp only [List.cons_append, List.cons.injEq] at e
            have st : ∀ {ps : List (Str × List Line)}, (∀ l, ((ps.map (·.2)).flatten).head? = some l →
                ∃ x L b, L ∈ ps.map (·.1) ∧ l = Line.line x i L b) → Starts i (ps.map (·.2)).flatten := by
              intro ps h l hl
              obtain ⟨x, L, b, -, rfl⟩ := h l hl
              rfl
            obtain ⟨h3, h4⟩ := below_eq e.2 hr hr' (st s) (st s')
            exact ⟨by rw [e.1, h3], h4⟩
      rw [key.1, ih hl hn.2 t t' key.2]

/-! ## The parts of a program -/

theorem part_skip (i : Nat) (L : Str) : Part i L [] := .inl rfl

theorem part_line (http : Bool) (i : Nat) (x : DiffPrefix) (d : Nat) (L : Str) (v : Val) :
    Part i L ((P.line L v).ls http i x d) := by
  simp only [P.ls]
  split
  · exact .inl rfl
  · exact .inr ⟨_, _, _, rfl, Deeper.nil i⟩

theorem part_field (http : Bool) (i : Nat) (x : DiffPrefix) (d : Nat) (c : Bool) (L : Str) {p : P} (h : NoBlank p) :
    Part i L ((P.field c L p).ls http i x d) := by
  simp only [P.ls]
  split
  · exact .inl rfl
  · exact .inr ⟨_, _, _, rfl, deeper_ls h http i x d⟩

/-- Equal fields have equal contents. -/
theorem field_eq {http : Bool} {i : Nat} {x : DiffPrefix} {d : Nat} {c : Bool} {L : Str} {p q : P}
    (h : (P.field c L p).ls http i x d = (P.field c L q).ls http i x d) :
    p.ls http (i + 1) x d = q.ls http (i + 1) x d := by
  simp only [P.ls] at h
  split at h <;> split at h
  · rename_i h1 h2; rw [h1, h2]
  · cases h
  · cases h
  · exact (List.cons.inj h).2

/-- Equal lines show equal texts. -/
theorem line_eq {http : Bool} {i : Nat} {x : DiffPrefix} {d : Nat} {L : Str} {v w : Val}
    (h : (P.line L v).ls http i x d = (P.line L w).ls http i x d) : v.text' = w.text' := by
  simp only [P.ls] at h
  split at h <;> split at h
  · rename_i h1 h2; rw [h1, h2]
  · cases h
  · cases h
  · simpa using h

theorem group_line {v : Val} (h : v.text' ≠ []) (http : Bool) (i : Nat) (x : DiffPrefix) (d : Nat) (L : Str) :
    Group i ((P.line L v).ls http i x d) := by
  simp only [P.ls, h, if_false]
  exact ⟨_, _, rfl, rfl, Deeper.nil i⟩

theorem group_indent {v : Val} (h : v.text' ≠ []) {p : P} (hp : NoBlank p) (http : Bool) (i : Nat) (x : DiffPrefix)
    (d : Nat) (c : Bool) (L : Str) : Group i ((P.indent c (.line L v) p).ls http i x d) := by
  simp only [P.ls, h, if_false]
  exact ⟨_, _, rfl, rfl, deeper_ls hp http i x d⟩

/-- Equal sections have equal headers and equal bodies. -/
theorem indent_eq {v w : Val} (hv : v.text' ≠ []) (hw : w.text' ≠ []) {p q : P} {http : Bool} {i : Nat} {x : DiffPrefix}
    {d : Nat} {c : Bool} {L : Str}
    (h : (P.indent c (.line L v) p).ls http i x d = (P.indent c (.line L w) q).ls http i x d) :
    v.text' = w.text' ∧ p.ls http (i + 1) x d = q.ls http (i + 1) x d := by
  simp only [P.ls, hv, hw, if_false, List.cons_append, List.nil_append, List.cons.injEq, Line.line.injEq, true_and] at h
  exact h

end Verif.Show
