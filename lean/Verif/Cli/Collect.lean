import Verif.Cli.Lemmas
/-! # What the items of a command line add up to -/
namespace Verif.Cli
open Verif.Opts Verif.Main Verif.Types

theorem splitComma_ne (v : Str) : splitComma v ≠ [] := by
  cases v with
  | nil => simp [splitComma]
  | cons c t =>
    simp only [splitComma]
    split
    · simp
    · split <;> simp

theorem join_cons {p : Str} {ps : List Str} (h : ps ≠ []) : joinCommas (p :: ps) = p ++ 44 :: joinCommas ps := by
  cases ps with
  | nil => exact absurd rfl h
  | cons q ps => simp only [joinCommas, kComma, List.append_assoc]; rfl

theorem split_cut (v : Str) : CutAtCommas v (splitComma v) := by
  induction v with
  | nil => exact ⟨by simp [splitComma], rfl, by simp [splitComma]⟩
  | cons c t ih =>
    obtain ⟨h1, h2, h3⟩ := ih
    by_cases hc : c = 44
    · subst hc
      have e : splitComma (44 :: t) = [] :: splitComma t := by simp [splitComma]
      rw [e]
      refine ⟨by simp, by rw [join_cons h1, h2]; rfl, ?_⟩
      intro p hp
      rcases List.mem_cons.1 hp with rfl | hp
      · simp
      · exact h3 p hp
    · cases hs : splitComma t with
      | nil => exact absurd hs h1
      | cons h r =>
        have e : splitComma (c :: t) = (c :: h) :: r := by simp [splitComma, hc, hs]
        rw [hs] at h2 h3
        rw [e]
        refine ⟨by simp, ?_, ?_⟩
        · cases r with
          | nil => simp only [joinCommas] at h2 ⊢; rw [h2]
          | cons q r =>
            rw [join_cons (by simp)] at h2 ⊢
            rw [← h2]; rfl
        · intro p hp
          rcases List.mem_cons.1 hp with rfl | hp
          · have := h3 h (by simp)
            simp only [List.mem_cons, not_or]
            exact ⟨fun e => hc e.symm, this⟩
          · exact h3 p (List.mem_cons_of_mem _ hp)

/-- The parts of a text before and after a comma are determined. -/
theorem comma_unique {a b c d : Str} (ha : 44 ∉ a) (hc : 44 ∉ c) (h : a ++ 44 :: b = c ++ 44 :: d) : a = c ∧ b = d := by
  induction a generalizing c with
  | nil =>
    cases c with
    | nil => simpa using h
    | cons x c => simp at h; simp [h.1.symm] at hc
  | cons y a ih =>
    cases c with
    | nil => simp at h; simp [h.1] at ha
    | cons x c =>
      simp only [List.cons_append, List.cons.injEq] at h
      simp only [List.mem_cons, not_or] at ha hc
      obtain ⟨e1, e2⟩ := ih ha.2 hc.2 h.2
      exact ⟨by rw [h.1, e1], e2⟩

theorem cut_unique {v : Str} {ps qs : List Str} (h : CutAtCommas v ps) (h' : CutAtCommas v qs) : ps = qs := by
  induction ps generalizing v qs with
  | nil => exact absurd rfl h.1
  | cons p ps ih =>
    obtain ⟨_, h2, h3⟩ := h
    obtain ⟨g1, g2, g3⟩ := h'
    cases qs with
    | nil => exact absurd rfl g1
    | cons q qs =>
      have hp := h3 p (by simp)
      have hq := g3 q (by simp)
      cases ps with
      | nil =>
        cases qs with
        | nil => simp only [joinCommas] at h2 g2; rw [h2, g2]
        | cons q' qs =>
          rw [join_cons (by simp)] at g2
          simp only [joinCommas] at h2
          rw [h2, ← g2] at hp
          simp at hp
      | cons p' ps =>
        rw [join_cons (by simp)] at h2
        cases qs with
        | nil =>
          simp only [joinCommas] at g2
          rw [g2, ← h2] at hq
          simp at hq
        | cons q' qs =>
          rw [join_cons (by simp)] at g2
          obtain ⟨e1, e2⟩ := comma_unique hp hq (h2.trans g2.symm)
          have := ih (v := joinCommas (p' :: ps)) (qs := q' :: qs)
            ⟨by simp, rfl, fun x hx => h3 x (List.mem_cons_of_mem _ hx)⟩
            ⟨by simp, e2.symm, fun x hx => g3 x (List.mem_cons_of_mem _ hx)⟩
          rw [e1, this]

theorem split_iff (v : Str) (ps : List Str) : splitComma v = ps ↔ CutAtCommas v ps :=
  ⟨fun h => h ▸ split_cut v, fun h => cut_unique (split_cut v) h⟩

theorem cuts_iff (vs : List Str) (ms : List Str) :
    vs.flatMap splitComma = ms ↔ ∃ parts, All2 CutAtCommas vs parts ∧ ms = parts.flatten := by
  constructor
  · rintro rfl
    refine ⟨vs.map splitComma, ?_, by rw [List.flatMap_def]⟩
    induction vs with
    | nil => exact .nil
    | cons v vs ih => exact .cons (split_cut v) ih
  · rintro ⟨parts, h, rfl⟩
    induction h with
    | nil => rfl
    | cons h _ ih => rw [List.flatMap_cons, ih, (split_iff _ _).2 h]; rfl

/-- The values of an occurrence in the sense of the model. -/
def cutOf (i : ArgId) (vs : List Str) : List Str := if (flagOf i).split then vs.flatMap splitComma else vs

theorem meant_iff (i : ArgId) (vs ms : List Str) : Meant i vs ms ↔ cutOf i vs = ms := by
  unfold Meant cutOf
  by_cases h : isList i
  · rw [if_pos ((flagOf_split i).2 h), cuts_iff]
    simp [h]
  · have : ¬ (flagOf i).split = true := fun e => h ((flagOf_split i).1 e)
    rw [if_neg this]
    simp only [h, false_and, not_false_eq_true, true_and, false_or]
    exact eq_comm

/-- The values are among the choices, if there are any. -/
def Chosen (i : ArgId) (ms : List Str) : Prop := ∀ cs, choices i = some cs → ∀ m ∈ ms, ∃ c ∈ cs, m = k c

theorem accept_iff (i : ArgId) (vs ms : List Str) :
    (flagOf i).accept vs = some ms ↔ vs.length = arity i ∧ Meant i vs ms ∧ Chosen i ms := by
  rw [meant_iff]
  unfold Flag.accept
  rw [flagOf_count, flagOf_values]
  by_cases hl : vs.length = arity i
  · simp only [hl, if_true, true_and]
    change (if (match (choices i).map fun l => l.map k with
        | none => true
        | some l => (cutOf i vs).all fun v => l.contains v) = true then some (cutOf i vs) else none) = some ms ↔ _
    unfold Chosen
    cases hc : choices i with
    | none => simp
    | some cs =>
      simp only [Option.map_some]
      by_cases ha : (cutOf i vs).all (fun v => (cs.map k).contains v) = true
      · rw [if_pos ha]
        simp only [Option.some.injEq, forall_eq']
        constructor
        · rintro rfl
          refine ⟨rfl, fun m hm => ?_⟩
          have := List.all_eq_true.1 ha m hm
          rw [List.contains_iff_mem, List.mem_map] at this
          obtain ⟨c, h1, h2⟩ := this
          exact ⟨c, h1, h2.symm⟩
        · exact fun h => h.1
      · rw [if_neg ha]
        simp only [reduceCtorEq, false_iff, not_and, Option.some.injEq, forall_eq']
        rintro rfl h
        apply ha
        rw [List.all_eq_true]
        intro m hm
        obtain ⟨c, h1, h2⟩ := h m hm
        rw [List.contains_iff_mem, List.mem_map]
        exact ⟨c, h1, h2.symm⟩
  · simp [hl]

/-- What the occurrences of one option do to its value. -/
def collect (i : ArgId) : Option (List Str) → List (List Str) → Option (Option (List Str))
  | old, [] => some old
  | old, vs :: occ =>
    match (flagOf i).accept vs with
    | none => none
    | some ms =>
      match old with
      | none => collect i (some ms) occ
      | some o => if (flagOf i).many then collect i (some (o ++ ms)) occ else none

/-- What the files do. -/
def collectFile : Option Str → List Str → Option (Option Str)
  | old, [] => some old
  | none, p :: ps => collectFile (some p) ps
  | some _, _ :: _ => none

theorem react_iff (m m' : Matches) (j : ArgId) (vs : List Str) : m.react (flagOf j) vs = some m' ↔
    ∃ ms, (flagOf j).accept vs = some ms ∧ ((m.opt j).isSome = true → (flagOf j).many = true) ∧
      m' = { m with opt := fun i => if i = j then some ((m.opt j).getD [] ++ ms) else m.opt i } := by
  unfold Matches.react
  rw [flagOf_id]
  cases ha : (flagOf j).accept vs with
  | none => simp
  | some ms =>
    simp only [Option.some.injEq, exists_eq_left']
    cases ho : m.opt j with
    | none =>
      simp only [Option.isSome_none, Bool.false_eq_true, false_implies, true_and, Option.getD_none, List.nil_append,
        Option.some.injEq]
      exact ⟨fun h => h.symm, fun h => h.symm⟩
    | some old =>
      by_cases hm : (flagOf j).many = true
      · simp only [hm, if_true, Option.some.injEq, Option.isSome_some, forall_const, true_and, Option.getD_some]
        exact ⟨fun h => h.symm, fun h => h.symm⟩
      · simp [hm]

theorem collect_cons (i : ArgId) (old : Option (List Str)) (vs : List Str) (occ : List (List Str)) (r : Option (List Str)) :
    collect i old (vs :: occ) = some r ↔ ∃ ms, (flagOf i).accept vs = some ms ∧
      (old.isSome = true → (flagOf i).many = true) ∧ collect i (some (old.getD [] ++ ms)) occ = some r := by
  simp only [collect]
  cases ha : (flagOf i).accept vs with
  | none => simp
  | some ms =>
    simp only [Option.some.injEq, exists_eq_left']
    cases old with
    | none => simp
    | some o =>
      by_cases hm : (flagOf i).many = true
      · simp [hm]
      · simp [hm]

theorem matches_ext {m m' : Matches} (h : ∀ i, m.opt i = m'.opt i) (hf : m.file = m'.file) : m = m' := by
  cases m; cases m'
  simp only [Matches.mk.injEq] at *
  exact ⟨funext h, hf⟩

theorem applyItems_iff (items : List Item) (m m' : Matches) : applyItems m items = some m' ↔
    (∀ i, collect i (m.opt i) (occurrences i items) = some (m'.opt i)) ∧
      collectFile m.file (filesOf items) = some m'.file := by
  induction items generalizing m with
  | nil =>
    simp only [applyItems, occurrences, filesOf, collect, collectFile, Option.some.injEq]
    exact ⟨fun h => h ▸ ⟨fun _ => rfl, rfl⟩, fun h => matches_ext h.1 h.2⟩
  | cons it items ih =>
    simp only [applyItems]
    cases it with
    | file p =>
      simp only [applyItem, occurrences, filesOf]
      cases hf : m.file with
      | none =>
        simp only [collectFile]
        rw [ih]
      | some q => simp [collectFile]
    | opt j vs =>
      simp only [applyItem, filesOf]
      constructor
      · intro h
        cases hr : m.react (flagOf j) vs with
        | none => rw [hr] at h; cases h
        | some m1 =>
          rw [hr] at h
          obtain ⟨ms, h1, h2, rfl⟩ := (react_iff m m1 j vs).1 hr
          obtain ⟨h3, h4⟩ := (ih _).1 h
          refine ⟨fun i => ?_, h4⟩
          have := h3 i
          simp only [occurrences] at this ⊢
          by_cases he : j = i
          · subst he
            simp only [if_true] at this ⊢
            exact (collect_cons _ _ _ _ _).2 ⟨ms, h1, h2, this⟩
          · have he' : ¬ i = j := fun e => he e.symm
            simp only [if_neg he, if_neg he'] at this ⊢
            exact this
      · rintro ⟨h3, h4⟩
        have hj := h3 j
        simp only [occurrences, if_true] at hj
        obtain ⟨ms, h1, h2, h5⟩ := (collect_cons _ _ _ _ _).1 hj
        have hr := (react_iff m _ j vs).2 ⟨ms, h1, h2, rfl⟩
        rw [hr]
        simp only
        rw [ih]
        refine ⟨fun i => ?_, h4⟩
        by_cases he : j = i
        · subst he; simpa using h5
        · have he' : ¬ i = j := fun e => he e.symm
          have := h3 i
          simp only [occurrences, if_neg he] at this
          simp only [if_neg he']
          exact this

theorem collect_some (i : ArgId) (o : List Str) (occ : List (List Str)) (r : Option (List Str)) :
    collect i (some o) occ = some r ↔ (occ = [] ∨ isList i) ∧
      ∃ ms, All2 (fun vs m => (flagOf i).accept vs = some m) occ ms ∧ r = some (o ++ ms.flatten) := by
  induction occ generalizing o with
  | nil =>
    simp only [collect, Option.some.injEq, true_or, true_and]
    constructor
    · rintro rfl; exact ⟨[], .nil, by simp⟩
    · rintro ⟨ms, h, rfl⟩; cases h; simp
  | cons vs occ ih =>
    rw [collect_cons]
    simp only [Option.isSome_some, forall_const, Option.getD_some, reduceCtorEq, false_or]
    constructor
    · rintro ⟨ms, h1, h2, h3⟩
      obtain ⟨_, l, h4, h5⟩ := (ih _).1 h3
      exact ⟨(flagOf_many i).1 h2, ms :: l, .cons h1 h4, by rw [h5]; simp⟩
    · rintro ⟨hl, l, h4, h5⟩
      cases h4 with
      | @cons _ ms _ l h1 h4 =>
        exact ⟨ms, h1, (flagOf_many i).2 hl, (ih _).2 ⟨.inr hl, l, h4, by rw [h5]; simp⟩⟩

theorem collect_none (i : ArgId) (occ : List (List Str)) (r : Option (List Str)) :
    collect i none occ = some r ↔
      (∀ vs ∈ occ, vs.length = arity i) ∧ (¬ isList i → occ.length ≤ 1) ∧
      (∀ vs ∈ occ, ∀ ms, Meant i vs ms → Chosen i ms) ∧
      ((occ = [] ∧ r = none) ∨ (occ ≠ [] ∧ ∃ ms, All2 (Meant i) occ ms ∧ r = some ms.flatten)) := by
  have acc : ∀ occ ms, All2 (fun vs m => (flagOf i).accept vs = some m) occ ms ↔
      (∀ vs ∈ occ, vs.length = arity i) ∧ (∀ vs ∈ occ, ∀ ms, Meant i vs ms → Chosen i ms) ∧ All2 (Meant i) occ ms := by
    intro occ
    induction occ with
    | nil =>
      intro ms
      constructor
      · intro h; cases h; exact ⟨by simp, by simp, .nil⟩
      · rintro ⟨_, _, h⟩; cases h; exact .nil
    | cons vs occ ih =>
      intro ms
      constructor
      · intro h
        cases h with
        | @cons _ m _ ms h1 h2 =>
          obtain ⟨g1, g2, g3⟩ := (ih ms).1 h2
          obtain ⟨e1, e2, e3⟩ := (accept_iff _ _ _).1 h1
          refine ⟨List.forall_mem_cons.2 ⟨e1, g1⟩, List.forall_mem_cons.2 ⟨?_, g2⟩, .cons e2 g3⟩
          intro m' hm'
          rw [meant_iff] at e2 hm'
          rw [← hm', e2]; exact e3
      · rintro ⟨g1, g2, g3⟩
        cases g3 with
        | @cons _ m _ ms e2 g3 =>
          obtain ⟨e1, g1⟩ := List.forall_mem_cons.1 g1
          obtain ⟨e3, g2⟩ := List.forall_mem_cons.1 g2
          exact .cons ((accept_iff _ _ _).2 ⟨e1, e2, e3 m e2⟩) ((ih ms).2 ⟨g1, g2, g3⟩)
  cases occ with
  | nil => simp [collect, eq_comm]
  | cons vs occ =>
    rw [collect_cons]
    simp only [Option.isSome_none, Bool.false_eq_true, false_implies, true_and, Option.getD_none, List.nil_append,
      reduceCtorEq, false_and, false_or, ne_eq, not_false_eq_true, collect_some]
    constructor
    · rintro ⟨ms, h1, hl, l, h2, rfl⟩
      obtain ⟨g1, g2, g3⟩ := (acc (vs :: occ) (ms :: l)).1 (.cons h1 h2)
      refine ⟨g1, fun hn => ?_, g2, ms :: l, g3, by simp⟩
      rcases hl with rfl | hl
      · simp
      · exact absurd hl hn
    · rintro ⟨g1, gn, g2, l, g3, rfl⟩
      have := (acc _ _).2 ⟨g1, g2, g3⟩
      cases this with
      | @cons _ ms _ l h1 h2 =>
        refine ⟨ms, h1, ?_, l, h2, by simp⟩
        by_cases hl : isList i
        · exact .inr hl
        · left
          have := gn hl
          cases occ with
          | nil => rfl
          | cons _ _ => simp at this

theorem collectFile_none (ps : List Str) (r : Option Str) : collectFile none ps = some r ↔ ps = r.toList := by
  match ps with
  | [] => cases r <;> simp [collectFile]
  | [p] =>
    simp only [collectFile, Option.some.injEq]
    cases r <;> simp
  | p :: q :: ps => cases r <;> simp [collectFile]

/-- What is read from a command line that says the items. -/
theorem matches_iff (items : List Item) (m : Matches) : applyItems {} items = some m ↔
    Proper items ∧ filesOf items = m.file.toList ∧ ∀ i, SaysOf i items (m.opt i) := by
  rw [applyItems_iff, collectFile_none]
  constructor
  · rintro ⟨h1, h2⟩
    refine ⟨⟨?_, fun i => ?_⟩, h2, fun i => ?_⟩
    · rw [h2]; cases m.file <;> simp
    · obtain ⟨g1, g2, g3, _⟩ := (collect_none i _ _).1 (h1 i)
      exact ⟨g1, g2, fun cs hc vs hv ms hm => g3 vs hv ms hm cs hc⟩
    · exact ((collect_none i _ _).1 (h1 i)).2.2.2
  · rintro ⟨⟨_, hp⟩, h2, h3⟩
    refine ⟨fun i => (collect_none i _ _).2 ⟨(hp i).1, (hp i).2.1, ?_, h3 i⟩, h2⟩
    exact fun vs hv ms hm cs hc => (hp i).2.2 cs hc vs hv ms hm

end Verif.Cli
