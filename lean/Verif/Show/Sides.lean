import Verif.Show.TypeModel
import Verif.Print.Unreported
import Verif.Path.Props
/-!
# A diff and the two listings it is the diff of
-/
namespace Verif.Show
open Verif.Print Verif.Path Verif.Merge

/-- The diff `e` is made from the listings `p` (old) and `q` (new): taking one side's values
everywhere gives that side's listing; nothing is hidden and nothing is marked as ignored. -/
structure Sides (e : D) (p q : P) : Prop where
  old : ∀ http i x d, (e.side false).ls http i x d = p.ls http i x d
  new : ∀ http i x d, (e.side true).ls http i x d = q.ls http i x d
  hide : e.NoHide
  ignore : e.NoIgnore

/-- The listing has no blank lines. -/
def NoBlank (p : P) : Prop := ∀ http i x d, Line.brk ∉ p.ls http i x d
/-- The listing has no blank lines and is not empty. -/
def Shown (p : P) : Prop := NoBlank p ∧ ∀ http i x d, p.ls http i x d ≠ []

theorem Shown.visible {p : P} (h : Shown p) (http : Bool) : p.Visible http := by
  intro i x d
  rw [P.lines_eq]
  obtain ⟨l, hl⟩ := List.exists_mem_of_ne_nil _ (h.2 http i x d)
  exact ⟨l, hl, fun e => h.1 http i x d (e ▸ hl)⟩

theorem NoBlank.notBlank {p : P} (h : NoBlank p) (http : Bool) : p.NotBlank http := by
  intro i x d
  rw [P.lines_eq]
  by_cases h0 : p.ls http i x d = []
  · exact .inl h0
  · obtain ⟨l, hl⟩ := List.exists_mem_of_ne_nil _ h0
    exact .inr ⟨l, hl, fun e => h http i x d (e ▸ hl)⟩

/-! ### Composition -/

theorem Sides.skip : Sides .skip .skip .skip := ⟨by intros; rfl, by intros; rfl, trivial, trivial⟩
theorem Sides.lineBreak : Sides .lineBreak .lineBreak .lineBreak :=
  ⟨by intros; rfl, by intros; rfl, trivial, trivial⟩
theorem Sides.line (l : Str) (a b : Val) : Sides (.line l a b) (.line l a) (.line l b) :=
  ⟨by intros; rfl, by intros; rfl, trivial, trivial⟩
theorem Sides.label (l : Str) : Sides (.label l) (.label l) (.label l) :=
  ⟨by intros; rfl, by intros; rfl, trivial, trivial⟩
theorem Sides.seq {e e' : D} {p p' q q' : P} (h : Sides e p q) (h' : Sides e' p' q') :
    Sides (.seq e e') (.seq p p') (.seq q q') :=
  ⟨fun http i x d => by simp [D.side, P.ls, h.old http i x d, h'.old http i x d],
   fun http i x d => by simp [D.side, P.ls, h.new http i x d, h'.new http i x d],
   ⟨h.hide, h'.hide⟩, ⟨h.ignore, h'.ignore⟩⟩
theorem Sides.indent {e e' : D} {p p' q q' : P} (c : Bool) (h : Sides e p q) (h' : Sides e' p' q') :
    Sides (.indent c e e') (.indent c p p') (.indent c q q') :=
  ⟨fun http i x d => by simp [D.side, P.ls, h.old http i x d, h'.old http (i + 1) x d],
   fun http i x d => by simp [D.side, P.ls, h.new http i x d, h'.new http (i + 1) x d],
   ⟨h.hide, h'.hide⟩, ⟨h.ignore, h'.ignore⟩⟩
theorem Sides.id {e e' : D} {p p' q q' : P} (n m k : Nat) (h : Sides e p q) (h' : Sides e' p' q') :
    Sides (.id n e e') (.id m p p') (.id k q q') :=
  ⟨fun http i x d => by simp [D.side, P.ls, h.old http i x d, h'.old http (i + 1) x d],
   fun http i x d => by simp [D.side, P.ls, h.new http i x d, h'.new http (i + 1) x d],
   ⟨h.hide, h'.hide⟩, ⟨h.ignore, h'.ignore⟩⟩
theorem Sides.field {e : D} {p q : P} (c : Bool) (l : Str) (h : Sides e p q) :
    Sides (.field c l e) (.field c l p) (.field c l q) :=
  ⟨fun http i x d => by simp [D.side, P.ls, h.old http (i + 1) x d],
   fun http i x d => by simp [D.side, P.ls, h.new http (i + 1) x d], h.hide, h.ignore⟩
theorem Sides.inline {e : D} {p q : P} (h : Sides e p q) : Sides (.inline e) (.inline p) (.inline q) :=
  ⟨fun http i x d => by simp [D.side, P.ls, h.old], fun http i x d => by simp [D.side, P.ls, h.new],
    h.hide, h.ignore⟩
theorem Sides.block (p q : P) : Sides (.block p q) p q :=
  ⟨by intros; rfl, by intros; rfl, trivial, trivial⟩
theorem Sides.del (p : P) : Sides (.prefixDelete p) p .skip :=
  ⟨by intros; rfl, by intros; rfl, trivial, trivial⟩
theorem Sides.add (p : P) : Sides (.prefixAdd p) .skip p :=
  ⟨by intros; rfl, by intros; rfl, trivial, trivial⟩
/-- Listings that write the same lines can be exchanged. -/
theorem Sides.congr {e : D} {p q p' q' : P} (h : Sides e p q)
    (hp : ∀ http i x d, p.ls http i x d = p'.ls http i x d)
    (hq : ∀ http i x d, q.ls http i x d = q'.ls http i x d) : Sides e p' q' :=
  ⟨fun http i x d => (h.old http i x d).trans (hp http i x d),
    fun http i x d => (h.new http i x d).trans (hq http i x d), h.hide, h.ignore⟩

theorem NoBlank.skip : NoBlank .skip := by intro http i x d; simp [P.ls]
theorem NoBlank.line (l : Str) (v : Val) : NoBlank (.line l v) := by
  intro http i x d; simp only [P.ls]; split <;> simp
theorem NoBlank.seq {p q : P} (h : NoBlank p) (h' : NoBlank q) : NoBlank (.seq p q) := by
  intro http i x d; simp [P.ls, h http i x d, h' http i x d]
theorem NoBlank.indent {p q : P} (c : Bool) (h : NoBlank p) (h' : NoBlank q) :
    NoBlank (.indent c p q) := by
  intro http i x d; simp [P.ls, h http i x d, h' http (i + 1) x d]
theorem NoBlank.field {p : P} (c : Bool) (l : Str) (h : NoBlank p) : NoBlank (.field c l p) := by
  intro http i x d; simp only [P.ls]; split <;> simp [h http (i + 1) x d]

theorem Shown.line {v : Val} (l : Str) (h : v.text' ≠ []) : Shown (.line l v) :=
  ⟨NoBlank.line l v, by intro http i x d; simp [P.ls, h]⟩
theorem Shown.indent {p q : P} (c : Bool) (h : Shown p) (h' : NoBlank q) : Shown (.indent c p q) :=
  ⟨NoBlank.indent c h.1 h', by intro http i x d; simp [P.ls, h.2 http i x d]⟩

/-! ### Lists -/

theorem P.ls_seqs (http : Bool) (ps : List P) (i : Nat) (x : DiffPrefix) (d : Nat) :
    (P.seqs ps).ls http i x d = ps.flatMap (fun p => p.ls http i x d) := by
  induction ps with
  | nil => rfl
  | cons p ps ih => simp [P.seqs, P.ls, ih]

theorem NoBlank.seqs {ps : List P} (h : ∀ p ∈ ps, NoBlank p) : NoBlank (.seqs ps) := by
  intro http i x d
  rw [P.ls_seqs]
  simp only [List.mem_flatMap, not_exists, not_and]
  exact fun p hp => h p hp http i x d

theorem listP_nil (print : α → Option P) : listP print [] = some .skip := rfl

theorem listP_cons {print : α → Option P} {a : α} {l : List α} {p q : P} (h : print a = some p)
    (h' : listP print l = some q) : listP print (a :: l) = some (.seq p q) := by
  simp only [listP, Option.map_eq_some_iff] at h'
  obtain ⟨ps, hps, rfl⟩ := h'
  simp [listP, List.mapM_cons, h, hps, P.seqs]

theorem listP_inv {print : α → Option P} {l : List α} {p : P} (h : listP print l = some p) :
    ∃ ps, l.mapM print = some ps ∧ p = .seqs ps := by
  simp only [listP, Option.map_eq_some_iff] at h
  obtain ⟨ps, hps, rfl⟩ := h
  exact ⟨ps, hps, rfl⟩

theorem mapM_mem {α β : Type} {f : α → Option β} {l : List α} {r : List β} (h : l.mapM f = some r) :
    ∀ b ∈ r, ∃ a ∈ l, f a = some b := by
  induction l generalizing r with
  | nil => simp at h; subst h; simp
  | cons a l ih =>
    simp only [List.mapM_cons, Option.bind_eq_bind, Option.bind_eq_some_iff, Option.pure_def,
      Option.some.injEq] at h
    obtain ⟨b, hb, r', hr', rfl⟩ := h
    intro y hy
    rcases List.mem_cons.1 hy with rfl | hy
    · exact ⟨a, List.mem_cons_self .., hb⟩
    · obtain ⟨a', ha', h'⟩ := ih hr' y hy
      exact ⟨a', List.mem_cons_of_mem _ ha', h'⟩

/-- A diff, if there is one, is made from the two listings, which then exist. -/
def Rel (d : Option D) (pa pb : Option P) : Prop :=
  ∀ e, d = some e → ∃ p q, pa = some p ∧ pb = some q ∧ Sides e p q

/-- All added and deleted items of the diff, if there is one, are visible. -/
def RelV (d : Option D) : Prop := ∀ e, d = some e → ∀ http, e.Visible http

theorem items_sides {α : Type} {print print' : α → Option P} {diff : α → α → Option D}
    (items : List (MergeResult α α)) {es : List D}
    (he : items.mapM (itemD print print' diff) = some es)
    (hd : ∀ a b, .both a b ∈ items → Rel (diff a b) (print a) (print' b)) :
    ∃ p q, listP print (oldItems items) = some p ∧ listP print' (newItems items) = some q ∧
      Sides (.seqs es) p q := by
  induction items generalizing es with
  | nil => simp at he; subst he; exact ⟨.skip, .skip, rfl, rfl, Sides.skip⟩
  | cons it items ih =>
    simp only [List.mapM_cons, Option.bind_eq_bind, Option.bind_eq_some_iff, Option.pure_def,
      Option.some.injEq] at he
    obtain ⟨e, he, es', hes, rfl⟩ := he
    obtain ⟨p, q, hp, hq, hs⟩ := ih hes (fun a b h => hd a b (List.mem_cons_of_mem _ h))
    cases it with
    | both a b =>
      obtain ⟨pa, pb, ha, hb, hs'⟩ := hd a b (List.mem_cons_self ..) e he
      exact ⟨.seq pa p, .seq pb q, listP_cons ha hp, listP_cons hb hq, Sides.seq hs' hs⟩
    | left a =>
      simp only [itemD, Option.map_eq_some_iff] at he
      obtain ⟨pa, ha, rfl⟩ := he
      refine ⟨.seq pa p, q, listP_cons ha hp, hq, ?_⟩
      exact (Sides.seq (Sides.del pa) hs).congr (fun _ _ _ _ => rfl) (fun _ _ _ _ => by simp [P.ls])
    | right b =>
      simp only [itemD, Option.map_eq_some_iff] at he
      obtain ⟨pb, hb, rfl⟩ := he
      refine ⟨p, .seq pb q, hp, listP_cons hb hq, ?_⟩
      exact (Sides.seq (Sides.add pb) hs).congr (fun _ _ _ _ => by simp [P.ls]) (fun _ _ _ _ => rfl)

theorem D.visible_seqs {http : Bool} {es : List D} (h : ∀ e ∈ es, e.Visible http) :
    (D.seqs es).Visible http := by
  induction es with
  | nil => trivial
  | cons e es ih =>
    exact ⟨h e (List.mem_cons_self ..), ih fun e he => h e (List.mem_cons_of_mem _ he)⟩

theorem items_visible {α : Type} {print print' : α → Option P} {diff : α → α → Option D}
    (items : List (MergeResult α α)) {es : List D}
    (he : items.mapM (itemD print print' diff) = some es)
    (hl : ∀ a, .left a ∈ items → ∀ p, print a = some p → Shown p)
    (hr : ∀ b, .right b ∈ items → ∀ p, print' b = some p → Shown p)
    (hd : ∀ a b, .both a b ∈ items → RelV (diff a b)) : ∀ http, (D.seqs es).Visible http := by
  intro http
  refine D.visible_seqs fun e hem => ?_
  obtain ⟨it, hit, hie⟩ := mapM_mem he e hem
  cases it with
  | both a b => exact hd a b hit e hie http
  | left a =>
    simp only [itemD, Option.map_eq_some_iff] at hie
    obtain ⟨p, hp, rfl⟩ := hie
    exact (hl a hit p hp).visible http
  | right b =>
    simp only [itemD, Option.map_eq_some_iff] at hie
    obtain ⟨p, hp, rfl⟩ := hie
    exact (hr b hit p hp).visible http

theorem mem_oldItems {α : Type} {items : List (MergeResult α α)} :
    (∀ a, .left a ∈ items → a ∈ oldItems items) ∧ (∀ b, .right b ∈ items → b ∈ newItems items) ∧
    (∀ a b, .both a b ∈ items → a ∈ oldItems items ∧ b ∈ newItems items) :=
  ⟨fun a h => List.mem_filterMap.2 ⟨_, h, rfl⟩, fun b h => List.mem_filterMap.2 ⟨_, h, rfl⟩,
    fun a b h => ⟨List.mem_filterMap.2 ⟨_, h, rfl⟩, List.mem_filterMap.2 ⟨_, h, rfl⟩⟩⟩

theorem listD_inv {α : Type} {Q : Heap} {print print' : α → Option P} {diff : α → α → Option D}
    {c1 c2 : α → Nat} {cost : α → α → Nat} {la lb : List α} {e : D}
    (h : listD Q print print' diff c1 c2 cost la lb = some e) :
    ∃ items es, IsAlignment c1 c2 cost la lb items ∧
      diffList Q la lb c1 c2 cost (enoughFuel la lb) = .ok items ∧
      items.mapM (itemD print print' diff) = some es ∧ e = .seqs es := by
  unfold listD at h
  split at h
  · rename_i htot
    obtain ⟨items, hi, ha⟩ := C19_alignment Q la lb c1 c2 cost htot _ (Nat.le_refl _)
    rw [hi] at h
    simp only [Option.map_eq_some_iff] at h
    obtain ⟨es, hes, rfl⟩ := h
    exact ⟨items, es, ha, hi, hes, rfl⟩
  · cases h

theorem listD_rel {α : Type} {Q : Heap} {print print' : α → Option P} {diff : α → α → Option D}
    {c1 c2 : α → Nat} {cost : α → α → Nat} {la lb : List α}
    (hd : ∀ a ∈ la, ∀ b ∈ lb, Rel (diff a b) (print a) (print' b)) :
    Rel (listD Q print print' diff c1 c2 cost la lb) (listP print la) (listP print' lb) := by
  intro e he
  obtain ⟨items, es, ha, -, hes, rfl⟩ := listD_inv he
  obtain ⟨p, q, hp, hq, hs⟩ := items_sides items hes (fun a b h => by
    have := mem_oldItems.2.2 a b h
    rw [ha.old, ha.new] at this
    exact hd a this.1 b this.2)
  rw [ha.old] at hp
  rw [ha.new] at hq
  exact ⟨p, q, hp, hq, hs⟩

theorem listD_vis {α : Type} {Q : Heap} {print print' : α → Option P} {diff : α → α → Option D}
    {c1 c2 : α → Nat} {cost : α → α → Nat} {la lb : List α}
    (hl : ∀ a ∈ la, ∀ p, print a = some p → Shown p)
    (hr : ∀ b ∈ lb, ∀ p, print' b = some p → Shown p)
    (hd : ∀ a ∈ la, ∀ b ∈ lb, RelV (diff a b)) :
    RelV (listD Q print print' diff c1 c2 cost la lb) := by
  intro e he
  obtain ⟨items, es, ha, -, hes, rfl⟩ := listD_inv he
  refine items_visible items hes ?_ ?_ ?_
  · intro a h
    have := mem_oldItems.1 a h
    rw [ha.old] at this
    exact hl a this
  · intro a h
    have := mem_oldItems.2.1 a h
    rw [ha.new] at this
    exact hr a this
  · intro a b h
    have := mem_oldItems.2.2 a b h
    rw [ha.old, ha.new] at this
    exact hd a this.1 b this.2

/-! ### A list against itself -/

theorem D.same_seqs {es : List D} (h : ∀ e ∈ es, e.Same) : (D.seqs es).Same := by
  induction es with
  | nil => trivial
  | cons e es ih =>
    exact ⟨h e (List.mem_cons_self ..), ih fun e he => h e (List.mem_cons_of_mem _ he)⟩

/-- Every diff there is has the same values on both sides. -/
def RelS (d : Option D) : Prop := ∀ e, d = some e → e.Same

theorem listD_self {α : Type} {Q : Heap} {print print' : α → Option P} {diff : α → α → Option D}
    {c1 c2 : α → Nat} {cost : α → α → Nat} {l : List α}
    (hc : ∀ a ∈ l, cost a a = 0) (h1 : ∀ a ∈ l, 0 < c1 a) (h2 : ∀ a ∈ l, 0 < c2 a)
    (hd : ∀ a ∈ l, RelS (diff a a)) : RelS (listD Q print print' diff c1 c2 cost l l) := by
  intro e he
  have htot : replaceCost c1 c2 l l < usizeMax := by
    unfold listD at he
    split at he
    · assumption
    · cases he
  obtain ⟨items, es, -, hi, hes, rfl⟩ := listD_inv he
  have h := C21_self Q (l.map fun a => (a, a)) c1 c2 cost (by simpa using hc) (by simpa using h1)
    (by simpa using h2) (by simpa [Function.comp_def] using htot) (enoughFuel l l)
    (by simp [enoughFuel])
  simp only [List.map_map, Function.comp_def, List.map_id'] at h
  rw [h] at hi
  cases hi
  refine D.same_seqs fun e hem => ?_
  obtain ⟨it, hit, hie⟩ := mapM_mem hes e hem
  obtain ⟨a, ha, rfl⟩ := List.mem_map.1 hit
  exact hd a ha e hie

end Verif.Show
