import Verif.Show.TypeLemmas
/-!
# C76: the listing and the diff of a type
-/
namespace Verif.Show
open Verif.Print Verif.Item Verif.Namespace Verif.Types Verif.Layout Verif.Path Verif.Opts Verif.Merge

/-! ### Vocabulary -/

/-- The base classes of a struct. -/
def basesOf : Ty → List Inherit
  | .struct_ _ _ _ _ _ inh => inh
  | _ => []

/-- Not the case that one type has exactly one base class and the other several. -/
def SameBaseForm (a b : Ty) : Prop :=
  ¬((basesOf a).length = 1 ∧ (basesOf b).length > 1) ∧
  ¬((basesOf b).length = 1 ∧ (basesOf a).length > 1)

/-- Nothing that is listed on a line of its own has an empty text: references to base classes, and
names of enumerators. -/
structure Named (s : Side) (t : TypeEntry) : Prop where
  refs : ∀ o, (s.tref o).text' ≠ []
  enumerators : ∀ e ∈ (s.extra t.offset).enumerators, e.name ≠ some []

/-! ### Bodies -/

theorem seqs2 {e1 e2 : D} {p1 p2 q1 q2 : P} (h1 : Sides e1 p1 q1) (h2 : Sides e2 p2 q2) :
    Sides (.seqs [e1, e2]) (.seqs [p1, p2]) (.seqs [q1, q2]) := h1.seq (h2.seq Sides.skip)
theorem seqs3 {e1 e2 e3 : D} {p1 p2 p3 q1 q2 q3 : P} (h1 : Sides e1 p1 q1) (h2 : Sides e2 p2 q2)
    (h3 : Sides e3 p3 q3) :
    Sides (.seqs [e1, e2, e3]) (.seqs [p1, p2, p3]) (.seqs [q1, q2, q3]) := h1.seq (seqs2 h2 h3)
theorem seqs4 {e1 e2 e3 e4 : D} {p1 p2 p3 p4 q1 q2 q3 q4 : P} (h1 : Sides e1 p1 q1)
    (h2 : Sides e2 p2 q2) (h3 : Sides e3 p3 q3) (h4 : Sides e4 p4 q4) :
    Sides (.seqs [e1, e2, e3, e4]) (.seqs [p1, p2, p3, p4]) (.seqs [q1, q2, q3, q4]) :=
  h1.seq (seqs3 h2 h3 h4)
theorem seqs5 {e1 e2 e3 e4 e5 : D} {p1 p2 p3 p4 p5 q1 q2 q3 q4 q5 : P} (h1 : Sides e1 p1 q1)
    (h2 : Sides e2 p2 q2) (h3 : Sides e3 p3 q3) (h4 : Sides e4 p4 q4) (h5 : Sides e5 p5 q5) :
    Sides (.seqs [e1, e2, e3, e4, e5]) (.seqs [p1, p2, p3, p4, p5]) (.seqs [q1, q2, q3, q4, q5]) :=
  h1.seq (seqs4 h2 h3 h4 h5)

theorem sourceD_ok (o : Options) (da : Option Str) (a : Source) (db : Option Str) (b : Source) :
    Sides (sourceD o da a db b) (sourceP o da a) (sourceP o db b) := by
  unfold sourceD sourceP
  split
  · exact Sides.line ..
  · exact Sides.skip

theorem listP_map {α : Type} (l : List α) (f : α → P) :
    listP (fun a => some (f a)) l = some (.seqs (l.map f)) := by
  induction l with
  | nil => rfl
  | cons a l ih => exact listP_cons (print := fun a => some (f a)) rfl ih

theorem inheritsD_ok (c : Pair) (la lb : List Inherit)
    (h : ¬(la.length = 1 ∧ lb.length > 1) ∧ ¬(lb.length = 1 ∧ la.length > 1)) (e : D)
    (he : inheritsD c la lb = some e) : Sides e (inheritsP c.a la) (inheritsP c.b lb) := by
  unfold inheritsD at he
  split at he
  · rename_i h'
    simp only [Option.map_eq_some_iff] at he
    obtain ⟨f, hf, rfl⟩ := he
    obtain ⟨p, q, hp, hq, hs⟩ := listD_rel (fun a _ b _ e he => by
      cases he
      exact ⟨_, _, rfl, rfl, Sides.line ..⟩) f hf
    rw [listP_map] at hp hq
    cases hp
    cases hq
    refine (Sides.field false (k "inherits") hs).congr ?_ ?_
    · intro http i x d
      match la, h, h' with
      | [], _, _ => rfl
      | [a], h, h' => simp at h h'; omega
      | a :: b :: l, _, _ => rfl
    · intro http i x d
      match lb, h, h' with
      | [], _, _ => rfl
      | [a], h, h' => simp at h h'; omega
      | a :: b :: l, _, _ => rfl
  · rename_i h'
    cases he
    refine (Sides.line ..).congr ?_ ?_
    · intro http i x d
      match la with
      | [] => rfl
      | [a] => rfl
      | a :: b :: l => simp at h'
    · intro http i x d
      match lb with
      | [] => rfl
      | [a] => rfl
      | a :: b :: l => simp at h'

theorem enumeratorsD_ok (Q : Heap) (la lb : List Enumerator) (e : D)
    (he : enumeratorsD Q la lb = some e) :
    Sides e (.seqs (la.map enumeratorP)) (.seqs (lb.map enumeratorP)) := by
  unfold enumeratorsD at he
  obtain ⟨p, q, hp, hq, hs⟩ := listD_rel (fun a _ b _ e he => by
    cases he
    exact ⟨_, _, rfl, rfl, Sides.line ..⟩) e he
  rw [listP_map] at hp hq
  cases hp
  cases hq
  exact hs

/-- The part of `bodyD_ok` that is the same for all kinds; `inh` says how base classes are
compared. -/
theorem bodyD_ok {o : Options} {c : Pair} {da db : Option Str} {n : Nat} {x y : Extra} {a b : Ty}
    (hb : SameBaseForm a b) {e : D} (he : bodyD o c da db n x y a b = some e) :
    ∃ p q, bodyP o c.a da n x a = some p ∧ bodyP o c.b db n y b = some q ∧ Sides e p q := by
  unfold bodyD at he
  split at he
  · cases he
    exact ⟨_, _, rfl, rfl, seqs3 (Sides.line ..) (Sides.line ..) (Sides.line ..)⟩
  · rename_i _ _ t1 _ _ t2
    simp only [Option.bind_eq_bind, Option.bind_eq_some_iff, Option.some.injEq] at he
    obtain ⟨ms, hms, rfl⟩ := he
    obtain ⟨p, q, hp, hq, hs⟩ := (membersD_ok c n _ _).1 ms hms
    have key : ∀ (s : Side) (dir : Option Str) (z : Extra) (t : TypeOffset) (ns : Option Namespace)
        (nm : Option Str) (p : P), membersP s n (defInline s t) = some p →
        ∃ r, bodyP o s dir n z (.def_ ns nm t) = some r ∧ ∀ http i x d,
          (P.seqs [sourceP o dir z.source, .line (k "size") (sizeVal (s.tsz t)),
            .field false (k "members") p]).ls http i x d = r.ls http i x d := by
      intro s dir z t ns nm p hp
      simp only [bodyP]
      cases hd : defInline s t with
      | some t' =>
        rw [hd] at hp
        simp only [hp, Option.bind_eq_bind, Option.bind_some]
        exact ⟨_, rfl, fun _ _ _ _ => rfl⟩
      | none =>
        rw [hd] at hp
        refine ⟨_, rfl, fun http i x d => ?_⟩
        cases n with
        | zero => cases hp
        | succ n => cases hp; simp [P.seqs, P.ls]
    obtain ⟨p', hp', hpl⟩ := key c.a da x t1 _ _ p hp
    obtain ⟨q', hq', hql⟩ := key c.b db y t2 _ _ q hq
    exact ⟨p', q', hp', hq', (seqs3 (sourceD_ok ..) (Sides.line ..) (hs.field ..)).congr hpl hql⟩
  · simp only [Option.bind_eq_bind, Option.bind_eq_some_iff, Option.some.injEq] at he
    obtain ⟨ms, hms, inh, hinh, rfl⟩ := he
    obtain ⟨p, q, hp, hq, hs⟩ := (membersD_ok c n _ _).1 ms hms
    refine ⟨_, _, Option.bind_eq_some_iff.2 ⟨p, hp, rfl⟩,
      Option.bind_eq_some_iff.2 ⟨q, hq, rfl⟩, ?_⟩
    exact seqs5 (sourceD_ok ..) (Sides.line ..) (Sides.line ..) (inheritsD_ok c _ _ hb _ hinh)
      (hs.field ..)
  · simp only [Option.bind_eq_bind, Option.bind_eq_some_iff, Option.some.injEq] at he
    obtain ⟨ms, hms, rfl⟩ := he
    obtain ⟨p, q, hp, hq, hs⟩ := (membersD_ok c n _ _).1 ms hms
    refine ⟨_, _, Option.bind_eq_some_iff.2 ⟨p, hp, rfl⟩,
      Option.bind_eq_some_iff.2 ⟨q, hq, rfl⟩, ?_⟩
    exact seqs4 (sourceD_ok ..) (Sides.line ..) (Sides.line ..) (hs.field ..)
  · simp only [Option.bind_eq_bind, Option.bind_eq_some_iff, Option.some.injEq] at he
    obtain ⟨es, hes, rfl⟩ := he
    exact ⟨_, _, rfl, rfl, seqs4 (sourceD_ok ..) (Sides.line ..) (Sides.line ..)
      ((enumeratorsD_ok _ _ _ _ hes).field ..)⟩
  · cases he

theorem headerD_ok {c : Pair} {a b : Ty} {e : D} (he : headerD c a b = some e) :
    ∃ v w, headerVal c.a a = some v ∧ headerVal c.b b = some w ∧ e = .line [] v w := by
  unfold headerD at he
  split at he <;> cases he <;> exact ⟨_, _, rfl, rfl, rfl⟩

theorem typeD_ok {o : Options} {c : Pair} {da db : Option Str} {n : Nat} {a b : TypeEntry}
    (hb : SameBaseForm a.kind b.kind) {e : D} (he : typeD o c da db n a b = some e) :
    ∃ p q, typeP o c.a da n a = some p ∧ typeP o c.b db n b = some q ∧ Sides e p q := by
  simp only [typeD, Option.bind_eq_bind, Option.bind_eq_some_iff, Option.some.injEq] at he
  obtain ⟨h, hh, body, hbody, rfl⟩ := he
  obtain ⟨v, w, hv, hw, rfl⟩ := headerD_ok hh
  obtain ⟨p, q, hp, hq, hs⟩ := bodyD_ok hb hbody
  refine ⟨.seq (.id (c.a.extra a.offset).id (.line [] v) p) .lineBreak,
    .seq (.id (c.b.extra b.offset).id (.line [] w) q) .lineBreak, ?_, ?_,
    (Sides.id _ _ _ (Sides.line ..) hs).seq Sides.lineBreak⟩
  · simp [typeP, hv, hp]
  · simp [typeP, hw, hq]

theorem listD_refs_vis {c : Pair} (ha : ∀ o, (c.a.tref o).text' ≠ [])
    (hb : ∀ o, (c.b.tref o).text' ≠ []) (la lb : List Inherit) : RelV (inheritsD c la lb) := by
  intro e he http
  unfold inheritsD at he
  split at he
  · simp only [Option.map_eq_some_iff] at he
    obtain ⟨f, hf, rfl⟩ := he
    exact listD_vis (fun a _ p hp => by cases hp; exact Shown.line _ (ha _))
      (fun a _ p hp => by cases hp; exact Shown.line _ (hb _))
      (fun a _ b _ e he http => by cases he; trivial) f hf http
  · cases he; trivial

theorem length_items {α : Type} (items : List (MergeResult α α)) :
    ((oldItems items).length > (newItems items).length → ∃ a, .left a ∈ items) ∧
    ((oldItems items).length < (newItems items).length → ∃ b, .right b ∈ items) := by
  induction items with
  | nil => simp [oldItems, newItems]
  | cons it items ih =>
    cases it with
    | both a b =>
      simp only [oldItems, newItems, List.filterMap_cons, oldItem, newItem, List.length_cons] at ih ⊢
      refine ⟨fun h => ?_, fun h => ?_⟩
      · obtain ⟨x, hx⟩ := ih.1 (by omega); exact ⟨x, List.mem_cons_of_mem _ hx⟩
      · obtain ⟨x, hx⟩ := ih.2 (by omega); exact ⟨x, List.mem_cons_of_mem _ hx⟩
    | left a =>
      refine ⟨fun _ => ⟨a, List.mem_cons_self ..⟩, fun h => ?_⟩
      simp only [oldItems, newItems, List.filterMap_cons, oldItem, newItem, List.length_cons] at ih h
      obtain ⟨x, hx⟩ := ih.2 (by omega); exact ⟨x, List.mem_cons_of_mem _ hx⟩
    | right b =>
      refine ⟨fun h => ?_, fun _ => ⟨b, List.mem_cons_self ..⟩⟩
      simp only [oldItems, newItems, List.filterMap_cons, oldItem, newItem, List.length_cons] at ih h
      obtain ⟨x, hx⟩ := ih.1 (by omega); exact ⟨x, List.mem_cons_of_mem _ hx⟩

/-- Lists of different lengths are never aligned without an addition or a deletion. -/
theorem listD_length_flag {α : Type} {Q : Heap} {print print' : α → Option P}
    {diff : α → α → Option D} {c1 c2 : α → Nat} {cost : α → α → Nat} {la lb : List α} {e : D}
    (h : listD Q print print' diff c1 c2 cost la lb = some e) (hl : la.length ≠ lb.length)
    (o : Print.Opts) (i : Nat) (x : DiffPrefix) (d : Nat) : (e.den o i x d).2.1 = true := by
  obtain ⟨items, es, ha, -, hes, rfl⟩ := listD_inv h
  rw [(D.render_seqs o es i x d).2, List.any_eq_true]
  have hmem : ∀ it ∈ items, ∃ e ∈ es, itemD print print' diff it = some e := by
    clear ha h
    induction items generalizing es with
    | nil => simp
    | cons it items ih =>
      simp only [List.mapM_cons, Option.bind_eq_bind, Option.bind_eq_some_iff, Option.pure_def,
        Option.some.injEq] at hes
      obtain ⟨e, he, es', hes', rfl⟩ := hes
      intro it' h'
      rcases List.mem_cons.1 h' with rfl | h'
      · exact ⟨e, List.mem_cons_self .., he⟩
      · obtain ⟨e', h1, h2⟩ := ih es' hes' it' h'
        exact ⟨e', List.mem_cons_of_mem _ h1, h2⟩
  have hlen := length_items items
  rw [ha.old, ha.new] at hlen
  by_cases h' : la.length > lb.length
  · obtain ⟨a, hait⟩ := hlen.1 h'
    obtain ⟨e, he, hie⟩ := hmem _ hait
    simp only [itemD, Option.map_eq_some_iff] at hie
    obtain ⟨p, -, rfl⟩ := hie
    exact ⟨_, he, rfl⟩
  · obtain ⟨b, hait⟩ := hlen.2 (by omega)
    obtain ⟨e, he, hie⟩ := hmem _ hait
    simp only [itemD, Option.map_eq_some_iff] at hie
    obtain ⟨p, -, rfl⟩ := hie
    exact ⟨_, he, rfl⟩

theorem inheritsD_mismatch {c : Pair} (ha : ∀ o, (c.a.tref o).text' ≠ [])
    (hb : ∀ o, (c.b.tref o).text' ≠ []) {la lb : List Inherit} {e : D}
    (he : inheritsD c la lb = some e) (hl : la.length ≠ lb.length)
    (hm : la.length > 1 ∨ lb.length > 1) (o : Print.Opts) (i : Nat) (x : DiffPrefix) (d : Nat) :
    (e.den o i x d).2.1 = true := by
  have hv := listD_refs_vis ha hb la lb e he o.http
  unfold inheritsD at he
  rw [if_pos hm] at he
  simp only [Option.map_eq_some_iff] at he
  obtain ⟨f, hf, rfl⟩ := he
  have hflag := listD_length_flag hf hl o (i + 1) .equal d
  obtain ⟨l, hl, -⟩ := D.den_flagged o f hv (i + 1) .equal d hflag
  have hne : (f.den o (i + 1) .equal d).1 ≠ [] := fun h => by rw [h] at hl; cases hl
  simp [D.den, hne, hflag]

/-! ## C76 -/

/-- A type compared with itself, as it stands in the same file: no difference is reported, no line
is marked, and inside the hidden-when-unchanged list of types nothing is printed. `same` is the
comparison of types, of which only reflexivity (for the types of the file) is used. -/
theorem C76_type_self (o : Options) (s : Side) (same : Ty → Ty → Bool) (heap : Heap)
    (hs : ∀ o t, fromOffset s.hash o = some t → same t t = true) (dir : Option Str) (n : Nat) (t : TypeEntry) (e : D)
    (he : typeD o ⟨s, s, same, heap⟩ dir dir n t t = some e) (po : Print.Opts)
    (ho : po.html = false) (i : Nat) (x : DiffPrefix) (d : Nat) :
    e.flag po i x d = false ∧ (∀ l ∈ e.lines po i x d, l.marked = false) ∧
      (D.printIfDiff e).lines po i x d = [] := by
  refine C23_same po ho e ?_ i x d
  simp only [typeD, Option.bind_eq_bind, Option.bind_eq_some_iff, Option.some.injEq] at he
  obtain ⟨h, hh, body, hbody, rfl⟩ := he
  refine ⟨⟨?_, ?_⟩, trivial⟩
  · obtain ⟨v, w, hv, hw, rfl⟩ := headerD_ok hh
    dsimp only at hv hw
    rw [hv] at hw
    cases hw
    exact rfl
  · generalize hc : (⟨s, s, same, heap⟩ : Pair) = c at hbody hh
    have hab : c.a = c.b := by rw [← hc]
    have hsame : ∀ o t, fromOffset c.b.hash o = some t → c.same t t = true := by rw [← hc]; exact hs
    have hsrc : ∀ z : Source, (sourceD o dir z dir z).Same := by
      intro z; unfold sourceD; split
      · exact rfl
      · trivial
    have hmem := fun t => membersD_self hab hsame n t
    unfold bodyD at hbody
    cases hk : t.kind with
    | base name size => simp only [hk] at hbody; cases hbody; simp [D.seqs, D.Same]
    | def_ ns name ty =>
      simp only [hk, Option.bind_eq_bind, Option.bind_eq_some_iff, Option.some.injEq, hab] at hbody
      obtain ⟨ms, hms, rfl⟩ := hbody
      exact ⟨hsrc _, rfl, hmem _ ms hms, trivial⟩
    | struct_ ns name size ms vps inh =>
      simp only [hk, Option.bind_eq_bind, Option.bind_eq_some_iff, Option.some.injEq] at hbody
      obtain ⟨m, hms, ih, hinh, rfl⟩ := hbody
      refine ⟨hsrc _, rfl, rfl, ?_, hmem _ m hms, trivial⟩
      unfold inheritsD at hinh
      split at hinh
      · simp only [Option.map_eq_some_iff] at hinh
        obtain ⟨f, hf, rfl⟩ := hinh
        exact listD_self (fun a _ => tyCost_self hab hsame 2 a.ty) (by simp) (by simp)
          (fun a _ e he => by cases he; simp [D.Same, hab]) f hf
      · cases hinh; simp [D.Same, hab]
    | union_ ns name size ms =>
      simp only [hk, Option.bind_eq_bind, Option.bind_eq_some_iff, Option.some.injEq] at hbody
      obtain ⟨m, hms, rfl⟩ := hbody
      exact ⟨hsrc _, rfl, rfl, hmem _ m hms, trivial⟩
    | enum_ ns name ty size =>
      simp only [hk, Option.bind_eq_bind, Option.bind_eq_some_iff, Option.some.injEq, hab] at hbody
      obtain ⟨es, hes, rfl⟩ := hbody
      exact ⟨hsrc _, rfl, rfl, listD_self (fun a _ => by simp [enumeratorCost]) (by simp) (by simp)
        (fun a _ e he => by cases he; exact rfl) es hes, trivial⟩
    | _ => simp [hk] at hbody

/-- If the diff of two types reports no difference, the listings of the two types are the same
lines: offsets, sizes, names, types, base classes, enumerators, nested members, paddings. -/
theorem C76_type_unreported (o : Options) (c : Pair) (da db : Option Str) (n : Nat)
    (a b : TypeEntry) (e : D) (he : typeD o c da db n a b = some e)
    (ha : ∀ o, (c.a.tref o).text' ≠ []) (hb : ∀ o, (c.b.tref o).text' ≠ [])
    (po : Print.Opts) (i : Nat) (x : DiffPrefix) (d : Nat) (hf : e.flag po i x d = false) :
    ∃ p q, typeP o c.a da n a = some p ∧ typeP o c.b db n b = some q ∧
      p.lines po.http i .none d = q.lines po.http i .none d := by
  by_cases hform : SameBaseForm a.kind b.kind
  · obtain ⟨p, q, hp, hq, hs⟩ := typeD_ok hform he
    refine ⟨p, q, hp, hq, ?_⟩
    have := C75_unreported_all po e hs.ignore i x d hf
    rw [P.lines_eq, P.lines_eq] at this ⊢
    rw [← hs.old, ← hs.new, this]
  · exfalso
    rw [D.flag_eq] at hf
    simp only [typeD, Option.bind_eq_bind, Option.bind_eq_some_iff, Option.some.injEq] at he
    obtain ⟨h, hh, body, hbody, rfl⟩ := he
    unfold bodyD at hbody
    split at hbody
    all_goals try (rename_i h1 h2; simp [SameBaseForm, h1, h2, basesOf] at hform; done)
    · rename_i ns1 n1 s1 ms1 v1 i1 ns2 n2 s2 ms2 v2 i2 h1 h2
      simp only [Option.bind_eq_bind, Option.bind_eq_some_iff, Option.some.injEq] at hbody
      obtain ⟨ms, hms, inh, hinh, rfl⟩ := hbody
      simp only [SameBaseForm, h1, h2, basesOf] at hform
      have hl : i1.length ≠ i2.length := by omega
      have hm : i1.length > 1 ∨ i2.length > 1 := by omega
      have := inheritsD_mismatch ha hb hinh hl hm po (i + 1)
      simp [D.den, D.seqs, this] at hf
    · cases hbody

/-- The diff of two types contains both listings: the lines marked `-` are lines of the old type's
listing, in order; the whole old listing is found, in order, among the lines not marked `+`; and the
same for the new type with `+` and `-` exchanged. The exception is a struct with one base class
compared with one that has several (`C76_bases_witness`). -/
theorem C76_type_listings (o : Options) (c : Pair) (da db : Option Str) (n : Nat)
    (a b : TypeEntry) (hform : SameBaseForm a.kind b.kind) (e : D)
    (he : typeD o c da db n a b = some e) (po : Print.Opts) (i : Nat) (x : DiffPrefix) (d : Nat) :
    ∃ p q, typeP o c.a da n a = some p ∧ typeP o c.b db n b = some q ∧
      let old := (p.lines po.http i .none d).map Line.erase
      let new := (q.lines po.http i .none d).map Line.erase
      let diff := e.lines po i x d
      ((diff.filter Line.isDel).map Line.erase).Sublist old ∧
      old.Sublist ((diff.filter (fun l => !l.isAdd)).map Line.erase) ∧
      ((diff.filter Line.isAdd).map Line.erase).Sublist new ∧
      new.Sublist ((diff.filter (fun l => !l.isDel)).map Line.erase) := by
  obtain ⟨p, q, hp, hq, hs⟩ := typeD_ok hform he
  refine ⟨p, q, hp, hq, ?_⟩
  have := C66_listings po e hs.hide i x d
  simp only [P.lines_eq, hs.old, hs.new] at this ⊢
  exact this

theorem enumeratorVal_ne {e : Enumerator} (h : e.name ≠ some []) : (enumeratorVal e).text' ≠ [] := by
  unfold enumeratorVal
  cases hn : e.name with
  | none => simp [Val.text', anon, Str.ofString]
  | some s =>
    have : s ≠ [] := fun h' => h (by rw [hn, h'])
    simp [Val.text', this]

/-- A difference is reported for two types exactly when some line of their diff is marked. -/
theorem C76_type_flag (o : Options) (c : Pair) (da db : Option Str) (n : Nat)
    (a b : TypeEntry) (e : D) (he : typeD o c da db n a b = some e)
    (ha : Named c.a a) (hb : Named c.b b) (po : Print.Opts) (ho : po.html = false) (i : Nat)
    (x : DiffPrefix) (d : Nat) :
    e.flag po i x d = true ↔ ∃ l ∈ e.lines po i x d, l.marked = true := by
  simp only [typeD, Option.bind_eq_bind, Option.bind_eq_some_iff, Option.some.injEq] at he
  obtain ⟨h, hh, body, hbody, rfl⟩ := he
  obtain ⟨v, w, hv, hw, rfl⟩ := headerD_ok hh
  have key : body.NoIgnore ∧ body.Visible po.http := by
    have hsrc : ∀ x y, (sourceD o da x db y).NoIgnore ∧ (sourceD o da x db y).Visible po.http := by
      intro x y; unfold sourceD; split <;> exact ⟨trivial, trivial⟩
    have hmem : ∀ ta tb m, membersD c n ta tb = some m → m.NoIgnore ∧ m.Visible po.http := by
      intro ta tb m hm
      have h1 := membersD_ok c n ta tb
      obtain ⟨p, q, -, -, hs⟩ := h1.1 m hm
      exact ⟨hs.ignore, h1.2 m hm po.http⟩
    unfold bodyD at hbody
    split at hbody
    · cases hbody; simp [D.seqs, D.NoIgnore, D.Visible]
    · simp only [Option.bind_eq_bind, Option.bind_eq_some_iff, Option.some.injEq] at hbody
      obtain ⟨ms, hms, rfl⟩ := hbody
      have := hmem _ _ ms hms
      exact ⟨⟨(hsrc _ _).1, trivial, this.1, trivial⟩, ⟨(hsrc _ _).2, trivial, this.2, trivial⟩⟩
    · simp only [Option.bind_eq_bind, Option.bind_eq_some_iff, Option.some.injEq] at hbody
      obtain ⟨ms, hms, inh, hinh, rfl⟩ := hbody
      have := hmem _ _ ms hms
      have hi := listD_refs_vis ha.refs hb.refs _ _ inh hinh po.http
      have hi' : inh.NoIgnore := by
        unfold inheritsD at hinh
        split at hinh
        · simp only [Option.map_eq_some_iff] at hinh
          obtain ⟨f, hf, rfl⟩ := hinh
          obtain ⟨p, q, -, -, hs⟩ := listD_rel (fun a _ b _ e he => by
            cases he
            exact ⟨_, _, rfl, rfl, Sides.line ..⟩) f hf
          exact hs.ignore
        · cases hinh; trivial
      exact ⟨⟨(hsrc _ _).1, trivial, trivial, hi', this.1, trivial⟩,
        ⟨(hsrc _ _).2, trivial, trivial, hi, this.2, trivial⟩⟩
    · simp only [Option.bind_eq_bind, Option.bind_eq_some_iff, Option.some.injEq] at hbody
      obtain ⟨ms, hms, rfl⟩ := hbody
      have := hmem _ _ ms hms
      exact ⟨⟨(hsrc _ _).1, trivial, trivial, this.1, trivial⟩,
        ⟨(hsrc _ _).2, trivial, trivial, this.2, trivial⟩⟩
    · simp only [Option.bind_eq_bind, Option.bind_eq_some_iff, Option.some.injEq] at hbody
      obtain ⟨es, hes, rfl⟩ := hbody
      have hs := enumeratorsD_ok _ _ _ _ hes
      have hv : es.Visible po.http := listD_vis
        (fun e he p hp => by cases hp; exact Shown.line _ (enumeratorVal_ne (ha.enumerators e he)))
        (fun e he p hp => by cases hp; exact Shown.line _ (enumeratorVal_ne (hb.enumerators e he)))
        (fun a _ b _ e he http => by cases he; trivial) es hes po.http
      exact ⟨⟨(hsrc _ _).1, trivial, trivial, hs.ignore, trivial⟩,
        ⟨(hsrc _ _).2, trivial, trivial, hv, trivial⟩⟩
    · cases hbody
  refine C22_flag_iff po ho _ ?_ ?_ i x d
  · exact ⟨⟨trivial, key.1⟩, trivial⟩
  · exact ⟨⟨trivial, key.2⟩, trivial⟩

/-! ### Concrete cases -/

/-- A file with `int` (4 bytes), `long` (8 bytes) and a class, and what is written for them. -/
def exSide (l : List (Nat × Ty)) : Side where
  hash := ⟨fun o => l.lookup o, fun _ => none⟩
  extra := fun o => { id := o.getD 0, source := {} }
  tsz := fun o => if o = some 1 then some 4 else if o = some 2 then some 8 else none
  tref := fun o => if o = some 1 then .text (k "int") else if o = some 2 then .text (k "long") else .text (k "X")

private def exOld : TypeEntry := ⟨some 3, .struct_ none (some (k "S")) ⟨16⟩
  [⟨30, some (k "a"), some 1, 0, ⟨32⟩⟩, ⟨31, some (k "b"), some 2, 64, ⟨64⟩⟩] [] []⟩
private def exNew : TypeEntry := ⟨some 3, .struct_ none (some (k "S")) ⟨16⟩
  [⟨30, some (k "a"), some 2, 0, ⟨64⟩⟩, ⟨31, some (k "b"), some 2, 64, ⟨64⟩⟩] [] []⟩

private def exPair : Pair := ⟨exSide [(1, .base (some (k "int")) ⟨4⟩), (2, .base (some (k "long")) ⟨8⟩)],
  exSide [(1, .base (some (k "int")) ⟨4⟩), (2, .base (some (k "long")) ⟨8⟩)], fun a b => a == b, listHeap⟩

private def showD (d : Option D) : Str :=
  match d with
  | some e => render (e.lines ⟨false, false, false, false⟩ 0 .equal 0)
  | none => []

private def showP (p : Option P) : Str :=
  match p with
  | some p => render (p.lines false 0 .none 0)
  | none => []

example : showP (typeP {} exPair.a none 2 exOld) = (["struct S\n", "\tsize: 16\n", "\tmembers:\n", "\t\t0[4]\ta: int\n", "\t\t4[4]\t<padding>\n", "\t\t8[8]\tb: long\n", "\n"].flatMap k) := by
  decide +kernel

example : showD (typeD {} exPair none none 2 exOld exNew) = (["  struct S\n", "  \tsize: 16\n", "  \tmembers:\n", "- \t\t0[4]\ta: int\n", "+ \t\t0[8]\ta: long\n", "- \t\t4[4]\t<padding>\n", "  \t\t8[8]\tb: long\n", "\n"].flatMap k) := by
  decide +kernel

example : SameBaseForm exOld.kind exNew.kind ∧ Named exPair.a exOld ∧ Named exPair.b exNew := by
  refine ⟨by simp [SameBaseForm, exOld, exNew, basesOf], ⟨?_, by simp [exPair, exSide]⟩,
    ⟨?_, by simp [exPair, exSide]⟩⟩ <;>
  · intro o
    simp only [exPair, exSide]
    split
    · decide
    · split <;> decide

example : (typeD {} exPair none none 2 exOld exOld).isSome = true := by decide +kernel

/-- Finding: with one base class on the old side and two on the new one, the old class's own listing
has the line `inherits: X`, but the diff shows `inherits:` with `X` below it, so the old listing is
not contained in the diff. -/
theorem C76_bases_witness :
    let a : TypeEntry := ⟨some 3, .struct_ none (some (k "S")) ⟨1⟩ [] [] [⟨some 9, 0⟩]⟩
    let b : TypeEntry := ⟨some 3, .struct_ none (some (k "S")) ⟨1⟩ [] [] [⟨some 9, 0⟩, ⟨some 1, 0⟩]⟩
    showP (typeP {} exPair.a none 2 a) = (["struct S\n", "\tsize: 1\n", "\tinherits: X\n", "\tmembers:\n", "\t\t0[0]\t<inherit>: X\n", "\n"].flatMap k) ∧
    showD (typeD {} exPair none none 2 a b) = (["  struct S\n", "  \tsize: 1\n", "  \tinherits:\n", "  \t\tX\n", "+ \t\tint\n", "  \tmembers:\n", "+ \t\t0[4]\t<inherit>: int\n", "  \t\t0[0]\t<inherit>: X\n", "\n"].flatMap k) := by
  decide +kernel

end Verif.Show
