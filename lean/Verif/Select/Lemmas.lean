import Verif.Select.Spec
import Verif.Show.FileModel
import Verif.Order.Props
import Verif.Filter.Props
import Verif.Print.Lemmas
/-!
# Lemmas: a part of a listing
-/
namespace Verif.Select
open Verif.Print Verif.Item Verif.Namespace Verif.Types Verif.Opts Verif.Merge Verif.Order Verif.Show

/-- Wherever both are printed, the lines of `p` are among those of `q`, in the same order. -/
def Sub (p q : P) : Prop :=
  ∀ http i x d d', d ≤ d' → (p.ls http i x d).Sublist (q.ls http i x d')

theorem Sub.skip (q : P) : Sub .skip q := fun _ _ _ _ _ _ => List.nil_sublist _

theorem Sub.seq {p q p' q' : P} (h : Sub p p') (h' : Sub q q') : Sub (.seq p q) (.seq p' q') :=
  fun http i x d d' hd => (h http i x d d' hd).append (h' http i x d d' hd)

theorem Sub.indent {h b h' b' : P} (c : Bool) (hh : Sub h h') (hb : Sub b b') :
    Sub (.indent c h b) (.indent c h' b') :=
  fun http i x d d' hd => (hh http i x d d' hd).append (hb http (i + 1) x d d' hd)

theorem Sub.id {h b h' b' : P} (n : Nat) (hh : Sub h h') (hb : Sub b b') :
    Sub (.id n h b) (.id n h' b') :=
  fun http i x d d' hd => (hh http i x d d' hd).append (hb http (i + 1) x d d' hd)

theorem field_sub {a b : List Line} (l : Line) (h : a.Sublist b) :
    (if a = [] then [] else l :: a).Sublist (if b = [] then [] else l :: b) := by
  by_cases ha : a = []
  · rw [if_pos ha]; exact List.nil_sublist _
  · have hb : b ≠ [] := fun e => ha (List.sublist_nil.1 (e ▸ h))
    rw [if_neg ha, if_neg hb]
    exact h.cons_cons l

theorem Sub.field {b b' : P} (c : Bool) (l : Str) (h : Sub b b') : Sub (.field c l b) (.field c l b') :=
  fun http i x d d' hd => field_sub _ (h http (i + 1) x d d' hd)

theorem Sub.fieldDetail {b b' : P} (c : Str) (l : Str) (h : Sub b b') :
    Sub (.fieldDetail c l b) (.fieldDetail c l b') := by
  intro http i x d d' hd
  cases http
  · exact field_sub _ (h false (i + 1) x d d' hd)
  · exact List.Sublist.refl _

theorem Sub.inline {p p' : P} (h : Sub p p') : Sub (.inline p) (.inline p') := by
  intro http i x d d' hd
  simp only [P.ls]
  by_cases h0 : d = 0
  · rw [if_pos h0]; exact List.nil_sublist _
  · rw [if_neg h0, if_neg (by omega)]
    exact h http i x _ _ (by omega)

theorem Sub.refl (p : P) : Sub p p := by
  induction p with
  | skip => exact .skip _
  | seq p q ihp ihq => exact ihp.seq ihq
  | lineBreak => exact fun _ _ _ _ _ _ => List.Sublist.refl _
  | label l => exact fun _ _ _ _ _ _ => List.Sublist.refl _
  | line l v => exact fun _ _ _ _ _ _ => List.Sublist.refl _
  | instruction a m v => exact fun _ _ _ _ _ _ => List.Sublist.refl _
  | indent c h b ihh ihb => exact ihh.indent c ihb
  | field c l b ih => exact ih.field c l
  | id n h b ihh ihb => exact ihh.id n ihb
  | fieldDetail i l b ih => exact ih.fieldDetail i l
  | inline p ih => exact ih.inline

theorem Sub.ite {b b' : Bool} {p p' : P} (hb : b = true → b' = true) (h : Sub p p') :
    Sub (if b then p else .skip) (if b' then p' else .skip) := by
  cases b
  · exact .skip _
  · rw [hb rfl]; exact h

theorem Sub.map {α : Type} {f g : α → P} (h : ∀ a, Sub (f a) (g a)) (l : List α) :
    Sub (P.seqs (l.map f)) (P.seqs (l.map g)) := by
  induction l with
  | nil => exact .skip _
  | cons a l ih => exact (h a).seq ih

/-- If the larger listing is made, so is the smaller, and it is a part of it. -/
def OSub (p q : Option P) : Prop := ∀ q', q = some q' → ∃ p', p = some p' ∧ Sub p' q'

theorem OSub.some {p q : P} (h : Sub p q) : OSub (Option.some p) (Option.some q) := by
  rintro _ ⟨⟩; exact ⟨p, rfl, h⟩

theorem OSub.refl (p : Option P) : OSub p p := fun q h => ⟨q, h, .refl q⟩

theorem OSub.bind {a b : Option P} {f g : P → Option P} (h : OSub a b)
    (hf : ∀ p q, Sub p q → OSub (f p) (g q)) : OSub (a.bind f) (b.bind g) := by
  intro q hq
  obtain ⟨x, hx, hq⟩ := Option.bind_eq_some_iff.1 hq
  obtain ⟨y, hy, hxy⟩ := h x hx
  rw [hy]
  exact hf y x hxy q hq

theorem OSub.same {α : Type} {a : Option α} {f g : α → Option P} (hf : ∀ x, OSub (f x) (g x)) :
    OSub (a.bind f) (a.bind g) := by
  cases a with
  | none => intro q hq; cases hq
  | some x => exact hf x

theorem OSub.mapP {a b : Option P} {f : P → P} (h : OSub a b) (hf : ∀ p q, Sub p q → Sub (f p) (f q)) :
    OSub (a.map f) (b.map f) := by
  intro q hq
  obtain ⟨x, hx, rfl⟩ := Option.map_eq_some_iff.1 hq
  obtain ⟨y, hy, hxy⟩ := h x hx
  exact ⟨f y, by rw [hy]; rfl, hf y x hxy⟩

theorem OSub.when {b b' : Bool} {p q : Option P} (hb : b = true → b' = true) (h : OSub p q) :
    OSub (whenP b p) (whenP b' q) := by
  cases b
  · intro q' _; exact ⟨.skip, rfl, .skip _⟩
  · rw [hb rfl]; exact h

theorem OSub.whenTrue {b b' : Bool} {p q : Option P} (hb : b = true → b' = true) (h : b = true → OSub p q) :
    OSub (whenP b p) (whenP b' q) := by
  cases b
  · intro q' _; exact ⟨.skip, rfl, .skip _⟩
  · rw [hb rfl]; exact h rfl

theorem OSub.listS {α : Type} {f g : α → Option P} (h : ∀ a, OSub (f a) (g a)) {l l' : List α}
    (hl : l.Sublist l') : OSub (listP f l) (listP g l') := by
  induction hl with
  | slnil => exact .some (.skip _)
  | cons a hl ih =>
    intro q hq
    unfold listP at hq
    rw [List.mapM_cons] at hq
    obtain ⟨ps, hps, rfl⟩ := Option.map_eq_some_iff.1 hq
    simp only [Bind.bind, Option.bind_eq_some_iff, pure, Option.some.injEq] at hps
    obtain ⟨p, hp, ps, hps, rfl⟩ := hps
    obtain ⟨p', h1, h2⟩ := ih (P.seqs ps) (by simp [listP, hps])
    exact ⟨p', h1, fun http i x d d' hd => (h2 http i x d d' hd).trans (List.sublist_append_right _ _)⟩
  | cons_cons a hl ih =>
    intro q hq
    unfold listP at hq
    rw [List.mapM_cons] at hq
    obtain ⟨ps, hps, rfl⟩ := Option.map_eq_some_iff.1 hq
    simp only [Bind.bind, Option.bind_eq_some_iff, pure, Option.some.injEq] at hps
    obtain ⟨p, hp, ps, hps, rfl⟩ := hps
    obtain ⟨p', h1, h2⟩ := ih (P.seqs ps) (by simp [listP, hps])
    obtain ⟨p'', h3, h4⟩ := h a p hp
    unfold listP at h1 ⊢
    obtain ⟨ms, h5, rfl⟩ := Option.map_eq_some_iff.1 h1
    exact ⟨.seq p'' (P.seqs ms), by simp [List.mapM_cons, h3, h5, P.seqs], h4.seq h2⟩

theorem OSub.list {α : Type} {f g : α → Option P} (h : ∀ a, OSub (f a) (g a)) (l : List α) :
    OSub (listP f l) (listP g l) := OSub.listS h (List.Sublist.refl l)

/-! ## Sorting a selection -/

theorem insertBy_front {le : α → α → Bool} (x : α) (l : List α) (h : ∀ y ∈ l, le x y = true) :
    insertBy le x l = x :: l := insertBy_of_le_all x l h

theorem insertBy_filter_pos {le : α → α → Bool} (htr : ∀ a b c, le a b = true → le b c = true → le a c = true)
    (p : α → Bool) (x : α) (hx : p x = true) (l : List α) (hl : l.Pairwise (fun a b => le a b = true)) :
    (insertBy le x l).filter p = insertBy le x (l.filter p) := by
  induction l with
  | nil => simp [insertBy, hx]
  | cons y l ih =>
    obtain ⟨h1, h2⟩ := List.pairwise_cons.1 hl
    simp only [insertBy]
    split
    · rename_i hxy
      rw [List.filter_cons_of_pos hx, insertBy_front]
      intro z hz
      rcases List.mem_cons.1 (List.mem_filter.1 hz).1 with rfl | hz
      · exact hxy
      · exact htr _ _ _ hxy (h1 z hz)
    · rename_i hxy
      by_cases hy : p y = true
      · rw [List.filter_cons_of_pos hy, List.filter_cons_of_pos hy, ih h2, insertBy, if_neg hxy]
      · rw [List.filter_cons_of_neg hy, List.filter_cons_of_neg hy, ih h2]

theorem insertBy_filter_neg {le : α → α → Bool} (p : α → Bool) (x : α) (hx : ¬ p x = true) (l : List α) :
    (insertBy le x l).filter p = l.filter p := by
  induction l with
  | nil => simp [insertBy, hx]
  | cons y l ih =>
    simp only [insertBy]
    split
    · rw [List.filter_cons_of_neg hx]
    · rw [List.filter_cons, List.filter_cons, ih]

theorem stableSort_filter {le : α → α → Bool} (h : TotalPreorder le) (p : α → Bool) (l : List α) :
    stableSort le (l.filter p) = (stableSort le l).filter p := by
  induction l with
  | nil => rfl
  | cons x l ih =>
    by_cases hx : p x = true
    · rw [List.filter_cons_of_pos hx, stableSort, stableSort, ih,
        insertBy_filter_pos h.trans p x hx _ (stableSort_sorted h l)]
    · rw [List.filter_cons_of_neg hx, stableSort, ih, insertBy_filter_neg p x hx]

theorem sortWith_filter {r : α → α → Res Ordering}
    (hsw : ∀ {x y o}, r x y = .ok o → r y x = .ok o.swap)
    (htr : ∀ x y z, T3 (r x y) (r y z) (r x z)) (p : α → Bool) {l l' : List α}
    (hs : sortWith r l = some l') : sortWith r (l.filter p) = some (l'.filter p) := by
  unfold sortWith at hs
  split at hs
  case isFalse => cases hs
  rename_i hall
  cases hs
  have hok : OkOn r l l := by
    simp only [List.all_eq_true] at hall
    intro x hx y hy
    have := hall x hx y hy
    cases hr : r x y with
    | ok o => exact ⟨o, rfl⟩
    | diverge => simp [hr] at this
    | panic => simp [hr] at this
  have hall' : ((l.filter p).all fun x => (l.filter p).all fun y => r x y != .diverge && r x y != .panic) = true := by
    simp only [List.all_eq_true] at hall ⊢
    intro x hx y hy
    exact hall x (List.mem_filter.1 hx).1 y (List.mem_filter.1 hy).1
  unfold sortWith
  rw [if_pos hall']
  congr 1
  have hT := ordOn_trans hok hsw htr
  have hP : TotalPreorder (fun a b => ordOn r l a b != .gt) := {
    total := fun a b => by
      rw [Std.OrientedCmp.eq_swap (cmp := ordOn r l) (a := b) (b := a)]
      cases ordOn r l a b <;> simp
    trans := fun a b c h1 h2 => by
      have h1' : (ordOn r l a b).isLE := by cases h : ordOn r l a b <;> simp_all
      have h2' : (ordOn r l b c).isLE := by cases h : ordOn r l b c <;> simp_all
      have := Std.TransCmp.isLE_trans h1' h2'
      cases h : ordOn r l a c <;> simp_all }
  have hle : ∀ x ∈ l, ∀ y ∈ l, (r x y != .ok .gt) = (ordOn r l x y != .gt) := by
    intro x hx y hy
    obtain ⟨o, ho⟩ := hok x hx y hy
    rw [ordOn_eq hx hy, ho]
    cases o <;> rfl
  rw [stableSort_congr l hle, stableSort_congr (l.filter p)
    (fun x hx y hy => hle x (List.mem_filter.1 hx).1 y (List.mem_filter.1 hy).1)]
  exact stableSort_filter hP p l

theorem OSub.sorted {α γ : Type} {cmpBy : Nat → α → γ → α → γ → Res Ordering} {G : α × γ → Prop}
    (hr : Lawful (fun n (x y : α × γ) => cmpBy n x.1 x.2 y.1 y.2) G) (n : Nat) (c : γ)
    {f g : α → Option P} (h : ∀ a, OSub (f a) (g a)) (l : List α) (p q : α → Bool)
    (hpq : ∀ a, p a = true → q a = true) :
    OSub (sortListP (cmpBy n) c f (l.filter p)) (sortListP (cmpBy n) c g (l.filter q)) := by
  have he : l.filter p = (l.filter q).filter p := by
    rw [List.filter_filter]
    refine List.filter_congr fun a _ => ?_
    cases hp : p a with
    | false => simp
    | true => simp [hpq a hp]
  intro r hq
  simp only [sortListP, Bind.bind, Option.bind_eq_some_iff] at hq
  obtain ⟨l', h1, h2⟩ := hq
  have h3 := sortWith_filter (r := fun a b => cmpBy n a c b c)
    (fun hxy => hr.swap (x := (_, c)) (y := (_, c)) hxy)
    (fun x y z => hr.trans n (x, c) (y, c) (z, c)) p h1
  obtain ⟨p', h4, h5⟩ := OSub.listS h List.filter_sublist r h2
  refine ⟨p', ?_, h5⟩
  simp only [sortListP, Bind.bind, Option.bind_eq_some_iff]
  exact ⟨_, by rw [he]; exact h3, h4⟩

/-! ## Filters -/

theorem nameOk_mono {o o' : Options} (h : Narrower o o') {n : Option Str} (hn : Filter.NameOk o n) :
    Filter.NameOk o' n := by
  intro f hf
  rcases h.nameFilter with e | e
  · rw [e] at hf; cases hf
  · exact hn f (e ▸ hf)

theorem namespaceOk_mono {o o' : Options} (h : Narrower o o') {ns : Option Namespace}
    (hn : Filter.NamespaceOk o ns) : Filter.NamespaceOk o' ns := by
  intro hne
  obtain ⟨t, ht⟩ := h.namespaceFilter
  have : o.filterNamespace ≠ [] := by
    rw [← ht]
    intro e
    exact hne (List.append_eq_nil_iff.1 e).1
  obtain ⟨n, e, hp⟩ := hn this
  refine ⟨n, e, List.IsPrefix.trans ?_ hp⟩
  rw [← ht, List.map_append]
  exact List.prefix_append _ _

theorem inlineOk_mono {o o' : Options} (h : Narrower o o') {b : Bool} (hn : Filter.InlineOk o b) :
    Filter.InlineOk o' b := by
  intro f hf
  rcases h.inlineFilter with e | e
  · rw [e] at hf; cases hf
  · exact hn f (e ▸ hf)

theorem okUnit_mono {o o' : Options} (h : Narrower o o') (u : CompUnit) (hu : Filter.okUnit o u = true) :
    Filter.okUnit o' u = true := by
  rw [Filter.okUnit_iff] at hu ⊢
  intro f hf
  rcases h.unitFilter with e | e
  · rw [e] at hf; cases hf
  · rw [← h.prefixMap]; exact hu f (e ▸ hf)

theorem okFunction_mono {o o' : Options} (h : Narrower o o') (f : Function)
    (hf : Filter.okFunction o f = true) : Filter.okFunction o' f = true := by
  rw [Filter.okFunction_iff] at hf ⊢
  exact ⟨hf.1, nameOk_mono h hf.2.1, namespaceOk_mono h hf.2.2.1, inlineOk_mono h hf.2.2.2⟩

theorem okVariable_mono {o o' : Options} (h : Narrower o o') (v : Variable)
    (hf : Filter.okVariable o v = true) : Filter.okVariable o' v = true := by
  rw [Filter.okVariable_iff] at hf ⊢
  exact ⟨hf.1, nameOk_mono h hf.2.1, namespaceOk_mono h hf.2.2⟩

theorem okType_mono {o o' : Options} (h : Narrower o o') (c : Hash) (u : CompUnit) (t : TypeEntry)
    (hf : Filter.okType o false (Filter.inlineTypes c u) t = true) :
    Filter.okType o' false (Filter.inlineTypes c u) t = true := by
  rw [Filter.okType_iff] at hf ⊢
  obtain ⟨⟨n, ns, h1, h2, h3⟩, h4⟩ := hf
  exact ⟨⟨n, ns, h1, nameOk_mono h h2, namespaceOk_mono h h3⟩, h4⟩

end Verif.Select
