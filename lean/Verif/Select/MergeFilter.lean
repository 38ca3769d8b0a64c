import Verif.Select.DiffLemmas
import Verif.Merge.Lemmas
import Verif.Merge.Props
import Verif.Show.FileItems
/-!
# Lemmas: filtering before or after a merge
-/
namespace Verif.Select
open Verif.Print Verif.Item Verif.Namespace Verif.Types Verif.Opts Verif.Merge Verif.Order Verif.Show

variable {α β γ : Type}

/-- A filter on the items of a merge: that of the side, or of both sides, it is from. -/
def onEither (p : α → Bool) (q : β → Bool) : MergeResult α β → Bool
  | .left x => p x
  | .right y => q y
  | .both x _ => p x

theorem merged_lefts (cmp : α → β → Ordering) (l : List α) (n : Nat) (h : l.length ≤ n) :
    merged cmp l [] n = l.map .left := by
  induction l generalizing n with
  | nil => exact merged_nil_nil cmp n
  | cons a l ih =>
    obtain ⟨m, rfl⟩ : ∃ m, n = m + 1 := ⟨n - 1, by simp at h; omega⟩
    rw [merged_cons_nil, ih m (by simpa using h)]
    rfl

theorem merged_rights (cmp : α → β → Ordering) (l : List β) (n : Nat) (h : l.length ≤ n) :
    merged cmp [] l n = l.map .right := by
  induction l generalizing n with
  | nil => exact merged_nil_nil cmp n
  | cons a l ih =>
    obtain ⟨m, rfl⟩ : ∃ m, n = m + 1 := ⟨n - 1, by simp at h; omega⟩
    rw [merged_nil_cons, ih m (by simpa using h)]
    rfl

/-- If the filters agree on items that are merged, and the lists are in order, filtering commutes with merging. -/
theorem merged_filter (cmp : α → β → Ordering) (p : α → Bool) (q : β → Bool) (n : Nat) :
    ∀ (l : List α) (r : List β) (m : Nat), l.length + r.length ≤ n → (l.filter p).length + (r.filter q).length ≤ m →
    (∀ x ∈ l, ∀ y ∈ r, cmp x y = .eq → p x = q y) →
    (l.Pairwise fun x x' => ∀ y ∈ r, cmp x y = .gt → cmp x' y = .gt) →
    (r.Pairwise fun y y' => ∀ x ∈ l, cmp x y = .lt → cmp x y' = .lt) →
    merged cmp (l.filter p) (r.filter q) m = (merged cmp l r n).filter (onEither p q) := by
  induction n with
  | zero =>
    intro l r m h _ _ _ _
    have h1 : l = [] := List.eq_nil_of_length_eq_zero (by omega)
    have h2 : r = [] := List.eq_nil_of_length_eq_zero (by omega)
    subst h1 h2
    exact merged_nil_nil cmp m
  | succ n ih =>
    intro l r m h hm hpq hl hr
    cases l with
    | nil =>
      rw [List.filter_nil, merged_rights _ _ _ (by simpa using hm),
        merged_rights _ _ _ (by simpa using h), List.filter_map]
      rfl
    | cons x l =>
      cases r with
      | nil =>
        rw [List.filter_nil, merged_lefts _ _ _ (by simpa using hm),
          merged_lefts _ _ _ (by simpa using h), List.filter_map]
        rfl
      | cons y r =>
        simp only [List.length_cons] at h
        have hl' := List.pairwise_cons.1 hl
        have hr' := List.pairwise_cons.1 hr
        rw [merged_cons_cons]
        cases hc : cmp x y with
        | eq =>
          have e := hpq x (by simp) y (by simp) hc
          have IH := fun m hm => ih l r m (by omega) hm (fun a ha b hb => hpq a (by simp [ha]) b (by simp [hb]))
            (hl'.2.imp fun h b hb => h b (by simp [hb])) (hr'.2.imp fun h a ha => h a (by simp [ha]))
          simp only
          by_cases hp : p x = true
          · have hp' : onEither p q (.both x y) = true := hp
            rw [List.filter_cons_of_pos hp, List.filter_cons_of_pos (e ▸ hp)] at hm ⊢
            rw [List.filter_cons_of_pos hp']
            simp only [List.length_cons] at hm
            obtain ⟨m, rfl⟩ : ∃ m', m = m' + 1 := ⟨m - 1, by omega⟩
            rw [merged_cons_cons, hc]
            simp only
            rw [IH m (by omega)]
          · have hp' : ¬ onEither p q (.both x y) = true := hp
            rw [List.filter_cons_of_neg hp, List.filter_cons_of_neg (e ▸ hp)] at hm ⊢
            rw [List.filter_cons_of_neg hp', IH m (by omega)]
        | lt =>
          have IH := fun m hm => ih l (y :: r) m (by simp; omega) hm (fun a ha b hb => hpq a (by simp [ha]) b hb)
            hl'.2 (hr.imp fun h a ha => h a (by simp [ha]))
          simp only
          by_cases hp : p x = true
          · have hp' : onEither p q (.left x) = true := hp
            rw [List.filter_cons_of_pos hp] at hm ⊢
            rw [List.filter_cons_of_pos hp']
            simp only [List.length_cons] at hm
            obtain ⟨m, rfl⟩ : ∃ m', m = m' + 1 := ⟨m - 1, by omega⟩
            rw [← IH m (by omega)]
            cases hf : (y :: r).filter q with
            | nil => rw [merged_cons_nil]
            | cons y' r' =>
              have hy' : y' ∈ y :: r := (List.mem_filter.1 (by rw [hf]; simp : y' ∈ (y :: r).filter q)).1
              have : cmp x y' = .lt := by
                rcases List.mem_cons.1 hy' with rfl | hy'
                · exact hc
                · exact hr'.1 _ hy' x (by simp) hc
              rw [merged_cons_cons, this]
          · have hp' : ¬ onEither p q (.left x) = true := hp
            rw [List.filter_cons_of_neg hp] at hm ⊢
            rw [List.filter_cons_of_neg hp', IH m (by omega)]
        | gt =>
          have IH := fun m hm => ih (x :: l) r m (by simp; omega) hm (fun a ha b hb => hpq a ha b (by simp [hb]))
            (hl.imp fun h b hb => h b (by simp [hb])) hr'.2
          simp only
          by_cases hp : q y = true
          · have hp' : onEither p q (.right y) = true := hp
            rw [List.filter_cons_of_pos hp] at hm ⊢
            rw [List.filter_cons_of_pos hp']
            simp only [List.length_cons] at hm
            obtain ⟨m, rfl⟩ : ∃ m', m = m' + 1 := ⟨m - 1, by omega⟩
            rw [← IH m (by omega)]
            cases hf : (x :: l).filter p with
            | nil => rw [merged_nil_cons]
            | cons x' l' =>
              have hx' : x' ∈ x :: l := (List.mem_filter.1 (by rw [hf]; simp : x' ∈ (x :: l).filter p)).1
              have : cmp x' y = .gt := by
                rcases List.mem_cons.1 hx' with rfl | hx'
                · exact hc
                · exact hl'.1 _ hx' y (by simp) hc
              rw [merged_cons_cons, this]
          · have hp' : ¬ onEither p q (.right y) = true := hp
            rw [List.filter_cons_of_neg hp] at hm ⊢
            rw [List.filter_cons_of_neg hp', IH m (by omega)]

/-- The laws of a comparison that may not return. -/
structure CmpLaws (r : α → α → Res Ordering) : Prop where
  swap : ∀ {x y o}, r x y = .ok o → r y x = .ok o.swap
  trans : ∀ x y z, T3 (r x y) (r y z) (r x z)

theorem CmpLaws.lt_le {r : α → α → Res Ordering} (h : CmpLaws r) {x y z : α} {o : Ordering} (h1 : r x y = .ok .lt)
    (h2 : r y z = .ok o) (ho : o ≠ .gt) : r x z = .ok .lt := by
  obtain ⟨o', e, h3, h4⟩ := h.trans x y z _ _ h1 h2 rfl (by cases o <;> simp_all)
  rw [e]
  cases o'
  · rfl
  · exact absurd (h4.1 rfl).1 (by simp)
  · simp at h3

theorem CmpLaws.gt_le {r : α → α → Res Ordering} (h : CmpLaws r) {x x' y : α} {o : Ordering} (h1 : r x y = .ok .gt)
    (h2 : r x x' = .ok o) (ho : o ≠ .gt) : r x' y = .ok .gt := by
  have := h.lt_le (h.swap h1) h2 ho
  exact h.swap this

theorem sortWith_sorted {r : α → α → Res Ordering} (hr : CmpLaws r) {l s : List α} (h : sortWith r l = some s) :
    s.Pairwise (fun x y => ∃ o, r x y = .ok o ∧ o ≠ .gt) ∧ ∀ x ∈ s, x ∈ l := by
  obtain ⟨m, e, a⟩ := sortWith_spec (Show.sortWith_ok h) (fun h => hr.swap h) hr.trans
  rw [h] at e; cases e
  exact ⟨a.sorted, fun x hx => a.perm.mem_iff.1 hx⟩

/-- Filters that agree on items that are the same for the comparison `c` commute with sorting by a comparison that refines
`c`, and merging by `c`. -/
theorem sort_merge_filter {r c : α × γ → α × γ → Res Ordering} (hr : CmpLaws r) (hc : CmpLaws c)
    (href : ∀ {x y o}, r x y = .ok o → o ≠ .gt → ∃ o', c x y = .ok o' ∧ o' ≠ .gt) (ha hb : γ) {la lb : List α}
    (p q : α → Bool) (hpq : ∀ x ∈ la, ∀ y ∈ lb, c (x, ha) (y, hb) = .ok .eq → p x = q y)
    {sa sb : List α} {m : List (MergeResult α α)} (h1 : sortWith (fun x y => r (x, ha) (y, ha)) la = some sa)
    (h2 : sortWith (fun x y => r (x, hb) (y, hb)) lb = some sb) (h3 : mergeWith (fun x y => c (x, ha) (y, hb)) sa sb = some m) :
    sortWith (fun x y => r (x, ha) (y, ha)) (la.filter p) = some (sa.filter p) ∧
    sortWith (fun x y => r (x, hb) (y, hb)) (lb.filter q) = some (sb.filter q) ∧
    mergeWith (fun x y => c (x, ha) (y, hb)) (sa.filter p) (sb.filter q) = some (m.filter (onEither p q)) := by
  have la_laws : CmpLaws (fun x y : α => r (x, ha) (y, ha)) := ⟨fun h => hr.swap h, fun x y z => hr.trans _ _ _⟩
  have lb_laws : CmpLaws (fun x y : α => r (x, hb) (y, hb)) := ⟨fun h => hr.swap h, fun x y z => hr.trans _ _ _⟩
  refine ⟨sortWith_filter (fun h => la_laws.swap h) la_laws.trans p h1, sortWith_filter (fun h => lb_laws.swap h) lb_laws.trans q h2, ?_⟩
  obtain ⟨s1, m1⟩ := sortWith_sorted la_laws h1
  obtain ⟨s2, m2⟩ := sortWith_sorted lb_laws h2
  unfold mergeWith at h3 ⊢
  split at h3
  case isFalse => cases h3
  rename_i hall
  cases h3
  have hok : OkOn (fun x y : α => c (x, ha) (y, hb)) sa sb := by
    simp only [List.all_eq_true] at hall
    intro x hx y hy
    have := hall x hx y hy
    cases hr : c (x, ha) (y, hb) with
    | ok o => exact ⟨o, hr⟩
    | diverge => simp [hr] at this
    | panic => simp [hr] at this
  rw [if_pos]
  · congr 1
    have ok : ∀ x ∈ sa, ∀ y ∈ sb, ∃ o, c (x, ha) (y, hb) = .ok o ∧ theOrd (c (x, ha) (y, hb)) = o := fun x hx y hy => by
      obtain ⟨o, e⟩ := hok x hx y hy
      exact ⟨o, e, by rw [show c (x, ha) (y, hb) = .ok o from e]; rfl⟩
    refine merged_filter _ p q (sa.length + sb.length) sa sb _ (Nat.le_refl _) (Nat.le_refl _) ?_ ?_ ?_
    · intro x hx y hy h
      obtain ⟨o, e, e'⟩ := ok x hx y hy
      exact hpq x (m1 x hx) y (m2 y hy) (by rw [e, ← e', h])
    · refine s1.imp_of_mem ?_
      intro x x' hx _ h y hy hg
      obtain ⟨o, e1, e2⟩ := h
      obtain ⟨o', e3, e4⟩ := href e1 e2
      obtain ⟨o1, e, e'⟩ := ok x hx y hy
      have := hc.gt_le (by rw [e, ← e', hg]) e3 e4
      show theOrd (c (x', ha) (y, hb)) = .gt
      rw [this]; rfl
    · refine s2.imp_of_mem ?_
      intro y y' hy _ h x hx hg
      obtain ⟨o, e1, e2⟩ := h
      obtain ⟨o', e3, e4⟩ := href e1 e2
      obtain ⟨o1, e, e'⟩ := ok x hx y hy
      have := hc.lt_le (by rw [e, ← e', hg]) e3 e4
      show theOrd (c (x, ha) (y', hb)) = .lt
      rw [this]; rfl
  · simp only [List.all_eq_true] at hall ⊢
    intro x hx y hy
    exact hall x (List.mem_filter.1 hx).1 y (List.mem_filter.1 hy).1

/-! ## The merges of types, functions, variables and units -/

theorem cmpLaws_of {r : Nat → α → α → Res Ordering} {G : α → Prop} (h : Lawful r G) (n : Nat) : CmpLaws (r n) :=
  ⟨fun e => h.swap e, fun x y z => h.trans n x y z⟩

theorem mergedTypes_filter {n : Nat} {ha hb : Hash} {la lb : List TypeEntry} {m : List (MergeResult TypeEntry TypeEntry)}
    (p : TypeEntry → Bool) (hp : ∀ x y : TypeEntry, cmpId false n ha x.kind hb y.kind = .ok .eq → p x = p y)
    (h : mergedTypes n ha la hb lb = some m) :
    mergedTypes n ha (la.filter p) hb (lb.filter p) = some (m.filter (onEither p p)) := by
  have hL := lawful_cmpId (fun x : TypeEntry × Hash => (x.2, x.1.kind))
  simp only [mergedTypes, Bind.bind, Option.bind_eq_some_iff] at h ⊢
  obtain ⟨sa, ea, sb, eb, hm⟩ := h
  have := sort_merge_filter (cmpLaws_of hL n) (cmpLaws_of hL n) (fun {x y o} h1 h2 => ⟨o, h1, h2⟩) ha hb p p
    (fun x _ y _ h => hp x y h) ea eb hm
  exact ⟨_, this.1, _, this.2⟩

theorem mergedFunctionsAll_filter {n : Nat} {ha hb : Hash} {la lb : List Function}
    {m : List (MergeResult Function Function)} (p : Function → Bool)
    (hp : ∀ x y : Function, functionCmpId x y = .eq → p x = p y) (h : mergedFunctionsAll n ha la hb lb = some m) :
    mergedFunctionsAll n ha (la.filter p) hb (lb.filter p) = some (m.filter (onEither p p)) := by
  have hL := lawful_functionSort
  have hC := lawful_pure (fun x : Function × Hash => (x.1.ns, x.1.name)) cmpQName (fun _ => True)
  simp only [mergedFunctionsAll, Bind.bind, Option.bind_eq_some_iff] at h ⊢
  obtain ⟨sa, ea, sb, eb, hm⟩ := h
  have := sort_merge_filter (cmpLaws_of hL n) (cmpLaws_of hC 0) (fun {x y o} h1 h2 => by
    rcases lexR_ok h1 with ⟨h, _⟩ | ⟨h, _⟩
    · exact ⟨o, h, h2⟩
    · exact ⟨.eq, h, by simp⟩) ha hb p p (fun x _ y _ h => hp x y (Res.ok.inj h)) ea eb hm
  exact ⟨_, this.1, _, this.2⟩

theorem mergedFunctions_filter {n : Nat} {ha hb : Hash} {la lb : List Function}
    {m : List (MergeResult Function Function) × List (MergeResult Function Function)} (p : Function → Bool)
    (hp : ∀ x y : Function, functionCmpId x y = .eq → p x = p y) (h : mergedFunctions n ha la hb lb = some m) :
    mergedFunctions n ha (la.filter p) hb (lb.filter p) =
      some (m.1.filter (onEither p p), m.2.filter (onEither p p)) := by
  simp only [mergedFunctions, Bind.bind, Option.bind_eq_some_iff, pure, Option.some.injEq] at h ⊢
  obtain ⟨a, e, rfl⟩ := h
  refine ⟨_, mergedFunctionsAll_filter p hp e, ?_⟩
  simp only [List.filter_filter, Prod.mk.injEq]
  constructor <;> exact List.filter_congr fun _ _ => Bool.and_comm _ _

theorem mergedVariables_filter {la lb : List Variable} {m : List (MergeResult Variable Variable)} (p : Variable → Bool)
    (hp : ∀ x y : Variable, variableCmpId x y = .eq → p x = p y) (h : mergedVariables la lb = some m) :
    mergedVariables (la.filter p) (lb.filter p) = some (m.filter (onEither p p)) := by
  have hC := lawful_pure (fun x : Variable × Unit => (x.1.ns, x.1.name)) cmpQName (fun _ => True)
  simp only [mergedVariables, Bind.bind, Option.bind_eq_some_iff] at h ⊢
  obtain ⟨sa, ea, sb, eb, hm⟩ := h
  have := sort_merge_filter (cmpLaws_of hC 0) (cmpLaws_of hC 0) (fun {x y o} h1 h2 => ⟨o, h1, h2⟩) () () p p
    (fun x _ y _ h => hp x y (Res.ok.inj h)) ea eb hm
  exact ⟨_, this.1, _, this.2⟩

theorem mergedUnits_filter {o : Options} {la lb : List CompUnit} {m : List (MergeResult CompUnit CompUnit)}
    (p : CompUnit → Bool) (hp : ∀ x ∈ la, ∀ y ∈ lb, unitCmpId o x y = .eq → p x = p y)
    (h : mergedUnits o la lb = some m) :
    mergedUnits o (la.filter p) (lb.filter p) = some (m.filter (onEither p p)) := by
  have hC := lawful_pure (fun x : CompUnit × Unit => unitKey o x.1) compare (fun _ => True)
  simp only [mergedUnits, Bind.bind, Option.bind_eq_some_iff] at h ⊢
  obtain ⟨sa, ea, sb, eb, hm⟩ := h
  have := sort_merge_filter (cmpLaws_of hC 0) (cmpLaws_of hC 0) (fun {x y o} h1 h2 => ⟨o, h1, h2⟩) () () p p
    (fun x hx y hy h => hp x hx y hy (Res.ok.inj h)) ea eb hm
  exact ⟨_, this.1, _, this.2⟩

end Verif.Select
