import Verif.Order.Spec
import Verif.Types.Props
import Verif.Merge.Props
/-!
# Lemmas: sorting and merging with a comparison that may not return
-/
namespace Verif.Order
open Verif.Types Verif.Item Verif.Opts Verif.Merge Verif.Namespace

/-! ## A comparison that is lawful on some items, extended to all -/

open Classical in
/-- `f` on the items satisfying `G`, which come before all the others. -/
noncomputable def ext (G : α → Prop) (f : α → α → Ordering) (x y : α) : Ordering :=
  if G x then (if G y then f x y else .lt) else (if G y then .gt else .eq)

theorem ext_trans {G : α → Prop} {f : α → α → Ordering}
    (hs : ∀ x y, G x → G y → f y x = (f x y).swap)
    (ht : ∀ x y z, G x → G y → G z → (f x y).isLE → (f y z).isLE → (f x z).isLE) :
    Std.TransCmp (ext G f) where
  eq_swap := by
    intro a b
    unfold ext
    by_cases ha : G a <;> by_cases hb : G b <;> simp only [ha, hb, if_true, if_false, Ordering.swap]
    exact hs b a hb ha
  isLE_trans := by
    intro a b c
    unfold ext
    by_cases ha : G a <;> by_cases hb : G b <;> by_cases hc : G c <;>
      simp only [ha, hb, hc, if_true, if_false] <;>
      first | exact ht a b c ha hb hc | simp

theorem stableSort_congr {le le' : α → α → Bool} (l : List α)
    (h : ∀ x ∈ l, ∀ y ∈ l, le x y = le' x y) : stableSort le l = stableSort le' l := by
  have ins : ∀ (x : α) (m : List α), (∀ y ∈ m, le x y = le' x y) →
      insertBy le x m = insertBy le' x m := by
    intro x m
    induction m with
    | nil => intro _; rfl
    | cons y m ih =>
      intro hm
      simp only [insertBy]
      rw [hm y (by simp), ih (fun z hz => hm z (by simp [hz]))]
  induction l with
  | nil => rfl
  | cons x l ih =>
    simp only [stableSort]
    rw [ih (fun a ha b hb => h a (by simp [ha]) b (by simp [hb]))]
    exact ins x _ (fun y hy => h x (by simp) y (by simp [(mem_stableSort _).1 hy]))

theorem merged_congr (f g : α → β → Ordering) (l : List α) (r : List β) (n : Nat)
    (h : ∀ x ∈ l, ∀ y ∈ r, f x y = g x y) : merged f l r n = merged g l r n := by
  induction n generalizing l r with
  | zero => rfl
  | succ n ih =>
    cases l with
    | nil =>
      cases r with
      | nil => rw [merged_nil_nil, merged_nil_nil]
      | cons b r =>
        rw [merged_nil_cons, merged_nil_cons, ih]
        intro x hx; cases hx
    | cons a l =>
      cases r with
      | nil =>
        rw [merged_cons_nil, merged_cons_nil, ih]
        intro x _ y hy; cases hy
      | cons b r =>
        rw [merged_cons_cons, merged_cons_cons, h a (by simp) b (by simp)]
        cases g a b
        · simp only; rw [ih]; intro x hx y hy; exact h x (by simp [hx]) y hy
        · simp only; rw [ih]; intro x hx y hy; exact h x (by simp [hx]) y (by simp [hy])
        · simp only; rw [ih]; intro x hx y hy; exact h x hx y (by simp [hy])

/-- The laws of a comparison that may not return. -/
structure Lawful (r : Nat → α → α → Res Ordering) (Good : α → Prop) : Prop where
  mono : ∀ {n m x y o}, n ≤ m → r n x y = .ok o → r m x y = .ok o
  swap : ∀ {n x y o}, r n x y = .ok o → r n y x = .ok o.swap
  trans : ∀ n x y z, T3 (r n x y) (r n y z) (r n x z)
  term : ∀ {x y}, Good x → Good y → ∃ n o, r n x y = .ok o

/-- All comparisons between `S` and `T` return. -/
def OkOn (r : α → β → Res Ordering) (S : List α) (T : List β) : Prop :=
  ∀ x ∈ S, ∀ y ∈ T, ∃ o, r x y = .ok o

theorem fuel_list {P : Nat → α → Prop} (hm : ∀ n m x, n ≤ m → P n x → P m x) (l : List α)
    (h : ∀ x ∈ l, ∃ n, P n x) : ∃ N, ∀ n, N ≤ n → ∀ x ∈ l, P n x := by
  induction l with
  | nil => exact ⟨0, fun _ _ x hx => by cases hx⟩
  | cons a l ih =>
    obtain ⟨N, hN⟩ := ih (fun x hx => h x (by simp [hx]))
    obtain ⟨k, hk⟩ := h a (by simp)
    refine ⟨max N k, fun n hn x hx => ?_⟩
    rcases List.mem_cons.1 hx with rfl | hx
    · exact hm k n _ (by omega) hk
    · exact hN n (by omega) x hx

theorem Lawful.okOn {r : Nat → α → α → Res Ordering} {Good : α → Prop} (hr : Lawful r Good)
    (S T : List α) (hS : ∀ x ∈ S, Good x) (hT : ∀ x ∈ T, Good x) :
    ∃ N, ∀ n, N ≤ n → OkOn (r n) S T := by
  have h1 : ∀ x ∈ S, ∃ N, ∀ n, N ≤ n → ∀ y ∈ T, ∃ o, r n x y = .ok o := by
    intro x hx
    exact fuel_list (P := fun n y => ∃ o, r n x y = .ok o)
      (fun n m y hnm ⟨o, ho⟩ => ⟨o, hr.mono hnm ho⟩) T (fun y hy => hr.term (hS x hx) (hT y hy))
  have h2 := fuel_list (P := fun N x => ∀ n, N ≤ n → ∀ y ∈ T, ∃ o, r n x y = .ok o)
    (fun n m x hnm h k hk => h k (by omega)) S h1
  obtain ⟨N, hN⟩ := h2
  exact ⟨N, fun n hn x hx y hy => hN N (Nat.le_refl _) x hx n hn y hy⟩

theorem OkOn.append {r : α → α → Res Ordering} {S T : List α} (h : OkOn r (S ++ T) (S ++ T)) :
    OkOn r S S ∧ OkOn r T T ∧ OkOn r S T :=
  ⟨fun x hx y hy => h x (by simp [hx]) y (by simp [hy]),
   fun x hx y hy => h x (by simp [hx]) y (by simp [hy]),
   fun x hx y hy => h x (by simp [hx]) y (by simp [hy])⟩

/-- The order on a finite set of items that are all comparable. -/
noncomputable def ordOn (r : α → α → Res Ordering) (S : List α) : α → α → Ordering :=
  ext (· ∈ S) (fun x y => theOrd (r x y))

theorem ordOn_eq {r : α → α → Res Ordering} {S : List α} {x y : α} (hx : x ∈ S) (hy : y ∈ S) :
    ordOn r S x y = theOrd (r x y) := by
  simp [ordOn, ext, hx, hy]

theorem ordOn_trans {r : α → α → Res Ordering} {S : List α}
    (hok : OkOn r S S) (hsw : ∀ {x y o}, r x y = .ok o → r y x = .ok o.swap)
    (htr : ∀ x y z, T3 (r x y) (r y z) (r x z)) : Std.TransCmp (ordOn r S) := by
  apply ext_trans
  · intro x y hx hy
    obtain ⟨o, ho⟩ := hok x hx y hy
    rw [ho, hsw ho]; rfl
  · intro x y z hx hy hz
    obtain ⟨o1, h1⟩ := hok x hx y hy
    obtain ⟨o2, h2⟩ := hok y hy z hz
    intro l1 l2
    rw [h1] at l1; rw [h2] at l2
    obtain ⟨o, ho, hle, _⟩ := htr x y z o1 o2 h1 h2 l1 l2
    rw [ho]; exact hle

theorem sortWith_spec {r : α → α → Res Ordering} {l : List α} (hok : OkOn r l l)
    (hsw : ∀ {x y o}, r x y = .ok o → r y x = .ok o.swap)
    (htr : ∀ x y z, T3 (r x y) (r y z) (r x z)) :
    ∃ l', sortWith r l = some l' ∧ Arranged r l l' := by
  have hall : (l.all fun x => l.all fun y => r x y != .diverge && r x y != .panic) = true := by
    simp only [List.all_eq_true]
    intro x hx y hy
    obtain ⟨o, ho⟩ := hok x hx y hy
    simp [ho]
  refine ⟨_, by rw [sortWith, if_pos hall], ?_⟩
  have hT := ordOn_trans hok hsw htr
  have hP : TotalPreorder (fun a b => ordOn r l a b != .gt) := {
    total := fun a b => by
      rw [Std.OrientedCmp.eq_swap (cmp := ordOn r l) (a := b) (b := a)]
      cases ordOn r l a b <;> simp
    trans := fun a b c h1 h2 => by
      have h1' : (ordOn r l a b).isLE := by cases h : ordOn r l a b <;> simp_all
      have h2' : (ordOn r l b c).isLE := by cases h : ordOn r l b c <;> simp_all
      have := Std.TransCmp.isLE_trans h1' h2'
      cases h : ordOn r l a c <;> simp_all }
  have hle : ∀ x ∈ l, ∀ y ∈ l, (r x y != .ok .gt) = (ordOn r l x y != .gt) := by
    intro x hx y hy
    obtain ⟨o, ho⟩ := hok x hx y hy
    rw [ordOn_eq hx hy, ho]
    cases o <;> rfl
  rw [stableSort_congr l hle]
  refine ⟨stableSort_perm _ _, ?_, ?_⟩
  · refine (stableSort_sorted hP l).imp_of_mem ?_
    intro a b ha hb h
    have ha := (mem_stableSort _).1 ha
    have hb := (mem_stableSort _).1 hb
    obtain ⟨o, ho⟩ := hok a ha b hb
    refine ⟨o, ho, ?_⟩
    rw [← hle a ha b hb, ho] at h
    intro e; subst e; simp at h
  · intro p hp
    by_cases hex : ∃ c ∈ l, p c = true
    · obtain ⟨c, hc, hpc⟩ := hex
      have hst := stableSort_stable hP c l
      have hsub : ∀ m : List α, (∀ x ∈ m, x ∈ l) →
          m.filter p = (m.filter (fun y => ordOn r l y c != .gt && ordOn r l c y != .gt)).filter p := by
        intro m hm
        rw [List.filter_filter]
        refine List.filter_congr fun y hy => ?_
        cases hpy : p y with
        | false => simp
        | true =>
          have h1 := hp y (hm y hy) c hc hpy hpc
          have h2 := hp c hc y (hm y hy) hpc hpy
          rw [ordOn_eq (hm y hy) hc, ordOn_eq hc (hm y hy), h1, h2]
          simp [theOrd]
      rw [hsub _ (fun x hx => (mem_stableSort _).1 hx), hst, ← hsub l (fun _ h => h)]
    · have : ∀ x ∈ l, ¬ p x = true := fun x hx h => hex ⟨x, hx, h⟩
      rw [List.filter_eq_nil_iff.2 this,
        List.filter_eq_nil_iff.2 fun x hx => this x ((mem_stableSort _).1 hx)]

/-- Pairing after sorting: `r x hx y hy` is the order used for sorting, `c` the one for pairing,
which the first refines. -/
theorem merge_spec {r c : α × γ → α × γ → Res Ordering} (ha hb : γ) (la lb : List α)
    (hr : ∀ {x y o}, r x y = .ok o → r y x = .ok o.swap)
    (hrt : ∀ x y z, T3 (r x y) (r y z) (r x z))
    (hc : ∀ {x y o}, c x y = .ok o → c y x = .ok o.swap)
    (hct : ∀ x y z, T3 (c x y) (c y z) (c x z))
    (href : ∀ x y o, r x y = .ok o → o ≠ .gt → ∃ o', c x y = .ok o' ∧ o' ≠ .gt)
    (hra : OkOn r (la.map (·, ha)) (la.map (·, ha))) (hrb : OkOn r (lb.map (·, hb)) (lb.map (·, hb)))
    (hcok : OkOn c (la.map (·, ha) ++ lb.map (·, hb)) (la.map (·, ha) ++ lb.map (·, hb))) :
    ∃ out, (do
      let sa ← sortWith (fun x y => r (x, ha) (y, ha)) la
      let sb ← sortWith (fun x y => r (x, hb) (y, hb)) lb
      mergeWith (fun x y => c (x, ha) (y, hb)) sa sb) = some out ∧
      Paired (fun x y => c (x, ha) (y, hb) = .ok .eq) la lb out := by
  have mA : ∀ x ∈ la, (x, ha) ∈ la.map (·, ha) ++ lb.map (·, hb) := fun x hx =>
    List.mem_append_left _ (List.mem_map.2 ⟨x, hx, rfl⟩)
  have mB : ∀ x ∈ lb, (x, hb) ∈ la.map (·, ha) ++ lb.map (·, hb) := fun x hx =>
    List.mem_append_right _ (List.mem_map.2 ⟨x, hx, rfl⟩)
  obtain ⟨sa, ea, Aa⟩ := sortWith_spec (r := fun x y => r (x, ha) (y, ha)) (l := la)
    (fun x hx y hy => hra _ (List.mem_map.2 ⟨x, hx, rfl⟩) _ (List.mem_map.2 ⟨y, hy, rfl⟩)) (fun h => hr h) (fun x y z => hrt _ _ _)
  obtain ⟨sb, eb, Ab⟩ := sortWith_spec (r := fun x y => r (x, hb) (y, hb)) (l := lb)
    (fun x hx y hy => hrb _ (List.mem_map.2 ⟨x, hx, rfl⟩) _ (List.mem_map.2 ⟨y, hy, rfl⟩)) (fun h => hr h) (fun x y z => hrt _ _ _)
  rw [ea, eb]
  simp only [Option.bind_eq_bind, Option.bind_some]
  have hsa : ∀ x, x ∈ sa ↔ x ∈ la := fun x => Aa.perm.mem_iff
  have hsb : ∀ x, x ∈ sb ↔ x ∈ lb := fun x => Ab.perm.mem_iff
  have hall : (sa.all fun x => sb.all fun y =>
      c (x, ha) (y, hb) != .diverge && c (x, ha) (y, hb) != .panic) = true := by
    simp only [List.all_eq_true]
    intro x hx y hy
    obtain ⟨o, ho⟩ := hcok _ (mA x ((hsa x).1 hx)) _ (mB y ((hsb y).1 hy))
    simp [ho]
  refine ⟨_, by rw [mergeWith, if_pos hall], ?_⟩
  have hT := ordOn_trans hcok hc hct
  -- on the items at hand the comparison is the total order
  have hcmp : ∀ (n : Nat) (l l' : List α), (∀ x ∈ l, x ∈ la) → (∀ x ∈ l', x ∈ lb) →
      merged (fun x y => theOrd (c (x, ha) (y, hb))) l l' (l.length + l'.length) =
      merged (fun x y => ordOn c (la.map (·, ha) ++ lb.map (·, hb)) (x, ha) (y, hb)) l l'
        (l.length + l'.length) := by
    intro _ l l' h1 h2
    have := merged_congr (fun x y => theOrd (c (x, ha) (y, hb)))
      (fun x y => ordOn c (la.map (·, ha) ++ lb.map (·, hb)) (x, ha) (y, hb)) l l'
      (l.length + l'.length)
      (fun x hx y hy => (ordOn_eq (mA x (h1 x hx)) (mB y (h2 y hy))).symm)
    exact this
  rw [hcmp 0 sa sb (fun x hx => (hsa x).1 hx) (fun x hx => (hsb x).1 hx)]
  have hlen := Nat.le_refl (sa.length + sb.length)
  have sortA : SortedBy (ordOn c (la.map (·, ha) ++ lb.map (·, hb))) (·, ha) sa := by
    refine Aa.sorted.imp_of_mem ?_
    rintro x y hx hy ⟨o, ho, hne⟩
    obtain ⟨o', ho', hne'⟩ := href _ _ o ho hne
    rw [ordOn_eq (mA x ((hsa x).1 hx)) (mA y ((hsa y).1 hy)), ho']
    exact hne'
  have sortB : SortedBy (ordOn c (la.map (·, ha) ++ lb.map (·, hb))) (·, hb) sb := by
    refine Ab.sorted.imp_of_mem ?_
    rintro x y hx hy ⟨o, ho, hne⟩
    obtain ⟨o', ho', hne'⟩ := href _ _ o ho hne
    rw [ordOn_eq (mB x ((hsb x).1 hx)) (mB y ((hsb y).1 hy)), ho']
    exact hne'
  obtain ⟨c1, c2⟩ := C18_complete (fun x y => ordOn c (la.map (·, ha) ++ lb.map (·, hb)) (x, ha) (y, hb))
    sa sb _ hlen
  have back : ∀ x y, x ∈ la → y ∈ lb →
      (ordOn c (la.map (·, ha) ++ lb.map (·, hb)) (x, ha) (y, hb) = .eq ↔
        c (x, ha) (y, hb) = .ok .eq) := by
    intro x y hx hy
    obtain ⟨o, ho⟩ := hcok _ (mA x hx) _ (mB y hy)
    rw [ordOn_eq (mA x hx) (mB y hy), ho]
    simp [theOrd]
  refine ⟨by rw [c1]; exact Aa.perm, by rw [c2]; exact Ab.perm, ?_, ?_⟩
  · intro a b h
    have h1 : a ∈ sa := by rw [← c1]; exact List.mem_filterMap.2 ⟨_, h, rfl⟩
    have h2 : b ∈ sb := by rw [← c2]; exact List.mem_filterMap.2 ⟨_, h, rfl⟩
    exact (back a b ((hsa a).1 h1) ((hsb b).1 h2)).1 (C18_pair_equal _ sa sb _ hlen a b h)
  · intro a b h1 h2
    have m1 : a ∈ sa := by rw [← c1]; exact List.mem_filterMap.2 ⟨_, h1, rfl⟩
    have m2 : b ∈ sb := by rw [← c2]; exact List.mem_filterMap.2 ⟨_, h2, rfl⟩
    rw [← back a b ((hsa a).1 m1) ((hsb b).1 m2)]
    exact C18_no_missed_pair (ordOn c (la.map (·, ha) ++ lb.map (·, hb))) (·, ha) (·, hb) sa sb _
      hlen sortA sortB a b h1 h2

end Verif.Order
