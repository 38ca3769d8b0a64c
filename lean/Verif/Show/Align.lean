import Verif.Show.AlignSpec
import Verif.Show.FileItems
import Verif.Path.Props
import Verif.Namespace.Props
/-!
# Lemmas for C86
-/
namespace Verif.Show
open Verif.Print Verif.Item Verif.Namespace Verif.Types Verif.Layout Verif.Path Verif.Opts Verif.Merge
  Verif.Namespace.Namespace

theorem points_ite {n : Nat} {p : Prop} [Decidable p] : points n p = if p then n else 0 := by
  unfold points; split <;> rename_i h <;> simp [h]

theorem points_zero {n : Nat} {p : Prop} (h : ¬ p) : points n p = 0 := by unfold points; simp [h]
theorem points_full {n : Nat} {p : Prop} (h : p) : points n p = n := by unfold points; simp [h]

theorem points_eq_zero {n : Nat} {p : Prop} (hn : 0 < n) : points n p = 0 ↔ ¬ p := by
  by_cases h : p
  · rw [points_full h]; simp [h]; omega
  · rw [points_zero h]; simp [h]

theorem all2_mono {α β : Type} {R S : α → β → Prop} (h : ∀ a b, R a b → S a b) {l : List α} {m : List β}
    (hr : All2 R l m) : All2 S l m := by
  induction hr with
  | nil => exact .nil
  | cons hab _ ih => exact .cons (h _ _ hab) ih

/-- What `listD` shows is a best presentation. -/
theorem listD_best {α : Type} {w : Prices α} {Q : Heap} {p p' : α → Option P} {diff : α → α → Option D}
    {c1 c2 : α → Nat} {d : α → α → Nat} {la lb : List α} {e : D}
    (h : listD Q p p' diff c1 c2 d la lb = some e)
    (h1 : c1 = w.alone) (h2 : c2 = w.alone) (hd : d = w.pair) :
    ∃ items, Best w la lb items ∧ Presents p p' diff items e := by
  subst h1 h2 hd
  unfold listD at h
  split at h
  · rename_i htot
    obtain ⟨items, hi, ha⟩ := C19_alignment Q la lb w.alone w.alone w.pair htot _ (Nat.le_refl _)
    rw [hi] at h
    simp only [Option.map_eq_some_iff] at h
    obtain ⟨ds, hds, rfl⟩ := h
    refine ⟨items, ⟨ha.old, ha.new, ha.pairs, ?_⟩, ds, rfl, ?_⟩
    · intro other ho hn
      exact C20_minimal_any Q la lb _ _ _ htot _ (Nat.le_refl _) items hi other ho hn
    · refine all2_mono ?_ (all2_of_mapM hds)
      intro it d hd
      cases it with
      | left a =>
        refine ⟨?_, nofun, nofun⟩
        rintro _ ⟨⟩
        simp only [itemD, Option.map_eq_some_iff] at hd
        obtain ⟨q, hq, rfl⟩ := hd
        exact ⟨q, hq, rfl⟩
      | right b =>
        refine ⟨nofun, ?_, nofun⟩
        rintro _ ⟨⟩
        simp only [itemD, Option.map_eq_some_iff] at hd
        obtain ⟨q, hq, rfl⟩ := hd
        exact ⟨q, hq, rfl⟩
      | both a b =>
        refine ⟨nofun, nofun, ?_⟩
        rintro _ _ ⟨⟩
        exact hd
  · cases h

theorem tyCost_eq (c : Pair) (w : Nat) (a b : TypeOffset) : tyCost c w a b = points w (¬ SameTy c a b) := by
  unfold tyCost SameTy
  split
  · rename_i x y hx hy
    rw [hx, hy]
    by_cases h : c.same x y = true
    · rw [points_zero (by simp [h])]; simp [h]
    · rw [points_full (by simp [h])]; simp [h]
  · rename_i hx hy
    rw [hx, hy, points_zero (by simp)]
  · rename_i h1 h2
    rw [points_full]
    rintro (⟨x, y, hx, hy, -⟩ | ⟨hx, hy⟩)
    · exact h1 x y hx hy
    · exact h2 hx hy

theorem fnSame_eq (f g : Function) : fnSame f g = true ↔ SameFn f g := by
  simp only [fnSame, beq_iff_eq, SameFn]
  exact (C09_cmpNsAndName_laws (f.ns, f.name) (g.ns, g.name) (g.ns, g.name)).2.2

theorem nameCost {α : Type} [DecidableEq α] (n : Nat) (a b : α) : (if a = b then 0 else n) = points n (a ≠ b) := by
  by_cases h : a = b
  · rw [points_zero (by simp [h])]; simp [h]
  · rw [points_full h]; simp [h]

theorem memberCost_eq (c : Pair) : memberCost c = (memberPrices c).pair := by
  funext a b
  simp only [memberCost, memberPrices, nameCost, tyCost_eq]

theorem inheritCost_eq (c : Pair) : inheritCost c = (inheritPrices c).pair := by
  funext a b
  simp only [inheritCost, inheritPrices, tyCost_eq]

theorem layoutCost_eq (c : Pair) : layoutCost c = (layoutPrices c).pair := by
  funext a b
  obtain ⟨oa, sa, ia⟩ := a
  obtain ⟨ob, sb, ib⟩ := b
  cases ia <;> cases ib <;> simp [layoutCost, layoutPrices, memberCost_eq, inheritCost_eq]

theorem variantCost_eq : variantCost = variantPrices.pair := by
  funext a b
  simp only [variantCost, variantPrices, nameCost]

theorem enumeratorCost_eq : enumeratorCost = enumeratorPrices.pair := by
  funext a b
  simp only [enumeratorCost, enumeratorPrices, nameCost]

theorem paramCost_eq (c : FnPair) : paramCost c = (paramPrices c).pair := by
  funext a b
  simp only [paramCost, paramPrices, nameCost, tyCost_eq]

theorem localCost_eq (c : FnPair) : localCost c = (localPrices c).pair := by
  funext a b
  simp only [localCost, localPrices, nameCost, tyCost_eq]

theorem changeCost_eq {α : Type} [DecidableEq α] :
    (fun x y : α => if x = y then 0 else 1) = (changePrices α).pair := by
  funext a b
  simp only [changePrices, nameCost]

theorem fnSameCost (n : Nat) (f g : Function) : (if fnSame f g then 0 else n) = points n (¬ SameFn f g) := by
  by_cases h : SameFn f g
  · rw [points_zero (by simp [h]), if_pos ((fnSame_eq f g).2 h)]
  · rw [points_full h, if_neg (fun h' => h ((fnSame_eq f g).1 h'))]

theorem originCost_eq (a b : Option CallOrigin) : originCost a b = originPoints a b := by
  rcases a with _ | ⟨f⟩ | ⟨p⟩ <;> rcases b with _ | ⟨g⟩ | ⟨q⟩ <;>
    simp only [originCost, originPoints, fnSameCost]
  cases p <;> cases q <;> simp [placeOf, points]

theorem callSiteCost_eq : callSiteCost = callSitePrices.pair := by
  funext a b
  simp only [callSiteCost, callSitePrices, nameCost, originCost_eq]

theorem fnOptCost (n : Nat) (a b : Option Function) :
    (match a, b with
      | some f, some g => if fnSame f g then 0 else n
      | none, none => 0
      | _, _ => n) = points n (¬ SameFnOpt a b) := by
  cases a <;> cases b <;> simp only [SameFnOpt, fnSameCost]
  · rw [points_zero (by simp)]
  · rw [points_full (by simp)]
  · rw [points_full (by simp)]

theorem callCost_eq (c : FnPair) : callCost c = (callPrices c).pair := by
  funext a b
  simp only [callCost, callPrices]
  exact fnOptCost 1 _ _

theorem inlinedCost_eq (c : FnPair) (da db : Option Str) : inlinedCost c da db = (inlinedPrices c da db).pair := by
  funext a b
  simp only [inlinedCost, inlinedPrices]
  have h1 : inlinedOriginCost (c.a.fnAt a.origin) (c.b.fnAt b.origin) =
      points 3 (¬ SameFnOpt (c.a.fnAt a.origin) (c.b.fnAt b.origin)) := fnOptCost 3 _ _
  rw [h1, ← Nat.add_assoc]
  congr 2
  by_cases h : SamePlace da db a.callSource b.callSource
  · rw [points_zero (by simp [h])]; exact if_pos h
  · rw [points_full h]; exact if_neg h

theorem inlinedStep_eq (c : FnPair) (da db : Option Str) : inlinedStep = (inlinedPrices c da db).alone := rfl

theorem sectionCost_eq : sectionCost = sectionPrices.pair := by
  funext x y
  simp only [sectionCost, sectionPrices]
  by_cases h : x.name = y.name ∧ x.segment = y.segment
  · rw [if_pos h, points_zero (by simp [h])]
  · rw [if_neg h, points_full]
    exact Decidable.not_and_iff_or_not.1 h

/-! ### Removing items -/

theorem cost_cons (w : Prices α) (x : MergeResult α α) (xs : List (MergeResult α α)) :
    w.cost (x :: xs) = itemCost w.alone w.alone w.pair x + w.cost xs := by
  simp [Prices.cost, totalCost]

/-- Removing items from a list has a presentation without additions. -/
theorem removal_cost {w : Prices α} {u : Nat} (hu : ∀ a, w.alone a = u) {la s : List α} (hs : s.Sublist la) :
    ∀ {lb : List α}, All2 (fun a b => w.pair a b = 0) s lb →
      ∃ items, oldItems items = la ∧ newItems items = lb ∧ w.cost items + u * lb.length = u * la.length := by
  induction hs with
  | slnil => intro lb h; cases h; exact ⟨[], rfl, rfl, rfl⟩
  | @cons s l a hs ih =>
    intro lb h
    obtain ⟨items, h1, h2, h3⟩ := ih h
    refine ⟨.left a :: items, ?_, ?_, ?_⟩
    · simp only [oldItems, List.filterMap_cons, oldItem] at h1 ⊢; rw [h1]
    · simp only [newItems, List.filterMap_cons, newItem] at h2 ⊢; rw [h2]
    · rw [cost_cons, List.length_cons, Nat.mul_succ]
      simp only [itemCost, hu]
      omega
  | @cons_cons s l a hs ih =>
    intro lb h
    cases h with
    | @cons _ b _ bs hab h =>
      obtain ⟨items, h1, h2, h3⟩ := ih h
      refine ⟨.both a b :: items, ?_, ?_, ?_⟩
      · simp only [oldItems, List.filterMap_cons, oldItem] at h1 ⊢; rw [h1]
      · simp only [newItems, List.filterMap_cons, newItem] at h2 ⊢; rw [h2]
      · rw [cost_cons, List.length_cons, List.length_cons, Nat.mul_succ, Nat.mul_succ]
        simp only [itemCost, hab]
        omega

/-- The cost of the pairs of a presentation. -/
def pairsCost (w : Prices α) : List (MergeResult α α) → Nat
  | [] => 0
  | .both a b :: l => w.pair a b + pairsCost w l
  | .left _ :: l => pairsCost w l
  | .right _ :: l => pairsCost w l
/-- The number of additions. -/
def adds : List (MergeResult α α) → Nat
  | [] => 0
  | .right _ :: l => adds l + 1
  | .left _ :: l => adds l
  | .both _ _ :: l => adds l

theorem cost_count {w : Prices α} {u : Nat} (hu : ∀ a, w.alone a = u) (items : List (MergeResult α α)) :
    w.cost items + u * (newItems items).length = u * (oldItems items).length + pairsCost w items + 2 * (u * adds items) := by
  induction items with
  | nil => simp [Prices.cost, totalCost, newItems, oldItems, pairsCost, adds]
  | cons x xs ih =>
    rw [cost_cons]
    cases x with
    | left a =>
      have h1 : newItems (.left a :: xs) = newItems xs := rfl
      have h2 : oldItems (.left a :: xs) = a :: oldItems xs := rfl
      rw [h1, h2]
      simp only [itemCost, hu, pairsCost, adds, List.length_cons, Nat.mul_succ]
      omega
    | right b =>
      have h1 : newItems (.right b :: xs) = b :: newItems xs := rfl
      have h2 : oldItems (.right b :: xs) = oldItems xs := rfl
      rw [h1, h2]
      simp only [itemCost, hu, pairsCost, adds, List.length_cons, Nat.mul_succ]
      omega
    | both a b =>
      have h1 : newItems (.both a b :: xs) = b :: newItems xs := rfl
      have h2 : oldItems (.both a b :: xs) = a :: oldItems xs := rfl
      rw [h1, h2]
      simp only [itemCost, pairsCost, adds, List.length_cons, Nat.mul_succ]
      omega

theorem adds_zero {items : List (MergeResult α α)} (h : adds items = 0) (b : α) : .right b ∉ items := by
  induction items with
  | nil => simp
  | cons x xs ih =>
    intro hb
    rcases List.mem_cons.1 hb with rfl | hb
    · simp [adds] at h
    · refine ih ?_ hb
      cases x <;> simp only [adds] at h <;> omega

theorem pairsCost_zero {w : Prices α} {items : List (MergeResult α α)} (h : pairsCost w items = 0) (a b : α)
    (hab : .both a b ∈ items) : w.pair a b = 0 := by
  induction items with
  | nil => simp at hab
  | cons x xs ih =>
    rcases List.mem_cons.1 hab with rfl | hab
    · simp only [pairsCost] at h; omega
    · refine ih ?_ hab
      cases x <;> simp only [pairsCost] at h <;> omega

theorem best_removed {w : Prices α} {u : Nat} (hp : 0 < u) (hu : ∀ a, w.alone a = u) {la lb s : List α}
    {items : List (MergeResult α α)} (hb : Best w la lb items) (hs : s.Sublist la)
    (hm : All2 (fun a b => w.pair a b = 0) s lb) :
    (∀ b, .right b ∉ items) ∧ ∀ a b, .both a b ∈ items → w.pair a b = 0 := by
  obtain ⟨other, h1, h2, h3⟩ := removal_cost hu hs hm
  have hle := hb.least other h1 h2
  have hc := cost_count hu items
  rw [hb.old, hb.new] at hc
  have h0 : u * adds items = 0 ∧ pairsCost w items = 0 := by omega
  have : adds items = 0 := by
    rcases Nat.mul_eq_zero.1 h0.1 with h | h
    · omega
    · exact h
  exact ⟨adds_zero this, pairsCost_zero h0.2⟩

/-- Old and new exchanged. -/
def flipItem : MergeResult α α → MergeResult α α
  | .left a => .right a
  | .right b => .left b
  | .both a b => .both b a

theorem oldItems_flip (items : List (MergeResult α α)) : oldItems (items.map flipItem) = newItems items := by
  induction items with
  | nil => rfl
  | cons x xs ih =>
    cases x with
    | left a => first | exact ih | exact congrArg (a :: ·) ih
    | right b => first | exact ih | exact congrArg (b :: ·) ih
    | both a b => first | exact congrArg (b :: ·) ih | exact congrArg (a :: ·) ih

theorem newItems_flip (items : List (MergeResult α α)) : newItems (items.map flipItem) = oldItems items := by
  induction items with
  | nil => rfl
  | cons x xs ih =>
    cases x with
    | left a => first | exact ih | exact congrArg (a :: ·) ih
    | right b => first | exact ih | exact congrArg (b :: ·) ih
    | both a b => first | exact congrArg (b :: ·) ih | exact congrArg (a :: ·) ih

/-- Prices seen from the new list. -/
def Prices.flip (w : Prices α) : Prices α := ⟨w.alone, fun a b => w.pair b a⟩

theorem cost_flip (w : Prices α) (items : List (MergeResult α α)) : w.flip.cost (items.map flipItem) = w.cost items := by
  induction items with
  | nil => rfl
  | cons x xs ih =>
    rw [List.map_cons, cost_cons, cost_cons, ih]
    cases x <;> rfl

theorem flip_flip (x : MergeResult α α) : flipItem (flipItem x) = x := by cases x <;> rfl

theorem map_flip_flip (items : List (MergeResult α α)) : (items.map flipItem).map flipItem = items := by
  rw [List.map_map]
  conv => rhs; rw [← List.map_id items]
  exact List.map_congr_left fun x _ => flip_flip x

theorem best_flip {w : Prices α} {la lb : List α} {items : List (MergeResult α α)} (h : Best w la lb items) :
    Best w.flip lb la (items.map flipItem) := by
  refine ⟨(oldItems_flip items).trans h.new, (newItems_flip items).trans h.old, ?_, ?_⟩
  · intro a b hab
    obtain ⟨x, hx, he⟩ := List.mem_map.1 hab
    cases x <;> simp only [flipItem, MergeResult.both.injEq, reduceCtorEq] at he
    obtain ⟨rfl, rfl⟩ := he
    have := h.worth _ _ hx
    simp only [Prices.flip] at this ⊢
    omega
  · intro other ho hn
    have := h.least (other.map flipItem) ((oldItems_flip other).trans hn) ((newItems_flip other).trans ho)
    rw [cost_flip]
    have e := cost_flip w (other.map flipItem)
    rw [map_flip_flip] at e
    omega

theorem best_added {w : Prices α} {u : Nat} (hp : 0 < u) (hu : ∀ a, w.alone a = u) {la lb s : List α}
    {items : List (MergeResult α α)} (hb : Best w la lb items) (hs : s.Sublist lb)
    (hm : All2 (fun a b => w.pair a b = 0) la s) :
    (∀ a, .left a ∉ items) ∧ ∀ a b, .both a b ∈ items → w.pair a b = 0 := by
  have hm' : All2 (fun a b => w.flip.pair a b = 0) s la := by
    clear hs hb
    induction hm with
    | nil => exact .nil
    | cons h _ ih => exact .cons h ih
  obtain ⟨h1, h2⟩ := best_removed (w := w.flip) hp hu (best_flip hb) hs hm'
  constructor
  · intro a ha
    exact h1 a (List.mem_map.2 ⟨_, ha, rfl⟩)
  · intro a b hab
    exact h2 b a (List.mem_map.2 ⟨_, hab, rfl⟩)

end Verif.Show
