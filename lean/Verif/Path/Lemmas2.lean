import Verif.Path.Lemmas
namespace Verif.Path
open Verif.Merge

variable {α : Type} {l1 l2 : List α} {c1 c2 : α → Nat} {d : α → α → Nat}

/-- Cost of replacing the suffixes at `(i1, i2)`. -/
def rem (l1 l2 : List α) (c1 c2 : α → Nat) (i1 i2 : Nat) : Nat :=
  replaceCost c1 c2 (l1.drop i1) (l2.drop i2)

theorem drop_cons {l : List α} {i : Nat} {a : α} (h : l[i]? = some a) :
    l.drop i = a :: l.drop (i + 1) := by
  obtain ⟨h1, h2⟩ := List.getElem?_eq_some_iff.1 h
  rw [List.drop_eq_getElem_cons h1, h2]

theorem Edge.rem_le {i1 i2 j1 j2 w : Nat} {dir : Direction}
    (h : Edge l1 l2 c1 c2 d i1 i2 dir j1 j2 w) :
    w + rem l1 l2 c1 c2 j1 j2 ≤ rem l1 l2 c1 c2 i1 i2 := by
  cases h with
  | vertical h0 h =>
    simp only [rem, replaceCost, drop_cons h, List.map_cons, List.sum_cons]; omega
  | horizontal h0 h =>
    simp only [rem, replaceCost, drop_cons h, List.map_cons, List.sum_cons]; omega
  | diagonal h1 h2 h3 =>
    simp only [rem, replaceCost, drop_cons h1, drop_cons h2, List.map_cons, List.sum_cons]; omega

theorem drop_sum_le (l : List α) (c : α → Nat) (i : Nat) :
    ((l.drop i).map c).sum ≤ (l.map c).sum := by
  conv => rhs; rw [← List.take_append_drop i l]
  rw [List.map_append, List.sum_append]; omega

theorem rem_le (i1 i2 : Nat) : rem l1 l2 c1 c2 i1 i2 ≤ replaceCost c1 c2 l1 l2 := by
  have := drop_sum_le l1 c1 i1
  have := drop_sum_le l2 c2 i2
  simp only [rem, replaceCost]; omega

/-- The cost stored in a reached node is at most the cost of replacing everything. -/
theorem Inv.cost_le {Q : Heap} {v : Vars Q} {bnd u1 u2 : Nat} {pend : List Direction}
    (hinv : Inv l1 l2 c1 c2 d Q v bnd u1 u2 pend) :
    ∀ k i1 i2 n, l1.length + l2.length - (i1 + i2) ≤ k → i1 ≤ l1.length → i2 ≤ l2.length →
      nd l1 v.node i1 i2 = some n → n.cost < usizeMax → n.cost ≤ rem l1 l2 c1 c2 i1 i2 := by
  intro k
  induction k with
  | zero =>
    intro i1 i2 n hk h1 h2 hn hc
    have : i1 = l1.length := by omega
    have : i2 = l2.length := by omega
    subst i1 i2
    obtain ⟨s, hs, hs2, _⟩ := hinv.start
    rw [hs] at hn; cases hn; omega
  | succ k ih =>
    intro i1 i2 n hk h1 h2 hn hc
    by_cases he : i1 = l1.length ∧ i2 = l2.length
    · obtain ⟨rfl, rfl⟩ := he
      obtain ⟨s, hs, hs2, _⟩ := hinv.start
      rw [hs] at hn; cases hn; omega
    · obtain ⟨j1, j2, w, m, e1, e2, e3, e4⟩ := hinv.back i1 i2 n h1 h2 he hn hc
      have hb := e1.bounds
      have := ih j1 j2 m (by omega) hb.2.2.1 hb.2.2.2.1 e2
        (hinv.doneFin _ _ _ hb.2.2.1 hb.2.2.2.1 e2 e3).1
      have := e1.rem_le
      omega

/-- What each of the three relaxation steps guarantees. -/
def StepOk (l1 l2 : List α) (c1 c2 : α → Nat) (d : α → α → Nat) (Q : Heap) (bnd u1 u2 : Nat)
    (m : Node) (pend' : List Direction) (v : Vars Q) (r : Out (Vars Q)) : Prop :=
  ∃ v', r = .ok v' ∧ Inv l1 l2 c1 c2 d Q v' bnd u1 u2 pend' ∧
    nd l1 v'.node u1 u2 = some m ∧ pending v'.node = pending v.node ∧
    (Q.items v'.heap).length ≤ (Q.items v.heap).length + 1

section
variable {Q : Heap} {v : Vars Q} {bnd u1 u2 : Nat} {m : Node}
  (hu1 : u1 ≤ l1.length) (hu2 : u2 ≤ l2.length)
  (hm : nd l1 v.node u1 u2 = some m) (hmd : m.done = true) (hmb : m.cost = bnd)
  (htot : replaceCost c1 c2 l1 l2 < usizeMax)
include hu1 hu2 hm hmd hmb htot

theorem stepVertical_ok (hinv : Inv l1 l2 c1 c2 d Q v bnd u1 u2
      [.vertical, .horizontal, .diagonal]) :
    StepOk l1 l2 c1 c2 d Q bnd u1 u2 m [.horizontal, .diagonal] v
      (stepVertical Q l2 (l1.length + 1) c2 u1 u2 v) := by
  have hmc : m.cost ≤ rem l1 l2 c1 c2 u1 u2 :=
    hinv.cost_le _ u1 u2 m (Nat.le_refl _) hu1 hu2 hm (hinv.doneFin _ _ _ hu1 hu2 hm hmd).1
  unfold stepVertical
  by_cases h0 : u2 > 0
  · simp only [h0, if_true]
    obtain ⟨i2, rfl⟩ : ∃ k, u2 = k + 1 := ⟨u2 - 1, by omega⟩
    have hidx : u1 + (i2 + 1) * (l1.length + 1) - (l1.length + 1) =
        u1 + i2 * (l1.length + 1) := by rw [Nat.succ_mul]; omega
    rw [hidx, Nat.add_sub_cancel]
    obtain ⟨n, hn⟩ := nd_exists hinv.len hu1 (show i2 ≤ l2.length by omega)
    rw [idx_some (show v.node[u1 + i2 * (l1.length + 1)]? = some n from hn), bind_ok]
    have hb : ∃ b, l2[i2]? = some b := ⟨_, List.getElem?_eq_getElem (show i2 < l2.length by omega)⟩
    obtain ⟨b, hb⟩ := hb
    have hE : Edge l1 l2 c1 c2 d u1 i2 .vertical u1 (i2 + 1) (c2 b) := .vertical hu1 hb
    have hdet : ∀ j1 j2 w', Edge l1 l2 c1 c2 d j1 j2 .vertical u1 (i2 + 1) w' →
        j1 = u1 ∧ j2 = i2 ∧ w' = c2 b := by
      intro j1 j2 w' h
      cases h with
      | vertical _ hb' => rw [hb] at hb'; cases hb'; exact ⟨rfl, rfl, rfl⟩
    cases hnd : n.done
    · have h1 := hE.rem_le
      have h2 := rem_le (l1 := l1) (l2 := l2) (c1 := c1) (c2 := c2) u1 i2
      simp only [Bool.not_false, if_true]
      rw [idx_some (show v.node[u1 + (i2 + 1) * (l1.length + 1)]? = some m from hm), bind_ok,
        idx_some hb, bind_ok, addUsize_ok (by omega), bind_ok]
      exact push_inv hinv (by simp) hE hdet hn hnd hm hmd hmb (by omega) (by omega)
    · simp only [Bool.not_true, Bool.false_eq_true, if_false]
      refine ⟨v, rfl, ?_, hm, rfl, by omega⟩
      refine skip_inv hinv (dir := .vertical) (by simp) hm hmb ?_
      intro i1' i2' w' h
      obtain ⟨rfl, rfl, _⟩ := hdet _ _ _ h
      exact ⟨n, hn, hnd⟩
  · simp only [h0, if_false]
    refine ⟨v, rfl, ?_, hm, rfl, by omega⟩
    refine skip_inv hinv (dir := .vertical) (by simp) hm hmb ?_
    intro i1' i2' w' h
    cases h; omega

theorem stepHorizontal_ok (hinv : Inv l1 l2 c1 c2 d Q v bnd u1 u2 [.horizontal, .diagonal]) :
    StepOk l1 l2 c1 c2 d Q bnd u1 u2 m [.diagonal] v
      (stepHorizontal Q l1 (l1.length + 1) c1 u1 u2 v) := by
  have hmc : m.cost ≤ rem l1 l2 c1 c2 u1 u2 :=
    hinv.cost_le _ u1 u2 m (Nat.le_refl _) hu1 hu2 hm (hinv.doneFin _ _ _ hu1 hu2 hm hmd).1
  unfold stepHorizontal
  by_cases h0 : u1 > 0
  · simp only [h0, if_true]
    obtain ⟨i1, rfl⟩ : ∃ k, u1 = k + 1 := ⟨u1 - 1, by omega⟩
    have hidx : i1 + 1 + u2 * (l1.length + 1) - 1 = i1 + u2 * (l1.length + 1) := by omega
    rw [hidx, Nat.add_sub_cancel]
    obtain ⟨n, hn⟩ := nd_exists hinv.len (show i1 ≤ l1.length by omega) hu2
    rw [idx_some (show v.node[i1 + u2 * (l1.length + 1)]? = some n from hn), bind_ok]
    have hb : ∃ b, l1[i1]? = some b := ⟨_, List.getElem?_eq_getElem (show i1 < l1.length by omega)⟩
    obtain ⟨b, hb⟩ := hb
    have hE : Edge l1 l2 c1 c2 d i1 u2 .horizontal (i1 + 1) u2 (c1 b) := .horizontal hu2 hb
    have hdet : ∀ j1 j2 w', Edge l1 l2 c1 c2 d j1 j2 .horizontal (i1 + 1) u2 w' →
        j1 = i1 ∧ j2 = u2 ∧ w' = c1 b := by
      intro j1 j2 w' h
      cases h with
      | horizontal _ hb' => rw [hb] at hb'; cases hb'; exact ⟨rfl, rfl, rfl⟩
    cases hnd : n.done
    · have h1 := hE.rem_le
      have h2 := rem_le (l1 := l1) (l2 := l2) (c1 := c1) (c2 := c2) i1 u2
      simp only [Bool.not_false, if_true]
      rw [idx_some (show v.node[i1 + 1 + u2 * (l1.length + 1)]? = some m from hm), bind_ok,
        idx_some hb, bind_ok, addUsize_ok (by omega), bind_ok]
      exact push_inv hinv (by simp) hE hdet hn hnd hm hmd hmb (by omega) (by omega)
    · simp only [Bool.not_true, Bool.false_eq_true, if_false]
      refine ⟨v, rfl, ?_, hm, rfl, by omega⟩
      refine skip_inv hinv (dir := .horizontal) (by simp) hm hmb ?_
      intro i1' i2' w' h
      obtain ⟨rfl, rfl, _⟩ := hdet _ _ _ h
      exact ⟨n, hn, hnd⟩
  · simp only [h0, if_false]
    refine ⟨v, rfl, ?_, hm, rfl, by omega⟩
    refine skip_inv hinv (dir := .horizontal) (by simp) hm hmb ?_
    intro i1' i2' w' h
    cases h; omega

theorem stepDiagonal_ok (hinv : Inv l1 l2 c1 c2 d Q v bnd u1 u2 [.diagonal]) :
    StepOk l1 l2 c1 c2 d Q bnd u1 u2 m [] v
      (stepDiagonal Q l1 l2 (l1.length + 1) c1 c2 d u1 u2 v) := by
  have hmc : m.cost ≤ rem l1 l2 c1 c2 u1 u2 :=
    hinv.cost_le _ u1 u2 m (Nat.le_refl _) hu1 hu2 hm (hinv.doneFin _ _ _ hu1 hu2 hm hmd).1
  unfold stepDiagonal
  by_cases h0 : u1 > 0 ∧ u2 > 0
  · simp only [h0, and_self, if_true]
    obtain ⟨i1, rfl⟩ : ∃ k, u1 = k + 1 := ⟨u1 - 1, by omega⟩
    obtain ⟨i2, rfl⟩ : ∃ k, u2 = k + 1 := ⟨u2 - 1, by omega⟩
    have hidx : i1 + 1 + (i2 + 1) * (l1.length + 1) - (l1.length + 1) - 1 =
        i1 + i2 * (l1.length + 1) := by rw [Nat.succ_mul]; omega
    rw [hidx, Nat.add_sub_cancel, Nat.add_sub_cancel]
    obtain ⟨n, hn⟩ := nd_exists hinv.len (show i1 ≤ l1.length by omega)
      (show i2 ≤ l2.length by omega)
    rw [idx_some (show v.node[i1 + i2 * (l1.length + 1)]? = some n from hn), bind_ok]
    have ha : ∃ b, l1[i1]? = some b := ⟨_, List.getElem?_eq_getElem (show i1 < l1.length by omega)⟩
    have hb : ∃ b, l2[i2]? = some b := ⟨_, List.getElem?_eq_getElem (show i2 < l2.length by omega)⟩
    obtain ⟨a, ha⟩ := ha
    obtain ⟨b, hb⟩ := hb
    have hdet : ∀ j1 j2 w', Edge l1 l2 c1 c2 d j1 j2 .diagonal (i1 + 1) (i2 + 1) w' →
        j1 = i1 ∧ j2 = i2 ∧ w' = d a b ∧ d a b < c1 a + c2 b := by
      intro j1 j2 w' h
      cases h with
      | diagonal ha' hb' hc =>
        rw [hb] at hb'; cases hb'; rw [ha] at ha'; cases ha'; exact ⟨rfl, rfl, rfl, hc⟩
    cases hnd : n.done
    · have h2 := rem_le (l1 := l1) (l2 := l2) (c1 := c1) (c2 := c2) i1 i2
      have h3 : c1 a + c2 b ≤ rem l1 l2 c1 c2 i1 i2 := by
        simp only [rem, replaceCost, drop_cons ha, drop_cons hb, List.map_cons, List.sum_cons]
        omega
      simp only [Bool.not_false, if_true]
      rw [idx_some ha, bind_ok, idx_some hb, bind_ok, addUsize_ok (by omega), bind_ok]
      by_cases hlt : d a b < c1 a + c2 b
      · have hE : Edge l1 l2 c1 c2 d i1 i2 .diagonal (i1 + 1) (i2 + 1) (d a b) :=
          .diagonal ha hb hlt
        have h1 := hE.rem_le
        simp only [hlt, if_true]
        rw [idx_some (show v.node[i1 + 1 + (i2 + 1) * (l1.length + 1)]? = some m from hm), bind_ok,
          addUsize_ok (by omega), bind_ok]
        exact push_inv hinv (by simp) hE
          (fun j1 j2 w' h => ⟨(hdet _ _ _ h).1, (hdet _ _ _ h).2.1, (hdet _ _ _ h).2.2.1⟩)
          hn hnd hm hmd hmb (by omega) (by omega)
      · simp only [hlt, if_false]
        refine ⟨v, rfl, ?_, hm, rfl, by omega⟩
        refine skip_inv hinv (dir := .diagonal) (by simp) hm hmb ?_
        intro i1' i2' w' h
        exact absurd (hdet _ _ _ h).2.2.2 hlt
    · simp only [Bool.not_true, Bool.false_eq_true, if_false]
      refine ⟨v, rfl, ?_, hm, rfl, by omega⟩
      refine skip_inv hinv (dir := .diagonal) (by simp) hm hmb ?_
      intro i1' i2' w' h
      obtain ⟨rfl, rfl, _⟩ := hdet _ _ _ h
      exact ⟨n, hn, hnd⟩
  · simp only [h0, if_false]
    refine ⟨v, rfl, ?_, hm, rfl, by omega⟩
    refine skip_inv hinv (dir := .diagonal) (by simp) hm hmb ?_
    intro i1' i2' w' h
    cases h; omega

end
end Verif.Path
