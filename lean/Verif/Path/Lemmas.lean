import Verif.Path.Spec
namespace Verif.Path
open Verif.Merge

variable {α : Type}

/-! ## Outcome plumbing -/

@[simp] theorem bind_ok (a : α) (f : α → Out β) : ((Out.ok a : Out α) >>= f) = f a := rfl

theorem idx_some {l : List α} {i : Nat} {a : α} (h : l[i]? = some a) : idx l i = .ok a := by
  simp [idx, h]

theorem addUsize_ok {a b : Nat} (h : a + b ≤ usizeMax) : addUsize a b = .ok (a + b) := by
  simp [addUsize, h]

/-! ## The two-dimensional view of the node table -/

theorem flat_inj {w i1 i2 j1 j2 : Nat} (hi : i1 < w) (hj : j1 < w)
    (h : i1 + i2 * w = j1 + j2 * w) : i1 = j1 ∧ i2 = j2 := by
  have h1 : i1 = j1 := by
    have := congrArg (· % w) h
    simpa [Nat.add_mul_mod_self_right, Nat.mod_eq_of_lt hi, Nat.mod_eq_of_lt hj] using this
  subst h1
  have hw : 0 < w := by omega
  exact ⟨rfl, Nat.eq_of_mul_eq_mul_right hw (by omega)⟩

theorem flat_lt {n1 n2 i1 i2 : Nat} (h1 : i1 ≤ n1) (h2 : i2 ≤ n2) :
    i1 + i2 * (n1 + 1) < (n1 + 1) * (n2 + 1) := by
  have : i2 * (n1 + 1) ≤ n2 * (n1 + 1) := Nat.mul_le_mul_right _ h2
  have e : (n1 + 1) * (n2 + 1) = n2 * (n1 + 1) + (n1 + 1) := by
    rw [Nat.mul_add, Nat.mul_comm]; omega
  omega

section
variable (l1 l2 : List α) (c1 c2 : α → Nat) (d : α → α → Nat)

/-- The node for the suffixes starting at `i1` and `i2`. -/
def nd (node : List Node) (i1 i2 : Nat) : Option Node := node[i1 + i2 * (l1.length + 1)]?

/-- One move of an alignment at position `(i1, i2)`, its cost and the next position. -/
inductive Edge : Nat → Nat → Direction → Nat → Nat → Nat → Prop
  | vertical {i1 i2 b} : i1 ≤ l1.length → l2[i2]? = some b → Edge i1 i2 .vertical i1 (i2 + 1) (c2 b)
  | horizontal {i1 i2 a} : i2 ≤ l2.length → l1[i1]? = some a → Edge i1 i2 .horizontal (i1 + 1) i2 (c1 a)
  | diagonal {i1 i2 a b} : l1[i1]? = some a → l2[i2]? = some b → d a b < c1 a + c2 b →
      Edge i1 i2 .diagonal (i1 + 1) (i2 + 1) (d a b)

/-- Invariant of the main loop. `u1 u2` is the node being expanded and `pend` the moves not yet
tried from it. -/
structure Inv (Q : Heap) (v : Vars Q) (bnd u1 u2 : Nat) (pend : List Direction) : Prop where
  len : v.node.length = (l1.length + 1) * (l2.length + 1)
  start : ∃ n, nd l1 v.node l1.length l2.length = some n ∧ n.cost = 0 ∧ n.from_ = .none
  back : ∀ i1 i2 n, i1 ≤ l1.length → i2 ≤ l2.length → ¬(i1 = l1.length ∧ i2 = l2.length) →
    nd l1 v.node i1 i2 = some n → n.cost < usizeMax →
    ∃ j1 j2 w m, Edge l1 l2 c1 c2 d i1 i2 n.from_ j1 j2 w ∧ nd l1 v.node j1 j2 = some m ∧
      m.done = true ∧ n.cost = w + m.cost
  doneFin : ∀ i1 i2 n, i1 ≤ l1.length → i2 ≤ l2.length → nd l1 v.node i1 i2 = some n →
    n.done = true → n.cost < usizeMax ∧ n.cost ≤ bnd
  heapB : ∀ x ∈ Q.items v.heap, x.index1 ≤ l1.length ∧ x.index2 ≤ l2.length ∧ bnd ≤ x.cost ∧
    ∃ n, nd l1 v.node x.index1 x.index2 = some n ∧ n.cost ≤ x.cost ∧ n.cost < usizeMax
  heapC : ∀ i1 i2 n, i1 ≤ l1.length → i2 ≤ l2.length → nd l1 v.node i1 i2 = some n →
    n.done = false → n.cost < usizeMax →
    { cost := n.cost, index1 := i1, index2 := i2 } ∈ Q.items v.heap
  relax : ∀ i1 i2 dir j1 j2 w n m, Edge l1 l2 c1 c2 d i1 i2 dir j1 j2 w →
    nd l1 v.node i1 i2 = some n → nd l1 v.node j1 j2 = some m → m.done = true →
    ¬(j1 = u1 ∧ j2 = u2 ∧ dir ∈ pend) → n.cost ≤ w + m.cost
  origin : ∀ n, nd l1 v.node 0 0 = some n → n.done = false

end

section
variable {l1 l2 : List α} {c1 c2 : α → Nat} {d : α → α → Nat}

theorem Edge.bounds {i1 i2 j1 j2 w : Nat} {dir : Direction}
    (h : Edge l1 l2 c1 c2 d i1 i2 dir j1 j2 w) :
    i1 ≤ l1.length ∧ i2 ≤ l2.length ∧ j1 ≤ l1.length ∧ j2 ≤ l2.length ∧
      i1 + i2 < j1 + j2 ∧ i1 ≤ j1 ∧ i2 ≤ j2 := by
  cases h with
  | vertical h0 h =>
    have := (List.getElem?_eq_some_iff.1 h).1
    omega
  | horizontal h0 h =>
    have := (List.getElem?_eq_some_iff.1 h).1
    omega
  | diagonal h1 h2 _ =>
    have := (List.getElem?_eq_some_iff.1 h1).1
    have := (List.getElem?_eq_some_iff.1 h2).1
    omega

theorem nd_set_self {node : List Node} {i1 i2 : Nat} {n x : Node}
    (h : nd l1 node i1 i2 = some n) :
    nd l1 (node.set (i1 + i2 * (l1.length + 1)) x) i1 i2 = some x := by
  unfold nd at *
  have := (List.getElem?_eq_some_iff.1 h).1
  rw [List.getElem?_set_self this]

theorem nd_set_ne {node : List Node} {i1 i2 j1 j2 : Nat} {x : Node}
    (hi : i1 ≤ l1.length) (hj : j1 ≤ l1.length) (h : ¬(j1 = i1 ∧ j2 = i2)) :
    nd l1 (node.set (i1 + i2 * (l1.length + 1)) x) j1 j2 = nd l1 node j1 j2 := by
  unfold nd
  rw [List.getElem?_set_ne]
  intro he
  have := flat_inj (by omega) (by omega) he
  omega

theorem nd_exists {node : List Node} (hl : node.length = (l1.length + 1) * (l2.length + 1))
    {i1 i2 : Nat} (h1 : i1 ≤ l1.length) (h2 : i2 ≤ l2.length) : ∃ n, nd l1 node i1 i2 = some n := by
  unfold nd
  have := flat_lt h1 h2
  exact ⟨_, List.getElem?_eq_getElem (by omega)⟩

/-- Number of nodes not yet expanded. -/
def pending (node : List Node) : Nat := (node.filter (fun n => !n.done)).length

theorem pending_set {node : List Node} {i : Nat} {n x : Node} (h : node[i]? = some n) :
    pending (node.set i x) + (if n.done then 0 else 1) = pending node + (if x.done then 0 else 1) := by
  induction node generalizing i with
  | nil => simp at h
  | cons y ys ih =>
    cases i with
    | zero =>
      simp at h; subst h
      simp only [pending, List.set_cons_zero, List.filter_cons]
      cases y.done <;> cases x.done <;> simp
    | succ i =>
      simp at h
      have := ih h
      simp only [pending, List.set_cons_succ, List.filter_cons] at this ⊢
      cases y.done <;> simp <;> omega

/-- What a call of `push` does to the invariant. -/
theorem push_inv {Q : Heap} {v : Vars Q} {bnd u1 u2 i1 i2 w k : Nat} {dir : Direction}
    {pend pend' : List Direction}
    (hinv : Inv l1 l2 c1 c2 d Q v bnd u1 u2 pend)
    (hp : ∀ x ∈ pend, x ∈ pend' ∨ x = dir)
    (hE : Edge l1 l2 c1 c2 d i1 i2 dir u1 u2 w)
    (hdet : ∀ j1 j2 w', Edge l1 l2 c1 c2 d j1 j2 dir u1 u2 w' → j1 = i1 ∧ j2 = i2 ∧ w' = w)
    {n m : Node} (hn : nd l1 v.node i1 i2 = some n) (hnd : n.done = false)
    (hm : nd l1 v.node u1 u2 = some m) (hmd : m.done = true) (hmb : m.cost = bnd)
    (hk : k = w + m.cost) (hkm : k < usizeMax) :
    ∃ v', push Q v (i1 + i2 * (l1.length + 1)) i1 i2 k dir = .ok v' ∧
      Inv l1 l2 c1 c2 d Q v' bnd u1 u2 pend' ∧
      nd l1 v'.node u1 u2 = some m ∧
      pending v'.node = pending v.node ∧
      (Q.items v'.heap).length ≤ (Q.items v.heap).length + 1 := by
  obtain ⟨b1, b2, b3, b4, b5, b6, b7⟩ := hE.bounds
  have hne : ¬(u1 = i1 ∧ u2 = i2) := by omega
  unfold push
  rw [idx_some (show v.node[i1 + i2 * (l1.length + 1)]? = some n from hn), bind_ok]
  by_cases hlt : k < n.cost
  · simp only [hlt, if_true]
    refine ⟨_, rfl, ?_, ?_, ?_, ?_⟩
    · have hpush := Q.items_push v.heap { cost := k, index1 := i1, index2 := i2 }
      -- the node table after the assignment
      have hself := nd_set_self (x := { n with cost := k, from_ := dir }) hn
      have hother : ∀ j1 j2, j1 ≤ l1.length → ¬(j1 = i1 ∧ j2 = i2) →
          nd l1 (v.node.set (i1 + i2 * (l1.length + 1)) { n with cost := k, from_ := dir }) j1 j2 =
            nd l1 v.node j1 j2 := fun j1 j2 hj h => nd_set_ne b1 hj h
      constructor
      · simpa using hinv.len
      · obtain ⟨s, hs, hs2⟩ := hinv.start
        refine ⟨s, ?_, hs2⟩
        rw [hother _ _ (Nat.le_refl _) (by omega)]; exact hs
      · intro j1 j2 x hj1 hj2 hjn hx hxc
        by_cases hji : j1 = i1 ∧ j2 = i2
        · obtain ⟨rfl, rfl⟩ := hji
          rw [hself] at hx
          cases hx
          exact ⟨u1, u2, w, m, hE, by rw [hother _ _ b3 hne]; exact hm, hmd, hk⟩
        · rw [hother _ _ hj1 hji] at hx
          obtain ⟨q1, q2, w', m', e1, e2, e3, e4⟩ := hinv.back j1 j2 x hj1 hj2 hjn hx hxc
          refine ⟨q1, q2, w', m', e1, ?_, e3, e4⟩
          rw [hother _ _ e1.bounds.2.2.1]; exact e2
          rintro ⟨rfl, rfl⟩
          rw [hn] at e2; cases e2; rw [hnd] at e3; cases e3
      · intro j1 j2 x hj1 hj2 hx hxd
        by_cases hji : j1 = i1 ∧ j2 = i2
        · obtain ⟨rfl, rfl⟩ := hji
          rw [hself] at hx
          cases hx
          simp [hnd] at hxd
        · rw [hother _ _ hj1 hji] at hx
          exact hinv.doneFin j1 j2 x hj1 hj2 hx hxd
      · intro x hx
        rcases List.mem_cons.1 (hpush.mem_iff.1 hx) with rfl | hx
        · exact ⟨b1, b2, by simp; omega, _, hself, Nat.le_refl _, hkm⟩
        · obtain ⟨e1, e2, e3, y, e4, e5, e6⟩ := hinv.heapB x hx
          refine ⟨e1, e2, e3, ?_⟩
          by_cases hji : x.index1 = i1 ∧ x.index2 = i2
          · rw [hji.1, hji.2] at e4 ⊢
            rw [hn] at e4; cases e4
            exact ⟨_, hself, by simp; omega, hkm⟩
          · exact ⟨y, by rw [hother _ _ e1 hji]; exact e4, e5, e6⟩
      · intro j1 j2 x hj1 hj2 hx hxd hxc
        by_cases hji : j1 = i1 ∧ j2 = i2
        · obtain ⟨rfl, rfl⟩ := hji
          rw [hself] at hx
          cases hx
          exact hpush.mem_iff.2 (List.mem_cons_self ..)
        · rw [hother _ _ hj1 hji] at hx
          exact hpush.mem_iff.2 (List.mem_cons_of_mem _ (hinv.heapC j1 j2 x hj1 hj2 hx hxd hxc))
      · intro p1 p2 dir' j1 j2 w' x y hE' hx hy hyd hnp
        have hjne : ¬(j1 = i1 ∧ j2 = i2) := by
          rintro ⟨rfl, rfl⟩
          rw [hself] at hy; cases hy
          simp [hnd] at hyd
        rw [hother _ _ hE'.bounds.2.2.1 hjne] at hy
        by_cases hpi : p1 = i1 ∧ p2 = i2
        · obtain ⟨rfl, rfl⟩ := hpi
          rw [hself] at hx; cases hx
          show k ≤ w' + y.cost
          by_cases hpd : j1 = u1 ∧ j2 = u2 ∧ dir' ∈ pend
          · obtain ⟨rfl, rfl, hd⟩ := hpd
            rcases hp _ hd with hd | rfl
            · exact absurd ⟨rfl, rfl, hd⟩ hnp
            · have := (hdet _ _ _ hE').2.2
              rw [hm] at hy; cases hy
              omega
          · have := hinv.relax _ _ _ _ _ _ _ _ hE' hn hy hyd hpd
            omega
        · rw [hother _ _ hE'.bounds.1 hpi] at hx
          by_cases hpd : j1 = u1 ∧ j2 = u2 ∧ dir' ∈ pend
          · obtain ⟨rfl, rfl, hd⟩ := hpd
            rcases hp _ hd with hd | rfl
            · exact absurd ⟨rfl, rfl, hd⟩ hnp
            · exact absurd ⟨(hdet _ _ _ hE').1, (hdet _ _ _ hE').2.1⟩ hpi
          · exact hinv.relax _ _ _ _ _ _ _ _ hE' hx hy hyd hpd
      · intro x hx
        by_cases hji : 0 = i1 ∧ 0 = i2
        · obtain ⟨rfl, rfl⟩ := hji
          rw [hself] at hx; cases hx
          exact hnd
        · rw [hother _ _ (Nat.zero_le _) hji] at hx
          exact hinv.origin x hx
    · rw [nd_set_ne b1 b3 hne]; exact hm
    · have := pending_set (x := { n with cost := k, from_ := dir }) (show v.node[i1 + i2 * (l1.length + 1)]? = some n from hn)
      simpa [hnd] using this
    · have := (Q.items_push v.heap { cost := k, index1 := i1, index2 := i2 }).length_eq
      simp only [List.length_cons] at this
      exact Nat.le_of_eq this
  · simp only [hlt, if_false]
    refine ⟨_, rfl, ?_, hm, rfl, by omega⟩
    refine { hinv with relax := ?_ }
    intro p1 p2 dir' j1 j2 w' x y hE' hx hy hyd hnp
    by_cases hpd : j1 = u1 ∧ j2 = u2 ∧ dir' ∈ pend
    · obtain ⟨rfl, rfl, hd⟩ := hpd
      rcases hp _ hd with hd | rfl
      · exact absurd ⟨rfl, rfl, hd⟩ hnp
      · obtain ⟨rfl, rfl, rfl⟩ := hdet _ _ _ hE'
        rw [hm] at hy; cases hy
        rw [hn] at hx; cases hx
        omega
    · exact hinv.relax _ _ _ _ _ _ _ _ hE' hx hy hyd hpd

/-- Skipping a move keeps the invariant when the target is already expanded or there is no such
move. -/
theorem skip_inv {Q : Heap} {v : Vars Q} {bnd u1 u2 : Nat} {dir : Direction}
    {pend pend' : List Direction}
    (hinv : Inv l1 l2 c1 c2 d Q v bnd u1 u2 pend)
    (hp : ∀ x ∈ pend, x ∈ pend' ∨ x = dir)
    {m : Node} (hm : nd l1 v.node u1 u2 = some m) (hmb : m.cost = bnd)
    (hskip : ∀ i1 i2 w, Edge l1 l2 c1 c2 d i1 i2 dir u1 u2 w →
      ∃ n, nd l1 v.node i1 i2 = some n ∧ n.done = true) :
    Inv l1 l2 c1 c2 d Q v bnd u1 u2 pend' := by
  refine { hinv with relax := ?_ }
  intro p1 p2 dir' j1 j2 w' x y hE' hx hy hyd hnp
  by_cases hpd : j1 = u1 ∧ j2 = u2 ∧ dir' ∈ pend
  · obtain ⟨rfl, rfl, hd⟩ := hpd
    rcases hp _ hd with hd | rfl
    · exact absurd ⟨rfl, rfl, hd⟩ hnp
    · obtain ⟨n, hn, hnd⟩ := hskip _ _ _ hE'
      rw [hn] at hx; cases hx
      have := (hinv.doneFin _ _ _ hE'.bounds.1 hE'.bounds.2.1 hn hnd).2
      rw [hm] at hy; cases hy
      omega
  · exact hinv.relax _ _ _ _ _ _ _ _ hE' hx hy hyd hpd

end
end Verif.Path
