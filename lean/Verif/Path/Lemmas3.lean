import Verif.Path.Lemmas2
namespace Verif.Path
open Verif.Merge

variable {α : Type} {l1 l2 : List α} {c1 c2 : α → Nat} {d : α → α → Nat}

/-- A sequence of moves from `(i1, i2)` to the ends of both lists. -/
inductive Walk (l1 l2 : List α) (c1 c2 : α → Nat) (d : α → α → Nat) :
    Nat → Nat → List Direction → Nat → Prop
  | nil : Walk l1 l2 c1 c2 d l1.length l2.length [] 0
  | cons {i1 i2 dir j1 j2 w p c} : Edge l1 l2 c1 c2 d i1 i2 dir j1 j2 w →
      Walk l1 l2 c1 c2 d j1 j2 p c → Walk l1 l2 c1 c2 d i1 i2 (dir :: p) (w + c)

theorem backtrack_ok {Q : Heap} {v : Vars Q} {bnd u1 u2 : Nat} {pend : List Direction}
    (hinv : Inv l1 l2 c1 c2 d Q v bnd u1 u2 pend) :
    ∀ k i1 i2 n fuel acc, l1.length + l2.length - (i1 + i2) ≤ k → i1 ≤ l1.length →
      i2 ≤ l2.length → nd l1 v.node i1 i2 = some n → n.cost < usizeMax → k + 1 ≤ fuel →
      ∃ p, backtrack v.node (l1.length + 1) fuel i1 i2 acc = .ok (acc ++ p) ∧
        Walk l1 l2 c1 c2 d i1 i2 p n.cost := by
  intro k
  have hend : ∀ n fuel acc, nd l1 v.node l1.length l2.length = some n → 1 ≤ fuel →
      ∃ p, backtrack v.node (l1.length + 1) fuel l1.length l2.length acc = .ok (acc ++ p) ∧
        Walk l1 l2 c1 c2 d l1.length l2.length p n.cost := by
    intro n fuel acc hn hf
    obtain ⟨s, hs, hs2, hs3⟩ := hinv.start
    rw [hs] at hn
    obtain rfl : s = n := by simpa using hn
    obtain ⟨f, rfl⟩ : ∃ f, fuel = f + 1 := ⟨fuel - 1, by omega⟩
    refine ⟨[], ?_, ?_⟩
    · rw [backtrack, idx_some (show v.node[l1.length + l2.length * (l1.length + 1)]? = some s from hs),
        bind_ok, hs3]
      simp
    · rw [hs2]; exact .nil
  induction k with
  | zero =>
    intro i1 i2 n fuel acc hk h1 h2 hn hc hf
    have : i1 = l1.length := by omega
    have : i2 = l2.length := by omega
    subst i1 i2
    exact hend n fuel acc hn hf
  | succ k ih =>
    intro i1 i2 n fuel acc hk h1 h2 hn hc hf
    by_cases he : i1 = l1.length ∧ i2 = l2.length
    · obtain ⟨rfl, rfl⟩ := he
      exact hend n fuel acc hn (by omega)
    · obtain ⟨j1, j2, w, m, e1, e2, e3, e4⟩ := hinv.back i1 i2 n h1 h2 he hn hc
      have hb := e1.bounds
      obtain ⟨f, rfl⟩ : ∃ f, fuel = f + 1 := ⟨fuel - 1, by omega⟩
      have hih := fun acc => ih j1 j2 m f acc (by omega) hb.2.2.1 hb.2.2.2.1 e2
        (hinv.doneFin _ _ _ hb.2.2.1 hb.2.2.2.1 e2 e3).1 (by omega)
      rw [backtrack, idx_some (show v.node[i1 + i2 * (l1.length + 1)]? = some n from hn), bind_ok]
      rw [e4]
      obtain ⟨nc, nf, ndone⟩ := n
      simp only at e1 ⊢
      cases e1 with
      | vertical g1 g2 =>
        obtain ⟨p, hp, hw⟩ := hih (acc ++ [.vertical])
        exact ⟨.vertical :: p, by rw [hp]; simp, .cons (.vertical g1 g2) hw⟩
      | horizontal g1 g2 =>
        obtain ⟨p, hp, hw⟩ := hih (acc ++ [.horizontal])
        exact ⟨.horizontal :: p, by rw [hp]; simp, .cons (.horizontal g1 g2) hw⟩
      | diagonal g1 g2 g3 =>
        obtain ⟨p, hp, hw⟩ := hih (acc ++ [.diagonal])
        exact ⟨.diagonal :: p, by rw [hp]; simp, .cons (.diagonal g1 g2 g3) hw⟩

/-- The frontier argument: the cost of any walk is at least the cost stored in an expanded
node, or at least the least cost in the heap. -/
theorem walk_bound {Q : Heap} {v : Vars Q} {bnd u1 u2 : Nat}
    (hinv : Inv l1 l2 c1 c2 d Q v bnd u1 u2 [])
    (htot : replaceCost c1 c2 l1 l2 < usizeMax)
    {c : Nat} (hc : ∀ x ∈ Q.items v.heap, c ≤ x.cost)
    {i1 i2 : Nat} {p : List Direction} {C : Nat} (hw : Walk l1 l2 c1 c2 d i1 i2 p C) :
    (∃ n, nd l1 v.node i1 i2 = some n ∧ n.done = true ∧ n.cost ≤ C) ∨ c ≤ C := by
  induction hw with
  | nil =>
    obtain ⟨s, hs, hs2, hs3⟩ := hinv.start
    cases hsd : s.done
    · right
      have := hc _ (hinv.heapC _ _ s (Nat.le_refl _) (Nat.le_refl _) hs hsd (by
        rw [hs2]; unfold usizeMax; omega))
      simp only [hs2] at this; exact this
    · exact .inl ⟨s, hs, hsd, by omega⟩
  | @cons i1 i2 dir j1 j2 w p C hE hw ih =>
    rcases ih with ⟨m, hm, hmd, hmc⟩ | ih
    · have hb := hE.bounds
      obtain ⟨n, hn⟩ := nd_exists hinv.len hb.1 hb.2.1
      have hr := hinv.relax _ _ _ _ _ _ _ _ hE hn hm hmd (by simp)
      cases hnd : n.done
      · right
        have h1 := hinv.cost_le _ j1 j2 m (Nat.le_refl _) hb.2.2.1 hb.2.2.2.1 hm
          (hinv.doneFin _ _ _ hb.2.2.1 hb.2.2.2.1 hm hmd).1
        have h2 := hE.rem_le
        have h3 := rem_le (l1 := l1) (l2 := l2) (c1 := c1) (c2 := c2) i1 i2
        have := hc _ (hinv.heapC _ _ n hb.1 hb.2.1 hn hnd (by omega))
        simp only at this
        omega
      · exact .inl ⟨n, hn, hnd, by omega⟩
    · exact .inr (by omega)

/-- Deleting and adding everything is a walk. -/
theorem walk_exists (i1 i2 : Nat) (h1 : i1 ≤ l1.length) (h2 : i2 ≤ l2.length) :
    ∃ p C, Walk l1 l2 c1 c2 d i1 i2 p C := by
  suffices ∀ k i1 i2, l1.length + l2.length - (i1 + i2) ≤ k → i1 ≤ l1.length → i2 ≤ l2.length →
      ∃ p C, Walk l1 l2 c1 c2 d i1 i2 p C from this _ i1 i2 (Nat.le_refl _) h1 h2
  intro k
  induction k with
  | zero =>
    intro i1 i2 hk h1 h2
    have : i1 = l1.length := by omega
    have : i2 = l2.length := by omega
    subst i1 i2
    exact ⟨_, _, .nil⟩
  | succ k ih =>
    intro i1 i2 hk h1 h2
    by_cases h : i1 < l1.length
    · obtain ⟨p, C, hw⟩ := ih (i1 + 1) i2 (by omega) (by omega) h2
      exact ⟨_, _, .cons (.horizontal h2 (List.getElem?_eq_getElem h)) hw⟩
    · by_cases h' : i2 < l2.length
      · obtain ⟨p, C, hw⟩ := ih i1 (i2 + 1) (by omega) h1 (by omega)
        exact ⟨_, _, .cons (.vertical h1 (List.getElem?_eq_getElem h')) hw⟩
      · have : i1 = l1.length := by omega
        have : i2 = l2.length := by omega
        subst i1 i2
        exact ⟨_, _, .nil⟩

/-- Popping an entry of an expanded node keeps the invariant. -/
theorem pop_done_inv {Q : Heap} {v : Vars Q} {bnd u1 u2 : Nat} {x : HState} {h' : Q.H}
    (hinv : Inv l1 l2 c1 c2 d Q v bnd u1 u2 [])
    (hpop : (Q.items v.heap).Perm (x :: Q.items h'))
    {n : Node} (hn : nd l1 v.node x.index1 x.index2 = some n) (hnd : n.done = true) :
    Inv l1 l2 c1 c2 d Q { v with heap := h' } bnd u1 u2 [] := by
  refine { hinv with heapB := ?_, heapC := ?_ }
  · intro y hy
    exact hinv.heapB y (hpop.mem_iff.2 (List.mem_cons_of_mem _ hy))
  · intro i1 i2 m h1 h2 hm hmd hmc
    rcases List.mem_cons.1 (hpop.mem_iff.1 (hinv.heapC i1 i2 m h1 h2 hm hmd hmc)) with he | he
    · subst he
      simp only at hn
      rw [show nd l1 v.node i1 i2 = some m from hm] at hn
      cases hn; rw [hnd] at hmd; cases hmd
    · exact he

/-- Popping the entry of a node and marking it as expanded. -/
theorem mark_inv {Q : Heap} {v : Vars Q} {bnd u1 u2 : Nat} {x : HState} {h' : Q.H}
    (hinv : Inv l1 l2 c1 c2 d Q v bnd u1 u2 [])
    (hpop : (Q.items v.heap).Perm (x :: Q.items h'))
    (hmin : ∀ y ∈ Q.items v.heap, x.cost ≤ y.cost)
    (h0 : ¬(x.index1 = 0 ∧ x.index2 = 0))
    {n : Node} (hn : nd l1 v.node x.index1 x.index2 = some n) (hnd : n.done = false) :
    n.cost = x.cost ∧
    Inv l1 l2 c1 c2 d Q
      { node := v.node.set (x.index1 + x.index2 * (l1.length + 1)) { n with done := true },
        heap := h' } x.cost x.index1 x.index2 [.vertical, .horizontal, .diagonal] := by
  have hxmem : x ∈ Q.items v.heap := hpop.mem_iff.2 (List.mem_cons_self ..)
  obtain ⟨b1, b2, b3, n', e1, e2, e3⟩ := hinv.heapB x hxmem
  rw [hn] at e1; cases e1
  have hcost : n.cost = x.cost := by
    have := hmin _ (hinv.heapC _ _ n b1 b2 hn hnd e3)
    simp only at this; omega
  refine ⟨hcost, ?_⟩
  have hself := nd_set_self (x := { n with done := true }) hn
  have hother : ∀ j1 j2, j1 ≤ l1.length → ¬(j1 = x.index1 ∧ j2 = x.index2) →
      nd l1 (v.node.set (x.index1 + x.index2 * (l1.length + 1)) { n with done := true }) j1 j2 =
        nd l1 v.node j1 j2 := fun j1 j2 hj h => nd_set_ne b1 hj h
  -- every node keeps its cost and direction
  have hview : ∀ j1 j2 y, j1 ≤ l1.length →
      nd l1 (v.node.set (x.index1 + x.index2 * (l1.length + 1)) { n with done := true }) j1 j2 =
        some y → ∃ z, nd l1 v.node j1 j2 = some z ∧ z.cost = y.cost ∧ z.from_ = y.from_ ∧
          ((j1 = x.index1 ∧ j2 = x.index2 ∧ y.done = true) ∨ z = y) := by
    intro j1 j2 y hj hy
    by_cases hji : j1 = x.index1 ∧ j2 = x.index2
    · obtain ⟨rfl, rfl⟩ := hji
      rw [hself] at hy; cases hy
      exact ⟨n, hn, rfl, rfl, .inl ⟨rfl, rfl, rfl⟩⟩
    · rw [hother _ _ hj hji] at hy
      exact ⟨y, hy, rfl, rfl, .inr rfl⟩
  have hview' : ∀ j1 j2 z, j1 ≤ l1.length → nd l1 v.node j1 j2 = some z → ∃ y,
      nd l1 (v.node.set (x.index1 + x.index2 * (l1.length + 1)) { n with done := true }) j1 j2 =
        some y ∧ y.cost = z.cost ∧ y.from_ = z.from_ ∧ (z.done = true → y.done = true) := by
    intro j1 j2 z hj hz
    by_cases hji : j1 = x.index1 ∧ j2 = x.index2
    · obtain ⟨rfl, rfl⟩ := hji
      rw [hn] at hz; cases hz
      exact ⟨_, hself, rfl, rfl, fun _ => rfl⟩
    · exact ⟨z, by rw [hother _ _ hj hji]; exact hz, rfl, rfl, id⟩
  constructor
  · simpa using hinv.len
  · obtain ⟨s, hs, hs2, hs3⟩ := hinv.start
    obtain ⟨y, hy, hy2, hy3, _⟩ := hview' _ _ s (Nat.le_refl _) hs
    exact ⟨y, hy, by omega, by rw [hy3, hs3]⟩
  · intro i1 i2 y h1 h2 hne hy hyc
    obtain ⟨z, hz, hz1, hz2, _⟩ := hview _ _ y h1 hy
    obtain ⟨j1, j2, w, m, e1, e2, e3, e4⟩ := hinv.back i1 i2 z h1 h2 hne hz (by omega)
    obtain ⟨m', hm', hm1, _, hm2⟩ := hview' _ _ m e1.bounds.2.2.1 e2
    exact ⟨j1, j2, w, m', by rw [← hz2]; exact e1, hm', hm2 e3, by omega⟩
  · intro i1 i2 y h1 h2 hy hyd
    obtain ⟨z, hz, hz1, hz2, h | h⟩ := hview _ _ y h1 hy
    · obtain ⟨rfl, rfl, _⟩ := h
      rw [hn] at hz; cases hz
      exact ⟨by omega, by omega⟩
    · subst h
      have := hinv.doneFin _ _ _ h1 h2 hz hyd
      omega
  · intro y hy
    have hy' := hpop.mem_iff.2 (List.mem_cons_of_mem x hy)
    obtain ⟨g1, g2, g3, m, g4, g5, g6⟩ := hinv.heapB y hy'
    obtain ⟨m', hm', hm1, _, _⟩ := hview' _ _ m g1 g4
    exact ⟨g1, g2, hmin y hy', m', hm', by omega, by omega⟩
  · intro i1 i2 y h1 h2 hy hyd hyc
    obtain ⟨z, hz, hz1, hz2, h | h⟩ := hview _ _ y h1 hy
    · rw [hyd] at h; cases h.2.2
    · subst h
      rcases List.mem_cons.1 (hpop.mem_iff.1 (hinv.heapC i1 i2 z h1 h2 hz hyd hyc)) with he | he
      · subst he
        simp only at hn hself hy
        rw [hself] at hy; cases hy; cases hyd
      · exact he
  · intro i1 i2 dir j1 j2 w y m hE hy hm hmd hnp
    obtain ⟨z, hz, hz1, hz2, _⟩ := hview _ _ y hE.bounds.1 hy
    obtain ⟨q, hq, hq1, hq2, h | h⟩ := hview _ _ m hE.bounds.2.2.1 hm
    · exfalso
      apply hnp
      refine ⟨h.1, h.2.1, ?_⟩
      cases hE <;> simp
    · subst h
      have := hinv.relax _ _ _ _ _ _ _ _ hE hz hq hmd (by simp)
      omega
  · intro y hy
    obtain ⟨z, hz, hz1, hz2, h | h⟩ := hview _ _ y (Nat.zero_le _) hy
    · exact absurd ⟨h.1.symm, h.2.1.symm⟩ h0
    · subst h
      exact hinv.origin _ hz

theorem pending_mark {node : List Node} {i : Nat} {n : Node} (h : node[i]? = some n)
    (hnd : n.done = false) : pending (node.set i { n with done := true }) + 1 = pending node := by
  have := pending_set (x := { n with done := true }) h
  simp [hnd] at this; omega

/-- The main loop returns an optimal walk. -/
theorem mainLoop_ok {Q : Heap} (htot : replaceCost c1 c2 l1 l2 < usizeMax) :
    ∀ fuel (v : Vars Q) bnd u1 u2, Inv l1 l2 c1 c2 d Q v bnd u1 u2 [] →
      (Q.items v.heap).length + 4 * pending v.node + (l1.length + l2.length + 2) ≤ fuel →
      ∃ p C, mainLoop Q l1 l2 c1 c2 d fuel v = .ok p ∧ Walk l1 l2 c1 c2 d 0 0 p C ∧
        ∀ p' C', Walk l1 l2 c1 c2 d 0 0 p' C' → C ≤ C' := by
  intro fuel
  induction fuel with
  | zero => intro v bnd u1 u2 _ h; omega
  | succ fuel ih =>
    intro v bnd u1 u2 hinv hf
    rw [mainLoop]
    obtain ⟨o, ho⟩ := nd_exists hinv.len (Nat.zero_le _) (Nat.zero_le _)
    have hod := hinv.origin o ho
    obtain ⟨p0, C0, hw0⟩ := walk_exists (l1 := l1) (l2 := l2) (c1 := c1) (c2 := c2) (d := d) 0 0
      (Nat.zero_le _) (Nat.zero_le _)
    cases hp : Q.pop v.heap with
    | none =>
      -- the heap cannot be empty
      exfalso
      have hnil := Q.pop_none _ hp
      rcases walk_bound hinv htot (c := C0 + 1) (by rw [hnil]; simp) hw0 with ⟨n, hn, hnd, _⟩ | h
      · rw [ho] at hn; cases hn; rw [hod] at hnd; cases hnd
      · omega
    | some r =>
      obtain ⟨x, h'⟩ := r
      obtain ⟨hperm, hmin⟩ := Q.pop_some _ _ _ hp
      have hlen := hperm.length_eq
      simp only [List.length_cons] at hlen
      have hxmem : x ∈ Q.items v.heap := hperm.mem_iff.2 (List.mem_cons_self ..)
      obtain ⟨b1, b2, b3, n, hn, e2, e3⟩ := hinv.heapB x hxmem
      simp only
      by_cases h0 : x.index1 = 0 ∧ x.index2 = 0
      · simp only [h0, and_self, if_true]
        rw [h0.1, h0.2, ho] at hn; cases hn
        obtain ⟨p, hpath, hw⟩ := backtrack_ok hinv (l1.length + l2.length) 0 0 o fuel []
          (by omega) (Nat.zero_le _) (Nat.zero_le _) ho e3 (by omega)
        refine ⟨p, o.cost, by simpa using hpath, hw, ?_⟩
        intro p' C' hw'
        have hmin' : ∀ y ∈ Q.items v.heap, o.cost ≤ y.cost := fun y hy => by
          have := hmin y hy; omega
        rcases walk_bound hinv htot hmin' hw' with ⟨n, hn, hnd, _⟩ | h
        · rw [ho] at hn; cases hn; rw [hod] at hnd; cases hnd
        · exact h
      · simp only [h0, if_false]
        rw [idx_some (show v.node[x.index1 + x.index2 * (l1.length + 1)]? = some n from hn), bind_ok]
        cases hnd : n.done
        · simp only [Bool.false_eq_true, if_false]
          obtain ⟨hc, hmark⟩ := mark_inv hinv hperm hmin h0 hn hnd
          have hself := nd_set_self (x := { n with done := true }) hn
          have hpm := pending_mark
            (show v.node[x.index1 + x.index2 * (l1.length + 1)]? = some n from hn) hnd
          obtain ⟨v1, r1, i1, m1, q1, s1⟩ := stepVertical_ok (m := { n with done := true }) b1 b2 hself rfl hc htot hmark
          rw [r1, bind_ok]
          obtain ⟨v2, r2, i2, m2, q2, s2⟩ := stepHorizontal_ok b1 b2 m1 rfl hc htot i1
          rw [r2, bind_ok]
          obtain ⟨v3, r3, i3, m3, q3, s3⟩ := stepDiagonal_ok b1 b2 m2 rfl hc htot i2
          rw [r3, bind_ok]
          apply ih v3 _ _ _ i3
          simp only at q1 s1
          omega
        · simp only [if_true]
          apply ih _ _ _ _ (pop_done_inv hinv hperm hn hnd)
          simp only
          omega

/-- The initial state satisfies the invariant. -/
theorem init_inv (Q : Heap) (l1 l2 : List α) (c1 c2 : α → Nat) (d : α → α → Nat) :
    ∃ v, push Q
        { node := List.replicate ((l1.length + 1) * (l2.length + 1))
            { cost := usizeMax, from_ := .none, done := false }
          heap := Q.empty }
        ((l1.length + 1) * (l2.length + 1) - 1) l1.length l2.length 0 .none = .ok v ∧
      Inv l1 l2 c1 c2 d Q v 0 0 0 [] ∧
      pending v.node ≤ (l1.length + 1) * (l2.length + 1) ∧ (Q.items v.heap).length = 1 := by
  have hflat : (l1.length + 1) * (l2.length + 1) - 1 =
      l1.length + l2.length * (l1.length + 1) := by
    rw [Nat.mul_add, Nat.mul_comm]; omega
  have hlt := flat_lt (Nat.le_refl l1.length) (Nat.le_refl l2.length)
  have hrep : ∀ i1 i2 n, nd l1 (List.replicate ((l1.length + 1) * (l2.length + 1))
      { cost := usizeMax, from_ := .none, done := false }) i1 i2 = some n →
      n = { cost := usizeMax, from_ := .none, done := false } := by
    intro i1 i2 n h
    unfold nd at h
    rw [List.getElem?_replicate] at h
    split at h <;> simp_all
  have hlast : nd l1 (List.replicate ((l1.length + 1) * (l2.length + 1))
      { cost := usizeMax, from_ := .none, done := false }) l1.length l2.length =
      some { cost := usizeMax, from_ := .none, done := false } := by
    unfold nd
    rw [List.getElem?_replicate]; simp [hlt]
  unfold push
  rw [hflat, idx_some (show (List.replicate _ _)[l1.length + l2.length * (l1.length + 1)]? = _ from hlast), bind_ok]
  have hM : 0 < usizeMax := by unfold usizeMax; omega
  simp only [hM, if_true]
  have hself := nd_set_self (x := { cost := 0, from_ := .none, done := false }) hlast
  have hpush := Q.items_push Q.empty { cost := 0, index1 := l1.length, index2 := l2.length }
  rw [Q.items_empty] at hpush
  have hview : ∀ j1 j2 y, j1 ≤ l1.length →
      nd l1 ((List.replicate ((l1.length + 1) * (l2.length + 1))
      { cost := usizeMax, from_ := .none, done := false : Node }).set (l1.length + l2.length * (l1.length + 1))
        { cost := 0, from_ := .none, done := false }) j1 j2 = some y →
      (j1 = l1.length ∧ j2 = l2.length ∧ y = { cost := 0, from_ := .none, done := false }) ∨
        y = { cost := usizeMax, from_ := .none, done := false } := by
    intro j1 j2 y hj hy
    by_cases h : j1 = l1.length ∧ j2 = l2.length
    · obtain ⟨rfl, rfl⟩ := h
      rw [hself] at hy; cases hy
      exact .inl ⟨rfl, rfl, rfl⟩
    · rw [nd_set_ne (Nat.le_refl _) hj h] at hy
      exact .inr (hrep _ _ _ hy)
  refine ⟨_, rfl, ?_, ?_, ?_⟩
  · constructor
    · simp
    · exact ⟨_, hself, rfl, rfl⟩
    · intro i1 i2 n h1 h2 hne hn hc
      rcases hview _ _ _ h1 hn with ⟨g1, g2, _⟩ | rfl
      · exact absurd ⟨g1, g2⟩ hne
      · simp at hc
    · intro i1 i2 n h1 h2 hn hd
      rcases hview _ _ _ h1 hn with ⟨_, _, rfl⟩ | rfl <;> simp at hd
    · intro x hx
      have hx := hpush.mem_iff.1 hx
      simp only [List.mem_singleton] at hx
      subst hx
      exact ⟨Nat.le_refl _, Nat.le_refl _, Nat.zero_le _, _, hself, Nat.le_refl _, hM⟩
    · intro i1 i2 n h1 h2 hn hd hc
      rcases hview _ _ _ h1 hn with ⟨rfl, rfl, rfl⟩ | rfl
      · exact hpush.mem_iff.2 (by simp)
      · simp at hc
    · intro i1 i2 dir j1 j2 w n m hE hn hm hmd
      rcases hview _ _ _ hE.bounds.2.2.1 hm with ⟨_, _, rfl⟩ | rfl <;> simp at hmd
    · intro n hn
      rcases hview _ _ _ (Nat.zero_le _) hn with ⟨_, _, rfl⟩ | rfl <;> rfl
  · refine Nat.le_trans (List.length_filter_le _ _) ?_
    simp
  · have := hpush.length_eq
    simpa using this

/-- `shortest_path` returns an optimal walk. -/
theorem shortestPath_ok (Q : Heap) (l1 l2 : List α) (c1 c2 : α → Nat) (d : α → α → Nat)
    (htot : replaceCost c1 c2 l1 l2 < usizeMax) (fuel : Nat) (hf : enoughFuel l1 l2 ≤ fuel) :
    ∃ p C, shortestPath Q l1 l2 c1 c2 d fuel = .ok p ∧ Walk l1 l2 c1 c2 d 0 0 p C ∧
      ∀ p' C', Walk l1 l2 c1 c2 d 0 0 p' C' → C ≤ C' := by
  obtain ⟨v, hv, hinv, hp, hi⟩ := init_inv Q l1 l2 c1 c2 d
  unfold shortestPath
  simp only [Nat.add_sub_cancel]
  rw [hv, bind_ok]
  apply mainLoop_ok htot _ _ _ _ _ hinv
  rw [hi]
  unfold enoughFuel at hf
  have e : (l1.length + 1) * (l2.length + 1) = l1.length * l2.length + l1.length + l2.length + 1 := by
    rw [Nat.mul_add, Nat.add_mul]; omega
  omega

/-! ## Walks and alignments -/

theorem walk_alignment {i1 i2 : Nat} {p : List Direction} {C : Nat}
    (hw : Walk l1 l2 c1 c2 d i1 i2 p C) :
    IsAlignment c1 c2 d (l1.drop i1) (l2.drop i2) (listItems p (l1.drop i1) (l2.drop i2)) ∧
      totalCost c1 c2 d (listItems p (l1.drop i1) (l2.drop i2)) = C := by
  induction hw with
  | nil =>
    simp only [List.drop_length, listItems]
    exact ⟨⟨rfl, rfl, by simp⟩, rfl⟩
  | @cons i1 i2 dir j1 j2 w p C hE hw ih =>
    obtain ⟨⟨h1, h2, h3⟩, h4⟩ := ih
    cases hE with
    | @vertical b h0 h =>
      rw [drop_cons h]
      have e : listItems (.vertical :: p) (l1.drop i1) (b :: l2.drop (i2 + 1)) =
          .right b :: listItems p (l1.drop i1) (l2.drop (i2 + 1)) := by
        cases l1.drop i1 <;> rfl
      rw [e]
      refine ⟨⟨?_, ?_, ?_⟩, ?_⟩
      · simp only [oldItems, List.filterMap_cons, oldItem]; rw [show List.filterMap oldItem _ = _ from h1]
      · simp only [newItems, List.filterMap_cons, newItem]; rw [show List.filterMap newItem _ = _ from h2]
      · intro a b' hab; simp at hab; exact h3 a b' hab
      · simp only [totalCost, List.map_cons, List.sum_cons, itemCost] at h4 ⊢; omega
    | @horizontal a h0 h =>
      rw [drop_cons h]
      have e : listItems (.horizontal :: p) (a :: l1.drop (i1 + 1)) (l2.drop i2) =
          .left a :: listItems p (l1.drop (i1 + 1)) (l2.drop i2) := rfl
      rw [e]
      refine ⟨⟨?_, ?_, ?_⟩, ?_⟩
      · simp only [oldItems, List.filterMap_cons, oldItem]; rw [show List.filterMap oldItem _ = _ from h1]
      · simp only [newItems, List.filterMap_cons, newItem]; rw [show List.filterMap newItem _ = _ from h2]
      · intro a b' hab; simp at hab; exact h3 a b' hab
      · simp only [totalCost, List.map_cons, List.sum_cons, itemCost] at h4 ⊢; omega
    | @diagonal a b ha hb hlt =>
      rw [drop_cons ha, drop_cons hb]
      have e : listItems (.diagonal :: p) (a :: l1.drop (i1 + 1)) (b :: l2.drop (i2 + 1)) =
          .both a b :: listItems p (l1.drop (i1 + 1)) (l2.drop (i2 + 1)) := rfl
      rw [e]
      refine ⟨⟨?_, ?_, ?_⟩, ?_⟩
      · simp only [oldItems, List.filterMap_cons, oldItem]; rw [show List.filterMap oldItem _ = _ from h1]
      · simp only [newItems, List.filterMap_cons, newItem]; rw [show List.filterMap newItem _ = _ from h2]
      · intro a' b' hab
        simp at hab
        rcases hab with ⟨rfl, rfl⟩ | hab
        · exact hlt
        · exact h3 a' b' hab
      · simp only [totalCost, List.map_cons, List.sum_cons, itemCost] at h4 ⊢; omega

theorem getElem?_of_drop {l : List α} {i : Nat} {a : α} {t : List α} (h : l.drop i = a :: t) :
    l[i]? = some a ∧ l.drop (i + 1) = t := by
  constructor
  · have := congrArg (·[0]?) h
    simpa using this
  · rw [← List.drop_drop, h]; rfl

theorem alignment_walk (items : List (MergeResult α α)) :
    ∀ i1 i2, i1 ≤ l1.length → i2 ≤ l2.length →
      IsAlignment c1 c2 d (l1.drop i1) (l2.drop i2) items →
      ∃ p, Walk l1 l2 c1 c2 d i1 i2 p (totalCost c1 c2 d items) := by
  induction items with
  | nil =>
    intro i1 i2 h1 h2 ⟨h3, h4, _⟩
    have : i1 = l1.length := by
      have := congrArg List.length h3; simp [oldItems] at this; omega
    have : i2 = l2.length := by
      have := congrArg List.length h4; simp [newItems] at this; omega
    subst i1 i2
    exact ⟨[], .nil⟩
  | cons x items ih =>
    intro i1 i2 h1 h2 ⟨h3, h4, h5⟩
    cases x with
    | left a =>
      obtain ⟨g1, g2⟩ := getElem?_of_drop (show l1.drop i1 = a :: oldItems items from h3.symm)
      obtain ⟨p, hp⟩ := ih (i1 + 1) i2 (List.getElem?_eq_some_iff.1 g1).1 h2
        ⟨g2.symm, h4, fun a b h => h5 a b (List.mem_cons_of_mem _ h)⟩
      exact ⟨_, .cons (.horizontal h2 g1) hp⟩
    | right b =>
      obtain ⟨g1, g2⟩ := getElem?_of_drop (show l2.drop i2 = b :: newItems items from h4.symm)
      obtain ⟨p, hp⟩ := ih i1 (i2 + 1) h1 (List.getElem?_eq_some_iff.1 g1).1
        ⟨h3, g2.symm, fun a b h => h5 a b (List.mem_cons_of_mem _ h)⟩
      exact ⟨_, .cons (.vertical h1 g1) hp⟩
    | both a b =>
      obtain ⟨g1, g2⟩ := getElem?_of_drop (show l1.drop i1 = a :: oldItems items from h3.symm)
      obtain ⟨g3, g4⟩ := getElem?_of_drop (show l2.drop i2 = b :: newItems items from h4.symm)
      obtain ⟨p, hp⟩ := ih (i1 + 1) (i2 + 1) (List.getElem?_eq_some_iff.1 g1).1
        (List.getElem?_eq_some_iff.1 g3).1
        ⟨g2.symm, g4.symm, fun a b h => h5 a b (List.mem_cons_of_mem _ h)⟩
      exact ⟨_, .cons (.diagonal g1 g3 (h5 a b (List.mem_cons_self ..))) hp⟩

end Verif.Path
