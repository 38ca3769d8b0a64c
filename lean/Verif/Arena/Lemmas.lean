import Verif.Arena.Spec

/-!
# Invariant of the arena
-/

namespace Verif.Arena

/-! ## Memory -/

theorem Mem.set_eq (m : Mem) (p : Addr) (v) : m.set p v p = v := by simp [Mem.set]
theorem Mem.set_ne (m : Mem) {p q : Addr} (v) (h : q ≠ p) : m.set p v q = m q := by simp [Mem.set, h]

def dataOf : Block → Option Data
  | .bytes b => some (.bytes b)
  | .relocs r => some (.relocs r)
  | _ => none

/-- A block fits a handle of a list. -/
def Fits : Kind → Handle → Block → Prop
  | .relocations, _, .relocs _ => True
  | .buffers, h, .bytes b => b.length = h.len
  | .strings, h, .bytes b => b.length = h.len
  | _, _, _ => False

theorem Fits.data {k h b} (f : Fits k h b) : ∃ d, dataOf b = some d := by
  cases k <;> cases b <;> simp_all [Fits, dataOf]

theorem Fits.read {k h b d} {m : Mem} {o} (f : Fits k h b) (hm : m h.ptr = some (o, b))
    (hd : dataOf b = some d) : read m (refOf k h) = some d := by
  cases k <;> cases b <;> simp_all [Fits, dataOf, refOf, Arena.read]
  · rw [← f]; simpa using hd
  · rw [← f]; simpa using hd

def Ref.ptr : Ref → Addr
  | .slice p _ _ => p
  | .box p => p

theorem refOf_ptr (k h) : (refOf k h).ptr = h.ptr := by cases k <;> rfl

def Lasting (o : Owner) : Prop := o = .arena ∨ o = .map

/-- Readable, and in a block that lasts. -/
def Safe (m : Mem) (r : Ref) (d : Data) : Prop :=
  read m r = some d ∧ ∃ o b, m r.ptr = some (o, b) ∧ Lasting o

/-- Blocks of data that last are kept. -/
def Keeps (m m' : Mem) : Prop :=
  ∀ p o b d, m p = some (o, b) → Lasting o → dataOf b = some d → m' p = m p

theorem read_data {m : Mem} {r d} (h : read m r = some d) :
    ∃ o b x, m r.ptr = some (o, b) ∧ dataOf b = some x := by
  cases r with
  | slice p o n =>
    simp only [read] at h
    split at h
    · next o' b hb => exact ⟨o', .bytes b, _, hb, rfl⟩
    · cases h
  | box p =>
    simp only [read] at h
    split at h
    · next o' b hb => exact ⟨o', .relocs b, _, hb, rfl⟩
    · cases h

theorem read_congr {m m' : Mem} {r : Ref} (h : m' r.ptr = m r.ptr) : read m' r = read m r := by
  cases r <;> simp only [Ref.ptr] at h <;> simp only [read, h]

theorem Safe.keep {m m' r d} (h : Safe m r d) (k : Keeps m m') : Safe m' r d := by
  obtain ⟨hr, o, b, hm, hl⟩ := h
  obtain ⟨o', b', x, hm', hx⟩ := read_data hr
  rw [hm] at hm'; cases hm'
  have e := k _ _ _ _ hm hl hx
  exact ⟨by rw [read_congr e]; exact hr, o, b, by rw [e]; exact hm, hl⟩

theorem Safe.sub {m r d r' i n} (h : Safe m r d) (hs : r.sub i n = some r') : ∃ d', Safe m r' d' := by
  obtain ⟨hr, o, b, hm, hl⟩ := h
  cases r with
  | box p => simp [Ref.sub] at hs
  | slice p off len =>
    simp only [Ref.sub] at hs
    split at hs
    · next hle =>
      cases hs
      simp only [read] at hr
      simp only [Ref.ptr] at hm
      rw [hm] at hr
      cases b with
      | bytes b =>
        simp only at hr
        split at hr
        · next hb =>
          refine ⟨.bytes ((b.drop (off + i)).take n), ?_, o, .bytes b, hm, hl⟩
          simp only [read, hm]
          rw [if_pos (by omega)]
        · cases hr
      | _ => cases hr
    · cases hs

/-- The memory part of the invariant. -/
structure MInv (A : Addr) (file : Option (Addr × Bytes)) (m : Mem) (H : Kind → Hdr)
    (L : Kind → List Handle) : Prop where
  arena : m A = some (.arena, .arena H)
  len : ∀ k, (H k).len = (L k).length
  le : ∀ k, (H k).len ≤ (H k).cap
  slots : ∀ k, (H k).cap ≠ 0 → m (H k).ptr = some (.arena, .slots (L k))
  pay : ∀ k, ∀ h ∈ L k, ∃ b, m h.ptr = some (.arena, b) ∧ Fits k h b
  own : ∀ p b, m p = some (.arena, b) →
    p = A ∨ (∃ k, (H k).cap ≠ 0 ∧ p = (H k).ptr) ∨ ∃ k, ∃ h ∈ L k, h.ptr = p
  ptrs : ∀ j k, (H j).cap ≠ 0 → (H k).cap ≠ 0 → (H j).ptr = (H k).ptr → j = k
  nodup : ∀ k, ((L k).map Handle.ptr).Nodup
  apart : ∀ j k, j ≠ k → ∀ h ∈ L j, ∀ g ∈ L k, h.ptr ≠ g.ptr
  onMap : ∀ p b, file = some (p, b) → m p = some (.map, .bytes b)
  mapped : ∀ p b, m p = some (.map, b) → ∃ x, file = some (p, x)
  finite : ∃ n, ∀ p, n ≤ p → m p = none

theorem fits_not_slots {k h l} : ¬ Fits k h (.slots l) := by cases k <;> simp [Fits]
theorem fits_not_arena {k h H} : ¬ Fits k h (.arena H) := by cases k <;> simp [Fits]

/-- A change to a block that neither the arena nor the mapping owns. -/
structure Aside (m m' : Mem) (q : Addr) : Prop where
  same : ∀ p, p ≠ q → m' p = m p
  was : ∀ o b, m q = some (o, b) → o = .other
  now : ∀ o b, m' q = some (o, b) → ¬ Lasting o

theorem Aside.lasting {m m' q} (h : Aside m m' q) {p o b} (hm : m p = some (o, b))
    (hl : o ≠ .other) : m' p = m p := by
  refine h.same p ?_
  rintro rfl
  exact hl (h.was _ _ hm)

theorem Aside.back {m m' q} (h : Aside m m' q) {p o b} (hm : m' p = some (o, b)) (hl : Lasting o) :
    m p = some (o, b) := by
  rw [← h.same p ?_]; exact hm
  rintro rfl
  exact h.now _ _ hm hl

theorem Aside.keeps {m m' q} (h : Aside m m' q) : Keeps m m' := by
  intro p o b d hm hl _
  exact h.lasting hm (by rintro rfl; cases hl <;> contradiction)

theorem MInv.aside {A file m m' H L q} (i : MInv A file m H L) (h : Aside m m' q) :
    MInv A file m' H L where
  arena := by rw [h.lasting i.arena (by simp)]; exact i.arena
  len := i.len
  le := i.le
  slots k hk := by rw [h.lasting (i.slots k hk) (by simp)]; exact i.slots k hk
  pay k x hx := by
    obtain ⟨b, hb, hf⟩ := i.pay k x hx
    exact ⟨b, by rw [h.lasting hb (by simp)]; exact hb, hf⟩
  own p b hp := i.own p b (h.back hp (.inl rfl))
  ptrs := i.ptrs
  nodup := i.nodup
  apart := i.apart
  onMap p b hp := by rw [h.lasting (i.onMap p b hp) (by simp)]; exact i.onMap p b hp
  mapped p b hp := i.mapped p b (h.back hp (.inr rfl))
  finite := by
    obtain ⟨n, hn⟩ := i.finite
    refine ⟨max n (q + 1), fun p hp => ?_⟩
    rw [h.same p (by omega)]
    exact hn p (by omega)

theorem aside_alloc {m : Mem} {p v} (h : m p = none) (hv : ∀ o b, v = some (o, b) → ¬ Lasting o) :
    Aside m (m.set p v) p where
  same q hq := Mem.set_ne _ _ hq
  was o b hb := by rw [h] at hb; cases hb
  now o b hb := hv o b (by rw [Mem.set_eq] at hb; exact hb)

theorem aside_other {m : Mem} {p v b} (h : m p = some (.other, b))
    (hv : ∀ o b, v = some (o, b) → ¬ Lasting o) : Aside m (m.set p v) p where
  same q hq := Mem.set_ne _ _ hq
  was o b hb := by rw [h] at hb; cases hb; rfl
  now o b hb := hv o b (by rw [Mem.set_eq] at hb; exact hb)

/-! ## `push` -/

def addTo (L : Kind → List Handle) (k : Kind) (h : Handle) : Kind → List Handle :=
  fun j => if j = k then L k ++ [h] else L j

/-- What the three ways to push have in common. -/
structure Pushed (A : Addr) (m m' : Mem) (H : Kind → Hdr) (L : Kind → List Handle) (k : Kind)
    (h : Handle) (t : Tid) (b : Block) (q : Addr) (cap : Nat) : Prop where
  given : m h.ptr = some (.thread t, b)
  fits : Fits k h b
  target : m q = none ∨ ((H k).cap ≠ 0 ∧ q = (H k).ptr)
  room : (H k).len + 1 ≤ cap
  atA : m' A = some (.arena, .arena (setHdr H k ⟨q, (H k).len + 1, cap⟩))
  atQ : m' q = some (.arena, .slots (L k ++ [h]))
  atH : m' h.ptr = some (.arena, b)
  gone : (H k).cap ≠ 0 → (H k).ptr ≠ q → m' (H k).ptr = none
  same : ∀ p, p ≠ A → p ≠ q → p ≠ h.ptr → ((H k).cap ≠ 0 → p ≠ (H k).ptr) → m' p = m p

section
variable {A : Addr} {file : Option (Addr × Bytes)} {m m' : Mem} {H : Kind → Hdr}
  {L : Kind → List Handle} {k : Kind} {h : Handle} {t : Tid} {b : Block} {q : Addr} {cap : Nat}

theorem Pushed.q_ne_A (i : MInv A file m H L) (u : Pushed A m m' H L k h t b q cap) : q ≠ A := by
  rintro rfl
  cases u.target with
  | inl e => rw [i.arena] at e; cases e
  | inr e =>
    have := i.slots k e.1
    rw [← e.2, i.arena] at this; cases this

/-- Every block is kept, except the arena, the elements of the list and the argument. -/
theorem Pushed.same' (u : Pushed A m m' H L k h t b q cap) {p o c}
    (hm : m p = some (o, c)) (hA : p ≠ A) (hk : (H k).cap ≠ 0 → p ≠ (H k).ptr)
    (ho : o ≠ .thread t) : m' p = m p := by
  refine u.same p hA ?_ ?_ hk
  · rintro rfl
    cases u.target with
    | inl e => rw [hm] at e; cases e
    | inr e => exact hk e.1 e.2
  · rintro rfl
    rw [u.given] at hm; cases hm; exact ho rfl

theorem Pushed.data (i : MInv A file m H L) (u : Pushed A m m' H L k h t b q cap) {p o c d}
    (hm : m p = some (o, c)) (hd : dataOf c = some d) (ho : o ≠ .thread t) : m' p = m p := by
  refine u.same' hm ?_ ?_ ho
  · rintro rfl; rw [i.arena] at hm; cases hm; cases hd
  · rintro hc rfl; rw [i.slots k hc] at hm; cases hm; cases hd

theorem Pushed.keeps (i : MInv A file m H L) (u : Pushed A m m' H L k h t b q cap) : Keeps m m' := by
  intro p o c d hm hl hd
  exact u.data i hm hd (by rintro rfl; cases hl <;> contradiction)

theorem Pushed.inv (i : MInv A file m H L) (u : Pushed A m m' H L k h t b q cap) :
    MInv A file m' (setHdr H k ⟨q, (H k).len + 1, cap⟩) (addTo L k h) := by
  have hnew : ∀ j, ∀ g ∈ L j, g.ptr ≠ h.ptr := by
    intro j g hg e
    obtain ⟨c, hc, -⟩ := i.pay j g hg
    rw [e, u.given] at hc; cases hc
  have hpay : ∀ j, ∀ g ∈ L j, ∃ c, m' g.ptr = some (.arena, c) ∧ Fits j g c := by
    intro j g hg
    obtain ⟨c, hc, hf⟩ := i.pay j g hg
    obtain ⟨d, hd⟩ := hf.data
    exact ⟨c, by rw [u.data i hc hd (by simp)]; exact hc, hf⟩
  have hqj : ∀ j, j ≠ k → (H j).cap ≠ 0 → (H j).ptr ≠ q := by
    rintro j hj hc rfl
    cases u.target with
    | inl e => rw [i.slots j hc] at e; cases e
    | inr e => exact hj (i.ptrs j k hc e.1 e.2)
  constructor
  · exact u.atA
  · intro j
    by_cases hj : j = k
    · subst hj; simp [setHdr, addTo, i.len]
    · simp [setHdr, addTo, hj, i.len]
  · intro j
    by_cases hj : j = k
    · subst hj; simpa [setHdr] using u.room
    · simpa [setHdr, hj] using i.le j
  · intro j
    by_cases hj : j = k
    · subst hj; intro _; simpa [setHdr, addTo] using u.atQ
    · simp only [setHdr, addTo, hj, if_false]
      intro hc
      rw [u.same' (i.slots j hc) ?_ ?_ (by simp)]
      · exact i.slots j hc
      · intro e; have := i.slots j hc; rw [e, i.arena] at this; cases this
      · intro hk e; exact hj (i.ptrs j k hc hk e)
  · intro j g hg
    by_cases hj : j = k
    · subst hj
      simp only [addTo, if_true, List.mem_append, List.mem_singleton] at hg
      rcases hg with hg | rfl
      · exact hpay _ g hg
      · exact ⟨b, u.atH, u.fits⟩
    · simp only [addTo, hj, if_false] at hg
      exact hpay _ g hg
  · intro p c hp
    by_cases hA : p = A
    · exact .inl hA
    by_cases hq : p = q
    · exact .inr (.inl ⟨k, by simp [setHdr]; have := u.room; omega, by simp [setHdr, hq]⟩)
    by_cases hh : p = h.ptr
    · exact .inr (.inr ⟨k, h, by simp [addTo], hh.symm⟩)
    by_cases hk : (H k).cap ≠ 0 ∧ p = (H k).ptr
    · obtain ⟨hc, rfl⟩ := hk
      rw [u.gone hc hq] at hp; cases hp
    rw [u.same p hA hq hh (fun hc e => hk ⟨hc, e⟩)] at hp
    rcases i.own p c hp with e | ⟨j, hc, e⟩ | ⟨j, g, hg, e⟩
    · exact .inl e
    · by_cases hj : j = k
      · subst hj; exact absurd ⟨hc, e⟩ hk
      · exact .inr (.inl ⟨j, by simpa [setHdr, hj] using hc, by simpa [setHdr, hj] using e⟩)
    · refine .inr (.inr ⟨j, g, ?_, e⟩)
      by_cases hj : j = k
      · subst hj; simp [addTo, hg]
      · simp [addTo, hj, hg]
  · intro j l
    by_cases hj : j = k <;> by_cases hl : l = k
    · intros; rw [hj, hl]
    · subst hj
      simp only [setHdr, if_true, hl, if_false]
      intro _ hc e; exact absurd e.symm (hqj l hl hc)
    · subst hl
      simp only [setHdr, if_true, hj, if_false]
      intro hc _ e; exact absurd e (hqj j hj hc)
    · simp only [setHdr, hj, hl, if_false]; exact i.ptrs j l
  · intro j
    by_cases hj : j = k
    · subst hj
      simp only [addTo, if_true, List.map_append, List.map_cons, List.map_nil]
      rw [List.nodup_append]
      refine ⟨i.nodup _, by simp, ?_⟩
      intro a ha c hc e
      simp only [List.mem_singleton] at hc
      obtain ⟨g, hg, rfl⟩ := List.mem_map.1 ha
      exact hnew _ g hg (by rw [e, hc])
    · simpa [addTo, hj] using i.nodup j
  · intro j l hjl x hx y hy
    have cases' : ∀ j x, x ∈ addTo L k h j → x ∈ L j ∨ (j = k ∧ x = h) := by
      intro j x hx
      by_cases hj : j = k
      · subst hj; simp [addTo] at hx; rcases hx with hx | hx
        · exact .inl hx
        · exact .inr ⟨rfl, hx⟩
      · simp [addTo, hj] at hx; exact .inl hx
    rcases cases' j x hx with hx' | ⟨hj, ex⟩ <;> rcases cases' l y hy with hy' | ⟨hl, ey⟩
    · exact i.apart j l hjl x hx' y hy'
    · rw [ey]; exact hnew j x hx'
    · rw [ex]; exact fun e => hnew l y hy' e.symm
    · exact absurd (hj.trans hl.symm) hjl
  · intro p c hp
    have := i.onMap p c hp
    rw [u.data i this rfl (by simp)]; exact this
  · intro p c hp
    by_cases hA : p = A
    · rw [hA, u.atA] at hp; cases hp
    by_cases hq : p = q
    · rw [hq, u.atQ] at hp; cases hp
    by_cases hh : p = h.ptr
    · rw [hh, u.atH] at hp; cases hp
    by_cases hk : (H k).cap ≠ 0 ∧ p = (H k).ptr
    · obtain ⟨hc, rfl⟩ := hk
      rw [u.gone hc hq] at hp; cases hp
    rw [u.same p hA hq hh (fun hc e => hk ⟨hc, e⟩)] at hp
    exact i.mapped p c hp
  · obtain ⟨n, hn⟩ := i.finite
    refine ⟨max (max n (A + 1)) (max (q + 1) (h.ptr + 1)), fun p hp => ?_⟩
    by_cases hk : (H k).cap ≠ 0 ∧ p = (H k).ptr
    · obtain ⟨hc, rfl⟩ := hk
      exact u.gone hc (by omega)
    rw [u.same p (by omega) (by omega) (by omega) (fun hc e => hk ⟨hc, e⟩)]
    exact hn p (by omega)

/-- What was given by other threads is kept. -/
theorem Pushed.others (i : MInv A file m H L) (u : Pushed A m m' H L k h t b q cap) {p v c}
    (hv : v ≠ t) (hm : m p = some (.thread v, c)) : m' p = m p := by
  refine u.same' hm ?_ ?_ (by simpa using hv)
  · rintro rfl; rw [i.arena] at hm; cases hm
  · rintro hc rfl; rw [i.slots k hc] at hm; cases hm

theorem Pushed.threads (u : Pushed A m m' H L k h t b q cap) {p v c}
    (hm : m' p = some (.thread v, c)) : m p = some (.thread v, c) ∧ p ≠ h.ptr := by
  by_cases hA : p = A
  · rw [hA, u.atA] at hm; cases hm
  by_cases hq : p = q
  · rw [hq, u.atQ] at hm; cases hm
  by_cases hh : p = h.ptr
  · rw [hh, u.atH] at hm; cases hm
  by_cases hk : (H k).cap ≠ 0 ∧ p = (H k).ptr
  · obtain ⟨hc, rfl⟩ := hk
    rw [u.gone hc hq] at hm; cases hm
  rw [u.same p hA hq hh (fun hc e => hk ⟨hc, e⟩)] at hm
  exact ⟨hm, hh⟩

end

end Verif.Arena
