import Verif.Arena.Lemmas

/-!
# Every step keeps the invariant
-/

namespace Verif.Arena

/-- The call a thread is in, from the events. -/
def pending (t : Tid) : List Ev → Option Call → Option Call
  | [], acc => acc
  | .call u c :: es, acc => pending t es (if u = t then some c else acc)
  | .ret u _ :: es, acc => pending t es (if u = t then none else acc)

theorem pending_append (t : Tid) (es fs : List Ev) (acc) :
    pending t (es ++ fs) acc = pending t fs (pending t es acc) := by
  induction es generalizing acc with
  | nil => rfl
  | cons e es ih => cases e <;> simp [pending, ih]

theorem pending_none (t : Tid) (es : List Ev) (h : ∀ e ∈ es, e.thread ≠ t) (acc) :
    pending t es acc = acc := by
  induction es generalizing acc with
  | nil => rfl
  | cons e es ih =>
    have h1 := h e (by simp)
    have h2 := ih (fun e he => h e (by simp [he]))
    cases e <;> simp only [Ev.thread] at h1 <;> simp [pending, h1, h2]

theorem append_last {α} {l m : List α} {a b : α} {r : List α} (h : l ++ [a] = m ++ b :: r) :
    (r = [] ∧ l = m ∧ a = b) ∨ ∃ r', r = r' ++ [a] ∧ l = m ++ b :: r' := by
  rcases List.eq_nil_or_concat r with rfl | ⟨r', x, rfl⟩
  · have := List.append_inj' h (by simp)
    simp at this
    exact .inl ⟨rfl, this.1, this.2⟩
  · right
    have h' : l ++ [a] = (m ++ b :: r') ++ [x] := by simpa using h
    have := List.append_inj' h' (by simp)
    simp at this
    exact ⟨r', by simp [this.2], by simpa using this.1⟩

theorem Answered.last {es e c r} (h : Answered (es ++ [e]) c r) :
    Answered es c r ∨ ∃ t, e = .ret t r ∧ pending t es none = some c := by
  obtain ⟨t, e₁, e₂, e₃, he, hn⟩ := h
  rcases append_last he with ⟨-, h2, h3⟩ | ⟨r', h1, h2⟩
  · refine .inr ⟨t, h3, ?_⟩
    rw [h2, pending_append]
    simp [pending, pending_none t e₂ hn]
  · exact .inl ⟨t, e₁, e₂, r', h2, hn⟩

/-- What a thread has given and the arena has not stored yet. -/
def given : Pc → Option Handle
  | .wants _ h => some h
  | .locked _ h => some h
  | .counted _ h _ => some h
  | _ => none

/-- The mutex a thread holds. -/
def holds : Pc → Option Kind
  | .locked k _ => some k
  | .counted k _ _ => some k
  | .pushed k _ => some k
  | .got k _ => some k
  | _ => none

def Given (lossy : Bytes → Option Bytes) (m : Mem) (t : Tid) (k : Kind) (h : Handle)
    (c : Call) : Prop :=
  ∃ b, m h.ptr = some (.thread t, b) ∧ Fits k h b ∧ dataOf b = some (c.wanted lossy)

def PcOk (lossy : Bytes → Option Bytes) (m : Mem) (L : Kind → List Handle) (t : Tid)
    (pend : Option Call) : Pc → Prop
  | .idle => pend = none
  | .wants k h => ∃ c, pend = some c ∧ Given lossy m t k h c
  | .locked k h => ∃ c, pend = some c ∧ Given lossy m t k h c
  | .counted k h i => ∃ c, pend = some c ∧ Given lossy m t k h c ∧ i = (L k).length
  | .pushed k i => ∃ c h, pend = some c ∧ (L k)[i]? = some h ∧ Safe m (refOf k h) (c.wanted lossy)
  | .got _ r => ∃ c, pend = some c ∧ Safe m r (c.wanted lossy)
  | .ready r => ∃ c, pend = some c ∧ Safe m r (c.wanted lossy)

theorem Given.keep {lossy m m' t k h c} (g : Given lossy m t k h c)
    (ht : ∀ p b, m p = some (.thread t, b) → m' p = m p) : Given lossy m' t k h c := by
  obtain ⟨b, hb, hf, hd⟩ := g
  exact ⟨b, by rw [ht _ _ hb]; exact hb, hf, hd⟩

theorem PcOk.keep {lossy m m' L L' t pend pc} (h : PcOk lossy m L t pend pc) (hk : Keeps m m')
    (ht : ∀ p b, m p = some (.thread t, b) → m' p = m p)
    (hL : ∀ k (i : Nat) h, (L k)[i]? = some h → (L' k)[i]? = some h)
    (hl : ∀ k, holds pc = some k → L' k = L k) : PcOk lossy m' L' t pend pc := by
  cases pc with
  | idle => exact h
  | wants k x => obtain ⟨c, h1, h2⟩ := h; exact ⟨c, h1, h2.keep ht⟩
  | locked k x => obtain ⟨c, h1, h2⟩ := h; exact ⟨c, h1, h2.keep ht⟩
  | counted k x i =>
    obtain ⟨c, h1, h2, h3⟩ := h
    exact ⟨c, h1, h2.keep ht, by rw [hl k rfl]; exact h3⟩
  | pushed k i =>
    obtain ⟨c, x, h1, h2, h3⟩ := h
    exact ⟨c, x, h1, hL _ _ _ h2, h3.keep hk⟩
  | got k r => obtain ⟨c, h1, h2⟩ := h; exact ⟨c, h1, h2.keep hk⟩
  | ready r => obtain ⟨c, h1, h2⟩ := h; exact ⟨c, h1, h2.keep hk⟩

structure Inv (A : Addr) (lossy : Bytes → Option Bytes) (file : Option (Addr × Bytes))
    (es : List Ev) (s : St) (H : Kind → Hdr) (L : Kind → List Handle) : Prop where
  mem : MInv A file s.mem H L
  thr : ∀ p t b, s.mem p = some (.thread t, b) → ∃ h, given (s.pc t) = some h ∧ h.ptr = p
  held : ∀ r ∈ s.held, ∃ d, Safe s.mem r d
  pcs : ∀ t, PcOk lossy s.mem L t (pending t es none) (s.pc t)
  locks : ∀ t k, holds (s.pc t) = some k ↔ s.lock k = some t
  done : ∀ c r, Answered es c r → Safe s.mem r (c.wanted lossy)

section
variable {A : Addr} {lossy : Bytes → Option Bytes} {file : Option (Addr × Bytes)} {es es' : List Ev}
  {s : St} {H H' : Kind → Hdr} {L L' : Kind → List Handle} {t : Tid} {P : Pc} {m' : Mem}
  {lock' : Kind → Option Tid} {held' : List Ref}

/-- A step of one thread. -/
theorem Inv.move (i : Inv A lossy file es s H L) (hm : MInv A file m' H' L')
    (hk : Keeps s.mem m')
    (ho : ∀ u, u ≠ t → ∀ p b, s.mem p = some (.thread u, b) → m' p = s.mem p)
    (hL : ∀ k (i : Nat) h, (L k)[i]? = some h → (L' k)[i]? = some h)
    (hl : ∀ u, u ≠ t → ∀ k, holds (s.pc u) = some k → L' k = L k)
    (hp : ∀ u, u ≠ t → pending u es' none = pending u es none)
    (hP : PcOk lossy m' L' t (pending t es' none) P)
    (lk : ∀ u k, holds (if u = t then P else s.pc u) = some k ↔ lock' k = some u)
    (th : ∀ p u b, m' p = some (.thread u, b) →
      ∃ h, given (if u = t then P else s.pc u) = some h ∧ h.ptr = p)
    (hh : ∀ r ∈ held', r ∈ s.held ∨ ∃ d, Safe m' r d)
    (hd : ∀ c r, Answered es' c r → Answered es c r ∨ Safe m' r (c.wanted lossy)) :
    Inv A lossy file es' ⟨m', lock', fun u => if u = t then P else s.pc u, held'⟩ H' L' where
  mem := hm
  thr := th
  held r hr := by
    rcases hh r hr with h | h
    · obtain ⟨d, hd⟩ := i.held r h
      exact ⟨d, hd.keep hk⟩
    · exact h
  pcs u := by
    by_cases hu : u = t
    · subst hu; simpa using hP
    · simp only [hu, if_false]
      rw [hp u hu]
      exact (i.pcs u).keep hk (ho u hu) hL (hl u hu)
  locks := lk
  done c r h := by
    rcases hd c r h with h | h
    · exact (i.done c r h).keep hk
    · exact h

theorem keeps_refl (m : Mem) : Keeps m m := fun _ _ _ _ _ _ _ => rfl

/-- A step of a thread in a call that leaves memory alone. -/
theorem Inv.stay (i : Inv A lossy file es s H L)
    (hP : PcOk lossy s.mem L t (pending t es none) P)
    (lk : ∀ u k, holds (if u = t then P else s.pc u) = some k ↔ lock' k = some u)
    (th : given P = given (s.pc t)) :
    Inv A lossy file es ⟨s.mem, lock', fun u => if u = t then P else s.pc u, s.held⟩ H L := by
  refine i.move i.mem (keeps_refl _) (fun _ _ _ _ _ => rfl) (fun _ _ _ h => h) (fun _ _ _ _ => rfl)
    (fun _ _ => rfl) hP lk ?_ (fun r hr => .inl hr) (fun c r h => .inl h)
  intro p u b hb
  obtain ⟨x, hx, hxp⟩ := i.thr p u b hb
  refine ⟨x, ?_, hxp⟩
  by_cases hu : u = t
  · subst hu; simpa [th] using hx
  · simpa [hu] using hx

theorem locks_same (i : Inv A lossy file es s H L) (h : holds P = holds (s.pc t)) (u : Tid) (k : Kind) :
    holds (if u = t then P else s.pc u) = some k ↔ s.lock k = some u := by
  by_cases hu : u = t
  · subst hu; simp only [if_true, h]; exact i.locks u k
  · simp only [hu, if_false]; exact i.locks u k

theorem pending_call (u : Tid) (c : Call) : pending u (es ++ [.call u c]) none = some c := by
  simp [pending_append, pending]

theorem pending_other {u t : Tid} (h : u ≠ t) (e : Ev) (he : e.thread = t) :
    pending u (es ++ [e]) none = pending u es none := by
  rw [pending_append, pending_none u [e]]
  intro e' he'
  simp only [List.mem_singleton] at he'
  rw [he', he]; exact fun e => h e.symm

theorem answered_call {t : Tid} {x c r} (h : Answered (es ++ [.call t x]) c r) : Answered es c r := by
  rcases h.last with h | ⟨_, h, _⟩
  · exact h
  · cases h

/-- A call with a value in a block of its own. -/
theorem Inv.begin (i : Inv A lossy file es s H L) {c : Call} {k : Kind} {h : Handle} {b : Block}
    (hp : s.pc t = .idle) (hm : s.mem h.ptr = none) (hf : Fits k h b)
    (hd : dataOf b = some (c.wanted lossy)) :
    Inv A lossy file (es ++ [.call t c])
      ((s.setMem h.ptr (some (.thread t, b))).setPc t (.wants k h)) H L := by
  have ha : Aside s.mem (s.mem.set h.ptr (some (.thread t, b))) h.ptr :=
    aside_alloc hm (by intro o b h; cases h; simp [Lasting])
  refine i.move (P := .wants k h) (i.mem.aside ha) ha.keeps ?_ (fun _ _ _ h => h) (fun _ _ _ _ => rfl)
    (fun u hu => pending_other hu _ rfl) ?_ (locks_same i (by rw [hp]; rfl)) ?_ (fun r hr => .inl hr)
    (fun c r h => .inl (answered_call h))
  · intro u _ p b' hb'
    exact ha.lasting hb' (by simp)
  · exact ⟨c, pending_call t c, b, Mem.set_eq _ _ _, hf, hd⟩
  · intro p u b' hb'
    simp only [St.setMem] at hb'
    by_cases hpp : p = h.ptr
    · rw [hpp, Mem.set_eq] at hb'
      cases hb'
      exact ⟨h, by simp [given], hpp.symm⟩
    · rw [Mem.set_ne _ _ hpp] at hb'
      obtain ⟨x, hx, hxp⟩ := i.thr p u b' hb'
      by_cases hu : u = t
      · rw [hu, hp] at hx; cases hx
      · exact ⟨x, by simpa [hu] using hx, hxp⟩

/-- The three ways to push. -/
theorem Inv.pushed (i : Inv A lossy file es s H L) {k : Kind} {h : Handle} {j : Nat} {b : Block}
    {q cap : Nat} (hp : s.pc t = .counted k h j) (u : Pushed A s.mem m' H L k h t b q cap)
    : Inv A lossy file es ⟨m', s.lock, fun u => if u = t then .pushed k j else s.pc u, s.held⟩
      (setHdr H k ⟨q, (H k).len + 1, cap⟩) (addTo L k h) := by
  have hpc := i.pcs t
  rw [hp] at hpc
  obtain ⟨c, hc, ⟨b', hb', hf, hd⟩, hj⟩ := hpc
  have hlock : s.lock k = some t := (i.locks t k).1 (by rw [hp]; rfl)
  refine i.move (P := .pushed k j) (u.inv i.mem) (u.keeps i.mem) ?_ ?_ ?_ (fun _ _ => rfl) ?_
    (locks_same i (by rw [hp]; rfl)) ?_ (fun r hr => .inl hr) (fun c r h => .inl h)
  · intro v hv p b hb
    exact u.others i.mem hv hb
  · intro l n x hx
    by_cases hl : l = k
    · subst hl
      simp only [addTo, if_true]
      rw [List.getElem?_append_left (List.getElem?_eq_some_iff.1 hx).1]
      exact hx
    · simpa [addTo, hl] using hx
  · intro v hv l hl
    by_cases hlk : l = k
    · subst hlk
      have := (i.locks v l).1 hl
      rw [hlock] at this; cases this; exact absurd rfl hv
    · simp [addTo, hlk]
  · refine ⟨c, h, hc, ?_, ?_⟩
    · simp [addTo, hj]
    · have hbb : b' = b := by
        have := u.given
        rw [hb'] at this; cases this; rfl
      subst hbb
      exact ⟨hf.read u.atH hd, .arena, b', by rw [refOf_ptr]; exact u.atH, .inl rfl⟩
  · intro p v b' hb'
    obtain ⟨h1, h2⟩ := u.threads hb'
    obtain ⟨x, hx, hxp⟩ := i.thr p v b' h1
    by_cases hv : v = t
    · subst hv
      rw [hp] at hx
      cases hx
      exact absurd hxp.symm h2
    · exact ⟨x, by simpa [hv] using hx, hxp⟩

/-- Something the rest of the program does. -/
theorem Inv.outside (i : Inv A lossy file es s H L) {q : Addr} (ha : Aside s.mem m' q)
    (hn : ∀ o b, m' q = some (o, b) → o = .other) :
    Inv A lossy file es { s with mem := m' } H L where
  mem := i.mem.aside ha
  thr p t b hb := by
    refine i.thr p t b ?_
    rw [← ha.same p ?_]; exact hb
    rintro rfl
    cases hn _ _ hb
  held r hr := by
    obtain ⟨d, hd⟩ := i.held r hr
    exact ⟨d, hd.keep ha.keeps⟩
  pcs t := (i.pcs t).keep ha.keeps (fun p b hb => ha.lasting hb (by simp)) (fun _ _ _ h => h)
    (fun _ _ => rfl)
  locks := i.locks
  done c r h := (i.done c r h).keep ha.keeps

end

theorem Inv.arenaHdr {A lossy file es s H L o hs} (i : Inv A lossy file es s H L)
    (h : s.mem A = some (o, .arena hs)) : hs = H := by
  rw [i.mem.arena] at h; cases h; rfl

def withEvent (es : List Ev) : Option Ev → List Ev
  | none => es
  | some e => es ++ [e]

theorem Inv.step {A lossy file es s H L e s'} (i : Inv A lossy file es s H L)
    (st : Step A lossy s e s') :
    ∃ H' L', Inv A lossy file (withEvent es e) s' H' L' := by
  cases st with
  | addBuffer t b p hp hm =>
    exact ⟨H, L, i.begin (h := ⟨p, b.length⟩) hp hm rfl rfl⟩
  | addRelocations t r p hp hm =>
    exact ⟨H, L, i.begin (h := ⟨p, 0⟩) hp hm trivial rfl⟩
  | addStringBorrowed t src b hp hs hr hl =>
    refine ⟨H, L, i.move (P := .ready src) i.mem (keeps_refl _) (fun _ _ _ _ _ => rfl)
      (fun _ _ _ h => h) (fun _ _ _ _ => rfl) (fun u hu => pending_other hu _ rfl) ?_
      (locks_same i (by rw [hp]; rfl)) ?_ (fun r hr => .inl hr) (fun c r h => .inl (answered_call h))⟩
    · refine ⟨_, pending_call t _, ?_⟩
      obtain ⟨d, hd, hd'⟩ := i.held src hs
      exact ⟨by simp [Call.wanted, hl, hr], hd'⟩
    · intro p u b' hb'
      obtain ⟨x, hx, hxp⟩ := i.thr p u b' hb'
      by_cases hu : u = t
      · rw [hu, hp] at hx; cases hx
      · exact ⟨x, by simpa [hu] using hx, hxp⟩
  | addStringOwned t src b b' p hp hs hr hl hm =>
    exact ⟨H, L, i.begin (h := ⟨p, b'.length⟩) hp hm rfl (by simp [Call.wanted, hl, dataOf])⟩
  | lock t k h hp hl =>
    have hpc := i.pcs t
    rw [hp] at hpc
    refine ⟨H, L, i.stay (P := .locked k h) hpc ?_ (by rw [hp]; rfl)⟩
    intro u j
    show holds _ = _ ↔ (if j = k then some t else s.lock j) = some u
    by_cases hj : j = k
    · subst hj
      simp only [if_true, Option.some.injEq]
      by_cases hu : u = t
      · subst hu; simp [holds]
      · simp only [hu, if_false]
        constructor
        · intro h
          have := (i.locks u j).1 h
          rw [hl] at this; cases this
        · intro h; exact absurd h.symm hu
    · simp only [hj, if_false]
      by_cases hu : u = t
      · subst hu
        simp only [if_true, holds, Option.some.injEq]
        constructor
        · intro h; exact absurd h.symm hj
        · intro h
          have := (i.locks u j).2 h
          rw [hp] at this; cases this
      · simp only [hu, if_false]; exact i.locks u j
  | count t k h o hs hp ha =>
    have hpc := i.pcs t
    rw [hp] at hpc
    obtain ⟨c, h1, h2⟩ := hpc
    have := i.arenaHdr ha
    subst this
    exact ⟨hs, L, i.stay (P := .counted k h (hs k).len) ⟨c, h1, h2, i.mem.len k⟩
      (locks_same i (by rw [hp]; rfl)) (by rw [hp]; rfl)⟩
  | push t k h j o o' o'' hs l d hp ha hc hl hd =>
    have := i.arenaHdr ha
    subst this
    have hpc := i.pcs t
    rw [hp] at hpc
    obtain ⟨c, h1, ⟨b, hb, hf, hdt⟩, h3⟩ := hpc
    rw [hb] at hd; cases hd
    have hcap : (hs k).cap ≠ 0 := by omega
    have hsl := i.mem.slots k hcap
    rw [hl] at hsl
    simp only [Option.some.injEq, Prod.mk.injEq, Block.slots.injEq] at hsl
    obtain ⟨rfl, rfl⟩ := hsl
    have n1 : h.ptr ≠ A := by intro e; rw [e, i.mem.arena] at hb; cases hb
    have n2 : h.ptr ≠ (hs k).ptr := by intro e; rw [e, hl] at hb; cases hb
    have n3 : (hs k).ptr ≠ A := by intro e; rw [e, i.mem.arena] at hl; cases hl
    refine ⟨_, _, i.pushed (q := (hs k).ptr) (cap := (hs k).cap) hp
      ⟨hb, hf, .inr ⟨hcap, rfl⟩, hc, ?_, ?_, ?_, ?_, ?_⟩⟩
    · exact Mem.set_eq _ _ _
    · simp only [St.setMem]; rw [Mem.set_ne _ _ n3, Mem.set_eq]
    · simp only [St.setMem]; rw [Mem.set_ne _ _ n1, Mem.set_ne _ _ n2, Mem.set_eq]
    · intro _ e; exact absurd rfl e
    · intro p h1 h2 h3 h4
      simp only [St.setMem]; rw [Mem.set_ne _ _ h1, Mem.set_ne _ _ h2, Mem.set_ne _ _ h3]
  | pushFirst t k h j o o'' hs d q cap hp ha h0 hcap hq hd =>
    have := i.arenaHdr ha
    subst this
    have hpc := i.pcs t
    rw [hp] at hpc
    obtain ⟨c, h1, ⟨b, hb, hf, hdt⟩, h3⟩ := hpc
    rw [hb] at hd; cases hd
    have hlen : (hs k).len = 0 := by have := i.mem.le k; omega
    have hL0 : L k = [] := by
      have := i.mem.len k
      rw [hlen] at this
      exact List.length_eq_zero_iff.1 this.symm
    have n1 : h.ptr ≠ A := by intro e; rw [e, i.mem.arena] at hb; cases hb
    have n2 : h.ptr ≠ q := by intro e; rw [e, hq] at hb; cases hb
    have n3 : q ≠ A := by intro e; rw [e, i.mem.arena] at hq; cases hq
    refine ⟨_, _, i.pushed (q := q) (cap := cap) hp
      ⟨hb, hf, .inl hq, by omega, ?_, ?_, ?_, ?_, ?_⟩⟩
    · simp only [St.setMem, hlen]; exact Mem.set_eq _ _ _
    · simp only [St.setMem, hL0]; rw [Mem.set_ne _ _ n3, Mem.set_eq]; rfl
    · simp only [St.setMem]; rw [Mem.set_ne _ _ n1, Mem.set_ne _ _ n2, Mem.set_eq]
    · intro e; exact absurd h0 e
    · intro p h1 h2 h3 h4
      simp only [St.setMem]; rw [Mem.set_ne _ _ h1, Mem.set_ne _ _ h2, Mem.set_ne _ _ h3]
  | pushGrow t k h j o o' o'' hs l d q cap hp ha h0 hc hcap hl hq hd =>
    have := i.arenaHdr ha
    subst this
    have hpc := i.pcs t
    rw [hp] at hpc
    obtain ⟨c, h1, ⟨b, hb, hf, hdt⟩, h3⟩ := hpc
    rw [hb] at hd; cases hd
    have hsl := i.mem.slots k h0
    rw [hl] at hsl
    simp only [Option.some.injEq, Prod.mk.injEq, Block.slots.injEq] at hsl
    obtain ⟨rfl, rfl⟩ := hsl
    have n1 : h.ptr ≠ A := by intro e; rw [e, i.mem.arena] at hb; cases hb
    have n2 : h.ptr ≠ (hs k).ptr := by intro e; rw [e, hl] at hb; cases hb
    have n3 : (hs k).ptr ≠ A := by intro e; rw [e, i.mem.arena] at hl; cases hl
    have n4 : q ≠ A := by
      rcases hq with hq | hq
      · intro e; rw [e, i.mem.arena] at hq; cases hq
      · rw [hq]; exact n3
    have n5 : h.ptr ≠ q := by
      rcases hq with hq | hq
      · intro e; rw [e, hq] at hb; cases hb
      · rw [hq]; exact n2
    refine ⟨_, _, i.pushed (q := q) (cap := cap) hp
      ⟨hb, hf, ?_, by omega, ?_, ?_, ?_, ?_, ?_⟩⟩
    · rcases hq with hq | hq
      · exact .inl hq
      · exact .inr ⟨h0, hq⟩
    · exact Mem.set_eq _ _ _
    · simp only [St.setMem]; rw [Mem.set_ne _ _ n4, Mem.set_eq]
    · simp only [St.setMem]
      rw [Mem.set_ne _ _ n1, Mem.set_ne _ _ n5, Mem.set_ne _ _ n2, Mem.set_eq]
    · intro _ e
      simp only [St.setMem]
      rw [Mem.set_ne _ _ n3, Mem.set_ne _ _ e, Mem.set_eq]
    · intro p h1 h2 h3 h4
      simp only [St.setMem]
      rw [Mem.set_ne _ _ h1, Mem.set_ne _ _ h2, Mem.set_ne _ _ (h4 h0), Mem.set_ne _ _ h3]
  | index t k j o o' hs l h hp ha hl hi =>
    have := i.arenaHdr ha
    subst this
    have hpc := i.pcs t
    rw [hp] at hpc
    obtain ⟨c, x, h1, h2, h3⟩ := hpc
    have hcap : (hs k).cap ≠ 0 := by
      intro h0
      have := i.mem.le k
      have := i.mem.len k
      have := (List.getElem?_eq_some_iff.1 h2).1
      omega
    have hsl := i.mem.slots k hcap
    rw [hl] at hsl
    simp only [Option.some.injEq, Prod.mk.injEq, Block.slots.injEq] at hsl
    obtain ⟨rfl, rfl⟩ := hsl
    rw [hi] at h2; cases h2
    exact ⟨hs, L, i.stay (P := .got k (refOf k h)) ⟨c, h1, h3⟩ (locks_same i (by rw [hp]; rfl))
      (by rw [hp]; rfl)⟩
  | unlock t k r hp =>
    have hpc := i.pcs t
    rw [hp] at hpc
    have hlock : s.lock k = some t := (i.locks t k).1 (by rw [hp]; rfl)
    refine ⟨H, L, i.stay (P := .ready r) hpc ?_ (by rw [hp]; rfl)⟩
    intro u j
    show holds _ = _ ↔ (if j = k then none else s.lock j) = some u
    by_cases hj : j = k
    · subst hj
      simp only [if_true]
      by_cases hu : u = t
      · subst hu; simp [holds]
      · simp only [hu, if_false]
        constructor
        · intro h
          have := (i.locks u j).1 h
          rw [hlock] at this; cases this; exact absurd rfl hu
        · intro h; cases h
    · simp only [hj, if_false]
      by_cases hu : u = t
      · subst hu
        simp only [if_true, holds]
        constructor
        · intro h; cases h
        · intro h
          have := (i.locks u j).2 h
          rw [hp] at this; cases this; exact absurd rfl hj
      · simp only [hu, if_false]; exact i.locks u j
  | ret t r hp =>
    have hpc := i.pcs t
    rw [hp] at hpc
    obtain ⟨c, h1, h2⟩ := hpc
    refine ⟨H, L, i.move (P := .idle) (held' := r :: s.held) i.mem (keeps_refl _)
      (fun _ _ _ _ _ => rfl) (fun _ _ _ h => h) (fun _ _ _ _ => rfl)
      (fun u hu => pending_other hu _ rfl) ?_ (locks_same i (by rw [hp]; rfl)) ?_ ?_ ?_⟩
    · simp [PcOk, withEvent, pending_append, pending]
    · intro p u b' hb'
      obtain ⟨x, hx, hxp⟩ := i.thr p u b' hb'
      by_cases hu : u = t
      · rw [hu, hp] at hx; cases hx
      · exact ⟨x, by simpa [hu] using hx, hxp⟩
    · intro x hx
      simp only [List.mem_cons] at hx
      rcases hx with rfl | hx
      · exact .inr ⟨_, h2⟩
      · exact .inl hx
    · intro c' r' h
      rcases h.last with h | ⟨u, he, hu⟩
      · exact .inl h
      · cases he
        rw [h1] at hu; cases hu
        exact .inr h2
  | sub r r' j n h hr =>
    refine ⟨H, L, i.mem, i.thr, ?_, i.pcs, i.locks, i.done⟩
    intro x hx
    simp only [List.mem_cons] at hx
    rcases hx with rfl | hx
    · obtain ⟨d, hd⟩ := i.held r h
      exact hd.sub hr
    · exact i.held x hx
  | alloc p b h =>
    refine ⟨H, L, i.outside (aside_alloc h ?_) ?_⟩
    · intro o b h; cases h; simp [Lasting]
    · intro o b h; rw [Mem.set_eq] at h; cases h; rfl
  | write p b b' h =>
    refine ⟨H, L, i.outside (aside_other h ?_) ?_⟩
    · intro o b h; cases h; simp [Lasting]
    · intro o b h; rw [Mem.set_eq] at h; cases h; rfl
  | free p b h =>
    refine ⟨H, L, i.outside (aside_other h ?_) ?_⟩
    · intro o b h; cases h
    · intro o b h; rw [Mem.set_eq] at h; cases h

theorem Start.inv {A file s} (h : Start A file s) (lossy : Bytes → Option Bytes) :
    Inv A lossy file [] s emptyHdrs (fun _ => []) where
  mem := {
    arena := h.arena
    len := fun _ => rfl
    le := fun _ => Nat.le_refl _
    slots := fun _ h => absurd rfl h
    pay := fun _ _ h => by cases h
    own := fun p b hb => by
      rcases h.rest p _ _ hb with e | ⟨x, e⟩ | e
      · exact .inl e
      · have := (h.mapped p x e).1
        rw [hb] at this; cases this
      · cases e
    ptrs := fun _ _ h => absurd rfl h
    nodup := fun _ => by simp
    apart := fun _ _ _ _ h => by cases h
    onMap := fun p b e => (h.mapped p b e).1
    mapped := fun p b hb => by
      rcases h.rest p _ _ hb with e | e | e
      · rw [e, h.arena] at hb; cases hb
      · exact e
      · cases e
    finite := h.finite }
  thr p t b hb := by
    rcases h.rest p _ _ hb with e | ⟨x, e⟩ | e
    · rw [e, h.arena] at hb; cases hb
    · have := (h.mapped p x e).1
      rw [hb] at this; cases this
    · cases e
  held r hr := by
    cases file with
    | none => rw [h.noFile rfl] at hr; cases hr
    | some f =>
      obtain ⟨p, b⟩ := f
      obtain ⟨h1, h2⟩ := h.mapped p b rfl
      rw [h2, List.mem_singleton] at hr
      subst hr
      exact ⟨.bytes b, by simp [read, h1], .map, .bytes b, h1, .inr rfl⟩
  pcs t := by rw [h.idle t]; rfl
  locks t k := by rw [h.idle t, h.locks k]; simp [holds]
  done c r hc := by
    obtain ⟨t, e₁, e₂, e₃, he, -⟩ := hc
    simp at he

theorem Exec.inv {A lossy file s₀ es s} (h : Exec A lossy s₀ es s) (h0 : Start A file s₀) :
    ∃ H L, Inv A lossy file es s H L := by
  induction h with
  | nil => exact ⟨_, _, h0.inv lossy⟩
  | quiet _ st ih => obtain ⟨H, L, i⟩ := ih; exact i.step st
  | event _ st ih => obtain ⟨H, L, i⟩ := ih; exact i.step st

end Verif.Arena
