import Verif.Arena.Inv

/-!
# C94: references into the arena of a file stay valid
-/

namespace Verif.Arena

/-- C94: whatever the schedule of the threads and whatever the allocator and the rest of the program
do, the reference a call returns leads to the caller's own data (a text with what is not UTF-8
replaced), at the time of the return and in every later state. -/
theorem C94_own_data {A : Addr} {lossy : Bytes → Option Bytes} {file : Option (Addr × Bytes)}
    {s₀ s : St} {es : List Ev} {c : Call} {r : Ref} (h0 : Start A file s₀)
    (hx : Exec A lossy s₀ es s) (h : Answered es c r) :
    read s.mem r = some (c.wanted lossy) := by
  obtain ⟨H, L, i⟩ := hx.inv h0
  exact (i.done c r h).1

theorem Exec.trans {A lossy s es s' fs s''} (h : Exec A lossy s es s') (g : Exec A lossy s' fs s'') :
    Exec A lossy s (es ++ fs) s'' := by
  induction g with
  | nil => simpa using h
  | quiet _ st ih => exact .quiet ih st
  | event _ st ih => rw [← List.append_assoc]; exact .event ih st

/-- Steps keep what is read through a reference that is held. -/
theorem Inv.step_read {A lossy file es s H L e s'} (i : Inv A lossy file es s H L)
    (st : Step A lossy s e s') : ∀ r ∈ s.held, r ∈ s'.held ∧ read s'.mem r = read s.mem r := by
  intro r hr
  obtain ⟨d, hd⟩ := i.held r hr
  have key : ∀ m', Keeps s.mem m' → read m' r = read s.mem r := by
    intro m' hk
    rw [hd.1, (hd.keep hk).1]
  have frame : ∀ p v, s.mem p = none → Keeps s.mem (s.mem.set p v) := by
    intro p v hp q o b x hq _ _
    refine Mem.set_ne _ _ ?_
    rintro rfl; rw [hp] at hq; cases hq
  have other : ∀ p v b, s.mem p = some (.other, b) → Keeps s.mem (s.mem.set p v) := by
    intro p v b hp q o b x hq hl _
    refine Mem.set_ne _ _ ?_
    rintro rfl; rw [hp] at hq; cases hq; cases hl <;> contradiction
  -- a block with another owner, the elements of a list, or the arena itself are not read
  have notData : ∀ p, (∃ t b, s.mem p = some (.thread t, b)) ∨ (∃ l, s.mem p = some (.arena, .slots l)) ∨
      s.mem p = none ∨ p = A → r.ptr ≠ p := by
    rintro p hp rfl
    obtain ⟨o, b, hm, hl⟩ := hd.2
    obtain ⟨o', b', x, hm', hx⟩ := read_data hd.1
    rw [hm] at hm'; cases hm'
    rcases hp with ⟨t, b'', hp⟩ | ⟨l, hp⟩ | hp | hp
    · rw [hm] at hp; cases hp; cases hl <;> contradiction
    · rw [hm] at hp; cases hp; cases hx
    · rw [hm] at hp; cases hp
    · rw [hp, i.mem.arena] at hm; cases hm; cases hx
  cases st with
  | addBuffer t b p hp hm => exact ⟨hr, key _ (frame _ _ hm)⟩
  | addRelocations t x p hp hm => exact ⟨hr, key _ (frame _ _ hm)⟩
  | addStringBorrowed t src b hp hs hr' hl => exact ⟨hr, rfl⟩
  | addStringOwned t src b b' p hp hs hr' hl hm => exact ⟨hr, key _ (frame _ _ hm)⟩
  | lock t k h hp hl => exact ⟨hr, rfl⟩
  | count t k h o hs hp ha => exact ⟨hr, rfl⟩
  | push t k h j o o' o'' hs l d hp ha hc hl hd =>
    have := i.arenaHdr ha
    subst this
    have hpc := i.pcs t
    rw [hp] at hpc
    obtain ⟨c, h1, ⟨b, hb, -⟩, -⟩ := hpc
    have hsl := i.mem.slots k (by omega)
    refine ⟨hr, read_congr ?_⟩
    simp only [St.setMem, St.setPc]
    rw [Mem.set_ne _ _ (notData _ (.inr (.inr (.inr rfl)))),
      Mem.set_ne _ _ (notData _ (.inr (.inl ⟨_, hsl⟩))), Mem.set_ne _ _ (notData _ (.inl ⟨_, _, hb⟩))]
  | pushFirst t k h j o o'' hs d q cap hp ha h0 hcap hq hd =>
    have hpc := i.pcs t
    rw [hp] at hpc
    obtain ⟨c, h1, ⟨b, hb, -⟩, -⟩ := hpc
    refine ⟨hr, read_congr ?_⟩
    simp only [St.setMem, St.setPc]
    rw [Mem.set_ne _ _ (notData _ (.inr (.inr (.inr rfl)))),
      Mem.set_ne _ _ (notData _ (.inr (.inr (.inl hq)))), Mem.set_ne _ _ (notData _ (.inl ⟨_, _, hb⟩))]
  | pushGrow t k h j o o' o'' hs l d q cap hp ha h0 hc hcap hl hq hd =>
    have := i.arenaHdr ha
    subst this
    have hpc := i.pcs t
    rw [hp] at hpc
    obtain ⟨c, h1, ⟨b, hb, -⟩, -⟩ := hpc
    have hsl := i.mem.slots k h0
    have hqr : r.ptr ≠ q := by
      rcases hq with hq | hq
      · exact notData _ (.inr (.inr (.inl hq)))
      · rw [hq]; exact notData _ (.inr (.inl ⟨_, hsl⟩))
    refine ⟨hr, read_congr ?_⟩
    simp only [St.setMem, St.setPc]
    rw [Mem.set_ne _ _ (notData _ (.inr (.inr (.inr rfl)))), Mem.set_ne _ _ hqr,
      Mem.set_ne _ _ (notData _ (.inr (.inl ⟨_, hsl⟩))), Mem.set_ne _ _ (notData _ (.inl ⟨_, _, hb⟩))]
  | index t k j o o' hs l h hp ha hl hi => exact ⟨hr, rfl⟩
  | unlock t k x hp => exact ⟨hr, rfl⟩
  | ret t x hp => exact ⟨List.mem_cons_of_mem _ hr, rfl⟩
  | sub x r' j n h hr' => exact ⟨List.mem_cons_of_mem _ hr, rfl⟩
  | alloc p b h => exact ⟨hr, key _ (frame _ _ h)⟩
  | write p b b' h => exact ⟨hr, key _ (other _ _ _ h)⟩
  | free p b h => exact ⟨hr, key _ (other _ _ _ h)⟩

/-- C94: whatever reference the program holds (one that was returned, one to the mapped file, or a
part of another), reading through it is defined, and gives the same in every later state. -/
theorem C94_never_dangling {A : Addr} {lossy : Bytes → Option Bytes} {file : Option (Addr × Bytes)}
    {s₀ s s' : St} {es es' : List Ev} {r : Ref} (h0 : Start A file s₀) (hx : Exec A lossy s₀ es s)
    (hr : r ∈ s.held) (hx' : Exec A lossy s es' s') :
    ∃ d, read s.mem r = some d ∧ read s'.mem r = some d := by
  obtain ⟨H, L, i⟩ := hx.inv h0
  obtain ⟨d, hd⟩ := i.held r hr
  refine ⟨d, hd.1, ?_⟩
  suffices h : ∀ s' es', Exec A lossy s es' s' → r ∈ s'.held ∧ read s'.mem r = some d from (h _ _ hx').2
  intro s' es' g
  induction g with
  | nil => exact ⟨hr, hd.1⟩
  | quiet g st ih =>
    obtain ⟨h1, h2⟩ := ih
    obtain ⟨H', L', i'⟩ := (hx.trans g).inv h0
    obtain ⟨h3, h4⟩ := i'.step_read st r h1
    exact ⟨h3, by rw [h4]; exact h2⟩
  | event g st ih =>
    obtain ⟨h1, h2⟩ := ih
    obtain ⟨H', L', i'⟩ := (hx.trans g).inv h0
    obtain ⟨h3, h4⟩ := i'.step_read st r h1
    exact ⟨h3, by rw [h4]; exact h2⟩

/-- C94: no deadlock. While a thread is inside a call, some thread inside a call can make its next
step. -/
theorem C94_no_deadlock {A : Addr} {lossy : Bytes → Option Bytes} {file : Option (Addr × Bytes)}
    {s₀ s : St} {es : List Ev} {t : Tid} (h0 : Start A file s₀) (hx : Exec A lossy s₀ es s)
    (ht : s.pc t ≠ .idle) :
    ∃ u e s', s.pc u ≠ .idle ∧ Step A lossy s e s' ∧ s'.pc u ≠ s.pc u := by
  obtain ⟨H, L, i⟩ := hx.inv h0
  obtain ⟨n, hn⟩ := i.mem.finite
  -- a thread that holds a mutex can go on
  have inside : ∀ u, holds (s.pc u) ≠ none →
      ∃ e s', Step A lossy s e s' ∧ s'.pc u ≠ s.pc u := by
    intro u hu
    have hpc := i.pcs u
    cases hp : s.pc u with
    | idle => rw [hp] at hu; exact absurd rfl hu
    | wants k h => rw [hp] at hu; exact absurd rfl hu
    | ready r => rw [hp] at hu; exact absurd rfl hu
    | locked k h =>
      exact ⟨_, _, .count u k h .arena H hp i.mem.arena, by simp [St.setPc]⟩
    | counted k h j =>
      rw [hp] at hpc
      obtain ⟨c, h1, ⟨b, hb, -⟩, -⟩ := hpc
      by_cases hc0 : (H k).cap = 0
      · exact ⟨_, _, .pushFirst u k h j .arena _ H b n 1 hp i.mem.arena hc0 (by omega)
          (hn n (Nat.le_refl _)) hb, by simp [St.setPc]⟩
      · by_cases hc : (H k).len < (H k).cap
        · exact ⟨_, _, .push u k h j .arena .arena _ H (L k) b hp i.mem.arena hc
            (i.mem.slots k hc0) hb, by simp [St.setPc]⟩
        · have := i.mem.le k
          exact ⟨_, _, .pushGrow u k h j .arena .arena _ H (L k) b n ((H k).cap + 1) hp i.mem.arena hc0
            (by omega) (by omega) (i.mem.slots k hc0) (.inl (hn n (Nat.le_refl _))) hb,
            by simp [St.setPc]⟩
    | pushed k j =>
      rw [hp] at hpc
      obtain ⟨c, h, h1, h2, -⟩ := hpc
      have hc0 : (H k).cap ≠ 0 := by
        intro h0
        have := i.mem.le k
        have := i.mem.len k
        have := (List.getElem?_eq_some_iff.1 h2).1
        omega
      exact ⟨_, _, .index u k j .arena .arena H (L k) h hp i.mem.arena (i.mem.slots k hc0) h2,
        by simp [St.setPc]⟩
    | got k r => exact ⟨_, _, .unlock u k r hp, by simp [St.setPc]⟩
  cases hp : s.pc t with
  | idle => exact absurd hp ht
  | ready r =>
    exact ⟨t, _, _, ht, .ret t r hp, by simp [St.setPc, hp]⟩
  | wants k h =>
    cases hl : s.lock k with
    | none => exact ⟨t, _, _, ht, .lock t k h hp hl, by simp [St.setPc, hp]⟩
    | some u =>
      have hu := (i.locks u k).2 hl
      obtain ⟨e, s', h1, h2⟩ := inside u (by rw [hu]; simp)
      refine ⟨u, e, s', ?_, h1, h2⟩
      intro e; rw [e] at hu; cases hu
  | locked k h =>
    obtain ⟨e, s', h1, h2⟩ := inside t (by rw [hp]; simp [holds])
    exact ⟨t, e, s', ht, h1, h2⟩
  | counted k h j =>
    obtain ⟨e, s', h1, h2⟩ := inside t (by rw [hp]; simp [holds])
    exact ⟨t, e, s', ht, h1, h2⟩
  | pushed k j =>
    obtain ⟨e, s', h1, h2⟩ := inside t (by rw [hp]; simp [holds])
    exact ⟨t, e, s', ht, h1, h2⟩
  | got k r =>
    obtain ⟨e, s', h1, h2⟩ := inside t (by rw [hp]; simp [holds])
    exact ⟨t, e, s', ht, h1, h2⟩

/-! ## Dropping -/

/-- `m'` is `m` without the blocks at `ps`. -/
def Without (m : Mem) (ps : List Addr) (m' : Mem) : Prop := ∀ p, m' p = if p ∈ ps then none else m p

theorem dealloc_without {m : Mem} {p} (h : m p ≠ none) : ∃ m', dealloc m p = some m' ∧ Without m [p] m' := by
  cases e : m p with
  | none => exact absurd e h
  | some v =>
    refine ⟨m.set p none, by simp [dealloc, e], fun q => ?_⟩
    simp [Mem.set]

theorem Without.trans {m m' m'' : Mem} {ps qs} (h : Without m ps m') (g : Without m' qs m'') :
    Without m (ps ++ qs) m'' := by
  intro p
  rw [g p, h p]
  by_cases h1 : p ∈ ps <;> by_cases h2 : p ∈ qs <;> simp [h1, h2]

theorem deallocAll_without {m : Mem} {l : List Handle} (hn : (l.map Handle.ptr).Nodup)
    (hl : ∀ h ∈ l, m h.ptr ≠ none) :
    ∃ m', deallocAll m l = some m' ∧ Without m (l.map Handle.ptr) m' := by
  induction l generalizing m with
  | nil => exact ⟨m, rfl, fun p => by simp⟩
  | cons h l ih =>
    simp only [List.map_cons, List.nodup_cons] at hn
    obtain ⟨m₁, e₁, w₁⟩ := dealloc_without (hl h (by simp))
    obtain ⟨m₂, e₂, w₂⟩ := ih (m := m₁) hn.2 (by
      intro g hg
      rw [w₁ g.ptr, if_neg]
      · exact hl g (by simp [hg])
      · intro hh
        simp only [List.mem_singleton] at hh
        exact hn.1 (hh ▸ List.mem_map.2 ⟨g, hg, rfl⟩))
    exact ⟨m₂, by simp [deallocAll, e₁, e₂], by simpa using w₁.trans w₂⟩

/-- The blocks of one list. -/
def blocksOf (h : Hdr) (l : List Handle) : List Addr := if h.cap = 0 then [] else l.map Handle.ptr ++ [h.ptr]

theorem dropVec_without {m : Mem} {h : Hdr} {l : List Handle}
    (hs : h.cap ≠ 0 → ∃ o, m h.ptr = some (o, .slots l)) (hn : (l.map Handle.ptr).Nodup)
    (hl : h.cap ≠ 0 → ∀ g ∈ l, m g.ptr ≠ none) (hx : h.cap ≠ 0 → ∀ g ∈ l, g.ptr ≠ h.ptr) :
    ∃ m', dropVec m h = some m' ∧ Without m (blocksOf h l) m' := by
  by_cases hc : h.cap = 0
  · exact ⟨m, by simp [dropVec, hc], fun p => by simp [blocksOf, hc]⟩
  · obtain ⟨m₁, e₁, w₁⟩ := deallocAll_without hn (hl hc)
    obtain ⟨o, ho⟩ := hs hc
    have hk : m₁ h.ptr ≠ none := by
      rw [w₁ h.ptr, if_neg, ho]
      · simp
      · intro hh
        obtain ⟨g, hg, e⟩ := List.mem_map.1 hh
        exact hx hc g hg e
    obtain ⟨m₂, e₂, w₂⟩ := dealloc_without hk
    exact ⟨m₂, by simp [dropVec, hc, ho, e₁, e₂], by simpa [blocksOf, hc] using w₁.trans w₂⟩

theorem Without.keep {m m' : Mem} {ps p} (w : Without m ps m') (h : p ∉ ps) : m' p = m p := by
  rw [w p, if_neg h]

section
variable {A : Addr} {file : Option (Addr × Bytes)} {m : Mem} {H : Kind → Hdr} {L : Kind → List Handle}

theorem MInv.empty (i : MInv A file m H L) {k} (h : (H k).cap = 0) : L k = [] := by
  have := i.le k
  have := i.len k
  exact List.length_eq_zero_iff.1 (by omega)

theorem MInv.handle_slots (i : MInv A file m H L) {j k h} (hh : h ∈ L j) (hc : (H k).cap ≠ 0) :
    h.ptr ≠ (H k).ptr := by
  intro e
  obtain ⟨b, hb, hf⟩ := i.pay j h hh
  rw [e, i.slots k hc] at hb; cases hb
  exact fits_not_slots hf

theorem MInv.in_blocks (i : MInv A file m H L) {k p} (h : p ∈ blocksOf (H k) (L k)) :
    ((H k).cap ≠ 0 ∧ p = (H k).ptr) ∨ ∃ g ∈ L k, g.ptr = p := by
  unfold blocksOf at h
  split at h
  · cases h
  · next hc =>
    simp only [List.mem_append, List.mem_map, List.mem_singleton] at h
    rcases h with h | h
    · exact .inr h
    · exact .inl ⟨hc, h⟩

/-- The blocks of different lists differ. -/
theorem MInv.disjoint (i : MInv A file m H L) {j k p} (hjk : j ≠ k)
    (h : p ∈ blocksOf (H j) (L j)) : p ∉ blocksOf (H k) (L k) := by
  intro h'
  rcases i.in_blocks h with ⟨h1, e1⟩ | ⟨g, hg, e⟩ <;> rcases i.in_blocks h' with ⟨h2, e2⟩ | ⟨g', hg', e'⟩
  · exact hjk (i.ptrs j k h1 h2 (e1.symm.trans e2))
  · exact i.handle_slots hg' h1 (e'.trans e1)
  · exact i.handle_slots hg h2 (e.trans e2)
  · exact i.apart j k hjk g hg g' hg' (e.trans e'.symm)

theorem MInv.notA (i : MInv A file m H L) {k} : A ∉ blocksOf (H k) (L k) := by
  intro h
  rcases i.in_blocks h with ⟨h1, e1⟩ | ⟨g, hg, e⟩
  · have := i.slots k h1
    rw [← e1, i.arena] at this; cases this
  · obtain ⟨b, hb, hf⟩ := i.pay k g hg
    rw [e, i.arena] at hb; cases hb
    exact fits_not_arena hf

/-- Dropping one list while the blocks of some of the others are gone. -/
theorem MInv.dropVec (i : MInv A file m H L) {m' : Mem} {ps : List Addr} {k : Kind}
    (w : Without m ps m') (h : ∀ p ∈ ps, p ∉ blocksOf (H k) (L k)) :
    ∃ m'', Arena.dropVec m' (H k) = some m'' ∧ Without m (ps ++ blocksOf (H k) (L k)) m'' := by
  have keep : ∀ p ∈ blocksOf (H k) (L k), m' p = m p :=
    fun p hp => w.keep (fun hps => h p hps hp)
  obtain ⟨m'', e, w'⟩ := dropVec_without (m := m') (h := H k) (l := L k)
    (fun hc => ⟨.arena, by
      rw [keep _ (by simp [blocksOf, hc])]; exact i.slots k hc⟩)
    (i.nodup k)
    (fun hc g hg => by
      rw [keep _ (by simp only [blocksOf, hc, if_false]; exact List.mem_append_left _ (List.mem_map.2 ⟨g, hg, rfl⟩))]
      obtain ⟨b, hb, -⟩ := i.pay k g hg
      rw [hb]; simp)
    (fun hc g hg => i.handle_slots hg hc)
  exact ⟨m'', e, w.trans w'⟩

/-- Dropping the arena, possibly after the mapping is gone. -/
theorem MInv.dropArena (i : MInv A file m H L) {m' : Mem} {ps : List Addr} (w : Without m ps m')
    (hps : ∀ p ∈ ps, ∀ b, m p ≠ some (.arena, b)) :
    ∃ m'' qs, Arena.dropArena m' A = some m'' ∧ Without m (ps ++ qs) m'' ∧
      ∀ p, p ∈ qs ↔ ∃ b, m p = some (.arena, b) := by
  have hblock : ∀ k p, p ∈ blocksOf (H k) (L k) → ∃ b, m p = some (.arena, b) := by
    intro k p hp
    rcases i.in_blocks hp with ⟨h1, e1⟩ | ⟨g, hg, e⟩
    · exact ⟨_, by rw [e1]; exact i.slots k h1⟩
    · obtain ⟨b, hb, -⟩ := i.pay k g hg
      exact ⟨b, by rw [← e]; exact hb⟩
  have hps' : ∀ k, ∀ p ∈ ps, p ∉ blocksOf (H k) (L k) := by
    intro k p hp hk
    obtain ⟨b, hb⟩ := hblock k p hk
    exact hps p hp b hb
  have hA : A ∉ ps := fun h => hps A h _ i.arena
  obtain ⟨m₁, e₁, w₁⟩ := i.dropVec w (hps' .buffers)
  obtain ⟨m₂, e₂, w₂⟩ := i.dropVec (k := .strings) w₁ (by
    intro p hp
    rcases List.mem_append.1 hp with hp | hp
    · exact hps' _ p hp
    · exact i.disjoint (by simp) hp)
  obtain ⟨m₃, e₃, w₃⟩ := i.dropVec (k := .relocations) w₂ (by
    intro p hp
    rcases List.mem_append.1 hp with hp | hp
    · rcases List.mem_append.1 hp with hp | hp
      · exact hps' _ p hp
      · exact i.disjoint (by simp) hp
    · exact i.disjoint (by simp) hp)
  have hA3 : m₃ A = m A := w₃.keep (by
    simp only [List.mem_append, not_or]
    exact ⟨⟨⟨hA, i.notA⟩, i.notA⟩, i.notA⟩)
  obtain ⟨m₄, e₄, w₄⟩ := dealloc_without (m := m₃) (p := A) (by rw [hA3, i.arena]; simp)
  refine ⟨m₄, blocksOf (H .buffers) (L .buffers) ++ blocksOf (H .strings) (L .strings) ++
    blocksOf (H .relocations) (L .relocations) ++ [A], ?_, ?_, ?_⟩
  · simp [Arena.dropArena, w.keep hA, i.arena, e₁, e₂, e₃, e₄]
  · simpa [List.append_assoc] using w₃.trans w₄
  · intro p
    constructor
    · intro hp
      simp only [List.mem_append, List.mem_singleton] at hp
      rcases hp with ((hp | hp) | hp) | hp
      · exact hblock _ p hp
      · exact hblock _ p hp
      · exact hblock _ p hp
      · exact ⟨_, by rw [hp]; exact i.arena⟩
    · rintro ⟨b, hb⟩
      have hin : ∀ k, p ∈ blocksOf (H k) (L k) → p ∈ blocksOf (H .buffers) (L .buffers) ++
          blocksOf (H .strings) (L .strings) ++ blocksOf (H .relocations) (L .relocations) ++ [A] := by
        intro k hk
        cases k <;> simp [hk]
      rcases i.own p b hb with e | ⟨k, hc, e⟩ | ⟨k, g, hg, e⟩
      · simp [e]
      · exact hin k (by simp [blocksOf, hc, e])
      · refine hin k ?_
        have hc : (H k).cap ≠ 0 := by
          intro hc; rw [i.empty hc] at hg; cases hg
        simp only [blocksOf, hc, if_false]
        exact List.mem_append_left _ (List.mem_map.2 ⟨g, hg, e⟩)

end

theorem readAll_some {m : Mem} {rs : List Ref} (h : ∀ r ∈ rs, ∃ d, read m r = some d) :
    ∃ ds, readAll m rs = some ds := by
  induction rs with
  | nil => exact ⟨[], rfl⟩
  | cons r rs ih =>
    obtain ⟨d, hd⟩ := h r (by simp)
    obtain ⟨ds, hds⟩ := ih (fun r hr => h r (by simp [hr]))
    exact ⟨d :: ds, by simp [readAll, hd, hds]⟩

/-- C94: when the context of a file is dropped (and so no call is under way), the file can still read
everything it refers to, nothing is freed twice, and afterwards nothing is left in memory but what
belongs to the rest of the program, as it was. -/
theorem C94_drop {A : Addr} {lossy : Bytes → Option Bytes} {file : Option (Addr × Bytes)}
    {s₀ s : St} {es : List Ev} {c : Context} (h0 : Start A file s₀) (hx : Exec A lossy s₀ es s)
    (hq : ∀ t, s.pc t = .idle) (hf : ∀ r ∈ c.file, r ∈ s.held) (ha : c.arena = A)
    (hm : c.map = file.map Prod.fst) :
    ∃ m', c.drop s.mem = some m' ∧
      ∀ p o b, m' p = some (o, b) ↔ o = .other ∧ s.mem p = some (o, b) := by
  obtain ⟨H, L, i⟩ := hx.inv h0
  have nothr : ∀ p t b, s.mem p ≠ some (.thread t, b) := by
    intro p t b h
    obtain ⟨x, hx, -⟩ := i.thr p t b h
    rw [hq t] at hx; cases hx
  obtain ⟨ds, hds⟩ := readAll_some (m := s.mem) (rs := c.file) (fun r hr => by
    obtain ⟨d, hd⟩ := i.held r (hf r hr)
    exact ⟨d, hd.1⟩)
  have finish : ∀ m' ps qs, Without s.mem (ps ++ qs) m' →
      (∀ p ∈ ps, ∃ b, s.mem p = some (.map, b)) → (∀ p b, s.mem p = some (.map, b) → p ∈ ps) →
      (∀ p, p ∈ qs ↔ ∃ b, s.mem p = some (.arena, b)) →
      ∀ p o b, m' p = some (o, b) ↔ o = .other ∧ s.mem p = some (o, b) := by
    intro m' ps qs w h1 h2 h3 p o b
    rw [w p]
    constructor
    · intro h
      split at h
      · cases h
      · next hn =>
        simp only [List.mem_append, not_or] at hn
        refine ⟨?_, h⟩
        cases o with
        | arena => exact absurd ((h3 p).2 ⟨b, h⟩) hn.2
        | thread t => exact absurd h (nothr p t b)
        | map => exact absurd (h2 p b h) hn.1
        | other => rfl
    · rintro ⟨rfl, h⟩
      rw [if_neg, h]
      simp only [List.mem_append, not_or]
      constructor
      · intro hp
        obtain ⟨b', hb'⟩ := h1 p hp
        rw [h] at hb'; cases hb'
      · intro hp
        obtain ⟨b', hb'⟩ := (h3 p).1 hp
        rw [h] at hb'; cases hb'
  cases file with
  | none =>
    have hm' : c.map = none := by simpa using hm
    obtain ⟨m', qs, e, w, hqs⟩ := i.mem.dropArena (m' := s.mem) (ps := []) (fun p => by simp)
      (by intro p hp; cases hp)
    refine ⟨m', by simp [Context.drop, hds, hm', ha, e], finish m' [] qs w ?_ ?_ hqs⟩
    · intro p hp; cases hp
    · intro p b hb
      obtain ⟨x, hx⟩ := i.mem.mapped p b hb
      cases hx
  | some f =>
    obtain ⟨q, x⟩ := f
    have hm' : c.map = some q := by simpa using hm
    have hqx := i.mem.onMap q x rfl
    obtain ⟨m₁, e₁, w₁⟩ := dealloc_without (m := s.mem) (p := q) (by rw [hqx]; simp)
    obtain ⟨m', qs, e, w, hqs⟩ := i.mem.dropArena w₁ (by
      intro p hp b
      simp only [List.mem_singleton] at hp
      rw [hp, hqx]; simp)
    refine ⟨m', by simp [Context.drop, hds, hm', ha, e₁, e], finish m' [q] qs w ?_ ?_ hqs⟩
    · intro p hp
      simp only [List.mem_singleton] at hp
      exact ⟨_, by rw [hp]; exact hqx⟩
    · intro p b hb
      obtain ⟨y, hy⟩ := i.mem.mapped p b hb
      cases hy
      simp

end Verif.Arena
