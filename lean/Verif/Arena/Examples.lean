import Verif.Arena.Props

/-!
# C94: a concrete run

The arena is at 0 and the mapped file at 1. Two threads add a buffer each; the second call begins
while the first is under way and its `push` moves the elements of the list to another block. Then a
part of the mapped file that is not UTF-8 is added as a text, and the rest of the program allocates
and frees.
-/

namespace Verif.Arena

/-- Bytes from 128 on are replaced by `?`. -/
def lossyEx (b : Bytes) : Option Bytes :=
  if b.all (· < 128) then none else some (b.map fun x => if x < 128 then x else 63)

def memEx : Mem := fun p =>
  if p = 0 then some (.arena, .arena emptyHdrs) else if p = 1 then some (.map, .bytes [65, 200, 66])
  else if p = 2 then some (.other, .bytes [9]) else none

def startEx : St := ⟨memEx, fun _ => none, fun _ => .idle, [.slice 1 0 3]⟩

theorem startEx_start : Start 0 (some (1, [65, 200, 66])) startEx where
  arena := rfl
  mapped p b h := by cases h; exact ⟨rfl, rfl⟩
  noFile h := by cases h
  rest p o b h := by
    simp only [startEx, memEx] at h
    split at h
    · next e => exact .inl e
    · split at h
      · next e => exact .inr (.inl ⟨_, by rw [e]⟩)
      · split at h
        · cases h; exact .inr (.inr rfl)
        · cases h
  finite := ⟨3, fun p hp => by
    simp only [startEx, memEx]
    rw [if_neg (by omega), if_neg (by omega), if_neg (by omega)]⟩
  locks _ := rfl
  idle _ := rfl

/-- The run, with its events and the references that are held at the end. -/
theorem runEx : ∃ s, Exec 0 lossyEx startEx
    [.call 7 (.buffer [1, 2]), .call 8 (.buffer [3]), .ret 7 (.slice 5 0 2), .ret 8 (.slice 6 0 1),
      .call 7 (.string [200, 66]), .ret 7 (.slice 11 0 2)] s ∧
    s.held = [.slice 11 0 2, .slice 1 1 2, .slice 6 0 1, .slice 5 0 2, .slice 1 0 3] ∧
    (∀ t, s.pc t = .idle) ∧ s.mem 10 = none ∧
    s.mem 2 = some (.other, .bytes [9]) := by
  have x1 := Exec.event (Exec.nil startEx) (Step.addBuffer (A := 0) (lossy := lossyEx) 7 [1, 2] 5 rfl rfl)
  have x2 := Exec.quiet x1 (Step.lock 7 .buffers ⟨5, 2⟩ rfl rfl)
  have x3 := Exec.event x2 (Step.addBuffer 8 [3] 6 rfl rfl)
  have x4 := Exec.quiet x3 (Step.count 7 .buffers ⟨5, 2⟩ .arena emptyHdrs rfl rfl)
  have x5 := Exec.quiet x4 (Step.pushFirst 7 .buffers ⟨5, 2⟩ 0 .arena (.thread 7) emptyHdrs (.bytes [1, 2])
    10 1 rfl rfl rfl (by decide) rfl rfl)
  have x6 := Exec.quiet x5 (Step.index 7 .buffers 0 .arena .arena _ [⟨5, 2⟩] ⟨5, 2⟩ rfl rfl rfl rfl)
  have x7 := Exec.quiet x6 (Step.unlock 7 .buffers (.slice 5 0 2) rfl)
  have x8 := Exec.event x7 (Step.ret 7 (.slice 5 0 2) rfl)
  have x9 := Exec.quiet x8 (Step.lock 8 .buffers ⟨6, 1⟩ rfl rfl)
  have x10 := Exec.quiet x9 (Step.count 8 .buffers ⟨6, 1⟩ .arena _ rfl rfl)
  have x11 := Exec.quiet x10 (Step.pushGrow 8 .buffers ⟨6, 1⟩ 1 .arena .arena (.thread 8) _ [⟨5, 2⟩]
    (.bytes [3]) 9 4 rfl rfl (by decide) rfl (by decide) rfl (.inl rfl) rfl)
  have x12 := Exec.quiet x11 (Step.index 8 .buffers 1 .arena .arena _ [⟨5, 2⟩, ⟨6, 1⟩] ⟨6, 1⟩ rfl rfl rfl rfl)
  have x13 := Exec.quiet x12 (Step.unlock 8 .buffers (.slice 6 0 1) rfl)
  have x14 := Exec.event x13 (Step.ret 8 (.slice 6 0 1) rfl)
  have x15 := Exec.quiet x14 (Step.sub (.slice 1 0 3) (.slice 1 1 2) 1 2
    (.tail _ (.tail _ (.head _))) rfl)
  have x16 := Exec.event x15 (Step.addStringOwned 7 (.slice 1 1 2) [200, 66] [63, 66] 11 rfl (.head _)
    rfl rfl rfl)
  have x17 := Exec.quiet x16 (Step.lock 7 .strings ⟨11, 2⟩ rfl rfl)
  have x18 := Exec.quiet x17 (Step.count 7 .strings ⟨11, 2⟩ .arena _ rfl rfl)
  have x19 := Exec.quiet x18 (Step.pushFirst 7 .strings ⟨11, 2⟩ 0 .arena (.thread 7) _ (.bytes [63, 66])
    12 4 rfl rfl rfl (by decide) rfl rfl)
  have x20 := Exec.quiet x19 (Step.index 7 .strings 0 .arena .arena _ [⟨11, 2⟩] ⟨11, 2⟩ rfl rfl rfl rfl)
  have x21 := Exec.quiet x20 (Step.unlock 7 .strings (.slice 11 0 2) rfl)
  have x22 := Exec.event x21 (Step.ret 7 (.slice 11 0 2) rfl)
  have x23 := Exec.quiet x22 (Step.alloc 10 (.bytes [7, 7]) rfl)
  have x24 := Exec.quiet x23 (Step.free 10 (.bytes [7, 7]) rfl)
  refine ⟨_, x24, rfl, ?_, rfl, rfl⟩
  intro t
  simp only [St.setMem, St.setPc, St.setLock]
  by_cases h7 : t = 7
  · simp [h7]
  · by_cases h8 : t = 8
    · simp [h8]
    · simp [h7, h8, startEx]

/-- C94_own_data on the run: each of the three references leads to what was asked for. -/
example : ∃ es s, Exec 0 lossyEx startEx es s ∧
    Answered es (.buffer [1, 2]) (.slice 5 0 2) ∧ read s.mem (.slice 5 0 2) = some (.bytes [1, 2]) ∧
    Answered es (.buffer [3]) (.slice 6 0 1) ∧ read s.mem (.slice 6 0 1) = some (.bytes [3]) ∧
    Answered es (.string [200, 66]) (.slice 11 0 2) ∧
    read s.mem (.slice 11 0 2) = some (.bytes [63, 66]) := by
  obtain ⟨s, hx, -⟩ := runEx
  have a1 : Answered [.call 7 (.buffer [1, 2]), .call 8 (.buffer [3]), .ret 7 (.slice 5 0 2),
      .ret 8 (.slice 6 0 1), .call 7 (.string [200, 66]), .ret 7 (.slice 11 0 2)]
      (.buffer [1, 2]) (.slice 5 0 2) :=
    ⟨7, [], [.call 8 (.buffer [3])], _, rfl, by simp [Ev.thread]⟩
  have a2 : Answered [.call 7 (.buffer [1, 2]), .call 8 (.buffer [3]), .ret 7 (.slice 5 0 2),
      .ret 8 (.slice 6 0 1), .call 7 (.string [200, 66]), .ret 7 (.slice 11 0 2)]
      (.buffer [3]) (.slice 6 0 1) :=
    ⟨8, [_], [.ret 7 (.slice 5 0 2)], _, rfl, by simp [Ev.thread]⟩
  have a3 : Answered [.call 7 (.buffer [1, 2]), .call 8 (.buffer [3]), .ret 7 (.slice 5 0 2),
      .ret 8 (.slice 6 0 1), .call 7 (.string [200, 66]), .ret 7 (.slice 11 0 2)]
      (.string [200, 66]) (.slice 11 0 2) :=
    ⟨7, [_, _, _, _], [], [], rfl, by simp⟩
  exact ⟨_, s, hx, a1, C94_own_data startEx_start hx a1, a2, C94_own_data startEx_start hx a2, a3,
    C94_own_data startEx_start hx a3⟩

/-- C94_never_dangling on the run. -/
example : ∃ es s, Exec 0 lossyEx startEx es s ∧ .slice 6 0 1 ∈ s.held ∧
    ∀ es' s', Exec 0 lossyEx s es' s' → ∃ d, read s.mem (.slice 6 0 1) = some d ∧
      read s'.mem (.slice 6 0 1) = some d := by
  obtain ⟨s, hx, hh, -⟩ := runEx
  have h : .slice 6 0 1 ∈ s.held := by rw [hh]; simp
  exact ⟨_, s, hx, h, fun es' s' hx' => C94_never_dangling startEx_start hx h hx'⟩

/-- C94_no_deadlock where a thread waits for another. -/
example : ∃ es s, Exec 0 lossyEx startEx es s ∧ s.pc 8 = .wants .buffers ⟨6, 1⟩ ∧
    s.lock .buffers = some 7 ∧
    ∃ u e s', s.pc u ≠ .idle ∧ Step 0 lossyEx s e s' ∧ s'.pc u ≠ s.pc u := by
  have x1 := Exec.event (Exec.nil startEx) (Step.addBuffer (A := 0) (lossy := lossyEx) 7 [1, 2] 5 rfl rfl)
  have x2 := Exec.quiet x1 (Step.lock 7 .buffers ⟨5, 2⟩ rfl rfl)
  have x3 := Exec.event x2 (Step.addBuffer 8 [3] 6 rfl rfl)
  exact ⟨_, _, x3, rfl, rfl, C94_no_deadlock (t := 8) startEx_start x3 (by simp [St.setPc])⟩

/-- C94_drop on the run. -/
example : ∃ es s m', Exec 0 lossyEx startEx es s ∧
    Context.drop ⟨[.slice 11 0 2, .slice 5 0 2, .slice 1 1 2], some 1, 0⟩ s.mem = some m' ∧
    m' 2 = some (.other, .bytes [9]) ∧ m' 5 = none ∧ m' 1 = none ∧ m' 0 = none := by
  obtain ⟨s, hx, hh, hp, -, h2⟩ := runEx
  obtain ⟨m', hd, hm⟩ := C94_drop (c := ⟨[.slice 11 0 2, .slice 5 0 2, .slice 1 1 2], some 1, 0⟩)
    startEx_start hx hp (by rw [hh]; simp) rfl rfl
  have none_of : ∀ p, (∀ b, s.mem p ≠ some (.other, b)) → m' p = none := by
    intro p hp
    cases e : m' p with
    | none => rfl
    | some v =>
      obtain ⟨o, b⟩ := v
      obtain ⟨rfl, h⟩ := (hm p o b).1 e
      exact absurd h (hp b)
  obtain ⟨H, L, i⟩ := hx.inv startEx_start
  have s5 := i.done (.buffer [1, 2]) (.slice 5 0 2)
    ⟨7, [], [.call 8 (.buffer [3])], _, rfl, by simp [Ev.thread]⟩
  refine ⟨_, s, m', hx, hd, ?_, none_of 5 ?_, none_of 1 ?_, none_of 0 ?_⟩
  · exact (hm 2 .other _).2 ⟨rfl, h2⟩
  · intro b hb
    obtain ⟨-, o, b', h, hl⟩ := s5
    simp only [Ref.ptr] at h
    rw [hb] at h; cases h; cases hl <;> contradiction
  · intro b hb
    rw [i.mem.onMap 1 _ rfl] at hb; cases hb
  · intro b hb
    rw [i.mem.arena] at hb; cases hb

end Verif.Arena
