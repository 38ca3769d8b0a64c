import Verif.Main.Spec
/-! # Lemmas about the buffered writer -/
namespace Verif.Main
open Verif.Opts

/-- One step of the writer, from a state standing for `all`, adding `b`. -/
structure Step (cap : Nat) (k : Sink) (o : Out) (b : Str) (r : Out × Option Str) : Prop where
  len : r.1.buf.length ≤ cap
  pre : r.1.got ++ r.1.buf <+: o.got ++ o.buf ++ b
  ok : r.2 = none → r.1.got ++ r.1.buf = o.got ++ o.buf ++ b
  err : ∀ e, r.2 = some e → ∃ i n, o.calls ≤ i ∧ i < r.1.calls ∧ k i = some (n, e)
  calls : o.calls ≤ r.1.calls
  healthy : Healthy k → r.2 = none
  grow : o.got <+: r.1.got
  dead : Broken k → (∃ i, i < o.calls ∧ k i ≠ none) → r.1.got = o.got

theorem take_prefix_append (a b : Str) (n : Nat) : a ++ b.take n <+: a ++ b :=
  List.prefix_append_right_inj a |>.2 (List.take_prefix n b)

theorem flush_step (cap : Nat) (k : Sink) (o : Out) (h : o.buf.length ≤ cap) :
    Step cap k o [] (o.flush k) := by
  unfold Out.flush
  by_cases hb : o.buf = []
  · simp only [hb, if_pos]
    exact ⟨by simp [hb], by simp, fun _ => by simp, fun e he => (by cases he), Nat.le_refl _, fun _ => rfl,
      List.prefix_refl _, fun _ _ => rfl⟩
  · simp only [hb, if_false]
    cases hk : k o.calls with
    | none =>
      exact ⟨by simp, by simp, fun _ => by simp, fun e he => (by cases he), Nat.le_succ _, fun _ => rfl,
        List.prefix_append _ _, fun hbr ⟨i, hi, hn⟩ => by
          obtain ⟨e, he⟩ := hbr i _ hi hn
          rw [hk] at he; cases he⟩
    | some p =>
      obtain ⟨n, e⟩ := p
      refine ⟨by simp; omega, by simp, fun hh => (by cases hh), fun e' he => ?_, Nat.le_succ _,
        (fun hh => by rw [hh] at hk; cases hk), List.prefix_append _ _, fun hbr ⟨i, hi, hn⟩ => ?_⟩
      · cases he; exact ⟨o.calls, n, Nat.le_refl _, Nat.lt_succ_self _, hk⟩
      · obtain ⟨e', he⟩ := hbr i _ hi hn
        rw [hk] at he; cases he; simp

theorem place_step (cap : Nat) (k : Sink) (o : Out) (b : Str) (h : cap ≤ b.length → o.buf = [])
    (hl : b.length < cap → o.buf.length + b.length ≤ cap) :
    Step cap k o b (o.place cap k b) := by
  unfold Out.place
  by_cases hc : cap ≤ b.length
  · simp only [hc, if_pos]
    have hb := h hc
    unfold Out.direct
    cases hk : k o.calls with
    | none =>
      exact ⟨by simp [hb], by simp [hb], fun _ => by simp [hb], fun e he => (by cases he), Nat.le_succ _,
        fun _ => rfl, List.prefix_append _ _, fun hbr ⟨i, hi, hn⟩ => by
          obtain ⟨e, he⟩ := hbr i _ hi hn
          rw [hk] at he; cases he⟩
    | some p =>
      obtain ⟨n, e⟩ := p
      refine ⟨by simp [hb], by simpa [hb] using take_prefix_append o.got b n, fun hh => (by cases hh),
        fun e' he => ?_, Nat.le_succ _,
        (fun hh => by rw [hh] at hk; cases hk), List.prefix_append _ _, fun hbr ⟨i, hi, hn⟩ => ?_⟩
      · cases he; exact ⟨o.calls, n, Nat.le_refl _, Nat.lt_succ_self _, hk⟩
      · obtain ⟨e', he⟩ := hbr i _ hi hn
        rw [hk] at he; cases he; simp
  · simp only [hc, if_false]
    have := hl (by omega)
    exact ⟨by simp; omega, by simp, fun _ => by simp, fun e he => (by cases he), Nat.le_refl _,
      fun _ => rfl, List.prefix_refl _, fun _ _ => rfl⟩

theorem Step.trans {cap : Nat} {k : Sink} {o : Out} {b c : Str} {o' : Out} {r : Out × Option Str}
    (h1 : Step cap k o b (o', none)) (h2 : Step cap k o' c r) : Step cap k o (b ++ c) r where
  len := h2.len
  pre := by
    have := h2.pre
    rw [h1.ok rfl] at this
    simpa [List.append_assoc] using this
  ok := fun hr => by
    have := h2.ok hr
    rw [h1.ok rfl] at this
    simpa [List.append_assoc] using this
  err := fun e he => by
    obtain ⟨i, n, hi, hj, hk⟩ := h2.err e he
    exact ⟨i, n, Nat.le_trans h1.calls hi, hj, hk⟩
  calls := Nat.le_trans h1.calls h2.calls
  healthy := h2.healthy
  grow := h1.grow.trans h2.grow
  dead := fun hb hd => by
    have e1 := h1.dead hb hd
    obtain ⟨i, hi, hn⟩ := hd
    rw [h2.dead hb ⟨i, Nat.lt_of_lt_of_le hi h1.calls, hn⟩, e1]

theorem Step.weaken {cap : Nat} {k : Sink} {o : Out} {b c : Str} {o' : Out} {e : Str}
    (h1 : Step cap k o b (o', some e)) : Step cap k o (b ++ c) (o', some e) where
  len := h1.len
  pre := h1.pre.trans (by rw [← List.append_assoc]; exact List.prefix_append _ _)
  ok := fun h => (by cases h)
  err := h1.err
  calls := h1.calls
  healthy := h1.healthy
  grow := h1.grow
  dead := h1.dead

theorem flush_none_buf {k : Sink} {o o' : Out} (h : o.flush k = (o', none)) : o'.buf = [] := by
  unfold Out.flush at h
  by_cases hb : o.buf = []
  · simp only [hb, if_pos] at h; cases h; exact hb
  · simp only [hb, if_false] at h
    cases hk : k o.calls with
    | none => rw [hk] at h; cases h; rfl
    | some p => rw [hk] at h; cases h

theorem write_step (cap : Nat) (k : Sink) (o : Out) (b : Str) (h : o.buf.length ≤ cap) :
    Step cap k o b (o.write cap k b) := by
  unfold Out.write
  by_cases h1 : b.length < cap - o.buf.length
  · simp only [h1, if_pos]
    exact ⟨by simp; omega, by simp, fun _ => by simp, fun e he => (by cases he), Nat.le_refl _,
      fun _ => rfl, List.prefix_refl _, fun _ _ => rfl⟩
  · simp only [h1, if_false]
    by_cases h2 : cap - o.buf.length < b.length
    · simp only [h2, if_pos]
      have hf := flush_step cap k o h
      cases hfl : o.flush k with
      | mk o' e =>
        rw [hfl] at hf
        cases e with
        | some e => simpa using hf.weaken (c := b)
        | none =>
          have hb := flush_none_buf hfl
          have := hf.trans (place_step cap k o' b (fun _ => hb) (fun hl => by rw [hb]; simp; omega))
          simpa using this
    · simp only [h2, if_false]
      exact place_step cap k o b (fun hc => List.length_eq_zero_iff.1 (by omega)) (fun _ => by omega)

theorem writeAll_step (cap : Nat) (k : Sink) (bs : List Str) :
    ∀ o : Out, o.buf.length ≤ cap → Step cap k o bs.flatten (writeAll cap k o bs) := by
  induction bs with
  | nil =>
    intro o h
    simp only [writeAll, List.flatten_nil]
    exact ⟨h, by simp, fun _ => by simp, fun e he => (by cases he), Nat.le_refl _, fun _ => rfl,
      List.prefix_refl _, fun _ _ => rfl⟩
  | cons b bs ih =>
    intro o h
    have hw := write_step cap k o b h
    rw [writeAll, List.flatten_cons]
    cases hr : o.write cap k b with
    | mk o' e =>
      rw [hr] at hw
      cases e with
      | some e => exact hw.weaken
      | none => exact hw.trans (ih o' hw.len)

theorem drop_prefix (k : Sink) (o : Out) : (o.drop k).got <+: o.got ++ o.buf := by
  have := (flush_step o.buf.length k o (Nat.le_refl _)).pre
  simp only [List.append_nil] at this
  exact (List.prefix_append _ _).trans this

theorem drop_grow (k : Sink) (o : Out) : o.got <+: (o.drop k).got :=
  (flush_step o.buf.length k o (Nat.le_refl _)).grow

theorem drop_healthy (k : Sink) (o : Out) (h : Healthy k) : (o.drop k).got = o.got ++ o.buf := by
  unfold Out.drop Out.flush
  by_cases hb : o.buf = []
  · simp [hb]
  · simp [hb, h o.calls]

end Verif.Main
