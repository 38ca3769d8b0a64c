import Verif.Reloc.Spec
/-!
# C46: relocations
-/
namespace Verif.Reloc
open Verif.Print Verif.Dwarf

theorem asU64_asI64 {n : Nat} (h : n < 2 ^ 64) : asU64 (asI64 n) = n := by
  unfold asU64 asI64; split <;> omega

theorem insert_self (m : RelocationMap) (k : Nat) (r : Relocation) : insert m k r k = some r := by simp [insert]

theorem wadd_int (a b : Nat) : (wadd a b : Int) = ((a : Int) + b) % 2 ^ 64 := by unfold wadd; omega
theorem wsub_int (a b : Nat) : (wsub a b : Int) = ((a : Int) - b) % 2 ^ 64 := by unfold wsub; omega
theorem wadd_lt (a b : Nat) : wadd a b < 2 ^ 64 := by unfold wadd; omega
theorem wsub_lt (a b : Nat) : wsub a b < 2 ^ 64 := by unfold wsub; omega
theorem asU64_int (z : Int) : (asU64 z : Int) = z % 2 ^ 64 := by unfold asU64; omega

/-- What the map holds for an offset that is relocated. -/
theorem addRelocation_applies {file : ObjFile} {sec o s : Nat} {m : RelocationMap} {e : Nat × Relocation}
    (ho : o < 2 ^ 64) (h : AppliesAt file o s e) (v : Nat) :
    (relocate (addRelocation 64 file sec m e) o v : Int) = formula s (sec + o) v e.2 % 2 ^ 64 := by
  obtain ⟨o', r⟩ := e
  obtain ⟨rfl, hk, ht⟩ := h
  have ht' : targetAddress file r.target = some s := by
    obtain ⟨i, h1, h2⟩ | ⟨i, h1, h2⟩ := ht <;> simp only at h1 <;> rw [h1] <;> exact h2
  have hm : o' % 2 ^ 64 = o' := Nat.mod_eq_of_lt ho
  simp only at hk ho hm
  rcases hk with hk | hk
  · simp only [addRelocation, hm, ht', hk, relocate, formula]
    simp only [ne_eq, not_true_eq_false, if_false, if_true, true_or, reduceCtorEq]
    rw [insert_self]
    simp only [true_or, or_true, if_true]
    rw [asU64_asI64 (wadd_lt _ _)]
    split
    · rw [wadd_int, wadd_int, asU64_int]; omega
    · rw [wadd_int, asU64_int]; omega
  · simp only [addRelocation, hm, ht', hk, relocate, formula]
    simp only [ne_eq, not_true_eq_false, if_false, if_true, or_true, reduceCtorEq]
    rw [insert_self]
    simp only [true_or, or_true, if_true]
    rw [asU64_asI64 (wsub_lt _ _)]
    split
    · rw [wadd_int, wsub_int, wsub_int, wadd_int, asU64_int]; omega
    · rw [wsub_int, wsub_int, wadd_int, asU64_int]; omega

/-- An entry that does not apply at an offset leaves it alone. -/
theorem addRelocation_other {file : ObjFile} {sec o : Nat} {m : RelocationMap} {e : Nat × Relocation}
    (h : ∀ s, ¬ AppliesAt file o s e) : addRelocation 64 file sec m e o = m o := by
  obtain ⟨o', r⟩ := e
  simp only [addRelocation]
  split
  · rfl
  next hm =>
  cases hs : targetAddress file r.target with
  | none => rfl
  | some s =>
  have hne : (r.kind = .absolute ∨ r.kind = .relative) → o ≠ o' % 2 ^ 64 := by
    intro hk ho
    refine h s ⟨?_, hk, ?_⟩
    · simp only; omega
    · cases ht : r.target with
      | symbol i => rw [ht] at hs; exact .inl ⟨i, rfl, hs⟩
      | «section» i => rw [ht] at hs; exact .inr ⟨i, rfl, hs⟩
      | other => rw [ht] at hs; simp [targetAddress] at hs
  cases hk : r.kind with
  | absolute => simp only [insert, if_neg (hne (.inl hk))]
  | relative => simp only [insert, if_neg (hne (.inr hk))]
  | other => rfl

theorem addRelocations_other {file : ObjFile} {sec o : Nat} (rs : List (Nat × Relocation)) :
    ∀ {m : RelocationMap}, (∀ e ∈ rs, ∀ s, ¬ AppliesAt file o s e) → addRelocations 64 file sec m rs o = m o := by
  induction rs with
  | nil => intro m _; rfl
  | cons e rs ih =>
    intro m h
    have h1 := ih (m := addRelocation 64 file sec m e) fun e' he' => h e' (by simp [he'])
    unfold addRelocations at h1 ⊢
    rw [List.foldl_cons, h1, addRelocation_other (h e (by simp))]

/-- **C46** (relocated places). The value read at an offset is given by the last relocation that
applies there, by the rule of the object format, modulo 2^64. -/
theorem C46_relocated (file : ObjFile) (sec o s v : Nat) (pre post : List (Nat × Relocation)) (e : Nat × Relocation)
    (ho : o < 2 ^ 64) (happ : AppliesAt file o s e) (hpost : ∀ e' ∈ post, ∀ s', ¬ AppliesAt file o s' e') :
    (relocate (addRelocations 64 file sec (fun _ => none) (pre ++ e :: post)) o v : Int) =
      formula s (sec + o) v e.2 % 2 ^ 64 := by
  have h1 := addRelocations_other (sec := sec) (m := addRelocation 64 file sec (addRelocations 64 file sec (fun _ => none) pre) e)
    post hpost
  have h2 := addRelocation_applies (sec := sec) (m := addRelocations 64 file sec (fun _ => none) pre) ho happ v
  rw [← h2]
  unfold relocate
  rw [← h1]
  unfold addRelocations
  rw [List.foldl_append, List.foldl_cons]

/-- **C46** (other places). Where no relocation applies, the stored value is returned unchanged. -/
theorem C46_unrelocated (file : ObjFile) (sec o v : Nat) (rs : List (Nat × Relocation))
    (h : ∀ e ∈ rs, ∀ s, ¬ AppliesAt file o s e) :
    relocate (addRelocations 64 file sec (fun _ => none) rs) o v = v := by
  unfold relocate
  rw [addRelocations_other rs h]

/-- A host with 32-bit offsets never applies a relocation at the wrong place: one whose offset does
not fit is ignored. -/
theorem C46_no_truncation (bits : Nat) (file : ObjFile) (sec : Nat) (m : RelocationMap) (e : Nat × Relocation) (o : Nat)
    (h : addRelocation bits file sec m e o ≠ m o) : e.1 = o := by
  obtain ⟨o', r⟩ := e
  simp only [addRelocation] at h ⊢
  split at h
  · exact absurd rfl h
  next hm =>
  cases hs : targetAddress file r.target with
  | none => rw [hs] at h; exact absurd rfl h
  | some s =>
  rw [hs] at h
  rcases Decidable.em (o = o' % 2 ^ bits) with heq | hne
  · omega
  · cases hk : r.kind <;> simp only [hk, insert, if_neg hne] at h <;> exact absurd rfl h

/-- Hypotheses of `C46_relocated` at work: two relocations for offset 8, of which the second counts,
and an unsupported one after it. -/
example :
    let file : ObjFile := ⟨fun i => if i = 1 then some 4096 else none, fun i => if i = 2 then some 8192 else none⟩
    let rs : List (Nat × Relocation) :=
      [(8, ⟨.absolute, .symbol 1, 5, false⟩), (8, ⟨.relative, .section 2, -4, true⟩), (8, ⟨.absolute, .symbol 9, 0, false⟩)]
    relocate (addRelocations 64 file 256 (fun _ => none) rs) 8 16 = 8192 - 4 + 16 - 264 := by decide +kernel

/-! ### Readers -/

theorem derived_inv {r₀ r : Reader} (h : Derived r₀ r) :
    r.relocations = r₀.relocations ∧ r.bytes = r₀.bytes ∧ r.bigEndian = r₀.bigEndian ∧ r₀.pos ≤ r.pos ∧
      r.pos + r.len ≤ r₀.pos + r₀.len := by
  have hskip : ∀ {r r' : Reader} {n : Nat}, r.skip n = some r' →
      r'.relocations = r.relocations ∧ r'.bytes = r.bytes ∧ r'.bigEndian = r.bigEndian ∧ r.pos ≤ r'.pos ∧
        r'.pos + r'.len ≤ r.pos + r.len := by
    intro r r' n h
    simp only [Reader.skip] at h
    split at h
    · cases h; refine ⟨rfl, rfl, rfl, ?_, ?_⟩ <;> simp only <;> omega
    · cases h
  have htrunc : ∀ {r r' : Reader} {n : Nat}, r.truncate n = some r' →
      r'.relocations = r.relocations ∧ r'.bytes = r.bytes ∧ r'.bigEndian = r.bigEndian ∧ r.pos ≤ r'.pos ∧
        r'.pos + r'.len ≤ r.pos + r.len := by
    intro r r' n h
    simp only [Reader.truncate] at h
    split at h
    · cases h; refine ⟨rfl, rfl, rfl, Nat.le_refl _, ?_⟩; simp only; omega
    · cases h
  have hsplit : ∀ {r a b : Reader} {n : Nat}, r.split n = some (a, b) → r.truncate n = some a ∧ r.skip n = some b := by
    intro r a b n h
    simp only [Reader.split, Option.bind_eq_bind, Option.bind_eq_some_iff, Option.pure_def, Option.some.injEq, Prod.mk.injEq] at h
    obtain ⟨a', h1, b', h2, rfl, rfl⟩ := h
    exact ⟨h1, h2⟩
  have hread : ∀ {r r' : Reader} {n v : Nat}, r.read n = some (v, r') → r.skip n = some r' := by
    intro r r' n v h
    simp only [Reader.read, Reader.readRaw, Option.bind_eq_bind] at h
    simp only [Reader.skip]
    split at h <;> simp_all
  have comb : ∀ {r r' : Reader},
      (r.relocations = r₀.relocations ∧ r.bytes = r₀.bytes ∧ r.bigEndian = r₀.bigEndian ∧ r₀.pos ≤ r.pos ∧
        r.pos + r.len ≤ r₀.pos + r₀.len) →
      (r'.relocations = r.relocations ∧ r'.bytes = r.bytes ∧ r'.bigEndian = r.bigEndian ∧ r.pos ≤ r'.pos ∧
        r'.pos + r'.len ≤ r.pos + r.len) →
      (r'.relocations = r₀.relocations ∧ r'.bytes = r₀.bytes ∧ r'.bigEndian = r₀.bigEndian ∧ r₀.pos ≤ r'.pos ∧
        r'.pos + r'.len ≤ r₀.pos + r₀.len) := by
    intro r r' a b
    refine ⟨b.1.trans a.1, b.2.1.trans a.2.1, b.2.2.1.trans a.2.2.1, ?_, ?_⟩
    · have := a.2.2.2.1; have := b.2.2.2.1; omega
    · have := a.2.2.2.2; have := b.2.2.2.2; omega
  induction h with
  | start => exact ⟨rfl, rfl, rfl, Nat.le_refl _, Nat.le_refl _⟩
  | skip _ hs ih => exact comb ih (hskip hs)
  | truncate _ hs ih => exact comb ih (htrunc hs)
  | splitHead _ hs ih => exact comb ih (htrunc (hsplit hs).1)
  | splitRest _ hs ih => exact comb ih (hskip (hsplit hs).2)
  | read _ hs ih => exact comb ih (hskip (hread hs))

/-- **C46** (reading). However a reader was derived from the section's reader, reading a number of
`n` bytes gives the `n` bytes of the section at the reader's place, relocated for that place. -/
theorem C46_read (m : RelocationMap) (bytes : List Nat) (be : Bool) (r r' : Reader) (n v : Nat)
    (h : Derived (Reader.ofSection m bytes be) r) (hr : r.read n = some (v, r')) :
    r.pos + n ≤ bytes.length ∧ ((bytes.drop r.pos).take n).length = n ∧
      v = relocate m r.pos (number be ((bytes.drop r.pos).take n)) ∧ r'.pos = r.pos + n := by
  obtain ⟨h1, h2, h3, _, h5⟩ := derived_inv h
  simp only [Reader.ofSection] at h1 h2 h3 h5
  simp only [Reader.read, Reader.readRaw, Option.bind_eq_bind] at hr
  split at hr
  next hn =>
    simp only [Option.bind_some, Option.pure_def, Option.some.injEq, Prod.mk.injEq] at hr
    obtain ⟨rfl, rfl⟩ := hr
    refine ⟨by omega, ?_, ?_, rfl⟩
    · rw [List.length_take, List.length_drop]; omega
    · rw [h1, h2, h3]
  next => simp at hr

/-- Reading fails only at the end of the reader. -/
theorem C46_read_total (r : Reader) (n : Nat) : r.read n = none ↔ r.len < n := by
  simp only [Reader.read, Reader.readRaw, Option.bind_eq_bind]
  split
  · simp; omega
  · simp; omega

/-- The number read is the one whose base-256 digits are the bytes. -/
theorem C46_number (be : Bool) (bs : List Nat) (hb : ∀ b ∈ bs, b < 256) :
    number be bs < 256 ^ bs.length ∧
    ∀ k (hk : k < bs.length), number be bs / 256 ^ (if be then bs.length - 1 - k else k) % 256 = bs[k] := by
  induction bs with
  | nil => exact ⟨by simp [number], fun k hk => absurd hk (by simp)⟩
  | cons b bs ih =>
    obtain ⟨hlt, hd⟩ := ih fun x hx => hb x (by simp [hx])
    have hb0 := hb b (by simp)
    have hpos : 0 < 256 ^ bs.length := Nat.pow_pos (by omega)
    cases be with
    | false =>
      simp only [number, Bool.false_eq_true, if_false, List.length_cons] at hlt hd ⊢
      refine ⟨by rw [Nat.pow_succ]; omega, fun k hk => ?_⟩
      cases k with
      | zero => simp; omega
      | succ k =>
        have := hd k (by simp at hk; omega)
        rw [List.getElem_cons_succ, ← this, Nat.pow_succ, Nat.mul_comm (256 ^ k), ← Nat.div_div_eq_div_mul]
        congr 2; omega
    | true =>
      simp only [number, if_true, List.length_cons] at hlt hd ⊢
      constructor
      · rw [Nat.pow_succ]
        calc b * 256 ^ bs.length + number true bs < b * 256 ^ bs.length + 256 ^ bs.length := by omega
          _ = (b + 1) * 256 ^ bs.length := by rw [Nat.add_mul, Nat.one_mul]
          _ ≤ 256 * 256 ^ bs.length := Nat.mul_le_mul_right _ (by omega)
          _ = _ := Nat.mul_comm _ _
      · intro k hk
        cases k with
        | zero =>
          simp only [List.getElem_cons_zero, Nat.add_sub_cancel, Nat.sub_zero]
          rw [Nat.mul_comm, Nat.mul_add_div hpos, Nat.div_eq_of_lt hlt]; omega
        | succ k =>
          have hk' : k < bs.length := by simp at hk; omega
          have := hd k hk'
          rw [List.getElem_cons_succ, ← this]
          have he : bs.length + 1 - 1 - (k + 1) = bs.length - 1 - k := by omega
          rw [he]
          obtain ⟨j, hj⟩ : ∃ j, bs.length = (bs.length - 1 - k) + 1 + j := ⟨k, by omega⟩
          have hp : b * 256 ^ bs.length = 256 ^ (bs.length - 1 - k) * (256 * (256 ^ j * b)) := by
            conv => lhs; rw [hj, Nat.pow_add, Nat.pow_add, Nat.pow_one]
            simp [Nat.mul_assoc, Nat.mul_comm, Nat.mul_left_comm]
          rw [hp, Nat.mul_add_div (Nat.pow_pos (by omega)), Nat.mul_add_mod]

example : number false [1, 2, 3] = 1 + 2 * 256 + 3 * 65536 ∧ number true [1, 2, 3] = 65536 + 2 * 256 + 3 := by
  decide +kernel

end Verif.Reloc
