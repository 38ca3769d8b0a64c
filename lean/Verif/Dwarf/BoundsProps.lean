import Verif.Dwarf.BoundsModel
import Verif.Dwarf.AttrProps
/-!
# C50: array dimensions, subranges, enumerators; the other types parsed on demand (C72)
-/
namespace Verif.Dwarf
open Verif.Item Verif.Types Verif.Namespace Verif.Range Verif.Sentinel Verif.File

/-! ### Specification -/

/-- How many indexes there are from `lo` to `hi`, both included. -/
def indexCount (lo hi : Nat) : Nat := ((List.range (hi + 1)).filter fun i => lo ≤ i).length

/-- The number in the last attribute `a`, if it can be read as an unsigned number. -/
def Die.numAttr (d : Die) (a : At) : Option Nat := (d.last a).bind Val.udataValue

/-- An entry's dimension entries. -/
def Die.dims (d : Die) : List Die := d.children.filter fun c => c.tag = .subrange

/-- `z` is what the `bits` low bits of the two's complement number `n` mean. -/
def SignedValue (bits n : Nat) (z : Int) : Prop :=
  -(2 ^ (bits - 1) : Int) ≤ z ∧ z < 2 ^ (bits - 1) ∧ ∃ k : Int, (n : Int) = z + k * 2 ^ bits

/-! ### Arrays -/

theorem indexCount_eq (lo hi : Nat) (h : lo ≤ hi) : indexCount lo hi = hi - lo + 1 := by
  have key : ∀ n lo, lo ≤ n → ((List.range n).filter fun i => decide (lo ≤ i)).length = n - lo := by
    intro n
    induction n with
    | zero => intro lo _; simp
    | succ n ih =>
      intro lo hlo
      rw [List.range_succ, List.filter_append, List.length_append]
      by_cases hl : lo ≤ n
      · rw [ih lo hl]; simp [hl]; omega
      · have : lo = n + 1 := by omega
        subst this
        have h0 : (List.range n).filter (fun i => decide (n + 1 ≤ i)) = [] := by
          rw [List.filter_eq_nil_iff]
          intro a ha
          have := List.mem_range.1 ha
          simp; omega
        rw [h0]; simp
  unfold indexCount
  rw [key _ _ (by omega)]
  omega

theorem dimState_eq (d : Die) :
    let s := d.attrs.foldl dimAttr {}
    s.count = d.numAttr .count ∧ s.lower = d.numAttr .lowerBound ∧ s.upper = d.numAttr .upperBound := by
  refine ⟨?_, ?_, ?_⟩
  · exact foldl_last dimAttr (·.count) .count Val.udataValue (fun s v => rfl)
      (fun s a v h => by cases a <;> first | exact absurd rfl h | rfl) d {} rfl
  · exact foldl_last dimAttr (·.lower) .lowerBound Val.udataValue (fun s v => rfl)
      (fun s a v h => by cases a <;> first | exact absurd rfl h | rfl) d {} rfl
  · exact foldl_last dimAttr (·.upper) .upperBound Val.udataValue (fun s v => rfl)
      (fun s a v h => by cases a <;> first | exact absurd rfl h | rfl) d {} rfl

/-- **C50** (one dimension). The count is the declared one; if none is declared, the number of indexes
from the lower bound (0 if none can be read) to the upper bound, unknown if there is no such index or
the number does not fit 64 bits; unknown if there is no upper bound either. -/
theorem C50_dimension (d : Die) :
    (∀ n, d.numAttr .count = some n → dimCount d = some n) ∧
    (∀ hi, d.numAttr .count = none → d.numAttr .upperBound = some hi →
      dimCount d = if (d.numAttr .lowerBound).getD 0 ≤ hi ∧ indexCount ((d.numAttr .lowerBound).getD 0) hi < 2 ^ 64
        then some (indexCount ((d.numAttr .lowerBound).getD 0) hi) else none) ∧
    (d.numAttr .count = none → d.numAttr .upperBound = none → dimCount d = none) := by
  obtain ⟨h1, h2, h3⟩ := dimState_eq d
  unfold dimCount
  simp only [h1, h2, h3]
  refine ⟨fun n hn => ?_, fun hi hc hu => ?_, fun hc hu => ?_⟩
  · rw [hn]
  · rw [hc, hu]
    simp only [checkedAdd]
    by_cases h : (d.numAttr .lowerBound).getD 0 ≤ hi
    · rw [if_pos h, indexCount_eq _ _ h]
      simp only [h, true_and]
    · rw [if_neg h, if_neg (fun hh => h hh.1)]
  · rw [hc, hu]

/-- The list of counts that the API reports for an array type. -/
def reportedCounts : Ty → List (Option Nat)
  | .array _ count counts _ => (countsAsSlice count counts).map Opt64.get
  | _ => []

/-- **C50** (arrays). The counts reported for an array are those of its dimension entries, in order
(2^64-1 being unknown, too); a single unknown one if there is none. Its element type and size are
those the attributes give. -/
theorem C50_array (d : Die) :
    reportedCounts (arrayType d) = (if d.dims = [] then [none] else d.dims.map fun c => (dimCount c).filter (· ≠ 2 ^ 64 - 1)) ∧
    ∃ count counts, arrayType d = .array (d.lastOf .type Val.offset) count counts (declaredSize d) := by
  have hget : ∀ c, (dimSize c).get = (dimCount c).filter (· ≠ 2 ^ 64 - 1) := by
    intro c
    unfold dimSize
    cases dimCount c with
    | none => rfl
    | some n =>
      simp only [Opt64.get, Opt64.isNone, Opt64.new, Opt64.none, Option.filter, beq_iff_eq, Opt64.mk.injEq, top]
      by_cases h : n = 2 ^ 64 - 1
      · simp [h]
      · simp [h]
  unfold arrayType
  simp only
  refine ⟨?_, ?_⟩
  · show reportedCounts (match d.dims.map dimSize with | [c] => _ | _ => Ty.array _ _ (d.dims.map dimSize) _) = _
    rcases hd : d.dims with - | ⟨c, - | ⟨c', cs⟩⟩
    · rfl
    · simp [reportedCounts, countsAsSlice, hget]
    · simp [reportedCounts, countsAsSlice, hget, Function.comp_def]
  · rw [typeAttr_eq, sizeAttr_last]
    split
    · exact ⟨_, _, rfl⟩
    · exact ⟨_, _, rfl⟩

/-- `int a[3][5..9]`, with a dimension of unknown size last. -/
example :
    let dim := fun attrs => Die.node 0 .subrange attrs []
    let d : Die := .node 1 .array [(.type, .ref 9)]
      [dim [(.upperBound, .data 1 2), (.count, .data 1 3)], dim [(.lowerBound, .udata 5), (.upperBound, .udata 9)], dim [(.type, .ref 9)]]
    reportedCounts (arrayType d) = [some 3, some 5, none] ∧ indexCount 5 9 = 5 := by decide +kernel

/-- Falsified: a negative lower bound is taken for 0, so an array from -2 to 2 is said to have 3
elements. -/
theorem C50_negative_lower_witness :
    dimCount (.node 0 .subrange [(.lowerBound, .sdata (-2)), (.upperBound, .sdata 2)] []) = some 3 := by decide +kernel

/-! ### Subranges -/

theorem subrangeState_eq (d : Die) :
    let s := d.attrs.foldl subrangeAttr {}
    s.name = d.strAttr .name ∧ s.ty = d.lastOf .type Val.offset ∧ s.lower = d.lastOf .lowerBound Val.udataValue ∧
    s.upper = d.lastOf .upperBound Val.udataValue ∧ s.count = d.lastOf .count Val.udataValue ∧ s.byteSize = declaredSize d := by
  have hs : ∀ (s : SubrangeState) (a : At) (v : Val), a ≠ .name → (subrangeAttr s (a, v)).name = s.name := by
    intro s a v h; cases a <;> first | exact absurd rfl h | rfl | (dsimp only [subrangeAttr]; split <;> rfl)
  refine ⟨?_, ?_, ?_, ?_, ?_, ?_⟩
  · exact foldl_last subrangeAttr (·.name) .name Val.str (fun s v => rfl) hs d {} rfl
  · refine foldl_lastSome subrangeAttr (·.ty) .type Val.offset (fun s v => ?_) (fun s a v h => ?_) d {} rfl
    · dsimp only [subrangeAttr]; cases v.offset <;> rfl
    · cases a <;> first | exact absurd rfl h | rfl | (dsimp only [subrangeAttr]; split <;> rfl)
  · refine foldl_lastSome subrangeAttr (·.lower) .lowerBound Val.udataValue (fun s v => ?_) (fun s a v h => ?_) d {} rfl
    · dsimp only [subrangeAttr]; cases v.udataValue <;> rfl
    · cases a <;> first | exact absurd rfl h | rfl | (dsimp only [subrangeAttr]; split <;> rfl)
  · refine foldl_lastSome subrangeAttr (·.upper) .upperBound Val.udataValue (fun s v => ?_) (fun s a v h => ?_) d {} rfl
    · dsimp only [subrangeAttr]; cases v.udataValue <;> rfl
    · cases a <;> first | exact absurd rfl h | rfl | (dsimp only [subrangeAttr]; split <;> rfl)
  · refine foldl_lastSome subrangeAttr (·.count) .count Val.udataValue (fun s v => ?_) (fun s a v h => ?_) d {} rfl
    · dsimp only [subrangeAttr]; cases v.udataValue <;> rfl
    · cases a <;> first | exact absurd rfl h | rfl | (dsimp only [subrangeAttr]; split <;> rfl)
  · refine foldl_lastOf subrangeAttr (·.byteSize) .byteSize _ (fun s v => ?_) (fun s a v h => ?_) d {}
    · exact sizeAttr_eq _ _
    · cases a <;> first | exact absurd rfl h | rfl | (dsimp only [subrangeAttr]; split <;> rfl)

/-- **C50** (subranges). Name, base type, size and lower bound are those the attributes give. The
upper bound is the declared one; but if a lower bound and a count are given, it is their sum (one more
than the last index), modulo 2^64. -/
theorem C50_subrange (d : Die) :
    ∃ upper, subrangeType d =
        .subrange (d.strAttr .name) (d.lastOf .type Val.offset) (d.lastOf .lowerBound Val.udataValue) upper (declaredSize d) ∧
      (∀ lo n, d.lastOf .lowerBound Val.udataValue = some lo → d.lastOf .count Val.udataValue = some n →
        upper = some ((lo + n) % 2 ^ 64)) ∧
      (d.lastOf .lowerBound Val.udataValue = none ∨ d.lastOf .count Val.udataValue = none →
        upper = d.lastOf .upperBound Val.udataValue) := by
  obtain ⟨h1, h2, h3, h4, h5, h6⟩ := subrangeState_eq d
  refine ⟨(d.attrs.foldl subrangeAttr {}).bound, ?_, ?_, ?_⟩
  · unfold subrangeType
    simp only [h1, h2, h3, h6]
  · intro lo n hl hn
    simp only [SubrangeState.bound, h3, h5, hl, hn]
  · rintro (h | h)
    · simp only [SubrangeState.bound, h3, h4, h]
    · simp only [SubrangeState.bound, h3, h4, h5, h]
      cases d.lastOf .lowerBound Val.udataValue <;> rfl

/-- Falsified: the subrange 0, ..., 9 of ten numbers is reported with the upper bound 10; and with a
count that does not fit, the upper bound is below the lower one. -/
theorem C50_subrange_witness :
    subrangeType (.node 0 .subrange [(.lowerBound, .udata 0), (.count, .udata 10)] []) =
      .subrange none none (some 0) (some 10) Opt64.none ∧
    subrangeType (.node 0 .subrange [(.lowerBound, .udata 5), (.count, .udata (2 ^ 64 - 1))] []) =
      .subrange none none (some 5) (some 4) Opt64.none := by decide +kernel

example : subrangeType (.node 0 .subrange [(.name, .string (some [120])), (.upperBound, .udata 9), (.lowerBound, .udata 2)] []) =
    .subrange (some [120]) none (some 2) (some 9) Opt64.none := by decide +kernel

/-! ### Enumerators -/

/-- **C50** (enumerators). The enumerators of an enumeration are its enumerator entries, in order,
each with its name and the last value that can be read. -/
theorem C50_enumerators (e : Encoding) (d : Die) :
    enumerators e d = (d.children.filter fun c => c.tag = .enumerator).map fun c =>
      { name := c.strAttr .name, value := (c.lastOf .constValue (enumValue e)).getD .other } := by
  unfold enumerators
  congr 1
  funext c
  have h1 : (c.attrs.foldl (enumAttr e) {}).name = c.strAttr .name :=
    foldl_last (enumAttr e) (·.name) .name Val.str (fun s v => rfl)
      (fun s a v h => by cases a <;> first | exact absurd rfl h | rfl | (dsimp only [enumAttr]; split <;> rfl)) c {} rfl
  have h2 : (c.attrs.foldl (enumAttr e) {}).value = (c.lastOf .constValue (enumValue e)).getD .other :=
    foldl_lastOf (enumAttr e) (·.value) .constValue (enumValue e)
      (fun s v => by dsimp only [enumAttr]; cases enumValue e v <;> rfl)
      (fun s a v h => by cases a <;> first | exact absurd rfl h | rfl) c {}
  rw [← h1, ← h2]

theorem pow_even {k : Nat} (h : 0 < k) : (2 : Int) ^ (8 * k) = 2 * 2 ^ (8 * k - 1) := by
  have : 8 * k = (8 * k - 1) + 1 := by omega
  rw [this, Int.pow_succ]
  simp only [Nat.add_sub_cancel]
  omega

/-- The encodings whose values are not negative: unsigned integers and characters, truth values and
addresses. -/
def NonNegative (e : Encoding) : Prop := e = .unsigned ∨ e = .unsignedChar ∨ e = .boolean ∨ e = .address

theorem isUnsigned_iff (e : Encoding) : e.isUnsigned = true ↔ NonNegative e := by
  cases e <;> simp [Encoding.isUnsigned, NonNegative]

/-- **C50** (values). For an unsigned underlying type the value is the stored number. Otherwise it is
the number that the stored bytes mean in two's complement. -/
theorem C50_value (e : Encoding) :
    (NonNegative e → ∀ v, enumValue e v = v.udataValue.map .unsigned) ∧
    (¬ NonNegative e → ∀ k n, 0 < k → n < 2 ^ (8 * k) →
      ∃ z, enumValue e (.data k n) = some (.signed z) ∧ SignedValue (8 * k) n z ∧
        ∀ z', SignedValue (8 * k) n z' → z' = z) ∧
    (¬ NonNegative e → ∀ z, enumValue e (.sdata z) = some (.signed z)) := by
  simp only [← isUnsigned_iff, Bool.not_eq_true]
  refine ⟨fun h v => by simp [enumValue, h], fun h k n hk hn => ?_, fun h z => by simp [enumValue, h, Val.sdataValue]⟩
  have hp := pow_even hk
  have hn' : (n : Int) < 2 ^ (8 * k) := by exact_mod_cast hn
  have h0 : (0 : Int) < 2 ^ (8 * k - 1) := Int.pow_pos (by decide)
  refine ⟨if n < 2 ^ (8 * k - 1) then n else (n : Int) - 2 ^ (8 * k), by simp [enumValue, h, Val.sdataValue], ?_, ?_⟩
  · unfold SignedValue
    split
    · next hlt =>
      have : (n : Int) < 2 ^ (8 * k - 1) := by exact_mod_cast hlt
      exact ⟨by omega, this, 0, by simp⟩
    · next hlt =>
      have : (2 : Int) ^ (8 * k - 1) ≤ n := by exact_mod_cast Nat.le_of_not_lt hlt
      exact ⟨by omega, by omega, 1, by omega⟩
  · rintro z' ⟨h1, h2, q, h3⟩
    have hb : q = 0 ∨ q = 1 := by
      have hq0 : 0 ≤ q := by
        by_cases hq : 0 ≤ q
        · exact hq
        · exfalso
          have : q * 2 ^ (8 * k) ≤ -1 * 2 ^ (8 * k) := Int.mul_le_mul_of_nonneg_right (by omega) (by omega)
          omega
      have hq1 : q ≤ 1 := by
        by_cases hq : q ≤ 1
        · exact hq
        · exfalso
          have : 2 * 2 ^ (8 * k) ≤ q * 2 ^ (8 * k) := Int.mul_le_mul_of_nonneg_right (by omega) (by omega)
          omega
      omega
    rcases hb with rfl | rfl
    · have hz : (n : Int) = z' := by omega
      rw [if_pos (by have : (n : Int) < 2 ^ (8 * k - 1) := by omega
                     exact_mod_cast this)]
      omega
    · rw [if_neg (by intro hc
                     have : (n : Int) < 2 ^ (8 * k - 1) := by exact_mod_cast hc
                     omega)]
      omega

/-- `enum { a = -1, b = 200 }` with one byte of storage. -/
example :
    let d : Die := .node 0 .enumeration [] [.node 1 .enumerator [(.name, .string (some [97])), (.constValue, .data 1 255)] [],
      .node 2 .other [] [], .node 3 .enumerator [(.constValue, .data 1 200)] []]
    enumerators .signed d = [⟨some [97], .signed (-1)⟩, ⟨none, .signed (-56)⟩] ∧
    enumerators .unsignedChar d = [⟨some [97], .unsigned 255⟩, ⟨none, .unsigned 200⟩] := by decide +kernel

/-! ### The other types -/

/-- **C72** (types parsed on demand). What is parsed is decided by the tag of the entry: an array, a
subrange, a subroutine type, a pointer to a member, a modified type; nothing for any other tag. -/
theorem C72_unnamed (addressSize : Nat) (d : Die) :
    (d.tag = .array → unnamedType addressSize d = some (arrayType d)) ∧
    (d.tag = .subrange → unnamedType addressSize d = some (subrangeType d)) ∧
    (d.tag = .subroutine → unnamedType addressSize d =
      some (.function ((addParams [] d.children).map (·.ty)) (d.lastOf .type Val.offset) (Opt64.new addressSize))) ∧
    (d.tag = .ptrToMember → unnamedType addressSize d =
      some (.pointerToMember (d.lastOf .type Val.offset) (d.lastOf .containingType Val.offset) (declaredSize d) (some addressSize))) ∧
    (∀ k, d.tag = .modifier k → unnamedType addressSize d =
      some (.modifier k (d.lastOf .type Val.offset) (declaredSize d) (some addressSize))) ∧
    ((unnamedType addressSize d).isSome ↔ d.tag = .array ∨ d.tag = .subrange ∨ d.tag = .subroutine ∨
      d.tag = .ptrToMember ∨ ∃ k, d.tag = .modifier k) := by
  refine ⟨fun h => ?_, fun h => ?_, fun h => ?_, fun h => ?_, fun k h => ?_, ?_⟩
  · simp only [unnamedType, h]
  · simp only [unnamedType, h]
  · simp only [unnamedType, h]
    unfold subroutineType; rw [typeAttr_eq]
  · simp only [unnamedType, h]
    unfold pointerToMemberType
    rw [typeAttr_eq, sizeAttr_last]
    congr 2
    exact foldl_lastSome (fun s av => if av.1 = .containingType then (match av.2.offset with | some o => some o | none => s) else s) id
      .containingType Val.offset (fun s v => by simp only [if_true, id_eq]; cases v.offset <;> rfl)
      (fun s a v h => by simp [h]) d none rfl
  · simp only [unnamedType, h]
    unfold modifierType; rw [typeAttr_eq, sizeAttr_last]; rfl
  · unfold unnamedType
    cases d.tag <;> simp

example : unnamedType 8 (.node 3 .ptrToMember [(.type, .ref 7), (.containingType, .ref 9)] []) =
    some (.pointerToMember (some 7) (some 9) Opt64.none (some 8)) := by decide +kernel

example : modifierType 8 .pointer (.node 3 (.modifier .pointer) [(.type, .ref 7), (.byteSize, .udata 4)] []) =
    .modifier .pointer (some 7) ⟨4⟩ (some 8) := by decide +kernel

end Verif.Dwarf
