import Verif.Show.FileModel
import Verif.Merge.Props
/-!
# C86: the lines of two lists of address ranges
-/
namespace Verif.Show
open Verif.Print Verif.Item Verif.Namespace Verif.Types Verif.Path Verif.Opts Verif.Merge Verif.Range
  Verif.File Verif.Order

/-- One range comes before another: it begins earlier, or begins alike and ends earlier. -/
def Earlier (x y : Range) : Prop := x.lo < y.lo ∨ (x.lo = y.lo ∧ x.hi < y.hi)

/-- The lines of a diff of two lists of ranges: one for every range of either list, in order; a line
that stands for both files has the same range in both; and (for lists in order without repetition) a
range is shown as removed or added exactly when the other list does not have it. -/
structure RangeLines (ra rb : List Range) (items : List (MergeResult Range Range)) : Prop where
  old : oldItems items = ra
  new : newItems items = rb
  same : ∀ x y, .both x y ∈ items → x = y
  removed : ra.Pairwise Earlier → rb.Pairwise Earlier → ∀ r, .left r ∈ items ↔ r ∈ ra ∧ r ∉ rb
  added : ra.Pairwise Earlier → rb.Pairwise Earlier → ∀ r, .right r ∈ items ↔ r ∈ rb ∧ r ∉ ra

theorem cmpRange_eq (x y : Range) : cmpRange x y = .eq ↔ x = y := by
  cases x; cases y
  simp only [cmpRange, Ordering.then_eq_eq, Std.LawfulEqCmp.compare_eq_iff_eq, Range.mk.injEq]

theorem cmpRange_lt (x y : Range) (h : Earlier x y) : cmpRange x y = .lt := by
  rcases h with h | ⟨h1, h2⟩
  · have : compare x.lo y.lo = .lt := Nat.compare_eq_lt.2 h
    simp [cmpRange, this]
  · have e1 : compare x.lo y.lo = .eq := Nat.compare_eq_eq.2 h1
    have e2 : compare x.hi y.hi = .lt := Nat.compare_eq_lt.2 h2
    simp [cmpRange, e1, e2]

instance : Std.TransCmp cmpRange :=
  inferInstanceAs (Std.TransCmp (compareLex (compareOn Range.lo) (compareOn Range.hi)))

theorem rangeLines_merged (ra rb : List Range) :
    RangeLines ra rb (merged cmpRange ra rb (ra.length + rb.length)) where
  old := (C18_complete cmpRange ra rb _ (Nat.le_refl _)).1
  new := (C18_complete cmpRange ra rb _ (Nat.le_refl _)).2
  same x y h := (cmpRange_eq x y).1 (C18_pair_equal cmpRange ra rb _ (Nat.le_refl _) x y h)
  removed ha hb r := by
    have := C18_deleted_iff cmpRange id id ra rb _ (Nat.le_refl _)
      (ha.imp (fun h => cmpRange_lt _ _ h)) (hb.imp (fun h => cmpRange_lt _ _ h)) r
    refine this.trans ⟨fun h => ⟨h.1, fun hr => h.2 r hr ((cmpRange_eq r r).2 rfl)⟩,
      fun h => ⟨h.1, fun b hb he => h.2 ?_⟩⟩
    rw [(cmpRange_eq r b).1 he]; exact hb
  added ha hb r := by
    have := C18_added_iff cmpRange id id ra rb _ (Nat.le_refl _)
      (ha.imp (fun h => cmpRange_lt _ _ h)) (hb.imp (fun h => cmpRange_lt _ _ h)) r
    refine this.trans ⟨fun h => ⟨h.1, fun hr => h.2 r hr ((cmpRange_eq r r).2 rfl)⟩,
      fun h => ⟨h.1, fun b hb he => h.2 ?_⟩⟩
    rw [← (cmpRange_eq b r).1 he]; exact hb

/-- The diff of lists of ranges with the given lines. -/
def linesOf (items : List (MergeResult Range Range)) : D :=
  D.ofItems (fun r => .line [] (.text (rangeSizeText r))) (fun r => .line [] (.text (rangeSizeText r)))
    (fun x y => .line [] (.text (rangeSizeText x)) (.text (rangeSizeText y))) items

/-- C86: the diff of the ranges of two units, or of the ranges without debug information of two files,
has a line for every range, and never two ranges on one line. -/
theorem C86_range_lines (ra rb : List Range) :
    ∃ items, RangeLines ra rb items ∧ rangeItemsD ra rb = linesOf items :=
  ⟨_, rangeLines_merged ra rb, rfl⟩

/-- C86: the same for the ranges of two functions, if one of them has more than one. -/
theorem C86_function_ranges (ra rb : List Range) (h : 1 < ra.length ∨ 1 < rb.length) :
    ∃ items, RangeLines ra rb items ∧ rangesD ra rb = .field true (k "addresses") (linesOf items) := by
  refine ⟨_, rangeLines_merged ra rb, ?_⟩
  unfold rangesD
  rw [if_pos h]
  rfl

/-- Two lists with a range in common and two ranges that begin alike. -/
example : ∃ items, RangeLines [⟨1, 4⟩, ⟨8, 9⟩] [⟨1, 5⟩, ⟨8, 9⟩] items ∧
    rangesD [⟨1, 4⟩, ⟨8, 9⟩] [⟨1, 5⟩, ⟨8, 9⟩] = .field true (k "addresses") (linesOf items) ∧
    .left ⟨1, 4⟩ ∈ items ∧ .right ⟨1, 5⟩ ∈ items := by
  obtain ⟨items, h, e⟩ := C86_function_ranges [⟨1, 4⟩, ⟨8, 9⟩] [⟨1, 5⟩, ⟨8, 9⟩] (by decide)
  refine ⟨items, h, e, (h.removed ?_ ?_ _).2 ?_, (h.added ?_ ?_ _).2 ?_⟩ <;> simp [Earlier]

end Verif.Show
