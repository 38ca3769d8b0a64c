import Verif.Base
/-!
# Model of `parser/src/range.rs`

Addresses are `Nat`. The only arithmetic in the file that can leave `u64` is
`prev.end + padding` (line 73) and the sum in `size` (line 49); `pushU64` models line 73 with the
overflow made explicit.
-/
namespace Verif.Range

/-- `Range` (parser/src/range.rs:4-11): `lo` is `begin` (inclusive), `hi` is `end`
(exclusive). -/
structure Range where
  lo : Nat
  hi : Nat
deriving DecidableEq, Repr

/-- `Range::all` (parser/src/range.rs:14-17); `!0u64`. -/
def Range.all : Range := ⟨0, 2 ^ 64 - 1⟩

/-- `Range::size` (parser/src/range.rs:20-23): `self.end - self.begin`; `none` is the
overflow panic of a debug build when `end < begin`. -/
def Range.size? (r : Range) : Option Nat := if r.lo ≤ r.hi then some (r.hi - r.lo) else none

/-- `Range::contains` (parser/src/range.rs:26-29). -/
def Range.contains (r : Range) (addr : Nat) : Bool := r.lo ≤ addr && addr < r.hi

/-- `RangeList` (parser/src/range.rs:32-36): the `ranges` vector. -/
abbrev RangeList := List Range

/-- `padding` (parser/src/range.rs:65-69): `begin == begin & !15` means "multiple of 16". -/
def padding (lo : Nat) : Nat := if lo % 16 = 0 then 15 else 0

/-- Merge test of parser/src/range.rs:73. -/
def mergeable (prev r : Range) : Bool := prev.lo ≤ r.lo && r.lo ≤ prev.hi + padding r.lo

/-- `RangeList::push` (parser/src/range.rs:55-81). Simplification: `prev.end + padding` does
not overflow (see `pushU64`). -/
def push (l : RangeList) (r : Range) : RangeList :=
  if r.hi ≤ r.lo then l
  else match l.getLast? with
    | none => l ++ [r]
    | some prev =>
      if mergeable prev r then
        l.dropLast ++ [if prev.hi < r.hi then { prev with hi := r.hi } else prev]
      else l ++ [r]

/-- `RangeList::push` (parser/src/range.rs:55-81) with 64-bit arithmetic: `none` is the overflow
panic of `prev.end + padding` at line 73, which is evaluated only if `range.begin >= prev.begin`
(a debug build; a release build wraps). -/
def pushU64 (l : RangeList) (r : Range) : Option RangeList :=
  if r.hi ≤ r.lo then some l
  else match l.getLast? with
    | none => some (l ++ [r])
    | some prev =>
      if prev.lo ≤ r.lo && decide (2 ^ 64 ≤ prev.hi + padding r.lo) then none
      else if mergeable prev r then
        some (l.dropLast ++ [if prev.hi < r.hi then { prev with hi := r.hi } else prev])
      else some (l ++ [r])

/-- Repeated `push` (e.g. parser/src/range.rs:88-90, parser/src/unit.rs `ranges`). -/
def pushAll (l : RangeList) (rs : List Range) : RangeList := rs.foldl push l

/-- `RangeList::sort` (parser/src/range.rs:84-91): stable sort by `begin`, then push
everything to an empty list. -/
def sort (l : RangeList) : RangeList :=
  pushAll [] (stableSort (fun a b => decide (a.lo ≤ b.lo)) l)

/-- `RangeList::size` (parser/src/range.rs:46-52); `none` is an overflow panic in
`Range::size`. -/
def size? : RangeList → Option Nat
  | [] => some 0
  | r :: rs => do
    let s ← r.size?
    let t ← size? rs
    pure (s + t)

/-- The loop of `RangeList::subtract` (parser/src/range.rs:97-137). The first list is
the current (possibly trimmed) range and those still to visit; the second is
`other_range` and the rest of `other_ranges`. -/
def subtractLoop : List Range → List Range → RangeList → RangeList
  | [], _, acc => acc
  | r :: rs, [], acc => subtractLoop rs [] (push acc r)
  | r :: rs, o :: os, acc =>
    if o.hi ≤ r.lo then subtractLoop (r :: rs) os acc
    else if r.hi ≤ o.lo then subtractLoop rs (o :: os) (push acc r)
    else
      let acc' := if r.lo < o.lo then push acc ⟨r.lo, o.lo⟩ else acc
      if o.hi < r.hi then subtractLoop ({ r with lo := o.hi } :: rs) os acc'
      else subtractLoop rs (o :: os) acc'
  termination_by rs os => rs.length + os.length

/-- `RangeList::subtract` (parser/src/range.rs:97-140). -/
def subtract (a b : RangeList) : RangeList := sort (subtractLoop a b [])

end Verif.Range
