import Verif.Show.FactsProps
/-! # Concrete cases for C83 and C84 -/
namespace Verif.Show
open Verif.Print Verif.Item Verif.Namespace Verif.Types Verif.Layout Verif.Path Verif.Opts Verif.Merge

private def fxOld : TypeEntry := ⟨some 3, .struct_ none (some (k "S")) ⟨16⟩
  [⟨30, some (k "a"), some 1, 0, ⟨32⟩⟩, ⟨31, some (k "f"), some 1, 37, ⟨3⟩⟩, ⟨32, some (k "b"), some 2, 64, ⟨64⟩⟩] [] []⟩

private def fxPair : Pair := ⟨exSide [(1, .base (some (k "int")) ⟨4⟩), (2, .base (some (k "long")) ⟨8⟩)],
  exSide [(1, .base (some (k "int")) ⟨4⟩), (2, .base (some (k "long")) ⟨8⟩)], fun a b => a == b, listHeap⟩

example : BitText (k "12.5") 101 := .bits (s := k "12") (q := 12) (t := k "5") (r := 5)
  ⟨by decide, by decide, by decide⟩ ⟨by decide, by decide, by decide⟩ (by decide) (by decide)

example : IntText (k "-17") (-17) := .neg (s := k "17") (n := 17) ⟨by decide, by decide, by decide⟩ (by decide)

example : ((membersP fxPair.a 2 (some fxOld.kind)).map fun p => render (p.lines false 0 .none 0)) =
    some ((["0[4]\ta: int\n", "4[0.5]\t<padding>\n", "4.5[0.3]\tf: int\n", "5[3]\t<padding>\n", "8[8]\tb: long\n"].flatMap k)) := by decide +kernel

private theorem fx_plain : PlainFile fxPair.a := by
  intro o t h
  cases o with
  | none => cases h; trivial
  | some o =>
    simp only [fromOffset, fxPair, exSide, List.lookup] at h
    split at h
    · cases h; trivial
    · split at h
      · cases h; trivial
      · cases h

/-- The hypotheses of `C84_type` are met by a struct with a bit field. -/
example : ∃ e, typeD {} fxPair none none 2 fxOld fxOld = some e ∧ (∀ o, (fxPair.a.tref o).text' ≠ []) ∧
    PlainFile fxPair.a ∧ PlainFile fxPair.b ∧ PlainTy fxOld.kind ∧
    (∀ e ∈ (fxPair.a.extra fxOld.offset).enumerators, Plain e.name) ∧ e.flag ⟨false, false, false, false⟩ 0 .equal 0 = false := by
  have h : (typeD {} fxPair none none 2 fxOld fxOld).isSome = true := by decide +kernel
  obtain ⟨e, he⟩ := Option.isSome_iff_exists.1 h
  refine ⟨e, he, ?_, fx_plain, fx_plain, ?_, by simp [fxPair, exSide], ?_⟩
  · intro o
    simp only [fxPair, exSide]
    split
    · decide
    · split <;> decide
  · refine ⟨?_, by simp⟩
    intro m hm s hs
    simp only [List.mem_cons, List.not_mem_nil, or_false] at hm
    rcases hm with rfl | rfl | rfl <;> cases hs <;> decide
  · have : (typeD {} fxPair none none 2 fxOld fxOld).map (fun e => e.flag ⟨false, false, false, false⟩ 0 .equal 0) = some false := by
      decide +kernel
    rw [he] at this
    exact Option.some.inj this

/-- A change of the offset of a bit field by one bit is reported. -/
example : (typeD {} fxPair none none 2 fxOld ⟨some 3, .struct_ none (some (k "S")) ⟨16⟩
    [⟨30, some (k "a"), some 1, 0, ⟨32⟩⟩, ⟨31, some (k "f"), some 1, 38, ⟨3⟩⟩, ⟨32, some (k "b"), some 2, 64, ⟨64⟩⟩] [] []⟩).map
    (fun e => e.flag ⟨false, false, false, false⟩ 0 .equal 0) = some true := by decide +kernel

end Verif.Show
