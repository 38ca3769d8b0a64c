import Verif.Show.FileDiffTotal
import Verif.Show.FileExamples
/-!
# C92: a concrete file that meets the conditions, and what goes wrong without them
-/
namespace Verif.Show
open Verif.Print Verif.Item Verif.Namespace Verif.Types Verif.Path Verif.Opts Verif.Merge Verif.Range
  Verif.File Verif.Order Verif.Filter Verif.Frame

def innerT : InlinedFunction := .mk (some 7) (some 4) [⟨0x1008, 0x100c⟩] [] [] []
  [{ returnAddress := some 0x100a, target := [⟨0, none, .cfaOffset (-8), 0, false⟩] }] {}
def detailsT : FunctionDetails := {
  variables := [{ name := some (k "x"), ty := some 1, locations := [(⟨0, 0⟩, ⟨0, none, .frameOffset (-16), 0, false⟩)] },
    { name := some (k "y"), ty := some 1, locations := [(⟨0, 0⟩, ⟨0, none, .frameOffset (-8), 0, false⟩)] }]
  inlined := [innerT] }
def fnT : Function := {
  name := some (k "f"), address := some 0x1000, size := some 32, ranges := [⟨0x1000, 0x1020⟩] }
def unitT : CompUnit := {
  name := some (k "x.c"), functions := [fnT],
  types := [⟨some 1, .base (some (k "int")) ⟨4⟩⟩, ⟨some 9, .struct_ none (some (k "S")) ⟨4⟩ [⟨30, some (k "a"), some 1, 0, ⟨32⟩⟩] [] []⟩],
  variables := [{ name := some (k "v"), ty := some 1, address := some 0x2000 }] }
def sideT : FileSide := { exFileSide 64 [unitT] with toFnSide := exFnSide detailsT }
def optsT : Options := {
  categoryFile := true, categoryUnit := true, categoryType := true, categoryFunction := true,
  categoryVariable := true, printUnitAddress := true, printFunctionCalls := true, printFunctionStackFrame := true,
  printVariableLocations := true, printFunctionVariables := true, printFunctionInstructions := true }

theorem entriesT : entries sideT.tsz detailsT =
    [⟨-16, some 4, some (k "x"), some 1⟩, ⟨-8, some 4, some (k "y"), some 1⟩] := by decide +kernel

/-- A file with a struct, a variable and a function that has stack variables and a call in a function
inlined into it: everything can be listed. -/
theorem unitOkT : ∀ u ∈ sideT.file.units, WantedUnit optsT u → UnitOk optsT sideT u := by
  intro u hu _
  simp only [sideT, exFileSide, List.mem_singleton] at hu
  subst hu
  have hid : ∀ t ∈ unitT.types, Acc (IdRef sideT.hash) t.kind := by
    intro t ht
    refine ⟨_, fun y ⟨o, ho, _⟩ => ?_⟩
    simp only [unitT, List.mem_cons, List.not_mem_nil, or_false] at ht
    rcases ht with rfl | rfl <;> simp [Ty.idRefs] at ho
  constructor
  · intro _ t ht _
    refine ⟨⟨hid t ht, ?_⟩, ?_⟩
    · simp only [unitT, List.mem_cons, List.not_mem_nil, or_false] at ht
      rcases ht with rfl | rfl
      · exact ⟨1, some 4, by decide +kernel⟩
      · exact ⟨1, some 4, by decide +kernel⟩
    · simp only [unitT, List.mem_cons, List.not_mem_nil, or_false] at ht
      rcases ht with rfl | rfl
      · trivial
      · refine ⟨_, fun y hy => ?_⟩
        obtain ⟨m, hm, h⟩ := hy
        simp only [membersOf, List.flatMap_nil, List.append_nil, List.mem_singleton] at hm
        subst hm
        have : inlineTy sideT.toSide ⟨30, some (k "a"), some 1, 0, ⟨32⟩⟩ = none := by decide +kernel
        rw [this] at h
        cases h
  · intro _ f hf _
    simp only [unitT, List.mem_singleton] at hf
    subst hf
    refine ⟨fun p hp => (by cases hp), ?_⟩
    have hd : sideT.details fnT = detailsT := rfl
    constructor
    · intro _
      rw [hd, entriesT]
      constructor
      · intro e he z hz
        obtain ⟨n, h1, rfl⟩ := hz
        simp only [List.mem_cons, List.not_mem_nil, or_false] at he
        rcases he with rfl | rfl <;> cases h1 <;> decide
      · intro before e f after h z hz hlt
        have hlen := congrArg List.length h
        simp only [List.length_append, List.length_cons, List.length_nil] at hlen
        have hb : before = [] := List.length_eq_zero_iff.1 (by omega)
        subst hb
        simp only [List.nil_append, List.cons.injEq] at h
        obtain ⟨rfl, rfl, -⟩ := h
        obtain ⟨n, h1, rfl⟩ := hz
        cases h1
        decide
    · intro _ _
      rw [hd]
      refine ⟨fun c hc => (by cases hc), fun i hi c hc => ?_⟩
      have hi : i = innerT := by
        cases hi with
        | here h => simpa [detailsT] using h
        | deeper h hw =>
          simp only [detailsT, List.mem_singleton] at h
          subst h
          cases hw with
          | here h => cases h
          | deeper h => cases h
      subst hi
      simp only [innerT, InlinedFunction.calls, List.mem_singleton] at hc
      subst hc
      refine ⟨fun p hp => ?_, fun a ha => (by cases ha)⟩
      simp only [List.mem_singleton] at hp
      subst hp
      exact ⟨by decide, by decide⟩
    · intro _ r _; exact ⟨_, rfl⟩
    · intro _ _; exact ⟨_, rfl⟩
  · intro _ v hv _
    simp only [unitT, List.mem_singleton] at hv
    subst hv
    intro t ht
    refine ⟨1, some 4, ?_⟩
    have : fromOffset sideT.hash (some 1) = some (.base (some (k "int")) ⟨4⟩) := by decide +kernel
    rw [show ({ name := some (k "v"), ty := some 1, address := some 0x2000 } : Variable).ty = some 1 from rfl,
      this] at ht
    cases ht
    decide +kernel

instance {α : Type} (l : List α) : Decidable (Short l) := inferInstanceAs (Decidable (l.length < 2 ^ 60))

/-- The same file can be compared. -/
example : DiffOk optsT sideT := by
  have hex1 : sideT.file.units = [unitT] := rfl
  have hin : ∀ i, Frame.Within (sideT.details fnT).inlined i → i = innerT := by
    intro i hi
    cases hi with
    | here h => simpa [sideT, exFnSide, detailsT] using h
    | deeper h hw =>
      simp only [sideT, exFnSide, detailsT, List.mem_singleton] at h
      subst h
      cases hw with
      | here h => cases h
      | deeper h => cases h
  constructor
  · intro _
    constructor
    · intro m hm
      have : sideT.file.printSummary sideT.tsz = some ⟨36, 32, 4, 0⟩ := by decide +kernel
      rw [this] at hm
      cases hm
      decide
    · exact ⟨by decide, by intro x hx; simp only [sideT, exFileSide, List.mem_singleton] at hx; subst hx; decide⟩
  · intro u hu hw
    refine ⟨unitOkT u hu hw, fun _ => ?_⟩
    rw [hex1, List.mem_singleton] at hu
    subst hu
    constructor
    · intro n hn
      have : unitT.functionSize = some 32 := by decide +kernel
      rw [this] at hn; cases hn; decide
    · intro n hn
      have : unitT.variableSize sideT.tsz = some 4 := by decide +kernel
      rw [this] at hn; cases hn; decide
    · intro n hn
      have : size? (unitT.unknownRanges sideT.tsz) = some 0 := by decide +kernel
      rw [this] at hn; cases hn; decide
  · intro _
    constructor
    · intro off t ht
      cases off with
      | none => cases ht; trivial
      | some off =>
        have ht : (List.lookup off [(1, Ty.base (some (k "int")) ⟨4⟩), (2, Ty.base (some (k "long")) ⟨8⟩)]).or none =
          some t := ht
        rw [Option.or_none] at ht
        simp only [List.lookup] at ht
        split at ht
        · cases ht; trivial
        · split at ht
          · cases ht; trivial
          · cases ht
    · intro u hu t ht
      rw [hex1, List.mem_singleton] at hu
      subst hu
      simp only [unitT, List.mem_cons, List.not_mem_nil, or_false] at ht
      rcases ht with rfl | rfl
      · exact ⟨trivial, by decide⟩
      · exact ⟨⟨by decide, fun vp h => (by cases h)⟩, by decide⟩
  · intro _ u hu f hf
    rw [hex1, List.mem_singleton] at hu
    subst hu
    simp only [unitT, List.mem_singleton] at hf
    subst hf
    constructor
    · refine ⟨⟨by decide, fun p h => (by cases h)⟩, ⟨by decide, ?_⟩, ⟨by decide, by decide⟩,
        ⟨by decide, fun c h => (by cases h)⟩⟩
      intro v hv
      simp only [sideT, exFnSide, detailsT, List.mem_cons, List.not_mem_nil, or_false] at hv
      rcases hv with rfl | rfl <;> decide
    · intro i hi
      cases hin i hi
      refine ⟨⟨by decide, fun p h => (by cases h)⟩, ⟨by decide, fun p h => (by cases h)⟩, ⟨by decide, by decide⟩,
        ⟨by decide, ?_⟩⟩
      intro c hc
      simp only [innerT, InlinedFunction.calls, List.mem_singleton] at hc
      subst hc
      exact ⟨by decide, fun p h => (by cases h)⟩
    · intro l hl
      cases hl
      decide

/-- Finding: a call site whose target is at the smallest 64-bit offset from the frame makes printing
the call sites fail, as negating the offset overflows. -/
theorem C92_offset_witness :
    let d : FunctionDetails := { calls := [{ target := [⟨0, none, .frameOffset (-(2 ^ 63)), 0, false⟩] }] }
    let s : FileSide := { exFileSide 64 [{ functions := [fnT] }] with toFnSide := exFnSide d }
    ∀ n, fileP { categoryFunction := true, printFunctionCalls := true, printVariableLocations := true } s n = none := by
  intro d s n
  have h1 : ∀ o : Options, o.printFunctionCalls = true → o.printVariableLocations = true →
      callSitesP o s.toFnSide none (s.details fnT).calls = none := by
    intro o h1 h2
    simp [s, d, exFnSide, callSitesP, listP, callSiteP, whenP, h2, piecesP, locationP, locationVal, offsetText, I64]
  generalize ho : ({ categoryFunction := true, printFunctionCalls := true, printVariableLocations := true } : Options) = o
  have h2 : functionP o s.toFnSide none n fnT = none := by
    have hc := h1 o (by rw [← ho]) (by rw [← ho])
    have : fnBodyP o s.toFnSide none n fnT = none := by
      unfold fnBodyP
      simp only [hc]
      simp [whenP, ← ho]
    simp [functionP, this]
  have hu : filterUnits s.file.units o = [{ functions := [fnT] }] := by rw [← ho]; decide +kernel
  have hf : filterFunctions { functions := [fnT] } o = [fnT] := by rw [← ho]; decide +kernel
  have hun : unitP o s n { functions := [fnT] } = none := by
    have : fnListP o s.toFnSide n { functions := [fnT] } [fnT] = none := by
      have : printOrder (functionCmpBy o n) s.hash [fnT] = some [fnT] := by rw [← ho]; rfl
      simp [fnListP, sortListP, this, listP, h2]
    have hc : o.categoryFunction = true := by rw [← ho]
    have hh : o.html = false := by rw [← ho]
    simp [unitP, unitBodyP, hf, hh, whenP, hc, this]
  have : printOrder (unitCmpBy o n) s.tsz [{ functions := [fnT] }] = some [{ functions := [fnT] }] := by
    rw [← ho]; rfl
  simp [fileP, unitsP, sortListP, hu, this, listP, hun]

end Verif.Show
