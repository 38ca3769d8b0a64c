import Verif.Turn.Files
import Verif.Show.FileExamples
/-!
# C104: exchanging the two files exchanges old and new
-/
namespace Verif.Turn
open Verif.Print Verif.Item Verif.Namespace Verif.Types Verif.Layout Verif.Path Verif.Opts Verif.Merge Verif.Range
  Verif.File Verif.Show Verif.Order

theorem Twin.together {o : Options} {e e' : D} (h : Twin (printOpts o) e e') : Together o e e' := by
  intro i x d
  simp only [D.lines_eq, D.flag_eq]
  rw [show e'.den (printOpts (turnOptions o)) i x d = e'.den (printOpts o) i x d from den_options ..]
  exact h i d x x

theorem all2_flip {α : Type} (l : List (MergeResult α α)) : All2 Flipped l (l.map flipItem) := by
  induction l with
  | nil => exact .nil
  | cons x l ih => exact .cons (by cases x <;> simp [flipItem, Flipped]) ih

theorem mirrored_map {α : Type} {m m' : Option (List (MergeResult α α))} (h : m' = m.map (·.map flipItem)) : Mirrored m m' := by
  subst h
  cases m with
  | none => exact .inl ⟨rfl, rfl⟩
  | some l => exact .inr ⟨l, _, rfl, rfl, all2_flip l⟩

/-- **C104 (pairing).** The pairing of the units, types, functions and variables of two files is the
same the other way round, with old and new exchanged: what is only in one file stays so, and the same
items are compared, in the same order. It fails one way exactly if it fails the other way. -/
theorem C104_pairing (n : Nat) (ha hb : Hash) :
    (∀ o la lb, Mirrored (mergedUnits o la lb) (mergedUnits o lb la)) ∧
    (∀ la lb, Mirrored (mergedTypes n ha la hb lb) (mergedTypes n hb lb ha la)) ∧
    (∀ la lb, Mirrored ((mergedFunctions n ha la hb lb).map (·.1)) ((mergedFunctions n hb lb ha la).map (·.1)) ∧
      Mirrored ((mergedFunctions n ha la hb lb).map (·.2)) ((mergedFunctions n hb lb ha la).map (·.2))) ∧
    (∀ la lb, Mirrored (mergedVariables la lb) (mergedVariables lb la)) := by
  refine ⟨fun o la lb => mirrored_map (mergedUnits_turn o la lb), fun la lb => mirrored_map (mergedTypes_turn n ha la hb lb),
    fun la lb => ?_, fun la lb => mirrored_map (mergedVariables_turn la lb)⟩
  rw [mergedFunctions_turn n ha la hb lb]
  constructor <;> refine mirrored_map ?_ <;> cases mergedFunctions n ha la hb lb <;> rfl

/-- **C104 (types).** Two types compared, when what reads the same in the types of the two files is
the same: the diff is shown, and a difference is reported, one way exactly if the other way. -/
theorem C104_type {c : Pair} {Ta Tb : Ty → Prop} (ra : ReadAlike c Ta Tb) (ha : ∀ o t, fromOffset c.a.hash o = some t → Ta t)
    (hb : ∀ o t, fromOffset c.b.hash o = some t → Tb t) (o : Options) (ho : o.html = false) (da db : Option Str) (n : Nat)
    (s t : TypeEntry) (hs : Ta s.kind) (ht : Tb t.kind) (e e' : D)
    (h : typeD o c da db n s t = some e) (h' : typeD (turnOptions o) (turnPair c) db da n t s = some e') :
    Together o e e' ∧ Together o (.printIfDiff e) (.printIfDiff e') := by
  have := typeD_twin (po := printOpts o) ho ra ha hb o da db n hs ht h h'
  exact ⟨this.together, (Twin.printIfDiff ho this).together⟩

/-- **C104 (functions).** Two functions compared, when what reads the same in them is the same. -/
theorem C104_function {c : FnPair} (o : Options) (ho : o.html = false)
    (da db : Option Str) (uid uid' : Nat) (n : Nat)
    (f g : Function) (ra : FnReadAlike o c da db (c.a.details f) (c.b.details g)) (rc : CallsAlike o c f g) (e e' : D)
    (h : functionD o c uid da db n f g = some e)
    (h' : functionD (turnOptions o) ⟨c.b, c.a, fun x y => c.same y x, c.heap⟩ uid' db da n g f = some e') :
    Together o e e' ∧ Together o (.printIfDiff e) (.printIfDiff e') := by
  rw [functionD_turn] at h'
  have := functionD_twin (po := printOpts o) ho uid uid' n ra rc h h'
  exact ⟨this.together, (Twin.printIfDiff ho this).together⟩

/-- **C104 (variables).** Two variables compared. -/
theorem C104_variable (o : Options) (ho : o.html = false) (c : FilePair) (da db : Option Str) (v w : Variable) :
    Together o (variableD o c da db v w) (variableD (turnOptions o) (turn c) db da w v) ∧
    Together o (.printIfDiff (variableD o c da db v w)) (.printIfDiff (variableD (turnOptions o) (turn c) db da w v)) := by
  have := variableD_twin (po := printOpts o) o c da db v w
  exact ⟨this.together, (Twin.printIfDiff ho this).together⟩

/-- **C104 (units).** Two units compared. -/
theorem C104_unit (o : Options) (ho : o.html = false) (c : FilePair) (ra : FilesReadAlike o c) (n : Nat)
    (u v : CompUnit) (hu : u ∈ c.a.file.units) (hv : v ∈ c.b.file.units) (e e' : D)
    (h : unitD o c n u v = some e) (h' : unitD (turnOptions o) (turn c) n v u = some e') :
    Together o e e' ∧ Together o (.printIfDiff e) (.printIfDiff e') := by
  have := unitD_twin (po := printOpts o) ho o ho ra.types (fun o t h => .inl ⟨o, h⟩) (fun o t h => .inl ⟨o, h⟩) n u v
    (fun x hx => .inr ⟨u, hu, x, hx, rfl⟩) (fun x hx => .inr ⟨v, hv, x, hx, rfl⟩) (fun hc => ra.functions hc u hu v hv) h h'
  exact ⟨this.together, (Twin.printIfDiff ho this).together⟩

/-- **C104 (files).** Two files compared, when what reads the same in them is the same.
With the files exchanged, and added and deleted
exchanged in the options, something is written exactly if it was before, and a difference is reported
exactly if it was before. -/
theorem C104_file (o : Options) (ho : o.html = false) (c : FilePair) (ra : FilesReadAlike o c) (n : Nat) (e e' : D)
    (h : fileD o c n = some e) (h' : fileD (turnOptions o) (turn c) n = some e') : Together o e e' :=
  (fileD_twin (po := printOpts o) ho o ho ra n h h').together

/-! ### Files that meet the hypotheses -/

private def fn (name : String) (size : Nat) : Function := {
  name := some (k name), address := some 0x1000, size := some size, ranges := [⟨0x1000, 0x1000 + size⟩] }
private def int : TypeEntry := ⟨some 1, .base (some (k "int")) ⟨4⟩⟩
private def str (ms : List Member) : TypeEntry := ⟨some 9, .struct_ none (some (k "S")) ⟨16⟩ ms [] []⟩
private def ma : Member := ⟨30, some (k "a"), some 1, 0, ⟨32⟩⟩
private def mb : Member := ⟨31, some (k "b"), some 1, 32, ⟨32⟩⟩
private def mc : Member := ⟨32, some (k "b"), some 2, 64, ⟨64⟩⟩
private def unit1 : CompUnit := {
  name := some (k "x.c"), ranges := [⟨0x1000, 0x1040⟩], functions := [fn "f" 32], types := [int, str [ma, mb]],
  variables := [{ name := some (k "v"), ty := some 1, address := some 0x2000 }] }
private def unit2 : CompUnit := {
  name := some (k "x.c"), ranges := [⟨0x1000, 0x1040⟩], functions := [fn "f" 48, fn "g" 16], types := [int, str [ma, mc]],
  variables := [{ name := some (k "v"), ty := some 2, address := some 0x2000 }] }
private def det (n : Nat) : FunctionDetails := {
  parameters := [{ name := some (k "x"), ty := some 1, locations := [(⟨0, 0⟩, ⟨0, none, .register 0, 0, false⟩)] }],
  variables := [{ name := some (k "l"), ty := some n, locations := [(⟨0, 0⟩, ⟨0, some 32, .frameOffset (-8 * n), 0, false⟩)] }],
  inlined := [.mk (some 7) (some n) [] [] [] [] [] {}]
  calls := [{ callAddress := some (0x1010 + n), origin := some (.direct { name := some (k "h") }) },
    { callAddress := some 0x1018, origin := some (.direct { name := some (k "h") }) }] }
private def side (n : Nat) (u : CompUnit) : FileSide := { exFileSide 64 [u] with toFnSide := exFnSide (det n) }
private def pair : FilePair := ⟨side 1 unit1, side 2 unit2, fun a b => a == b, listHeap⟩
private def opts : Options := {
  categoryFile := true, categoryUnit := true, categoryType := true, categoryFunction := true, categoryVariable := true,
  printFunctionVariables := true, printFunctionCalls := true, printFunctionStackFrame := true, printVariableLocations := true,
  ignoreAdded := true }


private theorem kinds (n : Nat) (u : CompUnit) (t : Ty) (h : TypeOf (side n u) t) (m : Member) (hm : MemberOf t m) :
    ∃ x ∈ u.types, MemberOf x.kind m := by
  rcases h with ⟨o, ho⟩ | ⟨v, hv, x, hx, rfl⟩
  · exfalso
    cases o with
    | none => cases ho; exact hm
    | some o =>
      simp only [fromOffset, side, exFileSide, exFnSide, exSide, Option.or_none, List.lookup] at ho
      split at ho
      · cases ho; exact hm
      · split at ho
        · cases ho; exact hm
        · cases ho
  · cases List.mem_singleton.1 hv
    exact ⟨x, hx, hm⟩

private theorem novariants (n : Nat) (u : CompUnit) (hu : u = unit1 ∨ u = unit2) (t : Ty) (h : TypeOf (side n u) t) (v : Variant) :
    ¬ VariantOf t v := by
  intro hm
  rcases h with ⟨o, ho⟩ | ⟨w, hw, x, hx, rfl⟩
  · cases o with
    | none => cases ho; exact hm
    | some o =>
      simp only [fromOffset, side, exFileSide, exFnSide, exSide, Option.or_none, List.lookup] at ho
      split at ho
      · cases ho; exact hm
      · split at ho
        · cases ho; exact hm
        · cases ho
  · cases List.mem_singleton.1 hw
    rcases hu with rfl | rfl <;>
      (simp only [unit1, unit2, List.mem_cons, List.not_mem_nil, or_false] at hx; rcases hx with rfl | rfl <;> simp [int, str, VariantOf] at hm)

private theorem pair_alike : FilesReadAlike opts pair where
  types _ := {
    member := by
      intro t u x y ht hu hx hy h
      obtain ⟨t', ht', hx'⟩ := kinds 1 unit1 t ht x hx
      obtain ⟨u', hu', hy'⟩ := kinds 2 unit2 u hu y hy
      simp only [unit1, unit2, List.mem_cons, List.not_mem_nil, or_false] at ht' hu'
      rcases ht' with rfl | rfl <;> simp only [int, str, MemberOf, List.mem_cons, List.not_mem_nil, or_false, false_and, exists_false] at hx'
      rcases hu' with rfl | rfl <;> simp only [int, str, MemberOf, List.mem_cons, List.not_mem_nil, or_false, false_and, exists_false] at hy'
      rcases hx' with rfl | rfl <;> rcases hy' with rfl | rfl
      · exact ⟨rfl, .inl ⟨_, _, rfl, rfl, by decide +kernel⟩⟩
      · exact absurd h (by decide +kernel)
      · exact absurd h (by decide +kernel)
      · exact absurd h (by decide +kernel)
    variants := fun t u x y ht hu hx => absurd hx (novariants 1 unit1 (.inl rfl) t ht x)
    enumerator := fun o p x hx => by simp [pair, FilePair.toFnPair, FnPair.toPair, side, exFileSide, exFnSide, exSide] at hx }
  functions _ u hu v hv f hf g hg := by
    have hin : ∀ n i, Inside (det n) i → i = .mk (some 7) (some n) [] [] [] [] [] {} := by
      intro n i hi
      induction hi with
      | top h => exact List.mem_singleton.1 h
      | deeper _ h ih => rw [ih] at h; simp [InlinedFunction.inlined] at h
    have hone : ∀ n, OnePlace (det n) := by
      intro n
      constructor
      · rintro p (hp | ⟨i, hi, hp⟩)
        · cases List.mem_singleton.1 hp
          intro x hx
          simp [frameLocations] at hx
        · rw [hin n i hi] at hp; cases hp
      · rintro p (hp | ⟨i, hi, hp⟩)
        · cases List.mem_singleton.1 hp
          intro x hx y hy
          simp [localFrameLocations, frameLocations] at hx hy
          rw [hx, hy]
        · rw [hin n i hi] at hp; cases hp
    have hreg : ∀ n r, RegOf (det n) r → r = 0 := by
      rintro n r (⟨p, hp | ⟨i, hi, hp⟩, hr⟩ | ⟨p, hp | ⟨i, hi, hp⟩, hr⟩)
      · cases List.mem_singleton.1 hp
        simpa [registers] using hr
      · rw [hin n i hi] at hp; cases hp
      · cases List.mem_singleton.1 hp
        simp [registers] at hr
      · rw [hin n i hi] at hp; cases hp
    refine ⟨⟨?_, ?_, ?_, fun _ => ⟨?_, ?_, ?_, ?_⟩, ?_⟩, ?_⟩
    · rintro p q (hp | ⟨i, hi, hp⟩) (hq | ⟨j, hj, hq⟩) _
      · cases List.mem_singleton.1 hp
        cases List.mem_singleton.1 hq
        exact ⟨rfl, .inl ⟨_, _, rfl, rfl, by decide +kernel⟩⟩
      · rw [hin 2 j hj] at hq; cases hq
      · rw [hin 1 i hi] at hp; cases hp
      · rw [hin 1 i hi] at hp; cases hp
    · rintro p q (hp | ⟨i, hi, hp⟩) (hq | ⟨j, hj, hq⟩) h
      · cases List.mem_singleton.1 hp
        cases List.mem_singleton.1 hq
        exact absurd h (by decide +kernel)
      · rw [hin 2 j hj] at hq; cases hq
      · rw [hin 1 i hi] at hp; cases hp
      · rw [hin 1 i hi] at hp; cases hp
    · intro i j hi hj h
      rw [hin 1 i hi, hin 2 j hj] at h
      exact absurd h (by decide +kernel)
    · exact hone 1
    · exact hone 2
    · rintro r s hr hs _
      rw [hreg 1 r hr, hreg 2 s hs]
    · rintro l m ⟨s, hs, p, rfl, hp⟩
      exfalso
      rcases hs with hs | ⟨i, hi, hs⟩
      · simp only [pair, FilePair.toFnPair, side, exFileSide, exFnSide, det, List.mem_cons, List.not_mem_nil, or_false] at hs
        rcases hs with rfl | rfl <;> simp at hp
      · rw [hin 1 i hi] at hs; cases hs
    · rintro _ p q (hp | ⟨i, hi, hp⟩) (hq | ⟨j, hj, hq⟩) h _
      · simp only [pair, side, exFileSide, exFnSide, det, List.mem_cons, List.not_mem_nil, or_false] at hp hq
        rcases hp with rfl | rfl <;> rcases hq with rfl | rfl
        · exact absurd h (by decide +kernel)
        · exact absurd h (by decide +kernel)
        · exact absurd h (by decide +kernel)
        · exact ⟨rfl, rfl, rfl, points_zero (fun h => h ⟨rfl, rfl⟩)⟩
      · rw [hin 2 j hj] at hq; cases hq
      · rw [hin 1 i hi] at hp; cases hp
      · rw [hin 1 i hi] at hp; cases hp
    · intro _ la lb hla _ p hp
      exfalso
      have : ∀ rs : List Range, (rs.mapM fun _ => (some [] : Option (List (Nat × Nat)))).map List.flatten = some [] := by
        intro rs
        induction rs with
        | nil => rfl
        | cons r rs ih =>
          simp only [Option.map_eq_some_iff] at ih ⊢
          obtain ⟨l, hl, hl'⟩ := ih
          exact ⟨[] :: l, by simp [List.mapM_cons, hl], by simpa using hl'⟩
      have hla' : (f.ranges.mapM fun _ => (some [] : Option (List (Nat × Nat)))).map List.flatten = some la := hla
      rw [this f.ranges] at hla'
      cases hla'
      cases hp

private theorem pair_some : (fileD opts pair 3).isSome = true := by decide +kernel
private theorem pair_some' : (fileD (turnOptions opts) (turn pair) 3).isSome = true := by decide +kernel

/-- Two files with differences of every kind meet the hypotheses of `C104_file`, both ways. -/
example : ∃ e e', fileD opts pair 3 = some e ∧ fileD (turnOptions opts) (turn pair) 3 = some e' ∧ Together opts e e' :=
  ⟨_, _, (Option.some_get pair_some).symm, (Option.some_get pair_some').symm,
    C104_file opts rfl pair pair_alike 3 _ _ (Option.some_get pair_some).symm
      (Option.some_get pair_some').symm⟩

/-- The struct of the two files, shown both ways. -/
example : textD (typeD {} pair.toFnPair.toPair none none 3 (str [ma, mb]) (str [ma, mc])) =
      (["  struct S\n", "  \tsize: 16\n", "  \tmembers:\n", "  \t\t0[4]\ta: int\n", "- \t\t4[4]\tb: int\n", "- \t\t8[8]\t<padding>\n",
        "+ \t\t4[4]\t<padding>\n", "+ \t\t8[8]\tb: long\n", "\n"].flatMap k) ∧
    textD (typeD {} (turnPair pair.toFnPair.toPair) none none 3 (str [ma, mc]) (str [ma, mb])) =
      (["  struct S\n", "  \tsize: 16\n", "  \tmembers:\n", "  \t\t0[4]\ta: int\n", "+ \t\t4[4]\tb: int\n", "- \t\t4[4]\t<padding>\n",
        "+ \t\t8[8]\t<padding>\n", "- \t\t8[8]\tb: long\n", "\n"].flatMap k) := by
  constructor <;> decide +kernel

example : Mirrored (mergedVariables unit1.variables unit2.variables) (mergedVariables unit2.variables unit1.variables) :=
  (C104_pairing 3 pair.a.hash pair.b.hash).2.2.2 _ _

/-! ### What is not the same both ways -/

private def loc (n : Int) : FrameLocation := ⟨n, some 32⟩

/-- The locations of a variable on the stack: one location against two of which it is the first is not
reported; two against one is. -/
theorem C104_locations_witness : ∃ l m po,
    (Frame.diffLocs [l] [l, m]).flag po 0 .equal 0 = false ∧ (Frame.diffLocs [l, m] [l]).flag po 0 .equal 0 = true :=
  ⟨loc (-16), loc (-8), ⟨false, false, false, false⟩, by decide +kernel, by decide +kernel⟩

/-- The sizes of a section: from nothing to `2 ^ 63` bytes is shown, from `2 ^ 63` bytes to nothing
overflows. -/
theorem C104_overflow_witness : ∃ x y : Section, (sectionD x y).isSome = true ∧ sectionD y x = none :=
  ⟨{ name := some (k ".text"), size := 0 }, { name := some (k ".text"), size := 2 ^ 63 }, by decide +kernel, by
    have : (sectionD { name := some (k ".text"), size := 2 ^ 63 } { name := some (k ".text"), size := 0 }).isSome = false := by
      decide +kernel
    exact Option.not_isSome_iff_eq_none.1 (by simp [this])⟩

end Verif.Turn
