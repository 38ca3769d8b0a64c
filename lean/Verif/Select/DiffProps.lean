import Verif.Select.DiffListing
import Verif.Select.Args
import Verif.Show.FileExamples
/-!
# Property theorems: C101 (asking for less or ignoring more only leaves lines out of a diff)
-/
namespace Verif.Select
open Verif.Print Verif.Item Verif.Namespace Verif.Types Verif.Opts Verif.Merge Verif.Order Verif.Show
  Verif.Range Verif.Frame Verif.File

/-- **C101 (a part of the diff).** If the options `o` ask for no more than `o'` (so they may have
further filters by name, namespace and unit), filter functions by whether they are inline in the same
way, and ignore at least the same differences, and the diff of two files under `o'` is made, then so is
the one under `o`. Its lines, with their markers, are lines of the larger diff, in the same order; and
if it reports a difference, so does the larger one. If the filters by unit differ, no unit may have an
`@` (byte 64) in its name. -/
theorem C101_part {o o' : Options} (h : DiffNarrower o o') (c : FilePair) (n : Nat) (e : D)
    (hu : o.filterUnit = o'.filterUnit ∨ ∀ u ∈ c.a.file.units ++ c.b.file.units, 64 ∉ u.name.getD [])
    (he : fileD o' c n = some e) (i : Nat) (x : DiffPrefix) :
    ∃ d, fileD o c n = some d ∧
      ((d.lines (printOpts o) i x o.inlineDepth).map Line.render).Sublist
        ((e.lines (printOpts o') i x o'.inlineDepth).map Line.render) ∧
      (d.flag (printOpts o) i x o.inlineDepth = true → e.flag (printOpts o') i x o'.inlineDepth = true) := by
  obtain ⟨d, hd, hs⟩ := fileD_sub h c n hu e he
  refine ⟨d, hd, ?_⟩
  rw [D.lines_eq, D.lines_eq, D.flag_eq, D.flag_eq]
  obtain ⟨h1, h2⟩ := hs (printOpts o) (printOpts o') h.http h.html i x x _ _ h.depth
  refine ⟨?_, h2⟩
  have hr : ∀ l : List Line, (l.map Line.canon).map Line.render = l.map Line.render := by
    intro l
    rw [List.map_map]
    exact List.map_congr_left fun a _ => Line.render_canon a
  rw [← hr (d.den (printOpts o) i x o.inlineDepth).1, ← hr (e.den (printOpts o') i x o'.inlineDepth).1]
  exact h1.map _

/-- **C101 (command line).** Adding `--ignore` values to a command line that shows no list of calls,
or adding values other than those for function addresses, gives options that ignore more and are
otherwise the same. -/
theorem C101_arguments {a : Args} {o o' : Options} (vs : List Str) (hp : parseOptions a = some o)
    (hp' : parseOptions { a with ignore := some (given a.ignore ++ vs) } = some o')
    (hc : o.printFunctionCalls = false ∨ (k "address" ∉ vs ∧ k "function-address" ∉ vs)) :
    DiffNarrower o' o := by
  simp only [parseOptions, bind, Option.bind_eq_some_iff] at hp hp'
  obtain ⟨o1, h1, o2, h2, o3, h3, o4, h4, o5, h5, o6, h6, o7, h7, h8⟩ := hp
  obtain ⟨p1, g1, p2, g2, p3, g3, p4, g4, p5, g5, p6, g6, p7, g7, g8⟩ := hp'
  rw [h1] at g1; cases g1
  rw [h2] at g2; cases g2
  rw [h3] at g3; cases g3
  rw [h4] at g4; cases g4
  rw [h5] at g5; cases g5
  rw [h6] at g6; cases g6
  rw [applyMany_given, ignore_fold] at h7 g7
  split at h7 <;> simp only [Option.some.injEq, reduceCtorEq] at h7
  split at g7 <;> simp only [Option.some.injEq, reduceCtorEq] at g7
  have hsub : ∀ v ∈ given a.ignore, v ∈ given (some (given a.ignore ++ vs)) :=
    fun v hv => List.mem_append_left _ hv
  have key : ∀ {l : Option (List Str)} {q q' r r' : Options}, DiffNarrower q q' →
      applyPrefixes q l = some r → applyPrefixes q' l = some r' → DiffNarrower r r' := by
    intro l q q' r r' h hr hr'
    cases l with
    | none => cases hr; cases hr'; exact h
    | some ws =>
      simp only [applyPrefixes, Option.map_eq_some_iff] at hr hr'
      obtain ⟨s, e1, rfl⟩ := hr
      obtain ⟨s', e2, rfl⟩ := hr'
      suffices DiffNarrower s s' from { this with prefixMap := by simp only; rw [this.prefixMap] }
      induction ws generalizing q q' with
      | nil =>
        simp only [List.foldlM_nil, pure, Option.some.injEq] at e1 e2
        subst e1 e2; exact h
      | cons v ws ih =>
        simp only [List.foldlM_cons, bind, Option.bind_eq_some_iff] at e1 e2
        obtain ⟨t, a1, a2⟩ := e1
        obtain ⟨t', b1, b2⟩ := e2
        refine ih ?_ a2 b2
        simp only [applyPrefix1, Option.map_eq_some_iff] at a1 b1
        obtain ⟨w, c1, rfl⟩ := a1
        obtain ⟨w', c2, rfl⟩ := b1
        rw [c1] at c2
        cases c2
        exact { h with prefixMap := by simp only; rw [h.prefixMap] }
  have hcalls : ∀ {l : Option (List Str)} {q r : Options}, applyPrefixes q l = some r →
      r.printFunctionCalls = q.printFunctionCalls := by
    intro l q r hr
    cases l with
    | none => cases hr; rfl
    | some ws =>
      simp only [applyPrefixes, Option.map_eq_some_iff] at hr
      obtain ⟨s, e1, rfl⟩ := hr
      show s.printFunctionCalls = _
      induction ws generalizing q with
      | nil =>
        simp only [List.foldlM_nil, pure, Option.some.injEq] at e1
        subst e1; rfl
      | cons v ws ih =>
        simp only [List.foldlM_cons, bind, Option.bind_eq_some_iff] at e1
        obtain ⟨t, a1, a2⟩ := e1
        rw [ih a2]
        simp only [applyPrefix1, Option.map_eq_some_iff] at a1
        obtain ⟨w, c1, rfl⟩ := a1
        rfl
  have hcc := hcalls h8
  refine key ?_ g8 h8
  subst h7 g7
  have mono := fun names => en_mono (vs := given a.ignore) (ws := given a.ignore ++ vs) names
    (fun v hv => List.mem_append_left _ hv)
  have R := Narrower.refl o6
  exact {
    R with
    callAddresses := by
      intro hcall
      have hx : o.printFunctionCalls = true := by rw [hcc]; exact hcall
      rcases hc with hc | ⟨n1, n2⟩
      · rw [hc] at hx; cases hx
      · have : en ["address", "function-address"] (given a.ignore ++ vs) =
            en ["address", "function-address"] (given a.ignore) := by
          rw [Bool.eq_iff_iff, en_iff, en_iff]
          constructor
          · rintro ⟨m, hm, hv⟩
            rcases List.mem_append.1 hv with hv | hv
            · exact ⟨m, hm, hv⟩
            · simp only [List.mem_cons, List.not_mem_nil, or_false] at hm
              rcases hm with rfl | rfl
              · exact absurd hv n1
              · exact absurd hv n2
          · rintro ⟨m, hm, hv⟩
            exact ⟨m, hm, List.mem_append_left _ hv⟩
        show (o6.ignoreFunctionAddress || en ["address", "function-address"] (given a.ignore ++ vs)) =
          (o6.ignoreFunctionAddress || en ["address", "function-address"] (given a.ignore))
        rw [this]
    sameInline := rfl
    added := or_mono (fun h => h) (mono _)
    deleted := or_mono (fun h => h) (mono _)
    functionAddress := or_mono (fun h => h) (mono _)
    functionSize := or_mono (fun h => h) (mono _)
    functionInline := or_mono (fun h => h) (mono _)
    functionLinkageName := or_mono (fun h => h) (mono _)
    functionSymbolName := or_mono (fun h => h) (mono _)
    variableAddress := or_mono (fun h => h) (mono _)
    variableLinkageName := or_mono (fun h => h) (mono _)
    variableSymbolName := or_mono (fun h => h) (mono _) }

/-- **C101 (command line with filters).** A command line that asks for less, in what is written on
it, gives such options if both filter functions by whether they are inline in the same way. So adding
`--filter` values other than those to a command line without any only leaves lines out of a diff. -/
theorem C101_filters {a a' : Args} {o o' : Options} (h : AsksLess a a') (hp : parseOptions a = some o)
    (hp' : parseOptions a' = some o') (hi : o.filterFunctionInline = o'.filterFunctionInline) :
    DiffNarrower o o' := (args_narrower h hp hp').diff hi

/-! ## Concrete cases -/

private def fn (name : String) (a size : Nat) : Function := {
  name := some (k name), address := some a, size := some size, ranges := [⟨a, a + size⟩] }
private def unit1 : CompUnit := {
  name := some (k "x.c"), functions := [fn "f" 0x1010 4, fn "g" 0x1000 2, fn "h" 0x1020 1] }
private def unit2 : CompUnit := {
  name := some (k "x.c"), functions := [fn "f" 0x1010 8, fn "g" 0x1004 2] }
private def few : Options := {
  categoryUnit := true, categoryFunction := true, ignoreFunctionAddress := true, ignoreDeleted := true }
private def many : Options := {
  categoryUnit := true, categoryFunction := true, printUnitAddress := true, inlineDepth := 2 }

example : DiffNarrower few many := { (by constructor <;> simp [few, many] : Narrower few many) with
  sameInline := rfl, added := by simp [many]
  deleted := by simp [many], functionAddress := by simp [many], functionSize := by simp [many]
  functionInline := by simp [many], functionLinkageName := by simp [many]
  functionSymbolName := by simp [many], variableAddress := by simp [many]
  variableLinkageName := by simp [many], variableSymbolName := by simp [many] }

set_option maxRecDepth 4000 in
example : textD (fileD many (exFilePair 64 64 [unit1] [unit2]) 3) = (["  unit x.c\n", "- \taddress: 0x1000-0x1020\n", "+ \taddress: 0x1004-0x1017\n", "- \tfn size: 33\n",
     "+ \tfn size: 20 (-13)\n", "\n", "  fn g\n", "- \taddress: 0x1000-0x1001\n",
     "+ \taddress: 0x1004-0x1005\n", "  \tsize: 2\n", "\n", "  fn f\n", "- \taddress: 0x1010-0x1013\n",
     "+ \taddress: 0x1010-0x1017\n", "- \tsize: 4\n", "+ \tsize: 8\n", "\n", "- fn h\n",
     "- \taddress: 0x1020-0x1020\n", "- \tsize: 1\n", "\n"].flatMap k) := by
  decide +kernel

set_option maxRecDepth 4000 in
example : textD (fileD few (exFilePair 64 64 [unit1] [unit2]) 3) = (["  unit x.c\n", "- \tfn size: 33\n", "+ \tfn size: 20 (-13)\n", "\n", "  fn f\n",
     "- \taddress: 0x1010-0x1013\n", "+ \taddress: 0x1010-0x1017\n", "- \tsize: 4\n", "+ \tsize: 8\n", "\n"].flatMap k) := by
  decide +kernel

/-- The diff of one function, by its name: the pair of functions is left as it is in the larger diff. -/
private def one : Options := { categoryFunction := true, filterName := some (k "f"), filterUnit := some (k "x.c") }
private def noCode : Options := { categoryFunction := true, categoryUnit := true }

example : DiffNarrower one noCode := { (by constructor <;> simp [one, noCode] : Narrower one noCode) with
  sameInline := rfl, added := by simp [noCode]
  deleted := by simp [noCode], functionAddress := by simp [noCode], functionSize := by simp [noCode]
  functionInline := by simp [noCode], functionLinkageName := by simp [noCode]
  functionSymbolName := by simp [noCode], variableAddress := by simp [noCode]
  variableLinkageName := by simp [noCode], variableSymbolName := by simp [noCode] }

example : ∀ u ∈ (exFilePair 64 64 [unit1] [unit2]).a.file.units ++ (exFilePair 64 64 [unit1] [unit2]).b.file.units,
    64 ∉ u.name.getD [] := by decide +kernel

set_option maxRecDepth 4000 in
example : textD (fileD one (exFilePair 64 64 [unit1] [unit2]) 3) = ([
     "  fn f\n", "- \taddress: 0x1010-0x1013\n", "+ \taddress: 0x1010-0x1017\n", "- \tsize: 4\n", "+ \tsize: 8\n", "\n"].flatMap k) := by
  decide +kernel

/-! ## Why names of units with `@`, and the filter for inline functions, are excepted -/

private def codegen (n : String) (size : Nat) : CompUnit := { name := some (k n), functions := [fn "f" 0x1000 size] }
private def codegens : FilePair := exFilePair 64 64 [codegen "x.rs/@/a" 4] [codegen "x.rs/@/b" 8]

set_option maxRecDepth 4000 in
private theorem madeUnit (f : Option Str) (h : f = none ∨ f = some (k "x.rs/@/a")) :
    (fileD { categoryFunction := true, filterUnit := f } codegens 3).isSome = true := by
  rcases h with rfl | rfl <;> decide +kernel

set_option maxRecDepth 4000 in
/-- **C101 (why names of units with `@` are excepted).** Units are compared with each other by the part
of their names before an `@`, but filtered by the whole name: with such a filter, a unit that is compared
with its new version without the filter is shown as deleted, in a line the larger diff lacks. -/
theorem C101_unit_filter_witness : ∃ (o : Options) (f : Str) (c : FilePair) (n : Nat) (d e : D),
    fileD { o with filterUnit := some f } c n = some d ∧ fileD { o with filterUnit := none } c n = some e ∧
    ∃ l ∈ (d.lines (printOpts o) 0 .equal 0).map Line.render,
      l ∉ (e.lines (printOpts o) 0 .equal 0).map Line.render := by
  refine ⟨{ categoryFunction := true }, k "x.rs/@/a", codegens, 3, _, _, (Option.some_get (madeUnit _ (.inr rfl))).symm,
    (Option.some_get (madeUnit _ (.inl rfl))).symm, k "- fn f\n", ?_, ?_⟩
  · decide +kernel
  · decide +kernel

private def inlining : FilePair := exFilePair 64 64
  [{ name := some (k "x.c"), functions := [{ fn "f" 0x1000 4 with inline := true }] }]
  [{ name := some (k "x.c"), functions := [fn "f" 0x1000 8] }]

set_option maxRecDepth 4000 in
private theorem madeInline (f : Option Bool) (h : f = none ∨ f = some true) :
    (fileD { categoryFunction := true, filterFunctionInline := f } inlining 3).isSome = true := by
  rcases h with rfl | rfl <;> decide +kernel

set_option maxRecDepth 4000 in
/-- **C101 (why the filter for inline functions is excepted).** A function that is inline in one file
only is compared with its other version, unless functions are filtered by that: then it is shown as
deleted, in a line the larger diff lacks. -/
theorem C101_inline_filter_witness : ∃ (o : Options) (f : Bool) (c : FilePair) (n : Nat) (d e : D),
    fileD { o with filterFunctionInline := some f } c n = some d ∧
    fileD { o with filterFunctionInline := none } c n = some e ∧
    ∃ l ∈ (d.lines (printOpts o) 0 .equal 0).map Line.render,
      l ∉ (e.lines (printOpts o) 0 .equal 0).map Line.render := by
  refine ⟨{ categoryFunction := true }, true, inlining, 3, _, _, (Option.some_get (madeInline _ (.inr rfl))).symm,
    (Option.some_get (madeInline _ (.inl rfl))).symm, k "- fn f\n", ?_, ?_⟩
  · decide +kernel
  · decide +kernel

/-! ## Why calls are excepted -/

private def caller (size : Nat) : FileSide := {
  exFileSide 64 [{ name := some (k "x.c"), functions := [fn "f" 0x1000 size] }] with
  callsOf := fun _ => some [(0x1000, size)] }
private def callers : FilePair := ⟨caller 8, caller 9, fun a b => a == b, Path.listHeap⟩
private def withCalls : Options := { categoryFunction := true, printFunctionCalls := true }

set_option maxRecDepth 4000 in
private theorem made (b : Bool) : (fileD { withCalls with ignoreFunctionAddress := b } callers 3).isSome = true := by
  cases b <;> decide +kernel

set_option maxRecDepth 4000 in
/-- **C101 (why calls are excepted).** With the calls listed, ignoring function addresses rewrites
lines instead of leaving them out: the diff that ignores them has a line the diff that does not ignore
them lacks, though no other option differs. -/
theorem C101_calls_witness : ∃ (o : Options) (c : FilePair) (n : Nat) (d e : D),
    fileD { o with ignoreFunctionAddress := true } c n = some d ∧
    fileD { o with ignoreFunctionAddress := false } c n = some e ∧
    ∃ l ∈ (d.lines (printOpts o) 0 .equal 0).map Line.render,
      l ∉ (e.lines (printOpts o) 0 .equal 0).map Line.render := by
  refine ⟨withCalls, callers, 3, _, _, (Option.some_get (made true)).symm, (Option.some_get (made false)).symm,
    k "- \t\t0x8\n", ?_, ?_⟩
  · decide +kernel
  · decide +kernel

end Verif.Select
