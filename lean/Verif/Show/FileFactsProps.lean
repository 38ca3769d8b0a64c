import Verif.Show.FileFacts
import Verif.Show.FileProps
import Verif.Show.FnExamples
/-!
# C87: no change of a fact about a function, a variable, a unit or a file goes unreported
-/
namespace Verif.Show
open Verif.Print Verif.Item Verif.Namespace Verif.Types Verif.Opts Verif.Range Verif.File Verif.Frame

/-- If the diff of two functions reports no difference, then everything the options have shown and
compared is the same data in both functions: name, linkage and symbol name, source, addresses, size,
inline and declaration flags, return type, parameters and local variables with their types, sizes,
addresses, registers and places in the stack frame, the stack frame, everything inlined to the depth
that is listed, call sites with their addresses, targets, sources and arguments, and the calls found
in the code. What is said about a type is its size and the text written for it. The names must be
names as in source code (`ReadableFn`, `ReadableDetails`), and `OneLocation` excludes
`C54_missed_witness`. -/
theorem C87_function (o : Options) (c : FnPair) (uid : Nat) (da db : Option Str) (n : Nat) (f g : Function)
    (e : D) (he : functionD o c uid da db n f g = some e)
    (ha : ReadableFn c.a) (hb : ReadableFn c.b) (hf : ReadableDetails (c.a.details f)) (hg : ReadableDetails (c.b.details g))
    (hloc : o.printVariableLocations = true → OneLocation (c.b.details g))
    (po : Print.Opts) (i : Nat) (x : DiffPrefix) (d : Nat) (hq : e.flag po i x d = false) :
    SameFunction o c.a c.b da db d f g := by
  obtain ⟨p, q, hp, hq', eq⟩ := C81_unreported o c uid da db n f g e he hloc po i x d hq
  exact functionText_eq ha hb hf hg hp hq' eq

/-- If the diff of two files reports no difference, the units to list can be paired, and in each pair
of units the types, functions and variables to list can be paired, so that everything shown and
compared is the same data on both sides: about the files (path, addresses, sizes, sections), the
units (name, addresses, sizes), the types (`SameType`, C84), the functions and the variables. What
has no partner was deleted or added, and the user ignores that. -/
theorem C87_file (o : Options) (c : FilePair) (n : Nat) (e : D) (he : fileD o c n = some e)
    (ha : ReadableFile c.a) (hb : ReadableFile c.b)
    (hloc : o.printVariableLocations = true → ∀ u ∈ c.b.file.units, ∀ f ∈ u.functions, OneLocation (c.b.details f))
    (i : Nat) (x : DiffPrefix) (d : Nat) (hf : e.flag (printOpts o) i x d = false) :
    SameFileFacts o c.a c.b d := by
  obtain ⟨h1, h2⟩ := C82_unreported o c n e he ha.refs hb.refs hloc i x d hf
  constructor
  · intro h
    obtain ⟨p, q, hp, hq, eq⟩ := h1 h
    obtain ⟨r, hr, hr'⟩ := filePartP_rows (http := o.http) (d := d) hp
    obtain ⟨s, hs, hs'⟩ := filePartP_rows (http := o.http) (d := d) hq
    have := rows_of_lines hr' hs' eq
    subst this
    exact file_eq ha.sections hb.sections hr hs
  · refine matched_imp h2 fun u hu v hv huv => ?_
    have hu := mem_of_wanted hu
    have hv := mem_of_wanted hv
    constructor
    · intro h
      rw [← unit_text, ← unit_text, unitName, unitName, huv.name h]
    · intro h
      obtain ⟨p, q, hp, hq, eq⟩ := huv.part h
      obtain ⟨r, hr, hr'⟩ := unitPartP_rows (http := o.http) (d := d) hp
      obtain ⟨s, hs, hs'⟩ := unitPartP_rows (http := o.http) (d := d) hq
      have := rows_of_lines hr' hs' eq
      subst this
      exact unit_eq hr hs
    · intro h
      refine matched_imp (huv.types h) fun s hs t ht hst => ?_
      obtain ⟨p, q, hp, hq, eq⟩ := hst
      have hs := ha.types u hu s (mem_of_wanted hs)
      have ht := hb.types v hv t (mem_of_wanted ht)
      exact typeP_same hp hq ha.refs hb.refs ha.members hb.members hs.1 ht.1 hs.2 ht.2 (eq 0)
    · intro h
      refine matched_imp (huv.functions h) fun s hs t ht hst => ?_
      obtain ⟨p, q, hp, hq, eq⟩ := hst
      exact functionText_eq ha.fns hb.fns (ha.functions u hu s (mem_of_wanted hs)) (hb.functions v hv t (mem_of_wanted ht))
        hp hq (eq 0)
    · intro h
      refine matched_imp (huv.variables h) fun s hs t ht hst => ?_
      obtain ⟨p, q, hp, hq, eq⟩ := hst
      cases hp
      cases hq
      exact variable_eq (ha.variables u hu s (mem_of_wanted hs)) (hb.variables v hv t (mem_of_wanted ht))
        (rows_of_lines (variableHiding_rows o _ _ s) (variableHiding_rows o _ _ t) eq)

/-! ## The hypotheses hold for concrete functions and files -/

private def frm (o : Int) : Range × Piece := (⟨0, 0⟩, ⟨0, some 32, .frameOffset o, 0, false⟩)
private def reg0 : Range × Piece := (⟨0, 0⟩, ⟨0, none, .register 0, 0, false⟩)
private def va : LocalVariable := { name := some (k "v"), ty := some 2, locations := [frm (-16)] }
private def vb : LocalVariable := { name := some (k "u"), ty := some 1, locations := [frm (-24)] }
private def site : FunctionCall := {
  callAddress := some 0x1010, origin := some (.direct { name := some (k "g") }),
  parameters := [{ name := some (k "p"), ty := some (some 1), value := [⟨0, none, .literal 3, 0, false⟩] }] }
private def detA : FunctionDetails := {
  parameters := [{ name := some (k "x"), ty := some 1, locations := [reg0] }], variables := [va, vb],
  inlined := [.mk (some 7) (some 5) [] [] [va] [] [site] {}], calls := [site] }
private def detB : FunctionDetails := { detA with variables := [vb, va] }
private def fnF : Function := {
  name := some (k "f"), address := some 0x1000, size := some 32, ranges := [⟨0x1000, 0x1020⟩], returnType := some 1 }
private def allOpts : Options := {
  printFunctionVariables := true, printVariableLocations := true, printFunctionCalls := true, printFunctionStackFrame := true,
  printSource := true, printInlinedFunctionParameters := true }

private theorem exRead (d : FunctionDetails) : ReadableFn (exFnSide d) where
  regs := by intro r; simp only [exFnSide]; split <;> decide
  plt := by simp [exFnSide]
  fns := by simp [exFnSide]
  types := by
    intro t n r hn e
    have hm : 58 ∈ ((exFnSide d).tref t).text' := by rw [e]; simp [k_colon]
    revert hm
    simp only [exFnSide, exSide]
    repeat' split
    all_goals decide

private theorem ex_inlined {l : List LocalVariable} (i : InlinedFunction)
    (h : Frame.Within ({ detA with variables := l } : FunctionDetails).inlined i) :
    i.parameters = [] ∧ i.variables = [va] ∧ i.calls = [site] := by
  cases h with
  | here h => simp only [detA, List.mem_singleton] at h; subst h; exact ⟨rfl, rfl, rfl⟩
  | deeper hj h =>
    simp only [detA, List.mem_singleton] at hj
    subst hj
    cases h with
    | here h => simp [InlinedFunction.inlined] at h
    | deeper h _ => simp [InlinedFunction.inlined] at h

private theorem plain_of (s : Str) (h : s ≠ [] ∧ 58 ∉ s ∧ 60 ∉ s ∧ 40 ∉ s) : Plain (some s) := by
  rintro t ht; cases ht; exact h

private theorem exReadDetails (l : List LocalVariable) (hl : ∀ v ∈ l, v = va ∨ v = vb) :
    ReadableDetails { detA with variables := l } where
  parameters := by
    rintro p (hp | ⟨i, hi, hp⟩)
    · simp only [detA, List.mem_singleton] at hp; subst hp; exact plain_of _ (by decide)
    · rw [(ex_inlined i hi).1] at hp; simp at hp
  variables := by
    have h : ∀ v, v = va ∨ v = vb → Plain v.name := by
      rintro v (rfl | rfl) <;> exact plain_of _ (by decide)
    rintro v (hv | ⟨i, hi, hv⟩)
    · exact h v (hl v hv)
    · rw [(ex_inlined i hi).2.1] at hv
      exact h v (.inl (by simpa using hv))
  calls := by
    have h : ReadableCall site :=
      ⟨by simp [NoEmptyPiece, site],
        by intro p hp; simp only [site, List.mem_singleton] at hp; subst hp; exact plain_of _ (by decide),
        by intro p hp; simp only [site, List.mem_singleton] at hp; subst hp; simp [NoEmptyPiece]⟩
    rintro c (hc | ⟨i, hi, hc⟩)
    · simp only [detA, List.mem_singleton] at hc; exact hc ▸ h
    · rw [(ex_inlined i hi).2.2] at hc
      simp only [List.mem_singleton] at hc; exact hc ▸ h

private theorem exOneLocation : OneLocation detB := by
  have h1 : (frameLocations [reg0]).map (·.2) = [] := by decide +kernel
  have h2 : localFrameLocations [frm (-16)] = [⟨-16, some 32⟩] := by decide +kernel
  have h3 : localFrameLocations [frm (-24)] = [⟨-24, some 32⟩] := by decide +kernel
  have hv : ∀ v, v = va ∨ v = vb → OneLoc (localFrameLocations v.locations) := by
    rintro v (rfl | rfl) x hx y hy
    · simp only [va] at hx hy; rw [h2] at hx hy; simp_all
    · simp only [vb] at hx hy; rw [h3] at hx hy; simp_all
  constructor
  · rintro p (hp | ⟨i, hi, hp⟩)
    · simp only [detB, detA, List.mem_singleton] at hp; subst hp
      intro x hx
      rw [h1] at hx
      simp at hx
    · rw [(ex_inlined i hi).1] at hp; simp at hp
  · rintro v (hm | ⟨i, hi, hm⟩)
    · simp only [detB, List.mem_cons, List.not_mem_nil, or_false] at hm
      exact hv v hm.symm
    · rw [(ex_inlined i hi).2.1] at hm
      exact hv v (.inl (by simpa using hm))

/-- The diff of a function with the one that has its local variables in another order reports no
difference, and `C87_function` applies. -/
example : SameFunction allOpts (exFnSide detA) (exFnSide detB) none none 2 fnF fnF := by
  have h : ∃ e, functionD allOpts (exFnPair detA detB) 0 none none 3 fnF fnF = some e ∧
      e.flag ⟨false, false, false, false⟩ 0 .equal 2 = false := by
    have h1 : (functionD allOpts (exFnPair detA detB) 0 none none 3 fnF fnF).map
        (fun e => e.flag ⟨false, false, false, false⟩ 0 .equal 2) = some false := by decide +kernel
    simpa [Option.map_eq_some_iff] using h1
  obtain ⟨e, he, hf⟩ := h
  exact C87_function allOpts (exFnPair detA detB) 0 none none 3 fnF fnF e he (exRead _) (exRead _)
    (exReadDetails [va, vb] (by simp)) (exReadDetails [vb, va] (by simp)) (fun _ => exOneLocation) _ _ _ _ hf

/-- The facts differ if a local variable is stored elsewhere. -/
example : ¬ SameLocal allOpts (exFnSide detA) (exFnSide detB) va { va with locations := [frm (-20)] } := by
  intro h
  have := ((h.places rfl).frame (-16) (some 4)).1 ⟨some 32, ⟨⟨0, 0⟩, _, List.mem_singleton.2 rfl, rfl, rfl, .inl rfl⟩, rfl⟩
  obtain ⟨bits, ⟨r, p, hp, -, -, hl⟩, -⟩ := this
  simp only [frm, List.mem_singleton, Prod.mk.injEq] at hp
  obtain ⟨-, rfl⟩ := hp
  simp at hl

private def unitX : CompUnit := {
  name := some (k "x.c"), functions := [fnF],
  types := [⟨some 9, .struct_ none (some (k "S")) ⟨4⟩ [⟨30, some (k "a"), some 1, 0, ⟨32⟩⟩] [] []⟩],
  variables := [{ name := some (k "v"), ty := some 1, address := some 0x2000 }] }
private def fileX : FileSide where
  toFnSide := exFnSide {}
  path := k "a.out"
  varId := fun _ => 0
  unitId := fun _ => 0
  file := {
    sections := [{ name := some (k ".text"), segment := some (k "__TEXT"), address := some 0x1000, size := 64 }],
    units := [unitX] }

/-- A file with a struct, a function and a variable can be read. -/
example : ReadableFile fileX where
  fns := exRead _
  refs := by
    intro o
    simp only [fileX, exFnSide, exSide]
    repeat' split
    all_goals decide
  members := by
    intro o t h
    have : t = .base (some (k "int")) ⟨4⟩ ∨ t = .base (some (k "long")) ⟨8⟩ ∨ t = .void := by
      revert h
      simp only [fileX, exFnSide, exSide]
      cases o with
      | none => simp [fromOffset]; grind
      | some o => simp [fromOffset]; grind
    rcases this with rfl | rfl | rfl <;> trivial
  types := by
    intro u hu t ht
    simp only [fileX, List.mem_singleton] at hu
    subst hu
    simp only [unitX, List.mem_singleton] at ht
    subst ht
    refine ⟨⟨?_, nofun⟩, nofun⟩
    intro m hm
    simp only [List.mem_singleton] at hm
    subst hm
    exact plain_of _ (by decide)
  functions := by
    intro u hu f hf
    have h : ∀ i, ¬ Frame.Within ([] : List InlinedFunction) i := by
      intro i hi
      cases hi with
      | here h => cases h
      | deeper h _ => cases h
    refine ⟨?_, ?_, ?_⟩
    · rintro p (hp | ⟨i, hi, hp⟩)
      · cases hp
      · exact absurd hi (h i)
    · rintro p (hp | ⟨i, hi, hp⟩)
      · cases hp
      · exact absurd hi (h i)
    · rintro p (hp | ⟨i, hi, hp⟩)
      · cases hp
      · exact absurd hi (h i)
  variables := by
    intro u hu v hv
    simp only [fileX, List.mem_singleton] at hu
    subst hu
    simp only [unitX, List.mem_singleton] at hv
    subst hv
    rintro ⟨a, b, e⟩
    have : titled none (some (k "v")) = [118] := by decide
    have e : a ++ [58, 32] ++ b = [118] := e.trans this
    have := congrArg List.length e
    simp at this
    omega
  sections := by
    intro x hx
    simp only [fileX, List.mem_singleton] at hx
    subst hx
    exact ⟨by intro n hn; cases hn; decide, by intro n hn; cases hn; decide⟩

end Verif.Show
