import Verif.Show.FnProps
import Verif.Show.TypeProps
/-!
# Concrete functions for C81, and what the listing and the diff of functions get wrong
-/
namespace Verif.Show
open Verif.Print Verif.Item Verif.Namespace Verif.Types Verif.Path Verif.Opts Verif.Merge Verif.Range
  Verif.Frame

/-- A file with `int` (4 bytes) and `long` (8 bytes), in which every function has the details `d`. -/
def exFnSide (d : FunctionDetails) : FnSide where
  toSide := exSide [(1, .base (some (k "int")) ⟨4⟩), (2, .base (some (k "long")) ⟨8⟩)]
  regName := fun r => if r = 0 then some (k "rax") else none
  fnAt := fun o => if o = some 7 then some { name := some (k "callee") } else none
  fnByAddress := fun _ => none
  fnId := fun _ => 0
  details := fun _ => d
  plt := fun _ => none
  callsOf := fun _ => some []
  insns := fun _ => some (.line [] (.text (k "nop")))

/-- Two such files. -/
def exFnPair (d e : FunctionDetails) : FnPair := ⟨exFnSide d, exFnSide e, fun a b => a == b, listHeap⟩

/-- What is written for a diff. -/
def textD (d : Option D) : Str :=
  match d with
  | some e => render (e.lines ⟨false, false, false, false⟩ 0 .equal 3)
  | none => []

/-- What is written for a listing. -/
def textP (p : Option P) : Str :=
  match p with
  | some p => render (p.lines false 0 .none 3)
  | none => []

private def reg0 : Range × Piece := (⟨0, 0⟩, ⟨0, none, .register 0, 0, false⟩)
private def frm (o : Int) : Range × Piece := (⟨0, 0⟩, ⟨0, some 32, .frameOffset o, 0, false⟩)
private def det1 : FunctionDetails :=
  { parameters := [{ name := some (k "x"), ty := some 1, locations := [reg0] }],
    variables := [{ name := some (k "v"), ty := some 2, locations := [frm (-16)] }, { name := some (k "u"), ty := some 1 }],
    inlined := [.mk (some 7) (some 5) [] [] [] [.mk (some 7) (some 2) [] [] [] [] [] {}] [] {}],
    calls := [{
      callAddress := some 0x1010, origin := some (.direct { name := some (k "g") }),
      parameters := [{ name := some (k "p"), ty := some (some 1), value := [⟨0, none, .literal 3, 0, false⟩] }] }] }
private def det2 : FunctionDetails :=
  { parameters := [{ name := some (k "x"), ty := some 2, locations := [reg0] }],
    variables := [{ name := some (k "u"), ty := some 1 }, { name := some (k "v"), ty := some 2, locations := [frm (-24)] }],
    inlined := [.mk (some 7) (some 5) [] [] [] [] [] {}],
    calls := [{ callAddress := some 0x1020, origin := some (.direct { name := some (k "g") }) }] }

private def fnA : Function := {
  name := some (k "f"), address := some 0x1000, size := some 32,
  ranges := [⟨0x1000, 0x1020⟩], returnType := some 1 }
private def fnB : Function := {
  name := some (k "f"), address := some 0x1000, size := some 48,
  ranges := [⟨0x1000, 0x1030⟩], returnType := some 1 }
private def opts1 : Options := { printFunctionVariables := true, printVariableLocations := true, printFunctionCalls := true }

example : textP (functionP opts1 (exFnSide det1) none 3 fnA) = (["fn f\n", "\taddress: 0x1000-0x101f\n", "\tsize: 32\n", "\treturn type:\n", "\t\t[4]\tint\n", "\tparameters:\n", "\t\t[4]\tx: int\n", "\t\t\tregisters:\n", "\t\t\t\trax\n", "\tvariables:\n", "\t\t[8]\tv: long\n", "\t\t\tstack frame: -16[4]\n", "\t\t[4]\tu: int\n", "\tinlined functions:\n", "\t\t[5]\tcallee\n", "\t\t\t[2]\tcallee\n", "\tcall sites:\n", "\t\tcall at 0x1010 -> g\n", "\t\t\tparameters:\n", "\t\t\t\tp: int\n", "\t\t\t\t\tvalue:\n", "\t\t\t\t\t\t0x3\n", "\n"].flatMap k) := by
  decide +kernel

example : textD (functionD opts1 (exFnPair det1 det2) 0 none none 3 fnA fnB) = (["  fn f\n", "- \taddress: 0x1000-0x101f\n", "+ \taddress: 0x1000-0x102f\n", "- \tsize: 32\n", "+ \tsize: 48\n", "  \treturn type:\n", "  \t\t[4]\tint\n", "  \tparameters:\n", "- \t\t[4]\tx: int\n", "+ \t\t[8]\tx: long\n", "  \t\t\tregisters:\n", "  \t\t\t\trax\n", "  \tvariables:\n", "  \t\t[4]\tu: int\n", "  \t\t[8]\tv: long\n", "- \t\t\tstack frame: -16[4]\n", "+ \t\t\tstack frame: -24[4]\n", "  \tinlined functions:\n", "  \t\t[5]\tcallee\n", "- \t\t\t[2]\tcallee\n", "  \tcall sites:\n", "- \t\tcall at 0x1010 -> g\n", "+ \t\tcall at 0x1020 -> g\n", "  \t\t\tparameters:\n", "- \t\t\t\tp: int\n", "- \t\t\t\t\tvalue:\n", "- \t\t\t\t\t\t0x3\n", "\n"].flatMap k) := by
  decide +kernel

/-! The hypotheses of the theorems hold for these functions. -/

example : SameAddressForm fnA.ranges fnB.ranges := by simp [SameAddressForm, fnA, fnB]

example : NamedFn (exFnSide det1) where
  regs := by intro r; simp only [exFnSide]; split <;> decide
  plt := by simp [exFnSide]
  fns := by simp [exFnSide]
  insns := by
    intro f p hp http i x d
    cases hp
    cases i <;> simp [P.lines_eq, P.ls, Val.text', k, Str.ofString]

private theorem det1_inlined (i : InlinedFunction) (h : Within det1.inlined i) :
    i.parameters = [] ∧ i.variables = [] ∧ i.calls = [] := by
  cases h with
  | here h => simp only [det1, List.mem_singleton] at h; subst h; exact ⟨rfl, rfl, rfl⟩
  | deeper hj h =>
    simp only [det1, List.mem_singleton] at hj
    subst hj
    cases h with
    | here h =>
      simp only [InlinedFunction.inlined, List.mem_singleton] at h
      subst h
      exact ⟨rfl, rfl, rfl⟩
    | deeper hj h =>
      simp only [InlinedFunction.inlined, List.mem_singleton] at hj
      subst hj
      cases h with
      | here h => simp [InlinedFunction.inlined] at h
      | deeper h _ => simp [InlinedFunction.inlined] at h

example : OneLocation det1 := by
  constructor
  · rintro p (hp | ⟨i, hi, hp⟩)
    · simp only [det1, List.mem_singleton] at hp; subst hp
      intro x hx
      have h1 : (frameLocations [reg0]).map (·.2) = [] := by decide +kernel
      rw [h1] at hx
      simp at hx
    · rw [(det1_inlined i hi).1] at hp; simp at hp
  · rintro p (hp | ⟨i, hi, hp⟩)
    · simp only [det1, List.mem_cons, List.not_mem_nil, or_false] at hp
      rcases hp with rfl | rfl
      · intro x hx y hy
        have h1 : localFrameLocations [frm (-16)] = [⟨-16, some 32⟩] := by decide +kernel
        rw [h1] at hx hy
        simp_all
      · intro x hx
        have h1 : localFrameLocations [] = [] := by decide +kernel
        rw [h1] at hx
        simp at hx
    · rw [(det1_inlined i hi).2.1] at hp; simp at hp

example : ∀ x, CallOf det1 x → NamedCall x := by
  rintro x (hx | ⟨i, hi, hx⟩)
  · simp only [det1, List.mem_singleton] at hx; subst hx
    exact ⟨by simp [NoEmptyPiece], by simp [k, Str.ofString], by simp [NoEmptyPiece]⟩
  · rw [(det1_inlined i hi).2.2] at hx; simp at hx

example : VarsByName det2 := by
  refine ⟨by decide +kernel, fun i h => ?_⟩
  cases h with
  | here h => simp only [det2, List.mem_singleton] at h; subst h; exact .nil
  | deeper hj h =>
    simp only [det2, List.mem_singleton] at hj
    subst hj
    cases h with
    | here h => simp [InlinedFunction.inlined] at h
    | deeper h _ => simp [InlinedFunction.inlined] at h

/-! ### Findings -/

/-- Instructions are not compared: the same function, in the same file, has all its instructions
shown as deleted and added, while no difference is reported. -/
theorem C81_instructions_witness :
    let e := functionD { printFunctionInstructions := true } (exFnPair {} {}) 0 none none 3 fnA fnA
    textD e = (["  fn f\n", "  \taddress: 0x1000-0x101f\n", "  \tsize: 32\n", "  \treturn type:\n", "  \t\t[4]\tint\n", "  \tinstructions:\n", "- \t\tnop\n", "+ \t\tnop\n", "\n"].flatMap k) ∧ (e.map fun e => e.flag ⟨false, false, false, false⟩ 0 .equal 3) = some false := by
  decide +kernel

/-- One address on the old side and two on the new one: the line `address: 0x1000-0x101f` of the old
listing is not in the diff. -/
theorem C81_addresses_witness :
    let g : Function := { fnA with ranges := [⟨0x1000, 0x1020⟩, ⟨0x2000, 0x2010⟩] }
    textD (functionD {} (exFnPair {} {}) 0 none none 3 fnA g) = (["  fn f\n", "  \taddresses:\n", "  \t\t0x1000-0x101f (32)\n", "+ \t\t0x2000-0x200f (16)\n", "  \tsize: 32\n", "  \treturn type:\n", "  \t\t[4]\tint\n", "\n"].flatMap k) := by
  decide +kernel

/-- The stack frame compares the places of the types in the two files: the same variable, of the
same type, which stands at another place in the new file, is shown as deleted and added, and a
difference is reported. -/
theorem C81_frame_witness :
    let v (t : Nat) : FunctionDetails := { variables := [{ name := some (k "v"), ty := some t, locations := [frm (-16)] }] }
    let b : FnSide := { exFnSide (v 3) with
      hash := ⟨fun o => [(3, Ty.base (some (k "int")) ⟨4⟩)].lookup o, fun _ => none⟩
      tsz := fun o => if o = some 3 then some 4 else none
      tref := fun o => if o = some 3 then .text (k "int") else .text (k "X") }
    let c : FnPair := ⟨exFnSide (v 1), b, fun a b => a == b, listHeap⟩
    let e := functionD { printFunctionStackFrame := true } c 0 none none 3 fnA { fnA with returnType := some 3 }
    textD e = (["  fn f\n", "  \taddress: 0x1000-0x101f\n", "  \tsize: 32\n", "  \treturn type:\n", "  \t\t[4]\tint\n", "  \tstack frame:\n", "- \t\t-16[4]\tv: int\n", "+ \t\t-16[4]\tv: int\n", "\n"].flatMap k) ∧ (e.map fun e => e.flag ⟨false, false, false, false⟩ 0 .equal 3) = some true := by
  decide +kernel

end Verif.Show
