import Verif.Move.Files
import Verif.Move.Hash
import Verif.Show.FileExamples
/-!
# C95: moving the entries of the debug information is not a difference
-/
namespace Verif.Move
open Verif.Print Verif.Item Verif.Namespace Verif.Types Verif.Path Verif.Opts Verif.Merge Verif.Range
  Verif.File Verif.Show Verif.Frame

variable {ρ : Nat → Nat}

/-- A type against the same type at another place: no difference is reported, no line is marked, and
in the list of types nothing is written. -/
theorem C95_type {c : Pair} (hm : Types ρ c.a c.b) (hs : SameMoved ρ c.same c.a.hash) (o : Options) (dir : Option Str)
    (n : Nat) (t : TypeEntry) (e : D) (he : typeD o c dir dir n t (entry ρ t) = some e) (po : Print.Opts)
    (ho : po.html = false) (i : Nat) (x : DiffPrefix) (d : Nat) :
    e.flag po i x d = false ∧ (∀ l ∈ e.lines po i x d, l.marked = false) ∧ (D.printIfDiff e).lines po i x d = [] :=
  C23_same po ho e (typeD_moved hm hs o dir n t e he) i x d

/-- A function against the same function at another place: no difference is reported and in the list
of functions nothing is written; no line is marked, unless instructions are listed. If stack frames
are listed, the types of the variables in them must be at the same place (`C95_frame_witness`). -/
theorem C95_function {c : FnPair} (hm : Fns ρ c.a c.b) (hs : SameMoved ρ c.same c.a.hash) (o : Options)
    (hf : o.printFunctionStackFrame = true → FramesFixed ρ c.a) (uid : Nat) (dir : Option Str) (n : Nat) (f : Function) (e : D)
    (he : functionD o c uid dir dir n f (function ρ f) = some e) (po : Print.Opts) (i : Nat) (x : DiffPrefix) (d : Nat) :
    e.flag po i x d = false ∧ (po.html = false → (D.printIfDiff e).lines po i x d = []) ∧
      (po.html = false → o.printFunctionInstructions = false → ∀ l ∈ e.lines po i x d, l.marked = false) := by
  have h := functionD_moved hm hs o hf uid dir n f e he
  have hflag := D.flag_dropIgnored po e h.1 i x d
  refine ⟨by rw [D.flag_eq]; exact hflag, fun ho => ?_, fun ho hi => (C23_same po ho _ (h.2 hi) i x d).2.1⟩
  rw [(C22_print_if_diff po ho _ i x d).1, D.flag_eq, hflag]
  rfl

/-- A file against the same file with its entries moved: no difference is reported, no line is
marked, nothing is written for the units, and the summary is the one of the listing. -/
theorem C95_file (o : Options) (ho : o.html = false) (c : FilePair) (hm : Moved ρ c.a c.b)
    (hs : SameMoved ρ c.same c.a.hash) (hf : o.printFunctionStackFrame = true → FramesFixed ρ c.a.toFnSide) (n : Nat) (e : D)
    (he : fileD o c n = some e) (i : Nat) (x : DiffPrefix) (d : Nat) :
    e.flag (printOpts o) i x d = false ∧ (∀ l ∈ e.lines (printOpts o) i x d, l.marked = false) ∧
    ∃ p, whenP o.categoryFile (filePartP o c.a) = some p ∧
      (e.lines (printOpts o) i x d).map Line.erase = (p.lines o.http i .none d).map Line.erase := by
  simp only [fileD, Option.bind_eq_bind, Option.bind_eq_some_iff, Option.some.injEq] at he
  obtain ⟨head, hhead, units, hunits, rfl⟩ := he
  have hu : Blank (printOpts o) units := unitsD_moved hm hs hf ho hunits
  have h1 : head.Same := whenD_same (filePartD_moved hm) head hhead
  have h2 := D.den_same (printOpts o) head h1 i x d
  have hl : (D.seq head units).lines (printOpts o) i x d = (head.den (printOpts o) i x d).1 := by
    rw [D.lines_eq]
    simp only [D.den, (hu _ _ _).1, List.append_nil]
  refine ⟨?_, ?_, ?_⟩
  · rw [D.flag_eq]
    simp only [D.den, h2.1, (hu _ _ _).2]
    rfl
  · rw [hl]; exact h2.2
  · have hR := oldSide_closed o.http
    obtain ⟨p, q, hp, hq, h⟩ := hR.when o.categoryFile (hR.filePart (fun l _ => oldSide_u64 o.http l) o c) head hhead
    refine ⟨p, hp, ?_⟩
    rw [hl, P.lines_eq, D.den_same_lines _ _ h1 h.1]
    show List.map _ ((head.side false).ls o.http _ _ _) = _
    rw [h.2]

/-- The identity of a type does not depend on where its entries are, on either side. -/
theorem C95_identity {a b : Hash} (hm : HashMoved ρ a b) (n : Nat) (h : Hash) (x y : Ty) :
    cmpId false n b (ty ρ x) h y = cmpId false n a x h y ∧ cmpId false n h y b (ty ρ x) = cmpId false n h y a x :=
  ⟨cmpId_left hm false n h x y, cmpId_right hm false n h y x⟩

/-- Sizes, the way types are written, and their comparison follow from the types alone, as the program
computes them. -/
theorem C95_computed {a b : Side} (n : Nat) (inj : ∀ x y, ρ x = ρ y → x = y) (hm : HashMoved ρ a.hash b.hash)
    (hx : ExtraMoved ρ a.extra b.extra) (sa : a.tsz = Whole.sizeAt n a.hash) (sb : b.tsz = Whole.sizeAt n b.hash)
    (ra : a.tref = fun o => (typeRef n a.hash a.extra o).getD .nil)
    (rb : b.tref = fun o => (typeRef n b.hash b.extra o).getD .nil)
    (hret : ∀ o t, fromOffset a.hash o = some t → cmpId false n a.hash t a.hash t ≠ .diverge) :
    Types ρ a b ∧ SameMoved ρ (fun x y => cmpId false n a.hash x b.hash y == .ok .eq) a.hash :=
  ⟨types_of_hash n inj hm hx sa sb ra rb, same_of_hash n hm hret⟩

/-! ### Every file can be moved -/

section
variable {σ : Nat → Nat} (hσ : ∀ x, σ (ρ x) = x)
include hσ

theorem off_inv (o : Option Nat) : off σ (off ρ o) = o := by cases o <;> simp [off, hσ]

theorem function_inv (f : Function) : function σ (function ρ f) = f := by
  cases f
  simp only [function, Function.mk.injEq, off_inv hσ, List.map_map, and_true, true_and]
  refine (List.map_congr_left fun p _ => ?_).trans (List.map_id _)
  simp [paramType, off_inv hσ]

end

/-- A file with its entries moved by `ρ`; `σ` is the inverse of `ρ`. -/
def move (ρ σ : Nat → Nat) (s : FileSide) : FileSide where
  hash := ⟨fun o => (s.hash.types (σ o)).map (ty ρ), fun o => (s.hash.fileTypes (σ o)).map (ty ρ)⟩
  extra := fun o => s.extra (off σ o)
  tsz := fun o => s.tsz (off σ o)
  tref := fun o => s.tref (off σ o)
  regName := s.regName
  fnAt := fun o => (s.fnAt (off σ o)).map (function ρ)
  fnByAddress := fun x => (s.fnByAddress x).map (function ρ)
  fnId := fun f => s.fnId (function σ f)
  details := fun f => details ρ (s.details (function σ f))
  plt := s.plt
  callsOf := s.callsOf
  insns := fun f => s.insns (function σ f)
  path := s.path
  file := file ρ s.file
  varId := fun v => s.varId (var σ v)
  unitId := fun u => s.unitId (unit σ u)

/-- The hypothesis of `C95_file` can be met for every file and every renumbering. -/
theorem C95_moved {σ : Nat → Nat} (hσ : ∀ x, σ (ρ x) = x) (s : FileSide) : Moved ρ s (move ρ σ s) where
  inj x y h := by rw [← hσ x, h, hσ]
  hash o := by
    cases o with
    | none => rfl
    | some o =>
      simp only [off, Option.map_some, fromOffset, move, hσ]
      cases s.hash.types o <;> rfl
  extra o := by simp [move, off_inv hσ]
  size o := by simp [move, off_inv hσ]
  ref o := by simp [move, off_inv hσ]
  regs := rfl
  fnAt o := by simp [move, off_inv hσ]
  byAddress x := rfl
  details f := by simp [move, function_inv hσ]
  plt := rfl
  calls := rfl
  path := rfl
  file := rfl

/-! ### Concrete files -/

private def u1 : CompUnit := {
  name := some (k "x.c"), ranges := [⟨0x1000, 0x1040⟩],
  functions := [{ name := some (k "f"), address := some 0x1000, size := some 32, ranges := [⟨0x1000, 0x1020⟩], returnType := some 1 }],
  types := [⟨some 1, .base (some (k "int")) ⟨4⟩⟩, ⟨some 9, .struct_ none (some (k "S")) ⟨4⟩ [⟨30, some (k "a"), some 1, 0, ⟨32⟩⟩] [] []⟩],
  variables := [{ name := some (k "v"), ty := some 1, address := some 0x2000 }] }

private def s1 : FileSide := exFileSide 64 [u1]
private def all : Options := {
  categoryFile := true, categoryUnit := true, categoryType := true,
  categoryFunction := true, categoryVariable := true, printUnitAddress := true }
private def sameTy (x y : Ty) : Bool := cmpId false 9 s1.hash x (move (· + 100) (· - 100) s1).hash y == .ok .eq

example : Moved (· + 100) s1 (move (· + 100) (· - 100) s1) := C95_moved (by simp) s1

example : SameMoved (· + 100) sameTy s1.hash := by
  intro o t ht
  cases o with
  | none => cases ht; decide
  | some o =>
    simp only [fromOffset, s1, exFileSide, exFnSide, exSide, List.lookup] at ht
    split at ht
    · cases ht; decide
    · split at ht <;> cases ht
      decide

/-- The moved file does have its entries elsewhere, -/
example : ((move (· + 100) (· - 100) s1).file.units.flatMap fun u => u.types.map (·.offset)) = [some 101, some 109] := by
  decide +kernel

set_option maxRecDepth 4000 in
/-- and the diff shows the summary of the file and nothing else. -/
example : textD (fileD all ⟨s1, move (· + 100) (· - 100) s1, sameTy, listHeap⟩ 3) =
    (["  file a.out\n", "  \tsize: 68\n", "  \tfn size: 32\n", "  \tvar size: 4\n", "  \tother size: 32\n", "  \tsections:\n", "  \t\t.text\n", "  \t\t\taddress: 0x1000-0x103f\n", "  \t\t\tsize: 64\n", "\n"].flatMap k) := by
  decide +kernel

/-- With stack frames listed, moving the entries of a file is reported as a difference: stack frames
compare the places of the types of their variables. -/
theorem C95_frame_witness :
    let d : FunctionDetails := { variables := [
      { name := some (k "v"), ty := some 1, locations := [(⟨0, 0⟩, ⟨0, some 32, .frameOffset (-16), 0, false⟩)] }] }
    let f : Function := { name := some (k "f"), returnType := some 1 }
    let s : FileSide := { exFileSide 64 [] with toFnSide := exFnSide d }
    let c : FnPair := ⟨s.toFnSide, (move (· + 100) (· - 100) s).toFnSide, sameTy, listHeap⟩
    let e := functionD { printFunctionStackFrame := true } c 0 none none 3 f (function (· + 100) f)
    textD e = (["  fn f\n", "  \treturn type:\n", "  \t\t[4]\tint\n", "  \tstack frame:\n", "- \t\t-16[4]\tv: int\n", "+ \t\t-16[4]\tv: int\n", "\n"].flatMap k) ∧
      (e.map fun e => e.flag ⟨false, false, false, false⟩ 0 .equal 3) = some true := by
  decide +kernel

end Verif.Move
