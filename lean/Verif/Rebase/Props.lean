import Verif.Rebase.Files
import Verif.Show.FileExamples
/-!
# C103: moving functions and variables is not a difference when addresses are ignored
-/
namespace Verif.Rebase
open Verif.Print Verif.Item Verif.Namespace Verif.Types Verif.Path Verif.Opts Verif.Merge Verif.Range
  Verif.File Verif.Show Verif.Frame
open Verif.Move (off SameMoved)

variable {ρ : Nat → Nat}

/-- A function against the same function at another address, with the addresses of functions and
variables ignored and no calls asked for: no difference is reported, and in the list of functions
nothing is written. -/
theorem C103_function {c : FnPair} (hm : Fns ρ c.a c.b) (hs : SameMoved ρ c.same c.a.hash) (o : Options)
    (hfa : o.ignoreFunctionAddress = true) (hva : o.ignoreVariableAddress = true)
    (hc : o.printFunctionCalls = false) (hf : o.printFunctionStackFrame = true → Move.FramesFixed ρ c.a) (uid : Nat)
    (dir : Option Str) (n : Nat) (f g : Function) (h : function g = function (Move.function ρ f)) (e : D)
    (he : functionD o c uid dir dir n f g = some e) (po : Print.Opts) (i : Nat) (x : DiffPrefix) (d : Nat) :
    e.flag po i x d = false ∧ (po.html = false → (D.printIfDiff e).lines po i x d = []) := by
  have hflag := D.flag_dropIgnored po e (functionD_two hm hs o hfa hva hc hf uid dir n h e he) i x d
  refine ⟨by rw [D.flag_eq]; exact hflag, fun ho => ?_⟩
  rw [(C22_print_if_diff po ho _ i x d).1, D.flag_eq, hflag]
  rfl

/-- A variable against the same variable at another address, with the addresses of variables
ignored. -/
theorem C103_variable {c : FilePair} (hm : Rebased ρ c.a c.b) (o : Options) (hva : o.ignoreVariableAddress = true)
    (dir : Option Str) (v w : Variable) (h : var w = var (Move.var ρ v)) (po : Print.Opts) (i : Nat)
    (x : DiffPrefix) (d : Nat) :
    (variableD o c dir dir v w).flag po i x d = false ∧
      (po.html = false → (D.printIfDiff (variableD o c dir dir v w)).lines po i x d = []) := by
  have hflag := D.flag_dropIgnored po _ (variableD_two hm hva dir h) i x d
  refine ⟨by rw [D.flag_eq]; exact hflag, fun ho => ?_⟩
  rw [(C22_print_if_diff po ho _ i x d).1, D.flag_eq, hflag]
  rfl

/-- A file against the same file at other addresses, with the addresses of functions and variables
ignored and no calls asked for: nothing is written for the units and no difference is reported in
them. What is written is the summary of the files, if asked for. If summaries of units are asked for,
they must not list addresses, and the units must be as large as before. -/
theorem C103_file (o : Options) (ho : o.html = false) (hfa : o.ignoreFunctionAddress = true)
    (hva : o.ignoreVariableAddress = true) (hc : o.printFunctionCalls = false) (c : FilePair)
    (hm : Rebased ρ c.a c.b) (hs : SameMoved ρ c.same c.a.hash)
    (hu : o.categoryUnit = true → o.printUnitAddress = false ∧ ∀ u ∈ c.a.file.units, ∀ v ∈ c.b.file.units,
      unit v = unit (Move.unit ρ u) → SameSizes c.a.toSide c.b.toSide u v)
    (hf : o.printFunctionStackFrame = true → Move.FramesFixed ρ c.a.toFnSide) (n : Nat) (e : D)
    (he : fileD o c n = some e) (i : Nat) (x : DiffPrefix) (d : Nat) :
    ∃ head, whenD o.categoryFile (filePartD o c) = some head ∧
      e.lines (printOpts o) i x d = head.lines (printOpts o) i x d ∧
      e.flag (printOpts o) i x d = head.flag (printOpts o) i x d := by
  simp only [fileD, Option.bind_eq_bind, Option.bind_eq_some_iff, Option.some.injEq] at he
  obtain ⟨head, hhead, units, hunits, rfl⟩ := he
  have hb : Blank (printOpts o) units := unitsD_two hm hs hfa hva hc hu hf ho hunits
  refine ⟨head, hhead, ?_, ?_⟩
  · rw [D.lines_eq, D.lines_eq]
    simp only [D.den, (hb _ _ _).1, List.append_nil]
  · rw [D.flag_eq, D.flag_eq]
    simp only [D.den, (hb _ _ _).2, Bool.or_false]

/-- Without the summary of the files, nothing at all is written. -/
theorem C103_nothing (o : Options) (ho : o.html = false) (hfa : o.ignoreFunctionAddress = true)
    (hva : o.ignoreVariableAddress = true) (hc : o.printFunctionCalls = false) (hfile : o.categoryFile = false)
    (c : FilePair) (hm : Rebased ρ c.a c.b) (hs : SameMoved ρ c.same c.a.hash)
    (hu : o.categoryUnit = true → o.printUnitAddress = false ∧ ∀ u ∈ c.a.file.units, ∀ v ∈ c.b.file.units,
      unit v = unit (Move.unit ρ u) → SameSizes c.a.toSide c.b.toSide u v)
    (hf : o.printFunctionStackFrame = true → Move.FramesFixed ρ c.a.toFnSide) (n : Nat) (e : D)
    (he : fileD o c n = some e) (i : Nat) (x : DiffPrefix) (d : Nat) :
    e.lines (printOpts o) i x d = [] ∧ e.flag (printOpts o) i x d = false := by
  obtain ⟨head, h1, h2, h3⟩ := C103_file o ho hfa hva hc c hm hs hu hf n e he i x d
  rw [hfile] at h1
  cases h1
  exact ⟨h2.trans rfl, h3.trans rfl⟩

/-! ### Files whose entries stay where they are -/

section
private theorem off_id (o : Option Nat) : off id o = o := by cases o <;> rfl
private theorem map_same {α : Type} {f : α → α} (h : ∀ a, f a = a) (l : List α) : l.map f = l := by
  have : f = id := funext h
  rw [this, List.map_id]
private theorem member_id (m : Member) : Move.member id m = m := by
  cases m; simp [Move.member, off_id]
private theorem variant_id (v : Variant) : Move.variant id v = v := by
  cases v; simp [Move.variant, map_same member_id]
private theorem variantPart_id (v : VariantPart) : Move.variantPart id v = v := by
  cases v; simp [Move.variantPart, off_id, map_same variant_id]
private theorem inherit_id (v : Inherit) : Move.inherit' id v = v := by
  cases v; simp [Move.inherit', off_id]
private theorem ty_id (t : Ty) : Move.ty id t = t := by
  cases t <;> simp [Move.ty, off_id, map_same member_id, map_same variantPart_id, map_same inherit_id, map_same off_id]
private theorem entry_id (t : TypeEntry) : Move.entry id t = t := by
  cases t; simp [Move.entry, off_id, ty_id]
private theorem paramType_id (p : ParameterType) : Move.paramType id p = p := by
  cases p; simp [Move.paramType, off_id]
private theorem function_id (f : Function) : Move.function id f = f := by
  cases f; simp [Move.function, off_id, map_same paramType_id]
private theorem var_id (v : Variable) : Move.var id v = v := by
  cases v; simp [Move.var, off_id]
private theorem param_id (p : Parameter) : Move.param id p = p := by
  cases p; simp [Move.param, off_id]
private theorem local_id (p : LocalVariable) : Move.localVar id p = p := by
  cases p; simp [Move.localVar, off_id]
mutual
private theorem inlined_id : (i : InlinedFunction) → inlined (Move.inlined id i) = inlined i
  | .mk o size ranges ps vs is cs src => by
    simp only [Move.inlined, inlined, off_id, map_same param_id, map_same local_id, inlinedAll_id is]
private theorem inlinedAll_id : (l : List InlinedFunction) → inlinedAll (Move.inlinedAll id l) = inlinedAll l
  | [] => rfl
  | i :: is => by simp only [Move.inlinedAll, inlinedAll, inlined_id i, inlinedAll_id is]
end
private theorem details_id (d : FunctionDetails) : details (Move.details id d) = details d := by
  simp only [details, Move.details, map_same param_id, map_same local_id, inlinedAll_id]
private theorem unit_id (u : CompUnit) : Move.unit id u = u := by
  cases u; simp [Move.unit, map_same entry_id, map_same function_id, map_same var_id]

/-- The hypothesis of `C103_file` is met by every file the details of whose functions are found by
the offset of the function, as the program finds them, and every other file with the same types whose
functions, details and units only differ in addresses. -/
theorem C103_rebased (s : FileSide) (dt dt' : Option Nat → FunctionDetails) (hs : ∀ f, s.details f = dt f.offset)
    (hdt : ∀ o, details (dt' o) = details (dt o)) (fn : Option Nat → Option Function)
    (hfn : ∀ o, (fn o).map function = (s.fnAt o).map function) (us : List CompUnit)
    (hus : us.map unit = s.file.units.map unit) :
    Rebased id s { s with details := fun f => dt' f.offset, fnAt := fn, file := { s.file with units := us } } where
  inj _ _ h := h
  hash o := by
    rw [off_id]
    cases fromOffset s.hash o <;> simp [ty_id]
  extra o := by rw [off_id]
  size o := by rw [off_id]
  ref o := by rw [off_id]
  regs := rfl
  fnAt o := by simp only [off_id, hfn, function_id]
  details f g h := by
    rw [function_id] at h
    have : g.offset = f.offset := by
      have := congrArg Function.offset h
      exact this
    simp only [hs, details_id, hdt, this]
  units := by simp only [unit_id, hus]

end

/-! ### Concrete files -/

private def d1 (x : Nat) : FunctionDetails := {
  variables := [
    { name := some (k "l"), ty := some 1, address := some (x + 0x500), locations := [
      (⟨x, x + 4⟩, ⟨0, none, .register 0, 0, false⟩), (⟨x + 4, x + 8⟩, ⟨0, none, .address (some x), 0, false⟩)] }],
  inlined := [.mk (some 7) (some 8) [⟨x + 8, x + 16⟩] [] [] [] [] {}] }

private def u1 (x y : Nat) : CompUnit := {
  name := some (k "x.c"), lowPc := some x, ranges := [⟨x, x + 32⟩, ⟨y, y + 20⟩],
  functions := [{ name := some (k "f"), address := some x, size := some 32, ranges := [⟨x, x + 32⟩], returnType := some 1 },
    { name := some (k "g"), address := some y, size := some 16, ranges := [⟨y, y + 16⟩] }],
  types := [⟨some 1, .base (some (k "int")) ⟨4⟩⟩],
  variables := [{ name := some (k "v"), ty := some 1, address := some (y + 0x2000) }] }

private def s1 (x y : Nat) : FileSide := { exFileSide 64 [u1 x y] with toFnSide := exFnSide (d1 x) }
private def pair : FilePair := ⟨s1 0x1000 0x1020, s1 0x3010 0x1000, fun a b => a == b, listHeap⟩
private def opts (ign : Bool) : Options := {
  categoryUnit := true, categoryType := true, categoryFunction := true, categoryVariable := true,
  printFunctionVariables := true, printVariableLocations := true, printFunctionStackFrame := true,
  printInlinedFunctionParameters := true, sort := .name,
  ignoreFunctionAddress := ign, ignoreVariableAddress := ign }

/-- The second file has its two functions in the other order in memory. -/
private theorem pair_rebased : Rebased id pair.a pair.b := by
  have := C103_rebased (s1 0x1000 0x1020) (fun _ => d1 0x1000) (fun _ => d1 0x3010) (fun _ => rfl) (fun _ => rfl)
    (s1 0x1000 0x1020).fnAt (fun _ => rfl) [u1 0x3010 0x1000] (by decide)
  exact this

private theorem pair_same : SameMoved id pair.same pair.a.hash := by
  intro o t _
  rw [ty_id]
  simp [pair]

private theorem pair_sizes : ∀ u ∈ pair.a.file.units, ∀ v ∈ pair.b.file.units,
    unit v = unit (Move.unit id u) → SameSizes pair.a.toSide pair.b.toSide u v := by
  intro u hu v hv _
  cases List.mem_singleton.1 hu
  cases List.mem_singleton.1 hv
  exact ⟨by decide +kernel, by decide +kernel, by decide +kernel⟩

private theorem pair_some : (fileD (opts true) pair 3).isSome = true := by decide +kernel

example : ∃ e, fileD (opts true) pair 3 = some e ∧ ∀ i x d, e.lines (printOpts (opts true)) i x d = [] ∧
    e.flag (printOpts (opts true)) i x d = false :=
  ⟨(fileD (opts true) pair 3).get pair_some, (Option.some_get _).symm, fun i x d =>
    C103_nothing (opts true) rfl rfl rfl rfl rfl pair pair_rebased pair_same (fun _ => ⟨rfl, pair_sizes⟩)
      (fun _ _ e _ => off_id e.ty) 3 _ (Option.some_get _).symm i x d⟩

set_option maxRecDepth 4000 in
/-- Unless they are ignored, the addresses are differences. -/
theorem C103_not_ignored_witness : textD (fileD (opts false) pair 3) = (["  unit x.c\n", "  \tfn size: 48\n", "  \tvar size: 4\n", "  \tunknown size: 4\n", "\n", "  fn f\n", "- \taddress: 0x1000-0x101f\n", "+ \taddress: 0x3010-0x302f\n", "  \tsize: 32\n", "  \treturn type:\n", "  \t\t[4]\tint\n", "  \tvariables:\n", "  \t\t[4]\tl: int\n", "- \t\t\taddress: 0x1500\n", "+ \t\t\taddress: 0x3510\n", "  \t\t\tregisters:\n", "  \t\t\t\trax\n", "  \tinlined functions:\n", "  \t\t[8]\tcallee\n", "\n", "  fn g\n", "- \taddress: 0x1020-0x102f\n", "+ \taddress: 0x1000-0x100f\n", "  \tsize: 16\n", "  \tvariables:\n", "  \t\t[4]\tl: int\n", "- \t\t\taddress: 0x1500\n", "+ \t\t\taddress: 0x3510\n", "  \t\t\tregisters:\n", "  \t\t\t\trax\n", "  \tinlined functions:\n", "  \t\t[8]\tcallee\n", "\n", "  var v: int\n", "- \taddress: 0x3020\n", "+ \taddress: 0x3000\n", "  \tsize: 4\n", "\n"].flatMap k) := by
  decide +kernel

set_option maxRecDepth 4000 in
/-- Call sites are named by their addresses, and ignoring the addresses of functions does not cover
them: the same function at another address, called from nowhere else, is a difference. -/
theorem C103_call_witness :
    let d (x : Nat) : FunctionDetails := { calls := [{ callAddress := some x, returnAddress := some (x + 4) }] }
    let f (x : Nat) : Function := { name := some (k "f"), address := some x, size := some 16, ranges := [⟨x, x + 16⟩] }
    let c : FnPair := ⟨exFnSide (d 0x1000), exFnSide (d 0x1020), fun a b => a == b, listHeap⟩
    let e := functionD { printFunctionCalls := true, ignoreFunctionAddress := true, ignoreVariableAddress := true } c 0 none
      none 3 (f 0x1000) (f 0x1020)
    details (d 0x1000) = details (d 0x1020) ∧ function (f 0x1000) = function (f 0x1020) ∧
      textD e = (["  fn f\n", "- \taddress: 0x1000-0x100f\n", "+ \taddress: 0x1020-0x102f\n", "  \tsize: 16\n", "  \tcall sites:\n", "+ \t\tcall at 0x1020\n", "+ \t\t\treturn address: 0x1024\n", "- \t\tcall at 0x1000\n", "- \t\t\treturn address: 0x1004\n", "\n"].flatMap k) ∧ (e.map fun e => e.flag ⟨false, false, false, false⟩ 0 .equal 3) = some true := by
  refine ⟨rfl, rfl, ?_⟩
  decide +kernel

end Verif.Rebase
