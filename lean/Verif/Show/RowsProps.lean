import Verif.Show.FileRows
import Verif.Show.FnExamples
/-!
# C85: what listings say

`Verif.Show.RowsSpec` and `Verif.Show.FileRowsSpec` say which rows the listing of an item should
consist of. Here: the lines that are written are exactly these rows.
-/
namespace Verif.Show
open Verif.Print Verif.Item Verif.Namespace Verif.Types Verif.Layout Verif.Opts Verif.Range Verif.File

/-! ## Hexadecimal numbers -/

theorem hexDigit_range {n : Nat} (h : n < 16) :
    (48 ≤ n.digitChar.toNat ∧ n.digitChar.toNat ≤ 57) ∨ (97 ≤ n.digitChar.toNat ∧ n.digitChar.toNat ≤ 102) := by
  have : ∀ i : Fin 16, (48 ≤ i.val.digitChar.toNat ∧ i.val.digitChar.toNat ≤ 57) ∨
      (97 ≤ i.val.digitChar.toNat ∧ i.val.digitChar.toNat ≤ 102) := by decide
  exact this ⟨n, h⟩

theorem hexDigit_value {n : Nat} (h : n < 16) :
    (if n.digitChar.toNat ≤ 57 then n.digitChar.toNat - 48 else n.digitChar.toNat - 87) = n := by
  have : ∀ i : Fin 16, (if i.val.digitChar.toNat ≤ 57 then i.val.digitChar.toNat - 48 else i.val.digitChar.toNat - 87) =
      i.val := by decide
  exact this ⟨n, h⟩

theorem hexadecimal_hex (n : Nat) : Hexadecimal (hex n) n := by
  unfold hex
  induction n using Nat.strongRecOn with
  | ind n ih =>
    by_cases h : n < 16
    · rw [Nat.toDigits_of_lt_base h]
      exact ⟨by simp, by simpa using hexDigit_range h, by simpa [hexValue] using hexDigit_value h⟩
    · have e : Nat.toDigits 16 n = Nat.toDigits 16 (n / 16) ++ [(n % 16).digitChar] := by
        rw [Nat.toDigits_eq_if (by omega), if_neg h]
      obtain ⟨h1, h2, h3⟩ := ih (n / 16) (by omega)
      rw [e]
      refine ⟨by simp, ?_, ?_⟩
      · intro c hc
        simp only [List.map_append, List.map_cons, List.map_nil, List.mem_append, List.mem_singleton] at hc
        rcases hc with hc | rfl
        · exact h2 c hc
        · exact hexDigit_range (by omega)
      · simp only [hexValue, List.map_append, List.map_cons, List.map_nil, List.foldl_append, List.foldl_cons, List.foldl_nil] at h3 ⊢
        rw [h3, hexDigit_value (by omega)]
        omega

theorem Hexadecimal.unique {s : Str} {n m : Nat} (h : Hexadecimal s n) (h' : Hexadecimal s m) : n = m :=
  h.value.symm.trans h'.value

/-! ## Theorems -/

/-- Addresses are written in hexadecimal, and can be read back. -/
theorem C85_hex (n : Nat) : Hexadecimal (hex n) n ∧ ∀ m, Hexadecimal (hex n) m → m = n :=
  ⟨hexadecimal_hex n, fun _ h => h.unique (hexadecimal_hex n)⟩

example : Hexadecimal (k "1f4") 500 := by
  have := (C85_hex 500).1
  rwa [show hex 500 = k "1f4" by decide +kernel] at this

/-- The instructions of a function, in a section; nothing in the web view, without the option, or
for a function without code. -/
def CodeLines (o : Options) (s : FnSide) (f : Function) (http : Bool) (i : Nat) (x : DiffPrefix) (d : Nat)
    (code : List Line) : Prop :=
  ((http = true ∨ o.printFunctionInstructions = false ∨ f.ranges = []) → code = []) ∧
  (http = false → o.printFunctionInstructions = true → f.ranges ≠ [] →
    ∃ q, s.insns f = some q ∧ (q.lines http (i + 1) x d = [] → code = []) ∧
      (q.lines http (i + 1) x d ≠ [] → code = .line x i (k "instructions") [] :: q.lines http (i + 1) x d))

/-- The listing of a function consists of the rows of `FunctionRows`: its name, linkage and symbol
name, source, addresses, size, flags, return type, parameters, variables, stack frame, inlined
functions, call sites and calls, with what each of them says; then the instructions; then an empty
line. -/
theorem C85_function (o : Options) (s : FnSide) (dir : Option Str) (n : Nat) (f : Function) (p : P)
    (h : functionP o s dir n f = some p) (http : Bool) (i : Nat) (x : DiffPrefix) (d : Nat) :
    ∃ rows code, FunctionRows {} o s dir d f rows ∧ CodeLines o s f http (i + 1) x d code ∧
      p.lines http i x d = rows.map (Row.line x i) ++ code ++ [.brk] := by
  rw [← functionHiding_nothing] at h
  obtain ⟨rows, q, h1, h2, h3⟩ := functionP_rows (http := http) (d := d) h
  refine ⟨rows, _, h1, ?_, by rw [P.lines_eq, h3]⟩
  unfold insnsPart at h2
  cases ho : o.printFunctionInstructions with
  | false =>
    rw [ho] at h2
    simp only [Bool.and_false, Bool.false_and, whenP, Bool.false_eq_true, if_false, Option.some.injEq] at h2
    subst h2
    exact ⟨fun _ => rfl, fun _ h => by rw [ho] at h; cases h⟩
  | true =>
    rw [ho] at h2
    cases hr : f.ranges.isEmpty with
    | true =>
      have hr' : f.ranges = [] := by simpa using hr
      rw [hr] at h2
      simp only [Bool.not_true, Bool.and_false, whenP, Bool.false_eq_true, if_false, Option.some.injEq] at h2
      subst h2
      exact ⟨fun _ => rfl, fun _ _ h => absurd hr' h⟩
    | false =>
      have hr' : f.ranges ≠ [] := by simpa using hr
      rw [hr] at h2
      simp only [Bool.not_false, Bool.and_true, whenP, if_true, Option.map_eq_some_iff] at h2
      obtain ⟨q, hq, rfl⟩ := h2
      refine ⟨?_, fun hh _ _ => ⟨q, hq, ?_, ?_⟩⟩
      · rintro (hh | hh | hh)
        · simp [P.ls, hh]
        · rw [ho] at hh; cases hh
        · exact absurd hh hr'
      · intro e
        rw [P.lines_eq] at e
        simp [P.ls, e]
      · intro e
        rw [P.lines_eq] at e ⊢
        rw [hh] at e ⊢
        simp [P.ls, e]

/-- The listing of a type consists of the rows of `TypeRows`: kind and name, source, size, flags,
base classes and, to any depth, members or enumerators; then an empty line. -/
theorem C85_type (o : Options) (s : Side) (dir : Option Str) (n : Nat) (t : TypeEntry) (p : P)
    (h : typeP o s dir n t = some p) (http : Bool) (i : Nat) (x : DiffPrefix) (d : Nat) :
    ∃ rows, TypeRows o s dir (s.extra t.offset) t.kind rows ∧
      p.lines http i x d = rows.map (Row.line x i) ++ [.brk] := by
  simp only [typeP, Option.bind_eq_bind, Option.bind_eq_some_iff, Option.some.injEq] at h
  obtain ⟨hd, hh, b, hb, rfl⟩ := h
  obtain ⟨rows, h1, h2⟩ := typeBody_rows (http := http) (d := d) hh hb (s.extra t.offset).id
  refine ⟨rows, h1, ?_⟩
  rw [P.lines_eq, P.ls, h2]
  rfl

/-- The listing of a variable: name and type, linkage and symbol name, source, address, size (its
own, else that of its type), declaration flag; then an empty line. -/
theorem C85_variable (o : Options) (s : FileSide) (dir : Option Str) (v : Variable) (http : Bool) (i : Nat)
    (x : DiffPrefix) (d : Nat) :
    (variableP o s dir v).lines http i x d =
      (variableRows false false false o s.toSide dir v).map (Row.line x i) ++ [.brk] := by
  rw [P.lines_eq, variableP_rows]

/-- The listing of a unit itself: addresses of functions and variables, unknown addresses and the
sizes that are not 0; then an empty line. -/
theorem C85_unit (o : Options) (s : Side) (u : CompUnit) (p : P) (h : unitPartP o s u = some p) (http : Bool) (i : Nat)
    (x : DiffPrefix) (d : Nat) :
    ∃ rows, UnitRows o s.tsz u rows ∧
      (P.indent false (.line [] (unitName u)) p).lines http i x d =
        .line x i [] (unitText u) :: rows.map (Row.line x (i + 1)) ++ [.brk] := by
  obtain ⟨rows, h1, h2⟩ := unitPartP_rows (http := http) (d := d) h
  refine ⟨rows, h1, ?_⟩
  have ne : unitText u ≠ [] := by simp [unitText, k, Str.ofString]
  rw [P.lines_eq]
  simp [P.ls, unit_text, ne, h2]

/-- The summary of a file: path, addresses, total size, size of the functions, of the variables and
of the rest, and the sections; then an empty line. -/
theorem C85_file (o : Options) (s : FileSide) (p : P) (h : filePartP o s = some p) (http : Bool) (i : Nat)
    (x : DiffPrefix) (d : Nat) :
    ∃ rows, FileRows o s rows ∧ p.lines http i x d = rows.map (Row.line x i) ++ [.brk] := by
  obtain ⟨rows, h1, h2⟩ := filePartP_rows (http := http) (d := d) h
  exact ⟨rows, h1, by rw [P.lines_eq, h2]⟩

/-! ## Examples -/

/-- A variable with an address and a type of 4 bytes. -/
example : variableRows false false false {} (exFnSide {}).toSide none
      { name := some (k "counter"), ty := some 1, address := some 0x2000 } =
    [⟨0, [], k "var counter: int"⟩, ⟨1, k "address", k "0x2000"⟩, ⟨1, k "size", k "4"⟩] := by decide +kernel

/-- A section. -/
example : sectionRows { name := some (k ".text"), address := some 0x1000, size := 0x20 } =
    [⟨0, [], k ".text"⟩, ⟨1, k "address", k "0x1000-0x101f"⟩, ⟨1, k "size", k "32"⟩] := by decide +kernel

/-- A struct with a member at offset 0 and a gap: a listing exists, and the rows say so. -/
example : ∃ rows, TypeRows {} (exFnSide {}).toSide none {}
      (.struct_ none (some (k "S")) ⟨8⟩ [⟨0, some (k "m"), some 1, 0, .none⟩] [] []) rows ∧
    rows = [⟨0, [], k "struct S"⟩, ⟨1, k "size", k "8"⟩, ⟨1, k "members", []⟩, ⟨2, [], k "0[4]\tm: int"⟩,
      ⟨2, [], k "4[4]\t<padding>"⟩] := by
  obtain ⟨rows, h1, h2⟩ := C85_type {} (exFnSide {}).toSide none 3
    ⟨none, .struct_ none (some (k "S")) ⟨8⟩ [⟨0, some (k "m"), some 1, 0, .none⟩] [] []⟩ _ rfl false 0 .none 0
  refine ⟨rows, h1, ?_⟩
  have h3 : ∀ rs : List Row, rows.map (Row.line .none 0) ++ [.brk] = rs.map (Row.line .none 0) ++ [.brk] → rows = rs := by
    intro rs h
    have h := List.append_cancel_right h
    refine List.map_inj_right ?_ |>.1 h
    rintro ⟨a, b, c⟩ ⟨a', b', c'⟩ e
    simpa [Row.line] using e
  apply h3
  rw [← h2]
  decide +kernel

end Verif.Show
