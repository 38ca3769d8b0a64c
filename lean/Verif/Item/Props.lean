import Verif.Item.Spec
import Verif.Range.Props
/-!
# Property theorems: C52 (source positions), C58 (location queries), C60 (unit sizes)
-/
namespace Verif.Item
open Verif.Range

theorem selects_filterMap {α β : Type} (R : α → β → Prop) (f : α → Option β)
    (h : ∀ a b, f a = some b ↔ R a b) (l : List α) : Selects R l (l.filterMap f) := by
  induction l with
  | nil => exact .nil
  | cons a as ih =>
    cases hf : f a with
    | none =>
      rw [List.filterMap_cons_none hf]
      exact .skip (fun b hb => by rw [(h a b).2 hb] at hf; cases hf) ih
    | some b =>
      rw [List.filterMap_cons_some hf]
      exact .take ((h a b).1 hf) ih

/-- **C58 (registers).** `registers()` lists, in order and with their ranges, exactly the pieces
that are in a register and are not values. -/
theorem C58_registers (locs : List (Range × Piece)) : Selects IsRegister locs (registers locs) := by
  apply selects_filterMap
  rintro ⟨rg, p⟩ ⟨rg', r⟩
  rcases p with ⟨bo, bs, l, lo, iv⟩
  cases iv <;> cases l <;> simp [IsRegister] <;> intros <;> exact eq_comm

/-- **C58 (register offsets).** -/
theorem C58_register_offsets (locs : List (Range × Piece)) :
    Selects IsRegisterOffset locs (registerOffsets locs) := by
  apply selects_filterMap
  rintro ⟨rg, p⟩ ⟨rg', r, o⟩
  rcases p with ⟨bo, bs, l, lo, iv⟩
  cases iv <;> cases l <;> simp [IsRegisterOffset] <;> intros <;> exact eq_comm

/-- **C58 (frame locations of parameters).** -/
theorem C58_frame_locations (locs : List (Range × Piece)) :
    Selects (fun a b => b.1 = a.1 ∧ IsFrame a.2 b.2) locs (frameLocations locs) := by
  apply selects_filterMap
  rintro ⟨rg, p⟩ ⟨rg', ⟨o, s⟩⟩
  rcases p with ⟨bo, bs, l, lo, iv⟩
  cases iv <;> cases l <;> simp [IsFrame] <;> constructor <;> rintro ⟨h1, h2, h3⟩ <;>
    exact ⟨h1.symm, h2, h3.symm⟩

/-- **C58 (frame locations of local variables).** -/
theorem C58_local_frame_locations (locs : List (Range × Piece)) :
    Selects (fun a b => IsFrame a.2 b) locs (localFrameLocations locs) := by
  apply selects_filterMap
  rintro ⟨rg, p⟩ ⟨o, s⟩
  rcases p with ⟨bo, bs, l, lo, iv⟩
  cases iv <;> cases l <;> simp [IsFrame] <;> rintro - <;> exact eq_comm

/-- Non-vacuity of C58: a value in a register is skipped, a frame piece and a register piece are
told apart. -/
example : registers [(⟨0, 1⟩, ⟨0, none, .register 3, 0, true⟩),
      (⟨1, 2⟩, ⟨0, none, .register 4, 0, false⟩), (⟨2, 3⟩, ⟨0, some 8, .cfaOffset (-8), 0, false⟩)]
      = [(⟨1, 2⟩, 4)] ∧
    localFrameLocations [(⟨0, 1⟩, ⟨0, none, .register 3, 0, true⟩),
      (⟨2, 3⟩, ⟨0, some 8, .cfaOffset (-8), 0, false⟩)] = [⟨-8, some 8⟩] := by decide

theorem pushDir_append (a b : Str) : pushDir a ++ b = join a b := by
  unfold pushDir join endsWithSlash
  by_cases h : a.getLast? = some 47 <;> simp [h]

theorem isAbsolute_iff (d : Str) : isAbsolute d = true ↔ Absolute d := by
  unfold isAbsolute Absolute
  match d with
  | [] => simp
  | [a] => simp
  | a :: b :: t =>
    simp only [List.getElem?_cons_zero, List.getElem?_cons_succ, Bool.or_eq_true, beq_iff_eq,
      Option.some.injEq, List.cons.injEq]
    constructor
    · rintro (h | h)
      · exact .inl ⟨_, h, rfl⟩
      · exact .inr ⟨a, t, rfl, h, rfl⟩
    · rintro (⟨_, h, _⟩ | ⟨_, _, _, h, _⟩)
      · exact .inl h
      · exact .inr h

/-- **C52 (path).** The printed path is the file name; below the directory if there is one; below
the unit's directory if that directory is relative and the unit has a directory. -/
theorem C52_path (s : Source) (unitDir : Option Str) :
    (s.file = none → s.path unitDir = none) ∧
    (∀ f, s.file = some f →
      (s.directory = none → s.path unitDir = some f) ∧
      (∀ d, s.directory = some d →
        (Absolute d ∨ unitDir = none → s.path unitDir = some (join d f)) ∧
        (∀ u, ¬ Absolute d → unitDir = some u → s.path unitDir = some (join u (join d f))))) := by
  constructor
  · intro h; simp [Source.path, h]
  intro f hf
  constructor
  · intro hd; simp [Source.path, hf, hd]
  intro d hd
  constructor
  · rintro (ha | ha)
    · have := (isAbsolute_iff d).2 ha
      simp only [Source.path, hf, hd, this, Option.map_some, List.nil_append, pushDir_append]
    · subst ha
      cases h : isAbsolute d <;> simp [Source.path, hf, hd, h, pushDir_append]
  · intro u ha hu
    have h : isAbsolute d = false := by
      cases h : isAbsolute d with
      | true => exact absurd ((isAbsolute_iff d).1 h) ha
      | false => rfl
    simp only [Source.path, hf, hd, h, hu, Option.map_some]
    rw [List.append_assoc, pushDir_append d, pushDir_append]

/-- **C52 (units).** A unit is written as its name, below the unit's directory unless the name is
absolute or there is no directory; a unit without a name is `<anon>`. -/
theorem C52_unit (u : CompUnit) :
    (u.name = none → u.printRef = { u with name := some (Str.ofString "<anon>") }.printRef) ∧
    (∀ n, u.name = some n →
      ((∃ r, n = 47 :: r) → u.printRef = n) ∧
      (u.dir = none ∨ u.dir = some [] → u.printRef = n) ∧
      (∀ d, ¬ (∃ r, n = 47 :: r) → u.dir = some d → d ≠ [] → u.printRef = join d n)) := by
  have habs : ∀ n : Str, (n.head? == some 47) = true ↔ ∃ r, n = 47 :: r := by
    intro n; cases n <;> simp
  constructor
  · intro h; simp [CompUnit.printRef, h]
  · intro n hn
    refine ⟨fun h => ?_, fun h => ?_, fun d h1 h2 h3 => ?_⟩
    · have := (habs n).2 h
      simp [CompUnit.printRef, hn, this]
    · rcases h with h | h <;> simp [CompUnit.printRef, hn, h]
    · have h4 : (n.head? == some 47) = false := by
        cases h : n.head? == some 47
        · rfl
        · exact absurd ((habs n).1 h) h1
      have h5 : d.isEmpty = false := by cases d <;> simp_all
      simp only [CompUnit.printRef, hn, h2, Option.getD_some, h4, h5, Bool.not_false, Bool.and_self, if_true]
      exact pushDir_append d n

example : ({ dir := some (Str.ofString "/src"), name := some (Str.ofString "a.c") } : CompUnit).printRef =
    Str.ofString "/src/a.c" := by decide

example : ({ dir := some (Str.ofString "/src"), name := some (Str.ofString "/b/a.c") } : CompUnit).printRef =
    Str.ofString "/b/a.c" := by decide

/-- Finding (C52): an absolute *file* name does not replace the directory. -/
theorem C52_absolute_file_not_special :
    (⟨some (Str.ofString "/src"), some (Str.ofString "/usr/a.c"), 0, 0⟩ : Source).path none =
      some (Str.ofString "/src//usr/a.c") := by decide

theorem digits_inj {a b : Nat} (h : digits a = digits b) : a = b := by
  have h1 : Nat.toDigits 10 a = Nat.toDigits 10 b := by
    refine List.map_inj_right (f := Char.toNat) ?_ |>.1 h
    intro x y hxy
    exact Char.ext (UInt32.toNat_inj.1 hxy)
  rw [← Nat.ofDigitChars_ten_toDigits (n := a), h1, Nat.ofDigitChars_ten_toDigits]

theorem digits_range (a : Nat) : ∀ c ∈ digits a, 48 ≤ c ∧ c ≤ 57 := by
  intro x h
  obtain ⟨c, hc, rfl⟩ := List.mem_map.1 h
  have := Nat.isDigit_of_mem_toDigits (by decide) (by decide) hc
  simp only [Char.isDigit, Bool.and_eq_true, decide_eq_true_eq] at this
  exact ⟨UInt32.le_iff_toNat_le.1 this.1, UInt32.le_iff_toNat_le.1 this.2⟩

theorem digits_ne_nil (a : Nat) : digits a ≠ [] := by simp [digits, Nat.toDigits_ne_nil]

/-- **C52 (line and column).** What is printed is the path, then `:line` exactly when the line is
known (non-zero), then `:column` exactly when both are known; nothing without a file. -/
theorem C52_print (s : Source) (unitDir : Option Str) :
    (s.file = none → s.print unitDir = []) ∧
    (∀ p, s.path unitDir = some p →
      (s.line = 0 → s.print unitDir = p) ∧
      (s.line ≠ 0 → s.column = 0 → s.print unitDir = p ++ [58] ++ digits s.line) ∧
      (s.line ≠ 0 → s.column ≠ 0 →
        s.print unitDir = p ++ [58] ++ digits s.line ++ [58] ++ digits s.column)) := by
  constructor
  · intro h; simp [Source.print, Source.path, h]
  intro p hp
  refine ⟨?_, ?_, ?_⟩
  · intro h; simp [Source.print, hp, h]
  · intro h1 h2; simp [Source.print, hp, h1, h2]
  · intro h1 h2; simp [Source.print, hp, h1, h2]

theorem split_colon {a b c d : Str} (ha : 58 ∉ a) (hc : 58 ∉ c)
    (h : a ++ 58 :: b = c ++ 58 :: d) : a = c ∧ b = d := by
  induction a generalizing c with
  | nil =>
    cases c with
    | nil => simpa using h
    | cons y ys =>
      simp only [List.nil_append, List.cons_append, List.cons.injEq] at h
      exact absurd h.1 (fun e => hc (by simp [← e]))
  | cons x xs ih =>
    cases c with
    | nil =>
      simp only [List.nil_append, List.cons_append, List.cons.injEq] at h
      exact absurd h.1 (fun e => ha (by simp [e]))
    | cons y ys =>
      simp only [List.cons_append, List.cons.injEq] at h
      have := ih (fun m => ha (List.mem_cons_of_mem _ m)) (fun m => hc (List.mem_cons_of_mem _ m)) h.2
      exact ⟨by rw [h.1, this.1], this.2⟩

/-- **C52 (no loss).** For the same path, the printed text determines the line, and the column
whenever the line is known. -/
theorem C52_no_loss (s t : Source) (ud ud' : Option Str) (p : Str) (hs : s.path ud = some p)
    (ht : t.path ud' = some p) (h : s.print ud = t.print ud') :
    s.line = t.line ∧ (s.line ≠ 0 → s.column = t.column) := by
  have nocolon : ∀ n, 58 ∉ digits n := fun n hm => by
    have := digits_range n 58 hm; omega
  obtain ⟨-, hsp⟩ := C52_print s ud
  obtain ⟨-, htp⟩ := C52_print t ud'
  obtain ⟨s0, s1, s2⟩ := hsp p hs
  obtain ⟨t0, t1, t2⟩ := htp p ht
  by_cases hs0 : s.line = 0
  · refine ⟨?_, fun h => absurd hs0 h⟩
    by_cases ht0 : t.line = 0
    · omega
    · exfalso
      rw [s0 hs0] at h
      by_cases htc : t.column = 0
      · rw [t1 ht0 htc] at h; simp at h
      · rw [t2 ht0 htc] at h; simp at h
  by_cases ht0 : t.line = 0
  · exfalso
    rw [t0 ht0] at h
    by_cases hsc : s.column = 0
    · rw [s1 hs0 hsc] at h; simp at h
    · rw [s2 hs0 hsc] at h; simp at h
  by_cases hsc : s.column = 0 <;> by_cases htc : t.column = 0
  · rw [s1 hs0 hsc, t1 ht0 htc] at h
    exact ⟨digits_inj (by simpa using h), fun _ => by omega⟩
  · exfalso
    rw [s1 hs0 hsc, t2 ht0 htc] at h
    have h' : digits s.line = digits t.line ++ 58 :: digits t.column := by simpa using h
    exact nocolon s.line (by rw [h']; simp)
  · exfalso
    rw [s2 hs0 hsc, t1 ht0 htc] at h
    have h' : digits s.line ++ 58 :: digits s.column = digits t.line := by simpa using h
    exact nocolon t.line (by rw [← h']; simp)
  · rw [s2 hs0 hsc, t2 ht0 htc] at h
    have h' : digits s.line ++ 58 :: digits s.column = digits t.line ++ 58 :: digits t.column := by
      simpa using h
    have := split_colon (nocolon _) (nocolon _) h'
    exact ⟨digits_inj this.1, fun _ => digits_inj this.2⟩

/-- Non-vacuity of C52. -/
example : (⟨some (Str.ofString "src"), some (Str.ofString "a.c"), 12, 3⟩ : Source).print
      (some (Str.ofString "/home")) = Str.ofString "/home/src/a.c:12:3" ∧
    (⟨some (Str.ofString "/src/"), some (Str.ofString "a.c"), 0, 3⟩ : Source).print
      (some (Str.ofString "/home")) = Str.ofString "/src/a.c" ∧
    ¬ Absolute (Str.ofString "src") ∧ Absolute (Str.ofString "C:\\x") := by
  refine ⟨by decide, by decide, ?_, ?_⟩
  · rw [← isAbsolute_iff]; decide
  · rw [← isAbsolute_iff]; decide

theorem covers_functionRanges (u : CompUnit) (x : Nat) :
    Covers u.functionRanges x ↔ InFunction u x := by
  simp only [Covers, CompUnit.functionRanges, List.mem_flatMap, InFunction]
  constructor
  · rintro ⟨r, ⟨f, hf, hr⟩, h⟩; exact ⟨f, hf, r, hr, h⟩
  · rintro ⟨f, hf, r, hr, h⟩; exact ⟨r, ⟨f, hf, hr⟩, h⟩

theorem variable_range_iff (tsz : Types.TypeOffset → Option Nat) (v : Variable) (r : Range) :
    v.range tsz = some r ↔ ∃ a n, v.address = some a ∧ n ≠ 0 ∧
      (v.size = some n ∨ v.size = none ∧ tsz v.ty = some n) ∧ r = ⟨a, a + n⟩ := by
  unfold Variable.range Variable.byteSize
  constructor
  · intro h
    cases ha : v.address with
    | none => simp [ha] at h
    | some a =>
      cases hs : v.size with
      | some n =>
        simp [ha, hs] at h
        exact ⟨a, n, rfl, h.1, .inl rfl, h.2.symm⟩
      | none =>
        cases ht : tsz v.ty with
        | none => simp [ha, hs, ht] at h
        | some n =>
          simp [ha, hs, ht] at h
          exact ⟨a, n, rfl, h.1, .inr ⟨rfl, rfl⟩, h.2.symm⟩
  · rintro ⟨a, n, ha, hn, h | ⟨h1, h2⟩, rfl⟩
    · simp [ha, h, hn]
    · simp [ha, h1, h2, hn]

theorem covers_variableRanges (tsz : Types.TypeOffset → Option Nat) (u : CompUnit) (x : Nat) :
    Covers (u.variableRanges tsz) x ↔ InVariable tsz u x := by
  simp only [Covers, CompUnit.variableRanges, List.mem_filterMap, InVariable]
  constructor
  · rintro ⟨r, ⟨v, hv, hr⟩, h⟩
    obtain ⟨a, n, ha, hn, hs, rfl⟩ := (variable_range_iff tsz v r).1 hr
    exact ⟨v, hv, a, n, ha, h.1, h.2, hs⟩
  · rintro ⟨v, hv, a, n, ha, h1, h2, hs⟩
    exact ⟨⟨a, a + n⟩, ⟨v, hv, (variable_range_iff tsz v _).2 ⟨a, n, ha, by omega, hs, rfl⟩⟩, h1, h2⟩

theorem pushAll_pushAll (l a b : List Range) : pushAll (pushAll l a) b = pushAll l (a ++ b) := by
  simp [pushAll, List.foldl_append]

/-- **C60 (known ranges).** `Unit::ranges` is canonical, covers every address of a function or
variable of the unit, and any other address it covers is alignment padding between two of them. -/
theorem C60_known_ranges (tsz : Types.TypeOffset → Option Nat) (u : CompUnit) :
    Canonical (u.knownRanges tsz) ∧
    (∀ x, InFunction u x ∨ InVariable tsz u x → Covers (u.knownRanges tsz) x) ∧
    (∀ x, Covers (u.knownRanges tsz) x → (InFunction u x ∨ InVariable tsz u x) ∨
      PadGap (fun y => InFunction u y ∨ InVariable tsz u y) x) := by
  have hc : ∀ x, Covers (u.functionRanges ++ u.variableRanges tsz) x ↔
      (InFunction u x ∨ InVariable tsz u x) := fun x => by
    rw [covers_append, covers_functionRanges, covers_variableRanges]
  unfold CompUnit.knownRanges
  rw [pushAll_pushAll]
  refine ⟨canonical_sort _, fun x h => (C02_no_address_lost _ x ((hc x).2 h)).2, fun x h => ?_⟩
  rcases C02_only_padding_invented _ x h with h | ⟨p, hp, r, hr, h1, h2, h3, h4, h5, h6⟩
  · exact .inl ((hc x).1 h)
  · refine .inr ⟨p.hi - 1, r.lo, (hc _).1 ⟨p, hp, by omega, by omega⟩,
      (hc _).1 ⟨r, hr, by omega, by omega⟩, by omega, h4, h5, by omega⟩

/-- **C60 (unknown ranges).** An address of the unit's own ranges that no function or variable
range covers is reported as unknown; and an address reported as unknown is in the (sorted) unit
ranges and not in the known ranges, or alignment padding between two such addresses. -/
theorem C60_unknown_ranges (tsz : Types.TypeOffset → Option Nat) (u : CompUnit) :
    Canonical (u.unknownRanges tsz) ∧
    (∀ x, Covers u.ranges x → ¬ Covers (u.knownRanges tsz) x → Covers (u.unknownRanges tsz) x) ∧
    (∀ x, Covers (u.unknownRanges tsz) x →
      (Covers (sort (pushAll [] u.ranges)) x ∧ ¬ Covers (u.knownRanges tsz) x) ∨
      PadGap (fun y => Covers (sort (pushAll [] u.ranges)) y ∧ ¬ Covers (u.knownRanges tsz) y) x) := by
  have ha : Ordered (sort (pushAll [] u.ranges)) := (canonical_sort _).ordered
  have hb : Ordered (u.knownRanges tsz) := (canonical_sort _).ordered
  have h := C03_subtract_keeps _ _ ha hb
  exact ⟨h.1, fun x h1 h2 => h.2 x (C02_no_address_lost _ x h1).2 h2,
    fun x hx => C03_subtract_exact_up_to_padding_partial _ _ ha hb x hx⟩

/-- **C60 (nothing is unaccounted for).** Every address of the unit's own ranges is in its known
ranges or its unknown ranges. -/
theorem C60_complete (tsz : Types.TypeOffset → Option Nat) (u : CompUnit) (x : Nat)
    (h : Covers u.ranges x) : Covers (u.knownRanges tsz) x ∨ Covers (u.unknownRanges tsz) x := by
  by_cases hk : Covers (u.knownRanges tsz) x
  · exact .inl hk
  · exact .inr ((C60_unknown_ranges tsz u).2.1 x h hk)

/-- **C60 (sizes).** `function_size` never panics and is the number of addresses in a set that
contains every function address of the unit and otherwise only alignment padding between two of
them; likewise `variable_size`; and `size` is their sum. -/
theorem C60_sizes (tsz : Types.TypeOffset → Option Nat) (u : CompUnit) :
    ∃ fl vl : List Range, ∃ n : Nat,
      u.functionSize = some (coveredBelow fl n) ∧ u.variableSize tsz = some (coveredBelow vl n) ∧
      u.size tsz = some (coveredBelow fl n + coveredBelow vl n) ∧
      (∀ x, Covers fl x ∨ Covers vl x → x < n) ∧
      (∀ x, InFunction u x → Covers fl x) ∧ (∀ x, InVariable tsz u x → Covers vl x) ∧
      (∀ x, Covers fl x → InFunction u x ∨ PadGap (InFunction u) x) ∧
      (∀ x, Covers vl x → InVariable tsz u x ∨ PadGap (InVariable tsz u) x) := by
  let fl := sort (pushAll [] u.functionRanges)
  let vl := sort (pushAll [] (u.variableRanges tsz))
  have bound : ∀ l : List Range, ∃ n, ∀ r ∈ l, r.hi ≤ n := by
    intro l
    induction l with
    | nil => exact ⟨0, by simp⟩
    | cons r l ih =>
      obtain ⟨n, hn⟩ := ih
      refine ⟨max r.hi n, fun q hq => ?_⟩
      rcases List.mem_cons.1 hq with rfl | hq
      · omega
      · have := hn q hq; omega
  obtain ⟨n1, h1⟩ := bound fl
  obtain ⟨n2, h2⟩ := bound vl
  have hf1 : ∀ r ∈ fl, r.hi ≤ max n1 n2 := fun r hr => by have := h1 r hr; omega
  have hv1 : ∀ r ∈ vl, r.hi ≤ max n1 n2 := fun r hr => by have := h2 r hr; omega
  have hf := (C04_size_counts_addresses u.functionRanges (max n1 n2) hf1).1
  have hv := (C04_size_counts_addresses (u.variableRanges tsz) (max n1 n2) hv1).1
  have pad : ∀ (rs : List Range) (S : Nat → Prop), (∀ x, Covers rs x ↔ S x) →
      ∀ x, Covers (sort (pushAll [] rs)) x → S x ∨ PadGap S x := by
    intro rs S hS x h
    rcases C02_only_padding_invented rs x h with h | ⟨p, hp, r, hr, h1, h2, h3, h4, h5, h6⟩
    · exact .inl ((hS x).1 h)
    · exact .inr ⟨p.hi - 1, r.lo, (hS _).1 ⟨p, hp, by omega, by omega⟩,
        (hS _).1 ⟨r, hr, by omega, by omega⟩, by omega, h4, h5, by omega⟩
  refine ⟨fl, vl, max n1 n2, hf, hv, ?_, ?_, ?_, ?_, pad _ _ (covers_functionRanges u),
    pad _ _ (covers_variableRanges tsz u)⟩
  · show (do let f ← u.functionSize; let v ← u.variableSize tsz; pure (f + v)) = _
    rw [show u.functionSize = _ from hf, show u.variableSize tsz = _ from hv]
    rfl
  · rintro x (⟨r, hr, h⟩ | ⟨r, hr, h⟩)
    · have := hf1 r hr; omega
    · have := hv1 r hr; omega
  · exact fun x h => (C02_no_address_lost _ x ((covers_functionRanges u x).2 h)).2
  · exact fun x h => (C02_no_address_lost _ x ((covers_variableRanges tsz u x).2 h)).2

/-- Finding (C60): `Unit::size` counts an address shared by a function and a variable twice, and
bytes of alignment padding once per list, so the parts can exceed the unit's extent. -/
theorem C60_size_double_counts : ∃ u : CompUnit, ∀ tsz, u.size tsz = some 20 ∧
    size? (u.knownRanges tsz) = some 10 := by
  refine ⟨{ functions := [{ ranges := [⟨100, 110⟩] }],
            variables := [{ address := some 100, size := some 10 }] }, fun tsz => ?_⟩
  exact ⟨rfl, rfl⟩

/-- Non-vacuity of C60: a function, a typed variable and an unknown gap. -/
example :
    let u : CompUnit := { ranges := [⟨100, 200⟩], functions := [{ ranges := [⟨100, 121⟩] }]
                          variables := [{ address := some 150, ty := some 7 }] }
    let tsz : Types.TypeOffset → Option Nat := fun t => if t = some 7 then some 4 else none
    u.knownRanges tsz = [⟨100, 121⟩, ⟨150, 154⟩] ∧ u.size tsz = some 25 := by
  exact ⟨by decide, by decide⟩

end Verif.Item
