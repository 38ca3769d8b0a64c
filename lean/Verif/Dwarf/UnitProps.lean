import Verif.Dwarf.UnitSpec
import Verif.Dwarf.AttrLemmas
/-!
# C47: ranges of a unit; C73: unit lookup
-/
namespace Verif.Dwarf
open Verif.Item Verif.Types Verif.Namespace Verif.Range Verif.Sentinel

/-- What the loop over the rows pushes: the sequences, in order, given the open one. -/
def lineSeqs : Option Nat → List LineRow → List Range
  | _, [] => []
  | s, (a, true) :: rows =>
    (match s with
      | some b => if b ≠ 0 then [⟨b, a⟩] else []
      | none => []) ++ lineSeqs none rows
  | s, (a, false) :: rows => lineSeqs (some (s.getD a)) rows

theorem lineStep_eq (rows : List LineRow) : ∀ (s : Option Nat) (l : RangeList),
    (rows.foldl lineStep (s, l)).2 = pushAll l (lineSeqs s rows) := by
  induction rows with
  | nil => intro s l; rfl
  | cons row rows ih =>
    obtain ⟨a, e⟩ := row
    intro s l
    rw [List.foldl_cons]
    cases e with
    | true =>
      cases s with
      | none => simp only [lineStep, if_true, lineSeqs, List.nil_append]; exact ih _ _
      | some b =>
        by_cases hb : b = 0
        · simp only [lineStep, if_true, lineSeqs, hb, ne_eq, not_true_eq_false, if_false, List.nil_append]; exact ih _ _
        · simp only [lineStep, if_true, lineSeqs, ne_eq, hb, not_false_eq_true]
          rw [ih]; rfl
    | false =>
      cases s with
      | none => simp only [lineStep, Bool.false_eq_true, if_false, Option.isNone_none, if_true, lineSeqs, Option.getD_none]; exact ih _ _
      | some b => simp only [lineStep, Bool.false_eq_true, if_false, Option.isNone_some, lineSeqs, Option.getD_some]; exact ih _ _

/-- Sequences of a table, or of the rest of a table after the start of a sequence at `s`. -/
def Ext (s : Option Nat) (rows : List LineRow) (r : Range) : Prop :=
  (s = some r.lo ∧ ∃ j : Nat, rows[j]? = some (r.hi, true) ∧ ∀ k a, k < j → rows[k]? ≠ some (a, true)) ∨
  ∃ i j : Nat, i < j ∧ rows[i]? = some (r.lo, false) ∧ rows[j]? = some (r.hi, true) ∧
    (∀ k a, i < k → k < j → rows[k]? ≠ some (a, true)) ∧ ((i = 0 ∧ s = none) ∨ ∃ a, 0 < i ∧ rows[i - 1]? = some (a, true))

theorem ext_end (s : Option Nat) (a : Nat) (rows : List LineRow) (r : Range) :
    Ext s ((a, true) :: rows) r ↔ (s = some r.lo ∧ r.hi = a) ∨ Ext none rows r := by
  constructor
  · rintro (⟨h1, j, h2, h3⟩ | ⟨i, j, h1, h2, h3, h4, h5⟩)
    · cases j with
      | zero => simp at h2; exact .inl ⟨h1, h2.symm⟩
      | succ j => exact absurd rfl (h3 0 a (by omega))
    · cases i with
      | zero => simp at h2
      | succ i =>
        obtain ⟨j, rfl⟩ : ∃ j', j = j' + 1 := ⟨j - 1, by omega⟩
        simp only [List.getElem?_cons_succ] at h2 h3
        refine .inr (.inr ⟨i, j, by omega, h2, h3, fun k b h6 h7 => ?_, ?_⟩)
        · have := h4 (k + 1) b (by omega) (by omega); simpa using this
        · rcases h5 with ⟨h5, _⟩ | ⟨b, _, h5⟩
          · omega
          · cases i with
            | zero => exact .inl ⟨rfl, rfl⟩
            | succ i => exact .inr ⟨b, by omega, by simpa using h5⟩
  · rintro (⟨h1, h2⟩ | ⟨h1, _⟩ | ⟨i, j, h1, h2, h3, h4, h5⟩)
    · exact .inl ⟨h1, 0, by simp [h2], fun k b h => by omega⟩
    · cases h1
    · refine .inr ⟨i + 1, j + 1, by omega, by simpa using h2, by simpa using h3, fun k b h6 h7 => ?_, .inr ?_⟩
      · obtain ⟨k, rfl⟩ : ∃ k', k = k' + 1 := ⟨k - 1, by omega⟩
        simpa using h4 k b (by omega) (by omega)
      · rcases h5 with ⟨rfl, _⟩ | ⟨b, h5, h6⟩
        · exact ⟨a, by omega, by simp⟩
        · obtain ⟨i, rfl⟩ : ∃ k', i = k' + 1 := ⟨i - 1, by omega⟩
          exact ⟨b, by omega, by simpa using h6⟩

theorem ext_row (s : Option Nat) (a : Nat) (rows : List LineRow) (r : Range) :
    Ext s ((a, false) :: rows) r ↔ Ext (some (s.getD a)) rows r := by
  constructor
  · rintro (⟨h1, j, h2, h3⟩ | ⟨i, j, h1, h2, h3, h4, h5⟩)
    · obtain ⟨j, rfl⟩ : ∃ j', j = j' + 1 := by
        cases j with
        | zero => simp at h2
        | succ j => exact ⟨j, rfl⟩
      refine .inl ⟨by rw [h1]; rfl, j, by simpa using h2, fun k b h => ?_⟩
      simpa using h3 (k + 1) b (by omega)
    · obtain ⟨j, rfl⟩ : ∃ j', j = j' + 1 := ⟨j - 1, by omega⟩
      simp only [List.getElem?_cons_succ] at h3
      cases i with
      | zero =>
        simp only [List.getElem?_cons_zero, Option.some.injEq, Prod.mk.injEq, and_true] at h2
        rcases h5 with ⟨_, h5⟩ | ⟨b, h5, _⟩
        · refine .inl ⟨by rw [h5, h2]; rfl, j, h3, fun k b h => ?_⟩
          simpa using h4 (k + 1) b (by omega) (by omega)
        · omega
      | succ i =>
        simp only [List.getElem?_cons_succ] at h2
        refine .inr ⟨i, j, by omega, h2, h3, fun k b h6 h7 => ?_, ?_⟩
        · have := h4 (k + 1) b (by omega) (by omega); simpa using this
        · rcases h5 with ⟨h5, _⟩ | ⟨b, _, h5⟩
          · omega
          · cases i with
            | zero => simp at h5
            | succ i => exact .inr ⟨b, by omega, by simpa using h5⟩
  · rintro (⟨h1, j, h2, h3⟩ | ⟨i, j, h1, h2, h3, h4, h5⟩)
    · simp only [Option.some.injEq] at h1
      cases s with
      | some b =>
        refine .inl ⟨by simpa using h1, j + 1, by simpa using h2, fun k c h => ?_⟩
        cases k with
        | zero => simp
        | succ k => simpa using h3 k c (by omega)
      | none =>
        simp only [Option.getD_none] at h1
        refine .inr ⟨0, j + 1, by omega, by simp [h1], by simpa using h2, fun k c h h' => ?_, .inl ⟨rfl, rfl⟩⟩
        obtain ⟨k, rfl⟩ : ∃ k', k = k' + 1 := ⟨k - 1, by omega⟩
        simpa using h3 k c (by omega)
    · refine .inr ⟨i + 1, j + 1, by omega, by simpa using h2, by simpa using h3, fun k b h6 h7 => ?_, .inr ?_⟩
      · obtain ⟨k, rfl⟩ : ∃ k', k = k' + 1 := ⟨k - 1, by omega⟩
        simpa using h4 k b (by omega) (by omega)
      · rcases h5 with ⟨rfl, h5⟩ | ⟨b, h5, h6⟩
        · cases h5
        · obtain ⟨i, rfl⟩ : ∃ k', i = k' + 1 := ⟨i - 1, by omega⟩
          exact ⟨b, by omega, by simpa using h6⟩

theorem mem_lineSeqs (rows : List LineRow) : ∀ (s : Option Nat) (r : Range),
    r ∈ lineSeqs s rows ↔ r.lo ≠ 0 ∧ Ext s rows r := by
  induction rows with
  | nil => intro s r; simp [lineSeqs, Ext]
  | cons row rows ih =>
    obtain ⟨a, e⟩ := row
    intro s r
    cases e with
    | true =>
      rw [ext_end]
      simp only [lineSeqs, List.mem_append, ih]
      cases s with
      | none => simp
      | some b =>
        by_cases hb : b = 0
        · subst hb
          simp only [ne_eq, not_true_eq_false, if_false, List.not_mem_nil, false_or, Option.some.injEq]
          constructor
          · rintro ⟨h1, h2⟩; exact ⟨h1, .inr h2⟩
          · rintro ⟨h1, ⟨h2, _⟩ | h2⟩
            · omega
            · exact ⟨h1, h2⟩
        · simp only [ne_eq, hb, not_false_eq_true, if_true, List.mem_singleton, Option.some.injEq]
          constructor
          · rintro (rfl | ⟨h1, h2⟩)
            · exact ⟨hb, .inl ⟨rfl, rfl⟩⟩
            · exact ⟨h1, .inr h2⟩
          · rintro ⟨h1, ⟨rfl, rfl⟩ | h2⟩
            · exact .inl rfl
            · exact .inr ⟨h1, h2⟩
    | false => rw [ext_row]; exact ih _ _

theorem ext_none (rows : List LineRow) (r : Range) : Ext none rows r ↔ Sequence rows r := by
  unfold Ext Sequence
  constructor
  · rintro (⟨h, _⟩ | ⟨i, j, h1, h2, h3, h4, h5⟩)
    · cases h
    · refine ⟨i, j, h1, h2, h3, h4, ?_⟩
      rcases h5 with ⟨h, _⟩ | ⟨a, _, h⟩
      · exact .inl h
      · exact .inr ⟨a, h⟩
  · rintro ⟨i, j, h1, h2, h3, h4, h5⟩
    refine .inr ⟨i, j, h1, h2, h3, h4, ?_⟩
    rcases h5 with h | ⟨a, h⟩
    · exact .inl ⟨h, rfl⟩
    · cases i with
      | zero => exact .inl ⟨rfl, rfl⟩
      | succ i => exact .inr ⟨a, by omega, h⟩

/-- What the attribute loop of a unit finds. -/
theorem unitState_eq (d : Die) :
    let s := d.attrs.foldl unitAttr {}
    s.name = d.strAttr .name ∧ s.dir = d.strAttr .compDir ∧ s.lowPc = (d.last .lowPc).bind Val.addr ∧
    s.ranges = d.rangesAttr ∧
    s.highPc = d.lastOf .highPc (fun v => match v with | .udata _ => none | v => v.addr) ∧
    s.size = d.lastOf .highPc (fun v => match v with | .udata n => some n | _ => none) := by
  simp only
  refine ⟨?_, ?_, ?_, ?_, ?_, ?_⟩
  · exact foldl_last unitAttr (·.name) .name Val.str (fun s v => rfl)
      (fun s a v h => by cases a <;> first | exact absurd rfl h | rfl | (cases v <;> rfl)) d {} rfl
  · exact foldl_last unitAttr (·.dir) .compDir Val.str (fun s v => rfl)
      (fun s a v h => by cases a <;> first | exact absurd rfl h | rfl | (cases v <;> rfl)) d {} rfl
  · exact foldl_last unitAttr (·.lowPc) .lowPc Val.addr (fun s v => rfl)
      (fun s a v h => by cases a <;> first | exact absurd rfl h | rfl | (cases v <;> rfl)) d {} rfl
  · exact foldl_last unitAttr (·.ranges) .ranges Val.rangesOf (fun s v => rfl)
      (fun s a v h => by cases a <;> first | exact absurd rfl h | rfl | (cases v <;> rfl)) d {} rfl
  · exact foldl_lastSome unitAttr (·.highPc) .highPc _ (fun s v => by cases v <;> rfl)
      (fun s a v h => by cases a <;> first | exact absurd rfl h | rfl | (cases v <;> rfl)) d {} rfl
  · exact foldl_lastSome unitAttr (·.size) .highPc _ (fun s v => by cases v <;> rfl)
      (fun s a v h => by cases a <;> first | exact absurd rfl h | rfl | (cases v <;> rfl)) d {} rfl

/-- The ranges pushed are those the unit claims. -/
theorem unitRanges_claims (line : Option (List LineRow)) (d : Die) :
    ∃ rs, unitRanges line (d.attrs.foldl unitAttr {}) = pushAll [] rs ∧
      ∀ r, r.lo < r.hi → (r ∈ rs ↔ Claims line d r) := by
  obtain ⟨_, _, h3, h4, h5, h6⟩ := unitState_eq d
  unfold unitRanges Claims
  cases line with
  | some rows =>
    refine ⟨lineSeqs none rows, lineStep_eq rows none [], fun r _ => ?_⟩
    rw [mem_lineSeqs, ext_none]
    exact And.comm
  | none =>
    simp only [h4]
    cases d.rangesAttr with
    | some rs =>
      refine ⟨rs.filter fun r => r.lo < r.hi, ?_, fun r h => by simp [h]⟩
      simp only [pushAll]
      rw [List.foldl_filter]
      simp only [decide_eq_true_eq]
    | none =>
      simp only [h3]
      cases (d.last .lowPc).bind Val.addr with
      | none => exact ⟨[], rfl, by simp⟩
      | some lo =>
        have he : unitHighPc (d.attrs.foldl unitAttr {}) lo = d.unitEnd lo := by
          unfold unitHighPc
          rw [h5, h6]
          unfold Die.unitEnd
          cases d.lastOf .highPc (fun v => match v with | .udata _ => none | v => v.addr) <;>
            cases d.lastOf .highPc (fun v => match v with | .udata n => some n | _ => none) <;> rfl
        simp only [he]
        cases hu : d.unitEnd lo with
        | none =>
          refine ⟨[], rfl, fun r _ => ?_⟩
          simp only [List.not_mem_nil, Option.some.injEq, false_iff, not_and]
          rintro rfl; rw [hu]; simp
        | some hi =>
          refine ⟨[⟨lo, hi⟩], rfl, fun r _ => ?_⟩
          simp only [List.mem_singleton, Option.some.injEq]
          constructor
          · rintro rfl; exact ⟨rfl, hu⟩
          · rintro ⟨rfl, h⟩
            rw [hu] at h; cases h; rfl

/-- **C47** (ranges). A unit's ranges are in canonical form. They cover every address of the code the
unit claims (from its line table, or else its range list, or else its low and high pc), and otherwise
only alignment padding: at most 15 bytes between two claimed ranges. -/
theorem C47_ranges {be : Bool} {version n : Nat} {line : Option (List LineRow)} {d : Die} {u : CompUnit}
    (h : parseUnit be version n line d = some u) :
    Canonical u.ranges ∧
    (∀ r x, Claims line d r → r.lo ≤ x → x < r.hi → Covers u.ranges x) ∧
    (∀ x, Covers u.ranges x → (∃ r, Claims line d r ∧ r.lo ≤ x ∧ x < r.hi) ∨
      ∃ p r, Claims line d p ∧ Claims line d r ∧ p.hi ≤ x ∧ x < r.lo ∧ r.lo % 16 = 0 ∧ r.lo ≤ p.hi + 15) := by
  obtain ⟨rs, h1, h2⟩ := unitRanges_claims line d
  have hu : u.ranges = sort (pushAll [] rs) := by
    unfold parseUnit at h
    simp only [Option.map_eq_some_iff] at h
    obtain ⟨items, _, rfl⟩ := h
    simp only [h1]
  rw [hu]
  refine ⟨canonical_sort _, fun r x hr hl hh => ?_, fun x hx => ?_⟩
  · exact (C02_no_address_lost rs x ⟨r, (h2 r (by omega)).2 hr, hl, hh⟩).2
  · rcases C02_only_padding_invented rs x hx with ⟨r, hr, h3, h4⟩ | ⟨p, hp, r, hr, h3, h4, h5, h6, h7, h8⟩
    · exact .inl ⟨r, (h2 r (by omega)).1 hr, h3, h4⟩
    · exact .inr ⟨p, r, (h2 p h3).1 hp, (h2 r h4).1 hr, h5, h6, h7, h8⟩

/-- **C47** (low address). The low address of a unit is the smallest address its ranges cover; it has
none exactly if they cover nothing. -/
theorem C47_low_pc {be : Bool} {version n : Nat} {line : Option (List LineRow)} {d : Die} {u : CompUnit}
    (h : parseUnit be version n line d = some u) :
    (∀ a, u.lowPc = some a → Covers u.ranges a ∧ ∀ x, Covers u.ranges x → a ≤ x) ∧
    (u.lowPc = none → ∀ x, ¬ Covers u.ranges x) := by
  have hc := (C47_ranges h).1
  have hl : u.lowPc = u.ranges.head?.map (·.lo) := by
    unfold parseUnit at h
    simp only [Option.map_eq_some_iff] at h
    obtain ⟨items, _, rfl⟩ := h
    rfl
  rw [hl]
  cases hr : u.ranges with
  | nil => exact ⟨by simp, fun _ x => by simp⟩
  | cons r rs =>
    rw [hr] at hc
    refine ⟨fun a ha => ?_, by simp⟩
    simp only [List.head?_cons, Option.map_some, Option.some.injEq] at ha
    subst ha
    refine ⟨⟨r, by simp, Nat.le_refl _, hc.1 r (by simp)⟩, ?_⟩
    rintro x ⟨q, hq, h1, h2⟩
    rcases List.mem_cons.1 hq with rfl | hq
    · exact h1
    · have := (List.pairwise_cons.1 hc.2).1 q hq
      have h3 := hc.1 r (by simp)
      have := this.1
      omega

/-- **C47** (name and directory). -/
theorem C47_names {be : Bool} {version n : Nat} {line : Option (List LineRow)} {d : Die} {u : CompUnit}
    (h : parseUnit be version n line d = some u) : u.name = d.strAttr .name ∧ u.dir = d.strAttr .compDir := by
  unfold parseUnit at h
  simp only [Option.map_eq_some_iff] at h
  obtain ⟨items, _, rfl⟩ := h
  exact ⟨(unitState_eq d).1, (unitState_eq d).2.1⟩

/-- Two sequences, one of which starts at zero, and rows without an end. -/
example :
    let rows : List LineRow := [(100, false), (105, false), (120, true), (0, false), (50, true), (300, true), (400, false)]
    (parseUnit false 4 10 (some rows) (.node 0 .other [(.lowPc, .address 7)] [])).map (fun u => (u.ranges, u.lowPc)) =
      some ([⟨100, 120⟩], some 100) := by decide +kernel

example :
    (parseUnit false 4 10 none (.node 0 .other [(.lowPc, .address 7), (.highPc, .udata 13)] [])).map (fun u => (u.ranges, u.lowPc)) =
      some ([⟨7, 20⟩], some 7) := by decide +kernel

/-- A line table without usable sequences hides the range list and the low and high pc, which are not
consulted. -/
theorem C47_line_table_hides_witness :
    (parseUnit false 4 10 (some []) (.node 0 .other [(.lowPc, .address 7), (.highPc, .udata 13)] [])).map (fun u => (u.ranges, u.lowPc)) =
      some ([], none) := by decide +kernel

/-! ### C73: unit lookup -/

/-- **C73** (sound). The unit found for an offset is the first one whose entries include it, and the
offset in the unit is relative to its header. -/
theorem C73_found (us : List UnitExtent) (o k x : Nat) :
    findUnit us o = some (k, x) ↔
      ∃ u, us[k]? = some u ∧ u.first ≤ o ∧ o < u.stop ∧ x = o - u.start ∧
        ∀ j v, j < k → us[j]? = some v → ¬ (v.first ≤ o ∧ o < v.stop) := by
  induction us generalizing k with
  | nil => simp [findUnit]
  | cons u us ih =>
    unfold findUnit UnitExtent.toUnitOffset
    by_cases h : u.first ≤ o ∧ o < u.stop
    · rw [if_pos h]
      simp only [Option.some.injEq, Prod.mk.injEq]
      constructor
      · rintro ⟨rfl, rfl⟩
        exact ⟨u, by simp, h.1, h.2, rfl, fun j v hj => by omega⟩
      · rintro ⟨v, h1, h2, h3, h4, h5⟩
        cases k with
        | zero => simp at h1; subst h1; exact ⟨rfl, h4.symm⟩
        | succ k => exact absurd h (h5 0 u (by omega) (by simp))
    · rw [if_neg h]
      simp only [Option.map_eq_some_iff, Prod.mk.injEq]
      constructor
      · rintro ⟨⟨k', x'⟩, h1, rfl, rfl⟩
        obtain ⟨v, h2, h3, h4, h5, h6⟩ := (ih k').1 h1
        refine ⟨v, by simpa using h2, h3, h4, h5, fun j w hj hw => ?_⟩
        cases j with
        | zero => simp at hw; subst hw; exact h
        | succ j => exact h6 j w (by simp at hj; omega) (by simpa using hw)
      · rintro ⟨v, h1, h2, h3, h4, h5⟩
        cases k with
        | zero => simp at h1; subst h1; exact absurd ⟨h2, h3⟩ h
        | succ k =>
          refine ⟨(k, x), (ih k).2 ⟨v, by simpa using h1, h2, h3, h4, fun j w hj hw => ?_⟩, rfl, rfl⟩
          exact h5 (j + 1) w (by omega) (by simpa using hw)

/-- **C73** (complete). If units do not overlap, every offset of an entry is found in its unit, and an
offset that is not in a unit is an error. -/
theorem C73_complete (us : List UnitExtent)
    (hd : ∀ (i j : Nat) u v, us[i]? = some u → us[j]? = some v → i ≠ j → u.stop ≤ v.first ∨ v.stop ≤ u.first) (o : Nat) :
    (∀ (k : Nat) u, us[k]? = some u → u.first ≤ o → o < u.stop → findUnit us o = some (k, o - u.start)) ∧
    ((∀ u ∈ us, ¬ (u.first ≤ o ∧ o < u.stop)) → findUnit us o = none) := by
  constructor
  · intro k u hk h1 h2
    refine (C73_found us o k _).2 ⟨u, hk, h1, h2, rfl, fun j v hj hv => ?_⟩
    rintro ⟨h3, h4⟩
    rcases hd j k v u hv hk (by omega) with h | h <;> omega
  · intro h
    cases hf : findUnit us o with
    | none => rfl
    | some p =>
      obtain ⟨u, h1, h2, h3, _⟩ := (C73_found us o p.1 p.2).1 hf
      exact absurd ⟨h2, h3⟩ (h u (List.mem_of_getElem? h1))

example : findUnit [⟨0, 11, 50⟩, ⟨50, 61, 90⟩] 61 = some (1, 11) ∧ findUnit [⟨0, 11, 50⟩, ⟨50, 61, 90⟩] 55 = none := by
  decide +kernel

end Verif.Dwarf
