import Verif.Range.Exact
import Verif.File.Props
/-!
# C34: known and unknown ranges together account for the whole file
-/
namespace Verif.File
open Verif.Item Verif.Types Verif.Range

/-- Address `x` belongs to one of the units: to a function, to a variable, or to the unit's own
ranges. -/
def Occupied (tsz : TypeOffset → Option Nat) (us : List CompUnit) (x : Nat) : Prop :=
  ∃ u ∈ us, InFunction u x ∨ InVariable tsz u x ∨ Covers u.ranges x

/-- The set with the alignment padding between its members added. -/
def Padded (S : Nat → Prop) (x : Nat) : Prop := S x ∨ PadGap S x

theorem padGap_mono {S T : Nat → Prop} (h : ∀ x, S x → T x) {x : Nat} : PadGap S x → PadGap T x :=
  fun ⟨p, r, hp, hr, h'⟩ => ⟨p, r, h p hp, h r hr, h'⟩

theorem padded_mono {S T : Nat → Prop} (h : ∀ x, S x → T x) {x : Nat} : Padded S x → Padded T x :=
  Or.imp (h x) (padGap_mono h)

theorem padded_of {S T : Nat → Prop} {x : Nat} (hx : S x ∨ PadGap S x) (h : ∀ x, S x → T x) :
    Padded T x := padded_mono h hx

/-- Padding addresses are never aligned, so adding padding twice adds nothing new. -/
theorem padded_padded {S : Nat → Prop} {x : Nat} (h : Padded (Padded S) x) : Padded S x := by
  rcases h with h | ⟨p, r, hp, hr, h1, h2, h3, h4⟩
  · exact h
  · have hr' : S r := by
      rcases hr with hr | ⟨p', r', _, _, h5, h6, h7, h8⟩
      · exact hr
      · omega
    rcases hp with hp | ⟨p', r', hp', hr'', h5, h6, h7, h8⟩
    · exact .inr ⟨p, r, hp, hr', h1, h2, h3, h4⟩
    · exact .inr ⟨p', r, hp', hr', by omega, h2, h3, by omega⟩

theorem covers_sort_padded (rs : List Range) (x : Nat) (h : Covers (sort (pushAll [] rs)) x) :
    Padded (Covers rs) x := by
  rcases C02_only_padding_invented rs x h with h | ⟨p, hp, r, hr, h1, h2, h3, h4, h5, h6⟩
  · exact .inl h
  · exact .inr ⟨p.hi - 1, r.lo, ⟨p, hp, by omega, by omega⟩, ⟨r, hr, by omega, by omega⟩,
      by omega, h4, h5, by omega⟩

/-- Everything pushed by `File::ranges`. -/
def pushed (tsz : TypeOffset → Option Nat) (us : List CompUnit) : List Range :=
  us.flatMap fun u => u.knownRanges tsz ++ u.unknownRanges tsz

theorem unitRanges_eq (tsz : TypeOffset → Option Nat) (us : List CompUnit) :
    unitRanges tsz us = sort (pushAll [] (pushed tsz us)) := by
  have : ∀ acc, us.foldl (fun acc u => pushAll (pushAll acc (u.knownRanges tsz))
      (u.unknownRanges tsz)) acc = pushAll acc (pushed tsz us) := by
    induction us with
    | nil => intro acc; simp [pushed, pushAll]
    | cons u us ih =>
      intro acc
      rw [List.foldl_cons, ih]
      simp [pushed, pushAll, List.foldl_append]
  unfold unitRanges
  rw [this]

theorem pushed_padded (tsz : TypeOffset → Option Nat) (us : List CompUnit) (x : Nat)
    (h : Covers (pushed tsz us) x) : Padded (Occupied tsz us) x := by
  obtain ⟨r, hr, h1, h2⟩ := h
  obtain ⟨u, hu, hr⟩ := List.mem_flatMap.1 hr
  rcases List.mem_append.1 hr with hr | hr
  · refine padded_of (S := fun y => InFunction u y ∨ InVariable tsz u y) ((C60_known_ranges tsz u).2.2 x ⟨r, hr, h1, h2⟩) (fun y hy => ?_)
    rcases hy with hy | hy
    · exact ⟨u, hu, .inl hy⟩
    · exact ⟨u, hu, .inr (.inl hy)⟩
  · have h3 := (C60_unknown_ranges tsz u).2.2 x ⟨r, hr, h1, h2⟩
    refine padded_padded (padded_of (S := fun y => Covers (sort (pushAll [] u.ranges)) y ∧
      ¬ Covers (u.knownRanges tsz) y) h3 (fun y hy => ?_))
    exact padded_mono (fun z hz => ⟨u, hu, .inr (.inr hz)⟩) (covers_sort_padded _ y hy.1)

/-- `File::ranges` covers every address of every unit, and otherwise only alignment padding
between such addresses. -/
theorem C34_unit_ranges (tsz : TypeOffset → Option Nat) (us : List CompUnit) :
    Canonical (unitRanges tsz us) ∧ (∀ x, Occupied tsz us x → Covers (unitRanges tsz us) x) ∧
    (∀ x, Covers (unitRanges tsz us) x → Occupied tsz us x ∨ PadGap (Occupied tsz us) x) := by
  rw [unitRanges_eq]
  refine ⟨canonical_sort _, fun x ⟨u, hu, hx⟩ => ?_, fun x hx => ?_⟩
  · apply covers_sort_of_covers
    apply covers_pushAll
    right
    have lift : ∀ l : List Range, (∀ r ∈ l, r ∈ u.knownRanges tsz ++ u.unknownRanges tsz) →
        Covers l x → Covers (pushed tsz us) x := fun l hl ⟨r, hr, h⟩ =>
      ⟨r, List.mem_flatMap.2 ⟨u, hu, hl r hr⟩, h⟩
    rcases hx with hx | hx | hx
    · exact lift _ (by simp +contextual) ((C60_known_ranges tsz u).2.1 x (.inl hx))
    · exact lift _ (by simp +contextual) ((C60_known_ranges tsz u).2.1 x (.inr hx))
    · rcases C60_complete tsz u x hx with h | h
      · exact lift _ (by simp +contextual) h
      · exact lift _ (by simp +contextual) h
  · exact padded_padded (padded_mono (pushed_padded tsz us) (covers_sort_padded _ x hx))

theorem covers_sections (sections : List Section) (x : Nat) :
    Covers (sections.filterMap (·.range)) x ↔ InSection sections x := by
  simp only [Covers, List.mem_filterMap, InSection, Section.range, Option.map_eq_some_iff]
  constructor
  · rintro ⟨r, ⟨s, hs, a, ha, rfl⟩, h⟩; exact ⟨s, hs, a, ha, h⟩
  · rintro ⟨s, hs, a, ha, h⟩; exact ⟨_, ⟨s, hs, a, ha, rfl⟩, h⟩

theorem C34_unknown_ranges (tsz : TypeOffset → Option Nat) (sections : List Section)
    (us : List CompUnit) :
    Canonical (unknownRanges tsz sections us) ∧
    (∀ x, InSection sections x → ¬ Covers (unitRanges tsz us) x →
      Covers (unknownRanges tsz sections us) x) ∧
    (∀ x, Covers (unknownRanges tsz sections us) x →
      Padded (fun y => Padded (InSection sections) y ∧ ¬ Covers (unitRanges tsz us) y) x) := by
  have ha : Ordered (sort (pushAll [] (sections.filterMap (·.range)))) := (canonical_sort _).ordered
  have hb : Ordered (unitRanges tsz us) := (C34_unit_ranges tsz us).1.ordered
  have h := C03_subtract_keeps _ _ ha hb
  refine ⟨h.1, fun x h1 h2 => h.2 x (C02_no_address_lost _ x ((covers_sections _ _).2 h1)).2 h2,
    fun x hx => ?_⟩
  refine padded_of (S := fun y => Covers (sort (pushAll [] (sections.filterMap (·.range)))) y ∧
      ¬ Covers (unitRanges tsz us) y) (C03_subtract_exact_up_to_padding_partial _ _ ha hb x hx) (fun y hy => ⟨?_, hy.2⟩)
  exact padded_mono (fun z hz => (covers_sections _ _).1 hz) (covers_sort_padded _ y hy.1)

/-- The result of a subtraction begins only at addresses of the difference. -/
theorem begins_subtract (a b : List Range) (ha : Ordered a) (hb : Ordered b) :
    ∀ c ∈ subtract a b, Covers a c.lo ∧ ¬ Covers b c.lo := by
  have hi : Inv (fun y => Covers a y ∧ ¬ Covers b y) (fun _ => True) (fun _ => True)
      (pushAll [] (pieces a b)) := by
    apply Inv.pushAll Inv.nil
    intro r hr hne
    exact ⟨(pieces_covers a b ha hb r.lo).1 ⟨r, hr, by omega, hne⟩, trivial, fun _ _ _ => trivial⟩
  intro c hc
  unfold subtract at hc
  rw [subtractLoop_eq] at hc
  exact (hi.sort.ok c hc).2.1

theorem pieces_nil (rs : List Range) : pieces rs [] = rs := by
  induction rs with
  | nil => simp [pieces]
  | cons r rs ih => rw [pieces, ih]

theorem subtract_nil (rs : List Range) (h : Canonical rs) : subtract rs [] = rs := by
  unfold subtract
  rw [subtractLoop_eq, pieces_nil, pushAll_of_canonical (l := []) (by simpa using h)]
  exact sort_of_canonical h

theorem pushed_unknown (tsz : TypeOffset → Option Nat) (us : List CompUnit) (n : Option Str)
    (R : List Range) (h : Canonical R) :
    pushed tsz (us ++ [{ name := n, ranges := R }]) = pushed tsz us ++ R := by
  have hk : CompUnit.knownRanges tsz { name := n, ranges := R } = [] := by
    simp [CompUnit.knownRanges, CompUnit.functionRanges, CompUnit.variableRanges, pushAll, sort, stableSort]
  have hu : CompUnit.unknownRanges tsz { name := n, ranges := R } = R := by
    unfold CompUnit.unknownRanges
    rw [hk]
    simp only
    rw [pushAll_of_canonical (l := []) (by simpa using h)]
    simp only [List.nil_append]
    rw [sort_of_canonical h, subtract_nil R h]
  simp [pushed, hk, hu]

/-- Adding the unknown ranges never uncovers anything. -/
theorem unitRanges_grows (tsz : TypeOffset → Option Nat) (sections : List Section)
    (us : List CompUnit) (n : Option Str) (x : Nat) (h : Covers (unitRanges tsz us) x) :
    Covers (unitRanges tsz (us ++ [{ name := n, ranges := unknownRanges tsz sections us }])) x := by
  have hR := (C34_unknown_ranges tsz sections us).1
  rw [unitRanges_eq, pushed_unknown tsz us n _ hR]
  have hsplit : pushAll [] (pushed tsz us ++ unknownRanges tsz sections us) =
      pushAll (pushAll [] (pushed tsz us)) (unknownRanges tsz sections us) := by
    simp [pushAll, List.foldl_append]
  rw [hsplit]
  rw [unitRanges_eq] at h
  refine sort_covers_le (canonical_sort _)
    (fun y hy => covers_sort_of_covers (covers_pushAll (.inl hy))) ?_ h
  have hi : Inv (fun b => (∃ r ∈ pushAll [] (pushed tsz us), r.lo < r.hi ∧ r.lo = b) ∨
      ¬ Covers (sort (pushAll [] (pushed tsz us))) b) (fun _ => True) (fun _ => True)
      (pushAll (pushAll [] (pushed tsz us)) (unknownRanges tsz sections us)) := by
    apply Inv.pushAll
    · have h0 : Inv (fun _ => True) (fun _ => True) (fun _ => True) (pushAll [] (pushed tsz us)) :=
        Inv.pushAll Inv.nil (fun _ _ _ => ⟨trivial, trivial, fun _ _ _ => trivial⟩)
      exact ⟨fun r hr => ⟨(h0.ok r hr).1, .inl ⟨r, hr, (h0.ok r hr).1, rfl⟩, trivial⟩,
        fun _ _ => .inl trivial⟩
    · intro r hr hne
      refine ⟨.inr ?_, trivial, fun _ _ _ => trivial⟩
      have := (begins_subtract _ _ (canonical_sort _).ordered
        (C34_unit_ranges tsz us).1.ordered r hr).2
      rwa [unitRanges_eq] at this
  exact fun c hc => (hi.sort.ok c hc).2.1

theorem all_covered (tsz : TypeOffset → Option Nat) (sections : List Section)
    (us : List CompUnit) (n : Option Str) (x : Nat)
    (hx : Covers (unitRanges tsz us) x ∨ Covers (unknownRanges tsz sections us) x) :
    Covers (unitRanges tsz (us ++ [{ name := n, ranges := unknownRanges tsz sections us }])) x := by
  rcases hx with hx | hx
  · exact unitRanges_grows tsz sections us n x hx
  · exact (C34_unit_ranges tsz _).2.1 x ⟨_, List.mem_append.2 (.inr (List.mem_singleton.2 rfl)),
      .inr (.inr hx)⟩

theorem subtract_self_eq_nil (a b : List Range) (ha : Ordered a) (hb : Ordered b)
    (h : ∀ x, Covers a x → Covers b x) : subtract a b = [] := by
  have : pieces a b = [] := by
    rcases hp : pieces a b with _ | ⟨r, rs⟩
    · rfl
    · have h1 := pieces_nonempty a b ha r (by rw [hp]; simp)
      have h2 := (pieces_covers a b ha hb r.lo).1 ⟨r, by rw [hp]; simp, by omega, h1⟩
      exact absurd (h r.lo h2.1) h2.2
  unfold subtract
  rw [subtractLoop_eq, this]
  rfl

theorem eachRel_mem {α β : Type} {R : α → β → Prop} {as : List α} {bs : List β}
    (h : EachRel R as bs) {a : α} (ha : a ∈ as) : ∃ b ∈ bs, R a b := by
  induction h with
  | nil => simp at ha
  | cons hr _ ih =>
    rcases List.mem_cons.1 ha with rfl | ha
    · exact ⟨_, by simp, hr⟩
    · obtain ⟨b, hb, h⟩ := ih ha; exact ⟨b, by simp [hb], h⟩

theorem selects_mem {α β : Type} {R : α → β → Prop} {as : List α} {bs : List β}
    (h : Selects R as bs) {a : α} (ha : a ∈ as) {b : β} (hab : R a b)
    : ∃ b' ∈ bs, R a b' := by
  induction h with
  | nil => simp at ha
  | take hr _ ih =>
    rcases List.mem_cons.1 ha with rfl | ha
    · exact ⟨_, by simp, hr⟩
    · obtain ⟨b, hb, h⟩ := ih ha; exact ⟨b, by simp [hb], h⟩
  | skip hr _ ih =>
    rcases List.mem_cons.1 ha with rfl | ha
    · exact absurd hab (hr b)
    · exact ih ha

/-- Naming symbols changes no address. -/
theorem occupied_named (tsz : TypeOffset → Option Nat) (symbols : List Symbol)
    (us us' : List CompUnit) (h : EachRel (UnitNamed symbols) us us') (x : Nat)
    (hx : Occupied tsz us x) : Occupied tsz us' x := by
  obtain ⟨u, hu, hx⟩ := hx
  obtain ⟨u', hu', fs, vs, rfl, hf, hv⟩ := eachRel_mem h hu
  refine ⟨_, hu', ?_⟩
  rcases hx with ⟨f, hf', r, hr, h1⟩ | ⟨v, hv', a, n, h1, h2, h3, h4⟩ | hx
  · obtain ⟨f', hf'', m, rfl, _⟩ := eachRel_mem hf hf'
    exact .inl ⟨_, hf'', r, hr, h1⟩
  · obtain ⟨v', hv'', m, rfl, _⟩ := eachRel_mem hv hv'
    exact .inr (.inl ⟨_, hv'', a, n, h1, h2, h3, h4⟩)
  · exact .inr (.inr hx)

/-- **C34.** In a parsed file the last unit is `<unknown>`; write `us` for the others, which
occupy at least the addresses of the debug information's units and of the symbols no debug
information claims. The ranges of `<unknown>` are canonical; every section address is occupied by
`us` (up to alignment padding) or covered by `<unknown>`; what `<unknown>` covers is, up to
alignment padding, section addresses that `us` does not occupy; the known and unknown ranges of
the whole file cover every section address; and nothing is left unknown. -/
theorem C34_complete (search : Search) (hv : ValidSearch search) (tsz : TypeOffset → Option Nat)
    (f : File) :
    ∃ (us : List CompUnit) (unknown : CompUnit),
      (normalize search tsz f).units = us ++ [unknown] ∧
      unknown.name = some (Str.ofString "<unknown>") ∧
      (∀ x, Occupied tsz f.units x ∨
        (∃ s ∈ f.symbols, ¬ Claimed f.units s.address ∧ s.address ≤ x ∧ x < s.address + s.size) →
        Occupied tsz us x) ∧
      Canonical unknown.ranges ∧
      (∀ x, InSection f.sections x → Covers unknown.ranges x ∨ Padded (Occupied tsz us) x) ∧
      (∀ x, Covers unknown.ranges x →
        Padded (fun y => Padded (InSection f.sections) y ∧ ¬ Occupied tsz us y) x) ∧
      (∀ x, InSection f.sections x →
        Covers (unitRanges tsz (normalize search tsz f).units) x) ∧
      unknownRanges tsz f.sections (normalize search tsz f).units = [] := by
  obtain ⟨units', symbols, hsym, hnamed, hn⟩ := normalize_parts search hv tsz f
  obtain ⟨symbols2, named2, symtab2, unknown2, hn2, hperm, _, _, hnamed2, _, _, _, _, _, _, hsf,
    hsv⟩ := C33_symtab search hv tsz f
  rw [hn]
  generalize hst : symtabUnit symbols
    (markAll (f.units.flatMap unitClaims) symbols (symbols.map fun _ => false)) = symtab at hn ⊢
  simp only
  have heq := congrArg File.units (hn.symm.trans hn2)
  simp only [List.append_assoc, List.singleton_append] at heq
  have hlen : units'.length = named2.length := by
    have := congrArg List.length heq; simpa using this
  obtain ⟨he1, he2⟩ := List.append_inj heq hlen
  have he3 : symtab = symtab2 := by simpa using congrArg List.head? he2
  subst he3
  obtain ⟨hu1, hu2, hu3⟩ := C34_unknown_ranges tsz f.sections (units' ++ [symtab])
  obtain ⟨hr1, hr2, hr3⟩ := C34_unit_ranges tsz (units' ++ [symtab])
  have hall : ∀ x, InSection f.sections x → Covers (unitRanges tsz (units' ++ [symtab] ++
      [{ name := some (Str.ofString "<unknown>")
         ranges := unknownRanges tsz f.sections (units' ++ [symtab]) }])) x := by
    intro x hx
    apply all_covered
    by_cases hc : Covers (unitRanges tsz (units' ++ [symtab])) x
    · exact .inl hc
    · exact .inr (hu2 x hx hc)
  refine ⟨units' ++ [symtab], _, rfl, rfl, fun x hx => ?_, hu1, fun x hx => ?_, fun x hx => ?_,
    hall, ?_⟩
  · rcases hx with hx | ⟨s, hs, hcl, h1, h2⟩
    · obtain ⟨u, hu, hx⟩ := occupied_named tsz symbols _ _ hnamed x hx
      exact ⟨u, by simp [hu], hx⟩
    · refine ⟨symtab, by simp, ?_⟩
      have hs' := hperm.mem_iff.2 hs
      cases hk : s.kind with
      | function =>
        obtain ⟨fn, hfn, _, _, rfl⟩ := selects_mem hsf hs' ⟨hk, hcl, rfl⟩
        refine .inl ⟨_, hfn, ⟨s.address, s.address + s.size⟩, ?_, h1, h2⟩
        simp only
        rw [if_pos (by omega)]
        simp
      | «variable» =>
        obtain ⟨v, hv, _, _, rfl⟩ := selects_mem hsv hs' ⟨hk, hcl, rfl⟩
        exact .inr (.inl ⟨_, hv, s.address, s.size, rfl, h1, h2, .inl rfl⟩)
  · by_cases hc : Covers (unitRanges tsz (units' ++ [symtab])) x
    · exact .inr (hr3 x hc)
    · exact .inl (hu2 x hx hc)
  · exact padded_mono (fun y hy => ⟨hy.1, fun ho => hy.2 (hr2 y ho)⟩) (hu3 x hx)
  · have ha := (canonical_sort (pushAll [] (f.sections.filterMap (·.range)))).ordered
    refine subtract_self_eq_nil _ _ ha (C34_unit_ranges tsz _).1.ordered fun x hx => ?_
    by_cases hc : Covers (unitRanges tsz (units' ++ [symtab])) x
    · exact all_covered tsz f.sections _ _ x (.inl hc)
    · exact all_covered tsz f.sections _ _ x
        (.inr ((C03_subtract_keeps _ _ ha hr1.ordered).2 x hx hc))

/-- Non-vacuity: a section of which a function and an unclaimed symbol occupy parts; the rest is
unknown. -/
example : unknownRanges (fun _ => none) [⟨none, none, some 4096, 256⟩]
    [{ functions := [{ address := some 4100, ranges := [⟨4100, 4120⟩] }] },
     { name := some (Str.ofString "<symtab>"), ranges := [⟨4200, 4209⟩] }] =
      [⟨4096, 4100⟩, ⟨4120, 4200⟩, ⟨4209, 4352⟩] := by
  have h : unitRanges (fun _ => none)
    [{ functions := [{ address := some 4100, ranges := [⟨4100, 4120⟩] }] },
     { name := some (Str.ofString "<symtab>"), ranges := [⟨4200, 4209⟩] }] =
      [⟨4100, 4120⟩, ⟨4200, 4209⟩] := by
    have h1 : subtract [] [⟨4100, 4120⟩] = [] := by
      unfold subtract; rw [subtractLoop_eq]; simp [pieces]; decide
    have h2 : subtract [⟨4200, 4209⟩] [] = [⟨4200, 4209⟩] := subtract_nil _ (by simp [Canonical])
    show sort (pushAll (pushAll (pushAll (pushAll [] [⟨4100, 4120⟩]) (subtract [] [⟨4100, 4120⟩])) [])
      (subtract [⟨4200, 4209⟩] [])) = _
    rw [h1, h2]
    decide
  unfold unknownRanges
  rw [h]
  show subtract [⟨4096, 4352⟩] _ = _
  unfold subtract
  rw [subtractLoop_eq]
  simp [pieces]
  decide

end Verif.File
