import Verif.Cfi.Props
/-!
# Property theorems: C49 (CFI listings)
-/
namespace Verif.Cfi
open Verif.Range Verif.Frame Verif.Print

/-- The location after the instructions, computed. -/
def locFn (align : Nat) : List Insn → Nat → Nat
  | [], loc => loc
  | .setLoc a :: is, _ => locFn align is a
  | i :: is, loc => locFn align is (loc + i.delta * align)

theorem locFn_noset (align : Nat) : ∀ (is : List Insn) (loc : Nat), NoSet is →
    locFn align is loc = loc + (is.map Insn.delta).sum * align
  | [], loc, _ => by simp [locFn]
  | i :: is, loc, h => by
    have h' : NoSet is := fun a ha => h a (List.mem_cons_of_mem _ ha)
    have hi : ∀ a, i ≠ .setLoc a := fun a e => h a (by simp [e])
    cases i with
    | setLoc a => exact absurd rfl (hi a)
    | _ => simp only [locFn, List.map_cons, List.sum_cons, Nat.add_mul, locFn_noset align is _ h']; omega

theorem locFn_append (align : Nat) : ∀ (p q : List Insn) (loc : Nat),
    locFn align (p ++ q) loc = locFn align q (locFn align p loc)
  | [], q, loc => rfl
  | i :: p, q, loc => by
    cases i <;> simp only [List.cons_append, locFn, locFn_append align p q]

theorem locAfter_iff (align initial : Nat) (pre : List Insn) (a : Nat) :
    LocAfter align initial pre a ↔ a = locFn align pre initial := by
  have hex : ∀ pre : List Insn, NoSet pre ∨ ∃ p b q, pre = p ++ .setLoc b :: q ∧ NoSet q := by
    intro pre
    induction pre with
    | nil => exact .inl fun a h => by cases h
    | cons i is ih =>
      rcases ih with h | ⟨p, b, q, rfl, hq⟩
      · cases i with
        | setLoc a => exact .inr ⟨[], a, is, rfl, h⟩
        | _ => exact .inl fun a ha => by
                rcases List.mem_cons.1 ha with e | ha
                · cases e
                · exact h a ha
      · exact .inr ⟨i :: p, b, q, rfl, hq⟩
  have hval : ∀ p b q, NoSet q → locFn align (p ++ .setLoc b :: q) initial = b + (q.map Insn.delta).sum * align := by
    intro p b q hq
    rw [locFn_append, locFn, locFn_noset align q b hq]
  constructor
  · rintro (⟨h, rfl⟩ | ⟨p, b, q, rfl, hq, rfl⟩)
    · exact (locFn_noset align pre initial h).symm
    · exact (hval p b q hq).symm
  · rintro rfl
    rcases hex pre with h | ⟨p, b, q, rfl, hq⟩
    · exact .inl ⟨h, locFn_noset align pre initial h⟩
    · exact .inr ⟨p, b, q, rfl, hq, hval p b q hq⟩

/-- One instruction. -/
theorem convert_spec {f : Fde} {i : Insn} {loc loc' : Nat} {d : Option Directive}
    (h : convert f i loc = some (loc', d)) :
    loc' = locFn f.codeAlign [i] loc ∧ (i.acts = false → d = none) ∧
    (i.acts = true → ∃ d', d = some d' ∧ loc' = loc ∧ (i.small → Means f.dataAlign i d')) := by
  have hsm : ∀ n : Nat, n < 2 ^ 63 → asI64 n = n := fun n h => by simp [asI64, h]
  have hmul : ∀ {a b c : Int}, mulI64 a b = some c → c = a * b := by
    intro a b c h; unfold mulI64 at h; split at h <;> simp_all
  cases i <;> simp only [convert] at h
  case advanceLoc n =>
    split at h
    · cases h; simp [locFn, Insn.delta, Insn.acts]
    · cases h
  case setLoc => cases h; simp [locFn, Insn.acts]
  case nop => cases h; simp [locFn, Insn.acts, Insn.delta]
  case defCfaSf r o =>
    obtain ⟨c, hc, e⟩ := Option.map_eq_some_iff.1 h; cases e; obtain rfl := hmul hc
    simp [locFn, Insn.acts, Insn.delta, Insn.small, Means.defCfaSf]
  case defCfaOffsetSf o =>
    obtain ⟨c, hc, e⟩ := Option.map_eq_some_iff.1 h; cases e; obtain rfl := hmul hc
    simp [locFn, Insn.acts, Insn.delta, Insn.small, Means.defCfaOffsetSf]
  case offset r o =>
    obtain ⟨c, hc, e⟩ := Option.map_eq_some_iff.1 h; cases e; obtain rfl := hmul hc
    simp only [locFn, Insn.acts, Insn.delta, Insn.small, Nat.zero_mul, Nat.add_zero, reduceCtorEq, false_implies,
      Option.some.injEq, exists_eq_left', true_and, forall_const]
    intro hs; rw [hsm _ hs]; exact .offset r o hs
  case offsetExtendedSf r o =>
    obtain ⟨c, hc, e⟩ := Option.map_eq_some_iff.1 h; cases e; obtain rfl := hmul hc
    simp [locFn, Insn.acts, Insn.delta, Insn.small, Means.offsetExtendedSf]
  case valOffset r o =>
    obtain ⟨c, hc, e⟩ := Option.map_eq_some_iff.1 h; cases e; obtain rfl := hmul hc
    simp only [locFn, Insn.acts, Insn.delta, Insn.small, Nat.zero_mul, Nat.add_zero, reduceCtorEq, false_implies,
      Option.some.injEq, exists_eq_left', true_and, forall_const]
    intro hs; rw [hsm _ hs]; exact .valOffset r o hs
  case valOffsetSf r o =>
    obtain ⟨c, hc, e⟩ := Option.map_eq_some_iff.1 h; cases e; obtain rfl := hmul hc
    simp [locFn, Insn.acts, Insn.delta, Insn.small, Means.valOffsetSf]
  case defCfa r o =>
    cases h
    simp only [locFn, Insn.acts, Insn.delta, Insn.small, Nat.zero_mul, Nat.add_zero, reduceCtorEq, false_implies,
      Option.some.injEq, exists_eq_left', true_and, forall_const]
    intro hs; rw [hsm _ hs]; exact .defCfa r o hs
  case defCfaOffset o =>
    cases h
    simp only [locFn, Insn.acts, Insn.delta, Insn.small, Nat.zero_mul, Nat.add_zero, reduceCtorEq, false_implies,
      Option.some.injEq, exists_eq_left', true_and, forall_const]
    intro hs; rw [hsm _ hs]; exact .defCfaOffset o hs
  all_goals
    cases h
    simp only [locFn, Insn.acts, Insn.delta, Nat.zero_mul, Nat.add_zero, reduceCtorEq, false_implies,
      Option.some.injEq, exists_eq_left', true_and, forall_const]
    intro _
    constructor

theorem convertAll_lists {f : Fde} {is : List Insn} {loc : Nat} {l : List (Nat × Directive)}
    (h : convertAll f is loc = some l) (hs : ∀ i ∈ is, i.small) :
    l.length = (is.filter Insn.acts).length ∧
    ∀ pre i post, is = pre ++ i :: post → i.acts → ∃ d,
      l[(pre.filter Insn.acts).length]? = some (locFn f.codeAlign pre loc, d) ∧ Means f.dataAlign i d := by
  induction is generalizing loc l with
  | nil => simp [convertAll] at h; subst h; exact ⟨rfl, fun pre i post e => by simp at e⟩
  | cons j is ih =>
    simp only [convertAll] at h
    split at h
    · cases h
    · rename_i loc' d hj
      obtain ⟨l', hl', rfl⟩ := Option.map_eq_some_iff.1 h
      obtain ⟨h1, h2, h3⟩ := convert_spec hj
      obtain ⟨ih1, ih2⟩ := ih hl' fun i hi => hs i (List.mem_cons_of_mem _ hi)
      have hl1 : ∀ p, locFn f.codeAlign (j :: p) loc = locFn f.codeAlign p loc' := by
        intro p; rw [h1]; exact locFn_append f.codeAlign [j] p loc
      cases hact : j.acts with
      | false =>
        obtain rfl := h2 hact
        refine ⟨by simp [hact, ih1], fun pre i post e hi => ?_⟩
        cases pre with
        | nil => cases e; rw [hact] at hi; cases hi
        | cons q pre =>
          cases e
          obtain ⟨d, hd, hm⟩ := ih2 pre i post rfl hi
          exact ⟨d, by simpa [hact, hl1] using hd, hm⟩
      | true =>
        obtain ⟨d', rfl, rfl, hm⟩ := h3 hact
        refine ⟨by simp [hact, ih1], fun pre i post e hi => ?_⟩
        cases pre with
        | nil => cases e; exact ⟨d', by simp [locFn], hm (hs _ (by simp))⟩
        | cons q pre =>
          cases e
          obtain ⟨d, hd, hm⟩ := ih2 pre i post rfl hi
          refine ⟨d, ?_, hm⟩
          rw [hl1]
          simpa [hact] using hd

theorem cfiOf_some {f : Fde} {l : List Cfi} (h : cfiOf f = some l) : ∃ cie own,
    convertAll f f.cieInsns 0 = some cie ∧ convertAll f f.insns f.initial = some own ∧
    f.initial + f.len < 2 ^ 64 ∧ l = prologue f ++ cie.map (fun d => (none, d.2)) ++ own.map (fun d => (some d.1, d.2)) ++
      [(some (f.initial + f.len), .endProc)] := by
  unfold cfiOf at h
  cases hc : convertAll f f.cieInsns 0 with
  | none => simp [hc] at h
  | some cie =>
    cases ho : convertAll f f.insns f.initial with
    | none => simp [hc, ho] at h
    | some own =>
      simp only [hc, ho, Option.bind_eq_bind, Option.bind_some] at h
      split at h
      · rename_i hlt
        simp only [Option.some.injEq] at h
        exact ⟨cie, own, rfl, rfl, hlt, by rw [← h]⟩
      · cases h

theorem prologue_spec (f : Fde) : Prologue f (prologue f) := by
  refine ⟨_, _, _, by simp only [prologue, List.append_assoc, List.singleton_append]; rfl, ?_, ?_, ?_⟩
  · cases f.personality <;> rfl
  · cases f.lsda <;> rfl
  · cases f.signal <;> rfl

/-- **C49 (contents).** The listing of an entry starts with the start directive (then personality,
LSDA and signal-frame directives, exactly those that apply), ends with the end directive at the end
address, and between them has exactly one directive per acting instruction, in order: those of the
common entry without address, then those of the entry itself, each at the address the instructions
before it reach and with the instruction's DWARF meaning. -/
theorem C49_contents (f : Fde) (l : List Cfi) (h : cfiOf f = some l)
    (hs : ∀ i ∈ f.cieInsns ++ f.insns, i.small) :
    ∃ pro cie own, l = pro ++ cie ++ own ++ [(some (f.initial + f.len), .endProc)] ∧ Prologue f pro ∧
      Lists f.dataAlign (fun _ a => a = none) f.cieInsns cie ∧
      Lists f.dataAlign (fun pre a => ∃ x, a = some x ∧ LocAfter f.codeAlign f.initial pre x) f.insns own := by
  obtain ⟨cie, own, hc, ho, -, rfl⟩ := cfiOf_some h
  obtain ⟨c1, c2⟩ := convertAll_lists hc fun i hi => hs i (List.mem_append_left _ hi)
  obtain ⟨o1, o2⟩ := convertAll_lists ho fun i hi => hs i (List.mem_append_right _ hi)
  refine ⟨_, _, _, rfl, prologue_spec f, ⟨by simpa using c1, ?_⟩, ⟨by simpa using o1, ?_⟩⟩
  · intro pre i post e hi
    obtain ⟨d, hd, hm⟩ := c2 pre i post e hi
    exact ⟨none, d, by simp [hd], hm, rfl⟩
  · intro pre i post e hi
    obtain ⟨d, hd, hm⟩ := o2 pre i post e hi
    exact ⟨_, d, by simp [hd], hm, _, rfl, (locAfter_iff ..).2 rfl⟩

/-- The instruction never moves the location backwards. -/
def Forward (f : Fde) (is : List Insn) : Prop :=
  ∀ pre a post b, is = pre ++ .setLoc a :: post → LocAfter f.codeAlign f.initial pre b → b ≤ a

theorem convertAll_sorted {f : Fde} {is : List Insn} {loc : Nat} {l : List (Nat × Directive)}
    (h : convertAll f is loc = some l)
    (hf : ∀ pre a post, is = pre ++ .setLoc a :: post → locFn f.codeAlign pre loc ≤ a) :
    (∀ x ∈ l, loc ≤ x.1) ∧ l.Pairwise fun x y => x.1 ≤ y.1 := by
  induction is generalizing loc l with
  | nil => simp [convertAll] at h; subst h; simp
  | cons j is ih =>
    simp only [convertAll] at h
    split at h
    · cases h
    · rename_i loc' d hj
      obtain ⟨l', hl', rfl⟩ := Option.map_eq_some_iff.1 h
      obtain ⟨h1, -, -⟩ := convert_spec hj
      have hl1 : ∀ p, locFn f.codeAlign (j :: p) loc = locFn f.codeAlign p loc' := by
        intro p; rw [h1]; exact locFn_append f.codeAlign [j] p loc
      obtain ⟨i1, i2⟩ := ih hl' fun pre a post e => by rw [← hl1]; exact hf (j :: pre) a post (by rw [e]; rfl)
      have hle : loc ≤ loc' := by
        rw [h1]
        cases j with
        | setLoc a => exact hf [] a is rfl
        | _ => simp [locFn]
      refine ⟨fun x hx => ?_, ?_⟩
      · rcases List.mem_append.1 hx with hx | hx
        · cases d with
          | none => cases hx
          | some d => simp at hx; subst hx; exact hle
        · exact Nat.le_trans hle (i1 x hx)
      · cases d with
        | none => simpa using i2
        | some d => simp only [List.singleton_append, List.pairwise_cons]; exact ⟨fun y hy => i1 y hy, i2⟩

/-- **C49 (order).** Unless an instruction sets the location backwards, the directives of the
listing are in address order, those without address first (the end directive aside, whose address
is the end of the entry); and none is before the entry's start. -/
theorem C49_ordered (f : Fde) (l : List Cfi) (h : cfiOf f = some l) (hf : Forward f f.insns) :
    Ordered l.dropLast ∧ ∀ c ∈ l, ∀ x, c.1 = some x → f.initial ≤ x := by
  obtain ⟨cie, own, hc, ho, -, rfl⟩ := cfiOf_some h
  obtain ⟨s1, s2⟩ := convertAll_sorted ho fun pre a post e => hf pre a post _ e ((locAfter_iff ..).2 rfl)
  rw [List.dropLast_concat]
  have hnone : ∀ c ∈ prologue f ++ cie.map (fun d => ((none, d.2) : Cfi)), c.1 = none := by
    intro c hc
    rcases List.mem_append.1 hc with hc | hc
    · obtain ⟨p, s, g, e, h1, h2, h3⟩ := prologue_spec f
      rw [e] at hc
      simp only [List.mem_cons, List.mem_append] at hc
      rcases hc with rfl | (hc | hc) | hc
      · rfl
      · split at h1 <;> subst h1 <;> simp at hc; subst hc; rfl
      · split at h2 <;> subst h2 <;> simp at hc; subst hc; rfl
      · split at h3 <;> subst h3 <;> simp at hc; subst hc; rfl
    · obtain ⟨d, -, rfl⟩ := List.mem_map.1 hc; rfl
  constructor
  · unfold Ordered
    rw [List.pairwise_append]
    refine ⟨List.pairwise_of_forall_mem_list fun c hc c' _ x hx => ?_, ?_, fun c hc c' _ x hx => ?_⟩
    · rw [hnone c hc] at hx; cases hx
    · rw [List.pairwise_map]
      exact s2.imp fun h x hx => by cases hx; exact ⟨_, rfl, h⟩
    · rw [hnone c hc] at hx; cases hx
  · intro c hc x hx
    rcases List.mem_append.1 hc with hc | hc
    · rcases List.mem_append.1 hc with hc | hc
      · rw [hnone c hc] at hx; cases hx
      · obtain ⟨d, hd, rfl⟩ := List.mem_map.1 hc
        cases hx; exact s1 d hd
    · simp at hc; subst hc; cases hx; omega

theorem convertAll_none (f : Fde) (is : List Insn) (loc : Nat) :
    convertAll f is loc = none ↔ (∃ pre i post, is = pre ++ i :: post ∧
      convert f i (locFn f.codeAlign pre loc) = none) := by
  induction is generalizing loc with
  | nil => simp [convertAll]
  | cons j is ih =>
    simp only [convertAll]
    split
    · rename_i hj
      simp only [true_iff]
      exact ⟨[], j, is, rfl, hj⟩
    · rename_i loc' d hj
      obtain ⟨h1, -, -⟩ := convert_spec hj
      have hl1 : ∀ p, locFn f.codeAlign (j :: p) loc = locFn f.codeAlign p loc' := by
        intro p; rw [h1]; exact locFn_append f.codeAlign [j] p loc
      rw [Option.map_eq_none_iff, ih]
      constructor
      · rintro ⟨pre, i, post, rfl, h⟩
        exact ⟨j :: pre, i, post, rfl, by rw [hl1]; exact h⟩
      · rintro ⟨pre, i, post, e, h⟩
        cases pre with
        | nil => cases e; rw [locFn] at h; rw [hj] at h; cases h
        | cons q pre => cases e; exact ⟨pre, i, post, rfl, by rw [← hl1]; exact h⟩

theorem convert_none (f : Fde) (i : Insn) (loc : Nat) :
    convert f i loc = none ↔ i.tooBig f.dataAlign ∨ ∃ d, i = .advanceLoc d ∧ 2 ^ 64 ≤ loc + d * f.codeAlign := by
  have hm : ∀ a b, mulI64 a b = none ↔ ¬ I64 (a * b) := by intro a b; simp [mulI64]
  cases i <;> simp [convert, Insn.tooBig, hm]
  omega

/-- The location overflows at some advance. -/
def Runaway (align initial : Nat) (is : List Insn) : Prop :=
  ∃ pre d post a, is = pre ++ .advanceLoc d :: post ∧ LocAfter align initial pre a ∧ 2 ^ 64 ≤ a + d * align

/-- **C49 (failure).** Listing an entry panics exactly if a scaled offset does not fit 64 bits, an
advance leaves the address space (also in the common entry, whose location starts at 0 and is not
used), or the entry ends beyond it. -/
theorem C49_panics_iff (f : Fde) :
    cfiOf f = none ↔ (∃ i ∈ f.cieInsns ++ f.insns, i.tooBig f.dataAlign) ∨
      Runaway f.codeAlign 0 f.cieInsns ∨ Runaway f.codeAlign f.initial f.insns ∨ 2 ^ 64 ≤ f.initial + f.len := by
  have h1 : ∀ is loc, convertAll f is loc = none ↔
      (∃ i ∈ is, i.tooBig f.dataAlign) ∨ Runaway f.codeAlign loc is := by
    intro is loc
    rw [convertAll_none]
    constructor
    · rintro ⟨pre, i, post, rfl, h⟩
      rcases (convert_none ..).1 h with h' | ⟨d, rfl, h'⟩
      · exact .inl ⟨i, by simp, h'⟩
      · exact .inr ⟨pre, d, post, _, rfl, (locAfter_iff ..).2 rfl, h'⟩
    · rintro (⟨i, hi, h⟩ | ⟨pre, d, post, a, rfl, ha, h⟩)
      · obtain ⟨pre, post, rfl⟩ := List.append_of_mem hi
        exact ⟨pre, i, post, rfl, (convert_none ..).2 (.inl h)⟩
      · refine ⟨pre, _, post, rfl, (convert_none ..).2 (.inr ⟨d, rfl, ?_⟩)⟩
        rw [(locAfter_iff ..).1 ha] at h; exact h
  unfold cfiOf
  simp only [List.mem_append, or_and_right, exists_or]
  cases hc : convertAll f f.cieInsns 0 with
  | none =>
    have := (h1 _ _).1 hc
    simp only [Option.bind_eq_bind, Option.bind_none, true_iff]
    rcases this with h | h
    · exact .inl (.inl h)
    · exact .inr (.inl h)
  | some cie =>
    have nc : ¬ _ := fun h => by have := (h1 f.cieInsns 0).2 h; rw [hc] at this; cases this
    cases ho : convertAll f f.insns f.initial with
    | none =>
      have := (h1 _ _).1 ho
      simp only [Option.bind_eq_bind, Option.bind_some, Option.bind_none, true_iff]
      rcases this with h | h
      · exact .inl (.inr h)
      · exact .inr (.inr (.inl h))
    | some own =>
      have no : ¬ _ := fun h => by have := (h1 f.insns f.initial).2 h; rw [ho] at this; cases this
      simp only [Option.bind_eq_bind, Option.bind_some]
      split
      · rename_i hlt
        simp only [reduceCtorEq, false_iff]
        rintro ((h | h) | h | h | h)
        · exact nc (.inl h)
        · exact no (.inl h)
        · exact nc (.inr h)
        · exact no (.inr h)
        · omega
      · simp only [true_iff]; exact .inr (.inr (.inr (by omega)))

/-- Finding (C49): the CFA offset of `DW_CFA_def_cfa_offset_sf` is signed, but it is printed in
hexadecimal as if it were unsigned, unlike the offsets of the other directives. -/
theorem C49_negative_offset_witness : ∃ f : Fde,
    cfiOf f = some [(none, .startProc), (some 0, .defCfaOffset (-8)), (some 16, .endProc)] ∧
    directiveText (fun _ => none) (.defCfaOffset (-8)) = some (Str.ofString ".cfi_def_cfa_offset 0xfffffffffffffff8") ∧
    directiveText (fun _ => none) (.defCfa 7 (-8)) = some (Str.ofString ".cfi_def_cfa 7, -0x8") :=
  ⟨{ initial := 0, len := 16, dataAlign := -8, insns := [.defCfaOffsetSf 1] }, by decide +kernel, by decide +kernel,
    by decide +kernel⟩

/-- Non-vacuity of C49: a typical prologue; and the hypotheses hold. -/
example :
    let f : Fde := { initial := 4096, len := 64, codeAlign := 1, dataAlign := -8, lsda := some 8192,
                     cieInsns := [.defCfa 7 8, .offset 16 1, .nop],
                     insns := [.advanceLoc 1, .defCfaOffset 16, .offset 6 2, .advanceLoc 3, .defCfaRegister 6] }
    cfiOf f = some [(none, .startProc), (none, .lsda (some 8192)), (none, .defCfa 7 8), (none, .offset 16 (-8)),
      (some 4097, .defCfaOffset 16), (some 4097, .offset 6 (-16)), (some 4100, .defCfaRegister 6),
      (some 4160, .endProc)] ∧ (∀ i ∈ f.cieInsns ++ f.insns, i.small) ∧ Forward f f.insns := by
  refine ⟨by decide +kernel, ?_, ?_⟩
  · intro i hi
    simp only [List.cons_append, List.nil_append, List.mem_cons, List.not_mem_nil, or_false] at hi
    rcases hi with rfl | rfl | rfl | rfl | rfl | rfl | rfl | rfl <;> simp [Insn.small]
  · intro pre a post b e
    have : Insn.setLoc a ∈ [Insn.advanceLoc 1, .defCfaOffset 16, .offset 6 2, .advanceLoc 3, .defCfaRegister 6] := by
      have e' : [Insn.advanceLoc 1, .defCfaOffset 16, .offset 6 2, .advanceLoc 3, .defCfaRegister 6] =
        pre ++ .setLoc a :: post := e
      rw [e']; simp
    simp at this

end Verif.Cfi
