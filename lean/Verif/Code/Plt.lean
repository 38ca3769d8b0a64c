import Verif.Code.PltModel
/-!
# C90: stubs and relocated slots are named by the symbols of their relocations
-/
namespace Verif.Code
open Verif.Range Verif.Item Verif.Types Verif.Print Verif.File

/-! ### Specification -/

/-- `b` are the bytes, address by address, of the first segment that holds the whole range `r`. -/
def LoadedBytes (segments : List Segment) (r : Range) (b : List Nat) : Prop :=
  ∃ pre g post, segments = pre ++ g :: post ∧ (∀ g' ∈ pre, ¬ Holds g' r) ∧ Holds g r ∧ b.length = r.hi - r.lo ∧
    ∀ j x, b[j]? = some x ↔ j < r.hi - r.lo ∧ ByteAt g (r.lo + j) x

/-- The section is a procedure linkage table with contents `b` from address `a` on. -/
def PltAt (f : File) (s : Section) (a : Nat) (b : List Nat) : Prop :=
  s ∈ f.sections ∧ (∃ name rest, s.name = some name ∧ name = Str.ofString ".plt" ++ rest) ∧ s.address = some a ∧
    LoadedBytes f.segments ⟨a, a + s.size⟩ b

/-- An instruction of a procedure linkage table refers, relative to the instruction pointer, to the
address `slot`. -/
def Refers (f : File) (disasm : List Nat → Nat → Option (List Insn)) (i : Insn) (slot : Nat) : Prop :=
  ∃ s a b is d op o n, PltAt f s a b ∧ disasm b a = some is ∧ i ∈ is ∧ i.detail = some d ∧ op ∈ d.ops ∧
    IpTarget i op o slot n

/-- The last relocation at `slot` refers to the symbol `name`. -/
def Slot (f : File) (slot : Nat) (name : Str) : Prop :=
  ∃ pre r post, f.relocations = pre ++ r :: post ∧ r.address = slot ∧ r.symbol = name ∧ ∀ r' ∈ post, r'.address ≠ slot

/-- The disassembler has no trouble with any procedure linkage table. -/
def Decodes (f : File) (disasm : List Nat → Nat → Option (List Insn)) : Prop :=
  ∀ s a b, PltAt f s a b → ∃ is, disasm b a = some is ∧ ∀ i ∈ is, i.detail ≠ none

/-! ### Lemmas -/

theorem slot_iff (f : File) (a : Nat) (s : Str) :
    hashOf (f.relocations.map fun r => (r.address, r.symbol)) a = some s ↔ Slot f a s := by
  rw [(hashOf_spec _ _).1]
  constructor
  · rintro ⟨l1, l2, h, hl⟩
    obtain ⟨pre, q, h1, rfl, h2⟩ := List.map_eq_append_iff.1 h
    obtain ⟨r, post, rfl, h3, rfl⟩ := List.map_eq_cons_iff.1 h2
    cases h3
    refine ⟨pre, r, post, h1, rfl, rfl, fun r' hr => ?_⟩
    exact hl (r'.address, r'.symbol) (List.mem_map.2 ⟨r', hr, rfl⟩)
  · rintro ⟨pre, r, post, h, rfl, rfl, hp⟩
    refine ⟨pre.map fun r => (r.address, r.symbol), post.map fun r => (r.address, r.symbol), by rw [h]; simp, ?_⟩
    intro e he
    obtain ⟨r', hr, rfl⟩ := List.mem_map.1 he
    exact hp r' hr

/-- What one instruction contributes. -/
theorem mem_pltEntries (reloc : Nat → Option Str) (i : Insn) (ops : List Op) (l : List (Nat × Str))
    (h : pltEntries reloc i ops = some l) (k : Nat) (s : Str) :
    (k, s) ∈ l ↔ k = i.address / 16 * 16 ∧ ∃ op ∈ ops, ∃ o a n, IpTarget i op o a n ∧ reloc a = some s := by
  unfold pltEntries at h
  obtain ⟨ll, hl, rfl⟩ := Option.map_eq_some_iff.1 h
  rw [mem_mapM_flatten _ _ _ hl]
  have hadd : ∀ op ∈ ops, ∀ z, ipSize op = some z → i.address + i.bytes.length < 2 ^ 64 := by
    intro op ho z hz
    obtain ⟨j, hj⟩ := List.getElem?_of_mem ho
    clear h
    induction ops generalizing ll j with
    | nil => cases ho
    | cons op' ops ih =>
      rw [List.mapM_cons] at hl
      cases hop : isIpOffset i op' with
      | none => rw [hop] at hl; simp at hl
      | some t =>
        rw [hop] at hl
        simp only [Option.map_some, Option.bind_eq_bind, Option.bind_some] at hl
        obtain ⟨l', hl', -⟩ := Option.bind_eq_some_iff.1 hl
        rcases List.mem_cons.1 ho with rfl | ho
        · unfold isIpOffset at hop
          rw [hz] at hop
          simp only at hop
          split at hop
          · assumption
          · cases hop
        · obtain ⟨j, hj⟩ := List.getElem?_of_mem ho
          exact ih l' hl' ho j hj
  constructor
  · rintro ⟨j, op, b, hj, hb, hm⟩
    obtain ⟨t, ht, rfl⟩ := Option.map_eq_some_iff.1 hb
    cases t with
    | none => cases hm
    | some t =>
      obtain ⟨o, a, n⟩ := t
      simp only at hm
      cases hr : reloc a with
      | none => rw [hr] at hm; cases hm
      | some s' =>
        rw [hr] at hm
        simp only [List.mem_singleton, Prod.mk.injEq] at hm
        obtain ⟨rfl, rfl⟩ := hm
        have ho := List.mem_of_getElem? hj
        refine ⟨rfl, op, ho, o, a, n, (ipTarget_iff i ?_ op o a n).1 ht, hr⟩
        unfold isIpOffset at ht
        split at ht
        · cases ht
        · split at ht
          · assumption
          · cases ht
  · rintro ⟨rfl, op, ho, o, a, n, ht, hr⟩
    obtain ⟨j, hj⟩ := List.getElem?_of_mem ho
    have hi : i.address + i.bytes.length < 2 ^ 64 := by
      rcases ht.1 with ⟨rfl, rfl⟩ | ⟨rfl, rfl⟩ <;> exact hadd _ ho _ rfl
    refine ⟨j, op, [(i.address / 16 * 16, s)], hj, ?_, by simp⟩
    rw [(ipTarget_iff i hi op o a n).2 ht]
    simp [hr]

theorem mem_pltInsns (reloc : Nat → Option Str) (is : List Insn) (l : List (Nat × Str)) (b : Bool)
    (h : pltInsns reloc is = some (l, b)) (k : Nat) (s : Str) :
    ((k, s) ∈ l → ∃ i ∈ is, k = i.address / 16 * 16 ∧ ∃ d, i.detail = some d ∧
      ∃ op ∈ d.ops, ∃ o a n, IpTarget i op o a n ∧ reloc a = some s) ∧
    ((∀ i ∈ is, i.detail ≠ none) → b = true ∧ ∀ i ∈ is, ∀ d, i.detail = some d →
      ∀ op ∈ d.ops, ∀ o a n, IpTarget i op o a n → reloc a = some s → (i.address / 16 * 16, s) ∈ l) := by
  induction is generalizing l with
  | nil => cases h; exact ⟨fun hm => (by cases hm), fun _ => ⟨rfl, fun i hi => (by cases hi)⟩⟩
  | cons i is ih =>
    unfold pltInsns at h
    cases hd : i.detail with
    | none =>
      rw [hd] at h; cases h
      exact ⟨fun hm => (by cases hm), fun ha => absurd hd (ha i (by simp))⟩
    | some d =>
      rw [hd] at h
      simp only at h
      cases he : pltEntries reloc i d.ops with
      | none => rw [he] at h; simp at h
      | some e =>
        cases hr : pltInsns reloc is with
        | none => rw [he, hr] at h; simp at h
        | some rb =>
          obtain ⟨r, b'⟩ := rb
          rw [he, hr] at h
          simp only [Option.some.injEq, Prod.mk.injEq] at h
          obtain ⟨rfl, rfl⟩ := h
          obtain ⟨h1, h2⟩ := ih r hr
          refine ⟨fun hm => ?_, fun ha => ?_⟩
          · rcases List.mem_append.1 hm with hm | hm
            · obtain ⟨hk, hx⟩ := (mem_pltEntries reloc i d.ops e he k s).1 hm
              exact ⟨i, by simp, hk, d, hd, hx⟩
            · obtain ⟨j, hj, hx⟩ := h1 hm
              exact ⟨j, List.mem_cons_of_mem _ hj, hx⟩
          · obtain ⟨g1, g2⟩ := h2 fun j hj => ha j (List.mem_cons_of_mem _ hj)
            refine ⟨g1, fun j hj d' hd' op ho o a n ht hs => ?_⟩
            rcases List.mem_cons.1 hj with rfl | hj
            · rw [hd] at hd'; cases hd'
              exact List.mem_append_left _ ((mem_pltEntries reloc j d.ops e he _ s).2 ⟨rfl, op, ho, o, a, n, ht, hs⟩)
            · exact List.mem_append_right _ (g2 j hj d' hd' op ho o a n ht hs)

theorem pltSection_iff (f : File) (disasm : List Nat → Nat → Option (List Insn)) (s : Section) (hs : s ∈ f.sections)
    (x : Option (List Insn)) :
    pltSection f.segments disasm s = some (some x) ↔ ∃ a b, PltAt f s a b ∧ disasm b a = x := by
  have hB : ∀ a b, LoadedBytes f.segments ⟨a, a + s.size⟩ b ↔ segmentBytes f.segments ⟨a, a + s.size⟩ = .bytes b := fun a b =>
    ((C36_segment_bytes f.segments ⟨a, a + s.size⟩ (Nat.le_add_right _ _)).2.1 b).symm
  unfold pltSection PltAt
  simp only [hB]
  constructor
  · intro h
    cases hn : s.name with
    | none => rw [hn] at h; simp at h
    | some name =>
      cases ha : s.address with
      | none => rw [hn] at h; simp [Section.range, ha] at h
      | some a =>
        rw [hn] at h
        simp only [Section.range, ha, Option.map_some] at h
        split at h
        · next hp =>
          cases hb : segmentBytes f.segments ⟨a, a + s.size⟩ with
          | bytes b =>
            rw [hb] at h
            simp only [Option.some.injEq] at h
            obtain ⟨rest, hr⟩ := List.isPrefixOf_iff_prefix.1 hp
            exact ⟨a, b, ⟨hs, ⟨name, rest, rfl, hr.symm⟩, rfl, hb⟩, h⟩
          | absent => rw [hb] at h; simp at h
          | panic => rw [hb] at h; simp at h
        · simp at h
  · rintro ⟨a, b, ⟨-, ⟨name, rest, hn, rfl⟩, ha, hb⟩, rfl⟩
    rw [hn]
    simp only [Section.range, ha, Option.map_some]
    rw [if_pos (List.isPrefixOf_iff_prefix.2 ⟨rest, rfl⟩), hb]

theorem mem_pltSections (f : File) (reloc : Nat → Option Str) (disasm : List Nat → Nat → Option (List Insn))
    (k : Nat) (t : Str) : ∀ (ss : List Section), (∀ s ∈ ss, s ∈ f.sections) → ∀ l, pltSections reloc f.segments disasm ss = some l →
    ((k, t) ∈ l → ∃ i slot, Refers f disasm i slot ∧ k = i.address / 16 * 16 ∧ reloc slot = some t) ∧
    (Decodes f disasm → ∀ s ∈ ss, ∀ a b is, PltAt f s a b → disasm b a = some is → ∀ i ∈ is, ∀ d, i.detail = some d →
      ∀ op ∈ d.ops, ∀ o slot n, IpTarget i op o slot n → reloc slot = some t → (i.address / 16 * 16, t) ∈ l) := by
  intro ss
  induction ss with
  | nil =>
    intro _ l h
    cases h
    exact ⟨fun hm => (by cases hm), fun _ s hs => by cases hs⟩
  | cons s ss ih =>
    intro hs l h
    have hs0 := hs s (by simp)
    have ih := ih fun x hx => hs x (List.mem_cons_of_mem _ hx)
    unfold pltSections at h
    cases hp : pltSection f.segments disasm s with
    | none => rw [hp] at h; cases h
    | some x =>
      rw [hp] at h
      cases x with
      | none =>
        simp only at h
        obtain ⟨g1, g2⟩ := ih l h
        refine ⟨g1, fun hD s' hs' a b is hP hd => ?_⟩
        rcases List.mem_cons.1 hs' with rfl | hs'
        · have := (pltSection_iff f disasm s' hs0 (some is)).2 ⟨a, b, hP, hd⟩
          rw [hp] at this; cases this
        · exact g2 hD s' hs' a b is hP hd
      | some x =>
        cases x with
        | none =>
          cases h
          refine ⟨fun hm => (by cases hm), fun hD => ?_⟩
          obtain ⟨a, b, hP, hd⟩ := (pltSection_iff f disasm s hs0 none).1 hp
          obtain ⟨is, his, -⟩ := hD s a b hP
          rw [hd] at his; cases his
        | some is =>
          simp only at h
          obtain ⟨a, b, hP, hd⟩ := (pltSection_iff f disasm s hs0 (some is)).1 hp
          cases hi : pltInsns reloc is with
          | none => rw [hi] at h; simp at h
          | some eb =>
            obtain ⟨e, bb⟩ := eb
            rw [hi] at h
            obtain ⟨m1, m2⟩ := mem_pltInsns reloc is e bb hi k t
            have m1' : (k, t) ∈ e → ∃ i slot, Refers f disasm i slot ∧ k = i.address / 16 * 16 ∧ reloc slot = some t := by
              intro hm
              obtain ⟨i, hii, hk, d, hdd, op, ho, o, a', n, ht, hr⟩ := m1 hm
              exact ⟨i, a', ⟨s, a, b, is, d, op, o, n, hP, hd, hii, hdd, ho, ht⟩, hk, hr⟩
            cases bb with
            | false =>
              simp only at h; cases h
              refine ⟨m1', fun hD => ?_⟩
              obtain ⟨is', h1, h2⟩ := hD s a b hP
              rw [hd] at h1; cases h1
              cases (m2 h2).1
            | true =>
              simp only at h
              obtain ⟨r, hr, rfl⟩ := Option.map_eq_some_iff.1 h
              obtain ⟨g1, g2⟩ := ih r hr
              refine ⟨fun hm => ?_, fun hD s' hs' a' b' is' hP' hd' i hii d hdd op ho o slot n ht hsl => ?_⟩
              · rcases List.mem_append.1 hm with hm | hm
                · exact m1' hm
                · exact g1 hm
              · rcases List.mem_cons.1 hs' with rfl | hs'
                · have := (pltSection_iff f disasm s' hs0 (some is')).2 ⟨a', b', hP', hd'⟩
                  rw [hp] at this; cases this
                  obtain ⟨is'', h1, h2⟩ := hD s' a b hP
                  rw [hd] at h1; cases h1
                  exact List.mem_append_left _ ((m2 h2).2 i hii d hdd op ho o slot n ht hsl)
                · exact List.mem_append_right _ (g2 hD s' hs' a' b' is' hP' hd' i hii d hdd op ho o slot n ht hsl)

/-! ### Theorems -/

/-- **C90** (machines). There is code for x86 files, and only for those. -/
theorem C90_arch (arch : Arch) (f : File) (disasm) (x : Option Code) (h : newCode arch f disasm = some x) :
    x.isSome = true ↔ arch = .i386 ∨ arch = .x86_64 := by
  cases arch with
  | other => cases h; simp
  | i386 => obtain ⟨l, -, rfl⟩ := Option.map_eq_some_iff.1 h; simp
  | x86_64 => obtain ⟨l, -, rfl⟩ := Option.map_eq_some_iff.1 h; simp

/-- **C90** (contents). The code consists of the segments of the file, and a slot has the symbol of the
last relocation at its address. -/
theorem C90_code (arch : Arch) (f : File) (disasm) (c : Code) (h : newCode arch f disasm = some (some c)) :
    c.regions.map (fun g => (g.address, g.code)) = f.segments.map (fun s => (s.address, s.bytes)) ∧
    ∀ a s, c.relocation a = some s ↔ Slot f a s := by
  have : ∃ l, c = { regions := f.segments.map fun s => ⟨s.address, s.bytes⟩, relocation := hashOf (f.relocations.map fun r => (r.address, r.symbol)), plt := hashOf l } := by
    cases arch with
    | other => cases h
    | i386 => obtain ⟨l, -, e⟩ := Option.map_eq_some_iff.1 h; cases e; exact ⟨l, rfl⟩
    | x86_64 => obtain ⟨l, -, e⟩ := Option.map_eq_some_iff.1 h; cases e; exact ⟨l, rfl⟩
  obtain ⟨l, rfl⟩ := this
  exact ⟨by simp, fun a s => slot_iff f a s⟩

/-- **C90** (segments). The segments of a file are those whose contents can be read, with their addresses. -/
theorem C90_segments (l : List RawSegment) :
    (readSegments l).map (fun s => (s.address, s.bytes)) =
      l.flatMap fun s => match s.data with | some b => [(s.address, b)] | none => [] := by
  induction l with
  | nil => rfl
  | cons s l ih =>
    rw [List.flatMap_cons, ← ih]
    unfold readSegments
    rw [List.filterMap_cons]
    cases s.data <;> rfl

/-- The disassembler fails on the section: altogether, or on the details of an instruction. -/
def Fails (f : File) (disasm : List Nat → Nat → Option (List Insn)) (s : Section) : Prop :=
  ∃ a b, PltAt f s a b ∧ ∀ is, disasm b a = some is → ∃ i ∈ is, i.detail = none

theorem pltInsns_fails (reloc : Nat → Option Str) (is : List Insn) (h : ∃ i ∈ is, i.detail = none) (l : List (Nat × Str)) (b : Bool)
    (hl : pltInsns reloc is = some (l, b)) : b = false := by
  induction is generalizing l b with
  | nil => obtain ⟨i, hi, -⟩ := h; cases hi
  | cons i is ih =>
    unfold pltInsns at hl
    cases hd : i.detail with
    | none => rw [hd] at hl; cases hl; rfl
    | some d =>
      rw [hd] at hl
      simp only at hl
      obtain ⟨j, hj, hjd⟩ := h
      have hj' : j ∈ is := by
        rcases List.mem_cons.1 hj with rfl | hj
        · rw [hd] at hjd; cases hjd
        · exact hj
      cases he : pltEntries reloc i d.ops with
      | none => rw [he] at hl; simp at hl
      | some e =>
        cases hr : pltInsns reloc is with
        | none => rw [he, hr] at hl; simp at hl
        | some rb =>
          rw [he, hr] at hl
          simp only [Option.some.injEq, Prod.mk.injEq] at hl
          rw [← hl.2]
          exact ih ⟨j, hj', hjd⟩ rb.1 rb.2 hr

/-- **C90** (errors). The search for stubs ends with the first section on which the disassembler fails: the
sections after it contribute no names. -/
theorem C90_errors (arch : Arch) (f : File) (disasm) (ss1 ss2 : List Section) (s : Section)
    (hf : f.sections = ss1 ++ s :: ss2) (hs : Fails f disasm s) :
    newCode arch f (some disasm) = newCode arch { f with sections := ss1 ++ [s] } (some disasm) := by
  have key : ∀ reloc, pltSections reloc f.segments disasm (ss1 ++ s :: ss2) = pltSections reloc f.segments disasm (ss1 ++ [s]) := by
    intro reloc
    clear hf
    induction ss1 with
    | nil =>
      obtain ⟨a, b, hP, hd⟩ := hs
      have hp := (pltSection_iff f disasm s hP.1 (disasm b a)).2 ⟨a, b, hP, rfl⟩
      simp only [List.nil_append, pltSections, hp]
      cases hx : disasm b a with
      | none => rfl
      | some is =>
        simp only
        cases hi : pltInsns reloc is with
        | none => rfl
        | some lb =>
          obtain ⟨l, b'⟩ := lb
          have := pltInsns_fails reloc is (hd is hx) l b' hi
          rw [this]
    | cons x ss1 ih => simp only [List.cons_append, pltSections, ih]
  cases arch with
  | other => rfl
  | i386 => simp only [newCode, findPlts, hf, key]
  | x86_64 => simp only [newCode, findPlts, hf, key]

theorem newCode_plt {arch : Arch} {f : File} {disasm} {c : Code} (h : newCode arch f (some disasm) = some (some c)) :
    ∃ l, pltSections (hashOf (f.relocations.map fun r => (r.address, r.symbol))) f.segments disasm f.sections = some l ∧
      c.plt = hashOf l := by
  cases arch with
  | other => cases h
  | i386 => obtain ⟨l, hl, e⟩ := Option.map_eq_some_iff.1 h; cases e; exact ⟨l, hl, rfl⟩
  | x86_64 => obtain ⟨l, hl, e⟩ := Option.map_eq_some_iff.1 h; cases e; exact ⟨l, hl, rfl⟩

/-- **C90** (stubs). A stub has a name only if an instruction in its 16 bytes, in a procedure linkage
table, refers to a slot with the symbol of that name. -/
theorem C90_plt_sound (arch : Arch) (f : File) (disasm) (c : Code) (h : newCode arch f (some disasm) = some (some c))
    (k : Nat) (name : Str) (hk : c.plt k = some name) :
    k % 16 = 0 ∧ ∃ i slot, k ≤ i.address ∧ i.address < k + 16 ∧ Refers f disasm i slot ∧ Slot f slot name := by
  obtain ⟨l, hl, hp⟩ := newCode_plt h
  rw [hp, (hashOf_spec _ _).1] at hk
  obtain ⟨l1, l2, rfl, -⟩ := hk
  obtain ⟨i, slot, hr, rfl, hs⟩ := (mem_pltSections f _ disasm k name f.sections (fun _ h => h) _ hl).1 (by simp)
  exact ⟨by omega, i, slot, by omega, by omega, hr, (slot_iff f slot name).1 hs⟩

/-- **C90** (stubs, complete). If the tables can be disassembled, a stub whose instructions refer to
slots of one symbol only has the name of that symbol. -/
theorem C90_plt_complete (arch : Arch) (f : File) (disasm) (c : Code) (h : newCode arch f (some disasm) = some (some c))
    (hD : Decodes f disasm) (k : Nat) (hk : k % 16 = 0) (name : Str)
    (hex : ∃ i slot, k ≤ i.address ∧ i.address < k + 16 ∧ Refers f disasm i slot ∧ Slot f slot name)
    (hone : ∀ i slot name', k ≤ i.address → i.address < k + 16 → Refers f disasm i slot → Slot f slot name' → name' = name) :
    c.plt k = some name := by
  obtain ⟨l, hl, hp⟩ := newCode_plt h
  obtain ⟨i, slot, h1, h2, ⟨s, a, b, is, d, op, o, n, hP, hd, hi, hdd, ho, ht⟩, hs⟩ := hex
  have hm := (mem_pltSections f _ disasm k name f.sections (fun _ h => h) _ hl).2 hD s hP.1 a b is hP hd i hi d hdd op ho o slot n ht
    ((slot_iff f slot name).2 hs)
  rw [show i.address / 16 * 16 = k by omega] at hm
  rw [hp]
  cases hx : hashOf l k with
  | none => exact absurd rfl (((hashOf_spec l k).2.1 hx) _ hm)
  | some name' =>
    have := (C90_plt_sound arch f disasm c h k name' (by rw [hp]; exact hx)).2
    obtain ⟨i', slot', g1, g2, g3, g4⟩ := this
    rw [hone i' slot' name' g1 g2 g3 g4]

/-- **C90** (other addresses). If the tables can be disassembled, an address has no stub's name only if it
is not a multiple of 16 or no instruction in the 16 bytes refers to a relocated slot. -/
theorem C90_plt_none (arch : Arch) (f : File) (disasm) (c : Code) (h : newCode arch f (some disasm) = some (some c))
    (hD : Decodes f disasm) (k : Nat) :
    c.plt k = none ↔ (k % 16 = 0 → ¬ ∃ i slot name, k ≤ i.address ∧ i.address < k + 16 ∧ Refers f disasm i slot ∧ Slot f slot name) := by
  obtain ⟨l, hl, hp⟩ := newCode_plt h
  constructor
  · rintro hn hk ⟨i, slot, name, h1, h2, ⟨s, a, b, is, d, op, o, n, hP, hd, hi, hdd, ho, ht⟩, hs⟩
    have hm := (mem_pltSections f _ disasm k name f.sections (fun _ h => h) _ hl).2 hD s hP.1 a b is hP hd i hi d hdd op ho o slot n ht
      ((slot_iff f slot name).2 hs)
    rw [show i.address / 16 * 16 = k by omega] at hm
    rw [hp] at hn
    exact ((hashOf_spec l k).2.1 hn) _ hm rfl
  · intro hx
    cases hc : c.plt k with
    | none => rfl
    | some name =>
      obtain ⟨hk, i, slot, g1, g2, g3, g4⟩ := C90_plt_sound arch f disasm c h k name hc
      exact absurd ⟨i, slot, name, g1, g2, g3, g4⟩ (hx hk)

/-- **C90** (calls). Under an instruction with an immediate operand that is the address of a stub for the
symbol `name`, and not of a known function nor inside the range that is printed, there is a line with the
address and the name. -/
theorem C90_call (arch : Arch) (f : File) (disasm) (c : Code) (h : newCode arch f (some disasm) = some (some c))
    (hD : Decodes f disasm) (k : Nat) (hk : k % 16 = 0) (name : Str)
    (hsome : ∃ i slot, k ≤ i.address ∧ i.address < k + 16 ∧ Refers f disasm i slot ∧ Slot f slot name)
    (hone : ∀ i slot name', k ≤ i.address → i.address < k + 16 → Refers f disasm i slot → Slot f slot name' → name' = name)
    (e : Env) (he : e.code = c) (ps : List Parameter) (vs : List LocalVariable) (i : Insn) (d : Detail) (r : Range)
    (l : List Annot) (hl : annots e ps vs i d r = some l)
    (hop : .imm k ∈ d.ops) (h0 : k ≠ 0) (hr : ¬ (r.lo ≤ k ∧ k < r.hi)) (hf : e.fnAt k = none)
    (rn : Nat → Option Str) (tref : TypeOffset → Val) :
    ∃ a ∈ l, a.val rn tref = some (.text (Str.ofString "0x" ++ hex k ++ Str.ofString " = " ++ name ++ Str.ofString "@plt")) :=
  ⟨.immPlt k name, ((C69_imm e ps vs i d r l hl k).2.1 name).2 ⟨hop, h0, fun h => hr h.2, hf, by
    rw [he]; exact C90_plt_complete arch f disasm c h hD k hk name hsome hone⟩, rfl⟩

/-- Without operands relative to the instruction pointer (as in 32-bit code, whose stubs jump through an
absolute or `ebx`-relative address) no stub has a name. -/
theorem C90_absolute (arch : Arch) (f : File) (disasm) (c : Code) (h : newCode arch f (some disasm) = some (some c))
    (hn : ∀ s a b is i d, PltAt f s a b → disasm b a = some is → i ∈ is → i.detail = some d →
      ∀ x z, Op.mem x z ∈ d.ops → x ≠ .rip ∧ x ≠ .eip) (k : Nat) : c.plt k = none := by
  cases hc : c.plt k with
  | none => rfl
  | some name =>
    obtain ⟨-, i, slot, -, -, ⟨s, a, b, is, d, op, o, n, hP, hd, hi, hdd, ho, ht⟩, -⟩ := C90_plt_sound arch f disasm c h k name hc
    have := hn s a b is i d hP hd hi hdd
    rcases ht.1 with ⟨rfl, -⟩ | ⟨rfl, -⟩
    · exact absurd rfl (this _ _ ho).1
    · exact absurd rfl (this _ _ ho).2

/-- **C90** (relocations read). The relocations of a file are the dynamic ones whose target is a symbol of
the dynamic symbol table, in order, with its name. -/
theorem C90_relocations (l : List RawReloc) (out : List Relocation) (h : readRelocs true (some l) = some out) :
    out.map (fun r => (r.address, r.size, r.symbol)) =
      l.filterMap fun r => ((r.target.bind id).bind id).map fun s => (r.address, r.size, s) := by
  unfold readRelocs at h
  simp only at h
  obtain ⟨ll, hl, rfl⟩ := Option.map_eq_some_iff.1 h
  clear h
  induction l generalizing ll with
  | nil => simp at hl; subst hl; rfl
  | cons r l ih =>
    rw [List.mapM_cons] at hl
    simp only [Option.bind_eq_bind] at hl
    obtain ⟨x, hx, hl⟩ := Option.bind_eq_some_iff.1 hl
    obtain ⟨xs, hxs, e⟩ := Option.bind_eq_some_iff.1 hl
    cases e
    have := ih xs hxs
    unfold readReloc at hx
    match ht : r.target with
    | none => rw [ht] at hx; cases hx; simpa [ht] using this
    | some none => rw [ht] at hx; cases hx; simpa [ht] using this
    | some (some none) => rw [ht] at hx; cases hx
    | some (some (some s)) => rw [ht] at hx; cases hx; simpa [ht] using this

theorem pltEntries_runs (reloc : Nat → Option Str) (i : Insn) (hi : i.address + i.bytes.length < 2 ^ 64) (ops : List Op) :
    ∃ e, pltEntries reloc i ops = some e := by
  have : ∀ op, ∃ t, isIpOffset i op = some t := by
    intro op
    unfold isIpOffset
    cases ipSize op with
    | none => exact ⟨_, rfl⟩
    | some p => exact ⟨_, if_pos hi⟩
  have key : ∀ (g : Op → Option (List (Nat × Str))), (∀ op, ∃ t, g op = some t) → ∀ ops : List Op, ∃ l, ops.mapM g = some l := by
    intro g hg ops
    induction ops with
    | nil => exact ⟨_, rfl⟩
    | cons op ops ih =>
      obtain ⟨t, ht⟩ := hg op
      obtain ⟨l, hl⟩ := ih
      rw [List.mapM_cons, ht, hl]
      exact ⟨_, rfl⟩
  unfold pltEntries
  refine Exists.elim (key _ (fun op => ?_) ops) (fun l hl => ⟨_, Option.map_eq_some_iff.2 ⟨l, hl, rfl⟩⟩)
  obtain ⟨t, ht⟩ := this op
  rw [ht]
  exact ⟨_, rfl⟩

theorem pltInsns_runs (reloc : Nat → Option Str) (is : List Insn) (h : ∀ i ∈ is, i.address + i.bytes.length < 2 ^ 64) :
    ∃ r, pltInsns reloc is = some r := by
  induction is with
  | nil => exact ⟨_, rfl⟩
  | cons i is ih =>
    obtain ⟨r, hr⟩ := ih fun j hj => h j (List.mem_cons_of_mem _ hj)
    unfold pltInsns
    cases i.detail with
    | none => exact ⟨_, rfl⟩
    | some d =>
      obtain ⟨e, he⟩ := pltEntries_runs reloc i (h i List.mem_cons_self) d.ops
      simp only [he, hr]
      exact ⟨_, rfl⟩

theorem segmentBytes_runs (l : List Segment) (r : Range) (h : r.lo ≤ r.hi) : segmentBytes l r ≠ .panic := by
  induction l with
  | nil => simp [segmentBytes]
  | cons s l ih =>
    unfold segmentBytes
    split
    · simp
    · exact ih

theorem pltSections_runs (reloc : Nat → Option Str) (segments : List Segment) (disasm : List Nat → Nat → Option (List Insn))
    (hd : ∀ b a is, disasm b a = some is → ∀ i ∈ is, i.address + i.bytes.length < 2 ^ 64) (ss : List Section) :
    ∃ l, pltSections reloc segments disasm ss = some l := by
  induction ss with
  | nil => exact ⟨_, rfl⟩
  | cons s ss ih =>
    obtain ⟨l, hl⟩ := ih
    unfold pltSections
    have h1 : ∃ x, pltSection segments disasm s = some x ∧ ∀ is, x = some (some is) → ∃ b a, disasm b a = some is := by
      unfold pltSection
      split
      · rename_i _ r _ hr
        split
        · have := segmentBytes_runs segments r (by
            unfold Section.range at hr
            obtain ⟨a, -, rfl⟩ := Option.map_eq_some_iff.1 hr
            exact Nat.le_add_right _ _)
          cases hb : segmentBytes segments r with
          | bytes b => exact ⟨_, rfl, fun is h => ⟨b, r.lo, Option.some.inj h⟩⟩
          | absent => exact ⟨_, rfl, fun is h => by cases h⟩
          | panic => exact absurd hb this
        · exact ⟨_, rfl, fun is h => by cases h⟩
      · exact ⟨_, rfl, fun is h => by cases h⟩
    obtain ⟨x, hx, hi⟩ := h1
    rw [hx]
    match x, hi with
    | none, _ => exact ⟨l, hl⟩
    | some none, _ => exact ⟨_, rfl⟩
    | some (some is), hi =>
      obtain ⟨b, a, hba⟩ := hi is rfl
      obtain ⟨⟨e, c⟩, hr⟩ := pltInsns_runs reloc is (hd b a is hba)
      simp only [hr]
      cases c with
      | false => exact ⟨_, rfl⟩
      | true => rw [hl]; exact ⟨_, rfl⟩

/-- **C90** (no crash). Reading the code of a file never fails, whether or not there is a disassembler for it, as
long as no instruction it decodes in the file ends beyond the address space; without a disassembler no stub has a
name. -/
theorem C90_runs (arch : Arch) (f : File) :
    (∀ disasm, (∀ d, disasm = some d → ∀ b a is, d b a = some is → ∀ i ∈ is, i.address + i.bytes.length < 2 ^ 64) →
      ∃ x, newCode arch f disasm = some x) ∧
    ∃ x, newCode arch f none = some x ∧ ∀ c, x = some c → ∀ a, c.plt a = none := by
  refine ⟨fun disasm hd => ?_, ?_⟩
  · have : ∀ reloc, ∃ l, findPlts reloc f disasm = some l := by
      intro reloc
      cases disasm with
      | none => exact ⟨_, rfl⟩
      | some d => exact pltSections_runs reloc f.segments d (hd d rfl) f.sections
    obtain ⟨l, hl⟩ := this (hashOf (f.relocations.map fun r => (r.address, r.symbol)))
    cases arch with
    | other => exact ⟨_, rfl⟩
    | i386 => simp only [newCode, hl, Option.map_some]; exact ⟨_, rfl⟩
    | x86_64 => simp only [newCode, hl, Option.map_some]; exact ⟨_, rfl⟩
  · cases arch with
    | other => exact ⟨_, rfl, fun c h => by cases h⟩
    | i386 => exact ⟨_, rfl, fun c h => by cases h; intro a; rfl⟩
    | x86_64 => exact ⟨_, rfl, fun c h => by cases h; intro a; rfl⟩

/-- A file with one stub of two instructions. -/
def pltFile : File :=
  { segments := [⟨4096, List.replicate 32 144⟩], sections := [⟨some (Str.ofString ".plt.sec"), none, some 4096, 32⟩]
    relocations := [⟨8192, 8, [97]⟩, ⟨8200, 8, [98]⟩] }

/-- Its disassembly. -/
def pltDisasm (_ : List Nat) (a : Nat) : Option (List Insn) :=
  some [⟨a, [1, 2, 3, 4], none, none, some { ops := [] }⟩, ⟨a + 4, [1, 2, 3, 4, 5, 6], none, none, some { ops := [.mem .rip 4086] }⟩,
    ⟨a + 16, [1, 2, 3, 4], none, none, some { ops := [] }⟩, ⟨a + 20, [1, 2, 3, 4, 5, 6], none, none, some { ops := [.mem .rip 4078] }⟩]

example : ((newCode .x86_64 pltFile (some pltDisasm)).bind id).map (fun c => [4096, 4100, 4112, 4128].map c.plt) =
    some [some [97], none, some [98], none] := by decide +kernel

/-- The instructions of the table end in the address space. -/
example : ∀ s ∈ pltFile.sections, ∀ a, s.address = some a → ∀ is, pltDisasm [] a = some is →
    ∀ i ∈ is, i.address + i.bytes.length < 2 ^ 64 := by
  decide +kernel

example : Decodes pltFile pltDisasm := by
  intro s a b _
  exact ⟨_, rfl, by simp⟩

/-- The first stub refers to the first slot. -/
example : ∃ i slot, 4096 ≤ i.address ∧ i.address < 4096 + 16 ∧ Refers pltFile pltDisasm i slot ∧ Slot pltFile slot [97] := by
  refine ⟨⟨4100, [1, 2, 3, 4, 5, 6], none, none, some { ops := [.mem .rip 4086] }⟩, 8192, by decide, by decide, ?_, ?_⟩
  · refine ⟨⟨some (Str.ofString ".plt.sec"), none, some 4096, 32⟩, 4096, List.replicate 32 144, _, _, .mem .rip 4086, 4086, 8,
      ⟨by decide +kernel, ⟨_, Str.ofString ".sec", rfl, by decide +kernel⟩, rfl, ?_⟩, rfl, by simp, rfl, by simp, ⟨.inl ⟨rfl, rfl⟩, by decide⟩⟩
    exact ((C36_segment_bytes pltFile.segments ⟨4096, 4096 + 32⟩ (by decide)).2.1 _).1 (by decide +kernel)
  · exact ⟨[], ⟨8192, 8, [97]⟩, [⟨8200, 8, [98]⟩], rfl, rfl, rfl, by simp⟩

/-- A disassembler that knows no details fails on the table, so that no stub has a name. -/
example : Fails pltFile (fun _ a => some [⟨a, [1], none, none, none⟩]) ⟨some (Str.ofString ".plt.sec"), none, some 4096, 32⟩ := by
  refine ⟨4096, List.replicate 32 144, ⟨by decide +kernel, ⟨_, Str.ofString ".sec", rfl, by decide +kernel⟩, rfl, ?_⟩, ?_⟩
  · exact ((C36_segment_bytes pltFile.segments ⟨4096, 4096 + 32⟩ (by decide)).2.1 _).1 (by decide +kernel)
  · intro is h; cases h; exact ⟨_, List.mem_singleton.2 rfl, rfl⟩

end Verif.Code
