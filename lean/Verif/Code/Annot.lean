import Verif.Code.Props
/-!
# Property theorems: C69 (the lines printed below an instruction)
-/
namespace Verif.Code
open Verif.Range Verif.Item Verif.Types Verif.Print Verif.Frame Verif.Cfi

theorem mem_mapM_flatten {α β : Type} (f : α → Option (List β)) (l : List α) (out : List (List β))
    (h : l.mapM f = some out) (x : β) : x ∈ out.flatten ↔ ∃ (k : Nat) (a : α) (b : List β), l[k]? = some a ∧ f a = some b ∧ x ∈ b := by
  induction l generalizing out with
  | nil => simp at h; subst h; simp
  | cons y l ih =>
    rw [List.mapM_cons] at h
    cases hy : f y with
    | none => rw [hy] at h; simp at h
    | some b =>
      cases hm : l.mapM f with
      | none => rw [hy, hm] at h; simp at h
      | some out' =>
        rw [hy, hm] at h
        simp at h; subst h
        rw [List.flatten_cons, List.mem_append, ih out' hm]
        constructor
        · rintro (h | ⟨k, a, b', h1, h2, h3⟩)
          · exact ⟨0, y, b, rfl, hy, h⟩
          · exact ⟨k + 1, a, b', h1, h2, h3⟩
        · rintro ⟨k, a, b', h1, h2, h3⟩
          cases k with
          | zero => simp at h1; subst h1; rw [hy] at h2; cases h2; exact .inl h3
          | succ k => exact .inr ⟨k, a, b', by simpa using h1, h2, h3⟩

theorem mapM_all {α β : Type} (f : α → Option β) (l : List α) (out : List β)
    (h : l.mapM f = some out) (a : α) (ha : a ∈ l) : ∃ b, f a = some b := by
  induction l generalizing out with
  | nil => cases ha
  | cons y l ih =>
    rw [List.mapM_cons] at h
    cases hy : f y with
    | none => rw [hy] at h; simp at h
    | some b =>
      cases hm : l.mapM f with
      | none => rw [hy, hm] at h; simp at h
      | some out' =>
        rcases List.mem_cons.1 ha with rfl | ha
        · exact ⟨b, hy⟩
        · exact ih out' hm ha

/-- The annotations of an instruction are those of its operands. -/
theorem mem_annots (e : Env) (ps : List Parameter) (vs : List LocalVariable) (i : Insn) (d : Detail) (r : Range)
    (l : List Annot) (h : annots e ps vs i d r = some l) (x : Annot) :
    x ∈ l ↔ ∃ k op a la, d.ops[k]? = some op ∧ At i k a ∧ opAnnots e ps vs i d r a op = some la ∧ x ∈ la := by
  unfold annots at h
  split at h
  · rename_i ho; cases h; simp [ho]
  · rename_i op ops ho
    split at h
    · cases h0 : opAnnots e ps vs i d r (i.address + i.bytes.length) op with
      | none => rw [h0] at h; simp at h
      | some a =>
        cases hm : ops.mapM (opAnnots e ps vs i d r i.address) with
        | none => rw [h0, hm] at h; simp at h
        | some out =>
          rw [h0, hm] at h
          simp at h; subst h
          rw [List.mem_append, mem_mapM_flatten _ _ _ hm, ho]
          constructor
          · rintro (hx | ⟨k, o, b, h1, h2, h3⟩)
            · exact ⟨0, op, _, a, rfl, rfl, h0, hx⟩
            · exact ⟨k + 1, o, _, b, h1, rfl, h2, h3⟩
          · rintro ⟨k, o, ad, b, h1, rfl, h2, h3⟩
            cases k with
            | zero =>
              simp at h1; subst h1
              simp at h2
              rw [h0] at h2; cases h2
              exact .inl h3
            | succ k => exact .inr ⟨k, o, b, by simpa using h1, by simpa using h2, h3⟩
    · cases h

theorem opAnnots_some (e : Env) (ps : List Parameter) (vs : List LocalVariable) (i : Insn) (d : Detail) (r : Range)
    (l : List Annot) (h : annots e ps vs i d r = some l) (k : Nat) (op : Op) (a : Nat) (hk : d.ops[k]? = some op)
    (ha : At i k a) : ∃ la, opAnnots e ps vs i d r a op = some la := by
  unfold annots at h
  split at h
  · rename_i ho; simp [ho] at hk
  · rename_i o ops ho
    split at h
    · cases h0 : opAnnots e ps vs i d r (i.address + i.bytes.length) o with
      | none => rw [h0] at h; simp at h
      | some a0 =>
        cases hm : ops.mapM (opAnnots e ps vs i d r i.address) with
        | none => rw [h0, hm] at h; simp at h
        | some out =>
          cases k with
          | zero =>
            simp [ho] at hk; subst hk
            rw [ha]; exact ⟨a0, h0⟩
          | succ k =>
            simp [ho] at hk
            rw [ha]
            exact mapM_all _ _ _ hm op (List.mem_of_getElem? hk)
    · cases h

/-- What the annotations of one operand are made of. -/
theorem opAnnots_parts (e : Env) (ps : List Parameter) (vs : List LocalVariable) (i : Insn) (d : Detail) (r : Range)
    (a : Nat) (op : Op) (la : List Annot) (h : opAnnots e ps vs i d r a op = some la) :
    (∃ imm, op = .imm imm ∧ la = if (d.isJump ∧ r.contains imm) ∨ imm = 0 then [] else immAnnots e imm) ∨
    (∃ m q, (∀ imm, op ≠ .imm imm) ∧ memAnnots e ps vs a op = some m ∧ ipAnnots e i op = some q ∧
      la = regAnnots ps vs a op ++ m ++ q) := by
  unfold opAnnots at h
  split at h
  · rename_i imm hi
    refine .inl ⟨imm, ?_, ?_⟩
    · unfold isImm at hi; split at hi <;> cases hi; rfl
    · split at h <;> (cases h; simp [*])
  · rename_i hi
    refine .inr ?_
    cases hm : memAnnots e ps vs a op with
    | none => rw [hm] at h; simp at h
    | some m =>
      cases hq : ipAnnots e i op with
      | none => rw [hm, hq] at h; simp at h
      | some q =>
        rw [hm, hq] at h
        simp at h
        refine ⟨m, q, ?_, rfl, rfl, by rw [← h]; simp⟩
        rintro imm rfl; simp [isImm] at hi

theorem memHits_mem (reg : Nat) (ofs size : Int) (address : Nat) (annot : Nat → Int → Annot)
    (l : List (Range × Nat × Int)) (out : List Annot) (h : memHits reg ofs size address annot l = some out) (x : Annot) :
    x ∈ out ↔ ∃ rg o, (rg, reg, o) ∈ l ∧ o ≤ ofs ∧ ofs < o + size ∧ rg.contains address = true ∧ x = annot reg o := by
  induction l generalizing out with
  | nil => simp [memHits] at h; subst h; simp
  | cons y l ih =>
    obtain ⟨rg, n, o⟩ := y
    simp only [memHits] at h
    split at h
    · rename_i hc
      split at h
      · obtain ⟨rest, hr, rfl⟩ := Option.map_eq_some_iff.1 h
        rw [List.mem_append, ih rest hr]
        constructor
        · rintro (hx | ⟨rg', o', hm, h'⟩)
          · split at hx
            · rename_i hh
              simp at hx
              exact ⟨rg, o, by simp [hc.1], hc.2, hh.1, hh.2, by rw [hx, hc.1]⟩
            · cases hx
          · exact ⟨rg', o', List.mem_cons_of_mem _ hm, h'⟩
        · rintro ⟨rg', o', hm, h1, h2, h3, h4⟩
          rcases List.mem_cons.1 hm with e | hm
          · cases e
            left; rw [if_pos ⟨h2, h3⟩]; simp [h4]
          · exact .inr ⟨rg', o', hm, h1, h2, h3, h4⟩
      · cases h
    · rename_i hc
      rw [ih out h]
      constructor
      · rintro ⟨rg', o', hm, h'⟩
        exact ⟨rg', o', List.mem_cons_of_mem _ hm, h'⟩
      · rintro ⟨rg', o', hm, h1, h'⟩
        rcases List.mem_cons.1 hm with e | hm
        · cases e; exact absurd ⟨rfl, h1⟩ hc
        · exact ⟨rg', o', hm, h1, h'⟩

theorem mem_registers (locs : List (Range × Piece)) (rg : Range) (n : Nat) :
    (rg, n) ∈ registers locs ↔ ∃ p, (rg, p) ∈ locs ∧ p.isValue = false ∧ p.location = .register n := by
  simp only [registers, List.mem_filterMap, Prod.exists]
  constructor
  · rintro ⟨r, p, hm, h⟩
    split at h
    · cases h
    · rename_i hv
      split at h
      · rename_i hl; cases h; exact ⟨p, hm, by simpa using hv, hl⟩
      · cases h
  · rintro ⟨p, hm, hv, hl⟩
    exact ⟨rg, p, hm, by simp [hv, hl]⟩

theorem mem_registerOffsets (locs : List (Range × Piece)) (rg : Range) (n : Nat) (o : Int) :
    (rg, n, o) ∈ registerOffsets locs ↔ ∃ p, (rg, p) ∈ locs ∧ p.isValue = false ∧ p.location = .registerOffset n o := by
  simp only [registerOffsets, List.mem_filterMap, Prod.exists]
  constructor
  · rintro ⟨r, p, hm, h⟩
    split at h
    · cases h
    · rename_i hv
      split at h
      · rename_i hl; cases h; exact ⟨p, hm, by simpa using hv, hl⟩
      · cases h
  · rintro ⟨p, hm, hv, hl⟩
    exact ⟨rg, p, hm, by simp [hv, hl]⟩

theorem contains_iff (r : Range) (a : Nat) : r.contains a = true ↔ r.lo ≤ a ∧ a < r.hi := by
  simp [Range.contains]

theorem inReg_iff (locs : List (Range × Piece)) (a n : Nat) :
    InReg locs a n ↔ ∃ rg, (rg, n) ∈ registers locs ∧ rg.contains a = true := by
  simp only [InReg, mem_registers, contains_iff]
  constructor
  · rintro ⟨r, p, h1, h2, h3, h4⟩; exact ⟨r, ⟨p, h1, h2, h3⟩, h4⟩
  · rintro ⟨r, ⟨p, h1, h2, h3⟩, h4⟩; exact ⟨r, p, h1, h2, h3, h4⟩

theorem usesReg_iff (op : Op) (n : Nat) : UsesReg op n ↔ isReg op = some n := by
  constructor
  · rintro ⟨x, h, rfl | ⟨d, rfl⟩⟩ <;> exact h
  · intro h
    cases op <;> simp only [isReg] at h
    · cases h
    · exact ⟨_, h, .inl rfl⟩
    · exact ⟨_, h, .inr ⟨_, rfl⟩⟩
    · cases h

theorem memAnnots_not_reg (e : Env) (ps : List Parameter) (vs : List LocalVariable) (a : Nat) (op : Op)
    (m : List Annot) (h : memAnnots e ps vs a op = some m) (x : Annot) :
    x ∈ m ↔ ∃ reg z, isRegOffset op = some (reg, z) ∧
      ((∃ p ∈ ps, ∃ rg o, (rg, reg, o) ∈ registerOffsets p.locations ∧ o ≤ z ∧
          z < o + asI64 ((p.byteSize e.tsz).getD 0) ∧ rg.contains a = true ∧ x = .memParam reg o p) ∨
       (∃ v ∈ vs, ∃ rg o, (rg, reg, o) ∈ registerOffsets v.locations ∧ o ≤ z ∧
          z < o + asI64 ((v.byteSize e.tsz).getD 0) ∧ rg.contains a = true ∧ x = .memVar reg o v)) := by
  unfold memAnnots at h
  split at h
  · rename_i hr; cases h; simp [hr]
  · rename_i reg z hr
    simp only [Option.bind_eq_bind, Option.pure_def] at h
    obtain ⟨A, hA, h⟩ := Option.bind_eq_some_iff.1 h
    obtain ⟨B, hB, h⟩ := Option.bind_eq_some_iff.1 h
    cases h
    rw [List.mem_append, mem_mapM_flatten _ _ _ hA, mem_mapM_flatten _ _ _ hB]
    constructor
    · rintro (⟨k, p, b, h1, h2, h3⟩ | ⟨k, v, b, h1, h2, h3⟩)
      · exact ⟨reg, z, hr, .inl ⟨p, List.mem_of_getElem? h1, (memHits_mem _ _ _ _ _ _ _ h2 x).1 h3⟩⟩
      · exact ⟨reg, z, hr, .inr ⟨v, List.mem_of_getElem? h1, (memHits_mem _ _ _ _ _ _ _ h2 x).1 h3⟩⟩
    · rintro ⟨reg', z', hr', h⟩
      rw [hr] at hr'; cases hr'
      rcases h with ⟨p, hp, h⟩ | ⟨v, hv, h⟩
      · obtain ⟨b, hb⟩ := mapM_all _ _ _ hA p hp
        obtain ⟨k, hk⟩ := List.mem_iff_getElem?.1 hp
        exact .inl ⟨k, p, b, hk, hb, (memHits_mem _ _ _ _ _ _ _ hb x).2 h⟩
      · obtain ⟨b, hb⟩ := mapM_all _ _ _ hB v hv
        obtain ⟨k, hk⟩ := List.mem_iff_getElem?.1 hv
        exact .inr ⟨k, v, b, hk, hb, (memHits_mem _ _ _ _ _ _ _ hb x).2 h⟩

theorem mem_regAnnots (ps : List Parameter) (vs : List LocalVariable) (a : Nat) (op : Op) (x : Annot) :
    x ∈ regAnnots ps vs a op ↔ ∃ n, isReg op = some n ∧
      ((∃ p ∈ ps, InReg p.locations a n ∧ x = .regParam n p) ∨ (∃ v ∈ vs, InReg v.locations a n ∧ x = .regVar n v)) := by
  unfold regAnnots
  split
  · rename_i h; simp [h]
  · rename_i reg h
    simp only [h, Option.some.injEq, inReg_iff, List.mem_append, List.mem_flatMap, Prod.exists, exists_eq_left']
    constructor
    · rintro (⟨p, hp, rg, n, h1, h2⟩ | ⟨p, hp, rg, n, h1, h2⟩)
      · split at h2
        · rename_i hh; obtain ⟨rfl, hh⟩ := hh
          simp at h2
          exact .inl ⟨p, hp, ⟨rg, h1, hh⟩, h2⟩
        · cases h2
      · split at h2
        · rename_i hh; obtain ⟨rfl, hh⟩ := hh
          simp at h2
          exact .inr ⟨p, hp, ⟨rg, h1, hh⟩, h2⟩
        · cases h2
    · rintro (⟨p, hp, ⟨rg, h1, h2⟩, rfl⟩ | ⟨p, hp, ⟨rg, h1, h2⟩, rfl⟩)
      · exact .inl ⟨p, hp, rg, reg, h1, by simp [h2]⟩
      · exact .inr ⟨p, hp, rg, reg, h1, by simp [h2]⟩

/-- The instruction-pointer annotation of one operand: the function at the address; failing that
the variable; failing that the relocation; failing that the pointer stored there. -/
def IpNote (e : Env) (i : Insn) (op : Op) (x : Annot) : Prop :=
  ∃ o a n, isIpOffset i op = some (some (o, a, n)) ∧
    ((∃ f, e.fnAt a = some f ∧ x = .ipFunction o f) ∨
     (e.fnAt a = none ∧ ∃ v, e.varAt a = some v ∧ x = .ipVariable o v) ∨
     (e.fnAt a = none ∧ e.varAt a = none ∧ ∃ s, e.code.relocation a = some s ∧ x = .ipReloc o s) ∨
     (e.fnAt a = none ∧ e.varAt a = none ∧ e.code.relocation a = none ∧
       ∃ v, readMem e.code.regions a n = some (some v) ∧ x = .ipValue o v (e.fnAt v)))

theorem mem_ipAnnots (e : Env) (i : Insn) (op : Op) (q : List Annot) (h : ipAnnots e i op = some q) (x : Annot) :
    x ∈ q ↔ IpNote e i op x := by
  unfold ipAnnots at h
  unfold IpNote
  cases hi : isIpOffset i op with
  | none => rw [hi] at h; cases h
  | some t =>
    rw [hi] at h
    rcases t with _ | ⟨o, a, n⟩
    · cases h; simp
    · simp only at h
      constructor
      · intro hx
        refine ⟨o, a, n, rfl, ?_⟩
        cases h1 : e.fnAt a with
        | some f => rw [h1] at h; cases h; simp at hx; exact .inl ⟨f, rfl, hx⟩
        | none =>
          rw [h1] at h
          cases h2 : e.varAt a with
          | some v => rw [h2] at h; cases h; simp at hx; exact .inr (.inl ⟨rfl, v, rfl, hx⟩)
          | none =>
            rw [h2] at h
            cases h3 : e.code.relocation a with
            | some s => rw [h3] at h; cases h; simp at hx; exact .inr (.inr (.inl ⟨rfl, rfl, s, rfl, hx⟩))
            | none =>
              rw [h3] at h
              cases h4 : readMem e.code.regions a n with
              | none => rw [h4] at h; cases h
              | some y =>
                rw [h4] at h
                cases y with
                | none => cases h; cases hx
                | some v => cases h; simp at hx; exact .inr (.inr (.inr ⟨rfl, rfl, rfl, v, rfl, hx⟩))
      · rintro ⟨o', a', n', e', hx⟩
        simp only [Option.some.injEq, Prod.mk.injEq] at e'
        obtain ⟨rfl, rfl, rfl⟩ := e'
        rcases hx with ⟨f, h1, rfl⟩ | ⟨h1, v, h2, rfl⟩ | ⟨h1, h2, s, h3, rfl⟩ | ⟨h1, h2, h3, v, h4, rfl⟩
        · rw [h1] at h; cases h; simp
        · rw [h1, h2] at h; cases h; simp
        · rw [h1, h2, h3] at h; cases h; simp
        · rw [h1, h2, h3, h4] at h; cases h; simp

theorem immAnnots_mem (e : Env) (imm : Nat) (x : Annot) : x ∈ immAnnots e imm ↔
    (∃ f, e.fnAt imm = some f ∧ x = .immFunction imm f) ∨
    (e.fnAt imm = none ∧ ∃ s, e.code.plt imm = some s ∧ x = .immPlt imm s) ∨
    (e.fnAt imm = none ∧ e.code.plt imm = none ∧ ∃ s, e.code.relocation imm = some s ∧ x = .immReloc imm s) := by
  unfold immAnnots
  cases h1 : e.fnAt imm with
  | some f => simp
  | none =>
    cases h2 : e.code.plt imm with
    | some s => simp
    | none =>
      cases h3 : e.code.relocation imm with
      | some s => simp
      | none => simp

theorem isRegOffset_iff (op : Op) (n : Nat) (z : Int) :
    isRegOffset op = some (n, z) ↔ ∃ x, op = .mem x z ∧ convertReg x = some n := by
  cases op with
  | mem b d =>
    simp only [isRegOffset, Option.map_eq_some_iff, Prod.mk.injEq, Op.mem.injEq]
    constructor
    · rintro ⟨a, h1, rfl, rfl⟩; exact ⟨b, ⟨rfl, rfl⟩, h1⟩
    · rintro ⟨x, ⟨rfl, rfl⟩, h⟩; exact ⟨n, h, rfl, rfl⟩
  | _ => simp [isRegOffset]

theorem isReg_notImm (op : Op) (n : Nat) (h : isReg op = some n) (imm : Nat) : op ≠ .imm imm := by
  rintro rfl; simp [isReg] at h

/-- All the annotations, by kind. -/
theorem annots_kinds (e : Env) (ps : List Parameter) (vs : List LocalVariable) (i : Insn) (d : Detail) (r : Range)
    (l : List Annot) (h : annots e ps vs i d r = some l) (x : Annot) :
    x ∈ l ↔ ∃ k op a, d.ops[k]? = some op ∧ At i k a ∧
      ((∃ imm, op = .imm imm ∧ ¬ (d.isJump = true ∧ r.contains imm = true) ∧ imm ≠ 0 ∧ x ∈ immAnnots e imm) ∨
       x ∈ regAnnots ps vs a op ∨ (∃ m, memAnnots e ps vs a op = some m ∧ x ∈ m) ∨ IpNote e i op x) := by
  rw [mem_annots e ps vs i d r l h x]
  constructor
  · rintro ⟨k, op, a, la, h1, h2, h3, hx⟩
    refine ⟨k, op, a, h1, h2, ?_⟩
    rcases opAnnots_parts e ps vs i d r a op la h3 with ⟨imm, rfl, rfl⟩ | ⟨m, q, hn, hm, hq, rfl⟩
    · split at hx
      · cases hx
      · rename_i hc
        exact .inl ⟨imm, rfl, fun hh => hc (.inl hh), fun hh => hc (.inr hh), hx⟩
    · rw [List.mem_append, List.mem_append] at hx
      rcases hx with (hx | hx) | hx
      · exact .inr (.inl hx)
      · exact .inr (.inr (.inl ⟨m, hm, hx⟩))
      · exact .inr (.inr (.inr ((mem_ipAnnots e i op q hq x).1 hx)))
  · rintro ⟨k, op, a, h1, h2, hx⟩
    obtain ⟨la, hla⟩ := opAnnots_some e ps vs i d r l h k op a h1 h2
    refine ⟨k, op, a, la, h1, h2, hla, ?_⟩
    rcases opAnnots_parts e ps vs i d r a op la hla with ⟨imm, rfl, rfl⟩ | ⟨m, q, hn, hm, hq, rfl⟩
    · rcases hx with ⟨imm', e1, h1, h2, hx⟩ | hx | ⟨m, hm, hx⟩ | ⟨o, a', n, hi, _⟩
      · cases e1
        rw [if_neg (by rintro (h | h) <;> contradiction)]; exact hx
      · simp [regAnnots, isReg] at hx
      · simp [memAnnots, isRegOffset] at hm; subst hm; cases hx
      · simp [isIpOffset, ipSize] at hi
    · rw [List.mem_append, List.mem_append]
      rcases hx with ⟨imm', e1, _⟩ | hx | ⟨m', hm', hx⟩ | hx
      · exact absurd e1 (hn imm')
      · exact .inl (.inl hx)
      · rw [hm] at hm'; cases hm'; exact .inl (.inr hx)
      · exact .inr ((mem_ipAnnots e i op q hq x).2 hx)

theorem ipNote_kind {e : Env} {i : Insn} {op : Op} {x : Annot} (h : IpNote e i op x) :
    (∃ o f, x = .ipFunction o f) ∨ (∃ o f, x = .ipVariable o f) ∨ (∃ o f, x = .ipReloc o f) ∨ ∃ o v f, x = .ipValue o v f := by
  obtain ⟨o, a, n, -, ⟨f, -, rfl⟩ | ⟨-, v, -, rfl⟩ | ⟨-, -, s, -, rfl⟩ | ⟨-, -, -, v, -, rfl⟩⟩ := h
  · exact .inl ⟨_, _, rfl⟩
  · exact .inr (.inl ⟨_, _, rfl⟩)
  · exact .inr (.inr (.inl ⟨_, _, rfl⟩))
  · exact .inr (.inr (.inr ⟨_, _, _, rfl⟩))

theorem memAnnots_kind {e : Env} {ps : List Parameter} {vs : List LocalVariable} {a : Nat} {op : Op} {m : List Annot}
    (h : memAnnots e ps vs a op = some m) {x : Annot} (hx : x ∈ m) :
    (∃ r o p, x = .memParam r o p) ∨ (∃ r o v, x = .memVar r o v) := by
  obtain ⟨reg, z, -, ⟨p, -, rg, o, -, -, -, -, rfl⟩ | ⟨p, -, rg, o, -, -, -, -, rfl⟩⟩ := (memAnnots_not_reg e ps vs a op m h x).1 hx
  · exact .inl ⟨_, _, _, rfl⟩
  · exact .inr ⟨_, _, _, rfl⟩

theorem immAnnots_kind {e : Env} {imm : Nat} {x : Annot} (h : x ∈ immAnnots e imm) :
    (∃ f, x = .immFunction imm f) ∨ (∃ f, x = .immPlt imm f) ∨ (∃ f, x = .immReloc imm f) := by
  rcases (immAnnots_mem e imm x).1 h with ⟨f, -, rfl⟩ | ⟨-, f, -, rfl⟩ | ⟨-, -, f, -, rfl⟩
  · exact .inl ⟨_, rfl⟩
  · exact .inr (.inl ⟨_, rfl⟩)
  · exact .inr (.inr ⟨_, rfl⟩)

/-- **C69 (variables in registers).** Below an instruction, "register = variable" is printed exactly
for the local variables of the function that are in a register some operand uses, at the address
where that operand is looked up. -/
theorem C69_reg_variable (e : Env) (ps : List Parameter) (vs : List LocalVariable) (i : Insn) (d : Detail) (r : Range)
    (l : List Annot) (h : annots e ps vs i d r = some l) (n : Nat) (v : LocalVariable) :
    .regVar n v ∈ l ↔ v ∈ vs ∧ ∃ k op a, d.ops[k]? = some op ∧ At i k a ∧ UsesReg op n ∧ InReg v.locations a n := by
  rw [annots_kinds e ps vs i d r l h]
  constructor
  · rintro ⟨k, op, a, h1, h2, ⟨imm, -, -, -, hx⟩ | hx | ⟨m, hm, hx⟩ | hx⟩
    · rcases immAnnots_kind hx with ⟨f, e⟩ | ⟨f, e⟩ | ⟨f, e⟩ <;> cases e
    · obtain ⟨n', hr, ⟨p, _, _, e⟩ | ⟨v', hv, hi, e⟩⟩ := (mem_regAnnots ps vs a op _).1 hx
      · cases e
      · cases e; exact ⟨hv, k, op, a, h1, h2, (usesReg_iff op n).2 hr, hi⟩
    · rcases memAnnots_kind hm hx with ⟨r, o, p, e⟩ | ⟨r, o, p, e⟩ <;> cases e
    · rcases ipNote_kind hx with ⟨_, _, e⟩ | ⟨_, _, e⟩ | ⟨_, _, e⟩ | ⟨_, _, _, e⟩ <;> cases e
  · rintro ⟨hv, k, op, a, h1, h2, h3, h4⟩
    exact ⟨k, op, a, h1, h2, .inr (.inl ((mem_regAnnots ps vs a op _).2
      ⟨n, (usesReg_iff op n).1 h3, .inr ⟨v, hv, h4, rfl⟩⟩))⟩

/-- **C69 (parameters in registers).** -/
theorem C69_reg_parameter (e : Env) (ps : List Parameter) (vs : List LocalVariable) (i : Insn) (d : Detail) (r : Range)
    (l : List Annot) (h : annots e ps vs i d r = some l) (n : Nat) (v : Parameter) :
    .regParam n v ∈ l ↔ v ∈ ps ∧ ∃ k op a, d.ops[k]? = some op ∧ At i k a ∧ UsesReg op n ∧ InReg v.locations a n := by
  rw [annots_kinds e ps vs i d r l h]
  constructor
  · rintro ⟨k, op, a, h1, h2, ⟨imm, -, -, -, hx⟩ | hx | ⟨m, hm, hx⟩ | hx⟩
    · rcases immAnnots_kind hx with ⟨f, e⟩ | ⟨f, e⟩ | ⟨f, e⟩ <;> cases e
    · obtain ⟨n', hr, ⟨v', hv, hi, e⟩ | ⟨p, _, _, e⟩⟩ := (mem_regAnnots ps vs a op _).1 hx
      · cases e; exact ⟨hv, k, op, a, h1, h2, (usesReg_iff op n).2 hr, hi⟩
      · cases e
    · rcases memAnnots_kind hm hx with ⟨r, o, p, e⟩ | ⟨r, o, p, e⟩ <;> cases e
    · rcases ipNote_kind hx with ⟨_, _, e⟩ | ⟨_, _, e⟩ | ⟨_, _, e⟩ | ⟨_, _, _, e⟩ <;> cases e
  · rintro ⟨hv, k, op, a, h1, h2, h3, h4⟩
    exact ⟨k, op, a, h1, h2, .inr (.inl ((mem_regAnnots ps vs a op _).2
      ⟨n, (usesReg_iff op n).1 h3, .inl ⟨v, hv, h4, rfl⟩⟩))⟩

theorem inMem_iff (locs : List (Range × Piece)) (size : Option Nat) (hs : ∀ s, size = some s → s < 2 ^ 63) (a n : Nat)
    (o z : Int) : InMem locs size a n o z ↔
    ∃ rg, (rg, n, o) ∈ registerOffsets locs ∧ o ≤ z ∧ z < o + asI64 (size.getD 0) ∧ rg.contains a = true := by
  simp only [InMem, mem_registerOffsets, contains_iff]
  constructor
  · rintro ⟨r, p, s, h1, h2, h3, h4, h5, rfl, h6, h7⟩
    have := hs s rfl
    refine ⟨r, ⟨p, h1, h2, h3⟩, h6, ?_, h4, h5⟩
    simp only [Option.getD_some, asI64, if_pos this]; exact h7
  · rintro ⟨r, ⟨p, h1, h2, h3⟩, h6, h7, h4, h5⟩
    cases size with
    | none => simp [asI64] at h7; omega
    | some s =>
      have := hs s rfl
      simp only [Option.getD_some, asI64, if_pos this] at h7
      exact ⟨r, p, s, h1, h2, h3, h4, h5, rfl, h6, h7⟩

/-- **C69 (variables in memory).** "[register + offset] = variable" is printed exactly for the local
variables stored relative to the base register of a memory operand, whose bytes include the
operand's displacement. -/
theorem C69_mem_variable (e : Env) (ps : List Parameter) (vs : List LocalVariable) (i : Insn) (d : Detail) (r : Range)
    (l : List Annot) (h : annots e ps vs i d r = some l) (n : Nat) (o : Int) (v : LocalVariable)
    (hs : ∀ s, v.byteSize e.tsz = some s → s < 2 ^ 63) :
    .memVar n o v ∈ l ↔ v ∈ vs ∧ ∃ k x z a, d.ops[k]? = some (.mem x z) ∧ convertReg x = some n ∧ At i k a ∧
      InMem v.locations (v.byteSize e.tsz) a n o z := by
  rw [annots_kinds e ps vs i d r l h]
  constructor
  · rintro ⟨k, op, a, h1, h2, ⟨imm, -, -, -, hx⟩ | hx | ⟨m, hm, hx⟩ | hx⟩
    · rcases immAnnots_kind hx with ⟨f, e⟩ | ⟨f, e⟩ | ⟨f, e⟩ <;> cases e
    · obtain ⟨n', hr, ⟨p, _, _, e⟩ | ⟨v', hv, hi, e⟩⟩ := (mem_regAnnots ps vs a op _).1 hx <;> cases e
    · obtain ⟨reg, z, hr, ⟨p, _, _, _, _, _, _, _, e⟩ | ⟨v', hv, rg, o', h3, h4, h5, h6, e⟩⟩ := (memAnnots_not_reg e ps vs a op m hm _).1 hx
      · cases e
      · cases e
        obtain ⟨x, rfl, hx⟩ := (isRegOffset_iff op n z).1 hr
        exact ⟨hv, k, x, z, a, h1, hx, h2, (inMem_iff _ _ hs a n o z).2 ⟨rg, h3, h4, h5, h6⟩⟩
    · rcases ipNote_kind hx with ⟨_, _, e⟩ | ⟨_, _, e⟩ | ⟨_, _, e⟩ | ⟨_, _, _, e⟩ <;> cases e
  · rintro ⟨hv, k, x, z, a, h1, h2, h3, h4⟩
    obtain ⟨rg, a1, a2, a3, a4⟩ := (inMem_iff _ _ hs a n o z).1 h4
    obtain ⟨la, hla⟩ := opAnnots_some e ps vs i d r l h k _ a h1 h3
    rcases opAnnots_parts e ps vs i d r a _ la hla with ⟨imm, e1, -⟩ | ⟨m, q, -, hm, -, -⟩
    · cases e1
    · exact ⟨k, _, a, h1, h3, .inr (.inr (.inl ⟨m, hm, (memAnnots_not_reg e ps vs a _ m hm _).2
        ⟨n, z, (isRegOffset_iff _ n z).2 ⟨x, rfl, h2⟩, .inr ⟨v, hv, rg, o, a1, a2, a3, a4, rfl⟩⟩⟩))⟩

/-- **C69 (parameters in memory).** -/
theorem C69_mem_parameter (e : Env) (ps : List Parameter) (vs : List LocalVariable) (i : Insn) (d : Detail) (r : Range)
    (l : List Annot) (h : annots e ps vs i d r = some l) (n : Nat) (o : Int) (v : Parameter)
    (hs : ∀ s, v.byteSize e.tsz = some s → s < 2 ^ 63) :
    .memParam n o v ∈ l ↔ v ∈ ps ∧ ∃ k x z a, d.ops[k]? = some (.mem x z) ∧ convertReg x = some n ∧ At i k a ∧
      InMem v.locations (v.byteSize e.tsz) a n o z := by
  rw [annots_kinds e ps vs i d r l h]
  constructor
  · rintro ⟨k, op, a, h1, h2, ⟨imm, -, -, -, hx⟩ | hx | ⟨m, hm, hx⟩ | hx⟩
    · rcases immAnnots_kind hx with ⟨f, e⟩ | ⟨f, e⟩ | ⟨f, e⟩ <;> cases e
    · obtain ⟨n', hr, ⟨p, _, _, e⟩ | ⟨v', hv, hi, e⟩⟩ := (mem_regAnnots ps vs a op _).1 hx <;> cases e
    · obtain ⟨reg, z, hr, ⟨v', hv, rg, o', h3, h4, h5, h6, e⟩ | ⟨p, _, _, _, _, _, _, _, e⟩⟩ := (memAnnots_not_reg e ps vs a op m hm _).1 hx
      · cases e
        obtain ⟨x, rfl, hx⟩ := (isRegOffset_iff op n z).1 hr
        exact ⟨hv, k, x, z, a, h1, hx, h2, (inMem_iff _ _ hs a n o z).2 ⟨rg, h3, h4, h5, h6⟩⟩
      · cases e
    · rcases ipNote_kind hx with ⟨_, _, e⟩ | ⟨_, _, e⟩ | ⟨_, _, e⟩ | ⟨_, _, _, e⟩ <;> cases e
  · rintro ⟨hv, k, x, z, a, h1, h2, h3, h4⟩
    obtain ⟨rg, a1, a2, a3, a4⟩ := (inMem_iff _ _ hs a n o z).1 h4
    obtain ⟨la, hla⟩ := opAnnots_some e ps vs i d r l h k _ a h1 h3
    rcases opAnnots_parts e ps vs i d r a _ la hla with ⟨imm, e1, -⟩ | ⟨m, q, -, hm, -, -⟩
    · cases e1
    · exact ⟨k, _, a, h1, h3, .inr (.inr (.inl ⟨m, hm, (memAnnots_not_reg e ps vs a _ m hm _).2
        ⟨n, z, (isRegOffset_iff _ n z).2 ⟨x, rfl, h2⟩, .inl ⟨v, hv, rg, o, a1, a2, a3, a4, rfl⟩⟩⟩))⟩

/-- **C69 (immediate targets).** A non-zero immediate that is not a jump inside the function is
explained by the function at that address; failing that by the PLT symbol; failing that by the
relocation there. -/
theorem C69_imm (e : Env) (ps : List Parameter) (vs : List LocalVariable) (i : Insn) (d : Detail) (r : Range)
    (l : List Annot) (h : annots e ps vs i d r = some l) (imm : Nat) :
    (∀ f, .immFunction imm f ∈ l ↔ .imm imm ∈ d.ops ∧ imm ≠ 0 ∧
      ¬ (d.isJump = true ∧ r.lo ≤ imm ∧ imm < r.hi) ∧ e.fnAt imm = some f) ∧
    (∀ s, .immPlt imm s ∈ l ↔ .imm imm ∈ d.ops ∧ imm ≠ 0 ∧
      ¬ (d.isJump = true ∧ r.lo ≤ imm ∧ imm < r.hi) ∧ e.fnAt imm = none ∧ e.code.plt imm = some s) ∧
    (∀ s, .immReloc imm s ∈ l ↔ .imm imm ∈ d.ops ∧ imm ≠ 0 ∧
      ¬ (d.isJump = true ∧ r.lo ≤ imm ∧ imm < r.hi) ∧ e.fnAt imm = none ∧ e.code.plt imm = none ∧
      e.code.relocation imm = some s) := by
  have key : ∀ x, ((∃ f, x = .immFunction imm f) ∨ (∃ f, x = .immPlt imm f) ∨ (∃ f, x = .immReloc imm f)) →
      (x ∈ l ↔ .imm imm ∈ d.ops ∧ imm ≠ 0 ∧ ¬ (d.isJump = true ∧ r.lo ≤ imm ∧ imm < r.hi) ∧ x ∈ immAnnots e imm) := by
    intro x hx
    rw [annots_kinds e ps vs i d r l h]
    constructor
    · rintro ⟨k, op, a, h1, h2, ⟨imm', rfl, c1, c2, hm⟩ | hm | ⟨m, hm, hm'⟩ | hm⟩
      · have : imm' = imm := by
          rcases immAnnots_kind hm with ⟨f, rfl⟩ | ⟨f, rfl⟩ | ⟨f, rfl⟩ <;>
            rcases hx with ⟨f', e⟩ | ⟨f', e⟩ | ⟨f', e⟩ <;> cases e <;> rfl
        subst this
        rw [contains_iff] at c1
        exact ⟨List.mem_of_getElem? h1, c2, c1, hm⟩
      · obtain ⟨n', hr, ⟨v', hv, hi, rfl⟩ | ⟨p, _, _, rfl⟩⟩ := (mem_regAnnots ps vs a op _).1 hm <;>
          rcases hx with ⟨f', e⟩ | ⟨f', e⟩ | ⟨f', e⟩ <;> cases e
      · rcases memAnnots_kind hm hm' with ⟨r, o, p, rfl⟩ | ⟨r, o, p, rfl⟩ <;>
          rcases hx with ⟨f', e⟩ | ⟨f', e⟩ | ⟨f', e⟩ <;> cases e
      · rcases ipNote_kind hm with ⟨_, _, rfl⟩ | ⟨_, _, rfl⟩ | ⟨_, _, rfl⟩ | ⟨_, _, _, rfl⟩ <;>
          rcases hx with ⟨f', e⟩ | ⟨f', e⟩ | ⟨f', e⟩ <;> cases e
    · rintro ⟨h1, h2, h3, h4⟩
      obtain ⟨k, hk⟩ := List.mem_iff_getElem?.1 h1
      exact ⟨k, _, _, hk, rfl, .inl ⟨imm, rfl, by rw [contains_iff]; exact h3, h2, h4⟩⟩
  refine ⟨fun f => ?_, fun s => ?_, fun s => ?_⟩
  · rw [key _ (.inl ⟨f, rfl⟩), immAnnots_mem]
    constructor
    · rintro ⟨a, b, c, ⟨f', h, e⟩ | ⟨h, s, h', e⟩ | ⟨h, h', s, h'', e⟩⟩ <;> cases e
      exact ⟨a, b, c, h⟩
    · rintro ⟨a, b, c, h⟩; exact ⟨a, b, c, .inl ⟨f, h, rfl⟩⟩
  · rw [key _ (.inr (.inl ⟨s, rfl⟩)), immAnnots_mem]
    constructor
    · rintro ⟨a, b, c, ⟨f', h, e⟩ | ⟨h, s, h', e⟩ | ⟨h, h', s, h'', e⟩⟩ <;> cases e
      exact ⟨a, b, c, h, h'⟩
    · rintro ⟨a, b, c, h, h'⟩; exact ⟨a, b, c, .inr (.inl ⟨h, s, h', rfl⟩)⟩
  · rw [key _ (.inr (.inr ⟨s, rfl⟩)), immAnnots_mem]
    constructor
    · rintro ⟨a, b, c, ⟨f', h, e⟩ | ⟨h, s, h', e⟩ | ⟨h, h', s, h'', e⟩⟩ <;> cases e
      exact ⟨a, b, c, h, h', h''⟩
    · rintro ⟨a, b, c, h, h', h''⟩; exact ⟨a, b, c, .inr (.inr ⟨h, h', s, h'', rfl⟩)⟩

/-- The address an operand reaches relative to the next instruction. -/
def IpTarget (i : Insn) (op : Op) (o : Int) (a n : Nat) : Prop :=
  (op = .mem .rip o ∧ n = 8 ∨ op = .mem .eip o ∧ n = 4) ∧
  (a : Int) = ((i.address + i.bytes.length : Nat) + o) % 2 ^ 64

theorem ipTarget_iff (i : Insn) (hi : i.address + i.bytes.length < 2 ^ 64) (op : Op) (o : Int) (a n : Nat) :
    isIpOffset i op = some (some (o, a, n)) ↔ IpTarget i op o a n := by
  constructor
  · intro h
    obtain ⟨b, rfl, ⟨rfl, rfl⟩ | ⟨rfl, rfl⟩, ha⟩ := ip_spec i op o a n h
    · exact ⟨.inl ⟨rfl, rfl⟩, ha⟩
    · exact ⟨.inr ⟨rfl, rfl⟩, ha⟩
  · rintro ⟨h, ha⟩
    have hw : wrapAdd (i.address + i.bytes.length) o = a := by unfold wrapAdd; omega
    rcases h with ⟨rfl, rfl⟩ | ⟨rfl, rfl⟩ <;> simp only [isIpOffset, ipSize, if_pos hi, hw]

/-- **C69 (instruction-pointer relative operands).** Such an operand is explained by the function at
its address; failing that by the variable there; failing that by the relocation there; failing that
by the pointer stored there (and the function it points to). -/
theorem C69_ip (e : Env) (ps : List Parameter) (vs : List LocalVariable) (i : Insn) (d : Detail) (r : Range)
    (l : List Annot) (h : annots e ps vs i d r = some l) (o : Int) :
    (∀ f, .ipFunction o f ∈ l ↔ ∃ op ∈ d.ops, ∃ a n, IpTarget i op o a n ∧ e.fnAt a = some f) ∧
    (∀ v, .ipVariable o v ∈ l ↔ ∃ op ∈ d.ops, ∃ a n, IpTarget i op o a n ∧ e.fnAt a = none ∧ e.varAt a = some v) ∧
    (∀ s, .ipReloc o s ∈ l ↔ ∃ op ∈ d.ops, ∃ a n, IpTarget i op o a n ∧ e.fnAt a = none ∧ e.varAt a = none ∧
      e.code.relocation a = some s) ∧
    (∀ v f, .ipValue o v f ∈ l ↔ ∃ op ∈ d.ops, ∃ a n, IpTarget i op o a n ∧ e.fnAt a = none ∧ e.varAt a = none ∧
      e.code.relocation a = none ∧ readMem e.code.regions a n = some (some v) ∧ f = e.fnAt v) := by
  have hadd : ∀ op ∈ d.ops, i.address + i.bytes.length < 2 ^ 64 := by
    intro op ho
    unfold annots at h
    split at h
    · rename_i hh; rw [hh] at ho; cases ho
    · split at h
      · assumption
      · cases h
  have key : ∀ x, (∃ o v f, x = .ipFunction o f ∨ x = .ipVariable o f ∨ (∃ s, x = .ipReloc o s) ∨ ∃ g, x = .ipValue o v g) →
      (x ∈ l ↔ ∃ op ∈ d.ops, IpNote e i op x) := by
    intro x hx
    rw [annots_kinds e ps vs i d r l h]
    constructor
    · rintro ⟨k, op, a, h1, h2, ⟨imm', rfl, c1, c2, hm⟩ | hm | ⟨m, hm, hm'⟩ | hm⟩
      · rcases immAnnots_kind hm with ⟨f, rfl⟩ | ⟨f, rfl⟩ | ⟨f, rfl⟩ <;>
          obtain ⟨_, _, _, e | e | ⟨_, e⟩ | ⟨_, e⟩⟩ := hx <;> cases e
      · obtain ⟨n', hr, ⟨v', hv, hi, rfl⟩ | ⟨p, _, _, rfl⟩⟩ := (mem_regAnnots ps vs a op _).1 hm <;>
          obtain ⟨_, _, _, e | e | ⟨_, e⟩ | ⟨_, e⟩⟩ := hx <;> cases e
      · rcases memAnnots_kind hm hm' with ⟨r, o, p, rfl⟩ | ⟨r, o, p, rfl⟩ <;>
          obtain ⟨_, _, _, e | e | ⟨_, e⟩ | ⟨_, e⟩⟩ := hx <;> cases e
      · exact ⟨op, List.mem_of_getElem? h1, hm⟩
    · rintro ⟨op, ho, hm⟩
      obtain ⟨k, hk⟩ := List.mem_iff_getElem?.1 ho
      exact ⟨k, op, _, hk, rfl, .inr (.inr (.inr hm))⟩
  refine ⟨fun f => ?_, fun v => ?_, fun s => ?_, fun v f => ?_⟩
  · rw [key _ ⟨o, 0, f, .inl rfl⟩]
    constructor
    · rintro ⟨op, ho, o', a, n, hi, ⟨f', h1, e⟩ | ⟨_, v, _, e⟩ | ⟨_, _, s, _, e⟩ | ⟨_, _, _, v, _, e⟩⟩ <;> cases e
      exact ⟨op, ho, a, n, (ipTarget_iff i (hadd op ho) op _ a n).1 hi, h1⟩
    · rintro ⟨op, ho, a, n, hi, h1⟩
      exact ⟨op, ho, o, a, n, (ipTarget_iff i (hadd op ho) op _ a n).2 hi, .inl ⟨f, h1, rfl⟩⟩
  · rw [key _ ⟨o, 0, v, .inr (.inl rfl)⟩]
    constructor
    · rintro ⟨op, ho, o', a, n, hi, ⟨f', h1, e⟩ | ⟨h1, v, h2, e⟩ | ⟨_, _, s, _, e⟩ | ⟨_, _, _, v, _, e⟩⟩ <;> cases e
      exact ⟨op, ho, a, n, (ipTarget_iff i (hadd op ho) op _ a n).1 hi, h1, h2⟩
    · rintro ⟨op, ho, a, n, hi, h1, h2⟩
      exact ⟨op, ho, o, a, n, (ipTarget_iff i (hadd op ho) op _ a n).2 hi, .inr (.inl ⟨h1, v, h2, rfl⟩)⟩
  · rw [key _ ⟨o, 0, .nil, .inr (.inr (.inl ⟨s, rfl⟩))⟩]
    constructor
    · rintro ⟨op, ho, o', a, n, hi, ⟨f', h1, e⟩ | ⟨_, v, _, e⟩ | ⟨h1, h2, s, h3, e⟩ | ⟨_, _, _, v, _, e⟩⟩ <;> cases e
      exact ⟨op, ho, a, n, (ipTarget_iff i (hadd op ho) op _ a n).1 hi, h1, h2, h3⟩
    · rintro ⟨op, ho, a, n, hi, h1, h2, h3⟩
      exact ⟨op, ho, o, a, n, (ipTarget_iff i (hadd op ho) op _ a n).2 hi, .inr (.inr (.inl ⟨h1, h2, s, h3, rfl⟩))⟩
  · rw [key _ ⟨o, v, .nil, .inr (.inr (.inr ⟨f, rfl⟩))⟩]
    constructor
    · rintro ⟨op, ho, o', a, n, hi, ⟨f', h1, e⟩ | ⟨_, v, _, e⟩ | ⟨h1, h2, s, h3, e⟩ | ⟨h1, h2, h3, v, h4, e⟩⟩ <;> cases e
      exact ⟨op, ho, a, n, (ipTarget_iff i (hadd op ho) op _ a n).1 hi, h1, h2, h3, h4, rfl⟩
    · rintro ⟨op, ho, a, n, hi, h1, h2, h3, h4, rfl⟩
      exact ⟨op, ho, o, a, n, (ipTarget_iff i (hadd op ho) op _ a n).2 hi, .inr (.inr (.inr ⟨h1, h2, h3, v, h4, rfl⟩))⟩

/-- Pieces joined by ", ". -/
def joinComma : List Str → Str
  | [] => []
  | [p] => p
  | p :: ps => p ++ Str.ofString ", " ++ joinComma ps

theorem splitComma_ne (s : Str) : splitComma s ≠ [] := by
  fun_induction splitComma s <;> simp_all

theorem joinComma_cons (p : Str) (ps : List Str) (h : ps ≠ []) :
    joinComma (p :: ps) = p ++ Str.ofString ", " ++ joinComma ps := by
  cases ps with
  | nil => exact absurd rfl h
  | cons q qs => rfl

/-- Splitting the operands and joining them again gives back
the text of the disassembler. -/
theorem joinComma_split (s : Str) : joinComma (splitComma s) = s := by
  fun_induction splitComma s with
  | case1 => rfl
  | case2 s ih =>
    rw [joinComma_cons _ _ (splitComma_ne s), ih]
    have : Str.ofString ", " = [44, 32] := by decide +kernel
    rw [this]; rfl
  | case3 c s h hs => exact absurd hs (splitComma_ne s)
  | case4 c s h p ps hs ih =>
    rw [hs] at ih
    cases ps with
    | nil => simp only [joinComma] at ih ⊢; rw [ih]
    | cons q qs =>
      rw [joinComma_cons _ _ (by simp)] at ih ⊢
      rw [← ih]; simp

theorem operandsRest_eq (d : Detail) (r : Range) (ts : List Str) (ops : List Op) (out : List Str)
    (hl : out.length = ts.length) (ho : ∀ (k : Nat) (t : Str), ts[k]? = some t → out[k]? = some (operandText d r t ops[k]?)) (hne : ts ≠ []) :
    operandsRest d r ts ops = Str.ofString ", " ++ joinComma out := by
  induction ts generalizing ops out with
  | nil => exact absurd rfl hne
  | cons t ts ih =>
    cases out with
    | nil => simp at hl
    | cons o out =>
      have h0 := ho 0 t rfl
      simp at h0
      simp only [operandsRest]
      rw [List.head?_eq_getElem?, ← h0]
      by_cases hts : ts = []
      · subst hts
        have : out = [] := by simpa using hl
        subst this
        simp [operandsRest, joinComma]
      · have hout : out ≠ [] := by
          intro e; subst e; simp at hl; exact hts hl
        rw [joinComma_cons _ _ hout, ih (ops.drop 1) out (by simpa using hl) (fun k t hk => by
          have := ho (k + 1) t (by simpa using hk)
          rw [List.getElem?_drop, Nat.add_comm 1 k]
          simpa using this) hts]
        simp [List.append_assoc]

/-- **C69 (operand text).** The operands are written after one space, separated as the disassembler
separates them (`pieces`, which joined give its text back). A piece is replaced by "+offset" exactly
if the corresponding operand is an immediate inside the function and the instruction is a jump;
otherwise it is written unchanged. -/
theorem C69_operands (d : Detail) (r : Range) (s : Str) (hs : s ≠ []) :
    ∃ pieces out : List Str, joinComma pieces = s ∧ operandsText d r (some s) = [32] ++ joinComma out ∧
      out.length = pieces.length ∧ ∀ (k : Nat) (t : Str), pieces[k]? = some t →
        (∀ v, d.ops[k]? = some (.imm v) → d.isJump = true → r.lo ≤ v → v < r.hi → out[k]? = some ([43] ++ hex (v - r.lo))) ∧
        ((∀ v, d.ops[k]? = some (.imm v) → d.isJump = true → r.lo ≤ v → ¬ v < r.hi) → out[k]? = some t) := by
  refine ⟨splitComma s, (splitComma s).mapIdx fun k t => operandText d r t d.ops[k]?, joinComma_split s, ?_, by simp, ?_⟩
  · simp only [operandsText, if_neg hs]
    cases hsp : splitComma s with
    | nil => exact absurd hsp (splitComma_ne s)
    | cons t ts =>
      simp only
      by_cases hts : ts = []
      · subst hts
        simp [operandsRest, joinComma, List.head?_eq_getElem?]
      · rw [operandsRest_eq d r ts (d.ops.drop 1) (ts.mapIdx fun k t => operandText d r t d.ops[k + 1]?) (by simp)
          (fun k t hk => by rw [List.getElem?_mapIdx, hk, List.getElem?_drop, Nat.add_comm 1 k]; rfl) hts]
        rw [List.mapIdx_cons, joinComma_cons _ _ (by simpa using hts)]
        simp [List.head?_eq_getElem?, List.append_assoc]
  · intro k t hk
    rw [List.getElem?_mapIdx, hk]
    refine ⟨fun v hv hj h1 h2 => ?_, fun hn => ?_⟩
    · simp [hv, operandText, isImm, hj, contains_iff, h1, h2]
    · simp only [Option.map_some, Option.some.injEq]
      unfold operandText
      split
      · rename_i op hop
        split
        · rename_i imm hi
          have : op = .imm imm := by unfold isImm at hi; split at hi <;> cases hi; rfl
          subst this
          rw [if_neg]
          rintro ⟨hj, hc⟩
          rw [contains_iff] at hc
          exact hn imm hop hj hc.1 hc.2
        · rfl
      · rfl

/-- Non-vacuity of C69: `mov rax, [rbp - 8]` below which the variables in `rax` (after the
instruction) and at `rbp - 8` are named; a jump inside the function. -/
example :
    let v1 : LocalVariable := { name := some [97], locations := [(⟨4, 20⟩, ⟨0, none, .register 0, 0, false⟩)] }
    let v2 : LocalVariable := { name := some [98], size := some 4, locations := [(⟨0, 20⟩, ⟨0, none, .registerOffset 6 (-8), 0, false⟩)] }
    let i : Insn := ⟨0, [0, 0, 0, 0], some [109], some [97], some { ops := [.reg .eax, .mem .rbp (-6)] }⟩
    (annots { code := { regions := [] } } [] [v1, v2] i { ops := [.reg .eax, .mem .rbp (-6)] } ⟨0, 20⟩).map
      (fun l => l.map fun a => match a with | .regVar n v => (n, (0 : Int), v.name) | .memVar n o v => (n, o, v.name) | _ => (0, 0, none)) =
      some [(0, 0, some [97]), (6, -8, some [98])] ∧
    operandsText { ops := [.imm 26], isJump := true } ⟨16, 40⟩ (some [48, 120, 49, 97]) = [32, 43, 97] := by decide +kernel

theorem hex_byte : ∀ b < 256, (if b < 16 then [48] else []) ++ hex b ++ [32] = [nibble (b / 16), nibble (b % 16), 32] := by
  decide +kernel

/-- **C69 (undecoded bytes).** Bytes that the disassembler could not decode are listed as `.byte`
with two hexadecimal digits each; decoded instructions are listed under their mnemonic. -/
theorem C69_bytes (i : Insn) (d : Detail) (r : Range) (rel : Nat) :
    (i.mnemonic = none → (∀ b ∈ i.bytes, b < 256) →
      headLine i d r rel = .instruction (some rel) (Str.ofString ".byte") (.text (hexBytes i.bytes))) ∧
    ∀ m, i.mnemonic = some m →
      headLine i d r rel = .instruction (some rel) m (.text (operandsText d r i.opStr)) := by
  unfold headLine
  constructor
  · intro h hb
    rw [h]
    have : ∀ bs : List Nat, (∀ b ∈ bs, b < 256) → bytesText bs = hexBytes bs := by
      intro bs hb
      induction bs with
      | nil => rfl
      | cons b t ih =>
        have h1 := hex_byte b (hb b (by simp))
        have h2 := ih fun b h => hb b (by simp [h])
        unfold bytesText hexBytes at h2 ⊢
        rw [List.flatMap_cons, List.flatMap_cons, h1, h2]
    simp only [this _ hb]
  · intro m h
    rw [h]

/-- Non-vacuity: a byte below 16 keeps its leading zero. -/
example : hexBytes [15, 200] = Str.ofString "0f c8 " := by decide +kernel

end Verif.Code
