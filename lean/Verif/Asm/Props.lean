import Verif.Asm.Spec
import Verif.Whole.Reads
import Verif.Whole.Props
/-!
# C96: the listing of the instructions of a function
-/
namespace Verif.Asm
open Verif.Item Verif.Types Verif.Range Verif.File Verif.Show Verif.Code Verif.Print
open Verif.Cfi (Cfi Row insnsOf cfisOf Due Ordered cfiLine orgText orgLine interleave)

/-- The code found in the regions are the bytes of the segments. -/
theorem loaded {c : Code} {f : File} (hc : c.regions.map (fun g => (g.address, g.code)) = f.segments.map (fun s => (s.address, s.bytes)))
    {r : Range} {b : List Nat} (h : codeRange c.regions r = some (some b)) : LoadedBytes f.segments r b := by
  obtain ⟨pre, g, post, e, h1, h2, h3, h4, h5⟩ := C51_range_bytes _ r b h
  rw [e, List.map_append, List.map_cons] at hc
  obtain ⟨pre', rest, e1, e2, e3⟩ := List.append_eq_map_iff.1 hc
  obtain ⟨g', post', e4, e5, e6⟩ := List.map_eq_cons_iff.1 e3
  subst e4
  have ea : g'.address = g.address := (congrArg Prod.fst e5)
  have eb : g'.bytes = g.code := (congrArg Prod.snd e5)
  refine ⟨pre', g', post', e1, fun x hx hh => ?_, ⟨by rw [ea]; exact h1.1, by rw [ea, eb]; exact h1.2⟩, h4, fun j y => ?_⟩
  · have : (x.address, x.bytes) ∈ pre.map fun g => (g.address, g.code) := by rw [← e2]; exact List.mem_map.2 ⟨x, hx, rfl⟩
    obtain ⟨g0, hg0, e0⟩ := List.mem_map.1 this
    refine h2 g0 hg0 ⟨?_, ?_⟩
    · have := congrArg Prod.fst e0; simp only at this; rw [this]; exact hh.1
    · have k1 := congrArg Prod.fst e0
      have k2 := congrArg Prod.snd e0
      simp only at k1 k2
      rw [k1, k2]; exact hh.2
  · unfold ByteAt
    rw [ea, eb]
    constructor
    · intro hj
      have hl : j < b.length := (List.getElem?_eq_some_iff.1 hj).1
      have := h5 j hl
      rw [hj] at this
      unfold Region.byteAt at this
      split at this
      · exact ⟨by omega, by assumption, this.symm⟩
      · cases this
    · rintro ⟨hj, k1, k2⟩
      rw [h5 j (by omega), Region.byteAt, if_pos k1, k2]

theorem holds_of_loaded {f : File} {r : Range} {b : List Nat} (h : LoadedBytes f.segments r b) : ∃ g ∈ f.segments, Holds g r := by
  obtain ⟨pre, g, post, e, -, h, -⟩ := h
  exact ⟨g, by simp [e], h⟩

/-- Two lists of bytes loaded for the same range are the same. -/
theorem loaded_unique {segs : List Segment} {r : Range} {b b' : List Nat} (h : LoadedBytes segs r b) (h' : LoadedBytes segs r b') :
    b = b' := by
  obtain ⟨pre, g, post, e, h1, h2, h3, h4⟩ := h
  obtain ⟨pre', g', post', e', h1', h2', h3', h4'⟩ := h'
  have hg : g = g' := by
    rw [e] at e'
    rcases List.append_eq_append_iff.1 e' with ⟨w, hw1, hw2⟩ | ⟨w, hw1, hw2⟩
    · cases w with
      | nil => exact (by simpa using hw2 : g = g' ∧ _).1
      | cons y w =>
        have : g = y := by simpa using (List.cons.inj hw2).1
        subst this
        exact absurd h2 (h1' g (by simp [hw1]))
    · cases w with
      | nil => exact (by simpa using hw2.symm : g = g' ∧ _).1
      | cons y w =>
        have : g' = y := by simpa using (List.cons.inj hw2).1
        subst this
        exact absurd h2' (h1 g' (by simp [hw1]))
  subst hg
  refine List.ext_getElem? fun j => ?_
  cases hj : b[j]? with
  | some y => exact ((h4' j y).2 ((h4 j y).1 hj)).symm
  | none =>
    cases hj' : b'[j]? with
    | none => rfl
    | some y => rw [(h4 j y).2 ((h4' j y).1 hj')] at hj; cases hj

theorem operands_shown (d : Detail) (r : Range) (opStr : Option Str) : OperandsShown d r opStr (operandsText d r opStr) := by
  refine ⟨fun h => ?_, fun s hs hne => ?_⟩
  · cases opStr with
    | none => rfl
    | some s => simp only [Option.getD_some] at h; subst h; rfl
  · subst hs; exact C69_operands d r s hne

theorem memVar_iff (e : Env) (ps : List Parameter) (vs : List LocalVariable) (i : Insn) (d : Detail) (r : Range)
    (l : List Annot) (h : annots e ps vs i d r = some l) (n : Nat) (o : Int) (v : LocalVariable)
    (hs : v ∈ vs → ∀ s, v.byteSize e.tsz = some s → s < 2 ^ 63) :
    .memVar n o v ∈ l ↔ v ∈ vs ∧ ∃ k x z a, d.ops[k]? = some (.mem x z) ∧ convertReg x = some n ∧ At i k a ∧
      InMem v.locations (v.byteSize e.tsz) a n o z := by
  by_cases hv : v ∈ vs
  · exact C69_mem_variable e ps vs i d r l h n o v (hs hv)
  · refine ⟨fun hm => absurd ?_ hv, fun hm => absurd hm.1 hv⟩
    rw [annots_kinds e ps vs i d r l h] at hm
    obtain ⟨k, op, a, h1, h2, ⟨imm, -, -, -, hx⟩ | hx | ⟨m, hm, hx⟩ | hx⟩ := hm
    · rcases immAnnots_kind hx with ⟨f, e⟩ | ⟨f, e⟩ | ⟨f, e⟩ <;> cases e
    · obtain ⟨n', hr, ⟨p, _, _, e⟩ | ⟨v', hv, hi, e⟩⟩ := (mem_regAnnots ps vs a op _).1 hx <;> cases e
    · obtain ⟨reg, z, hr, ⟨p, _, _, _, _, _, _, _, e⟩ | ⟨v', hv, rg, o', h3, h4, h5, h6, e⟩⟩ := (memAnnots_not_reg e ps vs a op m hm _).1 hx
      · cases e
      · cases e; exact hv
    · rcases ipNote_kind hx with ⟨_, _, e⟩ | ⟨_, _, e⟩ | ⟨_, _, e⟩ | ⟨_, _, _, e⟩ <;> cases e

theorem memParam_iff (e : Env) (ps : List Parameter) (vs : List LocalVariable) (i : Insn) (d : Detail) (r : Range)
    (l : List Annot) (h : annots e ps vs i d r = some l) (n : Nat) (o : Int) (v : Parameter)
    (hs : v ∈ ps → ∀ s, v.byteSize e.tsz = some s → s < 2 ^ 63) :
    .memParam n o v ∈ l ↔ v ∈ ps ∧ ∃ k x z a, d.ops[k]? = some (.mem x z) ∧ convertReg x = some n ∧ At i k a ∧
      InMem v.locations (v.byteSize e.tsz) a n o z := by
  by_cases hv : v ∈ ps
  · exact C69_mem_parameter e ps vs i d r l h n o v (hs hv)
  · refine ⟨fun hm => absurd ?_ hv, fun hm => absurd hm.1 hv⟩
    rw [annots_kinds e ps vs i d r l h] at hm
    obtain ⟨k, op, a, h1, h2, ⟨imm, -, -, -, hx⟩ | hx | ⟨m, hm, hx⟩ | hx⟩ := hm
    · rcases immAnnots_kind hx with ⟨f, e⟩ | ⟨f, e⟩ | ⟨f, e⟩ <;> cases e
    · obtain ⟨n', hr, ⟨p, _, _, e⟩ | ⟨v', hv, hi, e⟩⟩ := (mem_regAnnots ps vs a op _).1 hx <;> cases e
    · obtain ⟨reg, z, hr, ⟨v', hv, rg, o', h3, h4, h5, h6, e⟩ | ⟨p, _, _, _, _, _, _, _, e⟩⟩ := (memAnnots_not_reg e ps vs a op m hm _).1 hx
      · cases e; exact hv
      · cases e
    · rcases ipNote_kind hx with ⟨_, _, e⟩ | ⟨_, _, e⟩ | ⟨_, _, e⟩ | ⟨_, _, _, e⟩ <;> cases e

section
variable {s : FileSide} {c : Code} (hf : s.fnByAddress = functionsByAddress s.file.units)
  (hr : ∀ a name, c.relocation a = some name ↔ Slot s.file a name)
include hf

theorem fnAt_some (a : Nat) (v : Val) : (envOf s c).fnAt a = some v ↔
    ∃ f, LastSuch (fun f : Function => f.address = some a) (allFunctions s.file.units) f ∧ v = fnRef (s.fnId f) f := by
  simp only [envOf, hf, Option.map_eq_some_iff]
  constructor
  · rintro ⟨f, h, rfl⟩; exact ⟨f, ((C35_by_address s.file.units a).1 f).1 h, rfl⟩
  · rintro ⟨f, h, rfl⟩; exact ⟨f, ((C35_by_address s.file.units a).1 f).2 h, rfl⟩

theorem fnAt_none (a : Nat) : (envOf s c).fnAt a = none ↔ ∀ f ∈ allFunctions s.file.units, f.address ≠ some a := by
  simp only [envOf, hf, Option.map_eq_none_iff]
  exact (C35_by_address s.file.units a).2.1

omit hf in
theorem varAt_some (a : Nat) (v : Val) : (envOf s c).varAt a = some v ↔
    ∃ x, LastSuch (fun x : Variable => x.address = some a) (allVariables s.file.units) x ∧ v = varRef (s.varId x) x := by
  simp only [envOf, Option.map_eq_some_iff]
  constructor
  · rintro ⟨f, h, rfl⟩; exact ⟨f, ((C35_by_address s.file.units a).2.2.1 f).1 h, rfl⟩
  · rintro ⟨f, h, rfl⟩; exact ⟨f, ((C35_by_address s.file.units a).2.2.1 f).2 h, rfl⟩

omit hf in
theorem varAt_none (a : Nat) : (envOf s c).varAt a = none ↔ ∀ x ∈ allVariables s.file.units, x.address ≠ some a := by
  simp only [envOf, Option.map_eq_none_iff]
  exact (C35_by_address s.file.units a).2.2.2

include hr

omit hf in
theorem reloc_none (a : Nat) : c.relocation a = none ↔ ∀ name, ¬ Slot s.file a name := by
  constructor
  · intro h name hn; rw [(hr a name).2 hn] at h; cases h
  · intro h
    cases e : c.relocation a with
    | none => rfl
    | some name => exact absurd ((hr a name).1 e) (h name)

/-- The notes of an instruction are those it should have. -/
theorem notes_iff {ps : List Parameter} {vs : List LocalVariable} (hz : SmallSizes s ps vs) (i : Insn) (d : Detail) (r : Range)
    {l : List Annot} (h : annots (envOf s c) ps vs i d r = some l) (a : Annot) : a ∈ l ↔ NoteOf s c ps vs r i d a := by
  have hm : ∀ v, v ∈ vs → ∀ z, v.byteSize (envOf s c).tsz = some z → z < 2 ^ 63 := hz.2
  have hp : ∀ v, v ∈ ps → ∀ z, v.byteSize (envOf s c).tsz = some z → z < 2 ^ 63 := hz.1
  cases a with
  | regParam n p => exact C69_reg_parameter _ ps vs i d r l h n p
  | regVar n v => exact C69_reg_variable _ ps vs i d r l h n v
  | memParam n o p => exact memParam_iff _ ps vs i d r l h n o p (hp p)
  | memVar n o v => exact memVar_iff _ ps vs i d r l h n o v (hm v)
  | immFunction imm v => rw [(C69_imm _ ps vs i d r l h imm).1 v, fnAt_some hf]; rfl
  | immPlt imm v => rw [(C69_imm _ ps vs i d r l h imm).2.1 v, fnAt_none hf]; rfl
  | immReloc imm v =>
    rw [(C69_imm _ ps vs i d r l h imm).2.2 v, fnAt_none hf]
    show _ ∧ _ ∧ _ ∧ _ ∧ _ ∧ c.relocation imm = some v ↔ _
    rw [hr]; rfl
  | ipFunction o v => simp only [(C69_ip _ ps vs i d r l h o).1 v, fnAt_some hf]; rfl
  | ipVariable o v => simp only [(C69_ip _ ps vs i d r l h o).2.1 v, fnAt_none hf, varAt_some]; rfl
  | ipReloc o v =>
    simp only [(C69_ip _ ps vs i d r l h o).2.2.1 v, fnAt_none hf, varAt_none]
    simp only [envOf, hr, NoteOf]
  | ipValue o v g =>
    rw [(C69_ip _ ps vs i d r l h o).2.2.2 v g]
    simp only [fnAt_none hf, varAt_none]
    have hg : g = (envOf s c).fnAt v ↔ ((∃ f, LastSuch (fun f : Function => f.address = some v) (allFunctions s.file.units) f ∧
        g = some (fnRef (s.fnId f) f)) ∨ ((∀ f ∈ allFunctions s.file.units, f.address ≠ some v) ∧ g = none)) := by
      constructor
      · rintro rfl
        cases e : (envOf s c).fnAt v with
        | none => exact .inr ⟨(fnAt_none hf v).1 e, rfl⟩
        | some w =>
          obtain ⟨f, h1, h2⟩ := (fnAt_some hf v w).1 e
          exact .inl ⟨f, h1, by rw [h2]⟩
      · rintro (⟨f, h1, rfl⟩ | ⟨h1, rfl⟩)
        · exact ((fnAt_some hf v _).2 ⟨f, h1, rfl⟩).symm
        · exact ((fnAt_none hf v).2 h1).symm
    simp only [hg, NoteOf]
    have he : (envOf s c).code = c := rfl
    simp only [he, reloc_none hr]

end

/-! ### The lines -/

/-- If no code is found for a range, no segment holds it. -/
theorem not_held {gs : List Region} {r : Range} (h : codeRange gs r = some none) : ∀ g ∈ gs, ¬ g.Holds r := by
  induction gs with
  | nil => simp
  | cons g gs ih =>
    have rest : codeRange gs r = some none → ¬ g.Holds r → ∀ x ∈ g :: gs, ¬ x.Holds r := fun h hn x hx => by
      rcases List.mem_cons.1 hx with rfl | hx
      · exact hn
      · exact ih h x hx
    simp only [codeRange] at h
    split at h
    · split at h
      · split at h
        · split at h <;> cases h
        · rename_i hn; exact rest h fun hh => hn hh.2
      · cases h
    · rename_i hn; exact rest h fun hh => hn hh.1

theorem not_loaded {c : Code} {f : File} (hc : c.regions.map (fun g => (g.address, g.code)) = f.segments.map (fun s => (s.address, s.bytes)))
    {r : Range} {decode : Decode} (h : instructions c.regions decode r = some none) (b : List Nat) (hb : LoadedBytes f.segments r b) :
    decode b r.lo = none := by
  obtain ⟨x, hx, hd⟩ := Option.map_eq_some_iff.1 h
  cases x with
  | none =>
    obtain ⟨g, hg, h1, h2⟩ := holds_of_loaded hb
    have : (g.address, g.bytes) ∈ c.regions.map fun g => (g.address, g.code) := by rw [hc]; exact List.mem_map.2 ⟨g, hg, rfl⟩
    obtain ⟨g0, hg0, e0⟩ := List.mem_map.1 this
    have k1 := congrArg Prod.fst e0
    have k2 := congrArg Prod.snd e0
    simp only at k1 k2
    exact absurd ⟨by rw [k1]; exact h1, by rw [k1, k2]; exact h2⟩ (not_held hx g0 hg0)
  | some b' => rw [loaded_unique hb (loaded hc hx)]; exact hd

theorem seqs_ls (http : Bool) (x : DiffPrefix) (dp ind : Nat) (l : List P) :
    (P.seqs l).ls http ind x dp = (l.map fun p => p.ls http ind x dp).flatten := by
  induction l with
  | nil => rfl
  | cons p l ih => rw [P.seqs, P.ls, ih]; rfl

theorem val_text {s : FileSide} {a : Annot} {v : Val} (h : a.val s.regName s.tref = some v) : v.text' = noteText s a := by
  have hreg : ∀ n, regVal s.regName n = registerNote s n := by
    intro n
    unfold regVal registerNote
    cases s.regName n <;> rfl
  have hp : ∀ p, (paramDecl s.tref p).text' = parameterNote s p := by
    intro p
    unfold paramDecl parameterNote
    cases p.name <;> rfl
  have hv : ∀ v, (varDecl s.tref v).text' = variableNote s v := by
    intro v
    simp [varDecl, variableNote, Val.text', Show.anon]
  have hm : ∀ n o t, memText s.regName n o = some t →
      t = Str.ofString "[" ++ registerNote s n ++ offsetNote o ++ Str.ofString "] = " := by
    intro n o t ht
    obtain ⟨w, hw, rfl⟩ := Option.map_eq_some_iff.1 ht
    rw [hreg]
    suffices w = offsetNote o by rw [this]; rfl
    unfold offsetNote
    split at hw
    · rename_i ho
      split at hw
      · cases hw
        rw [if_neg (by omega), if_neg (by omega)]
        congr 2; omega
      · cases hw
    · split at hw
      · rename_i ho
        cases hw
        rw [if_neg (by omega), if_pos ho]
        congr 2; omega
      · cases hw
        rw [if_pos (by omega)]
  have hip : ∀ o, ipNote o = Str.ofString "ip + 0x" ++ Cfi.hexI64 o := by
    intro o
    unfold ipNote Cfi.hexI64
    congr 2
    split <;> split <;> omega
  cases a <;> simp only [Annot.val, Option.some.injEq, Option.map_eq_some_iff] at h
  case memParam n o p => obtain ⟨t, ht, rfl⟩ := h; simp only [Val.text', hp, hm _ _ _ ht, noteText]
  case memVar n o p => obtain ⟨t, ht, rfl⟩ := h; simp only [Val.text', hv, hm _ _ _ ht, noteText]
  case ipValue o v f =>
    subst h
    cases f <;> simp [Val.text', noteText, hip, Str.ofString]
  all_goals subst h; simp [Val.text', noteText, hreg, hp, hv, hip, Str.ofString]

theorem vals_text {s : FileSide} {as : List Annot} {vals : List Val} (h : as.mapM (Annot.val s.regName s.tref) = some vals) :
    as.map (noteText s) = vals.map Val.text' := by
  induction as generalizing vals with
  | nil => simp at h; subst h; rfl
  | cons a l ih =>
    rw [List.mapM_cons] at h
    cases hr : a.val s.regName s.tref with
    | none => rw [hr] at h; cases h
    | some y =>
      cases hm : l.mapM (Annot.val s.regName s.tref) with
      | none => rw [hr, hm] at h; cases h
      | some ys =>
        rw [hr, hm] at h; cases h
        rw [List.map_cons, List.map_cons, ih hm, val_text hr]

/-- The lines of an instruction are those it should have. -/
theorem insn_lines {s : FileSide} {c : Code} (hf : s.fnByAddress = functionsByAddress s.file.units)
    (hr : ∀ a name, c.relocation a = some name ↔ Slot s.file a name) {ps : List Parameter} {vs : List LocalVariable}
    (hz : SmallSizes s ps vs) (r : Range) (i : Insn) {p : P}
    (h : printInsn s.regName s.tref (envOf s c) ps vs r i = some p) (http : Bool) (ind : Nat) (x : DiffPrefix) (dp : Nat) :
    InsnLines s c ps vs r x ind i (p.ls http ind x dp) := by
  unfold printInsn at h
  cases hd : i.detail with
  | none => rw [hd] at h; cases h; exact ⟨fun _ => rfl, (by intro d hd'; rw [hd] at hd'; cases hd')⟩
  | some d =>
    rw [hd] at h
    simp only at h
    split at h
    · cases ha : annots (envOf s c) ps vs i d r with
      | none => rw [ha] at h; cases h
      | some as =>
        rw [ha] at h
        cases hm : as.mapM (Annot.val s.regName s.tref) with
        | none =>
          simp only [Option.bind_eq_bind, Option.bind_some, hm] at h; cases h
        | some vals =>
          simp only [Option.bind_eq_bind, Option.bind_some, hm] at h; cases h
          refine ⟨(by intro hn; rw [hd] at hn; cases hn), fun d' hd' => ?_⟩
          rw [hd] at hd'; cases hd'
          have hrest : (P.seqs (vals.map fun v => P.instruction none [] v)).ls http ind x dp =
              as.map (fun a => .instr x ind none [] (noteText s a)) := by
            have : as.map (noteText s) = vals.map Val.text' := vals_text hm
            have e : (as.map fun a => Line.instr x ind none [] (noteText s a)) =
                (as.map (noteText s)).map (Line.instr x ind none []) := by rw [List.map_map]; rfl
            rw [e, this, seqs_ls, List.map_map, List.map_map]
            clear hm this e
            induction vals with
            | nil => rfl
            | cons v vals ih => simp only [List.map_cons, List.flatten_cons, ih, Function.comp]; rfl
          have hhead := C69_bytes i d r (i.address - r.lo)
          cases hmn : i.mnemonic with
          | some m =>
            have := hhead.2 m hmn
            refine ⟨.instr x ind (some (i.address - r.lo)) m (operandsText d r i.opStr), as, ?_, ?_, ?_, notes_iff hf hr hz i d r ha⟩
            · rw [P.ls, hrest, this]; rfl
            · intro m' hm'; cases hm'
              exact ⟨_, operands_shown d r i.opStr, rfl⟩
            · intro hn; cases hn
          | none =>
            have : ∃ t, headLine i d r (i.address - r.lo) = .instruction (some (i.address - r.lo)) (Str.ofString ".byte") (.text t) := by
              unfold headLine; rw [hmn]; exact ⟨_, rfl⟩
            obtain ⟨t, ht⟩ := this
            refine ⟨.instr x ind (some (i.address - r.lo)) (Str.ofString ".byte") t, as, ?_, ?_, ?_, notes_iff hf hr hz i d r ha⟩
            · rw [P.ls, hrest, ht]; rfl
            · intro m' hm'; cases hm'
            · intro _ hb
              have := hhead.1 hmn hb
              rw [ht] at this; cases this; rfl
    · cases h

/-- The line of a directive. -/
theorem cfi_lines {rn : Nat → Option Str} {r : Range} {e : Cfi} {p : P} (h : Cfi.printCfi rn r e = some p) (http : Bool) (ind : Nat)
    (x : DiffPrefix) (dp : Nat) : p.ls http ind x dp = [cfiLine rn x ind r e] := by
  unfold Cfi.printCfi at h
  split at h
  · rename_i y hy
    split at h
    · obtain ⟨t, ht, rfl⟩ := Option.map_eq_some_iff.1 h
      simp [P.ls, cfiLine, hy, Cfi.directiveText_eq ht, Val.text']
    · cases h
  · rename_i hy
    obtain ⟨t, ht, rfl⟩ := Option.map_eq_some_iff.1 h
    simp [P.ls, cfiLine, hy, Cfi.directiveText_eq ht, Val.text']

theorem mapM_append_some {α β : Type} {F : α → Option β} {l l' : List α} {m : List β} (h : (l ++ l').mapM F = some m) :
    ∃ m1 m2, l.mapM F = some m1 ∧ l'.mapM F = some m2 ∧ m = m1 ++ m2 := by
  induction l generalizing m with
  | nil => exact ⟨[], m, by simp, h, rfl⟩
  | cons a l ih =>
    rw [List.cons_append, List.mapM_cons] at h
    cases hr : F a with
    | none => rw [hr] at h; cases h
    | some y =>
      cases hm : (l ++ l').mapM F with
      | none => rw [hr, hm] at h; cases h
      | some ys =>
        rw [hr, hm] at h; cases h
        obtain ⟨m1, m2, h1, h2, rfl⟩ := ih hm
        exact ⟨y :: m1, m2, by rw [List.mapM_cons, hr, h1]; rfl, h2, rfl⟩

section
variable {s : FileSide} {c : Code} (hf : s.fnByAddress = functionsByAddress s.file.units)
  (hc : c.regions.map (fun g => (g.address, g.code)) = s.file.segments.map (fun s => (s.address, s.bytes)))
  (hr : ∀ a name, c.relocation a = some name ↔ Slot s.file a name) {decode : Decode} {cfi : Range → Option (List Cfi)}
  {ps : List Parameter} {vs : List LocalVariable} (hz : SmallSizes s ps vs)
include hf hc hr hz

theorem rows_shown {ranges : List Range} {rows : List (Row Insn)} (h : codeRows c decode cfi ranges = some rows) {out : List P}
    (ho : rows.mapM (Row.print s.regName (printInsn s.regName s.tref (envOf s c) ps vs)) = some out)
    (http : Bool) (ind : Nat) (x : DiffPrefix) (dp : Nat) :
    CodeShown s c decode cfi ps vs x ind ranges ((P.seqs out).ls http ind x dp) := by
  induction ranges generalizing rows out with
  | nil =>
    cases h; simp at ho; subst ho
    exact ⟨[], [], [], rfl, .nil, fun _ => rfl, fun _ _ h => by cases h⟩
  | cons r rs ih =>
    unfold codeRows at h
    cases hi : instructions c.regions decode r with
    | none => rw [hi] at h; cases h
    | some x1 =>
      rw [hi] at h
      cases x1 with
      | none =>
        simp only [Option.bind_eq_bind, Option.bind_some] at h
        cases h
        simp [Row.print] at ho
        subst ho
        exact ⟨[], r :: rs, [], rfl, .nil, (by intro h; cases h), fun r' rest' e => by cases e; exact ⟨rfl, not_loaded hc hi⟩⟩
      | some is =>
        simp only [Option.bind_eq_bind, Option.bind_some] at h
        cases hcs : cfi r with
        | none => rw [hcs] at h; cases h
        | some cs =>
          cases hrest : codeRows c decode cfi rs with
          | none => rw [hcs, hrest] at h; cases h
          | some rest =>
            rw [hcs, hrest] at h
            simp only [Option.bind_some, Option.some.injEq] at h
            subst h
            obtain ⟨m1, m2, h1, h2, rfl⟩ := mapM_append_some (l := Row.org r :: _) (l' := rest) ho
            obtain ⟨done, rst, parts, e, ha, hb, hd⟩ := ih hrest h2
            rw [List.mapM_cons] at h1
            obtain ⟨m3, h3, e3⟩ : ∃ m3, ((interleave (fun x => x.address) (is.length + cs.length) is cs).map (Sum.elim (Row.insn r) (Row.cfi r))).mapM
                (Row.print s.regName (printInsn s.regName s.tref (envOf s c) ps vs)) = some m3 ∧
                m1 = .instruction none [] (.text (orgText r)) :: m3 := by
              generalize hq : ((interleave (fun x => x.address) (is.length + cs.length) is cs).map (Sum.elim (Row.insn r) (Row.cfi r))).mapM
                (Row.print s.regName (printInsn s.regName s.tref (envOf s c) ps vs)) = q at h1 ⊢
              cases q with
              | none => cases h1
              | some m3 => cases h1; exact ⟨m3, rfl, rfl⟩
            have hls : (P.seqs (m1 ++ m2)).ls http ind x dp =
                (P.seqs m1).ls http ind x dp ++ (P.seqs m2).ls http ind x dp := by
              rw [seqs_ls, seqs_ls, seqs_ls, List.map_append, List.flatten_append]
            have hone : RangeLines s c decode cfi ps vs x ind r ((P.seqs m1).ls http ind x dp) := by
              obtain ⟨y, hy, hyd⟩ := Option.map_eq_some_iff.1 hi
              cases y with
              | none => cases hyd
              | some b =>
                have hall := Cfi.C41_all (fun i : Insn => i.address) (is.length + cs.length) is cs (Nat.le_refl _)
                refine ⟨b, is, cs, interleave (fun x => x.address) (is.length + cs.length) is cs, m3.map fun p => p.ls http ind x dp,
                  loaded hc hy, hyd, hcs, hall.1, hall.2, fun hi' ho' pre i post e => Cfi.C41_placed _ _ is cs (Nat.le_refl _) hi' ho' pre post i e, ?_, ?_⟩
                · generalize interleave (fun x : Insn => x.address) (is.length + cs.length) is cs = order at h3
                  clear e3 hall h1
                  induction order generalizing m3 with
                  | nil => simp at h3; subst h3; exact .nil
                  | cons z order ihz =>
                    rw [List.map_cons, List.mapM_cons] at h3
                    cases hz1 : Row.print s.regName (printInsn s.regName s.tref (envOf s c) ps vs) (Sum.elim (Row.insn r) (Row.cfi r) z) with
                    | none => rw [hz1] at h3; cases h3
                    | some pz =>
                      cases hz2 : (order.map (Sum.elim (Row.insn r) (Row.cfi r))).mapM (Row.print s.regName (printInsn s.regName s.tref (envOf s c) ps vs)) with
                      | none => rw [hz1, hz2] at h3; cases h3
                      | some m4 =>
                        rw [hz1, hz2] at h3; cases h3
                        refine .cons ?_ (ihz _ hz2)
                        cases z with
                        | inl i => exact insn_lines hf hr hz r i hz1 http ind x dp
                        | inr e => exact cfi_lines hz1 http ind x dp
                · rw [e3, P.seqs, P.ls, seqs_ls]; rfl
            refine ⟨r :: done, rst, (P.seqs m1).ls http ind x dp :: parts, by rw [e]; rfl, .cons hone ha, fun h0 => ?_, fun r' rest' e' => ?_⟩
            · rw [hls, hb h0]; rfl
            · obtain ⟨g1, g2⟩ := hd r' rest' e'
              exact ⟨by rw [hls, g1]; simp, g2⟩

end

variable {n : Nat} {r : Whole.RawObject} {f : File} {decode : Option Decode} {cfi : Range → Option (List Cfi)}
  {regName : Nat → Option Str} {ids : Nat → Nat} {fnId : Function → Nat} {varId : Variable → Nat} {unitId : CompUnit → Nat}

/-- **C96** (the lines). The listing of the instructions of a function: for each of its ranges the instructions which the
disassembler finds in the bytes that the segments of the file have there, the directives of the call frame
information in their places, and below an instruction the notes on its operands. -/
theorem C96_code {arch : Arch} {disasm : Decode} {c : Code} (hn : newCode arch f disasm = some (some c)) {s : FileSide}
    (hs : s = Asm.sideOf n r f (some c) (some disasm) cfi regName ids fnId varId unitId) {g : Function} {p : P}
    (h : s.insns g = some p) (hz : SmallSizes s (s.details g).parameters (s.details g).variables)
    (http : Bool) (ind : Nat) (x : DiffPrefix) (dp : Nat) :
    CodeShown s c disasm cfi (s.details g).parameters (s.details g).variables x ind g.ranges (p.lines http ind x dp) := by
  obtain ⟨hc, hr⟩ := C90_code arch f disasm c hn
  subst hs
  rw [P.lines_eq]
  have h' : printCode (Asm.sideOf n r f (some c) (some disasm) cfi regName ids fnId varId unitId) (some c) (some disasm) cfi g = some p := h
  unfold printCode at h'
  split at h'
  · next he =>
    cases h'
    rw [he]
    exact ⟨[], [], [], rfl, .nil, fun _ => rfl, fun _ _ h => by cases h⟩
  · simp only [Option.bind_eq_bind] at h'
    obtain ⟨rows, h1, h2⟩ := Option.bind_eq_some_iff.1 h'
    obtain ⟨ps, h3, h4⟩ := Option.bind_eq_some_iff.1 h2
    cases h4
    exact rows_shown rfl hc hr hz h1 h3 http ind x dp

/-- The lines of a function with ranges are not empty. -/
theorem CodeShown.ne_nil {s : FileSide} {c : Code} {disasm : Decode} {ps : List Parameter} {vs : List LocalVariable} {x : DiffPrefix}
    {ind : Nat} {ranges : List Range} {ls : List Line} (h : CodeShown s c disasm cfi ps vs x ind ranges ls) (hr : ranges ≠ []) : ls ≠ [] := by
  obtain ⟨done, rest, parts, e, ha, hb, hd⟩ := h
  cases rest with
  | cons r rest => rw [(hd r rest rfl).1]; simp
  | nil =>
    rw [hb rfl]
    cases ha with
    | nil => exact absurd e hr
    | @cons r t rs ts h1 h2 =>
      obtain ⟨_, _, _, _, _, -, -, -, -, -, -, -, rfl⟩ := h1
      simp

/-- **C96** (a function entry). The item of a function entry with code, in the listing of an object file
(`C91_unit`), has, if the user wants instructions, a section with the lines of `C96_code`; the parameters
and variables of the notes are those which the entry has in the debug information. -/
theorem C96_function {search : File.Search} (hv : File.ValidSearch search) {m : Nat} (h : Whole.parseObject search m r = some f)
    (hp : Dwarf.Placed r.units) {arch : Arch} {disasm : Decode} {c : Code} (hn : newCode arch f disasm = some (some c)) {s : FileSide}
    (hs : s = Asm.sideOf n r f (some c) (some disasm) cfi regName ids fnId varId unitId)
    {k : Nat} {u : Dwarf.RawUnit} {cu : CompUnit} (hk : r.units[k]? = some u) (hc : f.units[k]? = some cu)
    {ns : Option Namespace.Namespace} {d : Dwarf.Die} {g : Function} (hg : Whole.FnEntry u cu ns d g)
    {x : FunctionDetails} (hx : Dwarf.getDetails r.units f.units (some d.offset) = some x) (hz : SmallSizes s x.parameters x.variables)
    {o : Opts.Options} (ho : o.printFunctionInstructions = true) (hr : g.ranges ≠ []) {i dp : Nat} {pre : DiffPrefix} {code : List Line}
    (hl : CodeLines o s.toFnSide g false i pre dp code) :
    Dwarf.DetailsOf (Dwarf.fileLookup r.units f.units) u.addressSize d x ∧
    ∃ ls, code = .line pre i (Opts.k "instructions") [] :: ls ∧
      CodeShown s c disasm cfi x.parameters x.variables pre (i + 1) g.ranges ls := by
  have hs' : s = Whole.sideOf n r f (some c) disasm regName ids fnId varId unitId s.insns := by rw [hs]; rfl
  obtain ⟨e, hd⟩ := (Whole.C91_functions hv h hp hs' hk hc hg).2 x hx
  refine ⟨hd, ?_⟩
  obtain ⟨q, h1, -, h3⟩ := hl.2 rfl ho hr
  have := C96_code hn hs h1 (by rw [e]; exact hz) false (i + 1) pre dp
  rw [e] at this
  exact ⟨_, h3 (this.ne_nil hr), this⟩

/-- **C96 (names).** What is at an address is named as elsewhere: a link to the item with its namespace and name, or
`<anon>`. -/
theorem C96_names (id : Nat) (g : Function) (v : Item.Variable) :
    ((fnRef id g).text' = titled g.ns g.name ∧ ∃ w, fnRef id g = .link id w) ∧
    ((varRef id v).text' = titled v.ns v.name ∧ ∃ w, varRef id v = .link id w) := by
  refine ⟨⟨?_, _, rfl⟩, ?_, _, rfl⟩
  · exact congrArg (· ++ g.name.getD anon) (text_nsOpt g.ns)
  · exact congrArg (· ++ v.name.getD anon) (text_nsOpt v.ns)

/-- A variable in a namespace. -/
example : (varRef 3 { ns := some (.root (some (Str.ofString "a")) .namespace_), name := some (Str.ofString "v") }).text' = Str.ofString "a::v" := by
  decide +kernel

/-- **C96** (nothing). Without code for the architecture, or without disassembler, no instruction is
listed; nor for a function without ranges. -/
theorem C96_nothing (code : Option Code) (s : FileSide) (hs : s = Asm.sideOf n r f code decode cfi regName ids fnId varId unitId)
    (g : Function) (hn : g.ranges = [] ∨ code = none ∨ decode = none) : s.insns g = some .skip := by
  subst hs
  show printCode _ code decode cfi g = some .skip
  unfold printCode
  split
  · rfl
  · rename_i he
    rcases hn with h | rfl | rfl
    · exact absurd h he
    · rfl
    · cases code <;> rfl

end Verif.Asm
