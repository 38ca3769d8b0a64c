import Verif.Dwarf.EvalProps
/-!
# Property theorems: C42 (no panic, tiling), C43 (exact offsets, findings), and what is recorded of a
variable's location
-/
namespace Verif.Dwarf
open Verif.Item Verif.Print Verif.Frame Verif.Range
open Verif.Types (All2)

theorem tiled_append (n : Nat) (ps : List Piece) (p : Piece) :
    Tiled n (ps ++ [p]) ↔ Tiled n ps ∧ p.bitOffset = n + ((ps.map fun p => p.bitSize.getD 0).sum) := by
  induction ps generalizing n with
  | nil => simp [Tiled]
  | cons q ps ih => simp only [List.cons_append, Tiled, ih, List.map_cons, List.sum_cons, and_assoc, Nat.add_assoc]

/-- What holds of the pieces collected so far. -/
def Good (s : St) : Prop :=
  Tiled 0 s.pieces ∧ s.next = (s.pieces.map fun p => p.bitSize.getD 0).sum ∧ ∀ p ∈ s.pieces, p.bitSize ≠ none

theorem good_add {s : St} {l : Location} {lo : Nat} {v : Bool} {n : Nat} {s' : St} (hg : Good s)
    (h : addPiece s l lo v (some n) = some s') : Good s' := by
  obtain ⟨-, h2, h3⟩ := addPiece_some h
  obtain ⟨g1, g2, g3⟩ := hg
  refine ⟨?_, ?_, ?_⟩
  · rw [h2, tiled_append]; exact ⟨g1, by simp [g2]⟩
  · rw [h2, h3, g2]; simp
  · rw [h2]; intro p hp
    rcases List.mem_append.1 hp with hp | hp
    · exact g3 p hp
    · simp at hp; subst hp; simp

theorem pop1_cases (s : St) (f : Location → St → Step) (r : Step) (h : pop1 s f = r) :
    r = .error ∨ ∃ l ls, s.stack = l :: ls ∧ f l { s with stack := ls } = r := by
  unfold pop1 at h
  split at h
  · exact .inl h.symm
  · rename_i l ls e; exact .inr ⟨l, ls, e, h⟩

/-- A step leaves the pieces alone, or is a piece operation. -/
theorem step_pieces (size : Nat) (s : St) (op : Oper) :
    (∀ s', step size s op = .next s' → (s'.pieces = s.pieces ∧ s'.next = s.next) ∨
      ∃ n bo, op = .piece n bo ∧
        addPiece { s with stack := s.stack.tail } (s.stack.head?.getD .empty) (bo.getD 0) false (some n) = some s') ∧
    (∀ s' l v, step size s op = .loc s' l v → s'.pieces = s.pieces ∧ s'.next = s.next) ∧
    (∀ s', step size s op = .stop s' → s' = s) := by
  obtain ⟨stack, pieces, next⟩ := s
  cases op with
  | piece n bo =>
    refine ⟨fun s' h => .inr ⟨n, bo, rfl, ?_⟩, fun s' l v h => ?_, fun s' h => ?_⟩
    · simp only [step, newSize] at h
      split at h
      · cases h
      · rename_i k hk
        split at hk
        · cases hk
        · cases hk
          split at h
          · cases h; assumption
          · cases h
    · simp only [step, newSize] at h
      split at h
      · cases h
      · split at h <;> cases h
    · simp only [step, newSize] at h
      split at h
      · cases h
      · split at h <;> cases h
  | address a =>
    refine ⟨fun s' h => .inl ?_, fun s' l v h => ?_, fun s' h => ?_⟩ <;>
      (simp only [step, newAddress] at h; split at h <;> (rename_i hh; split at hh <;> cases hh <;> cases h) <;> exact ⟨rfl, rfl⟩)
  | addressIndex k a =>
    cases a with
    | none =>
      refine ⟨fun s' h => .inl ?_, fun s' l v h => ?_, fun s' h => ?_⟩ <;> (simp only [step, push1] at h; cases h)
      exact ⟨rfl, rfl⟩
    | some a =>
      refine ⟨fun s' h => .inl ?_, fun s' l v h => ?_, fun s' h => ?_⟩ <;>
        (simp only [step, newAddress] at h; split at h <;> (rename_i hh; split at hh <;> cases hh <;> cases h) <;> exact ⟨rfl, rfl⟩)
  | pick i =>
    refine ⟨fun s' h => .inl ?_, fun s' l v h => ?_, fun s' h => ?_⟩ <;>
      (simp only [step, push1] at h; split at h <;> cases h)
    exact ⟨rfl, rfl⟩
  | minus =>
    refine ⟨fun s' h => .inl ?_, fun s' l v h => ?_, fun s' h => ?_⟩ <;>
      (rcases stack with _ | ⟨a, _ | ⟨b, st⟩⟩ <;> simp only [step, pop1] at h <;> try (first | (cases h; done) | skip)) <;>
      (split at h <;> first | (split at h <;> cases h) | cases h) <;> exact ⟨rfl, rfl⟩
  | deref k space =>
    cases space <;>
    refine ⟨fun s' h => .inl ?_, fun s' l v h => ?_, fun s' h => ?_⟩ <;>
      (rcases stack with _ | ⟨a, _ | ⟨b, st⟩⟩ <;> simp only [step, pop1, push1] at h <;> cases h) <;> exact ⟨rfl, rfl⟩
  | rot =>
    refine ⟨fun s' h => .inl ?_, fun s' l v h => ?_, fun s' h => ?_⟩ <;>
      (rcases stack with _ | ⟨a, _ | ⟨b, _ | ⟨c, st⟩⟩⟩ <;> simp only [step, pop1, push1] at h <;> cases h)
    exact ⟨rfl, rfl⟩
  | _ =>
    refine ⟨fun s' h => .inl ?_, fun s' l v h => ?_, fun s' h => ?_⟩ <;>
      (rcases stack with _ | ⟨a, _ | ⟨b, st⟩⟩ <;> simp only [step, pop1, push1] at h <;> cases h) <;>
      first | exact ⟨rfl, rfl⟩ | rfl

/-- The pieces of a result: laid out from bit 0 without gap or overlap, all sized, or a single
unsized one. -/
def Result.Good (ps : List Piece) : Prop :=
  Tiled 0 ps ∧ ((∀ p ∈ ps, p.bitSize ≠ none) ∨ ∃ p, ps = [p])

theorem finish_good (s : St) (hg : Good s) (out : List Piece) (h : finish s = some (some out)) : Result.Good out := by
  unfold finish at h
  split at h
  · rename_i he
    split at h
    · cases h; exact ⟨hg.1, .inl hg.2.2⟩
    · obtain ⟨s', hs', e⟩ := Option.map_eq_some_iff.1 h
      cases e
      obtain ⟨-, h2, -⟩ := addPiece_some hs'
      simp only [he, List.nil_append] at h2
      have h0 : s.next = 0 := by rw [hg.2.1, he]; rfl
      rw [h2]
      exact ⟨by simp [Tiled, h0], .inr ⟨_, rfl⟩⟩
  · cases h; exact ⟨hg.1, .inl hg.2.2⟩

theorem evalLoop_good (size n : Nat) : ∀ (ops : List Oper), ops.length ≤ n → ∀ (s : St), Good s → ∀ out,
    evalLoop size ops s = some (some out) → Result.Good out := by
  induction n with
  | zero =>
    intro ops hl s hg out h
    have : ops = [] := List.length_eq_zero_iff.1 (by omega)
    subst this
    exact finish_good s hg out h
  | succ n ih =>
    intro ops hl s hg out h
    cases ops with
    | nil => exact finish_good s hg out h
    | cons op ops =>
      simp only [List.length_cons] at hl
      rw [evalLoop] at h
      obtain ⟨h1, h2, h3⟩ := step_pieces size s op
      generalize step size s op = res at h h1 h2 h3
      cases res with
      | panic => cases h
      | error => cases h
      | stop s' => simp only at h; cases h; rw [h3 s' rfl]; exact ⟨hg.1, .inl hg.2.2⟩
      | next s' =>
        simp only at h
        refine ih ops (by omega) s' ?_ out h
        rcases h1 s' rfl with ⟨a, b⟩ | ⟨k, bo, -, hadd⟩
        · unfold Good; rw [a, b]; exact hg
        · exact good_add (s := { s with stack := s.stack.tail }) hg hadd
      | loc s' l v =>
        obtain ⟨a, b⟩ := h2 s' l v rfl
        have hg' : Good s' := by unfold Good; rw [a, b]; exact hg
        simp only at h
        cases ops with
        | nil =>
          simp only at h
          split at h
          · cases h
          · rename_i he
            have he : s'.pieces = [] := by simpa using he
            obtain ⟨s2, hs2, hf⟩ := Option.bind_eq_some_iff.1 h
            obtain ⟨-, h5, -⟩ := addPiece_some hs2
            simp only [he, List.nil_append] at h5
            unfold finish at hf
            rw [if_neg (by rw [h5]; simp)] at hf
            cases hf
            have h0 : s'.next = 0 := by rw [hg'.2.1, he]; rfl
            rw [h5]
            exact ⟨by simp [Tiled, h0], .inr ⟨_, rfl⟩⟩
        | cons op2 ops =>
          by_cases hpc : ∃ k bo, op2 = .piece k bo
          · obtain ⟨k, bo, rfl⟩ := hpc
            simp only [newSize] at h
            split at h
            · cases h
            · rename_i k' hk
              have : k' = some k := by
                split at hk
                · cases hk
                · cases hk; rfl
              subst this
              split at h
              · rename_i s2 hadd
                exact ih ops (by simp at hl; omega) s2 (good_add hg' hadd) out h
              · cases h
          · exfalso
            cases op2 <;> first | (cases h; done) | exact hpc ⟨_, _, rfl⟩

/-- **C42 (tiling).** Whatever the expression, each reported piece starts where the sizes of the
pieces before it end, the first at bit 0; every piece has a size unless it is the only one. -/
theorem C42_tiles (size : Nat) (e : List Oper) (out : List Piece) (h : evaluateSimple size e = some (some out)) :
    Tiled 0 out ∧ ((∀ p ∈ out, p.bitSize ≠ none) ∨ ∃ p, out = [p]) :=
  evalLoop_good size e.length e (Nat.le_refl _) ⟨[], [], 0⟩ ⟨trivial, rfl, by simp⟩ out h

/-- The operation names the address reserved for "no address". -/
def Reserved : Oper → Prop
  | .address a => a = 2 ^ 64 - 1
  | .addressIndex _ (some a) => a = 2 ^ 64 - 1
  | _ => False

theorem addPiece_total (s : St) (l : Location) (lo : Nat) (v : Bool) (n : Option Nat) (h : s.next + n.getD 0 < 2 ^ 64) :
    ∃ s', addPiece s l lo v n = some s' ∧ s'.next = s.next + n.getD 0 := by
  unfold addPiece
  rw [if_pos h]
  exact ⟨_, rfl, rfl⟩

theorem finish_total (s : St) (h : s.next < 2 ^ 64) : ∃ r, finish s = some r := by
  unfold finish
  split
  · split
    · exact ⟨_, rfl⟩
    · rename_i l ls _
      obtain ⟨s', hs', -⟩ := addPiece_total { s with stack := ls } l 0 false none (by simpa using h)
      exact ⟨_, by rw [hs']; rfl⟩
  · exact ⟨_, rfl⟩

theorem step_total (size : Nat) (s : St) (op : Oper) (hr : ¬ Reserved op) (hm : op ≠ .minus)
    (hp : ∀ n bo, op = .piece n bo → s.next + n < 2 ^ 64 - 1) : step size s op ≠ .panic := by
  obtain ⟨stack, pieces, next⟩ := s
  intro h
  cases op with
  | minus => exact hm rfl
  | address a => simp only [step, newAddress, if_neg (show ¬ a = 2 ^ 64 - 1 from hr), push1] at h; cases h
  | addressIndex k a =>
    cases a with
    | none => simp only [step, push1] at h; cases h
    | some a => simp only [step, newAddress, if_neg (show ¬ a = 2 ^ 64 - 1 from hr), push1] at h; cases h
  | piece n bo =>
    have := hp n bo rfl
    simp only at this
    obtain ⟨s', hs', -⟩ := addPiece_total { stack := stack.tail, pieces := pieces, next := next } (stack.head?.getD .empty)
      (bo.getD 0) false (some n) (by simp; omega)
    simp only [step, newSize, if_neg (show ¬ n = 2 ^ 64 - 1 by omega), hs'] at h
    cases h
  | pick i => simp only [step, push1] at h; split at h <;> cases h
  | deref k space => cases space <;> (rcases stack with _ | ⟨a, _ | ⟨b, st⟩⟩ <;> simp only [step, pop1, push1] at h <;> cases h)
  | rot => rcases stack with _ | ⟨a, _ | ⟨b, _ | ⟨c, st⟩⟩⟩ <;> simp only [step, pop1, push1] at h <;> cases h
  | _ => rcases stack with _ | ⟨a, _ | ⟨b, st⟩⟩ <;> simp only [step, pop1, push1] at h <;> cases h

theorem pieceBits_cons (op : Oper) (ops : List Oper) (h : ∀ n bo, op ≠ .piece n bo) : pieceBits (op :: ops) = pieceBits ops := by
  cases op <;> first | rfl | exact absurd rfl (h _ _)

theorem evalLoop_total (size n : Nat) : ∀ (ops : List Oper), ops.length ≤ n → (∀ op ∈ ops, ¬ Reserved op ∧ op ≠ .minus) → ∀ (s : St),
    s.next + pieceBits ops < 2 ^ 64 - 1 → ∃ r, evalLoop size ops s = some r := by
  induction n with
  | zero =>
    intro ops hl _ s hs
    have : ops = [] := List.length_eq_zero_iff.1 (by omega)
    subst this
    exact finish_total s (by simp [pieceBits] at hs; omega)
  | succ n ih =>
    intro ops hl ho s hs
    cases ops with
    | nil => exact finish_total s (by simp [pieceBits] at hs; omega)
    | cons op ops =>
      simp only [List.length_cons] at hl
      have ho' : ∀ o ∈ ops, ¬ Reserved o ∧ o ≠ .minus := fun o hm => ho o (List.mem_cons_of_mem _ hm)
      obtain ⟨hr, hm⟩ := ho op (by simp)
      have hnp := step_total size s op hr hm (fun n bo e => by subst e; simp only [pieceBits] at hs; omega)
      rw [evalLoop]
      obtain ⟨h1, h2, h3⟩ := step_pieces size s op
      generalize step size s op = res at hnp h1 h2 h3
      cases res with
      | panic => exact absurd rfl hnp
      | error => exact ⟨_, rfl⟩
      | stop s' => exact ⟨_, rfl⟩
      | next s' =>
        refine ih ops (by omega) ho' s' ?_
        rcases h1 s' rfl with ⟨a, b⟩ | ⟨k, bo, rfl, hadd⟩
        · rw [b]
          by_cases hpc : ∃ k bo, op = .piece k bo
          · obtain ⟨k, bo, rfl⟩ := hpc; simp only [pieceBits] at hs; omega
          · rw [pieceBits_cons op ops (fun n bo e => hpc ⟨n, bo, e⟩)] at hs; exact hs
        · obtain ⟨-, -, h5⟩ := addPiece_some hadd
          simp only [Option.getD_some] at h5
          simp only [pieceBits] at hs; omega
      | loc s' l v =>
        obtain ⟨a, b⟩ := h2 s' l v rfl
        have hle : s'.next + pieceBits ops < 2 ^ 64 - 1 := by
          rw [b]
          by_cases hpc : ∃ k bo, op = .piece k bo
          · obtain ⟨k, bo, rfl⟩ := hpc; simp only [pieceBits] at hs; omega
          · rw [pieceBits_cons op ops (fun n bo e => hpc ⟨n, bo, e⟩)] at hs; exact hs
        simp only
        cases ops with
        | nil =>
          simp only
          split
          · exact ⟨_, rfl⟩
          · obtain ⟨s2, hs2, hn⟩ := addPiece_total s' l 0 v none (by simp [pieceBits] at hle ⊢; omega)
            rw [hs2]
            exact finish_total s2 (by simp [pieceBits] at hle hn; omega)
        | cons op2 ops =>
          by_cases hpc : ∃ k bo, op2 = .piece k bo
          · obtain ⟨k, bo, rfl⟩ := hpc
            simp only [pieceBits] at hle
            obtain ⟨s2, hs2, hn⟩ := addPiece_total s' l (bo.getD 0) v (some k) (by simp; omega)
            simp only [newSize, if_neg (show ¬ k = 2 ^ 64 - 1 by omega), hs2]
            exact ih ops (by simp at hl; omega) (fun o hm => ho' o (List.mem_cons_of_mem _ hm)) s2 (by simp at hn; omega)
          · cases op2 <;> first | exact ⟨_, rfl⟩ | exact absurd ⟨_, _, rfl⟩ hpc

/-- **C42 (never panics).** An expression without `DW_OP_minus`, reserved addresses or an absurd
total piece size is evaluated without a panic. -/
theorem C42_total (size : Nat) (e : List Oper) (h : ∀ op ∈ e, ¬ Reserved op ∧ op ≠ .minus)
    (hb : pieceBits e < 2 ^ 64 - 1) : ∃ r, evaluateSimple size e = some r :=
  evalLoop_total size e.length e (Nat.le_refl _) h ⟨[], [], 0⟩ (by simpa using hb)

/-- Finding (C42): `DW_OP_minus` can overflow, and so can the sum of the piece sizes. -/
theorem C42_panic_witness : evaluateSimple 8 [.frameOffset (-(2 ^ 63)), .uconst 1, .minus] = none ∧
    evaluateSimple 8 [.piece (2 ^ 63) none, .piece (2 ^ 63) none] = none := by
  decide +kernel

/-- Non-vacuity of C42 and C43: a value split between a register, memory and nowhere. -/
example :
    let e : List Oper := [.register 3, .piece 32 none, .frameOffset (-20), .plusConst 4, .piece 16 (some 8), .piece 16 none]
    evaluateSimple 8 e = some (some [⟨0, some 32, .register 3, 0, false⟩, ⟨32, some 16, .frameOffset (-16), 8, false⟩,
      ⟨48, some 16, .empty, 0, false⟩]) ∧ pieceBits e = 64 ∧
    evaluateSimple 8 [.register 3, .register 4] = some none := by decide +kernel

/-! ### C43 -/

/-- **C43 (exact offsets).** On a target with 8-byte addresses, adding a constant to a register-,
frame- or CFA-relative location, or to a literal, adds it to the offset, as long as the sum stays in
the 64-bit range. A constant added to a negative number is its two's complement. -/
theorem C43_plus_exact (o : Int) (c : Nat) (d : Int) (ho : I64 o) (hc : c < 2 ^ 64) (hd : d = asI64 c) (h : I64 (o + d))
    (st : List Location) (ps : List Piece) (n r : Nat) :
    step 8 ⟨.frameOffset o :: st, ps, n⟩ (.plusConst c) = .next ⟨.frameOffset (o + d) :: st, ps, n⟩ ∧
    step 8 ⟨.cfaOffset o :: st, ps, n⟩ (.plusConst c) = .next ⟨.cfaOffset (o + d) :: st, ps, n⟩ ∧
    step 8 ⟨.registerOffset r o :: st, ps, n⟩ (.plusConst c) = .next ⟨.registerOffset r (o + d) :: st, ps, n⟩ := by
  have key : plusOffset 8 o c = o + d := by
    subst hd
    unfold plusOffset addrMod asU64
    rw [if_pos rfl]
    unfold I64 at ho h
    unfold asI64 at h ⊢
    omega
  simp only [step, pop1, push1, plusConstant, key, and_self]

/-- Finding (C43): with 4-byte addresses a negative offset becomes a large positive one: a variable
at frame offset -8 + 4 is reported at offset 4294967292. -/
theorem C43_mask_witness : evaluateSimple 4 [.frameOffset (-8), .plusConst 4] =
    some (some [⟨0, none, .frameOffset 4294967292, 0, false⟩]) := by decide +kernel

/-- Finding (C43): the result of adding two operands is dropped. The pointer `rbx + 3 + 4` has no
location, and with another value below on the stack the wrong location is reported. -/
theorem C43_plus_witness (M : Machine) :
    evaluateSimple 8 [.regOffset 3 0, .uconst 4, .plus] = some (some []) ∧
    evaluateSimple 8 [.uconst 1, .uconst 2, .uconst 3, .plus] = some (some [⟨0, none, .literal 1, 0, false⟩]) ∧
    Denotes M 8 [.uconst 1, .uconst 2, .uconst 3, .plus] [] [] [⟨none, .mem 5, 0⟩] ∧
    evaluateSimple 8 [.frameOffset 16, .uconst 4, .minus] = some (some []) ∧
    Denotes M 8 [.frameOffset 16, .uconst 4, .minus] [] [] [⟨none, .mem (wrap 8 (M.frameBase + 12)), 0⟩] := by
  refine ⟨by decide +kernel, by decide +kernel, ?_, by decide +kernel, ?_⟩
  · exact .stack rfl (.stack rfl (.stack rfl (.stack (st' := [5, 1]) (congrArg some (by decide +kernel)) .mem)))
  · refine .stack rfl (.stack rfl (.stack (st' := [wrap 8 (M.frameBase + 12)]) ?_ .mem))
    simp only [stackOp, Option.some.injEq, List.cons.injEq, and_true]
    apply wrap_congr
    have h1 := wrap_sub 8 (M.frameBase + 16)
    have h2 : wrap 8 ((4 : Nat) : Int) = 4 := by decide +kernel
    rw [h2]
    have e : (wrap 8 (M.frameBase + 16) : Int) - ((4 : Nat) : Int) - (M.frameBase + 12) = (wrap 8 (M.frameBase + 16) : Int) - (M.frameBase + 16) := by omega
    rw [e]; exact h1

/-! ### What is recorded (C42) -/

/-- **C42 (recorded locations).** Evaluating a location adds its pieces, in order and with the
address range, to those recorded before; the other parts of a parameter stay. An expression that
cannot be evaluated leaves everything as it was. -/
theorem C42_parameter (size : Nat) (range : Range) (e : List Oper) (p q : Parameter)
    (h : parameterLocation size range e p = some q) :
    q.name = p.name ∧ q.ty = p.ty ∧ q.offset = p.offset ∧
    (∀ out, evaluateSimple size e = some (some out) → q.locations = p.locations ++ out.map fun x => (range, x)) ∧
    (evaluateSimple size e = some none → q = p) := by
  unfold parameterLocation at h
  obtain ⟨r, hr, rfl⟩ := Option.map_eq_some_iff.1 h
  cases r with
  | none => exact ⟨rfl, rfl, rfl, fun out e => (by rw [hr] at e; cases e), fun _ => rfl⟩
  | some pieces => exact ⟨rfl, rfl, rfl, fun out e => (by rw [hr] at e; cases e; rfl), fun e => (by rw [hr] at e; cases e)⟩

/-- The address of the first piece that is in memory at a fixed address, with the piece. -/
def firstAddress : List Piece → Option (Nat × Piece)
  | [] => none
  | p :: ps =>
    match p.isValue, p.location with
    | false, .address (some a) => some (a, p)
    | _, _ => firstAddress ps

theorem foldl_noteAddress (ps : List Piece) (v : LocalVariable) :
    (ps.foldl noteAddress v).locations = v.locations ∧ (ps.foldl noteAddress v).name = v.name ∧
    (ps.foldl noteAddress v).ty = v.ty ∧ (ps.foldl noteAddress v).source = v.source ∧
    (v.address.isSome → (ps.foldl noteAddress v).address = v.address ∧ (ps.foldl noteAddress v).size = v.size) := by
  induction ps generalizing v with
  | nil => exact ⟨rfl, rfl, rfl, rfl, fun _ => ⟨rfl, rfl⟩⟩
  | cons p ps ih =>
    simp only [List.foldl_cons]
    have : (noteAddress v p).locations = v.locations ∧ (noteAddress v p).name = v.name ∧
        (noteAddress v p).ty = v.ty ∧ (noteAddress v p).source = v.source ∧ (v.address.isSome → noteAddress v p = v) := by
      unfold noteAddress
      split
      · exact ⟨rfl, rfl, rfl, rfl, fun _ => rfl⟩
      · split
        · split
          · exact ⟨rfl, rfl, rfl, rfl, fun _ => rfl⟩
          · rename_i h; exact ⟨rfl, rfl, rfl, rfl, fun hh => absurd hh h⟩
        · exact ⟨rfl, rfl, rfl, rfl, fun _ => rfl⟩
    obtain ⟨a, b, c, d, e⟩ := this
    obtain ⟨a', b', c', d', e'⟩ := ih (noteAddress v p)
    refine ⟨a'.trans a, b'.trans b, c'.trans c, d'.trans d, fun hh => ?_⟩
    rw [e hh] at e' ⊢
    exact e' hh

/-- Pieces never carry an unknown address. -/
def Addressed (ps : List Piece) : Prop := ∀ p ∈ ps, p.location ≠ .address none

theorem foldl_noteAddress_none (ps : List Piece) (hps : Addressed ps) (v : LocalVariable) (hv : v.address = none) :
    (firstAddress ps = none → ps.foldl noteAddress v = v) ∧
    ∀ a p, firstAddress ps = some (a, p) → (ps.foldl noteAddress v).address = some a ∧
        (ps.foldl noteAddress v).size = sizeAfter p.bitSize v.size := by
  induction ps with
  | nil => exact ⟨fun _ => rfl, fun a p h => by cases h⟩
  | cons p ps ih =>
    have ih := ih (fun q hq => hps q (List.mem_cons_of_mem _ hq))
    obtain ⟨bo, bs, l, lo, iv⟩ := p
    simp only [List.foldl_cons]
    by_cases hc : iv = false ∧ ∃ a, l = .address (some a)
    · obtain ⟨rfl, a, rfl⟩ := hc
      simp only [firstAddress]
      have hn : noteAddress v ⟨bo, bs, .address (some a), lo, false⟩ =
        { v with address := some a, size := sizeAfter bs v.size } := by
        simp [noteAddress, hv]
      rw [hn]
      have := (foldl_noteAddress ps { v with address := some a, size := sizeAfter bs v.size }).2.2.2.2 rfl
      refine ⟨fun h => (by cases h), fun a' p' h => ?_⟩
      cases h
      exact this
    · have hn : noteAddress v ⟨bo, bs, l, lo, iv⟩ = v := by
        unfold noteAddress
        cases iv with
        | true => rfl
        | false =>
          simp only [Bool.false_eq_true, if_false]
          cases l with
          | address a =>
            cases a with
            | none => exact absurd rfl (hps ⟨bo, bs, .address none, lo, false⟩ List.mem_cons_self)
            | some a => exact absurd ⟨rfl, a, rfl⟩ hc
          | _ => rfl
      have hf : firstAddress (⟨bo, bs, l, lo, iv⟩ :: ps) = firstAddress ps := by
        simp only [firstAddress]
        split
        · exact absurd ⟨rfl, _, rfl⟩ hc
        · rfl
      rw [hn, hf]
      exact ih

/-- The operation takes a stack of locations with property `Q` to such a stack, and only describes
a location with property `R`. -/
def Keeps (Q R : Location → Prop) (size : Nat) (op : Oper) : Prop := ∀ s : St, (∀ l ∈ s.stack, Q l) →
    (∀ s', step size s op = .next s' → ∀ l ∈ s'.stack, Q l) ∧
    (∀ s' l v, step size s op = .loc s' l v → R l ∧ ∀ l ∈ s'.stack, Q l)

/-- A property of locations that every operation of an expression keeps holds of every reported
piece. -/
theorem eval_inv (Q R : Location → Prop) (hQR : ∀ l, Q l → R l) (hE : R .empty) (size n : Nat) : ∀ (ops : List Oper), ops.length ≤ n →
    (∀ op ∈ ops, Keeps Q R size op) → ∀ (s : St),
    (∀ l ∈ s.stack, Q l) → (∀ p ∈ s.pieces, R p.location) → ∀ out, evalLoop size ops s = some (some out) →
    ∀ p ∈ out, R p.location := by
  have finishA : ∀ (s : St), (∀ l ∈ s.stack, Q l) → (∀ p ∈ s.pieces, R p.location) → ∀ out, finish s = some (some out) → (∀ p ∈ out, R p.location) := by
    intro s h1 h2 out h
    unfold finish at h
    split at h
    · split at h
      · cases h; exact h2
      · rename_i l ls e
        obtain ⟨s', hs', e'⟩ := Option.map_eq_some_iff.1 h
        cases e'
        obtain ⟨-, h3, -⟩ := addPiece_some hs'
        rw [h3]
        intro p hp
        rcases List.mem_append.1 hp with hp | hp
        · exact h2 p hp
        · simp at hp; subst hp; exact hQR _ (h1 l (by rw [e]; simp))
    · cases h; exact h2
  have add : ∀ {s : St} {l : Location} {lo : Nat} {v : Bool} {k : Option Nat} {s' : St}, (∀ p ∈ s.pieces, R p.location) → R l →
      addPiece s l lo v k = some s' → (∀ p ∈ s'.pieces, R p.location) := by
    intro s l lo v k s' h1 h2 h
    obtain ⟨-, h3, -⟩ := addPiece_some h
    rw [h3]
    intro p hp
    rcases List.mem_append.1 hp with hp | hp
    · exact h1 p hp
    · simp at hp; subst hp; exact h2
  induction n with
  | zero =>
    intro ops hl hK s h1 h2 out h
    have : ops = [] := List.length_eq_zero_iff.1 (by omega)
    subst this
    exact finishA s h1 h2 out h
  | succ n ih =>
    intro ops hl hK s h1 h2 out h
    cases ops with
    | nil => exact finishA s h1 h2 out h
    | cons op ops =>
      simp only [List.length_cons] at hl
      rw [evalLoop] at h
      obtain ⟨p1, p2, p3⟩ := step_pieces size s op
      obtain ⟨q1, q2⟩ := hK op (by simp) s h1
      generalize step size s op = res at h p1 p2 p3 q1 q2
      cases res with
      | panic => cases h
      | error => cases h
      | stop s' => simp only at h; cases h; rw [p3 s' rfl]; exact h2
      | next s' =>
        simp only at h
        refine ih ops (by omega) (fun o ho => hK o (List.mem_cons_of_mem _ ho)) s' (q1 s' rfl) ?_ out h
        rcases p1 s' rfl with ⟨a, b⟩ | ⟨k, bo, -, hadd⟩
        · rw [a]; exact h2
        · refine add (s := { s with stack := s.stack.tail }) h2 ?_ hadd
          cases hst : s.stack with
          | nil => exact hE
          | cons l ls => exact hQR _ (h1 l (by rw [hst]; simp))
      | loc s' l v =>
        obtain ⟨a, b⟩ := p2 s' l v rfl
        obtain ⟨c, d⟩ := q2 s' l v rfl
        have h2' : (∀ p ∈ s'.pieces, R p.location) := by rw [a]; exact h2
        simp only at h
        cases ops with
        | nil =>
          simp only at h
          split at h
          · cases h
          · obtain ⟨s2, hs2, hf⟩ := Option.bind_eq_some_iff.1 h
            exact finishA s2 (by rw [(addPiece_some hs2).1]; exact d) (add h2' c hs2) out hf
        | cons op2 ops =>
          by_cases hpc : ∃ k bo, op2 = .piece k bo
          · obtain ⟨k, bo, rfl⟩ := hpc
            simp only [newSize] at h
            split at h
            · cases h
            · split at h
              · rename_i s2 hadd
                exact ih ops (by simp at hl; omega) (fun o ho => hK o (List.mem_cons_of_mem _ (List.mem_cons_of_mem _ ho))) s2 (by rw [(addPiece_some hadd).1]; exact d) (add h2' c hadd) out h
              · cases h
          · exfalso
            cases op2 <;> first | (cases h; done) | exact hpc ⟨_, _, rfl⟩

theorem keeps_addressed (size : Nat) (op : Oper) : Keeps (fun l => l ≠ .address none) (fun l => l ≠ .address none) size op := by
  intro s hst
  obtain ⟨stack, pieces, next⟩ := s
  simp only at hst
  cases op with
  | piece n bo =>
    refine ⟨fun s' h => ?_, fun s' l v h => ?_⟩
    · simp only [step, newSize] at h
      split at h
      · cases h
      · split at h
        · rename_i hadd; cases h
          rw [(addPiece_some hadd).1]
          exact fun l hl => hst l (List.mem_of_mem_tail hl)
        · cases h
    · simp only [step, newSize] at h
      split at h
      · cases h
      · split at h <;> cases h
  | address a =>
    refine ⟨fun s' h => ?_, fun s' l v h => ?_⟩ <;> simp only [step, newAddress] at h
    · split at h <;> (rename_i hh; split at hh <;> cases hh <;> cases h)
      intro l hl
      rcases List.mem_cons.1 hl with rfl | hl
      · simp
      · exact hst l hl
    · split at h <;> (rename_i hh; split at hh <;> cases hh <;> cases h)
  | addressIndex k a =>
    cases a with
    | none =>
      refine ⟨fun s' h => ?_, fun s' l v h => ?_⟩ <;> simp only [step, push1] at h <;> cases h
      simpa using hst
    | some a =>
      refine ⟨fun s' h => ?_, fun s' l v h => ?_⟩ <;> simp only [step, newAddress] at h
      · split at h <;> (rename_i hh; split at hh <;> cases hh <;> cases h)
        intro l hl
        rcases List.mem_cons.1 hl with rfl | hl
        · simp
        · exact hst l hl
      · split at h <;> (rename_i hh; split at hh <;> cases hh <;> cases h)
  | pick i =>
    refine ⟨fun s' h => ?_, fun s' l v h => ?_⟩ <;> simp only [step, push1] at h <;> split at h <;> cases h
    rename_i l0 hl0
    intro l hl
    rcases List.mem_cons.1 hl with rfl | hl
    · exact hst _ (List.mem_of_getElem? hl0)
    · exact hst l hl
  | plusConst c =>
    refine ⟨fun s' h => ?_, fun s' l v h => ?_⟩ <;>
      (rcases stack with _ | ⟨a, st⟩ <;> simp only [step, pop1, push1] at h <;> cases h)
    intro l hl
    rcases List.mem_cons.1 hl with rfl | hl
    · cases a <;> simp [plusConstant]
    · exact hst l (List.mem_cons_of_mem _ hl)
  | tls =>
    refine ⟨fun s' h => ?_, fun s' l v h => ?_⟩ <;>
      (rcases stack with _ | ⟨a, st⟩ <;> simp only [step, pop1, push1] at h <;> cases h)
    intro l hl
    rcases List.mem_cons.1 hl with rfl | hl
    · cases a <;> simp [tlsOf]
    · exact hst l (List.mem_cons_of_mem _ hl)
  | minus =>
    refine ⟨fun s' h => ?_, fun s' l v h => ?_⟩ <;>
      (rcases stack with _ | ⟨a, _ | ⟨b, st⟩⟩ <;> simp only [step, pop1] at h <;> try (first | (cases h; done) | skip)) <;>
      (split at h <;> first | (split at h <;> cases h) | cases h) <;>
      exact fun l hl => hst l (List.mem_cons_of_mem _ (List.mem_cons_of_mem _ hl))
  | deref k space =>
    cases space <;> refine ⟨fun s' h => ?_, fun s' l v h => ?_⟩ <;>
      (rcases stack with _ | ⟨a, _ | ⟨b, st⟩⟩ <;> simp only [step, pop1, push1] at h <;> cases h) <;> simp_all
  | rot =>
    refine ⟨fun s' h => ?_, fun s' l v h => ?_⟩ <;>
      (rcases stack with _ | ⟨a, _ | ⟨b, _ | ⟨c, st⟩⟩⟩ <;> simp only [step, pop1, push1] at h <;> cases h) <;> simp_all
  | _ =>
    refine ⟨fun s' h => ?_, fun s' l v h => ?_⟩ <;>
      (rcases stack with _ | ⟨a, _ | ⟨b, st⟩⟩ <;> simp only [step, pop1, push1] at h <;> cases h) <;> simp_all

theorem addressed_eval (size : Nat) (ops : List Oper) (out : List Piece) (h : evaluateSimple size ops = some (some out)) :
    Addressed out :=
  eval_inv (fun l => l ≠ .address none) (fun l => l ≠ .address none) (fun _ h => h) (by simp) size ops.length ops (Nat.le_refl _) (fun op _ => keeps_addressed size op)
    ⟨[], [], 0⟩ (by simp) (by simp) out h

/-- **C42 (recorded variable).** Evaluating a location of a local variable adds its pieces to those
recorded. The variable's address is that of the first piece ever recorded that is in memory at a
fixed address, and its size then is that piece's, in whole bytes, if known. -/
theorem C42_variable (size : Nat) (range : Range) (e : List Oper) (v w : LocalVariable)
    (h : localVariableLocation size range e v = some w) :
    w.name = v.name ∧ w.ty = v.ty ∧ w.source = v.source ∧
    (evaluateSimple size e = some none → w = v) ∧
    ∀ out, evaluateSimple size e = some (some out) →
      w.locations = v.locations ++ out.map (fun x => (range, x)) ∧
      (v.address.isSome → w.address = v.address ∧ w.size = v.size) ∧
      (v.address = none → firstAddress out = none → w.address = none ∧ w.size = v.size) ∧
      (v.address = none → ∀ a p, firstAddress out = some (a, p) →
        w.address = some a ∧ (∀ n, p.bitSize = some n → w.size = some ((n + 7) / 8)) ∧ (p.bitSize = none → w.size = v.size)) := by
  unfold localVariableLocation at h
  obtain ⟨r, hr, rfl⟩ := Option.map_eq_some_iff.1 h
  cases r with
  | none => exact ⟨rfl, rfl, rfl, fun _ => rfl, fun out e => (by rw [hr] at e; cases e)⟩
  | some pieces =>
    obtain ⟨a, b, c, d, f⟩ := foldl_noteAddress pieces v
    refine ⟨b, c, d, fun e => (by rw [hr] at e; cases e), fun out e => ?_⟩
    rw [hr] at e; cases e
    have hA : Addressed pieces := addressed_eval size e pieces hr
    refine ⟨by simp only [a], f, fun hv hf => ?_, fun hv a p hf => ?_⟩
    · have := (foldl_noteAddress_none pieces hA v hv).1 hf
      simp only
      rw [this]; exact ⟨hv, rfl⟩
    · have := (foldl_noteAddress_none pieces hA v hv).2 a p hf
      refine ⟨this.1, fun n hn => ?_, fun hn => ?_⟩
      · exact this.2.trans (by rw [hn]; rfl)
      · exact this.2.trans (by rw [hn]; rfl)

/-! ### C43: the report is not needlessly vague -/

/-- Operations whose result the code keeps track of. -/
def Tracked : Oper → Prop
  | .nop | .register _ | .stackValue | .uconst _ | .sconst _ | .regOffset _ _ | .frameOffset _ | .cfa | .address _
  | .addressIndex _ (some _) | .piece _ _ | .drop | .swap | .rot | .pick _ | .plusConst _ | .uninitialized => True
  | _ => False

/-- Pushes a fixed address. -/
def PushesAddress : Oper → Prop
  | .address _ | .addressIndex _ (some _) => True
  | _ => False

/-- A location with a known number that a constant can be added to. -/
def Addable : Location → Prop
  | .literal _ | .registerOffset _ _ | .frameOffset _ | .cfaOffset _ => True
  | _ => False

theorem keeps_tracked (Q : Location → Prop) (hQ : ∀ l, Q l → l ≠ .other) (size : Nat) (op : Oper) (ht : Tracked op)
    (hA : ∀ l, Addable l → Q l) (ha : PushesAddress op → ∀ a, Q (.address (some a)))
    (hp : ∀ c, op = .plusConst c → ∀ l, Q l → Addable l) : Keeps Q (fun l => l ≠ .other) size op := by
  intro s hst
  obtain ⟨stack, pieces, next⟩ := s
  simp only at hst
  cases op with
  | piece n bo =>
    refine ⟨fun s' h => ?_, fun s' l v h => ?_⟩
    · simp only [step, newSize] at h
      split at h
      · cases h
      · split at h
        · rename_i hadd; cases h
          rw [(addPiece_some hadd).1]
          exact fun l hl => hst l (List.mem_of_mem_tail hl)
        · cases h
    · simp only [step, newSize] at h
      split at h
      · cases h
      · split at h <;> cases h
  | address a =>
    refine ⟨fun s' h => ?_, fun s' l v h => ?_⟩ <;> simp only [step, newAddress] at h
    · split at h <;> (rename_i hh; split at hh <;> cases hh <;> cases h)
      intro l hl
      rcases List.mem_cons.1 hl with rfl | hl
      · exact ha trivial a
      · exact hst l hl
    · split at h <;> (rename_i hh; split at hh <;> cases hh <;> cases h)
  | addressIndex k a =>
    cases a with
    | none => exact ht.elim
    | some a =>
      refine ⟨fun s' h => ?_, fun s' l v h => ?_⟩ <;> simp only [step, newAddress] at h
      · split at h <;> (rename_i hh; split at hh <;> cases hh <;> cases h)
        intro l hl
        rcases List.mem_cons.1 hl with rfl | hl
        · exact ha trivial a
        · exact hst l hl
      · split at h <;> (rename_i hh; split at hh <;> cases hh <;> cases h)
  | pick i =>
    refine ⟨fun s' h => ?_, fun s' l v h => ?_⟩ <;> simp only [step, push1] at h <;> split at h <;> cases h
    rename_i l0 hl0
    intro l hl
    rcases List.mem_cons.1 hl with rfl | hl
    · exact hst _ (List.mem_of_getElem? hl0)
    · exact hst l hl
  | plusConst c =>
    refine ⟨fun s' h => ?_, fun s' l v h => ?_⟩ <;>
      (rcases stack with _ | ⟨a, st⟩ <;> simp only [step, pop1, push1] at h <;> cases h)
    intro l hl
    rcases List.mem_cons.1 hl with rfl | hl
    · have := hp c rfl a (hst a (by simp))
      cases a <;> first | exact this.elim | exact hA _ trivial
    · exact hst l (List.mem_cons_of_mem _ hl)
  | stackValue =>
    refine ⟨fun s' h => ?_, fun s' l v h => ?_⟩ <;>
      (rcases stack with _ | ⟨a, st⟩ <;> simp only [step, pop1] at h <;> cases h)
    exact ⟨hQ _ (hst _ (by simp)), fun l hl => hst l (List.mem_cons_of_mem _ hl)⟩
  | register r =>
    refine ⟨fun s' h => ?_, fun s' l v h => ?_⟩ <;> simp only [step] at h <;> cases h
    exact ⟨by simp, hst⟩
  | uconst v =>
    refine ⟨fun s' h => ?_, fun s' l v h => ?_⟩ <;> simp only [step, push1] at h <;> cases h
    exact List.forall_mem_cons.2 ⟨hA _ trivial, hst⟩
  | sconst v =>
    refine ⟨fun s' h => ?_, fun s' l v h => ?_⟩ <;> simp only [step, push1] at h <;> cases h
    exact List.forall_mem_cons.2 ⟨hA _ trivial, hst⟩
  | regOffset r o =>
    refine ⟨fun s' h => ?_, fun s' l v h => ?_⟩ <;> simp only [step, push1] at h <;> cases h
    exact List.forall_mem_cons.2 ⟨hA _ trivial, hst⟩
  | frameOffset o =>
    refine ⟨fun s' h => ?_, fun s' l v h => ?_⟩ <;> simp only [step, push1] at h <;> cases h
    exact List.forall_mem_cons.2 ⟨hA _ trivial, hst⟩
  | cfa =>
    refine ⟨fun s' h => ?_, fun s' l v h => ?_⟩ <;> simp only [step, push1] at h <;> cases h
    exact List.forall_mem_cons.2 ⟨hA _ trivial, hst⟩
  | rot =>
    refine ⟨fun s' h => ?_, fun s' l v h => ?_⟩ <;>
      (rcases stack with _ | ⟨a, _ | ⟨b, _ | ⟨c, st⟩⟩⟩ <;> simp only [step, pop1, push1] at h <;> cases h) <;> simp_all
  | swap =>
    refine ⟨fun s' h => ?_, fun s' l v h => ?_⟩ <;>
      (rcases stack with _ | ⟨a, _ | ⟨b, st⟩⟩ <;> simp only [step, pop1, push1] at h <;> cases h) <;> simp_all
  | drop =>
    refine ⟨fun s' h => ?_, fun s' l v h => ?_⟩ <;>
      (rcases stack with _ | ⟨a, st⟩ <;> simp only [step, pop1, push1] at h <;> cases h) <;> simp_all
  | nop => refine ⟨fun s' h => ?_, fun s' l v h => ?_⟩ <;> simp only [step] at h <;> cases h; exact hst
  | uninitialized => refine ⟨fun s' h => ?_, fun s' l v h => ?_⟩ <;> simp only [step] at h <;> cases h; exact hst
  | _ => exact ht.elim

/-- **C43 (precise).** An expression made of registers, constants, register-, frame- and CFA-relative
addresses, fixed addresses, pieces, stack shuffling and the addition of constants (but not to a fixed
address) is never reported as too complex: with `C43_sound`, every piece is reported exactly where
DWARF says it is. -/
theorem C43_precise (size : Nat) (e : List Oper) (ht : ∀ op ∈ e, Tracked op)
    (hx : (∀ op ∈ e, ¬ PushesAddress op) ∨ ∀ c, Oper.plusConst c ∉ e)
    (out : List Piece) (h : evaluateSimple size e = some (some out)) : ∀ p ∈ out, p.location ≠ .other := by
  have key : ∀ Q : Location → Prop, (∀ l, Q l → l ≠ .other) → (∀ op ∈ e, Keeps Q (fun l => l ≠ .other) size op) →
      ∀ p ∈ out, p.location ≠ .other := fun Q hQ hK =>
    eval_inv Q (fun l => l ≠ .other) hQ (by simp) size e.length e (Nat.le_refl _) hK ⟨[], [], 0⟩ (by simp) (by simp) out h
  rcases hx with hx | hx
  · refine key Addable (fun l hl => by cases l <;> first | exact hl.elim | simp) (fun op ho => ?_)
    exact keeps_tracked Addable (fun l hl => by cases l <;> first | exact hl.elim | simp) size op (ht op ho) (fun _ h => h)
      (fun hp => absurd hp (hx op ho)) (fun _ _ _ h => h)
  · refine key (fun l => l ≠ .other) (fun _ h => h) (fun op ho => ?_)
    exact keeps_tracked _ (fun _ h => h) size op (ht op ho) (fun l hl => by cases l <;> first | exact hl.elim | simp)
      (fun _ a => by simp) (fun c hc => absurd (hc ▸ ho) (hx c))

/-- Non-vacuity of `C43_precise`: the split value above meets the hypotheses. -/
example : ∀ op ∈ [Oper.register 3, .piece 32 none, .frameOffset (-20), .plusConst 4, .piece 16 (some 8), .piece 16 none],
    Tracked op ∧ ¬ PushesAddress op := by
  simp [Tracked, PushesAddress]

end Verif.Dwarf
