import Verif.Dwarf.EvalSpec
/-!
# Property theorems: C42 (location expressions), C43 (offset arithmetic)
-/
namespace Verif.Dwarf
open Verif.Item Verif.Print Verif.Frame Verif.Range
open Verif.Types (All2)

/-! ### Arithmetic modulo the address size -/

theorem wrap_congr (s : Nat) (a b : Int) (h : (2 ^ (8 * s) : Int) ∣ a - b) : wrap s a = wrap s b := by
  unfold wrap
  congr 1
  exact (Int.emod_eq_emod_iff_emod_sub_eq_zero).2 (Int.emod_eq_zero_of_dvd h)

theorem wrap_sub (s : Nat) (a : Int) : (2 ^ (8 * s) : Int) ∣ (wrap s a : Int) - a := by
  have hp : (0 : Int) < 2 ^ (8 * s) := Int.pow_pos (by decide)
  have : (wrap s a : Int) = a % 2 ^ (8 * s) := Int.toNat_of_nonneg (Int.emod_nonneg _ (by omega))
  rw [this]
  have := Int.emod_add_mul_ediv a (2 ^ (8 * s))
  exact ⟨-(a / 2 ^ (8 * s)), by rw [Int.mul_neg]; omega⟩

theorem pow_dvd (s : Nat) (hs : s ≤ 8) : (2 ^ (8 * s) : Int) ∣ 2 ^ 64 := by
  have : (2 ^ 64 : Int) = 2 ^ (8 * s) * 2 ^ (64 - 8 * s) := by
    rw [← Int.pow_add]; congr 1; omega
  exact ⟨_, this⟩

theorem asI64_sub (n : Nat) : (2 ^ 64 : Int) ∣ asI64 n - n := by
  unfold asI64
  split
  · exact ⟨0, by omega⟩
  · exact ⟨-1, by omega⟩

theorem asU64_sub (z : Int) : (2 ^ 64 : Int) ∣ (asU64 z : Int) - z := by
  have : (asU64 z : Int) = z % 2 ^ 64 := Int.toNat_of_nonneg (Int.emod_nonneg _ (by decide))
  rw [this]
  exact ⟨-(z / 2 ^ 64), by omega⟩

theorem addrMod_eq (s : Nat) : addrMod s = 2 ^ (8 * s) := by
  unfold addrMod
  split
  · rename_i h; subst h; rfl
  · rfl

theorem masked_sub (s : Nat) (hs : s ≤ 8) (n : Nat) : (2 ^ (8 * s) : Int) ∣ ((n % 2 ^ 64 % addrMod s : Nat) : Int) - n := by
  rw [addrMod_eq]
  have h1 : ((n % 2 ^ 64 % 2 ^ (8 * s) : Nat) : Int) = n % 2 ^ 64 % 2 ^ (8 * s) := by
    simp
  rw [h1, Int.emod_emod_of_dvd _ (pow_dvd s hs)]
  have := Int.emod_add_mul_ediv (n : Int) (2 ^ (8 * s))
  exact ⟨-((n : Int) / 2 ^ (8 * s)), by rw [Int.mul_neg]; omega⟩

theorem plusOffset_sub (s : Nat) (hs : s ≤ 8) (o : Int) (c : Nat) :
    (2 ^ (8 * s) : Int) ∣ plusOffset s o c - (o + c) := by
  unfold plusOffset
  have h1 := Int.dvd_trans (pow_dvd s hs) (asI64_sub ((asU64 o + c) % 2 ^ 64 % addrMod s))
  have h2 := masked_sub s hs (asU64 o + c)
  have h3 := Int.dvd_trans (pow_dvd s hs) (asU64_sub o)
  revert h1 h2 h3
  generalize (asU64 o + c) % 2 ^ 64 % addrMod s = m
  generalize asU64 o = u
  intro h1 h2 h3
  have := Int.dvd_add (Int.dvd_add h1 h2) h3
  have e : asI64 m - (o + c) = asI64 m - m + ((m : Int) - ((u + c : Nat) : Int)) + ((u : Int) - o) := by omega
  rw [e]; exact this

/-! ### The simulation -/

/-- A location on the symbolic stack stands for this number, or is too complex. -/
def Known (M : Machine) (s : Nat) (l : Location) (x : Nat) : Prop := l = .other ∨ Location.num M s l = some x

theorem offset_plus (s : Nat) (hs : s ≤ 8) (b o : Int) (c : Nat) :
    wrap s (b + plusOffset s o c) = wrap s ((wrap s (b + o) : Nat) + c) := by
  apply wrap_congr
  have h1 := plusOffset_sub s hs o c
  have h2 := wrap_sub s (b + o)
  have := Int.dvd_sub h1 h2
  have e : b + plusOffset s o c - ((wrap s (b + o) : Int) + c) =
      plusOffset s o c - (o + c) - ((wrap s (b + o) : Int) - (b + o)) := by omega
  rw [e]; exact this

theorem known_plus (M : Machine) (s : Nat) (hs : s ≤ 8) (c : Nat) (l : Location) (x : Nat) (h : Known M s l x) :
    Known M s (plusConstant s c l) (wrap s (x + c)) := by
  rcases h with rfl | h
  · exact .inl rfl
  · cases l with
    | literal v =>
      right
      simp only [Location.num, Option.some.injEq, plusConstant] at h ⊢
      subst h
      apply wrap_congr
      have h1 := masked_sub s hs (v + c)
      have h2 := wrap_sub s v
      revert h1
      generalize (v + c) % 2 ^ 64 % addrMod s = m
      intro h1
      have := Int.dvd_sub h1 h2
      have e : (m : Int) - ((wrap s v : Int) + c) = (m : Int) - ((v + c : Nat) : Int) - ((wrap s v : Int) - v) := by omega
      rw [e]; exact this
    | registerOffset r o =>
      right
      simp only [Location.num, Option.some.injEq, plusConstant] at h ⊢
      subst h; exact offset_plus s hs _ o c
    | frameOffset o =>
      right
      simp only [Location.num, Option.some.injEq, plusConstant] at h ⊢
      subst h; exact offset_plus s hs _ o c
    | cfaOffset o =>
      right
      simp only [Location.num, Option.some.injEq, plusConstant] at h ⊢
      subst h; exact offset_plus s hs _ o c
    | _ => exact .inl rfl

theorem wrap_asU64 (s : Nat) (hs : s ≤ 8) (v : Int) : wrap s (asU64 v) = wrap s v :=
  wrap_congr _ _ _ (Int.dvd_trans (pow_dvd s hs) (asU64_sub v))

theorem all2_get {R : α → β → Prop} {as : List α} {bs : List β} (h : All2 R as bs) (i : Nat) :
    (as[i]? = none ∧ bs[i]? = none) ∨ ∃ a b, as[i]? = some a ∧ bs[i]? = some b ∧ R a b := by
  induction h generalizing i with
  | nil => exact .inl ⟨rfl, rfl⟩
  | cons r _ ih =>
    cases i with
    | zero => exact .inr ⟨_, _, rfl, rfl, r⟩
    | succ i => simpa using ih i

theorem all2_snoc {R : α → β → Prop} {as : List α} {bs : List β} (h : All2 R as bs) (a : α) (b : β) (r : R a b) :
    All2 R (as ++ [a]) (bs ++ [b]) := by
  induction h with
  | nil => exact .cons r .nil
  | cons r' _ ih => exact .cons r' ih

theorem all2_nil_iff {R : α → β → Prop} {as : List α} {bs : List β} (h : All2 R as bs) : as = [] ↔ bs = [] := by
  cases h <;> simp

/-- The place a symbolic location describes. -/
def PlaceOf (M : Machine) (sz : Nat) (l : Location) (isValue : Bool) (pl : Place) : Prop :=
  l = .other ∨ (isValue = false ∧ ∃ r, l = .register r ∧ pl = .reg r) ∨
  (isValue = true ∧ ∃ x, Location.num M sz l = some x ∧ pl = .value x)

/-- What one step has to do with DWARF's meaning of the operation. -/
inductive StepOk (M : Machine) (sz : Nat) (s : St) (st : List Nat) (op : Oper) : Step → Prop
  | panic : StepOk M sz s st op .panic
  | next {stack st'} : stackOp M sz op st = some st' → All2 (Known M sz) stack st' →
      StepOk M sz s st op (.next { s with stack := stack })
  | piece {n bo s'} : op = .piece n bo →
      addPiece { s with stack := s.stack.tail } (s.stack.head?.getD .empty) (bo.getD 0) false (some n) = some s' →
      StepOk M sz s st op (.next s')
  | loc {stack st' l v pl} : placeOp op st = some (pl, st') → All2 (Known M sz) stack st' → PlaceOf M sz l v pl →
      StepOk M sz s st op (.loc { s with stack := stack } l v)
  | error : stackOp M sz op st = none → placeOp op st = none → (∀ n bo, op ≠ .piece n bo) → StepOk M sz s st op .error

theorem step_ok (M : Machine) (sz : Nat) (hs : sz ≤ 8) (s : St) (st : List Nat) (h : All2 (Known M sz) s.stack st)
    (op : Oper) (ho : Supported op) : StepOk M sz s st op (step sz s op) := by
  obtain ⟨stack, pieces, next⟩ := s
  simp only at h
  cases op with
  | nop => exact .next (stack := stack) rfl h
  | uninitialized => exact .next (stack := stack) rfl h
  | register r => exact .loc (stack := stack) rfl h (.inr (.inl ⟨rfl, r, rfl, rfl⟩))
  | implicitValue k => exact .loc (stack := stack) rfl h (.inl rfl)
  | implicitPointer k => exact .loc (stack := stack) rfl h (.inl rfl)
  | wasm k => exact .loc (stack := stack) rfl h (.inl rfl)
  | stackValue =>
    cases h with
    | nil => exact .error rfl rfl (by intros; simp)
    | cons r hh =>
      refine .loc (stack := _) rfl hh ?_
      rcases r with r | r
      · exact .inl r
      · exact .inr (.inr ⟨rfl, _, r, rfl⟩)
  | pushOther k => exact .next (stack := .other :: stack) rfl (.cons (.inl rfl) h)
  | uconst v => exact .next (stack := .literal v :: stack) rfl (.cons (.inr rfl) h)
  | sconst v =>
    exact .next (stack := .literal (asU64 v) :: stack) rfl (.cons (.inr (by simp only [Location.num]; rw [wrap_asU64 sz hs])) h)
  | regOffset r o => exact .next (stack := .registerOffset r o :: stack) rfl (.cons (.inr rfl) h)
  | frameOffset o => exact .next (stack := .frameOffset o :: stack) rfl (.cons (.inr rfl) h)
  | cfa => exact .next (stack := .cfaOffset 0 :: stack) rfl (.cons (.inr (by simp [Location.num])) h)
  | address a =>
    simp only [step, newAddress]
    by_cases ha : a = 2 ^ 64 - 1
    · rw [if_pos ha]; exact .panic
    · rw [if_neg ha]; exact .next (stack := .address (some a) :: stack) rfl (.cons (.inr rfl) h)
  | addressIndex k a =>
    cases a with
    | none => exact .next (stack := .other :: stack) rfl (.cons (.inl rfl) h)
    | some a =>
      simp only [step, newAddress]
      by_cases ha : a = 2 ^ 64 - 1
      · rw [if_pos ha]; exact .panic
      · rw [if_neg ha]; exact .next (stack := .address (some a) :: stack) rfl (.cons (.inr rfl) h)
  | tls =>
    cases h with
    | nil => exact .error rfl rfl (by intros; simp)
    | @cons l x ls xs r hh =>
      refine .next (stack := tlsOf l :: ls) rfl (.cons ?_ hh)
      rcases r with rfl | r
      · exact .inl rfl
      · cases l with
        | literal v =>
          right
          simp only [Location.num, Option.some.injEq, tlsOf] at r ⊢
          rw [r]
        | _ => exact .inl rfl
  | piece n bo =>
    simp only [step, newSize]
    by_cases hn : n = 2 ^ 64 - 1
    · rw [if_pos hn]; exact .panic
    · rw [if_neg hn]
      simp only
      split
      · rename_i s' hs'; exact .piece rfl hs'
      · exact .panic
  | drop =>
    cases h with
    | nil => exact .error rfl rfl (by intros; simp)
    | cons r hh => exact .next (stack := _) rfl hh
  | swap =>
    cases h with
    | nil => exact .error rfl rfl (by intros; simp)
    | cons r hh =>
      cases hh with
      | nil => exact .error rfl rfl (by intros; simp)
      | cons r2 hh => exact .next (stack := _ :: _ :: _) rfl (.cons r2 (.cons r hh))
  | rot =>
    cases h with
    | nil => exact .error rfl rfl (by intros; simp)
    | cons r hh =>
      cases hh with
      | nil => exact .error rfl rfl (by intros; simp)
      | cons r2 hh =>
        cases hh with
        | nil => exact .error rfl rfl (by intros; simp)
        | cons r3 hh => exact .next (stack := _ :: _ :: _ :: _) rfl (.cons r2 (.cons r3 (.cons r hh)))
  | pick i =>
    simp only [step]
    rcases all2_get h i with ⟨h1, h2⟩ | ⟨a, b, h1, h2, r⟩
    · rw [h1]
      refine .error ?_ rfl (by intros; simp)
      simp only [stackOp]
      rw [dif_neg]
      intro hl; rw [List.getElem?_eq_getElem hl] at h2; cases h2
    · rw [h1]
      refine .next (stack := a :: stack) (st' := b :: st) ?_ (.cons r h)
      obtain ⟨hl, e⟩ := List.getElem?_eq_some_iff.1 h2
      simp only [stackOp]
      rw [dif_pos hl, e]
  | plusConst c =>
    cases h with
    | nil => exact .error rfl rfl (by intros; simp)
    | cons r hh => exact .next (stack := _ :: _) rfl (.cons (known_plus M sz hs c _ _ r) hh)
  | plus => exact absurd ho (by simp [Supported])
  | minus => exact absurd ho (by simp [Supported])
  | branch k => exact absurd ho (by simp [Supported])
  | unary k =>
    cases h with
    | nil => exact .error rfl rfl (by intros; simp)
    | cons r hh => exact .next (stack := .other :: _) rfl (.cons (.inl rfl) hh)
  | binary k =>
    cases h with
    | nil => exact .error rfl rfl (by intros; simp)
    | cons r hh =>
      cases hh with
      | nil => exact .error rfl rfl (by intros; simp)
      | cons r2 hh => exact .next (stack := .other :: _) rfl (.cons (.inl rfl) hh)
  | deref k space =>
    cases space with
    | false =>
      cases h with
      | nil => exact .error rfl rfl (by intros; simp)
      | cons r hh => exact .next (stack := .other :: _) rfl (.cons (.inl rfl) hh)
    | true =>
      cases h with
      | nil => exact .error rfl rfl (by intros; simp)
      | cons r hh =>
        cases hh with
        | nil => exact .error rfl rfl (by intros; simp)
        | cons r2 hh => exact .next (stack := .other :: _) rfl (.cons (.inl rfl) hh)
  | bad => exact .error rfl rfl (by intros; simp)

theorem addPiece_some {s : St} {l : Location} {lo : Nat} {v : Bool} {n : Option Nat} {s' : St}
    (h : addPiece s l lo v n = some s') :
    s'.stack = s.stack ∧ s'.pieces = s.pieces ++ [⟨s.next, n, l, lo, v⟩] ∧ s'.next = s.next + n.getD 0 := by
  unfold addPiece at h
  split at h
  · cases h; exact ⟨rfl, rfl, rfl⟩
  · cases h

theorem stackOp_place (M : Machine) (sz : Nat) (op : Oper) (st st' : List Nat) (h : stackOp M sz op st = some st') :
    placeOp op st = none ∧ ∀ n bo, op ≠ .piece n bo := by
  cases op <;> first
    | (simp [stackOp] at h; done)
    | (refine ⟨?_, by intros; simp⟩; cases st <;> rfl)

theorem describes_place {M : Machine} {sz : Nat} {l : Location} {v : Bool} {pl : Place} (h : PlaceOf M sz l v pl)
    (bo : Nat) (n : Option Nat) (lo : Nat) : Describes M sz ⟨bo, n, l, lo, v⟩ ⟨n, pl, lo⟩ := by
  refine ⟨rfl, rfl, ?_⟩
  rcases h with h | ⟨h1, h2⟩ | ⟨rfl, x, h2, h3⟩
  · exact .inl h
  · exact .inr (.inr (.inl ⟨h1, h2⟩))
  · exact .inr (.inr (.inr ⟨x, h2, h3⟩))

theorem describes_mem {M : Machine} {sz : Nat} {l : Location} {x : Nat} (h : Known M sz l x) (bo : Nat) (n : Option Nat)
    (lo : Nat) : Describes M sz ⟨bo, n, l, lo, false⟩ ⟨n, .mem x, lo⟩ := by
  refine ⟨rfl, rfl, ?_⟩
  rcases h with h | h
  · exact .inl h
  · exact .inr (.inr (.inr ⟨x, h, rfl⟩))

theorem finish_ok (M : Machine) (sz : Nat) (s : St) (st : List Nat) (ps : List Part)
    (h : All2 (Known M sz) s.stack st) (hp : All2 (Describes M sz) s.pieces ps) (r : Option (List Piece))
    (hr : finish s = some r) : ∃ out qs, r = some out ∧ Denotes M sz [] st ps qs ∧ All2 (Describes M sz) out qs := by
  obtain ⟨stk, pcs, nx⟩ := s
  simp only at h hp
  unfold finish at hr
  simp only at hr
  split at hr
  · rename_i hpe
    have hps := (all2_nil_iff hp).1 hpe
    subst hps
    cases h with
    | nil => simp at hr; exact ⟨_, [], hr.symm, .none, hp⟩
    | @cons l x ls xs rel hh =>
      simp only at hr
      obtain ⟨s', hs', rfl⟩ := Option.map_eq_some_iff.1 hr
      obtain ⟨-, h2, -⟩ := addPiece_some hs'
      simp only [hpe, List.nil_append] at h2
      exact ⟨_, _, rfl, .mem, by rw [h2]; exact .cons (describes_mem rel _ _ _) .nil⟩
  · rename_i hpe
    cases hr
    exact ⟨_, ps, rfl, .done (fun e => hpe ((all2_nil_iff hp).2 e)), hp⟩

theorem evalLoop_ok (M : Machine) (sz : Nat) (hs : sz ≤ 8) (n : Nat) : ∀ (ops : List Oper), ops.length ≤ n → (∀ op ∈ ops, Supported op) →
    ∀ (s : St) (st : List Nat) (ps : List Part),
    All2 (Known M sz) s.stack st → All2 (Describes M sz) s.pieces ps →
    ∀ r, evalLoop sz ops s = some r →
      (∀ out, r = some out → ∃ qs, Denotes M sz ops st ps qs ∧ All2 (Describes M sz) out qs) ∧
      (r = none → ∀ qs, ¬ Denotes M sz ops st ps qs) := by
  induction n with
  | zero =>
    intro ops hl ho s st ps h hp r hr
    have : ops = [] := List.length_eq_zero_iff.1 (by omega)
    subst this
    obtain ⟨out, qs, rfl, h1, h2⟩ := finish_ok M sz s st ps h hp r hr
    exact ⟨fun o e => by cases e; exact ⟨qs, h1, h2⟩, fun e => by cases e⟩
  | succ n ih =>
    intro ops hl ho s st ps h hp r hr
    cases ops with
    | nil =>
      obtain ⟨out, qs, rfl, h1, h2⟩ := finish_ok M sz s st ps h hp r hr
      exact ⟨fun o e => by cases e; exact ⟨qs, h1, h2⟩, fun e => by cases e⟩
    | cons op ops =>
      have hok := step_ok M sz hs s st h op (ho op (by simp))
      have ho' : ∀ o ∈ ops, Supported o := fun o hm => ho o (List.mem_cons_of_mem _ hm)
      simp only [List.length_cons] at hl
      obtain ⟨stk, pcs, nx⟩ := s
      simp only at h hp
      rw [evalLoop] at hr
      generalize step sz ⟨stk, pcs, nx⟩ op = res at hok hr
      cases hok with
      | panic => cases hr
      | @next stack st' h1 h2 =>
        simp only at hr
        obtain ⟨a, b⟩ := ih ops (by omega) ho' ⟨stack, pcs, nx⟩ st' ps h2 hp r hr
        obtain ⟨hnp, hnpc⟩ := stackOp_place M sz op st st' h1
        refine ⟨fun out e => ?_, fun e qs hd => ?_⟩
        · obtain ⟨qs, h3, h4⟩ := a out e
          exact ⟨qs, .stack h1 h3, h4⟩
        · cases hd with
          | stack h1' h3 => rw [h1] at h1'; cases h1'; exact b e qs h3
          | memPiece => exact hnpc _ _ rfl
          | emptyPiece => exact hnpc _ _ rfl
          | placePiece h1' => rw [hnp] at h1'; cases h1'
          | place h1' => rw [hnp] at h1'; cases h1'
      | @piece k bo s' e hadd =>
        subst e
        simp only at hr
        obtain ⟨h1, h2, h3⟩ := addPiece_some hadd
        simp only at h1 h2
        cases h with
        | nil =>
          simp only [List.tail_nil, List.tail_cons, List.head?_nil, List.head?_cons, Option.getD_none, Option.getD_some] at h1 h2
          obtain ⟨a, b⟩ := ih ops (by omega) ho' s' [] (ps ++ [⟨some k, .empty, bo.getD 0⟩]) (by rw [h1]; exact .nil)
            (by rw [h2]; exact all2_snoc hp _ _ ⟨rfl, rfl, .inr (.inl ⟨rfl, rfl, rfl⟩)⟩) r hr
          refine ⟨fun out e => ?_, fun e qs hd => ?_⟩
          · obtain ⟨qs, h3, h4⟩ := a out e
            exact ⟨qs, .emptyPiece h3, h4⟩
          · cases hd with
            | stack h1' => simp [stackOp] at h1'
            | emptyPiece h3 => exact b e qs h3
            | placePiece h1' => simp [placeOp] at h1'
            | place h1' => simp [placeOp] at h1'
        | @cons l x ls xs rel hh =>
          simp only [List.tail_nil, List.tail_cons, List.head?_nil, List.head?_cons, Option.getD_none, Option.getD_some] at h1 h2
          obtain ⟨a, b⟩ := ih ops (by omega) ho' s' xs (ps ++ [⟨some k, .mem x, bo.getD 0⟩]) (by rw [h1]; exact hh)
            (by rw [h2]; exact all2_snoc hp _ _ (describes_mem rel _ _ _)) r hr
          refine ⟨fun out e => ?_, fun e qs hd => ?_⟩
          · obtain ⟨qs, h3, h4⟩ := a out e
            exact ⟨qs, .memPiece h3, h4⟩
          · cases hd with
            | stack h1' => simp [stackOp] at h1'
            | memPiece h3 => exact b e qs h3
            | placePiece h1' => simp [placeOp] at h1'
            | place h1' => simp [placeOp] at h1'
      | @loc stack st' l v pl h1 h2 h3 =>
        have hno : ∀ st'', stackOp M sz op st ≠ some st'' := fun st'' e => by
          have := (stackOp_place M sz op st st'' e).1; rw [h1] at this; cases this
        have hnpc : ∀ n bo, op ≠ .piece n bo := by rintro n bo rfl; simp [placeOp] at h1
        simp only at hr
        cases ops with
        | nil =>
          simp only at hr
          split at hr
          · rename_i hpe
            cases hr
            refine ⟨fun out e => (by cases e), fun _ qs hd => ?_⟩
            cases hd with
            | stack h1' => exact hno _ h1'
            | memPiece => exact hnpc _ _ rfl
            | emptyPiece => exact hnpc _ _ rfl
            | place h1' => exact hpe ((all2_nil_iff hp).2 rfl)
          · rename_i hpe
            have hpe : pcs = [] := by simpa using hpe
            have hps := (all2_nil_iff hp).1 hpe
            subst hps
            obtain ⟨s', hs', hf⟩ := Option.bind_eq_some_iff.1 hr
            obtain ⟨-, h5, -⟩ := addPiece_some hs'
            simp only [hpe, List.nil_append] at h5
            unfold finish at hf
            rw [if_neg (by rw [h5]; simp)] at hf
            cases hf
            refine ⟨fun out e => ?_, fun e => (by cases e)⟩
            cases e
            exact ⟨_, .place h1, by rw [h5]; exact .cons (describes_place h3 _ _ _) .nil⟩
        | cons op2 ops =>
          by_cases hpc : ∃ k bo, op2 = .piece k bo
          · obtain ⟨k, bo, rfl⟩ := hpc
            simp only [newSize] at hr
            split at hr
            · cases hr
            · rename_i k' hk
              have : k' = some k := by
                split at hk
                · cases hk
                · cases hk; rfl
              subst this
              split at hr
              · rename_i s' hadd
                obtain ⟨a1, a2, -⟩ := addPiece_some hadd
                simp only at a1 a2
                obtain ⟨a, b⟩ := ih ops (by simp at hl; omega) (fun o hm => ho' o (List.mem_cons_of_mem _ hm)) s' st'
                  (ps ++ [⟨some k, pl, bo.getD 0⟩]) (by rw [a1]; exact h2)
                  (by rw [a2]; exact all2_snoc hp _ _ (describes_place h3 _ _ _)) r hr
                refine ⟨fun out e => ?_, fun e qs hd => ?_⟩
                · obtain ⟨qs, h3, h4⟩ := a out e
                  exact ⟨qs, .placePiece h1 h3, h4⟩
                · cases hd with
                  | stack h1' => exact hno _ h1'
                  | memPiece => exact hnpc _ _ rfl
                  | emptyPiece => exact hnpc _ _ rfl
                  | placePiece h1' h3' => rw [h1] at h1'; cases h1'; exact b e qs h3'
              · cases hr
          · have : r = none := by
              cases op2 <;> first | (simp only [Option.some.injEq] at hr; exact hr.symm) | exact absurd ⟨_, _, rfl⟩ hpc
            subst this
            refine ⟨fun out e => (by cases e), fun _ qs hd => ?_⟩
            cases hd with
            | stack h1' => exact hno _ h1'
            | memPiece => exact hnpc _ _ rfl
            | emptyPiece => exact hnpc _ _ rfl
            | placePiece => exact hpc ⟨_, _, rfl⟩
      | error h1 h2 h3 =>
        simp only [Option.some.injEq] at hr
        subst hr
        refine ⟨fun out e => (by cases e), fun _ qs hd => ?_⟩
        cases hd with
        | stack h1' => rw [h1] at h1'; cases h1'
        | memPiece => exact h3 _ _ rfl
        | emptyPiece => exact h3 _ _ rfl
        | placePiece h1' => rw [h2] at h1'; cases h1'
        | place h1' => rw [h2] at h1'; cases h1'

/-- **C43 (soundness).** For every supported expression, machine and address size: if pieces are
reported, DWARF gives the expression a meaning, and each reported piece has the extent and describes
the place of the corresponding part (or says it is too complex). -/
theorem C43_sound (M : Machine) (size : Nat) (hs : size ≤ 8) (e : List Oper) (he : ∀ op ∈ e, Supported op)
    (out : List Piece) (h : evaluateSimple size e = some (some out)) :
    ∃ parts, Denotes M size e [] [] parts ∧ All2 (Describes M size) out parts :=
  (evalLoop_ok M size hs e.length e (Nat.le_refl _) he ⟨[], [], 0⟩ [] [] .nil .nil _ h).1 out rfl

/-- **C42 (errors).** For every supported expression: an error is returned only if DWARF gives the
expression no meaning, on any machine. -/
theorem C42_error (M : Machine) (size : Nat) (hs : size ≤ 8) (e : List Oper) (he : ∀ op ∈ e, Supported op)
    (h : evaluateSimple size e = some none) : ∀ parts, ¬ Denotes M size e [] [] parts :=
  (evalLoop_ok M size hs e.length e (Nat.le_refl _) he ⟨[], [], 0⟩ [] [] .nil .nil _ h).2 rfl

/-- DWARF's meaning of an expression is unique, so that the parts of `C43_sound` are *the* parts. -/
theorem denotes_unique (M : Machine) (size : Nat) (e : List Oper) (st : List Nat) (ps qs qs' : List Part)
    (h : Denotes M size e st ps qs) (h' : Denotes M size e st ps qs') : qs = qs' := by
  have notPiece : ∀ {op st st' n bo}, stackOp M size op st = some st' → op ≠ .piece n bo := fun h => (stackOp_place M size _ _ _ h).2 _ _
  induction h generalizing qs' with
  | stack h1 _ ih =>
    cases h' with
    | stack h1' h2' => rw [h1] at h1'; cases h1'; exact ih _ h2'
    | memPiece => exact absurd rfl (notPiece h1)
    | emptyPiece => exact absurd rfl (notPiece h1)
    | placePiece h1' => rw [(stackOp_place M size _ _ _ h1).1] at h1'; cases h1'
    | place h1' => rw [(stackOp_place M size _ _ _ h1).1] at h1'; cases h1'
  | memPiece _ ih =>
    cases h' with
    | stack h1' => simp [stackOp] at h1'
    | memPiece h2' => exact ih _ h2'
    | placePiece h1' => simp [placeOp] at h1'
    | place h1' => simp [placeOp] at h1'
  | emptyPiece _ ih =>
    cases h' with
    | stack h1' => simp [stackOp] at h1'
    | emptyPiece h2' => exact ih _ h2'
    | placePiece h1' => simp [placeOp] at h1'
    | place h1' => simp [placeOp] at h1'
  | placePiece h1 _ ih =>
    cases h' with
    | stack h1' => rw [(stackOp_place M size _ _ _ h1').1] at h1; cases h1
    | memPiece => simp [placeOp] at h1
    | emptyPiece => simp [placeOp] at h1
    | placePiece h1' h2' => rw [h1] at h1'; cases h1'; exact ih _ h2'
  | place h1 =>
    cases h' with
    | stack h1' => rw [(stackOp_place M size _ _ _ h1').1] at h1; cases h1
    | memPiece => simp [placeOp] at h1
    | emptyPiece => simp [placeOp] at h1
    | place h1' => rw [h1] at h1'; cases h1'; rfl
  | mem =>
    cases h' with
    | mem => rfl
    | done h => exact absurd rfl h
  | none =>
    cases h' with
    | none => rfl
    | done h => exact absurd rfl h
  | done h =>
    cases h' with
    | mem => exact absurd rfl h
    | none => exact absurd rfl h
    | done => rfl

end Verif.Dwarf
