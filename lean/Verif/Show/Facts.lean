import Verif.Show.FactsSpec
import Verif.Show.TypeTotal
/-! # Reading numbers and items -/
namespace Verif.Show
open Verif.Print Verif.Item Verif.Namespace Verif.Types Verif.Layout Verif.Path Verif.Opts Verif.Merge

/-! ## Cutting texts -/

theorem cut_eq {α : Type} {p : α → Prop} {a r a' r' : List α} (h : a ++ r = a' ++ r')
    (ha : ∀ x ∈ a, p x) (ha' : ∀ x ∈ a', p x) (hr : ∀ x, r.head? = some x → ¬ p x)
    (hr' : ∀ x, r'.head? = some x → ¬ p x) : a = a' ∧ r = r' := by
  induction a generalizing a' with
  | nil =>
    cases a' with
    | nil => exact ⟨rfl, h⟩
    | cons y ys =>
      simp only [List.nil_append, List.cons_append] at h
      exact absurd (ha' y (List.mem_cons_self ..)) (hr y (by rw [h]; rfl))
  | cons x xs ih =>
    cases a' with
    | nil =>
      simp only [List.nil_append, List.cons_append] at h
      exact absurd (ha x (List.mem_cons_self ..)) (hr' x (by rw [← h]; rfl))
    | cons y ys =>
      simp only [List.cons_append, List.cons.injEq] at h
      obtain ⟨h1, h2⟩ := ih h.2 (fun z hz => ha z (List.mem_cons_of_mem _ hz))
        (fun z hz => ha' z (List.mem_cons_of_mem _ hz))
      exact ⟨by rw [h.1, h1], h2⟩

theorem cut_at {c : Nat} {a b a' b' : Str} (ha : c ∉ a) (ha' : c ∉ a') (h : a ++ c :: b = a' ++ c :: b') :
    a = a' ∧ b = b' := by
  obtain ⟨h1, h2⟩ := cut_eq (p := fun x => x ≠ c) h (fun x hx e => ha (e ▸ hx)) (fun x hx e => ha' (e ▸ hx))
    (fun x hx => by simp at hx; simp [hx]) (fun x hx => by simp at hx; simp [hx])
  exact ⟨h1, (List.cons.inj h2).2⟩

/-! ## Numbers -/

theorem dec_digits (n : Nat) : ∀ c ∈ dec n, 48 ≤ c ∧ c ≤ 57 := digits_range n

theorem decimal_dec (n : Nat) : Decimal (dec n) n := by
  refine ⟨dec_ne_nil n, dec_digits n, ?_⟩
  have := Nat.ofDigitChars_ten_toDigits (n := n)
  simp only [Nat.ofDigitChars] at this
  simp only [decimalValue, dec, List.foldl_map]
  exact this

theorem Decimal.unique {s : Str} {n m : Nat} (h : Decimal s n) (h' : Decimal s m) : n = m :=
  h.value.symm.trans h'.value

theorem Decimal.not_mem {s : Str} {n : Nat} (h : Decimal s n) {c : Nat} (hc : c < 48 ∨ 57 < c) : c ∉ s := by
  intro hm
  have := h.digits c hm
  omega

theorem bitText_formatBit (n : Nat) : BitText (formatBit n) n := by
  unfold formatBit
  split
  · rename_i h
    have := BitText.bytes (decimal_dec (n / 8))
    rwa [show 8 * (n / 8) = n by omega] at this
  · rename_i h
    have := BitText.bits (decimal_dec (n / 8)) (decimal_dec (n % 8)) (by omega) (by omega)
    rwa [show 8 * (n / 8) + n % 8 = n by omega] at this

theorem k_dot : k "." = [46] := by decide
theorem k_minus : k "-" = [45] := by decide

theorem BitText.unique {s : Str} {n m : Nat} (h : BitText s n) (h' : BitText s m) : n = m := by
  cases h with
  | bytes h =>
    generalize hs : s = t at h'
    cases h' with
    | bytes h' => subst hs; rw [h.unique h']
    | bits a b _ _ =>
      rw [hs] at h
      exact absurd (show 46 ∈ _ by simp [k_dot]) (h.not_mem (c := 46) (by omega))
  | @bits s q t r a b _ _ =>
    generalize hs : s ++ k "." ++ t = u at h'
    cases h' with
    | bytes h' =>
      rw [← hs] at h'
      exact absurd (show 46 ∈ _ by simp [k_dot]) (h'.not_mem (c := 46) (by omega))
    | bits a' b' _ _ =>
      simp only [k_dot, List.append_assoc, List.cons_append, List.nil_append] at hs
      obtain ⟨h1, h2⟩ := cut_at (a.not_mem (by omega)) (a'.not_mem (by omega)) hs
      subst h1; subst h2
      rw [a.unique a', b.unique b']

theorem BitText.not_mem {s : Str} {n : Nat} (h : BitText s n) {c : Nat} (hc : c < 46 ∨ 57 < c) : c ∉ s := by
  cases h with
  | bytes h => exact h.not_mem (by omega)
  | bits a b _ _ =>
    simp only [k_dot, List.mem_append, List.mem_singleton, not_or]
    exact ⟨⟨a.not_mem (by omega), by omega⟩, b.not_mem (by omega)⟩

theorem BitText.ne_nil {s : Str} {n : Nat} (h : BitText s n) : s ≠ [] := by
  cases h with
  | bytes h => exact h.nonempty
  | bits a b _ _ => simp [a.nonempty]

theorem SizeText.not_mem {s : Str} {n : Option Nat} (h : SizeText s n) : 93 ∉ s := by
  cases h with
  | known h => exact h.not_mem (by omega)
  | unknown => decide

theorem SizeText.unique {s : Str} {n m : Option Nat} (h : SizeText s n) (h' : SizeText s m) : n = m := by
  cases h with
  | known h =>
    generalize hs : s = t at h'
    cases h' with
    | known h' => subst hs; rw [h.unique h']
    | unknown =>
      rw [hs] at h
      exact absurd (show 63 ∈ k "??" by decide) (h.not_mem (by omega))
  | unknown =>
    generalize hs : k "??" = t at h'
    cases h' with
    | known h' =>
      rw [← hs] at h'
      exact absurd (show 63 ∈ k "??" by decide) (h'.not_mem (by omega))
    | unknown => rfl

theorem IntText.unique {s : Str} {n m : Int} (h : IntText s n) (h' : IntText s m) : n = m := by
  cases h with
  | pos h =>
    generalize hs : s = t at h'
    cases h' with
    | pos h' => subst hs; rw [h.unique h']
    | neg h' _ =>
      rw [hs] at h
      exact absurd (show 45 ∈ _ by simp [k_minus]) (h.not_mem (c := 45) (by omega))
  | @neg s n h _ =>
    generalize hs : k "-" ++ s = t at h'
    cases h' with
    | pos h' =>
      rw [← hs] at h'
      exact absurd (show 45 ∈ _ by simp [k_minus]) (h'.not_mem (c := 45) (by omega))
    | neg h' _ =>
      simp only [k_minus, List.cons_append, List.nil_append, List.cons.injEq, true_and] at hs
      subst hs
      rw [h.unique h']

theorem IntText.not_mem {s : Str} {n : Int} (h : IntText s n) {c : Nat} (hc : c < 45 ∨ 57 < c) : c ∉ s := by
  cases h with
  | pos h => exact h.not_mem (by omega)
  | neg h _ =>
    simp only [k_minus, List.mem_append, List.mem_singleton, not_or]
    exact ⟨by omega, h.not_mem (by omega)⟩

/-! ## Items -/

theorem k_open : k "[" = [91] := by decide
theorem k_close : k "]\t" = [93, 9] := by decide

theorem itemReads_line (s : Side) (l : Layout) : ItemReads s l (itemLine s l) := by
  unfold itemLine
  split
  · exact .padding ‹_› (bitText_formatBit _) (bitText_formatBit _)
  · rename_i m h
    refine .member h (bitText_formatBit _) ?_
    cases memberBitSize s.tsz m with
    | none => exact .unknown
    | some n => exact .known (bitText_formatBit n)
  · exact .variantPart ‹_› (bitText_formatBit _) (bitText_formatBit _)
  · exact .base ‹_› (bitText_formatBit _) (bitText_formatBit _)

/-- What follows the offset and size. -/
inductive Rest (s : Side) (l : Layout) : Nat → Option Nat → Str → Prop
  | padding : l.item = .padding → Rest s l l.bitOffset (some (l.bitSize.get.getD 0)) (k "<padding>")
  | member {m} : l.item = .member m →
      Rest s l m.bitOffset (memberBitSize s.tsz m) (m.name.getD (k "<anon>") ++ k ": " ++ (s.tref m.ty).text')
  | variantPart {v} : l.item = .variantPart v →
      Rest s l l.bitOffset (some (l.bitSize.get.getD 0)) (k "<variant part>")
  | base {i} : l.item = .inherit i →
      Rest s l l.bitOffset (some (l.bitSize.get.getD 0)) (k "<inherit>: " ++ (s.tref i.ty).text')

theorem ItemReads.rest {s : Side} {l : Layout} {t : Str} (h : ItemReads s l t) :
    ∃ o z n sz r, t = o ++ 91 :: (z ++ 93 :: 9 :: r) ∧ BitText o n ∧ SizeText z sz ∧ Rest s l n sz r := by
  have e1 : k "]\t<padding>" = [93, 9] ++ k "<padding>" := by decide
  have e2 : k "]\t<variant part>" = [93, 9] ++ k "<variant part>" := by decide
  have e3 : k "]\t<inherit>: " = [93, 9] ++ k "<inherit>: " := by decide
  cases h with
  | padding h a b => exact ⟨_, _, _, _, _, by simp [k_open, e1], a, .known b, .padding h⟩
  | member h a b => exact ⟨_, _, _, _, _, by simp [k_open, k_close], a, b, .member h⟩
  | variantPart h a b => exact ⟨_, _, _, _, _, by simp [k_open, e2], a, .known b, .variantPart h⟩
  | base h a b => exact ⟨_, _, _, _, _, by simp [k_open, e3], a, .known b, .base h⟩

/-- The name of the item, if it has one, is a name as in source code. -/
def PlainItem (l : Layout) : Prop := ∀ m, l.item = .member m → Plain m.name

theorem shown_name {n n' : Option Str} (h : Plain n) (h' : Plain n') {r r' : Str}
    (e : n.getD (k "<anon>") ++ 58 :: r = n'.getD (k "<anon>") ++ 58 :: r') : n = n' ∧ r = r' := by
  have hc : ∀ n, Plain n → 58 ∉ n.getD (k "<anon>") := by
    intro n h
    cases n with
    | none => decide
    | some s => exact (h s rfl).2.1
  obtain ⟨h1, h2⟩ := cut_at (hc n h) (hc n' h') e
  refine ⟨?_, h2⟩
  cases n with
  | none =>
    cases n' with
    | none => rfl
    | some s =>
      simp only [Option.getD_none, Option.getD_some] at h1
      exact absurd (h1 ▸ (by decide : 60 ∈ k "<anon>")) (h' s rfl).2.2.1
  | some s =>
    cases n' with
    | none =>
      simp only [Option.getD_none, Option.getD_some] at h1
      exact absurd (h1 ▸ (by decide : 60 ∈ k "<anon>")) (h s rfl).2.2.1
    | some s' => simpa using h1

theorem shown_first {n : Option Str} (h : Plain n) {r t : Str} {c : Nat} (hc : c ≠ 97)
    (e : n.getD (k "<anon>") ++ r = 60 :: c :: t) : False := by
  cases n with
  | none =>
    have : k "<anon>" = [60, 97, 110, 111, 110, 62] := by decide
    simp only [Option.getD_none, this, List.cons_append, List.cons.injEq] at e
    exact hc e.2.1.symm
  | some s =>
    obtain ⟨h1, -, h2, -⟩ := h s rfl
    cases s with
    | nil => exact h1 rfl
    | cons a s =>
      simp only [Option.getD_some, List.cons_append, List.cons.injEq] at e
      exact h2 (by simp [e.1])

theorem Rest.same {s s' : Side} {l l' : Layout} {n : Nat} {sz : Option Nat} {r : Str} (h : Rest s l n sz r)
    (h' : Rest s' l' n sz r) (hp : PlainItem l) (hp' : PlainItem l') :
    SameItem s s' (fun _ _ => True) (fun _ _ _ _ => True) l l' := by
  have e1 : k "<padding>" = [60, 112, 97, 100, 100, 105, 110, 103, 62] := by decide
  have e2 : k "<variant part>" = [60, 118, 97, 114, 105, 97, 110, 116, 32, 112, 97, 114, 116, 62] := by decide
  have e3 : k "<inherit>: " = [60, 105, 110, 104, 101, 114, 105, 116, 62, 58, 32] := by decide
  have e4 : k ": " = [58, 32] := by decide
  cases h with
  | padding h =>
    generalize ho : l.bitOffset = a at h'
    generalize hz : some (l.bitSize.get.getD 0) = z at h'
    generalize hr : k "<padding>" = r at h'
    cases h' with
    | padding h' => exact .padding h h' ho (Option.some.inj hz)
    | member h' =>
      rw [e1, e4, List.append_assoc] at hr
      exact (shown_first (hp' _ h') (by decide) hr.symm).elim
    | variantPart h' => simp [e1, e2] at hr
    | base h' => simp [e1, e3] at hr
  | @member m h =>
    generalize ho : m.bitOffset = a at h'
    generalize hz : memberBitSize s.tsz m = z at h'
    generalize hr : m.name.getD (k "<anon>") ++ k ": " ++ (s.tref m.ty).text' = r at h'
    rw [List.append_assoc, e4] at hr
    cases h' with
    | padding h' => rw [e1] at hr; exact (shown_first (hp _ h) (by decide) hr).elim
    | member h' =>
      rw [e4, List.append_assoc] at hr
      obtain ⟨h1, h2⟩ := shown_name (hp _ h) (hp' _ h') hr
      exact .member h h' ho hz h1 (by simpa using h2) trivial
    | variantPart h' => rw [e2] at hr; exact (shown_first (hp _ h) (by decide) hr).elim
    | base h' => rw [e3] at hr; exact (shown_first (hp _ h) (by decide) hr).elim
  | variantPart h =>
    generalize ho : l.bitOffset = a at h'
    generalize hz : some (l.bitSize.get.getD 0) = z at h'
    generalize hr : k "<variant part>" = r at h'
    cases h' with
    | padding h' => simp [e1, e2] at hr
    | member h' =>
      rw [e2, e4, List.append_assoc] at hr
      exact (shown_first (hp' _ h') (by decide) hr.symm).elim
    | variantPart h' => exact .variantPart h h' ho (Option.some.inj hz) trivial
    | base h' => simp [e2, e3] at hr
  | @base i h =>
    generalize ho : l.bitOffset = a at h'
    generalize hz : some (l.bitSize.get.getD 0) = z at h'
    generalize hr : k "<inherit>: " ++ (s.tref i.ty).text' = r at h'
    cases h' with
    | padding h' => simp [e1, e3] at hr
    | member h' =>
      rw [e3, e4, List.append_assoc] at hr
      exact (shown_first (hp' _ h') (by decide) hr.symm).elim
    | variantPart h' => simp [e2, e3] at hr
    | base h' => exact .base h h' ho (Option.some.inj hz) (by simpa using hr)

theorem ItemReads.same {s s' : Side} {l l' : Layout} {t : Str} (h : ItemReads s l t) (h' : ItemReads s' l' t)
    (hp : PlainItem l) (hp' : PlainItem l') : SameItem s s' (fun _ _ => True) (fun _ _ _ _ => True) l l' := by
  obtain ⟨o, z, n, sz, r, rfl, a, b, c⟩ := h.rest
  obtain ⟨o', z', n', sz', r', e, a', b', c'⟩ := h'.rest
  obtain ⟨h1, h2⟩ := cut_at (a.not_mem (by omega)) (a'.not_mem (by omega)) e
  obtain ⟨h3, h4⟩ := cut_at b.not_mem b'.not_mem h2
  simp only [List.cons.injEq, true_and] at h4
  subst h1 h3 h4
  obtain rfl := a.unique a'
  obtain rfl := b.unique b'
  exact c.same c' hp hp'

/-! ## Variants -/

theorem variantReads_val (v : Variant) : VariantReads v (variantVal v).text' := by
  simp only [variantVal, text_vals, List.flatMap_cons, List.flatMap_nil, List.append_nil]
  cases hd : v.discrValue with
  | none =>
    have := VariantReads.default hd
    cases hn : v.name <;> simp only [hn, Option.map_none, Option.map_some, Option.getD_none, Option.getD_some] at this <;>
      exact this
  | some d =>
    have := VariantReads.value hd (decimal_dec d)
    rw [List.append_assoc, List.append_assoc, ← List.append_assoc (k "<")] at this
    cases hn : v.name <;> simp only [hn, Option.map_none, Option.map_some, Option.getD_none, Option.getD_some] at this <;>
      exact this

theorem VariantReads.same {v v' : Variant} {t : Str} (h : VariantReads v t) (h' : VariantReads v' t)
    (hp : Plain v.name) (hp' : Plain v'.name) : v.name = v'.name ∧ v.discrValue = v'.discrValue := by
  have key : ∀ (v : Variant) t, VariantReads v t → ∃ r, t = (v.name.map (· ++ k ": ")).getD [] ++ 60 :: r ∧
      ((v.discrValue = none ∧ r = k "default>") ∨ ∃ d s, v.discrValue = some d ∧ Decimal s d ∧ r = s ++ k ">") := by
    intro v t h
    cases h with
    | default h => exact ⟨k "default>", rfl, .inl ⟨h, rfl⟩⟩
    | value h hd => exact ⟨_, by simp only [List.append_assoc]; rfl, .inr ⟨_, _, h, hd, rfl⟩⟩
  have nomem : ∀ (v : Variant), Plain v.name → 60 ∉ (v.name.map (· ++ k ": ")).getD [] := by
    intro v hp
    cases hn : v.name with
    | none => simp
    | some s =>
      simp only [Option.map_some, Option.getD_some, List.mem_append, not_or]
      exact ⟨(hp s hn).2.2.1, by decide⟩
  obtain ⟨r, rfl, hr⟩ := key v t h
  obtain ⟨r', e, hr'⟩ := key v' _ h'
  obtain ⟨e1, rfl⟩ := cut_at (nomem v hp) (nomem v' hp') e
  constructor
  · cases hn : v.name with
    | none =>
      cases hn' : v'.name with
      | none => rfl
      | some s => simp [hn, hn', k, Str.ofString] at e1
    | some s =>
      cases hn' : v'.name with
      | none => simp [hn, hn', k, Str.ofString] at e1
      | some s' =>
        simp only [hn, hn', Option.map_some, Option.getD_some] at e1
        rw [List.append_cancel_right e1]
  · rcases hr with ⟨h1, rfl⟩ | ⟨d, s, h1, hd, rfl⟩
    · rcases hr' with ⟨h2, -⟩ | ⟨d, s, h2, hd, e⟩
      · rw [h1, h2]
      · have hm : 100 ∈ s ++ k ">" := by rw [← e]; decide
        rcases List.mem_append.1 hm with hm | hm
        · exact absurd hm (hd.not_mem (by omega))
        · exact absurd hm (by decide)
    · rcases hr' with ⟨h2, e⟩ | ⟨d', s', h2, hd', e⟩
      · have hm : 100 ∈ s ++ k ">" := by rw [e]; decide
        rcases List.mem_append.1 hm with hm | hm
        · exact absurd hm (hd.not_mem (by omega))
        · exact absurd hm (by decide)
      · obtain rfl := List.append_cancel_right e
        rw [h1, h2, hd.unique hd']

/-! ## Enumerators -/

theorem enumeratorReads_val (e : Enumerator) : EnumeratorReads e (enumeratorVal e).text' := by
  unfold enumeratorVal
  simp only [Val.text']
  cases hv : e.value with
  | other => rw [List.append_nil]; exact .unknown hv
  | unsigned v =>
    have := EnumeratorReads.unsigned hv (IntText.pos (decimal_dec v))
    rwa [List.append_assoc, List.append_assoc, ← List.append_assoc (k "(")] at this
  | signed v =>
    have : IntText (if v < 0 then k "-" ++ dec (-v).toNat else dec v.toNat) v := by
      split
      · have := IntText.neg (decimal_dec (-v).toNat) (by omega)
        rwa [show -(((-v).toNat : Nat) : Int) = v by omega] at this
      · have := IntText.pos (decimal_dec v.toNat)
        rwa [show ((v.toNat : Nat) : Int) = v by omega] at this
    have := EnumeratorReads.signed hv this
    rwa [List.append_assoc, List.append_assoc, ← List.append_assoc (k "(")] at this

theorem EnumeratorReads.same {e e' : Enumerator} {t : Str} (h : EnumeratorReads e t) (h' : EnumeratorReads e' t)
    (hp : Plain e.name) (hp' : Plain e'.name) : e.name = e'.name ∧ e.value.number = e'.value.number := by
  have key : ∀ (e : Enumerator) t, EnumeratorReads e t → ∃ r, t = e.name.getD (k "<anon>") ++ r ∧
      ((e.value.number = none ∧ r = []) ∨ ∃ d s, e.value.number = some d ∧ IntText s d ∧ r = 40 :: (s ++ k ")")) := by
    intro v t h
    cases h with
    | unknown h => exact ⟨[], by simp, .inl ⟨by rw [h]; rfl, rfl⟩⟩
    | signed h hd => exact ⟨_, by simp only [List.append_assoc]; rfl, .inr ⟨_, _, by rw [h]; rfl, hd, rfl⟩⟩
    | unsigned h hd => exact ⟨_, by simp only [List.append_assoc]; rfl, .inr ⟨_, _, by rw [h]; rfl, hd, rfl⟩⟩
  have nomem : ∀ (n : Option Str), Plain n → 40 ∉ n.getD (k "<anon>") := by
    intro n h
    cases n with
    | none => decide
    | some s => exact (h s rfl).2.2.2
  obtain ⟨r, rfl, hr⟩ := key e t h
  obtain ⟨r', e1, hr'⟩ := key e' _ h'
  have hd : ∀ {e : Enumerator} {r : Str}, ((e.value.number = none ∧ r = []) ∨
      ∃ d s, e.value.number = some d ∧ IntText s d ∧ r = 40 :: (s ++ k ")")) → ∀ x, r.head? = some x → ¬ x ≠ 40 := by
    intro e r h x hx
    rcases h with ⟨-, rfl⟩ | ⟨d, s, -, -, rfl⟩
    · cases hx
    · simp only [List.head?_cons, Option.some.injEq] at hx; simp [hx]
  obtain ⟨h1, rfl⟩ := cut_eq (p := fun x => x ≠ 40) e1 (fun x hx e => nomem _ hp (e ▸ hx))
    (fun x hx e => nomem _ hp' (e ▸ hx)) (hd hr) (hd hr')
  constructor
  · exact (shown_name (r := []) (r' := []) hp hp' (by rw [h1])).1
  · rcases hr with ⟨h2, rfl⟩ | ⟨d, s, h2, hi, rfl⟩
    · rcases hr' with ⟨h3, -⟩ | ⟨d, s, h3, -, e⟩
      · rw [h2, h3]
      · cases e
    · rcases hr' with ⟨h3, e⟩ | ⟨d', s', h3, hi', e⟩
      · cases e
      · simp only [List.cons.injEq, true_and] at e
        obtain rfl := List.append_cancel_right e
        rw [h2, h3, hi.unique hi']

end Verif.Show
