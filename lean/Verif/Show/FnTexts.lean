import Verif.Show.FnFactsSpec
import Verif.Show.RowsProps
import Verif.Show.Facts
import Verif.Show.RowSplit
/-! # What the texts in the listing of a function determine -/
namespace Verif.Show
open Verif.Print Verif.Item Verif.Namespace Verif.Types Verif.Opts Verif.Range Verif.Frame

theorem hex_inj {a b : Nat} (h : hex a = hex b) : a = b :=
  (hexadecimal_hex a).unique (h ▸ hexadecimal_hex b)

theorem hex_not_mem (a : Nat) {c : Nat} (hc : c < 48 ∨ (57 < c ∧ c < 97) ∨ 102 < c) : c ∉ hex a := by
  intro h
  have := (hexadecimal_hex a).digits c h
  omega

theorem k_0x : k "0x" = [48, 120] := by decide
theorem k_tab : k "\t" = [9] := by decide
theorem k_colon : k ": " = [58, 32] := by decide

theorem at0x_ne (a : Nat) : at0x a ≠ [] := by simp [at0x, k_0x]

/-- An address is read up to the first character that is no hexadecimal digit. -/
theorem at0x_cut {a b : Nat} {r r' : Str} (h : at0x a ++ r = at0x b ++ r')
    (hr : ∀ c, r.head? = some c → c < 48 ∨ (57 < c ∧ c < 97) ∨ 102 < c)
    (hr' : ∀ c, r'.head? = some c → c < 48 ∨ (57 < c ∧ c < 97) ∨ 102 < c) : a = b ∧ r = r' := by
  simp only [at0x, k_0x, List.cons_append, List.nil_append, List.cons.injEq, true_and] at h
  obtain ⟨h1, h2⟩ := cut_eq (p := fun c : Nat => (48 ≤ c ∧ c ≤ 57) ∨ (97 ≤ c ∧ c ≤ 102)) h
    (hexadecimal_hex a).digits (hexadecimal_hex b).digits (fun c hc => by have := hr c hc; omega)
    (fun c hc => by have := hr' c hc; omega)
  exact ⟨hex_inj h1, h2⟩

theorem at0x_inj {a b : Nat} (h : at0x a = at0x b) : a = b :=
  (at0x_cut (r := []) (r' := []) (by simpa using h) nofun nofun).1

theorem optAddress_eq {a b : Option Nat} (h : (a.map at0x).getD [] = (b.map at0x).getD []) : a = b := by
  cases a <;> cases b <;> simp only [Option.map_none, Option.map_some, Option.getD_none, Option.getD_some] at h
  · rfl
  · exact absurd h.symm (at0x_ne _)
  · exact absurd h (at0x_ne _)
  · rw [at0x_inj h]

theorem optDec_eq {a b : Option Nat} (h : (a.map dec).getD [] = (b.map dec).getD []) : a = b := by
  cases a <;> cases b <;> simp only [Option.map_none, Option.map_some, Option.getD_none, Option.getD_some] at h
  · rfl
  · exact absurd h.symm (dec_ne_nil _)
  · exact absurd h (dec_ne_nil _)
  · rename_i a b
    have : a = b := (decimal_dec a).unique (h ▸ decimal_dec b)
    rw [this]

/-! ## Sizes -/

theorem sizeBracket_ne (n : Option Nat) : sizeBracket n ≠ [] := by cases n <;> simp [sizeBracket, k, Str.ofString]

theorem sizeBracket_tab (n : Option Nat) : 9 ∉ sizeBracket n := by
  cases n with
  | none => decide
  | some n =>
    have := (decimal_dec n).not_mem (c := 9) (by omega)
    simp [sizeBracket, k, Str.ofString, this]

theorem sizeBracket_inj {a b : Option Nat} (h : sizeBracket a = sizeBracket b) : a = b := by
  have q : k "[??]" = [91, 63, 63, 93] := by decide
  have o : k "[" = [91] := by decide
  have c : k "]" = [93] := by decide
  cases a <;> cases b <;>
    simp only [sizeBracket, q, o, c, List.cons_append, List.nil_append, List.cons.injEq, true_and] at h
  · rfl
  · rename_i n
    exact absurd (h ▸ (by simp : 63 ∈ [63, 63, 93])) (by
      simp only [List.mem_append, not_or]
      exact ⟨(decimal_dec n).not_mem (by omega), by simp⟩)
  · rename_i n
    exact absurd (h ▸ (by simp : 63 ∈ [63, 63, 93])) (by
      simp only [List.mem_append, not_or]
      exact ⟨(decimal_dec n).not_mem (by omega), by simp⟩)
  · rename_i a b
    have h := List.append_cancel_right h
    have : a = b := (decimal_dec a).unique (h ▸ decimal_dec b)
    rw [this]

theorem sizeBracket_cut {a b : Option Nat} {r r' : Str} (h : sizeBracket a ++ k "\t" ++ r = sizeBracket b ++ k "\t" ++ r') :
    a = b ∧ r = r' := by
  simp only [k_tab, List.append_assoc, List.cons_append, List.nil_append] at h
  obtain ⟨h1, h2⟩ := cut_at (sizeBracket_tab a) (sizeBracket_tab b) h
  exact ⟨sizeBracket_inj h1, h2⟩

/-! ## Names and types -/

theorem param_decl {s s' : FnSide} (hs : ReadableFn s) (hs' : ReadableFn s') {n n' : Option Str} {t t' : TypeOffset}
    (hn : Plain n) (hn' : Plain n')
    (h : (n.map (· ++ k ": ")).getD [] ++ (s.tref t).text' = (n'.map (· ++ k ": ")).getD [] ++ (s'.tref t').text') :
    n = n' ∧ (s.tref t).text' = (s'.tref t').text' := by
  cases n with
  | none =>
    cases n' with
    | none => exact ⟨rfl, h⟩
    | some m => exact absurd (by simpa using h) (hs.types t m _ hn')
  | some m =>
    cases n' with
    | none => exact absurd (by simpa using h.symm) (hs'.types t' m _ hn)
    | some m' =>
      simp only [Option.map_some, Option.getD_some, k_colon, List.append_assoc, List.cons_append, List.nil_append] at h
      obtain ⟨h1, h2⟩ := cut_at (hn m rfl).2.1 (hn' m' rfl).2.1 h
      exact ⟨by rw [h1], by simpa using h2⟩

theorem named_decl {n n' : Option Str} {r r' : Str} (hn : Plain n) (hn' : Plain n')
    (h : n.getD (k "<anon>") ++ k ": " ++ r = n'.getD (k "<anon>") ++ k ": " ++ r') : n = n' ∧ r = r' := by
  simp only [k_colon, List.append_assoc, List.cons_append, List.nil_append] at h
  obtain ⟨h1, h2⟩ := shown_name hn hn' h
  exact ⟨h1, by simpa using h2⟩

theorem passed_decl {s s' : FnSide} {p p' : CallParameter} (hn : Plain p.name) (hn' : Plain p'.name)
    (h : passedText s p = passedText s' p') :
    p.name = p'.name ∧ argumentType s p.ty = argumentType s' p'.ty := by
  have form : ∀ (s : FnSide) (p : CallParameter), passedText s p = p.name.getD (k "<unnamed>") ++
      ((argumentType s p.ty).map (fun t => 58 :: 32 :: t)).getD [] := by
    intro s p
    unfold passedText argumentType
    cases p.ty with
    | none => simp
    | some t => by_cases h : fromOffset s.hash t = none <;> simp [h, k_colon]
  rw [form, form] at h
  have nc : ∀ n : Option Str, Plain n → ∀ c ∈ n.getD (k "<unnamed>"), c ≠ 58 := by
    intro n hn c hc e
    subst e
    cases n with
    | none => exact absurd hc (by decide)
    | some m => exact (hn m rfl).2.1 hc
  have hd : ∀ t : Option Str, ∀ c, ((t.map (fun t => 58 :: 32 :: t)).getD []).head? = some c → ¬ c ≠ 58 := by
    intro t c hc
    cases t with
    | none => cases hc
    | some t => simp at hc; simp [hc]
  obtain ⟨h1, h2⟩ := cut_eq (p := fun c : Nat => c ≠ 58) h (nc _ hn) (nc _ hn') (hd _) (hd _)
  constructor
  · cases hp : p.name with
    | none =>
      cases hp' : p'.name with
      | none => rfl
      | some m =>
        rw [hp, hp'] at h1
        simp only [Option.getD_none, Option.getD_some] at h1
        exact absurd (h1 ▸ (by decide : 60 ∈ k "<unnamed>")) (hn' m hp').2.2.1
    | some m =>
      cases hp' : p'.name with
      | none =>
        rw [hp, hp'] at h1
        simp only [Option.getD_none, Option.getD_some] at h1
        exact absurd (h1 ▸ (by decide : 60 ∈ k "<unnamed>")) (hn m hp).2.2.1
      | some m' =>
        rw [hp, hp'] at h1
        simpa using h1
  · generalize argumentType s p.ty = x, argumentType s' p'.ty = y at h2
    cases x <;> cases y <;> simp at h2 ⊢
    exact h2

/-! ## Calls -/

theorem target_head (o : Option CallOrigin) (c : Nat) (h : (targetText o).head? = some c) : c = 32 := by
  have e : k " -> " = [32, 45, 62, 32] := by decide
  have f : ∀ (a : Str), (k " -> indirect(global:" ++ a).head? = some 32 := by
    intro a; rfl
  unfold targetText at h
  split at h
  · cases h
  · simp [e] at h; exact h.symm
  · rw [List.append_assoc, f] at h; cases h; rfl
  all_goals
    revert h
    first
      | (intro h; have : some (32 : Nat) = some c := h; cases this; rfl)

theorem callHeader_eq {q q' : CallKind} {a r a' r' : Option Nat} {o o' : Option CallOrigin}
    (h : kindText q ++ k " at " ++ callPlace a r ++ targetText o = kindText q' ++ k " at " ++ callPlace a' r' ++ targetText o') :
    q = q' ∧ a = a' ∧ targetText o = targetText o' := by
  have e1 : k "call" = [99, 97, 108, 108] := by decide
  have e2 : k "tail call" = [116, 97, 105, 108, 32, 99, 97, 108, 108] := by decide
  have hq : q = q' := by
    cases q <;> cases q' <;> simp [kindText, e1, e2] at h ⊢
  subst hq
  have h : callPlace a r ++ targetText o = callPlace a' r' ++ targetText o' := by
    simp only [List.append_assoc, List.append_cancel_left_eq] at h
    exact h
  have b1 : k "<before return>" = 60 :: 98 :: k "efore return>" := by decide
  have b2 : k "<unknown>" = 60 :: 117 :: k "nknown>" := by decide
  have hx : ∀ (o : Option CallOrigin) (c : Nat), (targetText o).head? = some c → c < 48 ∨ (57 < c ∧ c < 97) ∨ 102 < c := by
    intro o c hc
    have := target_head o c hc
    omega
  refine ⟨rfl, ?_⟩
  cases a with
  | some a =>
    cases a' with
    | some a' =>
      have : callPlace (some a) r = at0x a := by cases r <;> rfl
      rw [this] at h
      have : callPlace (some a') r' = at0x a' := by cases r' <;> rfl
      rw [this] at h
      obtain ⟨h1, h2⟩ := at0x_cut h (hx o) (hx o')
      exact ⟨by rw [h1], h2⟩
    | none =>
      exfalso
      cases r <;> cases r' <;> simp [callPlace, at0x, k_0x, b1, b2] at h
  | none =>
    cases a' with
    | some a' =>
      exfalso
      cases r <;> cases r' <;> simp [callPlace, at0x, k_0x, b1, b2] at h
    | none =>
      refine ⟨rfl, ?_⟩
      cases r <;> cases r' <;> simp only [callPlace] at h
      · exact List.append_cancel_left h
      · rw [b1, b2] at h; simp at h
      · rw [b1, b2] at h; simp at h
      · exact List.append_cancel_left h

theorem found_eq {o : Options} {s s' : FnSide} {c c' : Nat × Nat} (h : foundText o s c = foundText o s' c')
    (ho : o.ignoreFunctionAddress = false) : c = c' := by
  unfold foundText at h
  simp only [ho, Bool.false_eq_true, if_false, List.append_assoc] at h
  have e : k " -> " = [32, 45, 62, 32] := by decide
  have e' : k " " = [32] := by decide
  obtain ⟨h1, h2⟩ := at0x_cut h (by intro c hc; simp [e] at hc; omega) (by intro c hc; simp [e] at hc; omega)
  have h2 := List.append_cancel_left h2
  obtain ⟨h3, -⟩ := at0x_cut h2 (by intro c hc; simp [e'] at hc; omega) (by intro c hc; simp [e'] at hc; omega)
  cases c; cases c'
  simp_all

theorem found_ne {o : Options} {s : FnSide} (hs : ReadableFn s) (c : Nat × Nat) : foundText o s c ≠ [] := by
  unfold foundText
  cases ho : o.ignoreFunctionAddress with
  | false => simp [at0x, k_0x]
  | true =>
    cases hf : s.fnByAddress c.2 with
    | some f => simpa [calledText] using hs.fns _ _ hf
    | none =>
      cases hp : s.plt c.2 with
      | some p =>
        have := hs.plt c.2
        rw [hp] at this
        simpa using this
      | none => simp [at0x, k_0x]

/-! ## Registers and places -/

theorem registerText_ne {s : FnSide} (hs : ReadableFn s) (r : Nat) : registerText s r ≠ [] := by
  unfold registerText
  cases h : s.regName r with
  | none => simp [k, Str.ofString]
  | some n =>
    have := hs.regs r
    rw [h] at this
    simpa using this

theorem placeText_ne {s : FnSide} (hs : ReadableFn s) {l : Location} (h : l ≠ .empty) : placeText s l ≠ [] := by
  cases l
  case empty => exact absurd rfl h
  case register r => exact registerText_ne hs r
  case registerOffset r o => simp [placeText, registerText_ne hs r]
  case address a => cases a <;> exact at0x_ne _
  all_goals simp [placeText, at0x, k, Str.ofString]

theorem intText_decInt (z : Int) : IntText (decInt z) z := by
  unfold decInt
  split
  · rename_i h
    have e : z = -((-z).toNat : Int) := by omega
    have := IntText.neg (decimal_dec (-z).toNat) (by omega)
    rw [← e, k_minus] at this
    exact this
  · rename_i h
    have e : z = (z.toNat : Int) := by omega
    have := IntText.pos (decimal_dec z.toNat)
    rw [← e] at this
    exact this

theorem decInt_inj {a b : Int} (h : decInt a = decInt b) : a = b := (intText_decInt a).unique (h ▸ intText_decInt b)

theorem decInt_open (z : Int) : 91 ∉ decInt z := (intText_decInt z).not_mem (by omega)

theorem written_eq {l : FrameLocation} {t : Str} (h : Written l t) :
    t = decInt l.offset ++ ((l.bitSize.map fun b => 91 :: dec ((b + 7) / 8) ++ [93]).getD []) := by
  cases hb : l.bitSize with
  | none => simpa using h.1 hb
  | some b =>
    rw [h.2 b ((b + 7) / 8) hb (by omega) (by omega)]
    simp

theorem written_inj {l l' : FrameLocation} {t : Str} (h : Written l t) (h' : Written l' t) :
    l.offset = l'.offset ∧ l.bitSize.map (fun b => (b + 7) / 8) = l'.bitSize.map fun b => (b + 7) / 8 := by
  have e := (written_eq h).symm.trans (written_eq h')
  have hd : ∀ x : Option Nat, ∀ c, ((x.map fun b => 91 :: dec ((b + 7) / 8) ++ [93]).getD []).head? = some c → ¬ c ≠ 91 := by
    intro x c hc
    cases x with
    | none => cases hc
    | some b => simp at hc; simp [hc]
  obtain ⟨h1, h2⟩ := cut_eq (p := fun c : Nat => c ≠ 91) e (fun c hc e => decInt_open _ (e ▸ hc))
    (fun c hc e => decInt_open _ (e ▸ hc)) (hd _) (hd _)
  refine ⟨decInt_inj h1, ?_⟩
  generalize l.bitSize = x, l'.bitSize = y at h2
  cases x <;> cases y <;> simp at h2 ⊢
  exact (decimal_dec _).unique (h2 ▸ decimal_dec _)

theorem written_ne {l : FrameLocation} {t : Str} (h : Written l t) : t ≠ [] := by
  rw [written_eq h]
  simp [decInt_ne_nil]

/-! ## Addresses -/

theorem spanText_ne (r : Range) : spanText r ≠ [] := by
  unfold spanText
  split <;> simp [at0x, k_0x]

theorem spanSizeText_ne (r : Range) : spanSizeText r ≠ [] := by
  unfold spanSizeText
  split
  · simp [spanText_ne]
  · exact at0x_ne _

theorem spanText_inj {r r' : Range} (h : spanText r = spanText r') : SameSpan r r' := by
  have e : k "-" = [45] := by decide
  have form : ∀ r : Range, spanText r = at0x r.lo ++ (if r.lo < r.hi then 45 :: at0x (r.hi - 1) else []) := by
    intro r
    unfold spanText
    split <;> simp [e]
  rw [form, form] at h
  have hd : ∀ (r : Range) (c : Nat), ((if r.lo < r.hi then 45 :: at0x (r.hi - 1) else []) : Str).head? = some c →
      c < 48 ∨ (57 < c ∧ c < 97) ∨ 102 < c := by
    intro r c hc
    split at hc
    · simp at hc; omega
    · cases hc
  obtain ⟨h1, h2⟩ := at0x_cut h (hd r) (hd r')
  refine ⟨h1, fun _ => ?_⟩
  split at h2 <;> split at h2
  · have := at0x_inj (List.cons.inj h2).2
    omega
  · cases h2
  · cases h2
  · omega

theorem spanSizeText_inj {r r' : Range} (h : spanSizeText r = spanSizeText r') : SameSpan r r' := by
  have e : k "-" = [45] := by decide
  have e' : k " (" = [32, 40] := by decide
  have form : ∀ r : Range, spanSizeText r = at0x r.lo ++
      (if r.lo < r.hi then 45 :: (at0x (r.hi - 1) ++ (32 :: 40 :: (dec (r.hi - r.lo) ++ k ")"))) else []) := by
    intro r
    unfold spanSizeText spanText
    split <;> simp [e, e']
  rw [form, form] at h
  have hd : ∀ (r : Range) (c : Nat),
      ((if r.lo < r.hi then 45 :: (at0x (r.hi - 1) ++ (32 :: 40 :: (dec (r.hi - r.lo) ++ k ")"))) else []) : Str).head? = some c →
      c < 48 ∨ (57 < c ∧ c < 97) ∨ 102 < c := by
    intro r c hc
    split at hc
    · simp at hc; omega
    · cases hc
  obtain ⟨h1, h2⟩ := at0x_cut h (hd r) (hd r')
  refine ⟨h1, fun _ => ?_⟩
  split at h2 <;> split at h2
  · have := (at0x_cut (List.cons.inj h2).2 (by intro c hc; simp at hc; omega) (by intro c hc; simp at hc; omega)).1
    omega
  · cases h2
  · cases h2
  · omega

end Verif.Show
