import Verif.Cfi.Model
import Verif.Print.Lemmas3
/-!
# Property theorem: C68 (the text of a CFI directive identifies it)
-/
namespace Verif.Cfi
open Verif.Frame Verif.Print

theorem digitChar_inj : ∀ a < 16, ∀ b < 16, Nat.digitChar a = Nat.digitChar b → a = b := by decide

theorem toDigits16_inj (a : Nat) : ∀ b, Nat.toDigits 16 a = Nat.toDigits 16 b → a = b := by
  induction a using Nat.strongRecOn with
  | _ a ih =>
    intro b h
    by_cases ha : a < 16 <;> by_cases hb : b < 16
    · rw [Nat.toDigits_of_lt_base ha, Nat.toDigits_of_lt_base hb] at h
      simp at h; exact digitChar_inj a ha b hb h
    · rw [Nat.toDigits_of_lt_base ha, Nat.toDigits_of_base_le (by decide) (by omega)] at h
      have := congrArg List.length h
      simp at this
    · rw [Nat.toDigits_of_lt_base hb, Nat.toDigits_of_base_le (by decide) (by omega)] at h
      have := congrArg List.length h
      simp at this
    · rw [Nat.toDigits_of_base_le (by decide) (by omega), Nat.toDigits_of_base_le (n := b) (by decide) (by omega)] at h
      obtain ⟨h1, h2⟩ := List.append_inj' h rfl
      have := ih (a / 16) (by omega) (b / 16) h1
      simp at h2
      have := digitChar_inj _ (Nat.mod_lt _ (by decide)) _ (Nat.mod_lt _ (by decide)) h2
      omega

/-- Hexadecimal texts identify numbers. -/
theorem hex_inj {a b : Nat} (h : hex a = hex b) : a = b := by
  refine toDigits16_inj a b ?_
  unfold hex at h
  refine List.map_inj_right ?_ |>.1 h
  intro x y e
  exact Char.ext (UInt32.toNat_inj.1 e)

theorem hexI64_inj {a b : Int} (ha : I64 a) (hb : I64 b) (h : hexI64 a = hexI64 b) : a = b := by
  unfold I64 at ha hb
  have := hex_inj h
  split at this <;> split at this <;> omega

theorem hex_ne (n : Nat) : hex n ≠ [] := by simp [hex, Nat.toDigits_ne_nil]

theorem ofsText_inj {a b : Int} {t : Str} (ha : ofsText a = some t) (hb : ofsText b = some t) : a = b := by
  unfold ofsText at ha hb
  have e1 : Str.ofString "-0x" = [45, 48, 120] := by decide
  have e2 : Str.ofString "0x" = [48, 120] := by decide
  rw [e1, e2] at ha hb
  split at ha
  · split at ha
    · cases ha
      split at hb
      · split at hb
        · simp at hb; have := hex_inj hb; omega
        · cases hb
      · simp at hb
    · cases ha
  · cases ha
    split at hb
    · split at hb <;> simp at hb
    · simp at hb; have := hex_inj hb; omega

/-- The number of a directive's keyword. -/
def tag : Directive → Nat
  | .startProc => 0 | .endProc => 1 | .personality _ => 2 | .lsda _ => 3 | .signalFrame => 4
  | .returnColumn _ => 5 | .defCfa _ _ => 6 | .defCfaRegister _ => 7 | .defCfaOffset _ => 8
  | .offset _ _ => 9 | .valOffset _ _ => 10 | .register _ _ => 11 | .restore _ => 12
  | .undefined _ => 13 | .sameValue _ => 14 | .rememberState => 15 | .restoreState => 16 | .other => 17

/-- The keywords. -/
def keywords : List Str := [".cfi_startproc", ".cfi_endproc", ".cfi_personality", ".cfi_lsda", ".cfi_signalframe",
  ".cfi_return_column", ".cfi_def_cfa", ".cfi_def_cfa_register", ".cfi_def_cfa_offset", ".cfi_offset",
  ".cfi_val_offset", ".cfi_register", ".cfi_restore", ".cfi_undefined", ".cfi_same_value",
  ".cfi_remember_state", ".cfi_restore_state", "<other"].map Str.ofString

/-- The rest of the text: empty, or a space and the operands. -/
def operands (rn : Nat → Option Str) : Directive → Option Str
  | .personality a => some (Str.ofString " 0x" ++ hex (a.getD 0))
  | .lsda a => some (Str.ofString " 0x" ++ hex (a.getD 0))
  | .returnColumn r => some (32 :: regText rn r)
  | .defCfa r o => (ofsText o).map fun t => 32 :: regText rn r ++ 44 :: 32 :: t
  | .defCfaRegister r => some (32 :: regText rn r)
  | .defCfaOffset o => some (Str.ofString " 0x" ++ hexI64 o)
  | .offset r o => (ofsText o).map fun t => 32 :: regText rn r ++ 44 :: 32 :: t
  | .valOffset r o => (ofsText o).map fun t => 32 :: regText rn r ++ 44 :: 32 :: t
  | .register r1 r2 => some (32 :: regText rn r1 ++ 44 :: 32 :: regText rn r2)
  | .restore r => some (32 :: regText rn r)
  | .undefined r => some (32 :: regText rn r)
  | .sameValue r => some (32 :: regText rn r)
  | .other => some (Str.ofString " cfi instruction>")
  | _ => some []

theorem kw_inj : ∀ i < 18, ∀ j < 18, keywords[i]? = keywords[j]? → i = j := by decide +kernel
theorem kw_nospace : ∀ i < 18, ∀ k, keywords[i]? = some k → 32 ∉ k := by
  have : ∀ i < 18, ∀ k ∈ keywords[i]?, 32 ∉ k := by decide +kernel
  exact fun i hi k hk => this i hi k (by rw [hk]; rfl)

theorem tag_lt (d : Directive) : tag d < 18 := by cases d <;> simp [tag]

theorem text_split (rn : Nat → Option Str) (d : Directive) (t : Str) (h : directiveText rn d = some t) :
    ∃ k r, keywords[tag d]? = some k ∧ operands rn d = some r ∧ t = k ++ r ∧ (r = [] ∨ ∃ r', r = 32 :: r') := by
  have sp : ∀ (a : String) (b : Str), Str.ofString (a ++ " ") ++ b = Str.ofString a ++ 32 :: b := by
    intro a b; simp [Str.ofString]
  have sp0 : ∀ (a : String) (b : Str), Str.ofString (a ++ " 0x") ++ b = Str.ofString a ++ (Str.ofString " 0x" ++ b) := by
    intro a b; simp [Str.ofString]
  have h0x : ∀ b, Str.ofString " 0x" ++ b = 32 :: (48 :: 120 :: b) := by
    intro b; simp [show Str.ofString " 0x" = [32, 48, 120] by decide]
  have hcomma : Str.ofString ", " = [44, 32] := by decide
  cases d with
  | startProc => cases h; exact ⟨_, _, rfl, rfl, by simp, .inl rfl⟩
  | endProc => cases h; exact ⟨_, _, rfl, rfl, by simp, .inl rfl⟩
  | signalFrame => cases h; exact ⟨_, _, rfl, rfl, by simp, .inl rfl⟩
  | rememberState => cases h; exact ⟨_, _, rfl, rfl, by simp, .inl rfl⟩
  | restoreState => cases h; exact ⟨_, _, rfl, rfl, by simp, .inl rfl⟩
  | other => cases h; exact ⟨_, _, rfl, rfl, by decide, .inr ⟨Str.ofString "cfi instruction>", by decide⟩⟩
  | personality a => cases h; exact ⟨_, _, rfl, rfl, sp0 ".cfi_personality" _, .inr ⟨_, h0x _⟩⟩
  | lsda a => cases h; exact ⟨_, _, rfl, rfl, sp0 ".cfi_lsda" _, .inr ⟨_, h0x _⟩⟩
  | defCfaOffset o => cases h; exact ⟨_, _, rfl, rfl, sp0 ".cfi_def_cfa_offset" _, .inr ⟨_, h0x _⟩⟩
  | returnColumn r => cases h; exact ⟨_, _, rfl, rfl, sp ".cfi_return_column" _, .inr ⟨_, rfl⟩⟩
  | defCfaRegister r => cases h; exact ⟨_, _, rfl, rfl, sp ".cfi_def_cfa_register" _, .inr ⟨_, rfl⟩⟩
  | restore r => cases h; exact ⟨_, _, rfl, rfl, sp ".cfi_restore" _, .inr ⟨_, rfl⟩⟩
  | undefined r => cases h; exact ⟨_, _, rfl, rfl, sp ".cfi_undefined" _, .inr ⟨_, rfl⟩⟩
  | sameValue r => cases h; exact ⟨_, _, rfl, rfl, sp ".cfi_same_value" _, .inr ⟨_, rfl⟩⟩
  | register r s =>
    cases h
    refine ⟨_, _, rfl, rfl, ?_, .inr ⟨_, rfl⟩⟩
    rw [hcomma]
    have := sp ".cfi_register" (regText rn r ++ 44 :: 32 :: regText rn s)
    simpa using this
  | defCfa r o =>
    obtain ⟨u, hu, rfl⟩ := Option.map_eq_some_iff.1 h
    refine ⟨_, 32 :: regText rn r ++ 44 :: 32 :: u, rfl, by simp [operands, hu], ?_, .inr ⟨_, rfl⟩⟩
    rw [hcomma]
    have := sp ".cfi_def_cfa" (regText rn r ++ 44 :: 32 :: u)
    simpa using this
  | offset r o =>
    obtain ⟨u, hu, rfl⟩ := Option.map_eq_some_iff.1 h
    refine ⟨_, 32 :: regText rn r ++ 44 :: 32 :: u, rfl, by simp [operands, hu], ?_, .inr ⟨_, rfl⟩⟩
    rw [hcomma]
    have := sp ".cfi_offset" (regText rn r ++ 44 :: 32 :: u)
    simpa using this
  | valOffset r o =>
    obtain ⟨u, hu, rfl⟩ := Option.map_eq_some_iff.1 h
    refine ⟨_, 32 :: regText rn r ++ 44 :: 32 :: u, rfl, by simp [operands, hu], ?_, .inr ⟨_, rfl⟩⟩
    rw [hcomma]
    have := sp ".cfi_val_offset" (regText rn r ++ 44 :: 32 :: u)
    simpa using this

/-- Two directives that must be shown alike: equal, except that an unknown personality or LSDA
address is shown as 0. -/
def Alike : Directive → Directive → Prop
  | .personality a, .personality b => a.getD 0 = b.getD 0
  | .lsda a, .lsda b => a.getD 0 = b.getD 0
  | d, e => d = e

/-- The CFA offset of the directive is a 64-bit number. -/
def Sane : Directive → Prop
  | .defCfaOffset o => I64 o
  | _ => True

theorem split_unique {x : Nat} {a b c d : Str} (ha : x ∉ a) (hb : x ∉ b) (h : a ++ x :: c = b ++ x :: d) :
    a = b ∧ c = d := by
  induction a generalizing b with
  | nil =>
    cases b with
    | nil => simpa using h
    | cons y b => simp at h; exact absurd h.1 (fun e => hb (by simp [e]))
  | cons y a ih =>
    cases b with
    | nil => simp at h; exact absurd h.1.symm (fun e => ha (by simp [e]))
    | cons z b =>
      simp at h ha hb
      obtain ⟨rfl, h⟩ := h
      obtain ⟨rfl, rfl⟩ := ih ha.2 hb.2 h
      exact ⟨rfl, rfl⟩

/-- **C68.** If registers have distinct texts without commas, then two directives with the same
printed text are the same directive (an unknown personality or LSDA address is shown as 0). -/
theorem C68_text_identifies (rn : Nat → Option Str) (hinj : ∀ r s, regText rn r = regText rn s → r = s)
    (hcomma : ∀ r, 44 ∉ regText rn r) (d e : Directive) (hd : Sane d) (he : Sane e) (t : Str)
    (h1 : directiveText rn d = some t) (h2 : directiveText rn e = some t) : Alike d e := by
  obtain ⟨k, r, hk, hr, rfl, hf⟩ := text_split rn d t h1
  obtain ⟨k', r', hk', hr', e', hf'⟩ := text_split rn e _ h2
  have n1 := kw_nospace _ (tag_lt d) k hk
  have n2 := kw_nospace _ (tag_lt e) k' hk'
  have hsplit : k = k' ∧ r = r' := by
    rcases hf with rfl | ⟨q, rfl⟩ <;> rcases hf' with rfl | ⟨q', rfl⟩
    · simpa using e'
    · simp at e'; exact absurd (show 32 ∈ k by rw [e']; simp) n1
    · simp at e'; exact absurd (show 32 ∈ k' by rw [← e']; simp) n2
    · obtain ⟨h1, h2⟩ := split_unique n1 n2 e'
      exact ⟨h1, by rw [h2]⟩
  obtain ⟨rfl, rfl⟩ := hsplit
  have ht : tag d = tag e := kw_inj _ (tag_lt d) _ (tag_lt e) (by rw [hk, hk'])
  clear hf hf' e' n1 n2 h1 h2
  have regs : ∀ {r s : Nat}, 32 :: regText rn r = 32 :: regText rn s → r = s := fun h => hinj _ _ (by simpa using h)
  have two : ∀ {r s : Nat} {a b : Int} {q : Str}, ((ofsText a).map fun t => 32 :: regText rn r ++ 44 :: 32 :: t) = some q →
      ((ofsText b).map fun t => 32 :: regText rn s ++ 44 :: 32 :: t) = some q → r = s ∧ a = b := by
    intro r s a b q ha hb
    obtain ⟨u, hu, rfl⟩ := Option.map_eq_some_iff.1 ha
    obtain ⟨v, hv, e⟩ := Option.map_eq_some_iff.1 hb
    simp only [List.cons_append, List.cons.injEq, true_and] at e
    obtain ⟨e1, e2⟩ := split_unique (hcomma s) (hcomma r) e
    simp at e2; subst e2
    exact ⟨(hinj _ _ e1).symm, ofsText_inj hu hv⟩
  cases d <;> cases e <;> first | (exfalso; revert ht; simp only [tag]; decide) | skip
  case startProc.startProc => rfl
  case endProc.endProc => rfl
  case signalFrame.signalFrame => rfl
  case rememberState.rememberState => rfl
  case restoreState.restoreState => rfl
  case other.other => rfl
  case personality.personality a b =>
    simp only [operands, Option.some.injEq] at hr hr'; rw [← hr'] at hr
    exact hex_inj (List.append_cancel_left hr)
  case lsda.lsda a b =>
    simp only [operands, Option.some.injEq] at hr hr'; rw [← hr'] at hr
    exact hex_inj (List.append_cancel_left hr)
  case defCfaOffset.defCfaOffset a b =>
    simp only [operands, Option.some.injEq] at hr hr'; rw [← hr'] at hr
    have := hexI64_inj hd he (List.append_cancel_left hr)
    simp only [Alike, this]
  case register.register r1 r2 s1 s2 =>
    simp only [operands, Option.some.injEq] at hr hr'; rw [← hr'] at hr
    simp only [List.cons_append, List.cons.injEq, true_and] at hr
    obtain ⟨e1, e2⟩ := split_unique (hcomma _) (hcomma _) hr
    simp at e2
    simp only [Alike, hinj _ _ e1, hinj _ _ e2]
  case defCfa.defCfa => obtain ⟨rfl, rfl⟩ := two hr hr'; rfl
  case offset.offset => obtain ⟨rfl, rfl⟩ := two hr hr'; rfl
  case valOffset.valOffset => obtain ⟨rfl, rfl⟩ := two hr hr'; rfl
  all_goals
    simp only [operands, Option.some.injEq] at hr hr'
    rw [← hr'] at hr
    simp only [Alike, regs hr]

/-- Non-vacuity of C68: with register numbers as texts the hypotheses hold. -/
example : (∀ r s, regText (fun _ => none) r = regText (fun _ => none) s → r = s) ∧
    (∀ r, 44 ∉ regText (fun _ => none) r) ∧
    directiveText (fun _ => none) (.offset 6 (-16)) = some (Str.ofString ".cfi_offset 6, -0x10") := by
  refine ⟨fun r s h => dec_inj h, fun r h => ?_, by decide +kernel⟩
  simp only [regText, dec, List.mem_map] at h
  obtain ⟨c, hc, e⟩ := h
  have := Nat.isDigit_of_mem_toDigits (by decide) (by decide) hc
  simp only [Char.isDigit, Bool.and_eq_true, decide_eq_true_eq] at this
  have h1 : (48 : UInt32) ≤ c.val := this.1
  have h2 : (48 : Nat) ≤ c.toNat := h1
  omega

end Verif.Cfi
