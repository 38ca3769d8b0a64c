import Verif.Cli.Spec
import Verif.Opts.Lemmas2
/-! # Reading a command line: what clap's loop does with each way to spell an item -/
namespace Verif.Cli
open Verif.Opts Verif.Main Verif.Types

/-- The entry of the table for an option. -/
def flagOf : ArgId → Flag
  | .diff => diffFlag
  | .bloat => bloatFlag
  | .format => formatFlag
  | .category => categoryFlag
  | .print => printFlag
  | .inlineDepth => inlineDepthFlag
  | .filter => filterFlag
  | .sort => sortFlag
  | .ignore => ignoreFlag
  | .prefixMap => prefixMapFlag

theorem flagOf_id (i : ArgId) : (flagOf i).id = i := by cases i <;> rfl
theorem flagOf_count (i : ArgId) : (flagOf i).count = arity i := by cases i <;> rfl
theorem flagOf_many (i : ArgId) : (flagOf i).many = true ↔ isList i := by
  cases i <;> simp [flagOf, isList, diffFlag, bloatFlag, formatFlag, categoryFlag, printFlag, inlineDepthFlag,
    filterFlag, sortFlag, ignoreFlag, prefixMapFlag]
theorem flagOf_split (i : ArgId) : (flagOf i).split = true ↔ isList i := by
  cases i <;> simp [flagOf, isList, diffFlag, bloatFlag, formatFlag, categoryFlag, printFlag, inlineDepthFlag,
    filterFlag, sortFlag, ignoreFlag, prefixMapFlag]
theorem flagOf_values (i : ArgId) : (flagOf i).values = (choices i).map fun l => l.map k := by cases i <;> rfl

theorem find_long (i : ArgId) : cli.find? (fun f => f.long == k (longName i)) = some (flagOf i) := by
  cases i <;> decide +kernel
theorem find_short {i : ArgId} {c : String} (h : letter i = some c) :
    ∃ x, k c = [x] ∧ x ≠ 45 ∧ x ≠ 61 ∧ cli.find? (fun f => f.short == some x) = some (flagOf i) := by
  cases i <;> simp only [letter, Option.some.injEq, reduceCtorEq] at h <;> subst h <;>
    exact ⟨_, rfl, by decide, by decide, by decide +kernel⟩

theorem cli_mem {f : Flag} (h : f ∈ cli) : ∃ i, f = flagOf i ∧ f.long = k (longName i) ∧
    ∀ x, f.short = some x → ∃ c, letter i = some c ∧ k c = [x] := by
  simp only [cli, List.mem_cons, List.not_mem_nil, or_false] at h
  have key : ∀ i, (flagOf i).long = k (longName i) ∧
      ∀ x, (flagOf i).short = some x → ∃ c, letter i = some c ∧ k c = [x] := by
    intro i
    refine ⟨by cases i <;> rfl, fun x hx => ?_⟩
    cases i <;> simp only [flagOf, diffFlag, bloatFlag, formatFlag, categoryFlag, printFlag, inlineDepthFlag,
      filterFlag, sortFlag, ignoreFlag, prefixMapFlag, Option.some.injEq, reduceCtorEq] at hx <;> subst hx <;>
      exact ⟨_, rfl, rfl⟩
  rcases h with h | h | h | h | h | h | h | h | h | h <;> subst h
  · exact ⟨.diff, rfl, key .diff⟩
  · exact ⟨.bloat, rfl, key .bloat⟩
  · exact ⟨.format, rfl, key .format⟩
  · exact ⟨.category, rfl, key .category⟩
  · exact ⟨.print, rfl, key .print⟩
  · exact ⟨.inlineDepth, rfl, key .inlineDepth⟩
  · exact ⟨.filter, rfl, key .filter⟩
  · exact ⟨.sort, rfl, key .sort⟩
  · exact ⟨.ignore, rfl, key .ignore⟩
  · exact ⟨.prefixMap, rfl, key .prefixMap⟩

theorem found_long {n : Str} {f : Flag} (h : cli.find? (fun f => f.long == n) = some f) :
    ∃ i, f = flagOf i ∧ n = k (longName i) := by
  have h1 := List.mem_of_find?_eq_some h
  have h2 := List.find?_some h
  obtain ⟨i, e, hl, _⟩ := cli_mem h1
  exact ⟨i, e, by rw [← hl]; exact (by simpa using h2 : f.long = n).symm⟩

theorem found_short {x : Nat} {f : Flag} (h : cli.find? (fun f => f.short == some x) = some f) :
    ∃ i c, f = flagOf i ∧ letter i = some c ∧ k c = [x] := by
  have h1 := List.mem_of_find?_eq_some h
  have h2 := List.find?_some h
  obtain ⟨i, e, _, hs⟩ := cli_mem h1
  obtain ⟨c, hc, hk⟩ := hs x (by simpa using h2)
  exact ⟨i, c, e, hc, hk⟩

theorem kDash : k "-" = [45] := by decide
theorem kDash2 : k "--" = [45, 45] := by decide
theorem kEq : k "=" = [61] := by decide
theorem kComma : k "," = [44] := by decide

theorem classify_value {t : Str} : classify t = .value ↔ PlainArg t := by
  unfold PlainArg
  rw [kDash]
  match t with
  | [] => simp [classify]
  | [c] =>
    simp only [classify, true_iff, List.cons.injEq, and_true]
    by_cases h : c = 45
    · exact .inl h
    · right; intro rest e; simp only [List.cons_append, List.nil_append, List.cons.injEq] at e; exact h e.1
  | c :: d :: rest =>
    simp only [classify]
    by_cases h : c = 45
    · subst h
      simp only [if_pos]
      constructor
      · intro e
        exfalso
        split at e
        · split at e
          · cases e
          · split at e <;> cases e
        · cases e
      · rintro (e | e)
        · cases e
        · exact absurd rfl (e (d :: rest))
    · simp only [if_neg h, true_iff]
      right
      intro r e
      simp only [List.cons_append, List.nil_append, List.cons.injEq] at e
      exact h e.1

theorem classify_escape {t : Str} : classify t = .escape ↔ t = k "--" := by
  rw [kDash2]
  match t with
  | [] => simp [classify]
  | [c] => simp [classify]
  | c :: d :: rest =>
    simp only [classify]
    split
    · rename_i h1
      split
      · rename_i h2
        split
        · rename_i h3; subst h1 h2 h3; simp
        · rename_i h3
          split <;> simp [h3]
      · rename_i h2; simp [h2]
    · rename_i h1; simp [h1]

theorem classify_long {t n : Str} {v : Option Str} (h : classify t = .long n v) :
    (v = none ∧ t = k "--" ++ n) ∨ ∃ x, v = some x ∧ t = k "--" ++ n ++ k "=" ++ x := by
  rw [kDash2, kEq]
  match t with
  | [] => simp [classify] at h
  | [c] => simp [classify] at h
  | c :: d :: rest =>
    simp only [classify] at h
    split at h
    · rename_i h1
      split at h
      · rename_i h2
        split at h
        · cases h
        · split at h
          · rename_i a b hs
            cases h
            right
            refine ⟨b, rfl, ?_⟩
            rw [((splitEq_iff _ _ _).1 hs).1, h1, h2]
            simp
          · cases h
            left
            exact ⟨rfl, by rw [h1, h2]; rfl⟩
      · cases h
    · cases h

theorem classify_short {t rest : Str} {c : Nat} (h : classify t = .short c rest) : t = 45 :: c :: rest := by
  match t with
  | [] => simp [classify] at h
  | [c] => simp [classify] at h
  | c :: d :: r =>
    simp only [classify] at h
    split at h
    · rename_i h1
      split at h
      · split at h
        · cases h
        · split at h <;> cases h
      · cases h; rw [h1]
    · cases h

theorem longName_props (i : ArgId) : 61 ∉ k (longName i) ∧ k (longName i) ≠ [] := by
  cases i <;> decide +kernel

theorem classify_long_mk (i : ArgId) : classify (k "--" ++ k (longName i)) = .long (k (longName i)) none := by
  obtain ⟨h1, h2⟩ := longName_props i
  rw [kDash2]
  simp only [List.cons_append, List.nil_append, classify, if_pos, if_neg h2]
  have : splitEq (k (longName i)) = none := by
    cases h : splitEq (k (longName i)) with
    | none => rfl
    | some p => exact absurd ((splitEq_isSome _).1 (by rw [h]; rfl)) h1
  rw [this]

theorem classify_longEq_mk (i : ArgId) (v : Str) :
    classify (k "--" ++ k (longName i) ++ k "=" ++ v) = .long (k (longName i)) (some v) := by
  obtain ⟨h1, h2⟩ := longName_props i
  rw [kDash2, kEq]
  have h3 : k (longName i) ++ [61] ++ v ≠ [] := by simp
  simp only [List.cons_append, List.nil_append, classify, if_pos, List.append_assoc] at h3 ⊢
  rw [if_neg h3, (splitEq_iff _ (k (longName i)) v).2 ⟨rfl, h1⟩]

theorem classify_short_mk {x : Nat} (h : x ≠ 45) (rest : Str) : classify (k "-" ++ [x] ++ rest) = .short x rest := by
  rw [kDash]
  simp [classify, h]

/-- What an item does to the matches. -/
def applyItem (m : Matches) : Item → Option Matches
  | .file p =>
    match m.file with
    | none => some { m with file := some p }
    | some _ => none
  | .opt id vs => m.react (flagOf id) vs

/-- What items do, in order. -/
def applyItems (m : Matches) : List Item → Option Matches
  | [] => some m
  | i :: is =>
    match applyItem m i with
    | some m => applyItems m is
    | none => none

theorem react_length {m m' : Matches} {f : Flag} {vs : List Str} (h : m.react f vs = some m') :
    vs.length = f.count := by
  unfold Matches.react Flag.accept at h
  by_cases hl : vs.length = f.count
  · exact hl
  · simp [hl] at h

/-- The state between two items. -/
def at_ (m : Matches) : St := { m }

theorem step_value {m : Matches} {f : Flag} {vs : List Str} {t : Str} (h : PlainArg t) :
    step { m, pending := some (f, vs) } t = St.take { m, pending := some (f, vs) } f (vs ++ [t]) := by
  simp [step, classify_value.2 h]

theorem take_react {m : Matches} {f : Flag} {ws vs : List Str} (hl : vs.length = f.count) :
    St.take { m, pending := some (f, ws) } f vs = (m.react f vs).map at_ := by
  simp only [St.take, hl, Nat.lt_irrefl, if_false]
  rfl

/-- The values of an option that was just named. -/
theorem parse_values {m : Matches} {i : ArgId} {vs : List Str} (hp : ∀ v ∈ vs, PlainArg v)
    (hl : vs.length = arity i) (rest : List Str) :
    parseFrom { m, pending := some (flagOf i, []) } (vs ++ rest) =
      (m.react (flagOf i) vs).bind fun m' => parseFrom (at_ m') rest := by
  have hc := hl
  rw [← flagOf_count] at hc
  have h12 : arity i = 1 ∨ arity i = 2 := by cases i <;> simp [arity]
  rcases h12 with ha | ha <;> rw [ha] at hl
  · match vs, hl with
    | [v], _ =>
      simp only [List.cons_append, List.nil_append, parseFrom]
      rw [step_value (hp v (by simp)), List.nil_append, take_react hc]
      cases m.react (flagOf i) [v] <;> rfl
  · match vs, hl with
    | [v, w], _ =>
      simp only [List.cons_append, List.nil_append, parseFrom]
      rw [step_value (hp v (by simp)), List.nil_append]
      have : St.take { m, pending := some (flagOf i, []) } (flagOf i) [v] =
          some { m, pending := some (flagOf i, [v]) } := by
        simp [St.take, flagOf_count, ha]
      rw [this]
      simp only []
      rw [step_value (hp w (by simp))]
      simp only [List.cons_append, List.nil_append]
      rw [take_react hc]
      cases m.react (flagOf i) [v, w] <;> rfl

theorem parse_item {m : Matches} {i : Item} {ts : List Str} (hs : Spelled i ts)
    (rest : List Str) : parseFrom (at_ m) (ts ++ rest) =
      (applyItem m i).bind fun m' => parseFrom (at_ m') rest := by
  cases hs with
  | file hp =>
    simp only [List.cons_append, List.nil_append, parseFrom, step, at_, classify_value.2 hp, St.positional, applyItem]
    cases hf : m.file <;> simp [hf]
  | @long id vs hl hp =>
    simp only [applyItem]
    simp only [List.cons_append, parseFrom, step, at_, classify_long_mk, find_long, St.option, Bool.false_eq_true,
      if_false]
    exact parse_values hp hl rest
  | @short id c vs hc hl hp =>
    simp only [applyItem]
    obtain ⟨x, hk, hx, _, hf⟩ := find_short hc
    have := classify_short_mk hx []
    simp only [List.append_nil] at this
    rw [hk]
    simp only [List.cons_append, parseFrom, step, at_, this, hf, St.option, attachedOf, Bool.false_eq_true,
      if_false]
    exact parse_values hp hl rest
  | @longEq id v =>
    simp only [applyItem]
    simp only [List.cons_append, List.nil_append, parseFrom, step, at_, classify_longEq_mk, find_long, St.option,
      Bool.false_eq_true, if_false]
    cases m.react (flagOf id) [v] <;> rfl
  | @shortEq id c v hc =>
    simp only [applyItem]
    obtain ⟨x, hk, hx, _, hf⟩ := find_short hc
    have := classify_short_mk hx (61 :: v)
    rw [hk, kEq, List.append_assoc]
    simp only [List.cons_append, List.nil_append] at this ⊢
    simp only [parseFrom, step, at_, this, hf, St.option, attachedOf, if_pos, Bool.false_eq_true,
      if_false]
    cases m.react (flagOf id) [v] <;> rfl
  | @joined id c v hc hv he =>
    simp only [applyItem]
    obtain ⟨x, hk, hx, _, hf⟩ := find_short hc
    have := classify_short_mk hx v
    rw [hk]
    have hat : attachedOf v = some v := by
      cases v with
      | nil => exact absurd rfl hv
      | cons y v =>
        have : y ≠ 61 := fun e => he v (by rw [e, kEq]; rfl)
        simp [attachedOf, this]
    simp only [List.cons_append, List.nil_append] at this ⊢
    simp only [parseFrom, step, at_, this, hf, St.option, hat, Bool.false_eq_true, if_false]
    cases m.react (flagOf id) [v] <;> rfl

theorem parse_trailing (m : Matches) (ps : List Str) :
    parseFrom { m, trailing := true } ps = applyItems m (ps.map .file) := by
  induction ps generalizing m with
  | nil => simp [parseFrom, applyItems]
  | cons p ps ih =>
    simp only [parseFrom, step, if_pos, St.positional, List.map_cons, applyItems, applyItem]
    cases hf : m.file with
    | none => simp only []; exact ih _
    | some _ => simp

/-- Every way to say items is read as these items. -/
theorem parse_says {items : List Item} {ts : List Str} (h : Says items ts) (m : Matches) :
    parseFrom (at_ m) ts = applyItems m items := by
  induction h generalizing m with
  | done => simp [parseFrom, at_, applyItems]
  | @item i ts is rest hs _ ih =>
    rw [parse_item hs]
    simp only [applyItems]
    cases hm : applyItem m i with
    | none => rfl
    | some m1 => exact ih m1
  | escape =>
    simp only [parseFrom, step, at_, classify_escape.2 rfl, Bool.false_eq_true, if_false]
    exact parse_trailing m _

theorem positional_apply {m : Matches} {s : St} {t : Str} (h : St.positional { m } t = some s) :
    ∃ m1, s = at_ m1 ∧ applyItem m (.file t) = some m1 := by
  simp only [St.positional] at h
  simp only [applyItem]
  split at h
  · rename_i hf
    cases h
    exact ⟨{ m with file := some t }, rfl, by rw [hf]⟩
  · cases h

theorem parse_dangling (m m' : Matches) (f : Flag) (vs : List Str) (hc : vs.length < f.count) :
    ∀ ts, parseFrom { m, pending := some (f, vs) } ts = some m' →
      ∃ ws rest, ts = ws ++ rest ∧ (∀ w ∈ ws, PlainArg w) ∧ ∃ m1, m.react f (vs ++ ws) = some m1 ∧
        parseFrom (at_ m1) rest = some m' := by
  suffices H : ∀ n vs, vs.length + n = f.count → 0 < n → ∀ ts,
      parseFrom { m, pending := some (f, vs) } ts = some m' →
      ∃ ws rest, ts = ws ++ rest ∧ (∀ w ∈ ws, PlainArg w) ∧ ∃ m1, m.react f (vs ++ ws) = some m1 ∧
        parseFrom (at_ m1) rest = some m' from
    fun ts h => H (f.count - vs.length) vs (by omega) (by omega) ts h
  intro n
  induction n with
  | zero => intro _ _ h; omega
  | succ n ih =>
    intro vs hn _ ts h
    cases ts with
    | nil => simp [parseFrom] at h
    | cons t ts =>
      simp only [parseFrom] at h
      cases hc' : classify t with
      | escape => simp [step, hc'] at h
      | long a b =>
        simp only [step, hc', St.option, Bool.false_eq_true, if_false] at h
        cases hf : cli.find? (fun f => f.long == a) <;> rw [hf] at h <;> cases h
      | short a b =>
        simp only [step, hc', St.option, Bool.false_eq_true, if_false] at h
        cases hf : cli.find? (fun f => f.short == some a) <;> rw [hf] at h <;> cases h
      | value =>
        have hp := classify_value.1 hc'
        rw [step_value hp] at h
        simp only [St.take] at h
        by_cases hlt : (vs ++ [t]).length < f.count
        · rw [if_pos hlt] at h
          simp only at h
          obtain ⟨ws, rest, e, hw, m1, h1, h2⟩ := ih (vs ++ [t]) (by simp at hlt ⊢; omega) (by simp at hlt; omega) ts h
          refine ⟨t :: ws, rest, by rw [e]; rfl, ?_, m1, by simpa using h1, h2⟩
          intro w hw'
          rcases List.mem_cons.1 hw' with rfl | hw'
          · exact hp
          · exact hw w hw'
        · rw [if_neg hlt] at h
          cases hr : m.react f (vs ++ [t]) with
          | none => rw [hr] at h; simp at h
          | some m1 =>
            rw [hr] at h
            exact ⟨[t], ts, rfl, by simpa using hp, m1, hr, h⟩

/-- Whatever is read was said. -/
theorem says_of_parse (n : Nat) : ∀ (ts : List Str), ts.length ≤ n → ∀ (m m' : Matches),
    parseFrom (at_ m) ts = some m' → ∃ items, Says items ts ∧ applyItems m items = some m' := by
  induction n with
  | zero =>
    intro ts hl m m' h
    cases ts with
    | nil => exact ⟨[], .done, by simpa [parseFrom, at_, applyItems] using h⟩
    | cons t ts => simp at hl
  | succ n ih =>
    intro ts hl m m' h
    cases ts with
    | nil => exact ⟨[], .done, by simpa [parseFrom, at_, applyItems] using h⟩
    | cons t ts =>
      have hl' : ts.length ≤ n := by simpa using hl
      -- an item read, then the rest
      have cons : ∀ {i : Item} {us rest : List Str} {m1 : Matches}, t :: ts = us ++ rest → rest.length ≤ n →
          Spelled i us → applyItem m i = some m1 → parseFrom (at_ m1) rest = some m' →
          ∃ items, Says items (t :: ts) ∧ applyItems m items = some m' := by
        intro i us rest m1 e hr hs ha hp
        obtain ⟨items, h1, h2⟩ := ih rest hr m1 m' hp
        exact ⟨i :: items, by rw [e]; exact .item hs h1, by simp only [applyItems, ha]; exact h2⟩
      simp only [parseFrom, step, at_, Bool.false_eq_true, if_false] at h
      cases hc : classify t with
      | escape =>
        rw [hc] at h
        simp only at h
        rw [classify_escape.1 hc]
        exact ⟨ts.map .file, .escape, (parse_trailing m ts).symm.trans h⟩
      | value =>
        rw [hc] at h
        simp only at h
        cases hp : St.positional { m } t with
        | none => rw [hp] at h; cases h
        | some s =>
          rw [hp] at h
          obtain ⟨m1, rfl, ha⟩ := positional_apply hp
          exact cons (us := [t]) rfl hl' (.file (classify_value.1 hc)) ha h
      | long a b =>
        rw [hc] at h
        simp only at h
        cases hf : cli.find? (fun f => f.long == a) with
        | none => rw [hf] at h; cases h
        | some f =>
          rw [hf] at h
          obtain ⟨i, rfl, rfl⟩ := found_long hf
          rcases classify_long hc with ⟨rfl, rfl⟩ | ⟨x, rfl, rfl⟩
          · simp only [St.option] at h
            obtain ⟨ws, rest, rfl, hw, m1, h1, h2⟩ := parse_dangling m m' (flagOf i) []
              (by rw [flagOf_count]; cases i <;> simp [arity]) ts h
            have hlen := react_length h1
            rw [flagOf_count] at hlen
            exact cons (i := .opt i ws) (us := (k "--" ++ k (longName i)) :: ws) (rest := rest) rfl (by simp at hl'; omega)
              (.long (by simpa using hlen) hw) h1 h2
          · simp only [St.option] at h
            cases hr : m.react (flagOf i) [x] with
            | none => rw [hr] at h; cases h
            | some m1 =>
              rw [hr] at h
              exact cons (i := .opt i [x]) (us := [_]) rfl hl' .longEq hr h
      | short a b =>
        rw [hc] at h
        simp only at h
        have ht := classify_short hc
        cases hf : cli.find? (fun f => f.short == some a) with
        | none => rw [hf] at h; cases h
        | some f =>
          rw [hf] at h
          obtain ⟨i, c, rfl, hl2, hk⟩ := found_short hf
          have ht' : t = k "-" ++ k c ++ b := by rw [ht, hk, kDash]; rfl
          cases b with
          | nil =>
            simp only [St.option, attachedOf] at h
            obtain ⟨ws, rest, rfl, hw, m1, h1, h2⟩ := parse_dangling m m' (flagOf i) []
              (by rw [flagOf_count]; cases i <;> simp [arity]) ts h
            have hlen := react_length h1
            rw [flagOf_count] at hlen
            exact cons (i := .opt i ws) (us := t :: ws) (rest := rest) rfl (by simp at hl'; omega)
              (by rw [ht', List.append_nil]; exact .short hl2 (by simpa using hlen) hw) h1 h2
          | cons y b =>
            simp only [St.option, attachedOf] at h
            by_cases hy : y = 61
            · rw [if_pos hy] at h
              simp only at h
              cases hr : m.react (flagOf i) [b] with
              | none => rw [hr] at h; cases h
              | some m1 =>
                rw [hr] at h
                refine cons (i := .opt i [b]) (us := [t]) rfl hl' ?_ hr h
                have : t = k "-" ++ k c ++ k "=" ++ b := by rw [ht', hy, kEq]; simp
                rw [this]
                exact .shortEq hl2
            · rw [if_neg hy] at h
              simp only at h
              cases hr : m.react (flagOf i) [y :: b] with
              | none => rw [hr] at h; cases h
              | some m1 =>
                rw [hr] at h
                refine cons (i := .opt i [y :: b]) (us := [t]) rfl hl' ?_ hr h
                rw [ht']
                refine .joined hl2 (by simp) fun rest e => ?_
                rw [kEq] at e
                simp only [List.cons_append, List.cons.injEq] at e
                exact hy e.1

end Verif.Cli
