import Verif.Main.Lemmas
/-!
# C97, C98: the output of a run, and what a run shows

C97: for every standard output (any pattern of short and failing writes), every buffer size and
every way the printers cut their output into pieces.
-/
namespace Verif.Main
open Verif.Opts

/-- The start of every run of `format`. -/
theorem empty_len (cap : Nat) : ({} : Out).buf.length ≤ cap := by simp

/-- All that is known of `formatOpen`. -/
structure Opened {F : Type} (w : World F) (o : Options) (m : Mode F) (s : Out) (l : List Str)
    (e : Option Str) : Prop where
  len : s.buf.length ≤ w.cap
  pre : ∃ P, P <+: (if o.html then w.head else []) ++ (w.pieces m o).flatten ∧
    s.got ++ s.buf <+: P ++ (if o.html then w.foot else [])
  plain : (o.html = true → ∀ a b, m ≠ .diff a b) → s.got ++ s.buf <+: complete w o m
  ok : l = [] → e = none → s.got ++ s.buf = complete w o m
  err : ∀ x, x ∈ l ∨ e = some x → ∃ i n, w.sink i = some (n, x)
  healthy : Healthy w.sink → l = [] ∧ e = none
  broken : Broken w.sink → s.got <+: complete w o m ∧
    ((l ≠ [] ∨ e ≠ none) → (s.drop w.sink).got <+: complete w o m)

theorem drop_dead {k : Sink} {s : Out} (hb : Broken k) (hd : ∃ i, i < s.calls ∧ k i ≠ none) :
    (s.drop k).got = s.got :=
  (flush_step s.buf.length k s (Nat.le_refl _)).dead hb hd

theorem prefix_left {a b c : Str} (h : a ++ b <+: c) : a <+: c := (List.prefix_append a b).trans h

theorem opened_spec {F : Type} (w : World F) (o : Options) (m : Mode F) :
    Opened w o m (formatOpen w o m).1 (formatOpen w o m).2.1 (formatOpen w o m).2.2 := by
  have bodyStep : ∀ s : Out, s.buf.length ≤ w.cap →
      Step w.cap w.sink s (w.pieces m o).flatten (writeAll w.cap w.sink s (w.pieces m o)) :=
    fun s h => writeAll_step _ _ _ s h
  by_cases hh : o.html = true
  · -- a page
    unfold formatOpen
    simp only [hh, if_pos]
    have h1 := write_step w.cap w.sink {} w.head (empty_len _)
    cases hr : Out.write w.cap w.sink {} w.head with
    | mk s e =>
      rw [hr] at h1
      have p1 := h1.pre
      simp only [List.nil_append] at p1
      cases e with
      | some e =>
        have hp : s.got ++ s.buf <+: complete w o m := by
          refine p1.trans ?_
          simp only [complete, hh, if_pos, List.append_assoc]; exact List.prefix_append _ _
        refine ⟨h1.len, ⟨w.head, ?_, ?_⟩, fun _ => hp, fun _ h => (by cases h), ?_, fun hk => ?_, fun _ =>
          ⟨prefix_left hp, fun _ => (drop_prefix _ _).trans hp⟩⟩
        · rw [if_pos hh]; exact List.prefix_append _ _
        · exact p1.trans (List.prefix_append _ _)
        · rintro x (hx | hx)
          · simp at hx
          · obtain ⟨i, n, -, -, h⟩ := h1.err x hx
            exact ⟨i, n, h⟩
        · have := h1.healthy hk; cases this
      | none =>
        have h2 := bodyStep s h1.len
        simp only [body]
        cases hr2 : writeAll w.cap w.sink s (w.pieces m o) with
        | mk s2 e2 =>
          rw [hr2] at h2
          have h12 := h1.trans h2
          have p12 := h12.pre
          simp only [List.nil_append] at p12
          have hp : s2.got ++ s2.buf <+: complete w o m := by
            refine p12.trans ?_
            simp only [complete, hh, if_pos]; exact List.prefix_append _ _
          have h3 := write_step w.cap w.sink s2 w.foot h2.len
          -- the mode does not matter except for what happens after an error
          have key : ∀ l : List Str, (l = e2.toList) → ∀ r, s2.write w.cap w.sink w.foot = r →
              (e2 ≠ none → ∃ a b, m = .diff a b) →
              Opened w o m r.1 l r.2 := by
            intro l hl r hrr hdiff
            rw [hrr] at h3
            refine ⟨h3.len, ⟨s2.got ++ s2.buf, ?_, ?_⟩, ?_, ?_, ?_, ?_, ?_⟩
            · simpa [hh] using p12
            · simpa [hh] using h3.pre
            · intro hnd
              cases e2 with
              | some e =>
                obtain ⟨a, b, hm⟩ := hdiff (by simp)
                exact absurd hm (hnd hh a b)
              | none =>
                have := (h12.trans h3).pre
                simpa [complete, hh] using this
            · intro hl0 he
              cases e2 with
              | some e => rw [hl] at hl0; simp at hl0
              | none =>
                have := (h12.trans h3).ok he
                simpa [complete, hh] using this
            · rintro x (hx | hx)
              · rw [hl] at hx
                obtain ⟨i, n, -, -, h⟩ := h12.err x (by cases e2 <;> simp_all)
                exact ⟨i, n, h⟩
              · obtain ⟨i, n, -, -, h⟩ := h3.err x hx
                exact ⟨i, n, h⟩
            · intro hk
              refine ⟨?_, h3.healthy hk⟩
              have e20 : e2 = none := h2.healthy hk
              rw [hl, e20]; rfl
            · intro hb
              cases e2 with
              | none =>
                have := (h12.trans h3).pre
                have hq : r.1.got ++ r.1.buf <+: complete w o m := by simpa [complete, hh] using this
                exact ⟨prefix_left hq, fun _ => (drop_prefix _ _).trans hq⟩
              | some e =>
                obtain ⟨i, n, -, hi, hki⟩ := h2.err e rfl
                have hd : ∃ i, i < s2.calls ∧ w.sink i ≠ none := ⟨i, hi, by rw [hki]; simp⟩
                have g1 := h3.dead hb hd
                have g2 : (r.1.drop w.sink).got = r.1.got :=
                  drop_dead hb ⟨i, Nat.lt_of_lt_of_le hi h3.calls, by rw [hki]; simp⟩
                rw [g2, g1]
                exact ⟨prefix_left hp, fun _ => prefix_left hp⟩
          have early : ∀ e, e2 = some e → Opened w o m s2 [] (some e) := by
            intro e he
            refine ⟨h2.len, ⟨s2.got ++ s2.buf, ?_, ?_⟩, fun _ => hp, fun _ h => (by cases h), ?_, ?_,
              fun _ => ⟨prefix_left hp, fun _ => (drop_prefix _ _).trans hp⟩⟩
            · simpa [hh] using p12
            · exact List.prefix_append _ _
            · rintro x (hx | hx)
              · simp at hx
              · obtain ⟨i, n, -, -, h⟩ := h12.err x (by rw [he]; exact hx)
                exact ⟨i, n, h⟩
            · intro hk
              have e20 : e2 = none := h2.healthy hk
              rw [he] at e20; cases e20
          cases m with
          | diff a b => exact key _ rfl _ rfl (fun _ => ⟨a, b, rfl⟩)
          | bloat f =>
            cases e2 with
            | some e => exact early e rfl
            | none => exact key _ rfl _ rfl (fun h => absurd rfl h)
          | print f =>
            cases e2 with
            | some e => exact early e rfl
            | none => exact key _ rfl _ rfl (fun h => absurd rfl h)
  · -- text
    unfold formatOpen
    simp only [hh, body]
    have h2 := bodyStep {} (empty_len _)
    cases hr2 : writeAll w.cap w.sink {} (w.pieces m o) with
    | mk s2 e2 =>
      rw [hr2] at h2
      have p2 := h2.pre
      simp only [List.nil_append] at p2
      have hp : s2.got ++ s2.buf <+: complete w o m := by simpa [complete, hh] using p2
      have key : ∀ (l : List Str) (e : Option Str), (l = e2.toList ∧ e = none ∨ l = [] ∧ e = e2) →
          Opened w o m s2 l e := by
        intro l e hle
        refine ⟨h2.len, ⟨s2.got ++ s2.buf, by simpa [hh] using p2, by simp [hh]⟩, fun _ => hp, ?_, ?_, ?_,
          fun _ => ⟨prefix_left hp, fun _ => (drop_prefix _ _).trans hp⟩⟩
        · intro hl he
          have : e2 = none := by
            rcases hle with ⟨h, -⟩ | ⟨-, h⟩
            · rw [hl] at h
              cases e2 with
              | none => rfl
              | some x => cases h
            · rw [← h]; exact he
          have := h2.ok this
          simpa [complete, hh] using this
        · intro x hx
          have : e2 = some x := by
            rcases hle with ⟨h, h'⟩ | ⟨h, h'⟩
            · subst h h'; cases e2 <;> simp_all
            · subst h h'; simpa using hx
          obtain ⟨i, n, -, -, h⟩ := h2.err x this
          exact ⟨i, n, h⟩
        · intro hk
          have : e2 = none := h2.healthy hk
          subst this
          rcases hle with ⟨h, h'⟩ | ⟨h, h'⟩
          · exact ⟨h, h'⟩
          · exact ⟨h, h'⟩
      cases m with
      | diff a b => exact key _ _ (Or.inl ⟨rfl, rfl⟩)
      | bloat f => exact key _ _ (Or.inr ⟨rfl, rfl⟩)
      | print f => exact key _ _ (Or.inr ⟨rfl, rfl⟩)

/-- **C97.** Whatever standard output does — short writes, failures, failures that go away again —
what it has received at the end is the beginning of the complete output, except for an HTML
diff. -/
theorem C97_received_is_a_beginning {F : Type} (w : World F) (o : Options) (m : Mode F)
    (h : o.html = true → ∀ a b, m ≠ .diff a b) :
    (format w o m).1 <+: complete w o m :=
  (drop_prefix _ _).trans ((opened_spec w o m).plain h)

/-- **C97.** For an HTML diff (and every other mode): the beginning of the header and the body, and
then, if all of that beginning was taken, the beginning of the footer. -/
theorem C97_page_beginning {F : Type} (w : World F) (o : Options) (m : Mode F) (h : o.html = true) :
    ∃ P, P <+: w.head ++ (w.pieces m o).flatten ∧ (format w o m).1 <+: P ++ w.foot := by
  obtain ⟨P, h1, h2⟩ := (opened_spec w o m).pre
  simp only [h, if_pos] at h1 h2
  exact ⟨P, h1, (drop_prefix _ _).trans h2⟩

/-- **C97.** When a failure is final (a closed pipe), every mode gives a beginning of the complete
output, in every format. -/
theorem C97_closed_pipe {F : Type} (w : World F) (o : Options) (m : Mode F) (h : Broken w.sink) :
    (format w o m).1 <+: complete w o m := by
  have hs := opened_spec w o m
  by_cases hq : (formatOpen w o m).2.1 = [] ∧ (formatOpen w o m).2.2 = none
  · have := hs.ok hq.1 hq.2
    have h2 := drop_prefix w.sink (formatOpen w o m).1
    rw [this] at h2; exact h2
  · refine (hs.broken h).2 ?_
    by_cases h1 : (formatOpen w o m).2.1 = []
    · exact Or.inr fun h2 => hq ⟨h1, h2⟩
    · exact Or.inl h1

/-- **C97.** When no write fails, the complete output is received and nothing is reported. -/
theorem C97_complete {F : Type} (w : World F) (o : Options) (m : Mode F) (h : Healthy w.sink) :
    format w o m = (complete w o m, [], none) := by
  have hs := opened_spec w o m
  obtain ⟨hl, he⟩ := hs.healthy h
  have : format w o m = (((formatOpen w o m).1.drop w.sink).got, (formatOpen w o m).2.1,
    (formatOpen w o m).2.2) := rfl
  rw [this, drop_healthy _ _ h, hs.ok hl he, hl, he]

/-- **C97.** When nothing is reported, at most the last buffer full of the output is missing. -/
theorem C97_silent_loss {F : Type} (w : World F) (o : Options) (m : Mode F)
    (hl : (format w o m).2.1 = []) (he : (format w o m).2.2 = none) :
    ∃ lost, (format w o m).1 ++ lost = complete w o m ∧ lost.length ≤ w.cap := by
  have hs := opened_spec w o m
  have hc := hs.ok hl he
  obtain ⟨lost, hlost⟩ := drop_prefix w.sink (formatOpen w o m).1
  obtain ⟨x, hx⟩ := drop_grow w.sink (formatOpen w o m).1
  refine ⟨lost, hlost.trans hc, ?_⟩
  have h1 : ((formatOpen w o m).1.got ++ x) ++ lost =
      (formatOpen w o m).1.got ++ (formatOpen w o m).1.buf := by rw [hx]; exact hlost
  have h2 := congrArg List.length h1
  have h3 := hs.len
  simp only [List.length_append] at h2
  omega

/-- **C97.** Every error reported is the error of a write that failed. -/
theorem C97_reports_are_real {F : Type} (w : World F) (o : Options) (m : Mode F) (x : Str)
    (h : x ∈ (format w o m).2.1 ∨ (format w o m).2.2 = some x) :
    ∃ i n, w.sink i = some (n, x) :=
  (opened_spec w o m).err x h

/-! ## C98 -/

/-- **C98.** The command line is accepted iff exactly one mode is named, `--ignore` and
`--prefix-map` come with `--diff`, and the other options are valid; then that mode is run. -/
theorem C98_mode {F : Type} (w : World F) (p : Paths) (a : Args) (r : Shown F) :
    run w p a = some r ↔
      ∃ m o, Names p m ∧ parseOptions a = some o ∧
        ((a.ignore ≠ none ∨ a.prefixMap ≠ none) → ∃ x y, m = .diff x y) ∧ r = runMode w o m := by
  obtain ⟨d, b, f⟩ := p
  unfold run
  constructor
  · intro h
    by_cases ha : accepted ⟨d, b, f⟩ a = true
    · simp only [ha, if_pos] at h
      cases ho : parseOptions a with
      | none => rw [ho] at h; cases h
      | some o =>
        rw [ho] at h
        simp only [accepted, Bool.and_eq_true, Bool.or_eq_true, Bool.not_eq_true'] at ha
        obtain ⟨⟨⟨⟨h1, h2⟩, h3⟩, h4⟩, h5⟩ := ha
        rcases d with _ | ⟨x, y⟩
        · have hno : ¬ (a.ignore ≠ none ∨ a.prefixMap ≠ none) := by
            rintro (hi | hi)
            · cases hx : a.ignore <;> simp_all
            · cases hx : a.prefixMap <;> simp_all
          rcases b with _ | q
          · rcases f with _ | q
            · simp at h1
            · exact ⟨.print q, o, Or.inr (Or.inr ⟨q, rfl, rfl⟩), rfl, fun h => absurd h hno,
                (by simpa [choose] using h.symm)⟩
          · rcases f with _ | q'
            · exact ⟨.bloat q, o, Or.inr (Or.inl ⟨q, rfl, rfl⟩), rfl, fun h => absurd h hno,
                (by simpa [choose] using h.symm)⟩
            · simp at h2
        · rcases b with _ | q
          · rcases f with _ | q'
            · exact ⟨.diff x y, o, Or.inl ⟨x, y, rfl, rfl⟩, rfl, fun _ => ⟨x, y, rfl⟩,
                (by simpa [choose] using h.symm)⟩
            · simp at h2
          · simp at h3
    · simp only [ha] at h; cases h
  · rintro ⟨m, o, hn, ho, hi, rfl⟩
    rcases hn with ⟨x, y, hp, rfl⟩ | ⟨q, hp, rfl⟩ | ⟨q, hp, rfl⟩
    · cases hp
      have : accepted ⟨some (x, y), none, none⟩ a = true := by simp [accepted]
      simp [this, ho, choose]
    all_goals
      cases hp
      have h1 : a.ignore = none := by
        cases hx : a.ignore with
        | none => rfl
        | some v => obtain ⟨_, _, hm⟩ := hi (Or.inl (by rw [hx]; simp)); cases hm
      have h2 : a.prefixMap = none := by
        cases hx : a.prefixMap with
        | none => rfl
        | some v => obtain ⟨_, _, hm⟩ := hi (Or.inr (by rw [hx]; simp)); cases hm
      simp [accepted, h1, h2, ho, choose]

/-- **C98.** If a file cannot be read, the run shows exactly one message, naming the first such
file, and nothing else: no output, no server; files after it are not read. -/
theorem C98_unreadable {F : Type} (w : World F) (o : Options) (m : Mode Str) (before : List Str)
    (p e : Str) (h : FirstBad w m before p e) :
    runMode w o m = { opened := before ++ [p], stdout := [], errors := [p ++ k ": " ++ e],
                      served := none } := by
  obtain ⟨⟨after, hm⟩, hp, hb⟩ := h
  have hk : k ": " = [58, 32] := by decide
  rw [hk]
  cases m with
  | diff a b =>
    simp only [Mode.paths] at hm
    rcases before with _ | ⟨q, _ | ⟨q', bs⟩⟩
    · simp at hm; obtain ⟨rfl, -⟩ := hm
      simp only [runMode, hp]; rfl
    · simp at hm; obtain ⟨rfl, rfl, -⟩ := hm
      obtain ⟨f, hf⟩ := hb a (by simp)
      simp only [runMode, hp, hf]; rfl
    · simp at hm
  | bloat q =>
    simp only [Mode.paths] at hm
    rcases before with _ | ⟨q', bs⟩
    · simp at hm; obtain ⟨rfl, -⟩ := hm
      simp only [runMode, hp]; rfl
    · simp at hm
  | print q =>
    simp only [Mode.paths] at hm
    rcases before with _ | ⟨q', bs⟩
    · simp at hm; obtain ⟨rfl, -⟩ := hm
      simp only [runMode, hp]; rfl
    · simp at hm

/-- **C98.** If every file can be read and the format is `http`, the server is started with these
files and options, and nothing is printed or reported. -/
theorem C98_served {F : Type} (w : World F) (o : Options) (m : Mode Str) (f : Mode F)
    (h : Read w m f) (hh : o.http = true) :
    runMode w o m = { opened := m.paths, stdout := [], errors := [], served := some (f, o) } := by
  cases h with
  | diff h1 h2 => simp [runMode, h1, h2, show', hh, Mode.paths]
  | bloat h1 => simp [runMode, h1, show', hh, Mode.paths]
  | print h1 => simp [runMode, h1, show', hh, Mode.paths]

/-- **C98.** If every file can be read and the format is not `http`, and no write fails, the run
shows exactly the complete output of the mode for these files: no message, no server. -/
theorem C98_printed {F : Type} (w : World F) (o : Options) (m : Mode Str) (f : Mode F)
    (h : Read w m f) (hh : o.http = false) (hs : Healthy w.sink) :
    runMode w o m = { opened := m.paths, stdout := complete w o f, errors := [], served := none } := by
  cases h with
  | diff h1 h2 => simp [runMode, h1, h2, show', hh, Mode.paths, C97_complete _ _ _ hs]
  | bloat h1 => simp [runMode, h1, show', hh, Mode.paths, C97_complete _ _ _ hs]
  | print h1 => simp [runMode, h1, show', hh, Mode.paths, C97_complete _ _ _ hs]

/-- **C98.** In general (not `http`, files readable): the output is that of C97, no server is
started, and every message is the error of a failed write, with or without the path in front. -/
theorem C98_messages {F : Type} (w : World F) (o : Options) (m : Mode Str) (f : Mode F)
    (h : Read w m f) (hh : o.http = false) :
    (runMode w o m).served = none ∧ (runMode w o m).opened = m.paths ∧
    (runMode w o m).stdout = (format w o f).1 ∧
    ∀ x ∈ (runMode w o m).errors, ∃ i n e, w.sink i = some (n, e) ∧
      (x = e ∨ ∃ p ∈ m.paths, x = p ++ k ": " ++ e) := by
  have hk : k ": " = [58, 32] := by decide
  have hr := C97_reports_are_real w o f
  have main : ∀ (g : Str → Str), (∀ e, g e = e ∨ ∃ p ∈ m.paths, g e = p ++ k ": " ++ e) →
      ∀ x ∈ (format w o f).2.1 ++ ((format w o f).2.2.map g).toList, ∃ i n e, w.sink i = some (n, e) ∧
        (x = e ∨ ∃ p ∈ m.paths, x = p ++ k ": " ++ e) := by
    intro g hg x hx
    rcases List.mem_append.1 hx with hx | hx
    · obtain ⟨i, n, h⟩ := hr x (Or.inl hx)
      exact ⟨i, n, x, h, Or.inl rfl⟩
    · cases he : (format w o f).2.2 with
      | none => rw [he] at hx; simp at hx
      | some e =>
        rw [he] at hx
        have : x = g e := by simpa using hx
        obtain ⟨i, n, h⟩ := hr e (Or.inr he)
        exact ⟨i, n, e, h, this ▸ hg e⟩
  cases h with
  | diff h1 h2 =>
    simp only [runMode, h1, h2, show', hh]
    exact ⟨rfl, rfl, rfl, main id fun e => Or.inl rfl⟩
  | @bloat p _ h1 =>
    simp only [runMode, h1, show', hh]
    exact ⟨rfl, rfl, rfl, main (withPath p) fun e => Or.inr ⟨p, by simp [Mode.paths], by rw [hk]; rfl⟩⟩
  | @print p _ h1 =>
    simp only [runMode, h1, show', hh]
    exact ⟨rfl, rfl, rfl, main (withPath p) fun e => Or.inr ⟨p, by simp [Mode.paths], by rw [hk]; rfl⟩⟩

/-! ## Cases -/

/-- One file, named `a`; a buffer of 4 bytes. -/
def caseWorld (sink : Sink) : World Nat where
  parse p := if p = k "a" then .ok 7 else .error (k "no file")
  pieces _ _ := [k "ab", k "cd", k "e"]
  head := k "<h>"
  foot := k "<f>"
  cap := 4
  sink := sink

example : format (caseWorld fun _ => none) {} (.print 7) = (k "abcde", [], none) := by decide
example : format (caseWorld fun _ => none) { html := true } (.print 7) = (k "<h>abcde<f>", [], none) := by
  decide
/-- A failing pipe after two bytes. -/
example : format (caseWorld fun i => if i = 0 then some (2, k "pipe") else some (0, k "pipe"))
    { html := true } (.print 7) = (k "<h", [], some (k "pipe")) := by decide
example : Broken (fun i => if i = 0 then some (2, k "pipe") else some (0, k "pipe")) := by
  intro i j h _
  exact ⟨k "pipe", by simp; omega⟩
/-- Names of the modes, and rejected command lines. -/
example : (run (caseWorld fun _ => none) { file := some (k "a") } {}).map (·.stdout) = some (k "abcde") := by
  decide
example : (run (caseWorld fun _ => none) { file := some (k "a"), bloat := some (k "a") } {}).isNone := by
  decide
example : (run (caseWorld fun _ => none) { bloat := some (k "a") } { ignore := some [k "added"] }).isNone := by
  decide
/-- The second file of a diff is not read if the first cannot be. -/
example : runMode (caseWorld fun _ => none) {} (.diff (k "b") (k "c")) =
    { opened := [k "b"], errors := [k "b: no file"] } := by
  rw [C98_unreadable _ _ _ [] (k "b") (k "no file") ⟨⟨[k "c"], rfl⟩, by rfl, by simp⟩]
  rfl
example : (runMode (caseWorld fun _ => none) { http := true, html := true } (.diff (k "a") (k "a"))).served =
    some (.diff 7 7, { http := true, html := true }) := by decide

theorem write_small (cap : Nat) (k : Sink) (o : Out) (b : Str) (h : o.buf.length + b.length < cap) :
    o.write cap k b = ({ o with buf := o.buf ++ b }, none) := by
  unfold Out.write
  rw [if_pos (by omega)]

theorem writeAll_small (cap : Nat) (k : Sink) (bs : List Str) :
    ∀ o : Out, o.buf.length + bs.flatten.length < cap →
      writeAll cap k o bs = ({ o with buf := o.buf ++ bs.flatten }, none) := by
  induction bs with
  | nil => intro o _; simp [writeAll]
  | cons b bs ih =>
    intro o h
    rw [List.flatten_cons, List.length_append] at h
    rw [writeAll, write_small _ _ _ _ (by omega)]
    simp only []
    rw [ih _ (by simp only [List.length_append]; omega)]
    simp

/-- **C97** (finding). An output shorter than the buffer (8192 bytes) is lost entirely, and nothing
is reported, when standard output fails: the only write is that of the drop, whose error is
ignored. -/
theorem C97_short_output_lost {F : Type} (w : World F) (o : Options) (m : Mode F) (e : Str)
    (h : (complete w o m).length < w.cap) (hs : w.sink 0 = some (0, e)) :
    format w o m = ([], [], none) := by
  have hd : ∀ b : Str, (Out.drop w.sink { got := [], buf := b, calls := 0 }).got = [] := by
    intro b
    by_cases hb : b = []
    · subst hb; rfl
    · simp [Out.drop, Out.flush, hb, hs]
  by_cases hh : o.html = true
  · simp only [complete, hh, if_pos, List.length_append] at h
    have h1 := write_small w.cap w.sink {} w.head (by simp; omega)
    have h2 := writeAll_small w.cap w.sink (w.pieces m o) { got := [], buf := w.head, calls := 0 }
      (by simp only []; omega)
    have h3 := write_small w.cap w.sink
      { got := [], buf := w.head ++ (w.pieces m o).flatten, calls := 0 } w.foot
      (by simp only [List.length_append]; omega)
    simp only [List.nil_append] at h1
    have hb : body w o m { got := [], buf := w.head, calls := 0 } =
        ({ got := [], buf := w.head ++ (w.pieces m o).flatten, calls := 0 }, [], none) := by
      unfold body; rw [h2]; cases m <;> rfl
    have : formatOpen w o m =
        ({ got := [], buf := w.head ++ (w.pieces m o).flatten ++ w.foot, calls := 0 }, [], none) := by
      unfold formatOpen
      rw [if_pos hh, h1]
      simp only [hb, h3]
    unfold format
    rw [this]
    simp only [hd]
  · simp only [complete, hh] at h
    have h2 := writeAll_small w.cap w.sink (w.pieces m o) {} (by simpa using h)
    have hb : formatOpen w o m =
        ({ got := [], buf := (w.pieces m o).flatten, calls := 0 }, [], none) := by
      unfold formatOpen body
      rw [if_neg hh, h2]; cases m <;> rfl
    unfold format
    rw [hb]
    simp only [hd]

example : (complete { caseWorld (fun _ => some (0, k "full")) with cap := 8192 } {} (.print 7)).length < 8192 := by
  decide

/-- **C97** (finding). An HTML diff goes on after a failed write: when the failure goes away, the
footer follows an incomplete body, so a page that ends properly may lack a part in the middle. -/
theorem C97_html_diff_can_lack_the_middle :
    format (caseWorld fun i => if i = 1 then some (0, k "busy") else none) { html := true } (.diff 7 7) =
      (k "<h>abcd<f>", [k "busy"], none) ∧
    complete (caseWorld fun i => if i = 1 then some (0, k "busy") else none) { html := true } (.diff 7 7) =
      k "<h>abcde<f>" := by
  decide

end Verif.Main
