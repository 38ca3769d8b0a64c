import Verif.Cli.Collect
import Verif.Opts.Props
import Verif.Main.Props
import Verif.Filter.Props
/-!
# Property theorems: C99 (what the program makes of a command line)
-/
namespace Verif.Cli
open Verif.Opts Verif.Main Verif.Types Verif.Item Verif.Filter

theorem all2_length {α β : Type} {R : α → β → Prop} {l : List α} {l' : List β} (h : All2 R l l') : l.length = l'.length := by
  induction h with
  | nil => rfl
  | cons _ _ ih => simp [ih]

/-- A value that is not a list: what is said once, unchanged. -/
theorem once {items : List Item} {i : ArgId} {r : Option (List Str)} (hp : Proper items) (hi : ¬ isList i)
    (h : SaysOf i items r) : ∀ l, r = some l → l.length = arity i := by
  intro l e
  obtain ⟨h1, h2, _⟩ := hp.2 i
  have h2 := h2 hi
  rcases h with ⟨_, h⟩ | ⟨hn, ms, hm, h⟩
  · rw [h] at e; cases e
  · rw [h] at e
    cases e
    generalize hocc : occurrences i items = occ at *
    cases hm with
    | nil => exact absurd rfl hn
    | @cons vs m os ms hvm hms =>
      have : os = [] := by cases os with
        | nil => rfl
        | cons _ _ => simp at h2
      subst this
      cases hms
      rcases hvm with ⟨hl, _⟩ | ⟨_, e⟩
      · exact absurd hl hi
      · rw [e]
        simpa using h1 vs (by simp)

/-- **C99 (meaning).** If the arguments say the items, the program takes from them the paths `p` and
the settings `a` iff nothing is wrong with the items and they mean `p` and `a`. -/
theorem C99_means (argv : List Str) (items : List Item) (hs : Says items argv) (p : Paths) (a : Args) :
    (∃ m, getMatches argv = some m ∧ m.paths = p ∧ m.args = a) ↔ Proper items ∧ Meaning items p a := by
  constructor
  · rintro ⟨m, h, rfl, rfl⟩
    unfold getMatches at h
    rw [show ({} : St) = at_ {} from rfl, parse_says hs] at h
    obtain ⟨hp, hf, ho⟩ := (matches_iff items m).1 h
    have len1 : ∀ i, ¬ isList i → arity i = 1 → m.opt i = (one (m.opt i)).map fun x => [x] := by
      intro i hi h1
      cases e : m.opt i with
      | none => rfl
      | some l =>
        have := once hp hi (ho i) l e
        rw [h1] at this
        match l, this with
        | [x], _ => rfl
    have len2 : m.opt .diff = (two (m.opt .diff)).map fun x => [x.1, x.2] := by
      cases e : m.opt .diff with
      | none => rfl
      | some l =>
        have : l.length = 2 := once hp (by simp [isList]) (ho .diff) l e
        match l, this with
        | [x, y], _ => rfl
    refine ⟨hp, hf, ?_, ?_, ?_, ?_, ?_, ho _, ho _, ho _, ho _, ho _⟩
    · have := ho .diff; rw [len2] at this; exact this
    · have := ho .bloat; rw [len1 _ (by simp [isList]) rfl] at this; exact this
    · have := ho .format; rw [len1 _ (by simp [isList]) rfl] at this; exact this
    · have := ho .inlineDepth; rw [len1 _ (by simp [isList]) rfl] at this; exact this
    · have := ho .sort; rw [len1 _ (by simp [isList]) rfl] at this; exact this
  · rintro ⟨hp, hm⟩
    obtain ⟨d, b, f⟩ := p
    obtain ⟨o, dep, c, pr, fi, so, ig, px⟩ := a
    refine ⟨{ file := f, opt := fun
      | .diff => d.map fun x => [x.1, x.2]
      | .bloat => b.map fun x => [x]
      | .format => o.map fun x => [x]
      | .category => c
      | .print => pr
      | .inlineDepth => dep.map fun x => [x]
      | .filter => fi
      | .sort => so.map fun x => [x]
      | .ignore => ig
      | .prefixMap => px }, ?_, ?_, ?_⟩
    · unfold getMatches
      rw [show ({} : St) = at_ {} from rfl, parse_says hs]
      rw [matches_iff]
      refine ⟨hp, hm.file, fun i => ?_⟩
      cases i
      · exact hm.diff
      · exact hm.bloat
      · exact hm.output
      · exact hm.category
      · exact hm.print
      · exact hm.inlineDepth
      · exact hm.filter
      · exact hm.sort
      · exact hm.ignore
      · exact hm.prefixMap
    · cases d <;> cases b <;> rfl
    · cases o <;> cases dep <;> cases so <;> rfl

/-- **C99 (reading).** What the program takes from a command line, for all command lines: it takes
the paths `p` and the settings `a` iff the arguments say a list of items, spelled in any of the
usual ways and in any order, with nothing wrong in it, which means `p` and `a`. -/
theorem C99_reads (argv : List Str) (p : Paths) (a : Args) :
    (∃ m, getMatches argv = some m ∧ m.paths = p ∧ m.args = a) ↔
      ∃ items, Says items argv ∧ Proper items ∧ Meaning items p a := by
  constructor
  · rintro ⟨m, h, h1, h2⟩
    obtain ⟨items, hs, _⟩ := says_of_parse argv.length argv (Nat.le_refl _) {} m h
    exact ⟨items, hs, (C99_means argv items hs p a).1 ⟨m, h, h1, h2⟩⟩
  · rintro ⟨items, hs, hp, hm⟩
    exact (C99_means argv items hs p a).2 ⟨hp, hm⟩

/-- **C99 (program).** The program runs iff the command line says items with nothing wrong in them,
whose paths and settings are accepted (C31, C98); and then it does what these say. -/
theorem C99_program {F : Type} (w : World F) (argv : List Str) (r : Shown F) :
    program w argv = some r ↔
      ∃ items p a, Says items argv ∧ Proper items ∧ Meaning items p a ∧ run w p a = some r := by
  unfold program
  constructor
  · intro h
    cases hm : getMatches argv with
    | none => rw [hm] at h; cases h
    | some m =>
      rw [hm] at h
      obtain ⟨items, h1, h2, h3⟩ := (C99_reads argv _ _).1 ⟨m, hm, rfl, rfl⟩
      exact ⟨items, _, _, h1, h2, h3, h⟩
  · rintro ⟨items, p, a, h1, h2, h3, h⟩
    obtain ⟨m, hm, rfl, rfl⟩ := (C99_reads argv p a).2 ⟨items, h1, h2, h3⟩
    rw [hm]
    exact h

/-- **C99 (spelling and order).** Two command lines that say the same about every option and name
the same files do the same, whatever the spellings and however the options are ordered among each
other. -/
theorem C99_order {F : Type} (w : World F) (argv argv' : List Str) (items items' : List Item)
    (h : Says items argv) (h' : Says items' argv')
    (ho : ∀ i, occurrences i items = occurrences i items') (hf : filesOf items = filesOf items') :
    program w argv = program w argv' := by
  have e : getMatches argv = getMatches argv' := by
    unfold getMatches
    rw [show ({} : St) = at_ {} from rfl, parse_says h, parse_says h']
    apply Option.ext
    intro m
    rw [applyItems_iff, applyItems_iff, hf]
    simp only [ho]
  unfold program
  rw [e]

/-- The meaning of a command line is unique. -/
theorem C99_unambiguous (argv : List Str) (items items' : List Item) (p p' : Paths) (a a' : Args)
    (h : Says items argv) (hp : Proper items) (hm : Meaning items p a)
    (h' : Says items' argv) (hp' : Proper items') (hm' : Meaning items' p' a') : p = p' ∧ a = a' := by
  obtain ⟨m, h1, h2, h3⟩ := (C99_reads argv p a).2 ⟨items, h, hp, hm⟩
  obtain ⟨m', h1', h2', h3'⟩ := (C99_reads argv p' a').2 ⟨items', h', hp', hm'⟩
  rw [h1] at h1'
  cases h1'
  exact ⟨h2.symm.trans h2', h3.symm.trans h3'⟩

theorem says_list {items : List Item} {i : ArgId} {r : Option (List Str)} (hi : isList i) (h : SaysOf i items r) :
    ∀ vs, r = some vs → ∀ v ∈ vs, 44 ∉ v := by
  intro vs e v hv
  rcases h with ⟨_, h⟩ | ⟨_, ms, hm, h⟩
  · rw [h] at e; cases e
  · rw [h] at e
    cases e
    obtain ⟨m, hm1, hm2⟩ := List.mem_flatten.1 hv
    have : ∃ vs, Meant i vs m := by
      clear hv h
      generalize occurrences i items = occ at hm
      induction hm with
      | nil => cases hm1
      | @cons x y xs ys h1 _ ih =>
        rcases List.mem_cons.1 hm1 with rfl | h
        · exact ⟨_, h1⟩
        · exact ih h
    obtain ⟨vs, ⟨_, parts, hp, rfl⟩ | ⟨hn, _⟩⟩ := this
    · obtain ⟨q, hq1, hq2⟩ := List.mem_flatten.1 hm2
      clear hv h hm hm1 hm2
      induction hp with
      | nil => cases hq1
      | @cons x y xs ys h1 _ ih =>
        rcases List.mem_cons.1 hq1 with rfl | h
        · exact h1.2.2 v hq2
        · exact ih h
    · exact absurd hi hn

/-- **C99 (values are handled).** The values that the command line allows for the output format,
categories, fields, sorting and changes to ignore are exactly those the program knows: after
reading, the settings are rejected only for a depth that is not a number, a filter of no known
form, or a prefix map without `=`. -/
theorem C99_rejected_only (argv : List Str) (items : List Item) (p : Paths) (a : Args)
    (h : Says items argv) (hp : Proper items) (hm : Meaning items p a) :
    parseOptions a = none ↔
      (∃ v, a.inlineDepth = some v ∧ ∀ n, ¬ IsNumber v n) ∨
      (∃ vs, a.filter = some vs ∧ ∃ v ∈ vs, ¬ FilterOk v) ∨
      (∃ vs, a.prefixMap = some vs ∧ ∃ v ∈ vs, 61 ∉ v) := by
  have chosen : ∀ i cs r, choices i = some cs → SaysOf i items r → ∀ vs, r = some vs → ∀ v ∈ vs, ∃ c ∈ cs, v = k c := by
    intro i cs r hc hr vs e v hv
    rcases hr with ⟨_, h⟩ | ⟨_, ms, hms, h⟩
    · rw [h] at e; cases e
    · rw [h] at e
      cases e
      obtain ⟨m, hm1, hm2⟩ := List.mem_flatten.1 hv
      have key : ∀ occ, All2 (Meant i) occ ms → m ∈ ms → ∃ vs ∈ occ, Meant i vs m := by
        intro occ ho hm1
        clear hms hv h
        induction ho with
        | nil => cases hm1
        | cons h1 _ ih =>
          rcases List.mem_cons.1 hm1 with h | h
          · exact ⟨_, List.mem_cons_self, h ▸ h1⟩
          · obtain ⟨z, hz, hz'⟩ := ih h h
            exact ⟨z, List.mem_cons_of_mem _ hz, hz'⟩
      obtain ⟨vs, hvs, hmt⟩ := key _ hms hm1
      exact (hp.2 i).2.2 cs hc vs hvs m hmt v hm2
  have one' : ∀ i cs (r : Option Str), choices i = some cs → SaysOf i items (r.map fun x => [x]) → ∀ v, r = some v → ∃ c ∈ cs, v = k c := by
    intro i cs r hc hr v e
    exact chosen i cs _ hc hr [v] (by rw [e]; rfl) v (by simp)
  have h1 : ∀ v, a.output = some v → v = k "text" ∨ v = k "html" ∨ v = k "http" := by
    intro v e
    obtain ⟨c, hc, rfl⟩ := one' .format _ _ rfl hm.output v e
    simp only [List.mem_cons, List.not_mem_nil, or_false] at hc
    rcases hc with rfl | rfl | rfl <;> simp
  have h2 : ∀ v, a.sort = some v → v = k "name" ∨ v = k "size" := by
    intro v e
    obtain ⟨c, hc, rfl⟩ := one' .sort _ _ rfl hm.sort v e
    simp only [List.mem_cons, List.not_mem_nil, or_false] at hc
    rcases hc with rfl | rfl <;> simp
  have h3 : OnlyFrom a.category categoryNames := chosen .category _ _ rfl hm.category
  have h4 : OnlyFrom a.print printNames := chosen .print _ _ rfl hm.print
  have h5 : OnlyFrom a.ignore ignoreNames := chosen .ignore _ _ rfl hm.ignore
  have key : (parseOptions a).isSome = true ↔
      (∀ v, a.inlineDepth = some v → ∃ n, IsNumber v n) ∧
      (∀ vs, a.filter = some vs → ∀ v ∈ vs, FilterOk v) ∧
      (∀ vs, a.prefixMap = some vs → ∀ v ∈ vs, 61 ∈ v) :=
    ⟨fun h => have g := (C31_accepts a).1 h; ⟨g.2.1, g.2.2.2.2.1, g.2.2.2.2.2.2.2⟩,
     fun ⟨g1, g2, g3⟩ => (C31_accepts a).2 ⟨h1, g1, h3, h4, g2, h2, h5, g3⟩⟩
  have : parseOptions a = none ↔ ¬ (parseOptions a).isSome = true := by cases parseOptions a <;> simp
  rw [this, key]
  constructor
  · intro hn
    refine Classical.byContradiction fun hc => hn ⟨?_, ?_, ?_⟩
    · intro v e
      exact Classical.byContradiction fun hx => hc (.inl ⟨v, e, fun n hn => hx ⟨n, hn⟩⟩)
    · intro vs e v hv
      exact Classical.byContradiction fun hx => hc (.inr (.inl ⟨vs, e, v, hv, hx⟩))
    · intro vs e v hv
      exact Classical.byContradiction fun hx => hc (.inr (.inr ⟨vs, e, v, hv, hx⟩))
  · rintro (⟨v, e, hv⟩ | ⟨vs, e, v, hv, hx⟩ | ⟨vs, e, v, hv, hx⟩) ⟨g1, g2, g3⟩
    · obtain ⟨n, hn⟩ := g1 v e
      exact hv n hn
    · exact hx (g2 vs e v hv)
    · exact hx (g3 vs e v hv)

theorem last_mem {β : Type} {R : Str → β → Prop} {d b : β} {vs : List Str} (h : LastSetting R d vs b) :
    b = d ∨ ∃ v ∈ vs, R v b := by
  cases h with
  | none _ => exact .inl rfl
  | last h _ => exact .inr ⟨_, by simp, h⟩

/-- **C99 (commas).** Finding: whatever the command line, the settings made by `--filter` and
`--prefix-map` contain no comma, because values are cut at commas and there is no way to write one. -/
theorem C99_no_commas (argv : List Str) (items : List Item) (p : Paths) (a : Args) (o : Options)
    (_ : Says items argv) (_ : Proper items) (hm : Meaning items p a) (h : parseOptions a = some o) :
    (∀ n, o.filterName = some n → 44 ∉ n) ∧ (∀ n, o.filterUnit = some n → 44 ∉ n) ∧
    (∀ x ∈ o.filterNamespace, 44 ∉ x) ∧ ∀ x ∈ o.prefixMap, 44 ∉ x.1 ∧ 44 ∉ x.2 := by
  have hset := C31_settings a o h
  obtain ⟨hname, hunit, hns⟩ : LastSetting (SetsTo "name") none (a.filter.getD []) o.filterName ∧
      LastSetting (SetsTo "unit") none (a.filter.getD []) o.filterUnit ∧
      LastSetting SetsNamespace [] (a.filter.getD []) o.filterNamespace := by
    obtain ⟨_, _, _, _, _, _, _, _, _, _, _, _, _, _, _, _, _, h1, h2, h3, _⟩ := hset
    exact ⟨h1, h2, h3⟩
  obtain ⟨ps, hps, hpm⟩ : ∃ ps, (a.prefixMap.getD []).mapM splitEq = some ps ∧ o.prefixMap = sortPrefixes ps := by
    obtain ⟨_, _, _, _, _, _, _, _, _, _, _, _, _, _, _, _, _, _, _, _, _, _, _, _, _, _, _, _, _, _, _, _, _, h1⟩ := hset
    exact h1
  have hf : ∀ v ∈ a.filter.getD [], 44 ∉ v := by
    intro v hv
    cases e : a.filter with
    | none => rw [e] at hv; cases hv
    | some vs => rw [e] at hv; exact says_list (by simp [isList]) hm.filter vs e v hv
  have hx : ∀ v ∈ a.prefixMap.getD [], 44 ∉ v := by
    intro v hv
    cases e : a.prefixMap with
    | none => rw [e] at hv; cases hv
    | some vs => rw [e] at hv; exact says_list (by simp [isList]) hm.prefixMap vs e v hv
  have setsTo : ∀ {key : String} {b : Option Str}, LastSetting (SetsTo key) none (a.filter.getD []) b →
      ∀ n, b = some n → 44 ∉ n := by
    intro key b hl n e
    rcases last_mem hl with h0 | ⟨v, hv, value, ⟨hp, _⟩, hb⟩
    · rw [h0] at e; cases e
    · rw [e] at hb
      cases hb
      have := hf v hv
      rw [hp] at this
      simp only [List.mem_append, List.mem_cons, not_or] at this
      exact this.2.2
  refine ⟨setsTo hname, setsTo hunit, ?_, ?_⟩
  · intro x hxm
    rcases last_mem hns with h0 | ⟨v, hv, value, ⟨hp, _⟩, _, hj, _⟩
    · rw [h0] at hxm; cases hxm
    · have h1 := hf v hv
      rw [hp] at h1
      simp only [List.mem_append, List.mem_cons, not_or] at h1
      intro hc
      apply h1.2.2
      rw [← hj]
      -- a part of the joined text
      have join : ∀ (l : List Str), x ∈ l → 44 ∈ joinColons l := by
        intro l
        induction l with
        | nil => intro h; cases h
        | cons q l ih =>
          intro h
          cases l with
          | nil =>
            rcases List.mem_cons.1 h with rfl | h
            · exact hc
            · cases h
          | cons r l =>
            simp only [joinColons, List.mem_append, List.mem_cons]
            rcases List.mem_cons.1 h with rfl | h
            · exact .inl hc
            · exact .inr (.inr (.inr (ih h)))
      exact join _ hxm
  · intro x hxm
    rw [hpm] at hxm
    replace hxm : x ∈ ps := (mem_stableSort _).1 hxm
    clear hset hpm
    generalize a.prefixMap.getD [] = vs at hps hx
    induction vs generalizing ps with
    | nil => simp at hps; subst hps; cases hxm
    | cons v vs ih =>
      rw [List.mapM_cons] at hps
      cases hs : splitEq v with
      | none => rw [hs] at hps; cases hps
      | some q =>
        cases hr : vs.mapM splitEq with
        | none => rw [hs, hr] at hps; cases hps
        | some qs =>
          rw [hs, hr] at hps
          simp at hps
          subst hps
          rcases List.mem_cons.1 hxm with rfl | hxm
          · obtain ⟨x1, x2⟩ := x
            have hp := ((splitEq_iff v x1 x2).1 hs).1
            have := hx v (by simp)
            rw [hp] at this
            simp only [List.mem_append, List.mem_cons, not_or] at this
            exact ⟨this.1, this.2.2⟩
          · refine ih qs ?_ ?_ ?_ <;> first | exact hr | exact hxm | exact fun w hw => hx w (List.mem_cons_of_mem _ hw)

/-- **C99 (commas in names).** Finding: a function or variable whose name contains a comma (an
instance of a C++ or Rust template with two parameters) is listed by no command line that filters by
name, not even the one that asks for that name. -/
theorem C99_comma_names_are_not_found (argv : List Str) (items : List Item) (p : Paths) (a : Args) (o : Options)
    (hs : Says items argv) (hp : Proper items) (hm : Meaning items p a) (h : parseOptions a = some o)
    (hn : o.filterName ≠ none) (u : CompUnit) :
    (∀ f ∈ filterFunctions u o, ∀ n, f.name = some n → 44 ∉ n) ∧
    (∀ v ∈ filterVariables u o, ∀ n, v.name = some n → 44 ∉ n) := by
  have hc := (C99_no_commas argv items p a o hs hp hm h).1
  have ok : ∀ name, o.okName name = true → ∀ n, name = some n → 44 ∉ n := by
    intro name hk n e
    subst e
    cases hf : o.filterName with
    | none => exact absurd hf hn
    | some n' =>
      unfold Options.okName at hk
      rw [hf] at hk
      simp at hk
      exact hk ▸ hc n' hf
  constructor
  · intro f hf n e
    have := (List.mem_filter.1 hf).2
    have hw := (okFunction_iff o f).1 this
    exact ok f.name ((okName_iff o f.name).2 hw.2.1) n e
  · intro v hv n e
    have := (List.mem_filter.1 hv).2
    have hw := (okVariable_iff o v).1 this
    exact ok v.name ((okName_iff o v.name).2 hw.2.1) n e

/-! ### Cases -/

/-- `-f name=f -ctype,unit --sort=size -- -x` -/
def caseArgv : List Str := [k "-f", k "name=f", k "-ctype,unit", k "--sort=size", k "--", k "-x"]

/-- What it says. -/
def caseItems : List Item :=
  [.opt .filter [k "name=f"], .opt .category [k "type,unit"], .opt .sort [k "size"], .file (k "-x")]

theorem case_plain {c : Nat} {t : Str} (h : c ≠ 45) : PlainArg (c :: t) :=
  .inr fun rest e => h (by cases e; rfl)

/-- Non-vacuity of `Says`: four of the spellings, and an escaped path. -/
theorem case_says : Says caseItems caseArgv :=
  .item (.short (id := .filter) (c := "f") rfl rfl (fun v hv => by
      cases List.mem_singleton.1 hv; exact case_plain (by decide)))
    (.item (.joined (id := .category) (c := "c") (v := k "type,unit") rfl (by decide) (fun rest e => by cases e))
      (.item (.longEq (id := .sort) (v := k "size"))
        (.escape (ps := [k "-x"]))))

/-- Non-vacuity of `Proper` and `Meaning`. -/
theorem case_means : Proper caseItems ∧ Meaning caseItems { file := some (k "-x") }
    { filter := some [k "name=f"], category := some [k "type", k "unit"], sort := some (k "size") } :=
  (C99_means caseArgv caseItems case_says _ _).1 ⟨_, rfl, rfl, rfl⟩

/-- The same in another order and other spellings. -/
example (F : Type) (w : World F) : program w caseArgv =
    program w [k "--category", k "type,unit", k "-s", k "size", k "-fname=f", k "--", k "-x"] := by
  refine C99_order w _ _ caseItems
    [.opt .category [k "type,unit"], .opt .sort [k "size"], .opt .filter [k "name=f"], .file (k "-x")]
    case_says ?_ (fun i => by cases i <;> rfl) rfl
  exact .item (.long (id := .category) rfl (fun v hv => by cases List.mem_singleton.1 hv; exact case_plain (by decide)))
    (.item (.short (id := .sort) (c := "s") rfl rfl (fun v hv => by
        cases List.mem_singleton.1 hv; exact case_plain (by decide)))
      (.item (.joined (id := .filter) (c := "f") (v := k "name=f") rfl (by decide) (fun rest e => by cases e))
        (.escape (ps := [k "-x"]))))

/-- Errors: no possible value; an option that is not a list given twice; two files; an option
without its value. -/
example : (getMatches [k "-ctypes", k "x"]).isNone ∧ (getMatches [k "-sname", k "-s", k "name", k "x"]).isNone ∧
    (getMatches [k "x", k "y"]).isNone ∧ (getMatches [k "x", k "-f"]).isNone ∧ (getMatches [k "-d", k "x"]).isNone ∧
    (getMatches [k "-d=x", k "y"]).isNone ∧ (getMatches [k "--nothing"]).isNone := by
  decide +kernel

/-- The program on a file, with a sink that takes everything. -/
example : (program (caseWorld fun _ => none) [k "-stext", k "a"]).isNone ∧
    ((program (caseWorld fun _ => none) [k "-otext", k "a"]).map (·.stdout)) = some (k "abcde") := by
  decide +kernel

/-- Non-vacuity of C99 (values are handled). -/
example : parseOptions { filter := some [k "name=f"], category := some [k "type", k "unit"], sort := some (k "size") } ≠ none :=
  fun h => by
    rcases (C99_rejected_only _ _ _ _ case_says case_means.1 case_means.2).1 h with ⟨v, e, _⟩ | ⟨vs, e, v, hv, hx⟩ | ⟨vs, e, _⟩
    · cases e
    · cases e
      cases List.mem_singleton.1 hv
      exact absurd h (by decide +kernel)
    · cases e

/-- Finding: the filter for the name `f<int,char>` is not one for another name; it is an error. -/
theorem C99_comma_filter_is_rejected : ∀ {F : Type} (w : World F),
    program w [k "-f", k "name=f<int,char>", k "a"] = none := by
  intro F w
  cases h : program w [k "-f", k "name=f<int,char>", k "a"] with
  | none => rfl
  | some r =>
    exfalso
    unfold program at h
    have e : ∃ m, getMatches [k "-f", k "name=f<int,char>", k "a"] = some m ∧
        m.args = { filter := some [k "name=f<int", k "char>"] } := ⟨_, rfl, rfl⟩
    obtain ⟨m, hm, ha⟩ := e
    rw [hm] at h
    simp only [ha] at h
    unfold run at h
    split at h
    · rw [show parseOptions { filter := some [k "name=f<int", k "char>"] } = none by decide +kernel] at h
      cases h
    · cases h

end Verif.Cli
