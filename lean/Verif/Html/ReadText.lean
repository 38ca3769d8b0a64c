import Verif.Html.ReadLemmas
/-!
# The page and the text listing
-/
namespace Verif.Html
open Verif.Print

variable {t : EntityTable} {alnum : Nat → Bool}

/-! ### A value is determined by its HTML -/

/-- Where a reader of the HTML of a value is. -/
inductive Pos
  | text | opened | title | quoted | abbreviated | tag

/-- Reading one byte of the HTML of a value: text outside tags and the titles of abbreviated names are
kept, tags and the abbreviations are not. -/
def readByte : Pos × Str → Nat → Pos × Str
  | (.text, s), c => if c = 60 then (.opened, s) else (.text, s ++ [c])
  | (.opened, s), c => if c = 115 then (.title, s) else (.tag, s)
  | (.title, s), c => if c = 34 then (.quoted, s) else (.title, s)
  | (.quoted, s), c => if c = 34 then (.abbreviated, s) else (.quoted, s ++ [c])
  | (.abbreviated, s), c => if c = 60 then (.tag, s) else (.abbreviated, s)
  | (.tag, s), c => if c = 62 then (.text, s) else (.tag, s)

theorem read_text (s : Str) (h : 60 ∉ s) (acc : Str) : s.foldl readByte (.text, acc) = (.text, acc ++ s) := by
  induction s generalizing acc with
  | nil => simp
  | cons c s ih =>
    simp only [List.mem_cons, not_or] at h
    rw [List.foldl_cons, readByte, if_neg (Ne.symm h.1), ih h.2]; simp

theorem read_quoted (s : Str) (h : 34 ∉ s) (acc : Str) : s.foldl readByte (.quoted, acc) = (.quoted, acc ++ s) := by
  induction s generalizing acc with
  | nil => simp
  | cons c s ih =>
    simp only [List.mem_cons, not_or] at h
    rw [List.foldl_cons, readByte, if_neg (Ne.symm h.1), ih h.2]; simp

theorem read_abbreviated (s : Str) (h : 60 ∉ s) (acc : Str) : s.foldl readByte (.abbreviated, acc) = (.abbreviated, acc) := by
  induction s generalizing acc with
  | nil => rfl
  | cons c s ih =>
    simp only [List.mem_cons, not_or] at h
    rw [List.foldl_cons, readByte, if_neg (Ne.symm h.1), ih h.2]

theorem read_tag (s : Str) (h : 62 ∉ s) (acc : Str) : s.foldl readByte (.tag, acc) = (.tag, acc) := by
  induction s generalizing acc with
  | nil => rfl
  | cons c s ih =>
    simp only [List.mem_cons, not_or] at h
    rw [List.foldl_cons, readByte, if_neg (Ne.symm h.1), ih h.2]

theorem dec_no_gt (n : Nat) : 62 ∉ dec n := fun h => (attr_dec n 62 h).2 rfl

theorem read_value (v : Val) (acc : Str) :
    (valueHtml t alnum v).foldl readByte (.text, acc) = (.text, acc ++ escape t v.text') := by
  induction v generalizing acc with
  | nil => simp [valueHtml, Val.text', escape]
  | text s => exact read_text _ (fun h => (escape_clean t s 60 h).2.2.1 rfl) acc
  | name s =>
    simp only [valueHtml, nameHtml, Val.text']
    split
    · simp only [List.foldl_append]
      have e1 : (lit "<span title=\"").foldl readByte (.text, acc) = (.quoted, acc) := rfl
      have e2 : ∀ a, (lit "\">").foldl readByte (.quoted, a) = (.abbreviated, a) := fun _ => rfl
      have e3 : ∀ a, (lit "</span>").foldl readByte (.abbreviated, a) = (.text, a) := fun _ => rfl
      rw [e1, read_quoted _ (fun h => (escape_clean t s 34 h).1 rfl), e2,
        read_abbreviated _ (fun h => (escape_clean t _ 60 h).2.2.1 rfl), e3]
    · exact read_text _ (fun h => (escape_clean t s 60 h).2.2.1 rfl) acc
  | link id v ih =>
    simp only [valueHtml, Val.text']
    split
    · exact ih acc
    · simp only [List.foldl_append]
      have e1 : (lit "<a class=\"link\" data-link=\"").foldl readByte (.text, acc) = (.tag, acc) := rfl
      have e2 : ∀ a, (lit "\" href=\"#").foldl readByte (.tag, a) = (.tag, a) := fun _ => rfl
      have e3 : ∀ a, (lit "\">").foldl readByte (.tag, a) = (.text, a) := fun _ => rfl
      have e4 : ∀ a, (lit "</a>").foldl readByte (.text, a) = (.text, a) := fun _ => rfl
      rw [e1, read_tag _ (dec_no_gt id), e2, read_tag _ (dec_no_gt id), e3, ih, e4]
  | seq v w ihv ihw => simp [valueHtml, Val.text', List.foldl_append, ihv, ihw, escape_append]

theorem text_of_html {a b : Val} (h : valueHtml t alnum a = valueHtml t alnum b) : a.text' = b.text' := by
  have ha := read_value (t := t) (alnum := alnum) a []
  rw [h, read_value] at ha
  simp only [List.nil_append, Prod.mk.injEq, true_and] at ha
  have h1 := decodes_escape t a.text'
  rw [← ha] at h1
  exact decodes_unique t h1 (decodes_escape t b.text')

theorem text_of_blank {v : Val} (h : blank v = true) : v.text' = [] := by
  induction v with
  | nil => rfl
  | text s => exact List.isEmpty_iff.1 h
  | name s => exact List.isEmpty_iff.1 h
  | link id v ih => simp only [blank, Bool.and_eq_true] at h; exact ih h.2
  | seq v w ihv ihw => simp only [blank, Bool.and_eq_true] at h; simp [Val.text', ihv h.1, ihw h.2]

/-! ### Lines of a page -/

/-- A line with its depth in the tree. Labels without a value carry no mark. -/
structure Entry where
  depth : Nat
  mark : Mark
  label : Str
  text : Str
deriving DecidableEq, Repr

/-- An entry for a label and text. -/
def entry (i : Nat) (m : Mark) (l s : Str) : Entry := ⟨i, if s = [] then .same else m, l, s⟩

mutual
/-- The lines of an item and of the items in it, in order. -/
def Node.flat (i : Nat) : Node → List Entry
  | .item ls kids => ls.map (fun s => entry i s.mark s.label s.val.text') ++ flatKids (i + 1) kids

/-- The lines of the items in an item. -/
def flatKids (i : Nat) : Option (List Node) → List Entry
  | none => []
  | some ns => flats i ns

/-- The lines of items. -/
def flats (i : Nat) : List Node → List Entry
  | [] => []
  | n :: ns => n.flat i ++ flats i ns
end

/-- What a text line says; blank lines say nothing. -/
def lineEntry : Line → Option Entry
  | .line x i l b => some (entry i (markOf x) l b)
  | _ => none

/-- The lines of a text listing. -/
def textEntries (ls : List Line) : List Entry := ls.filterMap lineEntry

/-- A listing without blank lines. -/
def NoBreak : P → Prop
  | .lineBreak => False
  | .seq p q => NoBreak p ∧ NoBreak q
  | .indent _ h b => NoBreak h ∧ NoBreak b
  | .field _ _ b => NoBreak b
  | .id _ h b => NoBreak h ∧ NoBreak b
  | .fieldDetail _ _ b => NoBreak b
  | .inline p => NoBreak p
  | _ => True

/-- Links are put around text, entities with an id have a title, and optional sections hold no blank lines. -/
def Regular : P → Prop
  | .seq p q => Regular p ∧ Regular q
  | .line _ v => v.text' = [] → blank v = true
  | .indent _ h b => Regular h ∧ Regular b
  | .field _ _ b => NoBreak b ∧ Regular b
  | .id _ h b => Regular h ∧ headsP .same h ≠ [] ∧ Regular b
  | .fieldDetail _ _ b => NoBreak b ∧ Regular b
  | .inline p => Regular p
  | _ => True

theorem flats_append (i : Nat) (ns ms : List Node) : flats i (ns ++ ms) = flats i ns ++ flats i ms := by
  induction ns with
  | nil => rfl
  | cons n ns ih => simp [flats, ih]

theorem textEntries_append (ls ms : List Line) : textEntries (ls ++ ms) = textEntries ls ++ textEntries ms := List.filterMap_append

theorem flats_leaves (i : Nat) (gs : List (List Shown)) :
    flats i (leaves gs) = gs.flatten.map fun s => entry i s.mark s.label s.val.text' := by
  induction gs with
  | nil => rfl
  | cons g gs ih => simp only [leaves, List.map_cons, flats, Node.flat, flatKids, List.append_nil, List.flatten_cons, List.map_append]; rw [← ih]; rfl

/-- The entries of header lines. -/
def headEntries (i : Nat) (gs : List (List Shown)) : List Entry := gs.flatten.map fun s => entry i s.mark s.label s.val.text'

theorem headEntries_append (i : Nat) (gs hs : List (List Shown)) : headEntries i (gs ++ hs) = headEntries i gs ++ headEntries i hs := by
  simp [headEntries]

theorem flats_section (i : Nat) (gs : List (List Shown)) (ns : List Node) :
    flats i (section_ gs ns) = headEntries i gs ++ flats (i + 1) ns := by
  unfold section_
  cases ns with
  | nil => simp [flats_leaves, headEntries, flats]
  | cons n ns => simp [flats, Node.flat, flatKids, headEntries]

theorem flatP_entries (http : Bool) (p : P) (hp : FlatP p) (hr : Regular p) (i : Nat) (x : DiffPrefix) (d : Nat) :
    textEntries (p.ls http i x d) = headEntries i (headsP (markOf x) p) := by
  induction p with
  | skip => rfl
  | seq p q ihp ihq => simp only [P.ls, headsP, textEntries_append, headEntries_append, ihp hp.1 hr.1, ihq hp.2 hr.2]
  | lineBreak => rfl
  | label l => rfl
  | line l v =>
    simp only [P.ls, headsP]
    cases h : blank v
    · have hv : v.text' ≠ [] := fun h' => by have := hr h'; rw [h] at this; cases this
      rw [if_neg hv]; rfl
    · rw [if_pos (text_of_blank h)]; rfl
  | _ => exact hp.elim

theorem flatP_empty (http : Bool) (p : P) (hp : FlatP p) (hr : Regular p) (hn : NoBreak p) (i : Nat) (m : Mark) (x : DiffPrefix) (d : Nat) :
    p.ls http i x d = [] ↔ headsP m p = [] := by
  induction p with
  | skip => simp [P.ls, headsP]
  | seq p q ihp ihq => simp only [P.ls, headsP, List.append_eq_nil_iff, ihp hp.1 hr.1 hn.1, ihq hp.2 hr.2 hn.2]
  | lineBreak => exact hn.elim
  | label l => simp [P.ls, headsP]
  | line l v =>
    simp only [P.ls, headsP]
    cases h : blank v
    · have hv : v.text' ≠ [] := fun h' => by have := hr h'; rw [h] at this; cases this
      simp [hv]
    · simp [text_of_blank h]
  | _ => exact hp.elim

theorem headsP_mark (m m' : Mark) (p : P) : headsP m p = [] ↔ headsP m' p = [] := by
  induction p with
  | seq p q ihp ihq => simp [headsP, ihp, ihq]
  | line l v => simp only [headsP]; split <;> simp
  | _ => simp [headsP]

theorem section_nil (gs : List (List Shown)) (ns : List Node) : section_ gs ns = [] ↔ gs = [] ∧ ns = [] := by
  unfold section_
  cases ns with
  | nil => simp [leaves]
  | cons n ns => simp

theorem optSection_nil (l : Str) (ns : List Node) : optSection l ns = [] ↔ ns = [] := by
  unfold optSection
  cases ns <;> simp

theorem treeP_empty (p : P) (hp : TreeP p) (hr : Regular p) (hn : NoBreak p) (i : Nat) (m : Mark) (x : DiffPrefix) (d : Nat) :
    p.ls false i x d = [] ↔ pageP false m p d = [] := by
  induction p generalizing i d with
  | skip => simp [P.ls, pageP]
  | seq p q ihp ihq => simp only [P.ls, pageP, List.append_eq_nil_iff, ihp hp.1 hr.1 hn.1, ihq hp.2 hr.2 hn.2]
  | lineBreak => exact hn.elim
  | label l => simp [P.ls, pageP, leaves]
  | line l v =>
    simp only [P.ls, pageP]
    cases h : blank v
    · have hv : v.text' ≠ [] := fun h' => by have := hr h'; rw [h] at this; cases this
      simp [hv, leaves]
    · simp [text_of_blank h]
  | instruction a m v => exact hp.elim
  | indent c h b ihh ihb =>
    simp only [P.ls, pageP, List.append_eq_nil_iff, section_nil, ihb hp.2 hr.2 hn.2, flatP_empty false h hp.1 hr.1 hn.1 i m x d]
  | field c l b ihb =>
    simp only [P.ls, pageP, optSection_nil]
    rw [← ihb hp.2 hr.2 hn (i + 1)]
    split <;> simp_all
  | id n h b ihh ihb =>
    simp only [P.ls, pageP, List.append_eq_nil_iff, reduceCtorEq, iff_false, not_and]
    intro h1
    exact absurd ((flatP_empty false h hp.1 hr.1 hn.1 i .same x d).1 h1) hr.2.1
  | fieldDetail j l b ihb =>
    simp only [P.ls, pageP, optSection_nil, Bool.false_eq_true, if_false]
    rw [← ihb hp.2.2 hr.2 hn (i + 1)]
    split <;> simp_all
  | inline p ih =>
    simp only [P.ls, pageP]
    split
    · simp
    · exact ih hp hr hn i (d - 1)

theorem opt_entries (i : Nat) (x : DiffPrefix) (l : Str) (ls : List Line) (ns : List Node) (h : ls = [] ↔ ns = [])
    (he : textEntries ls = flats (i + 1) ns) :
    textEntries (if ls = [] then [] else .line x i l [] :: ls) = flats i (optSection l ns) := by
  unfold optSection
  cases ns with
  | nil => rw [if_pos (h.2 rfl)]; rfl
  | cons n ns =>
    rw [if_neg (fun h' => by simp [h] at h')]
    show entry i (markOf x) l [] :: textEntries ls = _
    rw [he]
    simp [flats, Node.flat, flatKids, entry, Val.text']

theorem treeP_entries (p : P) (hp : TreeP p) (hr : Regular p) (i : Nat) (x : DiffPrefix) (d : Nat) :
    textEntries (p.ls false i x d) = flats i (pageP false (markOf x) p d) := by
  induction p generalizing i d with
  | skip => rfl
  | seq p q ihp ihq => simp only [P.ls, pageP, textEntries_append, flats_append, ihp hp.1 hr.1, ihq hp.2 hr.2]
  | lineBreak => rfl
  | label l => rfl
  | line l v =>
    simp only [P.ls, pageP]
    cases h : blank v
    · have hv : v.text' ≠ [] := fun h' => by have := hr h'; rw [h] at this; cases this
      rw [if_neg hv]; rfl
    · rw [if_pos (text_of_blank h)]; rfl
  | instruction a m v => exact hp.elim
  | indent c h b ihh ihb =>
    simp only [P.ls, pageP, textEntries_append, flats_section, flatP_entries false h hp.1 hr.1, ihb hp.2 hr.2]
  | field c l b ihb =>
    exact opt_entries i x l _ _ (treeP_empty b hp.2 hr.2 hr.1 (i + 1) _ x d) (ihb hp.2 hr.2 (i + 1) d)
  | id n h b ihh ihb =>
    simp only [P.ls, pageP, textEntries_append, flatP_entries false h hp.1 hr.1, ihb hp.2 hr.2.2, flats, Node.flat, flatKids,
      headEntries, List.append_nil, Bool.false_eq_true, if_false]
  | fieldDetail j l b ihb =>
    simp only [P.ls, pageP, Bool.false_eq_true, if_false]
    exact opt_entries i x l _ _ (treeP_empty b hp.2.2 hr.2 hr.1 (i + 1) _ x d) (ihb hp.2.2 hr.2 (i + 1) d)
  | inline p ih =>
    simp only [P.ls, pageP]
    split
    · rfl
    · exact ih hp hr i (d - 1)

/-! ### Diffs -/

/-- A diff without blank lines. -/
def NoBreakD : D → Prop
  | .lineBreak => False
  | .seq p q => NoBreakD p ∧ NoBreakD q
  | .indent _ h b => NoBreakD h ∧ NoBreakD b
  | .field _ _ b => NoBreakD b
  | .id _ h b => NoBreakD h ∧ NoBreakD b
  | .inline p => NoBreakD p
  | .prefixDelete p => NoBreak p
  | .prefixAdd p => NoBreak p
  | .block a b => NoBreak a ∧ NoBreak b
  | .printIfDiff e => NoBreakD e
  | .ignoreDiff _ e => NoBreakD e
  | _ => True

/-- Links are put around text, equal texts have equal links, entities with an id have a title, and optional
sections hold no blank lines. -/
def RegularD (same : Val → Val → Bool) : D → Prop
  | .seq p q => RegularD same p ∧ RegularD same q
  | .line _ a b => (a.text' = [] → blank a = true) ∧ (b.text' = [] → blank b = true) ∧ (a.text' = b.text' → same a b = true)
  | .indent _ h b => RegularD same h ∧ RegularD same b
  | .field _ _ b => NoBreakD b ∧ RegularD same b
  | .id _ h b => RegularD same h ∧ headsD same h ≠ [] ∧ RegularD same b
  | .inline p => RegularD same p
  | .prefixDelete p => Regular p
  | .prefixAdd p => Regular p
  | .block a b => Regular a ∧ Regular b
  | .printIfDiff e => RegularD same e
  | .ignoreDiff _ e => RegularD same e
  | _ => True

theorem blank_eq {v : Val} (h : v.text' = [] → blank v = true) : blank v = decide (v.text' = []) := by
  cases hb : blank v
  · symm; exact decide_eq_false fun h' => by rw [h h'] at hb; cases hb
  · symm; exact decide_eq_true (text_of_blank hb)

theorem lineGroup_entries {same : Val → Val → Bool} (hsame : ∀ a b, same a b = true → a.text' = b.text') (o : Opts)
    (l : Str) (a b : Val) (hr : RegularD same (.line l a b)) (i : Nat) (x : DiffPrefix) (d : Nat) :
    textEntries ((D.line l a b).den o i x d).1 = headEntries i (lineGroup same l a b) ∧
      (((D.line l a b).den o i x d).1 = [] ↔ lineGroup same l a b = []) := by
  obtain ⟨ha, hb, hab⟩ := hr
  have e1 := blank_eq ha
  have e2 := blank_eq hb
  have e3 : same a b = decide (a.text' = b.text') := by
    cases h : same a b
    · symm; exact decide_eq_false fun h' => by rw [hab h'] at h; cases h
    · symm; exact decide_eq_true (hsame a b h)
  simp only [D.den, lineGroup, e1, e2, e3, decide_eq_true_eq]
  by_cases h1 : a.text' = b.text'
  · simp only [h1, if_true]
    by_cases h2 : b.text' = []
    · simp [h2, textEntries, headEntries]
    · simp only [h2, if_false]
      refine ⟨?_, by simp⟩
      have : ∀ x : DiffPrefix, markOf (if x = .modify then .modify else .equal) = .same := by intro x; split <;> rfl
      simp [textEntries, headEntries, lineEntry, this, h1]
  · simp only [h1, if_false]
    by_cases h2 : a.text' = []
    · simp only [h2, if_true]
      simp [textEntries, headEntries, lineEntry, markOf]
    · simp only [h2, if_false]
      by_cases h3 : b.text' = []
      · simp only [h3, if_true]
        simp [textEntries, headEntries, lineEntry, markOf]
      · simp only [h3, if_false]
        simp [textEntries, headEntries, lineEntry, markOf]

theorem label_entries (x : DiffPrefix) (i : Nat) (l : Str) : textEntries [.line x i l []] = headEntries i [[⟨.same, l, .nil⟩]] := by
  simp [textEntries, headEntries, lineEntry, entry, Val.text']

theorem flatD_entries {same : Val → Val → Bool} (hsame : ∀ a b, same a b = true → a.text' = b.text') (o : Opts) (e : D)
    (he : FlatD e) (hr : RegularD same e) (hn : e.NoHide) (i : Nat) (x : DiffPrefix) (d : Nat) :
    textEntries (e.den o i x d).1 = headEntries i (headsD same e) ∧
      (NoBreakD e → ((e.den o i x d).1 = [] ↔ headsD same e = [])) := by
  induction e generalizing x with
  | skip => exact ⟨rfl, by simp [D.den, headsD]⟩
  | seq p q ihp ihq =>
    have h1 := ihp he.1 hr.1 hn.1 x
    have h2 := ihq he.2 hr.2 hn.2 (p.den o i x d).2.2
    refine ⟨?_, fun hb => ?_⟩
    · simp only [D.den, headsD, textEntries_append, headEntries_append, h1.1, h2.1]
    · simp only [D.den, headsD, List.append_eq_nil_iff, h1.2 hb.1, h2.2 hb.2]
  | lineBreak => exact ⟨rfl, fun hb => hb.elim⟩
  | label l => exact ⟨label_entries _ i l, by simp [D.den, headsD]⟩
  | line l a b =>
    have := lineGroup_entries hsame o l a b hr i x d
    exact ⟨this.1, fun _ => this.2⟩
  | printIfDiff p ih => exact hn.elim
  | ignoreDiff flag p ih => exact ih he hr hn x
  | _ => exact he.elim

theorem treeD_entries {same : Val → Val → Bool} (hsame : ∀ a b, same a b = true → a.text' = b.text') (o : Opts)
    (ho : o.http = false) (e : D)
    (he : TreeD e) (hr : RegularD same e) (hn : e.NoHide) (i : Nat) (x : DiffPrefix) (d : Nat) :
    textEntries (e.den o i x d).1 = flats i (pageD same false e d) ∧
      (NoBreakD e → ((e.den o i x d).1 = [] ↔ pageD same false e d = [])) := by
  induction e generalizing i x d with
  | skip => exact ⟨rfl, by simp [D.den, pageD]⟩
  | seq p q ihp ihq =>
    have h1 := ihp he.1 hr.1 hn.1 i x d
    have h2 := ihq he.2 hr.2 hn.2 i (p.den o i x d).2.2 d
    refine ⟨?_, fun hb => ?_⟩
    · simp only [D.den, pageD, textEntries_append, flats_append, h1.1, h2.1]
    · simp only [D.den, pageD, List.append_eq_nil_iff, h1.2 hb.1, h2.2 hb.2]
  | lineBreak => exact ⟨rfl, fun hb => hb.elim⟩
  | label l => exact ⟨by simp only [D.den, pageD, flats_leaves]; exact label_entries _ i l, by simp [D.den, pageD, leaves]⟩
  | line l a b =>
    have := lineGroup_entries hsame o l a b hr i x d
    refine ⟨by simp only [pageD, flats_leaves]; exact this.1, fun _ => ?_⟩
    rw [this.2]; simp [pageD, leaves]
  | indent c h b ihh ihb =>
    obtain ⟨hb1, hb2⟩ := ihb he.2 hr.2 hn.2 (i + 1) .equal d
    simp only [D.den, pageD]
    have hx : ∀ y, textEntries (h.den o i y d).1 = headEntries i (headsD same h) := fun y => (flatD_entries hsame o h he.1 hr.1 hn.1 i y d).1
    have hy : ∀ y, NoBreakD h → ((h.den o i y d).1 = [] ↔ headsD same h = []) := fun y => (flatD_entries hsame o h he.1 hr.1 hn.1 i y d).2
    constructor
    · rw [flats_section, ← hb1]
      split
      · next h' => rw [hx, h']; simp [textEntries]
      · simp only [textEntries_append, hx]
    · intro hbr
      rw [section_nil, ← hb2 hbr.2]
      split
      · next h' => rw [hy _ hbr.1]; simp [h']
      · next h' => simp [h']
  | field c l b ihb =>
    obtain ⟨hb1, hb2⟩ := ihb he.2 hr.2 hn (i + 1) .equal d
    simp only [D.den, pageD]
    have := opt_entries i (if (b.den o (i + 1) .equal d).2.1 then .modify else .equal) l _ _ (hb2 hr.1) hb1
    constructor
    · rw [← this]
      split <;> rfl
    · intro hbr
      rw [optSection_nil, ← hb2 hbr]
      split <;> simp_all
  | id n h b ihh ihb =>
    obtain ⟨hb1, hb2⟩ := ihb he.2 hr.2.2 hn.2 (i + 1) .equal d
    have hx := fun y => flatD_entries hsame o h he.1 hr.1 hn.1 i y d
    simp only [D.den, pageD]
    constructor
    · simp only [textEntries_append, hb1, (hx _).1, flats, Node.flat, flatKids, headEntries, Bool.false_eq_true, if_false, List.append_nil]
    · intro hbr
      simp only [List.append_eq_nil_iff, reduceCtorEq, iff_false, not_and]
      intro h1
      exact absurd (((hx _).2 hbr.1).1 h1) hr.2.1
  | inline p ih =>
    simp only [D.den, pageD]
    by_cases h : d = 0
    · subst h; simp [textEntries, flats]
    · simp only [h, if_false]
      exact ih he hr hn i x (d - 1)
  | prefixDelete p =>
    simp only [D.den, pageD, ho]
    exact ⟨treeP_entries p he hr i .delete d, fun hb => treeP_empty p he hr hb i .del .delete d⟩
  | prefixAdd p =>
    simp only [D.den, pageD, ho]
    exact ⟨treeP_entries p he hr i .add d, fun hb => treeP_empty p he hr hb i .add .add d⟩
  | block a b =>
    simp only [D.den, pageD, ho, textEntries_append, flats_append, List.append_eq_nil_iff]
    refine ⟨?_, fun hb => ?_⟩
    · rw [treeP_entries a he.1 hr.1, treeP_entries b he.2 hr.2]; rfl
    · rw [treeP_empty a he.1 hr.1 hb.1 i .del .delete d, treeP_empty b he.2 hr.2 hb.2 i .add .add d]
  | printIfDiff p ih => exact hn.elim
  | ignoreDiff flag p ih => exact ih he hr hn i x d

end Verif.Html
