import Verif.Show.FileSpec
import Verif.Show.FnProps
import Verif.Show.TypeProps
import Verif.Filter.Props
import Verif.Order.Props
/-!
# Lemmas for the listing and the diff of a file
-/
namespace Verif.Show
open Verif.Print Verif.Item Verif.Namespace Verif.Types Verif.Path Verif.Opts Verif.Merge Verif.Range
  Verif.File Verif.Order Verif.Filter

/-! ### Wanted items -/

theorem wanted_eq {α : Type} {W : α → Prop} {p : α → Bool} (h : ∀ a, p a = true ↔ W a) (l : List α) :
    wanted W l = l.filter p := by
  unfold wanted
  congr 1
  funext a
  have := h a
  by_cases hp : p a = true
  · simp [hp, this.1 hp]
  · simp only [Bool.not_eq_true] at hp
    have : ¬ W a := fun hw => by rw [this.2 hw] at hp; cases hp
    simp [hp, this]

theorem wantedUnits_eq (o : Options) (f : File) : wantedUnits o f = filterUnits f.units o := wanted_eq (okUnit_iff o) _
theorem wantedTypes_eq (o : Options) (diff : Bool) (h : Hash) (u : CompUnit) :
    wantedTypes o diff h u = filterTypes h u o diff := wanted_eq (okType_iff h u o diff) _
theorem wantedFunctions_eq (o : Options) (u : CompUnit) : wantedFunctions o u = filterFunctions u o :=
  wanted_eq (okFunction_iff o) _
theorem wantedVariables_eq (o : Options) (u : CompUnit) : wantedVariables o u = filterVariables u o :=
  wanted_eq (okVariable_iff o) _

/-! ### Orders and merges -/

theorem sortWith_perm {α : Type} {r : α → α → Res Ordering} {l l' : List α} (h : sortWith r l = some l') : l'.Perm l := by
  unfold sortWith at h
  split at h
  · cases h; exact stableSort_perm _ _
  · cases h

theorem mergeWith_items {α : Type} {r : α → α → Res Ordering} {l l' : List α} {m : List (MergeResult α α)}
    (h : mergeWith r l l' = some m) : oldItems m = l ∧ newItems m = l' := by
  unfold mergeWith at h
  split at h
  · cases h; exact C18_complete _ _ _ _ (Nat.le_refl _)
  · cases h

/-- The shape of the four merges. -/
theorem merge_perm {α : Type} {r r' r'' : α → α → Res Ordering} {la lb : List α} {m : List (MergeResult α α)}
    (h : (do
      let sa ← sortWith r la
      let sb ← sortWith r' lb
      mergeWith r'' sa sb) = some m) : (oldItems m).Perm la ∧ (newItems m).Perm lb := by
  simp only [Option.bind_eq_bind, Option.bind_eq_some_iff] at h
  obtain ⟨sa, ha, sb, hb, hm⟩ := h
  obtain ⟨h1, h2⟩ := mergeWith_items hm
  exact ⟨h1 ▸ sortWith_perm ha, h2 ▸ sortWith_perm hb⟩

theorem matched_of {α : Type} {o : Options} {R : α → α → Prop} {la lb : List α} (items : List (MergeResult α α))
    (ha : (oldItems items).Perm la) (hb : (newItems items).Perm lb)
    (hR : ∀ a b, .both a b ∈ items → R a b) (hl : ∀ a, .left a ∈ items → o.ignoreDeleted = true)
    (hr : ∀ b, .right b ∈ items → o.ignoreAdded = true) : Matched o R la lb := by
  have key : ∀ items : List (MergeResult α α), (∀ a b, .both a b ∈ items → R a b) →
      (∀ a, .left a ∈ items → o.ignoreDeleted = true) → (∀ b, .right b ∈ items → o.ignoreAdded = true) →
      Matched o R (oldItems items) (newItems items) := by
    intro items
    induction items with
    | nil => exact fun _ _ _ => ⟨[], [], [], .refl _, .refl _, by simp, by simp, by simp⟩
    | cons it items ih =>
      intro hR hl hr
      obtain ⟨ps, g, w, h1, h2, h3, h4, h5⟩ := ih (fun a b h => hR a b (List.mem_cons_of_mem _ h))
        (fun a h => hl a (List.mem_cons_of_mem _ h)) (fun a h => hr a (List.mem_cons_of_mem _ h))
      cases it with
      | both a b =>
        refine ⟨(a, b) :: ps, g, w, h1.cons a, h2.cons b, ?_, h4, h5⟩
        intro p hp
        rcases List.mem_cons.1 hp with rfl | hp
        · exact hR a b (List.mem_cons_self ..)
        · exact h3 p hp
      | left a =>
        exact ⟨ps, a :: g, w, (List.perm_middle).trans (h1.cons a), h2, h3, fun _ => hl a (List.mem_cons_self ..), h5⟩
      | right b =>
        exact ⟨ps, g, b :: w, h1, (List.perm_middle).trans (h2.cons b), h3, h4, fun _ => hr b (List.mem_cons_self ..)⟩
  obtain ⟨ps, g, w, h1, h2, h⟩ := key items hR hl hr
  exact ⟨ps, g, w, h1.trans ha, h2.trans hb, h⟩

/-! ### Silent diffs -/

/-- Nothing is written, or no difference is reported. -/
def Silent (po : Print.Opts) (e : D) (i : Nat) (x : DiffPrefix) (d : Nat) : Prop :=
  (e.den po i x d).1 = [] ∨ (e.den po i x d).2.1 = false

/-- No difference is reported. -/
def Quiet (po : Print.Opts) (e : D) (i : Nat) (x : DiffPrefix) (d : Nat) : Prop := (e.den po i x d).2.1 = false

theorem Silent.any {po : Print.Opts} {e : D} {i : Nat} {x : DiffPrefix} {d : Nat} (h : Silent po e i x d)
    (y : DiffPrefix) : Silent po e i y d := by
  have := D.den_canon po e i x y d
  rcases h with h | h
  · left
    rw [h] at this
    simpa using this.1.symm
  · right; rw [← this.2]; exact h

theorem Quiet.any {po : Print.Opts} {e : D} {i : Nat} {x : DiffPrefix} {d : Nat} (h : Quiet po e i x d)
    (y : DiffPrefix) : Quiet po e i y d := by
  have := D.den_canon po e i x y d
  rw [Quiet, ← this.2]; exact h

theorem Silent.seq {po : Print.Opts} {e f : D} {i : Nat} {x : DiffPrefix} {d : Nat} (h : Silent po (.seq e f) i x d) :
    Silent po e i x d ∧ Silent po f i x d := by
  simp only [Silent, D.den, List.append_eq_nil_iff, Bool.or_eq_false_iff] at h
  exact ⟨h.imp (·.1) (·.1), Silent.any (h.imp (·.2) (·.2)) x⟩

theorem Quiet.seq {po : Print.Opts} {e f : D} {i : Nat} {x : DiffPrefix} {d : Nat} (h : Quiet po (.seq e f) i x d) :
    Quiet po e i x d ∧ Quiet po f i x d := by
  simp only [Quiet, D.den, Bool.or_eq_false_iff] at h
  exact ⟨h.1, Quiet.any h.2 x⟩

theorem Silent.seqs {po : Print.Opts} {es : List D} {i : Nat} {x : DiffPrefix} {d : Nat}
    (h : Silent po (.seqs es) i x d) : ∀ e ∈ es, Silent po e i x d := by
  induction es with
  | nil => simp
  | cons e es ih =>
    intro f hf
    rcases List.mem_cons.1 hf with rfl | hf
    · exact h.seq.1
    · exact ih h.seq.2 f hf

theorem Quiet.seqs {po : Print.Opts} {es : List D} {i : Nat} {x : DiffPrefix} {d : Nat}
    (h : Quiet po (.seqs es) i x d) : ∀ e ∈ es, Quiet po e i x d := by
  induction es with
  | nil => simp
  | cons e es ih =>
    intro f hf
    rcases List.mem_cons.1 hf with rfl | hf
    · exact h.seq.1
    · exact ih h.seq.2 f hf

theorem Silent.field {po : Print.Opts} {c : Bool} {l : Str} {e : D} {i : Nat} {x : DiffPrefix} {d : Nat}
    (h : Silent po (.field c l e) i x d) : Silent po e (i + 1) x d := by
  refine Silent.any (x := .equal) ?_ x
  simp only [Silent, D.den] at h
  split at h
  · exact .inl ‹_›
  · exact .inr (by simpa using h)

theorem Silent.printIfDiff {po : Print.Opts} {e : D} {i : Nat} {x : DiffPrefix} {d : Nat}
    (h : Silent po (.printIfDiff e) i x d) : Silent po e i x d := by
  simp only [Silent, D.den] at h
  rcases h with h | h
  · split at h
    · exact .inl h
    · rename_i h0
      right
      cases hf : (e.den po i x d).2.1
      · rfl
      · simp [hf] at h0
  · exact .inr h

theorem Quiet.id {po : Print.Opts} {n : Nat} {e f : D} {i : Nat} {x : DiffPrefix} {d : Nat}
    (h : Quiet po (.id n e f) i x d) : Quiet po e i x d ∧ Quiet po f (i + 1) x d := by
  simp only [Quiet, D.den, Bool.or_eq_false_iff] at h
  exact ⟨Quiet.any h.2 x, Quiet.any h.1 x⟩

theorem Silent.quiet {po : Print.Opts} {e : D} {i : Nat} {x : DiffPrefix} {d : Nat} (h : Silent po (.seq e .lineBreak) i x d) :
    Quiet po (.seq e .lineBreak) i x d := by
  rcases h with h | h
  · simp [D.den] at h
  · exact h

theorem mapM_image {α β : Type} {f : α → Option β} {l : List α} {r : List β} (h : l.mapM f = some r) :
    ∀ a ∈ l, ∃ b ∈ r, f a = some b := by
  induction l generalizing r with
  | nil => simp
  | cons a l ih =>
    simp only [List.mapM_cons, Option.bind_eq_bind, Option.bind_eq_some_iff, Option.pure_def, Option.some.injEq] at h
    obtain ⟨b, hb, bs, hbs, rfl⟩ := h
    intro c hc
    rcases List.mem_cons.1 hc with rfl | hc
    · exact ⟨b, List.mem_cons_self .., hb⟩
    · obtain ⟨b', h1, h2⟩ := ih hbs c hc
      exact ⟨b', List.mem_cons_of_mem _ h1, h2⟩

/-- What a silent diff of a list of items says about the items. -/
theorem sortListD_silent {α γ : Type} {o : Options} {cmpBy : α → γ → α → γ → Res Ordering} {ha hb : γ}
    {print print' : α → Option P} {diff : α → α → Option D} {items : List (MergeResult α α)} {e : D}
    (he : sortListD o cmpBy ha hb print print' diff items = some e) {po : Print.Opts} {i : Nat} {x : DiffPrefix}
    {d : Nat} (hs : Silent po e i x d)
    (hp : ∀ a p, print a = some p → ∀ y, p.ls po.http i y d ≠ []) (hp' : ∀ a p, print' a = some p → ∀ y, p.ls po.http i y d ≠ [])
    {R : α → α → Prop} (hd : ∀ a b f, .both a b ∈ items → diff a b = some f → Silent po f i x d → R a b) :
    (∀ a b, .both a b ∈ items → R a b) ∧ (∀ a, .left a ∈ items → o.ignoreDeleted = true) ∧
      (∀ b, .right b ∈ items → o.ignoreAdded = true) := by
  simp only [sortListD, Option.bind_eq_bind, Option.bind_eq_some_iff, Option.map_eq_some_iff] at he
  obtain ⟨l, hl, es, hes, rfl⟩ := he
  have hm : ∀ it, it ∈ items → it ∈ l := fun it h => (sortWith_perm hl).mem_iff.2 h
  have hall := hs.seqs
  have hin : ∀ it ∈ items, ∃ f, sortItemD o print print' diff it = some f ∧ Silent po f i x d := by
    intro it hit
    obtain ⟨f, hf, hf'⟩ := mapM_image hes it (hm it hit)
    exact ⟨f, hf', hall f hf⟩
  refine ⟨fun a b h => ?_, fun a h => ?_, fun b h => ?_⟩
  · obtain ⟨f, hf, hs⟩ := hin _ h
    simp only [sortItemD, Option.map_eq_some_iff] at hf
    obtain ⟨f, hf, rfl⟩ := hf
    exact hd a b f h hf hs.printIfDiff
  · obtain ⟨f, hf, hs⟩ := hin _ h
    simp only [sortItemD] at hf
    split at hf
    · assumption
    · simp only [Option.map_eq_some_iff] at hf
      obtain ⟨p, hp1, rfl⟩ := hf
      simp only [Silent, D.den, Bool.true_eq_false, or_false] at hs
      exact absurd hs (hp a p hp1 _)
  · obtain ⟨f, hf, hs⟩ := hin _ h
    simp only [sortItemD] at hf
    split at hf
    · assumption
    · simp only [Option.map_eq_some_iff] at hf
      obtain ⟨p, hp1, rfl⟩ := hf
      simp only [Silent, D.den, Bool.true_eq_false, or_false] at hs
      exact absurd hs (hp' b p hp1 _)

/-- The same when no difference is reported. -/
theorem sortListD_quiet {α γ : Type} {o : Options} {cmpBy : α → γ → α → γ → Res Ordering} {ha hb : γ}
    {print print' : α → Option P} {diff : α → α → Option D} {items : List (MergeResult α α)} {e : D}
    (he : sortListD o cmpBy ha hb print print' diff items = some e) {po : Print.Opts} {i : Nat} {x : DiffPrefix}
    {d : Nat} (hs : Quiet po e i x d)
    {R : α → α → Prop} (hd : ∀ a b f, .both a b ∈ items → diff a b = some f → Quiet po f i x d → R a b) :
    (∀ a b, .both a b ∈ items → R a b) ∧ (∀ a, .left a ∈ items → o.ignoreDeleted = true) ∧
      (∀ b, .right b ∈ items → o.ignoreAdded = true) := by
  simp only [sortListD, Option.bind_eq_bind, Option.bind_eq_some_iff, Option.map_eq_some_iff] at he
  obtain ⟨l, hl, es, hes, rfl⟩ := he
  have hm : ∀ it, it ∈ items → it ∈ l := fun it h => (sortWith_perm hl).mem_iff.2 h
  have hall := hs.seqs
  have hin : ∀ it ∈ items, ∃ f, sortItemD o print print' diff it = some f ∧ Quiet po f i x d := by
    intro it hit
    obtain ⟨f, hf, hf'⟩ := mapM_image hes it (hm it hit)
    exact ⟨f, hf', hall f hf⟩
  refine ⟨fun a b h => ?_, fun a h => ?_, fun b h => ?_⟩
  · obtain ⟨f, hf, hs⟩ := hin _ h
    simp only [sortItemD, Option.map_eq_some_iff] at hf
    obtain ⟨f, hf, rfl⟩ := hf
    exact hd a b f h hf (by simpa [Quiet, D.den] using hs)
  · obtain ⟨f, hf, hs⟩ := hin _ h
    simp only [sortItemD] at hf
    split at hf
    · assumption
    · simp only [Option.map_eq_some_iff] at hf
      obtain ⟨p, hp1, rfl⟩ := hf
      simp [Quiet, D.den] at hs
  · obtain ⟨f, hf, hs⟩ := hin _ h
    simp only [sortItemD] at hf
    split at hf
    · assumption
    · simp only [Option.map_eq_some_iff] at hf
      obtain ⟨p, hp1, rfl⟩ := hf
      simp [Quiet, D.den] at hs

/-! ### Texts at other indentations -/

theorem Line.shift_inj {n : Nat} {a b : Line} (h : a.shift n = b.shift n) : a = b := by
  cases a <;> cases b <;> simp [Line.shift] at h ⊢ <;> simp_all

theorem lines_all {p q : P} {http : Bool} {i d : Nat} (h : p.lines http i .none d = q.lines http i .none d) (j : Nat) :
    p.lines http j .none d = q.lines http j .none d := by
  have h0 : p.lines http 0 .none d = q.lines http 0 .none d := by
    have h1 := C25_deeper http p 0 i .none d
    have h2 := C25_deeper http q 0 i .none d
    simp only [Nat.zero_add] at h1 h2
    rw [h1, h2] at h
    exact (List.map_inj_right fun _ _ h => Line.shift_inj h).1 h
  have h1 := C25_deeper http p 0 j .none d
  have h2 := C25_deeper http q 0 j .none d
  simp only [Nat.zero_add] at h1 h2
  rw [h1, h2, h0]

theorem Agree.text {po : Print.Opts} {e : D} {p q : P} (h : Agree po e p q) {i : Nat} {x : DiffPrefix} {d : Nat}
    (hs : Silent po e i x d) (j : Nat) : p.lines po.http j .none d = q.lines po.http j .none d := by
  refine lines_all (i := i) ?_ j
  rw [P.lines_eq, P.lines_eq]
  exact h i x d hs .none

/-! ### Parts of units and files -/

theorem fieldU64Val_eq {a b : Nat} {va vb : Val} (ha : fieldU64Val a a = some va) (hb : fieldU64Val a b = some vb)
    (h : va.text' = vb.text') : a = b := by
  by_cases hab : a = b
  · exact hab
  · exfalso
    simp only [fieldU64Val, ne_eq, not_true_eq_false, if_false, Option.some.injEq] at ha
    subst ha
    simp only [fieldU64Val] at hb
    rw [if_pos (by omega)] at hb
    simp only [Option.map_eq_some_iff] at hb
    obtain ⟨t, -, rfl⟩ := hb
    simp only [Val.text'] at h
    have := dec_no_space a
    rw [h] at this
    have h2 : (32 : Nat) ∈ Str.ofString " (" := by decide
    exact this (by simp [h2])

theorem Agree.fieldU64 (po : Print.Opts) (l : Str) (a b : Nat) (e : D) (he : D.fieldU64 l a b = some e) :
    Agree po e (P.fieldU64 l a) (P.fieldU64 l b) := by
  intro i x d hs y
  unfold D.fieldU64 at he
  split at he
  · rename_i va vb ha hb
    cases he
    have hab : va.text' = vb.text' := by
      have := Agree.line po l va vb i x d hs y
      clear ha hb hs
      by_cases h : va.text' = vb.text'
      · exact h
      · simp only [P.ls] at this
        split at this <;> split at this <;> simp_all
    rw [fieldU64Val_eq ha hb hab]
  · cases he

theorem Agree.sizeLine (po : Print.Opts) (l : Str) (a b : Nat) (e : D) (he : sizeLineD l a b = some e) :
    Agree po e (sizeLineP l a) (sizeLineP l b) := by
  unfold sizeLineD at he
  split at he
  · rename_i h0
    intro i x d hs y
    have h1 := Agree.fieldU64 po l a b e he i x d hs y
    have hab : a = b := by
      simp only [P.fieldU64, P.ls, Val.text', dec_ne_nil, if_false, List.cons.injEq, Line.line.injEq, and_true, true_and] at h1
      exact dec_inj h1
    rw [hab]
  · rename_i h0
    cases he
    have : a = 0 ∧ b = 0 := by omega
    rw [this.1, this.2]
    exact Agree.refl _ _ _

/-- A list of ranges, or a single line when neither side has more than one. -/
theorem Agree.rangesOr (po : Print.Opts) (ra rb : List Range) (va vb : Val) :
    Agree po (if ra.length > 1 ∨ rb.length > 1 then .field true (k "addresses") (rangeItemsD ra rb)
        else .line (k "address") va vb)
      (if ra.length > 1 then .field true (k "addresses") (rangeItemsP ra) else .line (k "address") va)
      (if rb.length > 1 then .field true (k "addresses") (rangeItemsP rb) else .line (k "address") vb) := by
  split
  · rename_i hm
    have hR := agree_closed po
    have h0 := hR.rangeItems ra rb
    intro i x d hs y
    have hf := hR.field true (k "addresses") h0 i x d hs
    have hlen : ra.length = rb.length := by
      have := hf y
      simp only [P.ls, rangeLines, List.map_eq_nil_iff] at this
      by_cases h1 : ra = [] <;> by_cases h2 : rb = []
      · simp [h1, h2]
      · simp [h1, h2] at this
      · simp [h1, h2] at this
      · simp only [h1, h2, if_false, List.cons.injEq, true_and] at this
        have := congrArg List.length this
        simpa using this
    have ha : ra.length > 1 := by omega
    have hb : rb.length > 1 := by omega
    rw [if_pos ha, if_pos hb]
    exact hf y
  · rename_i hm
    rw [if_neg (by omega), if_neg (by omega)]
    exact Agree.line _ _ _ _

theorem Agree.unitPart (po : Print.Opts) (o : Options) (a b : Side) (u v : CompUnit) :
    RelTo (Agree po) (unitPartD o a b u v) (unitPartP o a u) (unitPartP o b v) := by
  intro e he
  simp only [unitPartD, Option.bind_eq_bind, Option.bind_eq_some_iff, Option.some.injEq] at he
  obtain ⟨fa, hfa, fb, hfb, va, hva, vb, hvb, wa, hwa, wb, hwb, f, hf, x, hx, w, hw, rfl⟩ := he
  refine ⟨_, _, by simp only [unitPartP, hfa, hva, hwa, Option.bind_eq_bind, Option.bind_some]; rfl,
    by simp only [unitPartP, hfb, hvb, hwb, Option.bind_eq_bind, Option.bind_some]; rfl, ?_⟩
  have hR := agree_closed po
  refine hR.seq ?_ (hR.seq (Agree.sizeLine _ _ _ _ _ hf) (hR.seq (Agree.sizeLine _ _ _ _ _ hx)
    (hR.seq (Agree.sizeLine _ _ _ _ _ hw) (hR.seq hR.lineBreak hR.skip))))
  split
  · exact hR.seq (Agree.rangesOr po _ _ _ _) (hR.field _ _ (hR.rangeItems _ _))
  · exact hR.skip

theorem diffSummary_print {tsz : TypeOffset → Option Nat} {f : File} {s : Summary}
    (h : f.diffSummary tsz = some s) : f.printSummary tsz = some s := by
  simp only [File.diffSummary, checkedSub, Option.bind_eq_bind, Option.bind_eq_some_iff, Option.pure_def,
    Option.some.injEq] at h
  obtain ⟨a, ha, b, hb, c, hc, r, hr, t, ht, rfl⟩ := h
  split at hr <;> cases hr
  split at ht <;> cases ht
  simp only [File.printSummary, ha, hb, hc, Option.bind_eq_bind, Option.bind_some, Option.pure_def, Option.some.injEq,
    Summary.mk.injEq, true_and]
  rw [if_pos (by omega)]
  omega

/-- The labels of sizes in the summary of a file and its sections. -/
def sizeLabels : List Str := [k "size", k "fn size", k "var size", k "other size"]

section
variable {http : Bool} {R : D → P → P → Prop} (hR : Closed http R)
  (h64 : ∀ l ∈ sizeLabels, ∀ a b e, D.fieldU64 l a b = some e → R e (P.fieldU64 l a) (P.fieldU64 l b))
include hR h64

theorem Closed.section (x y : Section) :
    RelTo R (sectionD x y) (some (sectionP x)) (some (sectionP y)) := by
  intro e he
  simp only [sectionD, Option.bind_eq_bind, Option.bind_eq_some_iff, Option.some.injEq] at he
  obtain ⟨s, hs, rfl⟩ := he
  exact ⟨_, _, rfl, rfl, hR.indent _ (hR.line _ _ _) (hR.seq (hR.line _ _ _) (h64 _ (by simp [sizeLabels]) _ _ _ hs))⟩

theorem Closed.filePart (o : Options) (c : FilePair) :
    RelTo R (filePartD o c) (filePartP o c.a) (filePartP o c.b) := by
  intro e he
  simp only [filePartD, diffSummaries, Option.bind_eq_bind, Option.bind_eq_some_iff, Option.some.injEq, Option.pure_def] at he
  obtain ⟨m, ⟨sa, ha, sb, hb, rfl⟩, size, h1, fn, h2, var, h3, other, h4, sections, h5, rfl⟩ := he
  obtain ⟨p, q, hp, hq, hs⟩ := hR.list' (fun x _ y _ => hR.section h64 x y) sections h5
  rw [listP_map] at hp hq
  cases hp
  cases hq
  refine ⟨_, _, by simp only [filePartP, diffSummary_print ha, Option.bind_eq_bind, Option.bind_some]; rfl,
    by simp only [filePartP, diffSummary_print hb, Option.bind_eq_bind, Option.bind_some]; rfl, ?_⟩
  refine hR.seq (hR.indent _ (hR.line _ _ _) ?_) hR.lineBreak
  refine hR.seq ?_ (hR.seq (h64 _ (by simp [sizeLabels]) _ _ _ h1) (hR.seq (h64 _ (by simp [sizeLabels]) _ _ _ h2)
    (hR.seq (h64 _ (by simp [sizeLabels]) _ _ _ h3) (hR.seq (h64 _ (by simp [sizeLabels]) _ _ _ h4) (hR.seq (hR.field _ _ hs) hR.skip)))))
  split
  · exact hR.field _ _ (hR.rangeItems _ _)
  · exact hR.skip

end

theorem Agree.filePart (po : Print.Opts) (o : Options) (c : FilePair) :
    RelTo (Agree po) (filePartD o c) (filePartP o c.a) (filePartP o c.b) :=
  (agree_closed po).filePart (fun l _ => Agree.fieldU64 po l) o c

theorem Agree.variable (po : Print.Opts) (o : Options) (c : FilePair) (da db : Option Str) (v w : Variable) :
    Agree po (variableD o c da db v w) (variableHiding o c.a.toSide da v) (variableHiding o c.b.toSide db w) := by
  have hR := agree_closed po
  refine hR.seq (hR.indent _ (hR.line _ _ _) ?_) hR.lineBreak
  exact hR.seq ((Agree.line _ _ _ _).ignore _) (hR.seq ((Agree.line _ _ _ _).ignore _) (hR.seq (hR.source _ _ _ _ _)
    (hR.seq ((Agree.line _ _ _ _).ignore _) (hR.seq (hR.line _ _ _) (hR.seq (hR.line _ _ _) hR.skip)))))

theorem SameText.of {po : Print.Opts} {e : D} {pa pb : Option P} {d : Option D} (h : RelTo (Agree po) d pa pb) (he : d = some e)
    {i : Nat} {x : DiffPrefix} {n : Nat} (hs : Silent po e i x n) : SameText po.http n pa pb := by
  obtain ⟨p, q, hp, hq, hr⟩ := h e he
  exact ⟨p, q, hp, hq, hr.text hs⟩

end Verif.Show
