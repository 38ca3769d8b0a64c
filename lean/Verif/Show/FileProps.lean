import Verif.Show.FileLemmas
/-!
# C82: the listing and the diff of a file
-/
namespace Verif.Show
open Verif.Print Verif.Item Verif.Namespace Verif.Types Verif.Path Verif.Opts Verif.Merge Verif.Range
  Verif.File Verif.Order Verif.Filter

/-! ## Unreported -/

theorem typeP_ne {o : Options} {s : Side} {dir : Option Str} {n : Nat} {t : TypeEntry} {p : P}
    (h : typeP o s dir n t = some p) (http : Bool) (i : Nat) (x : DiffPrefix) (d : Nat) : p.ls http i x d ≠ [] := by
  simp only [typeP, Option.bind_eq_bind, Option.bind_eq_some_iff, Option.some.injEq] at h
  obtain ⟨_, _, _, _, rfl⟩ := h
  simp [P.ls]

theorem functionP_ne {o : Options} {s : FnSide} {dir : Option Str} {n : Nat} {f : Function} {p : P}
    (h : functionP o s dir n f = some p) (http : Bool) (i : Nat) (x : DiffPrefix) (d : Nat) : p.ls http i x d ≠ [] := by
  simp only [functionP, Option.bind_eq_bind, Option.bind_eq_some_iff, Option.some.injEq] at h
  obtain ⟨_, _, rfl⟩ := h
  simp [P.ls]

section
variable {o : Options} {c : FilePair} {n : Nat} {u v : CompUnit} {e : D} {po : Print.Opts} {i : Nat}
  {x : DiffPrefix} {d : Nat}

theorem unitTypesD_silent (he : unitTypesD o c.toFnPair.toPair n u v = some e) (hs : Silent po e i x d)
    (ha : ∀ o, (c.a.tref o).text' ≠ []) (hb : ∀ o, (c.b.tref o).text' ≠ []) (ho : o.categoryType = true) :
    Matched o (fun s t => SameText po.http d (typeP o c.a.toSide u.dir n s) (typeP o c.b.toSide v.dir n t))
      (wantedTypes o true c.a.hash u) (wantedTypes o true c.b.hash v) := by
  rw [unitTypesD, whenD, if_pos ho] at he
  simp only [Option.bind_eq_bind, Option.bind_eq_some_iff] at he
  obtain ⟨m, hm, he⟩ := he
  rw [wantedTypes_eq, wantedTypes_eq]
  have hp := merge_perm hm
  obtain ⟨h1, h2, h3⟩ := sortListD_silent he hs (fun a p h _ => typeP_ne h _ _ _ _) (fun a p h _ => typeP_ne h _ _ _ _)
    (R := fun s t => SameText po.http d (typeP o c.a.toSide u.dir n s) (typeP o c.b.toSide v.dir n t))
    (fun a b f _ hf hs => by
      have hq : Quiet po f i x d := by
        simp only [typeD, Option.bind_eq_bind, Option.bind_eq_some_iff, Option.some.injEq] at hf
        obtain ⟨_, _, _, _, rfl⟩ := hf
        exact hs.quiet
      obtain ⟨p, q, hp, hq, h⟩ := C76_type_unreported o _ _ _ n a b f hf ha hb po i x d (by rw [D.flag_eq]; exact hq)
      exact ⟨p, q, hp, hq, lines_all h⟩)
  exact matched_of m hp.1 hp.2 h1 h2 h3

theorem fnListD_silent {m : List (MergeResult Function Function)} (he : fnListD o c n u v m = some e)
    (hs : Silent po e i x d)
    (hloc : o.printVariableLocations = true → ∀ b, b ∈ newItems m → OneLocation (c.b.details b)) :
    (∀ a b, .both a b ∈ m → SameText po.http d (functionHiding (ignoredBy o) o c.a.toFnSide u.dir n a)
        (functionHiding (ignoredBy o) o c.b.toFnSide v.dir n b)) ∧
      (∀ a, .left a ∈ m → o.ignoreDeleted = true) ∧ (∀ b, .right b ∈ m → o.ignoreAdded = true) :=
  sortListD_silent he hs (fun a p h _ => functionP_ne h _ _ _ _) (fun a p h _ => functionP_ne h _ _ _ _)
    (R := fun f g => SameText po.http d (functionHiding (ignoredBy o) o c.a.toFnSide u.dir n f)
        (functionHiding (ignoredBy o) o c.b.toFnSide v.dir n g))
    (fun a b f hab hf hs => by
      have hq : Quiet po f i x d := by
        simp only [functionD, Option.bind_eq_bind, Option.bind_eq_some_iff, Option.some.injEq] at hf
        obtain ⟨_, _, rfl⟩ := hf
        exact hs.quiet
      obtain ⟨p, q, hp, hq, h⟩ := C81_unreported o _ _ _ _ n a b f hf
        (fun h => hloc h b ((mem_oldItems (items := m)).2.2 a b hab).2) po i x d (by rw [D.flag_eq]; exact hq)
      exact ⟨p, q, hp, hq, lines_all h⟩)

theorem unitFnsD_silent {wrap : Str → D → D} (he : unitFnsD o c n u v wrap = some e) (hs : Silent po e i x d)
    (hw : ∀ l f, Silent po (wrap l f) i x d → ∃ j, Silent po f j x d)
    (hloc : o.printVariableLocations = true → ∀ b ∈ v.functions, OneLocation (c.b.details b)) (ho : o.categoryFunction = true) :
    Matched o (fun f g => SameText po.http d (functionHiding (ignoredBy o) o c.a.toFnSide u.dir n f)
        (functionHiding (ignoredBy o) o c.b.toFnSide v.dir n g))
      (wantedFunctions o u) (wantedFunctions o v) := by
  rw [unitFnsD, whenD, if_pos ho] at he
  simp only [Option.bind_eq_bind, Option.bind_eq_some_iff, Option.some.injEq] at he
  obtain ⟨m, hm, f, hf, g, hg, rfl⟩ := he
  rw [wantedFunctions_eq, wantedFunctions_eq]
  simp only [unitMergedFns, mergedFunctions, Option.bind_eq_bind, Option.bind_eq_some_iff, Option.pure_def,
    Option.some.injEq] at hm
  obtain ⟨m, hm, rfl⟩ := hm
  obtain ⟨h1, h2⟩ := merge_perm hm
  obtain ⟨s1, s2⟩ := hs.seq
  obtain ⟨j1, s1⟩ := hw _ _ s1
  obtain ⟨j2, s2⟩ := hw _ _ s2
  have hall : ∀ (p : MergeResult Function Function → Bool), o.printVariableLocations = true →
      ∀ b, b ∈ newItems (m.filter p) → OneLocation (c.b.details b) := by
    intro p hv b hb
    have : b ∈ newItems m := by
      simp only [newItems, List.mem_filterMap] at hb ⊢
      obtain ⟨it, hit, h⟩ := hb
      exact ⟨it, (List.mem_filter.1 hit).1, h⟩
    have := h2.mem_iff.1 this
    exact hloc hv b (List.mem_filter.1 this).1
  obtain ⟨a1, a2, a3⟩ := fnListD_silent hf s1 (hall _)
  obtain ⟨b1, b2, b3⟩ := fnListD_silent hg s2 (hall _)
  have key : ∀ it ∈ m, it ∈ m.filter (fun x => !mergedInline x) ∨ it ∈ m.filter mergedInline := by
    intro it hit
    cases hi : mergedInline it
    · exact .inl (List.mem_filter.2 ⟨hit, by simp [hi]⟩)
    · exact .inr (List.mem_filter.2 ⟨hit, hi⟩)
  exact matched_of m h1 h2 (fun a b h => (key _ h).elim (a1 a b) (b1 a b)) (fun a h => (key _ h).elim (a2 a) (b2 a))
    (fun b h => (key _ h).elim (a3 b) (b3 b))

theorem unitVariablesD_silent (he : unitVariablesD o c n u v = some e) (hs : Silent po e i x d)
    (ho : o.categoryVariable = true) :
    Matched o (fun s t => SameText po.http d (some (variableHiding o c.a.toSide u.dir s))
        (some (variableHiding o c.b.toSide v.dir t)))
      (wantedVariables o u) (wantedVariables o v) := by
  rw [unitVariablesD, whenD, if_pos ho] at he
  simp only [Option.bind_eq_bind, Option.bind_eq_some_iff] at he
  obtain ⟨m, hm, he⟩ := he
  rw [wantedVariables_eq, wantedVariables_eq]
  have hp := merge_perm hm
  obtain ⟨h1, h2, h3⟩ := sortListD_silent he hs (fun a p h _ => by cases h; simp [variableP, P.ls])
    (fun a p h _ => by cases h; simp [variableP, P.ls])
    (R := fun s t => SameText po.http d (some (variableHiding o c.a.toSide u.dir s))
        (some (variableHiding o c.b.toSide v.dir t)))
    (fun a b f _ hf hs => by
      cases hf
      exact ⟨_, _, rfl, rfl, (Agree.variable po o c _ _ a b).text hs⟩)
  exact matched_of m hp.1 hp.2 h1 h2 h3

theorem Quiet.silent (h : Quiet po e i x d) : Silent po e i x d := .inr h

theorem unitName_inj {u v : CompUnit} (h : (unitName u).text' = (unitName v).text') : u.printRef = v.printRef := by
  simp only [unitName, Val.text'] at h
  exact List.append_cancel_left h

theorem Silent.lineText {l : Str} {a b : Val} (h : Silent po (.line l a b) i x d) : a.text' = b.text' := by
  have := Agree.line po l a b i x d h .none
  simp only [P.ls] at this
  grind

theorem unitD_quiet (he : unitD o c n u v = some e) (hs : Quiet (printOpts o) e i x d)
    (ha : ∀ o, (c.a.tref o).text' ≠ []) (hb : ∀ o, (c.b.tref o).text' ≠ [])
    (hloc : o.printVariableLocations = true → ∀ b ∈ v.functions, OneLocation (c.b.details b)) :
    SameUnit o c n d u v := by
  simp only [unitD, unitBodyD, Option.bind_eq_bind, Option.bind_eq_some_iff, Option.some.injEq] at he
  obtain ⟨body, hbody, rfl⟩ := he
  by_cases hh : o.html = true
  · rw [if_pos hh] at hs hbody
    simp only [Option.bind_eq_some_iff, Option.some.injEq] at hbody
    obtain ⟨part, hpart, types, htypes, fns, hfns, vars, hvars, rfl⟩ := hbody
    obtain ⟨hname, hs⟩ := hs.id
    have hs := hs.seqs
    have s1 := (hs part (by simp)).silent
    have s2 := (hs _ (by simp : D.field true (k "types") types ∈ _)).silent.field
    have s3 := (hs fns (by simp)).silent
    have s4 := (hs _ (by simp : D.field true (k "variables") vars ∈ _)).silent.field
    refine ⟨fun _ => unitName_inj hname.silent.lineText, fun h => ?_, fun h => unitTypesD_silent htypes s2 ha hb h,
      fun h => unitFnsD_silent hfns s3 (fun l f h => ⟨_, h.field⟩) hloc h, fun h => unitVariablesD_silent hvars s4 h⟩
    rw [whenD, if_pos h] at hpart
    exact SameText.of (Agree.unitPart _ o _ _ u v) hpart s1
  · rw [if_neg hh] at hs hbody
    simp only [Option.bind_eq_some_iff, Option.some.injEq] at hbody
    obtain ⟨part, hpart, types, htypes, fns, hfns, vars, hvars, rfl⟩ := hbody
    have hs := hs.seqs
    have s1 := (hs part (by simp)).silent
    have s2 := (hs types (by simp)).silent
    have s3 := (hs fns (by simp)).silent
    have s4 := (hs vars (by simp)).silent
    have key : o.categoryUnit = true → u.printRef = v.printRef ∧
        SameText (printOpts o).http d (unitPartP o c.a.toSide u) (unitPartP o c.b.toSide v) := by
      intro h
      rw [whenD, if_pos h] at hpart
      simp only [Option.map_eq_some_iff] at hpart
      obtain ⟨part, hpart, rfl⟩ := hpart
      have hbrk : (part.den (printOpts o) (i + 1) .equal d).1 ≠ [] := by
        simp only [unitPartD, Option.bind_eq_bind, Option.bind_eq_some_iff, Option.some.injEq] at hpart
        obtain ⟨_, _, _, _, _, _, _, _, _, _, _, _, _, _, _, _, _, _, rfl⟩ := hpart
        simp [D.seqs, D.den]
      have hq := hs (.indent true (.line [] (unitName u) (unitName v)) part) (by simp)
      simp only [Quiet, D.den, hbrk, if_false, Bool.or_eq_false_iff] at hq
      refine ⟨unitName_inj (Silent.lineText (po := printOpts o) (l := []) (i := i) (x := .equal) (d := d) ?_),
        SameText.of (Agree.unitPart _ o _ _ u v) hpart (i := i + 1) (x := .equal) (.inr hq.1)⟩
      have h2 : Quiet (printOpts o) (.line [] (unitName u) (unitName v)) i
        (if (part.den (printOpts o) (i + 1) .equal d).2.1 = true then .modify else .equal) d := hq.2
      exact (h2.any .equal).silent
    exact ⟨fun h => (key (h.resolve_right hh)).1, fun h => (key h).2, fun h => unitTypesD_silent htypes s2 ha hb h,
      fun h => unitFnsD_silent hfns s3 (fun l f h => ⟨_, h⟩) hloc h, fun h => unitVariablesD_silent hvars s4 h⟩

end

/-- If the diff of two files reports no difference, then: the two summaries are the same lines (if
they are listed); the units to list can be paired, and for each pair the name and the unit's own
lines are the same, and the types, functions and variables to list can be paired so that the
listings of each pair are the same lines. What is left unpaired is only what the user ignores:
deleted or added items. What a listing has and is not compared is listed in `variableHiding` and
`ignoredBy`. `OneLocation` excludes `C54_missed_witness`. -/
theorem C82_unreported (o : Options) (c : FilePair) (n : Nat) (e : D) (he : fileD o c n = some e)
    (ha : ∀ o, (c.a.tref o).text' ≠ []) (hb : ∀ o, (c.b.tref o).text' ≠ [])
    (hloc : o.printVariableLocations = true → ∀ u ∈ c.b.file.units, ∀ f ∈ u.functions, OneLocation (c.b.details f))
    (i : Nat) (x : DiffPrefix) (d : Nat) (hf : e.flag (printOpts o) i x d = false) :
    (o.categoryFile = true → SameText o.http d (filePartP o c.a) (filePartP o c.b)) ∧
    Matched o (SameUnit o c n d) (wantedUnits o c.a.file) (wantedUnits o c.b.file) := by
  rw [D.flag_eq] at hf
  simp only [fileD, Option.bind_eq_bind, Option.bind_eq_some_iff, Option.some.injEq] at he
  obtain ⟨head, hhead, units, hunits, rfl⟩ := he
  obtain ⟨q1, q2⟩ := Quiet.seq (po := printOpts o) hf
  constructor
  · intro h
    rw [whenD, if_pos h] at hhead
    exact SameText.of (Agree.filePart _ o c) hhead q1.silent
  · simp only [unitsD, Option.bind_eq_bind, Option.bind_eq_some_iff] at hunits
    obtain ⟨m, hm, hunits⟩ := hunits
    have hp := merge_perm hm
    rw [wantedUnits_eq, wantedUnits_eq]
    obtain ⟨h1, h2, h3⟩ := sortListD_quiet hunits q2 (R := SameUnit o c n d)
      (fun a b f hab hf hs => by
        refine unitD_quiet hf hs ha hb fun h => hloc h b ?_
        have := hp.2.mem_iff.1 ((mem_oldItems (items := m)).2.2 a b hab).2
        exact (List.mem_filter.1 this).1)
    exact matched_of m hp.1 hp.2 h1 h2 h3

/-! ## A file against itself -/

/-- Without hidden parts, a diff with the same values on both sides is the listing, unmarked. -/
theorem D.den_same_lines (po : Print.Opts) (e : D) (hs : e.Same) (hn : e.NoHide) (i : Nat) (x : DiffPrefix) (d : Nat) :
    (e.den po i x d).1.map Line.erase = ((e.side false).ls po.http i .none d).map Line.erase := by
  induction e generalizing i x d with
  | skip => rfl
  | seq p q ihp ihq =>
    simp only [D.den, D.side, P.ls, List.map_append]
    rw [ihp hs.1 hn.1, ihq hs.2 hn.2]
  | lineBreak => rfl
  | label l => rfl
  | line l a b =>
    have hab : a.text' = b.text' := hs
    simp only [D.den, D.side, P.ls, hab, if_true, Bool.false_eq_true, if_false]
    split
    · simp
    · simp [Line.erase]
  | indent c h b ihh ihb =>
    simp only [D.den, D.side, P.ls, List.map_append]
    have h2 := ihb hs.2 hn.2 (i + 1) .equal d
    split
    · rename_i h0
      rw [ihh hs.1 hn.1, ← h2, h0]
      simp
    · rw [List.map_append, ihh hs.1 hn.1, h2]
  | field c l b ih =>
    simp only [D.den, D.side, P.ls]
    have h2 := ih hs hn (i + 1) .equal d
    split
    · rename_i h0
      rw [h0] at h2
      have : (b.side false).ls po.http (i + 1) .none d = [] := by simpa using h2.symm
      simp [this]
    · rename_i h0
      have : (b.side false).ls po.http (i + 1) .none d ≠ [] := by
        intro h; rw [h] at h2; exact h0 (by simpa using h2)
      simp [this, h2, Line.erase]
  | id n h b ihh ihb =>
    simp only [D.den, D.side, P.ls, List.map_append]
    rw [ihh hs.1 hn.1, ihb hs.2 hn.2]
  | inline p ih =>
    simp only [D.den, D.side, P.ls]
    split
    · rfl
    · exact ih hs hn ..
  | prefixDelete p => exact hs.elim
  | prefixAdd p => exact hs.elim
  | block a b =>
    obtain ⟨rfl, rfl⟩ := hs
    rfl
  | printIfDiff p ih => exact hn.elim
  | ignoreDiff f p ih =>
    simp only [D.den, D.side]
    exact ih hs hn ..

theorem cmpNs_self (ns : Option Namespace) (name : Option Str) : Namespace.cmpNsAndName ns name ns name = .eq :=
  (Namespace.C09_cmpNsAndName_laws (ns, name) (ns, name) (ns, name)).2.2.2 ⟨rfl, rfl⟩

/-- A merge of a list with itself. -/
theorem merge_self {α : Type} {r r' : α → α → Res Ordering} (hr : ∀ a, r' a a = .ok .eq ∨ ∀ q, r' a a ≠ .ok q)
    {l : List α} {m : List (MergeResult α α)}
    (h : (do
      let sa ← sortWith r l
      let sb ← sortWith r l
      mergeWith r' sa sb) = some m) : ∀ it ∈ m, ∃ a ∈ l, it = .both a a := by
  simp only [Option.bind_eq_bind, Option.bind_eq_some_iff] at h
  obtain ⟨sa, ha, sb, hb, hm⟩ := h
  rw [ha] at hb
  cases hb
  unfold mergeWith at hm
  split at hm
  · cases hm
    rw [merged_self _ (fun a => ?_) _ _ (by omega)]
    · intro it hit
      obtain ⟨a, h, rfl⟩ := List.mem_map.1 hit
      exact ⟨a, (sortWith_perm ha).mem_iff.1 h, rfl⟩
    · rcases hr a with h | h
      · rw [h]; rfl
      · cases hc : r' a a with
        | ok q => exact absurd hc (h q)
        | _ => rfl
  · cases hm

/-- Nothing is written and nothing is reported. -/
def Blank (po : Print.Opts) (e : D) : Prop := ∀ i x d, (e.den po i x d).1 = [] ∧ (e.den po i x d).2.1 = false

theorem Blank.seqs {po : Print.Opts} {es : List D} (h : ∀ e ∈ es, Blank po e) : Blank po (.seqs es) := by
  induction es with
  | nil => intro i x d; exact ⟨rfl, rfl⟩
  | cons e es ih =>
    intro i x d
    have h1 := h e (List.mem_cons_self ..)
    have h2 := ih fun f hf => h f (List.mem_cons_of_mem _ hf)
    simp only [D.seqs, D.den, (h1 i x d).1, (h1 i x d).2, (h2 ..).1, (h2 ..).2]
    exact ⟨rfl, rfl⟩

theorem sortListD_self {α γ : Type} {o : Options} {cmpBy : α → γ → α → γ → Res Ordering} {ha hb : γ}
    {print print' : α → Option P} {diff : α → α → Option D} {items : List (MergeResult α α)} {e : D}
    (he : sortListD o cmpBy ha hb print print' diff items = some e) {po : Print.Opts} (ho : po.html = false)
    (hi : ∀ it ∈ items, ∃ a, it = .both a a)
    (hd : ∀ a f, .both a a ∈ items → diff a a = some f → ∀ i x d, Quiet po f i x d) : Blank po e := by
  simp only [sortListD, Option.bind_eq_bind, Option.bind_eq_some_iff, Option.map_eq_some_iff] at he
  obtain ⟨l, hl, es, hes, rfl⟩ := he
  refine Blank.seqs fun f hf => ?_
  obtain ⟨it, hit, hf⟩ := mapM_mem hes f hf
  have hit := (sortWith_perm hl).mem_iff.1 hit
  obtain ⟨a, rfl⟩ := hi it hit
  simp only [sortItemD, Option.map_eq_some_iff] at hf
  obtain ⟨g, hg, rfl⟩ := hf
  intro i x d
  have := hd a g hit hg i x d
  simp only [Quiet] at this
  simp [D.den, this, ho]

theorem rangeItemsD_self (l : List Range) : (rangeItemsD l l).Same := by
  unfold rangeItemsD
  rw [merged_self cmpRange (fun a => by simp [cmpRange]) _ _ (by omega)]
  refine D.same_seqs fun e he => ?_
  simp only [List.map_map, List.mem_map, Function.comp] at he
  obtain ⟨a, -, rfl⟩ := he
  exact rfl

theorem fieldU64_self (l : Str) (a : Nat) (e : D) (h : D.fieldU64 l a a = some e) : e.Same ∧ e.NoHide := by
  simp only [D.fieldU64, fieldU64Val, ne_eq, not_true_eq_false, if_false, Option.some.injEq] at h
  subst h
  exact ⟨rfl, trivial⟩

theorem sizeLineD_self (l : Str) (a : Nat) (e : D) (h : sizeLineD l a a = some e) : e.Same := by
  unfold sizeLineD at h
  split at h
  · exact (fieldU64_self l a e h).1
  · cases h; trivial

theorem unitPartD_self (o : Options) (s : Side) (u : CompUnit) : RelS (unitPartD o s s u u) := by
  intro e he
  simp only [unitPartD, Option.bind_eq_bind, Option.bind_eq_some_iff, Option.some.injEq] at he
  obtain ⟨fa, hfa, fb, hfb, va, hva, vb, hvb, wa, hwa, wb, hwb, f, hf, x, hx, w, hw, rfl⟩ := he
  rw [hfa] at hfb; cases hfb
  rw [hva] at hvb; cases hvb
  rw [hwa] at hwb; cases hwb
  refine ⟨?_, sizeLineD_self _ _ _ hf, sizeLineD_self _ _ _ hx, sizeLineD_self _ _ _ hw, trivial, trivial⟩
  split
  · refine ⟨?_, rangeItemsD_self _⟩
    split
    · exact rangeItemsD_self _
    · exact rfl
  · trivial

section
variable {o : Options} {s : FileSide} {same : Ty → Ty → Bool} {heap : Heap} {n : Nat} {u : CompUnit} {e : D}
  {po : Print.Opts}

theorem unitTypesD_self (hs : ∀ o t, fromOffset s.hash o = some t → same t t = true) (ho : po.html = false)
    (he : unitTypesD o ⟨s.toSide, s.toSide, same, heap⟩ n u u = some e) : Blank po e := by
  unfold unitTypesD whenD at he
  split at he
  · simp only [Option.bind_eq_bind, Option.bind_eq_some_iff] at he
    obtain ⟨m, hm, he⟩ := he
    refine sortListD_self he ho (fun it hit => ?_) fun a f _ hf i x d => ?_
    · have hr : ∀ a : TypeEntry, cmpId false n s.hash a.kind s.hash a.kind = .ok .eq ∨
          ∀ q, cmpId false n s.hash a.kind s.hash a.kind ≠ .ok q := by
        intro a
        cases hc : cmpId false n s.hash a.kind s.hash a.kind with
        | ok q => exact .inl (by rw [cmpId_self false n s.hash a.kind _ hc])
        | _ => exact .inr (by simp)
      obtain ⟨a, -, h⟩ := merge_self hr hm it hit
      exact ⟨a, h⟩
    · have := (C76_type_self o _ same heap hs _ n a f hf po ho i x d).1
      rwa [D.flag_eq] at this
  · cases he; intro i x d; exact ⟨rfl, rfl⟩

theorem unitFnsD_self (hs : ∀ o t, fromOffset s.hash o = some t → same t t = true) (ho : po.html = false)
    (he : unitFnsD o ⟨s, s, same, heap⟩ n u u (fun _ e => e) = some e) : Blank po e := by
  unfold unitFnsD whenD at he
  split at he
  · simp only [Option.bind_eq_bind, Option.bind_eq_some_iff, Option.some.injEq] at he
    obtain ⟨m, hm, f, hf, g, hg, rfl⟩ := he
    simp only [unitMergedFns, mergedFunctions, Option.bind_eq_bind, Option.bind_eq_some_iff, Option.pure_def,
      Option.some.injEq] at hm
    obtain ⟨m, hm, rfl⟩ := hm
    have hall := merge_self (fun a => .inl (by simp [functionCmpId, cmpNs_self])) hm
    have key : ∀ (q : MergeResult Function Function → Bool) (f : D), fnListD o ⟨s, s, same, heap⟩ n u u (m.filter q) = some f →
        Blank po f := by
      intro q f hf
      refine sortListD_self hf ho (fun it hit => ?_) fun a f _ hf i x d => ?_
      · obtain ⟨a, -, h⟩ := hall it (List.mem_filter.1 hit).1
        exact ⟨a, h⟩
      · have := (C81_self o s.toFnSide same heap hs _ _ n a f hf po i x d).1
        rwa [D.flag_eq] at this
    intro i x d
    have h1 := key _ _ hf
    have h2 := key _ _ hg
    simp only [D.den, (h1 i x d).1, (h1 i x d).2, (h2 _ _ _).1, (h2 _ _ _).2]
    exact ⟨rfl, rfl⟩
  · cases he; intro i x d; exact ⟨rfl, rfl⟩

theorem variableD_self (o : Options) (dir : Option Str) (v : Variable) :
    (variableD o ⟨s, s, same, heap⟩ dir dir v v).Same :=
  ⟨⟨rfl, rfl, rfl, sourceD_self .., rfl, rfl, rfl, trivial⟩, trivial⟩

theorem unitVariablesD_self (ho : po.html = false)
    (he : unitVariablesD o ⟨s, s, same, heap⟩ n u u = some e) : Blank po e := by
  unfold unitVariablesD whenD at he
  split at he
  · simp only [Option.bind_eq_bind, Option.bind_eq_some_iff] at he
    obtain ⟨m, hm, he⟩ := he
    refine sortListD_self he ho (fun it hit => ?_) fun a f _ hf i x d => ?_
    · obtain ⟨a, -, h⟩ := merge_self (fun a => .inl (by simp [variableCmpId, cmpNs_self])) hm it hit
      exact ⟨a, h⟩
    · cases hf
      exact (D.den_same po _ (variableD_self o _ a) i x d).1
  · cases he; intro i x d; exact ⟨rfl, rfl⟩

theorem unitD_self (hs : ∀ o t, fromOffset s.hash o = some t → same t t = true) (ho : o.html = false)
    (he : unitD o ⟨s, s, same, heap⟩ n u u = some e) (i : Nat) (x : DiffPrefix) (d : Nat) :
    Quiet (printOpts o) e i x d := by
  simp only [unitD, unitBodyD, ho, Bool.false_eq_true, if_false, Option.bind_eq_bind, Option.bind_eq_some_iff,
    Option.some.injEq] at he
  obtain ⟨body, ⟨part, hpart, types, htypes, fns, hfns, vars, hvars, rfl⟩, rfl⟩ := he
  have h1 : part.Same := by
    refine whenD_same (fun e he => ?_) part hpart
    simp only [Option.map_eq_some_iff] at he
    obtain ⟨f, hf, rfl⟩ := he
    exact ⟨rfl, unitPartD_self o _ u f hf⟩
  have h2 := unitTypesD_self (po := printOpts o) hs ho htypes
  have h3 := unitFnsD_self (po := printOpts o) hs ho hfns
  have h4 := unitVariablesD_self (po := printOpts o) ho hvars
  have h5 := fun y => (D.den_same (printOpts o) part h1 i y d).1
  simp only [Quiet, D.seqs, D.den, h5, (h2 ..).2, (h3 ..).2, (h4 ..).2]
  rfl

end

theorem filePartD_self (o : Options) (s : FileSide) (same : Ty → Ty → Bool) (heap : Heap) :
    RelS (filePartD o ⟨s, s, same, heap⟩) := by
  intro e he
  simp only [filePartD, diffSummaries, Option.bind_eq_bind, Option.bind_eq_some_iff, Option.some.injEq, Option.pure_def] at he
  obtain ⟨m, ⟨sa, ha, sb, hb, rfl⟩, size, h1, fn, h2, var, h3, other, h4, sections, h5, rfl⟩ := he
  rw [ha] at hb
  cases hb
  refine ⟨⟨rfl, ?_, (fieldU64_self _ _ _ h1).1, (fieldU64_self _ _ _ h2).1, (fieldU64_self _ _ _ h3).1,
    (fieldU64_self _ _ _ h4).1, ?_, trivial⟩, trivial⟩
  · split
    · exact rangeItemsD_self _
    · trivial
  · refine listD_self (fun a _ => by simp [sectionCost]) (by simp) (by simp) (fun a _ e he => ?_) sections h5
    simp only [sectionD, Option.bind_eq_bind, Option.bind_eq_some_iff, Option.some.injEq] at he
    obtain ⟨z, hz, rfl⟩ := he
    exact ⟨rfl, rfl, (fieldU64_self _ _ _ hz).1⟩

/-- The old listing is what the diff has on its old side. -/
def OldSide (http : Bool) (e : D) (p _q : P) : Prop :=
  e.NoHide ∧ ∀ i x d, (e.side false).ls http i x d = p.ls http i x d

theorem oldSide_closed (http : Bool) : Closed http (OldSide http) where
  skip := ⟨trivial, fun _ _ _ => rfl⟩
  lineBreak := ⟨trivial, fun _ _ _ => rfl⟩
  line _ _ _ := ⟨trivial, fun _ _ _ => rfl⟩
  seq h h' := ⟨⟨h.1, h'.1⟩, fun i x d => by simp only [D.side, P.ls, h.2, h'.2]⟩
  indent _ _ _ _ _ _ _ h h' := ⟨⟨h.1, h'.1⟩, fun i x d => by simp only [D.side, P.ls, h.2, h'.2]⟩
  field _ _ _ _ _ h := ⟨h.1, fun i x d => by simp only [D.side, P.ls, h.2]⟩
  id _ _ _ _ _ _ _ _ _ h h' := ⟨⟨h.1, h'.1⟩, fun i x d => by simp only [D.side, P.ls, h.2, h'.2]⟩
  inline h := ⟨h.1, fun i x d => by simp only [D.side, P.ls, h.2]⟩
  del _ := ⟨trivial, fun _ _ _ => rfl⟩
  add _ := ⟨trivial, fun _ _ _ => rfl⟩
  congr h h' _ := ⟨h.1, fun i x d => by rw [h.2, h']⟩

theorem oldSide_u64 (http : Bool) (l : Str) (a b : Nat) (e : D) (he : D.fieldU64 l a b = some e) :
    OldSide http e (P.fieldU64 l a) (P.fieldU64 l b) := by
  simp only [D.fieldU64, fieldU64Val, ne_eq, not_true_eq_false, if_false] at he
  split at he
  · rename_i va vb ha hb
    cases ha
    cases he
    exact ⟨trivial, fun _ _ _ => rfl⟩
  · cases he

/-- A file compared with itself: no difference is reported, and what is written is the summary (if
it is listed) as the listing shows it, with no line marked; nothing is written for the units. -/
theorem C82_self (o : Options) (ho : o.html = false) (s : FileSide) (same : Ty → Ty → Bool) (heap : Heap)
    (hs : ∀ o t, fromOffset s.hash o = some t → same t t = true) (n : Nat) (e : D)
    (he : fileD o ⟨s, s, same, heap⟩ n = some e) (i : Nat) (x : DiffPrefix) (d : Nat) :
    e.flag (printOpts o) i x d = false ∧ (∀ l ∈ e.lines (printOpts o) i x d, l.marked = false) ∧
    ∃ p, whenP o.categoryFile (filePartP o s) = some p ∧
      (e.lines (printOpts o) i x d).map Line.erase = (p.lines o.http i .none d).map Line.erase := by
  simp only [fileD, Option.bind_eq_bind, Option.bind_eq_some_iff, Option.some.injEq] at he
  obtain ⟨head, hhead, units, hunits, rfl⟩ := he
  have hu : Blank (printOpts o) units := by
    simp only [unitsD, Option.bind_eq_bind, Option.bind_eq_some_iff] at hunits
    obtain ⟨m, hm, hunits⟩ := hunits
    refine sortListD_self hunits ho (fun it hit => ?_) fun a f _ hf => unitD_self hs ho hf
    obtain ⟨a, -, h⟩ := merge_self (fun a => .inl (by simp [unitCmpId])) hm it hit
    exact ⟨a, h⟩
  have h1 : head.Same := whenD_same (filePartD_self o s same heap) head hhead
  have h2 := D.den_same (printOpts o) head h1 i x d
  have hl : (D.seq head units).lines (printOpts o) i x d = (head.den (printOpts o) i x d).1 := by
    rw [D.lines_eq]
    simp only [D.den, (hu _ _ _).1, List.append_nil]
  refine ⟨?_, ?_, ?_⟩
  · rw [D.flag_eq]
    simp only [D.den, h2.1, (hu _ _ _).2]
    rfl
  · rw [hl]; exact h2.2
  · have hR := oldSide_closed o.http
    obtain ⟨p, q, hp, hq, h⟩ := hR.when o.categoryFile (hR.filePart (fun l _ => oldSide_u64 o.http l) o ⟨s, s, same, heap⟩) head hhead
    refine ⟨p, hp, ?_⟩
    rw [hl, P.lines_eq, D.den_same_lines _ _ h1 h.1]
    show List.map _ ((head.side false).ls o.http _ _ _) = _
    rw [h.2]

end Verif.Show
