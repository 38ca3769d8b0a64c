import Verif.Web.Page
import Verif.Web.DWalk
import Verif.Web.Form
/-!
# C82: what the HTML page of a diff consists of
-/
namespace Verif.Web
open Verif.Print Verif.Html Verif.Item Verif.Opts Verif.Show Verif.Merge Verif.Order Verif.Namespace Verif.Types Verif.File Verif.Filter

/-- **C82 (page of a unit of both files).** The unit is an item with its name, old and new if they differ, and in it the
diff of the unit's own lines and a section each for the items of either version: each wanted item once, paired by
identity, a pair as its diff, the others as their listings, marked as deleted or added. -/
theorem C82_unit_page_diff (same : Val → Val → Bool) (o : Options) (ho : o.html = true) (c : FilePair) (n : Nat)
    (u v : CompUnit) (e : D) (he : unitD o c n u v = some e) (ga : ∀ t ∈ u.types, Acc (IdRef c.a.hash) t.kind) (d : Nat) :
    ∃ body, PagesUnitDiff same o c n u v d body ∧
      pageD same o.http e d =
        [.item (lineGroup same [] (unitName u) (unitName v)).flatten (some (if o.http then [] else body))] := by
  simp only [unitD, ho, if_true, Option.bind_eq_bind, Option.bind_eq_some_iff, Option.some.injEq] at he
  obtain ⟨b, hb, rfl⟩ := he
  exact ⟨_, unitBodyD_page same ho hb ga d, rfl⟩

/-- **C82 (page of a diff).** The diff of the summaries if it is wanted, and the units of both files, each wanted unit
once, paired by their mapped names. -/
theorem C82_page_diff (same : Val → Val → Bool) (o : Options) (c : FilePair) (n : Nat) (e : D)
    (he : fileD o c n = some e) (d : Nat) :
    ∃ head units order, pageD same o.http e d = head ++ units ∧
      (o.categoryFile = false → head = []) ∧
      (o.categoryFile = true → ∃ q, filePartD o c = some q ∧ head = pageD same o.http q d) ∧
      Paired (fun a b : CompUnit => ∃ k, UnitName o a k ∧ UnitName o b k) (wantedUnits o c.a.file)
        (wantedUnits o c.b.file) order ∧
      PageDiffItems same o (unitCmpBy o n) c.a.tsz c.b.tsz (unitP o c.a n) (unitP o c.b n) (unitD o c n) d order units := by
  simp only [fileD, Option.bind_eq_bind, Option.bind_eq_some_iff, Option.some.injEq] at he
  obtain ⟨head, hhead, units, hunits, rfl⟩ := he
  simp only [unitsD, Option.bind_eq_bind, Option.bind_eq_some_iff] at hunits
  obtain ⟨m, hm, hunits⟩ := hunits
  obtain ⟨order, p1, s1⟩ := sortListD_page same (lawful_units o) hunits d
  refine ⟨pageD same o.http head d, _, order, rfl, fun h => ?_, fun h => ?_, ?_, s1⟩
  · simp only [whenD, h, Bool.false_eq_true, if_false, Option.some.injEq] at hhead; subst hhead; rfl
  · simp only [whenD, h, if_true] at hhead
    exact ⟨head, hhead, rfl⟩
  · rw [wantedUnits_eq, wantedUnits_eq]
    obtain ⟨out, h1, h2⟩ := C18_merged_units o (filterUnits c.a.file.units o) (filterUnits c.b.file.units o)
    rw [hm] at h1
    cases h1
    exact paired_perm h2 p1

/-! ### A property of all programs of a diff -/

/-- Closed under what diffs are made of, given properties of the listings of each file. -/
structure ClosedD (o : Options) (c : FilePair) (A B : P → Prop) (Q : D → Prop) : Prop where
  a : Closed o c.a.toFnSide A
  b : Closed o c.b.toFnSide B
  clean : ∀ e, CleanD e → Q e
  seq : ∀ p q, Q p → Q q → Q (.seq p q)
  field : ∀ c l b, Html.Plain l → Q b → Q (.field c l b)
  id : ∀ n l a b e, Html.Plain l → Q e → Q (.id n (.line l a b) e)
  ifDiff : ∀ e, Q e → Q (.printIfDiff e)
  delete : ∀ p, A p → Q (.prefixDelete p)
  add : ∀ p, B p → Q (.prefixAdd p)
  insns : ∀ f g e, whenD o.printFunctionInstructions (do
        let p ← instructionsP c.a.toFnSide f
        let q ← instructionsP c.b.toFnSide g
        some (D.field true (k "instructions") (.ignoreDiff true (.block p q)))) = some e → Q e

variable {o : Options} {c : FilePair} {n : Nat} {A B : P → Prop} {Q : D → Prop}

theorem ClosedD.seqs (hQ : ClosedD o c A B Q) {l : List D} (h : ∀ e ∈ l, Q e) : Q (D.seqs l) := by
  induction l with
  | nil => exact hQ.clean _ trivial
  | cons p ps ih => exact hQ.seq _ _ (h p (by simp)) (ih fun q hq => h q (by simp [hq]))

theorem ClosedD.whenD (hQ : ClosedD o c A B Q) {b : Bool} {f : Option D} {e : D} (h : ∀ q, f = some q → Q q)
    (he : whenD b f = some e) : Q e := by
  cases b with
  | true => exact h e he
  | false =>
    simp only [Show.whenD, Bool.false_eq_true, if_false, Option.some.injEq] at he
    subst he; exact hQ.clean _ trivial

theorem ClosedD.sortList (hQ : ClosedD o c A B Q) {α γ : Type} {cmp : α → γ → α → γ → Res Ordering} {x y : γ}
    {print print' : α → Option P} {diff : α → α → Option D} {l : List (MergeResult α α)} {e : D}
    (hp : ∀ a q, print a = some q → A q) (hp' : ∀ a q, print' a = some q → B q)
    (hd : ∀ a b q, diff a b = some q → Q q) (he : sortListD o cmp x y print print' diff l = some e) : Q e := by
  simp only [sortListD, Option.bind_eq_bind, Option.bind_eq_some_iff, Option.map_eq_some_iff] at he
  obtain ⟨l', _, es, hes, rfl⟩ := he
  refine hQ.seqs fun e he => ?_
  obtain ⟨it, _, hf⟩ := mapM_option hes e he
  cases it with
  | both a b =>
    simp only [sortItemD, Option.map_eq_some_iff] at hf
    obtain ⟨g, hg, rfl⟩ := hf
    exact hQ.ifDiff _ (hd _ _ _ hg)
  | left a =>
    simp only [sortItemD] at hf
    split at hf
    · cases hf; exact hQ.clean _ trivial
    · simp only [Option.map_eq_some_iff] at hf
      obtain ⟨p, hp1, rfl⟩ := hf
      exact hQ.delete _ (hp _ _ hp1)
  | right a =>
    simp only [sortItemD] at hf
    split at hf
    · cases hf; exact hQ.clean _ trivial
    · simp only [Option.map_eq_some_iff] at hf
      obtain ⟨p, hp1, rfl⟩ := hf
      exact hQ.add _ (hp' _ _ hp1)

theorem closedD_type (hQ : ClosedD o c A B Q) {da db : Option Str} {x y : TypeEntry} {e : D}
    (h : typeD o c.toFnPair.toPair da db n x y = some e) : Q e := by
  simp only [typeD, Option.bind_eq_bind, Option.bind_eq_some_iff, Option.some.injEq] at h
  obtain ⟨hd, hh, b, hb, rfl⟩ := h
  obtain ⟨a, b', rfl⟩ := flatD_header hh
  exact hQ.seq _ _ (hQ.id _ _ _ _ _ plain_nil (hQ.clean _ (cleanD_body hb))) (hQ.clean _ trivial)

theorem closedD_function (hQ : ClosedD o c A B Q) {uid : Nat} {da db : Option Str} {f g : Function} {e : D}
    (h : functionD o c.toFnPair uid da db n f g = some e) : Q e := by
  simp only [functionD, Option.bind_eq_bind, Option.bind_eq_some_iff, Option.some.injEq] at h
  obtain ⟨b, hb, rfl⟩ := h
  refine hQ.seq _ _ (hQ.id _ _ _ _ _ plain_nil ?_) (hQ.clean _ trivial)
  obtain ⟨l, ins, rfl, hl, hi⟩ := fnBodyD_parts hb
  refine hQ.seqs fun q hq => ?_
  rcases List.mem_append.1 hq with hq | hq
  · exact hQ.clean _ (hl q hq)
  · rw [List.mem_singleton.1 hq]; exact hQ.insns f g _ hi

theorem closedD_variable (hQ : ClosedD o c A B Q) (da db : Option Str) (v w : Item.Variable) :
    Q (variableD o c da db v w) :=
  hQ.clean _ ⟨⟨plain_nil, cleanD_variable o c.a.toSide c.b.toSide da db v w⟩, trivial⟩

theorem closedD_unitBody (hQ : ClosedD o c A B Q) (hhtml : o.html = true) {u v : CompUnit} {e : D}
    (h : unitBodyD o c n u v = some e) : Q e := by
  have lab : Html.Plain (k "types") ∧ Html.Plain (k "functions") ∧ Html.Plain (k "inlined functions") ∧
    Html.Plain (k "variables") := by decide
  obtain ⟨l1, l2, l3, l4⟩ := lab
  simp only [unitBodyD, hhtml, if_true, Option.bind_eq_bind, Option.bind_eq_some_iff, Option.some.injEq] at h
  obtain ⟨part, hpart, types, htypes, fns, hfns, vars, hvars, rfl⟩ := h
  refine hQ.seq _ _ (hQ.whenD (fun q hq => hQ.clean _ (cleanD_unitPart hq)) hpart)
    (hQ.seq _ _ (hQ.field _ _ _ l1 (hQ.whenD (fun q hq => ?_) htypes))
    (hQ.seq _ _ (hQ.whenD (fun q hq => ?_) hfns) (hQ.seq _ _ (hQ.field _ _ _ l4 (hQ.whenD (fun q hq => ?_) hvars))
      (hQ.clean _ trivial))))
  · simp only [Option.bind_eq_bind, Option.bind_eq_some_iff] at hq
    obtain ⟨m, _, hq⟩ := hq
    exact hQ.sortList (fun _ _ h => closed_type hQ.a h) (fun _ _ h => closed_type hQ.b h)
      (fun _ _ _ h => closedD_type hQ h) hq
  · simp only [Option.bind_eq_bind, Option.bind_eq_some_iff, Option.some.injEq] at hq
    obtain ⟨m, _, f, hf, g, hg, rfl⟩ := hq
    exact hQ.seq _ _
      (hQ.field _ _ _ l2 (hQ.sortList (fun _ _ h => closed_function hQ.a h) (fun _ _ h => closed_function hQ.b h)
        (fun _ _ _ h => closedD_function hQ h) hf))
      (hQ.field _ _ _ l3 (hQ.sortList (fun _ _ h => closed_function hQ.a h) (fun _ _ h => closed_function hQ.b h)
        (fun _ _ _ h => closedD_function hQ h) hg))
  · simp only [Option.bind_eq_bind, Option.bind_eq_some_iff] at hq
    obtain ⟨m, _, hq⟩ := hq
    refine hQ.sortList (fun x q h => ?_) (fun x q h => ?_) (fun x y q h => ?_) hq
    · simp only [Option.some.injEq] at h; subst h; exact closed_variable hQ.a
    · simp only [Option.some.injEq] at h; subst h; exact closed_variable hQ.b
    · simp only [Option.some.injEq] at h; subst h; exact closedD_variable hQ _ _ _ _

theorem closed_unit {s : FileSide} {Q : P → Prop} (hQ : Closed o s.toFnSide Q) (hhtml : o.html = true) {u : CompUnit} {q : P}
    (h : unitP o s n u = some q) : Q q := by
  simp only [unitP, hhtml, if_true, Option.bind_eq_bind, Option.bind_eq_some_iff, Option.some.injEq] at h
  obtain ⟨b, hb, rfl⟩ := h
  exact hQ.id _ _ _ plain_nil (closed_unitBody hQ hhtml hb)

theorem closedD_file (hQ : ClosedD o c A B Q) (hhtml : o.html = true) {e : D} (h : fileD o c n = some e) : Q e := by
  simp only [fileD, Option.bind_eq_bind, Option.bind_eq_some_iff, Option.some.injEq] at h
  obtain ⟨hd, hhd, us, hus, rfl⟩ := h
  simp only [unitsD, Option.bind_eq_bind, Option.bind_eq_some_iff] at hus
  obtain ⟨m, _, hus⟩ := hus
  refine hQ.seq _ _ (hQ.whenD (fun q hq => hQ.clean _ (cleanD_filePart hq)) hhd)
    (hQ.sortList (fun u q hq => closed_unit hQ.a hhtml hq) (fun u q hq => closed_unit hQ.b hhtml hq)
      (fun u v q hq => ?_) hus)
  simp only [unitD, hhtml, if_true, Option.bind_eq_bind, Option.bind_eq_some_iff, Option.some.injEq] at hq
  obtain ⟨b, hb, rfl⟩ := hq
  exact hQ.id _ _ _ _ _ plain_nil (closedD_unitBody hQ hhtml hb)

theorem CleanD.tree {e : D} (h : CleanD e) : TreeD e := by
  have cl : ∀ {p : P}, Clean p → TreeP p := fun h => h.tree
  induction e with
  | seq p q ihp ihq => exact ⟨ihp h.1, ihq h.2⟩
  | indent _ hd b _ ih => exact ⟨h.1, ih h.2⟩
  | field _ l b ih => exact ⟨h.1, ih h.2⟩
  | id => exact h.elim
  | inline e ih => exact ih h
  | prefixDelete p => exact cl h
  | prefixAdd p => exact cl h
  | block a b => exact ⟨cl h.1, cl h.2⟩
  | printIfDiff e ih => exact ih h
  | ignoreDiff _ e ih => exact ih h
  | skip => trivial
  | lineBreak => trivial
  | label l => exact h
  | line l a b => exact h

theorem closedD_tree (ho : o.printFunctionInstructions = false) : ClosedD o c TreeP TreeP TreeD where
  a := closed_tree ho
  b := closed_tree ho
  clean _ h := h.tree
  seq _ _ h1 h2 := ⟨h1, h2⟩
  field _ _ _ h1 h2 := ⟨h1, h2⟩
  id _ _ _ _ _ h1 h2 := ⟨h1, h2⟩
  ifDiff _ h := h
  delete _ h := h
  add _ h := h
  insns f g e h := by
    simp only [whenD, ho, Bool.false_eq_true, if_false, Option.some.injEq] at h
    subst h; trivial

/-- **C82 (page of a diff, as it reads).** The page that a diff with HTML output and without instructions writes between
its header and footer is well-formed, and reads as the items of `C82_page_diff`, with values that are written alike
shown once and unmarked, and values that are not shown as deleted and added. -/
theorem C82_diff_reads (t : EntityTable) (alnum : Nat → Bool) (o : Options) (hhtml : o.html = true)
    (hins : o.printFunctionInstructions = false) (c : FilePair) (n : Nat) (e : D) (he : fileD o c n = some e) :
    let out := (e.run (htmlPrinter t alnum) (printOpts o) (Html.new o.inlineDepth o.http) false).1.w
    Items t out ∧
    Reads t alnum out (pageD (fun a b => decide (valueHtml t alnum a = valueHtml t alnum b)) o.http e o.inlineDepth) := by
  have ht : TreeD e := closedD_file (closedD_tree hins) hhtml he
  refine ⟨?_, C80_diff t alnum (printOpts o) hhtml e ht o.inlineDepth⟩
  obtain ⟨out, x, f', h1, h2⟩ := C28_diff t alnum (printOpts o) e ht (Html.new o.inlineDepth o.http) false rfl rfl
  rw [h1]
  exact h2

end Verif.Web
