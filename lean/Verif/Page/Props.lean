import Verif.Page.Lemmas
/-!
# C106: what the page of a file shows
-/
namespace Verif.Page
open Verif.Print Verif.Html Verif.Item Verif.Types Verif.Opts Verif.Show Verif.Order Verif.Filter Verif.Web

variable {o : Options} {s : FileSide} {n : Nat}

theorem pageP_seqs (ps : List P) (m : Mark) (http : Bool) (d : Nat) :
    pageP http m (P.seqs ps) d = ps.flatMap fun p => pageP http m p d := by
  induction ps with
  | nil => rfl
  | cons p ps ih => simp [P.seqs, pageP, ih]

/-- A sorted list whose elements give one item each. -/
theorem onePer_sortList {α γ : Type} {cmpBy : Nat → α → γ → α → γ → Res Ordering} {G : α × γ → Prop}
    (hl : Lawful (fun n x y => cmpBy n x.1 x.2 y.1 y.2) G) {h : γ} {print : α → Option P} {l : List α} {p : P}
    {R : α → Node → Prop} {m : Mark} {d : Nat} (hR : ∀ a q, print a = some q → ∃ x, pageP false m q d = [x] ∧ R a x)
    (hp : sortListP (cmpBy n) h print l = some p) : OnePer (cmpBy n) h R l (pageP false m p d) := by
  simp only [sortListP, Option.bind_eq_bind, Option.bind_eq_some_iff] at hp
  obtain ⟨l', hl', hp⟩ := hp
  simp only [listP, Option.map_eq_some_iff] at hp
  obtain ⟨ps, hps, rfl⟩ := hp
  refine ⟨l', printOrder_arranged hl hl', ?_⟩
  rw [pageP_seqs]
  have := all2_of_mapM hps
  clear hps hl'
  induction this with
  | nil => exact .nil
  | cons h1 _ ih =>
    obtain ⟨x, hx, hr⟩ := hR _ _ h1
    rw [List.flatMap_cons, hx]
    exact .cons hr ih

theorem onePer_nil {α γ : Type} {cmpBy : α → γ → α → γ → Res Ordering} {h : γ} {R : α → Node → Prop} :
    OnePer cmpBy h R [] [] :=
  ⟨[], ⟨.nil, .nil, by simp⟩, .nil⟩

/-- The same, if the list is wanted. -/
theorem onePer_when {α γ : Type} {cmpBy : Nat → α → γ → α → γ → Res Ordering} {G : α × γ → Prop}
    (hl : Lawful (fun n x y => cmpBy n x.1 x.2 y.1 y.2) G) {h : γ} {print : α → Option P} {l : List α} {p : P} {b : Bool}
    {R : α → Node → Prop} {m : Mark} {d : Nat} (hR : ∀ a q, print a = some q → ∃ x, pageP false m q d = [x] ∧ R a x)
    (hp : whenP b (sortListP (cmpBy n) h print l) = some p) :
    OnePer (cmpBy n) h R (ifWanted b l) (pageP false m p d) := by
  cases b with
  | true => exact onePer_sortList hl hR hp
  | false =>
    simp only [whenP, Bool.false_eq_true, if_false, Option.some.injEq] at hp
    subst hp
    exact onePer_nil

theorem headed_eq (l : Str) (ns : List Node) : headed l ns = optSection l ns := rfl

/-! ### Items -/

theorem type_item {m : Mark} {x : DiffPrefix} (hm : m = markOf x) {dir : Option Str} {ty : TypeEntry} {p : P} (d : Nat)
    (h : typeP o s.toSide dir n ty = some p) :
    ∃ y, pageP false m p d = [y] ∧ ∃ rows, TypeRows o s.toSide dir (s.extra ty.offset) ty.kind rows ∧ Says m rows [y] := by
  obtain ⟨rows, h1, h2⟩ := C85_type o s.toSide dir n ty p h false 0 x d
  rw [P.lines_eq] at h2
  simp only [typeP, Option.bind_eq_bind, Option.bind_eq_some_iff, Option.some.injEq] at h
  obtain ⟨hd, _, b, hb, rfl⟩ := h
  have hs := says_seq (p := .id _ (.line [] hd) b) (d := d) ⟨plain_nil, (clean_body hb).tree⟩ x h2
  subst hm
  refine ⟨_, rfl, rows, h1, ?_⟩
  simpa [pageP] using hs

theorem variable_item {m : Mark} {x : DiffPrefix} (hm : m = markOf x) (dir : Option Str) (v : Item.Variable) (d : Nat) :
    ∃ y, pageP false m (variableP o s dir v) d = [y] ∧
      Says m (variableRows false false false o s.toSide dir v) [y] := by
  have h2 := C85_variable o s dir v false 0 x d
  rw [P.lines_eq] at h2
  have hs := says_seq (d := d) (p := .id _ (.line [] _) (variableBodyP o s.toSide dir v))
    ⟨plain_nil, (clean_variable o s.toSide dir v).tree⟩ x h2
  subst hm
  exact ⟨_, rfl, by simpa [pageP] using hs⟩

theorem function_item (hins : o.printFunctionInstructions = false) {m : Mark} {x : DiffPrefix} (hm : m = markOf x)
    {dir : Option Str} {f : Function} {p : P} (d : Nat) (h : functionP o s.toFnSide dir n f = some p) :
    ∃ y, pageP false m p d = [y] ∧ ∃ rows, FunctionRows {} o s.toFnSide dir d f rows ∧ Says m rows [y] := by
  obtain ⟨rows, code, h1, hc, h2⟩ := C85_function o s.toFnSide dir n f p h false 0 x d
  rw [P.lines_eq, hc.1 (.inr (.inl hins)), List.append_nil] at h2
  have ht : TreeP p := closed_function (closed_tree hins) h
  simp only [functionP, Option.bind_eq_bind, Option.bind_eq_some_iff, Option.some.injEq] at h
  obtain ⟨b, hb, rfl⟩ := h
  have hs := says_seq (d := d) ht.1 x h2
  subst hm
  exact ⟨_, rfl, rows, h1, by simpa [pageP] using hs⟩

theorem unitPart_says {m : Mark} {x : DiffPrefix} (hm : m = markOf x) {u : CompUnit} {p : P} (d : Nat)
    (h : unitPartP o s.toSide u = some p) :
    ∃ rows, UnitRows o s.tsz u rows ∧ Says m rows (pageP false m p d) := by
  obtain ⟨rows, h1, h2⟩ := unitPartP_rows (http := false) (d := d) h
  have ht := (clean_unitPart h).tree
  simp only [unitPartP, Option.bind_eq_bind, Option.bind_eq_some_iff, Option.some.injEq] at h
  obtain ⟨f, hf, v, hv, w, hw, rfl⟩ := h
  refine ⟨rows, h1, ?_⟩
  have e : ∀ a b c e : P, pageP false (markOf x) (.seqs [a, b, c, e, .lineBreak]) d =
      pageP false (markOf x) (.seqs [a, b, c, e]) d := by
    intro a b c e; simp [pageP, P.seqs]
  subst hm
  rw [e]
  have ht' := And.intro ht.1 (And.intro ht.2.1 (And.intro ht.2.2.1 (And.intro ht.2.2.2.1 trivial)))
  refine says_rows (p := .seqs [_, _, _, _]) ht' x ?_
  have := h2 0 x
  simp only [P.seqs, P.ls, List.append_nil, ← List.append_assoc] at this
  have := List.append_cancel_right this
  simp only [P.seqs, P.ls, List.append_nil, ← List.append_assoc]
  exact this

theorem unit_item (hins : o.printFunctionInstructions = false) (hhtml : o.html = true) {m : Mark} {x : DiffPrefix} (hm : m = markOf x)
    {u : CompUnit} {p : P}
    (h : unitP o s n u = some p) :
    ∃ y, pageP false m p o.inlineDepth = [y] ∧ UnitItem m o s n u y := by
  simp only [unitP, unitBodyP, hhtml, if_true, Option.bind_eq_bind, Option.bind_eq_some_iff, Option.some.injEq] at h
  obtain ⟨b, ⟨part, hpart, types, htypes, f, hf, i, hi, vars, hvars, rfl⟩, rfl⟩ := h
  have hne : (unitName u).text' ≠ [] := by rw [unit_text]; simp [unitText, k, Str.ofString]
  have hh : (headsP m (P.line [] (unitName u))).flatten = [⟨m, [], unitName u⟩] := by
    simp [headsP, blank_of_ne hne]
  refine ⟨_, rfl, unitName u, pageP false m part o.inlineDepth, pageP false m types o.inlineDepth,
    pageP false m f o.inlineDepth, pageP false m i o.inlineDepth, pageP false m vars o.inlineDepth,
    ?_, unit_text u, fun hc => ?_, fun hc => ?_, ?_, ?_, ?_, ?_⟩
  · rw [hh]
    simp only [pageP_seqs, Bool.false_eq_true, if_false, List.flatMap_cons, List.flatMap_nil, List.append_nil, pageP,
      headed_eq]
    cases hc : o.categoryFunction with
    | true => simp [pageP]
    | false =>
      simp only [whenP, hc, Bool.false_eq_true, if_false, Option.some.injEq] at hf hi
      subst hf; subst hi
      simp [pageP, optSection]
  · simp only [whenP, hc, Bool.false_eq_true, if_false, Option.some.injEq] at hpart
    subst hpart; rfl
  · simp only [whenP, hc, if_true] at hpart
    exact unitPart_says hm o.inlineDepth hpart
  · rw [wantedTypes_eq]
    exact onePer_when (lawful_types o) (fun a q hq => type_item hm o.inlineDepth hq) htypes
  · rw [wantedFunctions_eq]
    exact onePer_when (lawful_functions o) (fun a q hq => function_item hins hm o.inlineDepth hq) hf
  · rw [wantedFunctions_eq]
    exact onePer_when (lawful_functions o) (fun a q hq => function_item hins hm o.inlineDepth hq) hi
  · rw [wantedVariables_eq]
    refine onePer_when (lawful_variables o) (fun a q hq => ?_) hvars
    simp only [Option.some.injEq] at hq
    subst hq
    exact variable_item hm u.dir a o.inlineDepth

theorem file_page (hins : o.printFunctionInstructions = false) (hhtml : o.html = true) {p : P}
    (h : fileP o s n = some p) : FilePage o s n (pageP false .same p o.inlineDepth) := by
  simp only [fileP, Option.bind_eq_bind, Option.bind_eq_some_iff, Option.some.injEq] at h
  obtain ⟨hd, hhd, us, hus, rfl⟩ := h
  refine ⟨_, _, rfl, fun hc => ?_, fun hc => ?_, ?_⟩
  · simp only [whenP, hc, Bool.false_eq_true, if_false, Option.some.injEq] at hhd
    subst hhd; rfl
  · simp only [whenP, hc, if_true] at hhd
    obtain ⟨rows, h1, h2⟩ := filePartP_rows (http := false) (d := o.inlineDepth) hhd
    have ht := (clean_filePart hhd).tree
    refine ⟨rows, h1, ?_⟩
    simp only [filePartP, Option.bind_eq_bind, Option.bind_eq_some_iff, Option.some.injEq] at hhd
    obtain ⟨m, hm, rfl⟩ := hhd
    exact says_seq ht.1 .none (h2 0 .none)
  · rw [wantedUnits_eq]
    exact onePer_sortList (lawful_units o) (fun a q hq => unit_item hins hhtml (x := .none) rfl hq) hus

/-- **C106 (page).** The page of a file shows the summary if it is wanted, one item for every wanted unit in the order that
was asked for, in it the unit's own rows and, under headings, one item for every wanted type, function with code, inlined
function and variable, in order; and every item shows the rows of what it stands for, and no other text. -/
theorem C106_page (t : EntityTable) (alnum : Nat → Bool) (fr : Frame) (o : Options) (s : FileSide) (n : Nat)
    (hhttp : o.http = false) (hhtml : o.html = true) (hins : o.printFunctionInstructions = false) (page : Str)
    (h : printPage t alnum fr o s n = some page) :
    ∃ items ns, page = fr.header ++ items ++ fr.footer ∧ Html.Reads t alnum items ns ∧ FilePage o s n ns := by
  obtain ⟨p, items, hp, h1, _, h2⟩ := C88_page_wellformed t alnum fr o s n hhttp hhtml hins page h
  exact ⟨items, _, h1, h2, file_page hins hhtml hp⟩

end Verif.Page
