import Verif.Web.Props
import Verif.Html.Props
import Verif.Html.ReadProps
/-!
# C88: the pages and the answers of the server are well-formed
-/
namespace Verif.Web
open Verif.Print Verif.Html Verif.Item Verif.Opts Verif.Show Verif.Ids Verif.Serve Verif.Types Verif.Order Verif.Filter

/-! ### A property of all programs of a listing -/

/-- Closed under what listings are made of. -/
structure Closed (o : Options) (s : FnSide) (Q : P → Prop) : Prop where
  clean : ∀ p, Clean p → Q p
  seq : ∀ p q, Q p → Q q → Q (.seq p q)
  field : ∀ c l b, Html.Plain l → Q b → Q (.field c l b)
  id : ∀ n h b, FlatP h → Q b → Q (.id n h b)
  insns : ∀ f p, whenP (o.printFunctionInstructions && !f.ranges.isEmpty)
        ((instructionsP s f).map (.fieldDetail (k "code") (k "instructions"))) = some p → Q p

variable {o : Options} {s : FileSide} {n : Nat} {Q : P → Prop}

theorem Closed.seqs {s : FnSide} (hQ : Closed o s Q) {l : List P} (h : ∀ p ∈ l, Q p) : Q (P.seqs l) := by
  induction l with
  | nil => exact hQ.clean _ trivial
  | cons p ps ih => exact hQ.seq _ _ (h p (by simp)) (ih fun q hq => h q (by simp [hq]))

theorem Closed.sortList {s : FnSide} (hQ : Closed o s Q) {α γ : Type} {cmp : α → γ → α → γ → Res Ordering} {x : γ}
    {print : α → Option P} {l : List α} {p : P} (h : ∀ a q, print a = some q → Q q)
    (hp : sortListP cmp x print l = some p) : Q p := by
  simp only [sortListP, Option.bind_eq_bind, Option.bind_eq_some_iff] at hp
  obtain ⟨l', _, hp⟩ := hp
  unfold listP at hp
  rw [Option.map_eq_some_iff] at hp
  obtain ⟨m, hm, rfl⟩ := hp
  refine hQ.seqs fun q hq => ?_
  obtain ⟨a, _, he⟩ := mapM_option hm q hq
  exact h a q he

theorem Closed.whenP {s : FnSide} (hQ : Closed o s Q) {b : Bool} {f : Option P} {p : P} (h : ∀ q, f = some q → Q q)
    (hp : whenP b f = some p) : Q p := by
  cases b with
  | true => exact h p hp
  | false =>
    simp only [Show.whenP, Bool.false_eq_true, if_false, Option.some.injEq] at hp
    subst hp; exact hQ.clean _ trivial

theorem closed_fnBody {s : FnSide} (hQ : Closed o s Q) {dir : Option Str} {f : Function} {p : P}
    (h : fnBodyP o s dir n f = some p) : Q p := by
  obtain ⟨l, ins, rfl, hl, hi⟩ := fnBody_parts h
  refine hQ.seqs fun q hq => ?_
  rcases List.mem_append.1 hq with hq | hq
  · exact hQ.clean _ (hl q hq)
  · rw [List.mem_singleton.1 hq]; exact hQ.insns f _ hi

theorem closed_type (hQ : Closed o s.toFnSide Q) {dir : Option Str} {ty : TypeEntry} {p : P}
    (h : typeP o s.toSide dir n ty = some p) : Q p := by
  simp only [typeP, Option.bind_eq_bind, Option.bind_eq_some_iff, Option.some.injEq] at h
  obtain ⟨hd, _, b, hb, rfl⟩ := h
  exact hQ.seq _ _ (hQ.id _ _ _ plain_nil (hQ.clean _ (clean_body hb))) (hQ.clean _ trivial)

theorem closed_variable (hQ : Closed o s.toFnSide Q) {dir : Option Str} {v : Item.Variable} : Q (variableP o s dir v) :=
  hQ.seq _ _ (hQ.id _ _ _ plain_nil (hQ.clean _ (clean_variable o s.toSide dir v))) (hQ.clean _ trivial)

theorem closed_function {s : FnSide} (hQ : Closed o s Q) {dir : Option Str} {f : Function} {p : P}
    (h : functionP o s dir n f = some p) : Q p := by
  simp only [functionP, Option.bind_eq_bind, Option.bind_eq_some_iff, Option.some.injEq] at h
  obtain ⟨b, hb, rfl⟩ := h
  exact hQ.seq _ _ (hQ.id _ _ _ plain_nil (closed_fnBody hQ hb)) (hQ.clean _ trivial)

theorem closed_unitBody (hQ : Closed o s.toFnSide Q) (hhtml : o.html = true) {u : CompUnit} {p : P}
    (h : unitBodyP o s n u = some p) : Q p := by
  have lab : Html.Plain (k "types") ∧ Html.Plain (k "functions") ∧ Html.Plain (k "inlined functions") ∧
    Html.Plain (k "variables") := by decide
  obtain ⟨l1, l2, l3, l4⟩ := lab
  simp only [unitBodyP, hhtml, if_true, Option.bind_eq_bind, Option.bind_eq_some_iff, Option.some.injEq] at h
  obtain ⟨part, hpart, types, htypes, f, hf, i, hi, vars, hvars, rfl⟩ := h
  have fns : ∀ {l : List Function} {q : P}, whenP o.categoryFunction (fnListP o s.toFnSide n u l) = some q → Q q :=
    fun hq => hQ.whenP (fun _ hq => hQ.sortList (fun _ _ h => closed_function hQ h) hq) hq
  refine hQ.seq _ _ (hQ.whenP (fun q hq => hQ.clean _ (clean_unitPart hq)) hpart)
    (hQ.seq _ _ (hQ.field _ _ _ l1 (hQ.whenP (fun q hq => hQ.sortList (fun _ _ h => closed_type hQ h) hq) htypes))
    (hQ.seq _ _ ?_ (hQ.seq _ _ (hQ.field _ _ _ l4 (hQ.whenP (fun q hq => hQ.sortList (fun x q h => ?_) hq) hvars))
      (hQ.clean _ trivial))))
  · split
    · exact hQ.seq _ _ (hQ.field _ _ _ l2 (fns hf)) (hQ.field _ _ _ l3 (fns hi))
    · exact hQ.clean _ trivial
  · simp only [Option.some.injEq] at h; subst h; exact closed_variable hQ

theorem closed_file (hQ : Closed o s.toFnSide Q) (hhtml : o.html = true) {p : P} (h : fileP o s n = some p) : Q p := by
  simp only [fileP, Option.bind_eq_bind, Option.bind_eq_some_iff, Option.some.injEq] at h
  obtain ⟨hd, hhd, us, hus, rfl⟩ := h
  refine hQ.seq _ _ (hQ.whenP (fun q hq => hQ.clean _ (clean_filePart hq)) hhd) (hQ.sortList (fun u q hq => ?_) hus)
  simp only [unitP, hhtml, if_true, Option.bind_eq_bind, Option.bind_eq_some_iff, Option.some.injEq] at hq
  obtain ⟨b, hb, rfl⟩ := hq
  exact hQ.id _ _ _ plain_nil (closed_unitBody hQ hhtml hb)

/-! ### What the server leaves out does not matter -/

/-- Without the bodies of items and details. -/
def strip : P → P
  | .seq p q => .seq (strip p) (strip q)
  | .indent c h b => .indent c h (strip b)
  | .field c l b => .field c l (strip b)
  | .id n h _ => .id n h .skip
  | .fieldDetail i l _ => .fieldDetail i l .skip
  | .inline p => .inline (strip p)
  | p => p

theorem strip_run {t : EntityTable} {alnum : Nat → Bool} (x : DiffPrefix) (p : P) (d : Nat) :
    html t alnum true x (strip p) d = html t alnum true x p d := by
  induction p generalizing d with
  | seq p q ihp ihq => simp only [strip, html, ihp, ihq]
  | indent c h b _ ih => simp only [strip, html, ih]
  | field c l b ih => simp only [strip, html, ih]
  | id n h b _ _ => simp only [strip, html, idHtml, if_true]
  | fieldDetail i l b _ => simp only [strip, html, if_true]
  | inline p ih => simp only [strip, html, ih]
  | _ => rfl

theorem strip_page (m : Mark) (p : P) (d : Nat) : pageP true m (strip p) d = pageP true m p d := by
  induction p generalizing d with
  | seq p q ihp ihq => simp only [strip, pageP, ihp, ihq]
  | indent c h b _ ih => simp only [strip, pageP, ih]
  | field c l b ih => simp only [strip, pageP, ih]
  | id n h b _ _ => simp only [strip, pageP, if_true]
  | fieldDetail i l b _ => simp only [strip, pageP, if_true]
  | inline p ih => simp only [strip, pageP, ih]
  | _ => rfl

theorem Clean.strip {p : P} (h : Clean p) : Web.strip p = p := by
  induction p with
  | seq p q ihp ihq => simp only [Web.strip, ihp h.1, ihq h.2]
  | indent c hd b _ ih => simp only [Web.strip, ih h.2]
  | field c l b ih => simp only [Web.strip, ih h.2]
  | id => exact h.elim
  | fieldDetail => exact h.elim
  | inline p ih => simp only [Web.strip, ih h]
  | _ => rfl

theorem TreeP.flatHeads {p : P} (h : TreeP p) : FlatHeads p := by
  induction p with
  | seq p q ihp ihq => exact ⟨ihp h.1, ihq h.2⟩
  | indent c hd b _ ih => exact ⟨h.1, ih h.2⟩
  | field c l b ih => exact ih h.2
  | id n hd b _ ih => exact ⟨h.1, ih h.2⟩
  | fieldDetail i l b ih => exact ih h.2.2
  | inline p ih => exact ih h
  | _ => trivial

/-- A program that is well-formed when served. -/
def ServedP (p : P) : Prop := TreeP (strip p) ∧ FlatHeads p

theorem closed_served (hi : ∀ f p, s.insns f = some p → OnlyRows p) : Closed o s.toFnSide ServedP where
  clean p h := ⟨by rw [h.strip]; exact h.tree, h.noIds.flat⟩
  seq p q hp hq := ⟨⟨hp.1, hq.1⟩, hp.2, hq.2⟩
  field c l b hl hb := ⟨⟨hl, hb.1⟩, hb.2⟩
  id n h b hh hb := ⟨⟨hh, trivial⟩, hh, hb.2⟩
  insns f p h := by
    have hc : Html.Plain (k "code") ∧ Html.Plain (k "instructions") := by decide
    unfold whenP at h
    split at h
    · rw [Option.map_eq_some_iff] at h
      obtain ⟨b, hb, rfl⟩ := h
      refine ⟨⟨hc.1, hc.2, trivial⟩, ?_⟩
      unfold instructionsP at hb
      split at hb
      · simp only [Option.some.injEq] at hb; subst hb; trivial
      · exact (hi f b hb).noIds.flat
    · simp only [Option.some.injEq] at h; subst h; exact ⟨trivial, trivial⟩

theorem closed_tree (ho : o.printFunctionInstructions = false) : Closed o s.toFnSide TreeP where
  clean p h := h.tree
  seq p q hp hq := ⟨hp, hq⟩
  field c l b hl hb := ⟨hl, hb⟩
  id n h b hh hb := ⟨hh, hb⟩
  insns f p h := by
    simp only [ho, Bool.false_and, whenP, Bool.false_eq_true, if_false, Option.some.injEq] at h
    subst h; trivial

variable (t : EntityTable) (alnum : Nat → Bool) (fr : Frame)

theorem served_fresh (ho : o.http = true) {p : P} (h : ServedP p) :
    Items t (fresh t alnum o p) ∧ Reads t alnum (fresh t alnum o p) (pageP true .same p o.inlineDepth) := by
  have e : fresh t alnum o p = ((strip p).run (htmlPrinter t alnum) true (Html.new o.inlineDepth true)).w := by
    rw [fresh_html ho h.2, run_html true (strip p) (TreeP.flatHeads h.1) _ rfl rfl, ← strip_run]
    rfl
  refine ⟨?_, ?_⟩
  · obtain ⟨out, h1, h2⟩ := C28_print t alnum true (strip p) h.1 (Html.new o.inlineDepth true) rfl rfl
    rw [e, h1]; exact h2
  · have := C80_print t alnum true (strip p) h.1 o.inlineDepth
    rw [strip_page] at this
    rw [e]; exact this

/-- **C88 (well-formed answers).** Whatever is asked, the answer is the whole page, a well-formed list of items, a
well-formed sequence of table rows or a number; the page is a well-formed list of items between header and footer. -/
theorem C88_answers_wellformed (o : Options) (s : FileSide) (n : Nat) (hhttp : o.http = true) (hhtml : o.html = true)
    (hrows : ∀ f p, s.insns f = some p → CodeP p) (path body : Str) (h : answer t alnum fr o s n path = some body) :
    (∃ items, body = fr.header ++ items ++ fr.footer ∧ Items t items) ∨ Items t body ∨ Rows t body ∨
      ∃ m, body = dec m := by
  have honly : ∀ p, CodeP p → OnlyRows p := by
    intro p hp
    induction p with
    | seq p q ihp ihq => exact ⟨ihp hp.1, ihq hp.2⟩
    | skip => trivial
    | instruction => trivial
    | _ => exact hp.elim
  have hQ : Closed o s.toFnSide ServedP := closed_served fun f p h => honly p (hrows f p h)
  unfold answer at h
  split at h
  · simp only [Option.some.injEq] at h; subst h; exact .inr (.inl .nil)
  · unfold printPage at h
    rw [Option.map_eq_some_iff] at h
    obtain ⟨p, hp, rfl⟩ := h
    exact .inl ⟨_, rfl, (served_fresh t alnum hhttp (closed_file hQ hhtml hp)).1⟩
  · rename_i x _
    rw [Option.map_eq_some_iff] at h
    obtain ⟨p, hp, rfl⟩ := h
    cases x with
    | unit u => exact .inr (.inl (served_fresh t alnum hhttp (closed_unitBody hQ hhtml hp)).1)
    | type u ty => exact .inr (.inl (served_fresh t alnum hhttp (hQ.clean _ (clean_body hp))).1)
    | function u f => exact .inr (.inl (served_fresh t alnum hhttp (closed_fnBody hQ hp)).1)
    | code f =>
      have hc : CodeP p := by
        simp only [shownP, instructionsP] at hp
        split at hp
        · simp only [Option.some.injEq] at hp; subst hp; trivial
        · exact hrows f p hp
      obtain ⟨out, h1, h2⟩ := C28_instructions t alnum o.http p hc (Html.new o.inlineDepth o.http)
      refine .inr (.inr (.inl ?_))
      unfold fresh
      rw [h1]; exact h2
    | var u v =>
      simp only [shownP, Option.some.injEq] at hp
      subst hp
      exact .inr (.inl (served_fresh t alnum hhttp (hQ.clean _ (clean_variable o s.toSide u.dir v))).1)
  · simp only [Option.some.injEq] at h; subst h; exact .inr (.inr (.inr ⟨_, rfl⟩))
  · cases h
  · cases h
  · cases h

/-- **C88 (well-formed page).** A page printed without instructions is a well-formed list of items between header and
footer, and reads as the sections and lines of the listing. -/
theorem C88_page_wellformed (o : Options) (s : FileSide) (n : Nat) (hhttp : o.http = false) (hhtml : o.html = true)
    (hins : o.printFunctionInstructions = false) (page : Str) (h : printPage t alnum fr o s n = some page) :
    ∃ p items, fileP o s n = some p ∧ page = fr.header ++ items ++ fr.footer ∧ Items t items ∧
      Reads t alnum items (pageP false .same p o.inlineDepth) := by
  unfold printPage at h
  rw [Option.map_eq_some_iff] at h
  obtain ⟨p, hp, rfl⟩ := h
  have ht : TreeP p := closed_file (closed_tree hins) hhtml hp
  refine ⟨p, _, hp, rfl, ?_, ?_⟩
  · obtain ⟨out, h1, h2⟩ := C28_print t alnum o.http p ht (Html.new o.inlineDepth o.http) rfl rfl
    unfold fresh
    rw [h1]; exact h2
  · unfold fresh
    rw [hhttp]
    exact C80_print t alnum false p ht o.inlineDepth

end Verif.Web
