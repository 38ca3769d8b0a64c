import Verif.Web.Lemmas
import Verif.Cfi.Model
import Verif.Filter.Props
/-!
# C88: the web view shows what the printed page shows
-/
namespace Verif.Web
open Verif.Print Verif.Html Verif.Item Verif.Opts Verif.Show Verif.Ids Verif.Serve Verif.Types Verif.Order Verif.Filter Verif.Range

variable (t : EntityTable) (alnum : Nat → Bool) (fr : Frame) (o : Options) (s : FileSide) (n : Nat)

theorem OnlyRows.noIds {p : P} (h : OnlyRows p) : NoIds p := by
  induction p with
  | seq p q ihp ihq => exact ⟨ihp h.1, ihq h.2⟩
  | indent => exact h.elim
  | field => exact h.elim
  | id => exact h.elim
  | fieldDetail => exact h.elim
  | inline => exact h.elim
  | _ => trivial

/-- **C88 (print).** The server answers the root path with the page that printing with HTML output writes, up to the
bodies of the items: opening them, each by the request of the page's script, gives the printed page. -/
theorem C88_print (hhttp : o.http = true) (hhtml : o.html = true) (hids : IdsOf s)
    (hrows : ∀ f p, s.insns f = some p → OnlyRows p) (hsmall : (assignIds s.file.units).ids.length ≤ 2 ^ 64)
    (path : Str) (hpath : IsRoot path) :
    (answer t alnum fr o s n path = none ↔ printPage t alnum fr { o with http := false } s n = none) ∧
    ∀ served page, answer t alnum fr o s n path = some served →
      printPage t alnum fr { o with http := false } s n = some page →
      Opens t alnum (loads t alnum fr o s n) none served page := by
  have hS : Setup o s := ⟨hhttp, hhtml, hids, fun f p h => (hrows f p h).noIds, hsmall⟩
  have ha : answer t alnum fr o s n path = printPage t alnum fr o s n := by
    simp [answer, (C39_print s.file.units path).1 hpath]
  rw [ha]
  have hh := fileP_http o false s n
  unfold printPage
  rw [hh]
  cases hp : fileP o s n with
  | none => simp
  | some p =>
    refine ⟨by simp, fun served page h1 h2 => ?_⟩
    simp only [Option.map_some, Option.some.injEq] at h1 h2
    subst h1 h2
    refine .append (.append (.same _ _) ?_) (.same _ _)
    unfold fresh
    rw [hhttp]
    exact site_pages (site_file hS hp)

/-- The listing of the instructions of a function consists of rows only, as `C88_print` assumes. -/
theorem C88_rows {I : Type} (rn : Nat → Option Str) (addr : I → Nat) (disasm : Range → Option (List I))
    (cfi : Range → List Cfi.Cfi) (pi : Range → I → Option P) (hpi : ∀ r i p, pi r i = some p → OnlyRows p)
    (ranges : List Range) (p : P) (h : Cfi.printInstructions rn addr disasm cfi pi ranges = some p) : OnlyRows p := by
  unfold Cfi.printInstructions at h
  rw [Option.map_eq_some_iff] at h
  obtain ⟨l, hl, rfl⟩ := h
  have : ∀ q ∈ l, OnlyRows q := by
    intro q hq
    obtain ⟨x, _, he⟩ := mapM_option hl q hq
    cases x with
    | org r => simp only [Cfi.Row.print, Option.some.injEq] at he; subst he; trivial
    | insn r i => exact hpi r i q he
    | cfi r c =>
      simp only [Cfi.Row.print, Cfi.printCfi] at he
      split at he
      · split at he
        · rw [Option.map_eq_some_iff] at he; obtain ⟨_, _, rfl⟩ := he; trivial
        · cases he
      · rw [Option.map_eq_some_iff] at he; obtain ⟨_, _, rfl⟩ := he; trivial
  clear hl
  induction l with
  | nil => trivial
  | cons q l ih => exact ⟨this q (by simp), ih fun x hx => this x (by simp [hx])⟩

/-- The rows of one instruction with its annotations. -/
theorem C88_insn_rows (rn : Nat → Option Str) (tref : TypeOffset → Val) (e : Code.Env) (ps : List Parameter)
    (vs : List LocalVariable) (r : Range) (i : Code.Insn) (p : P)
    (h : Code.printInsn rn tref e ps vs r i = some p) : OnlyRows p := by
  unfold Code.printInsn at h
  split at h
  · simp only [Option.some.injEq] at h; subst h; trivial
  · split at h
    · simp only [Option.bind_eq_bind, Option.bind_eq_some_iff, Option.pure_def, Option.some.injEq] at h
      obtain ⟨as, _, vals, hv, rfl⟩ := h
      clear hv
      refine ⟨?_, ?_⟩
      · unfold Code.headLine; split <;> trivial
      · induction vals with
        | nil => trivial
        | cons v vals ih => exact ⟨trivial, ih⟩
    · cases h

/-! ### Links -/

/-- The program has an item with this id and header, not inside another item. -/
def HasId (i : Nat) (l : Str) (v : Val) : P → Prop
  | .seq p q => HasId i l v p ∨ HasId i l v q
  | .indent _ _ b => HasId i l v b
  | .field _ _ b => HasId i l v b
  | .id n h _ => n = i ∧ h = .line l v
  | _ => False

theorem HasItem.wrap {t : EntityTable} {alnum : Nat → Bool} {x : Str} {i : Nat} {ls : List Html.Shown}
    (h : HasItem t alnum x i ls) (a b : Str) : HasItem t alnum (a ++ x ++ b) i ls := by
  obtain ⟨a', hd, b', h1, rfl⟩ := h
  exact ⟨a ++ a', hd, b' ++ b, h1, by simp only [List.append_assoc]⟩

theorem HasItem.ne {t : EntityTable} {alnum : Nat → Bool} {x : Str} {i : Nat} {ls : List Html.Shown}
    (h : HasItem t alnum x i ls) : x.isEmpty = false := by
  obtain ⟨a', hd, b', h1, rfl⟩ := h
  have e : lit "</ul></li>\n" ≠ [] := by decide
  cases hc : (a' ++ (lit "<li class=\"treebranch lazy\" id=\"" ++ dec i ++ lit "\">" ++ hd ++
      lit "<ul style=\"display:none\">\n" ++ lit "</ul></li>\n") ++ b').isEmpty with
  | false => rfl
  | true =>
    rw [List.isEmpty_iff] at hc
    simp only [List.append_eq_nil_iff] at hc
    exact absurd hc.1.2.2 e

theorem hasItem_html {t : EntityTable} {alnum : Nat → Bool} {i : Nat} {l : Str} {v : Val} {p : P} (hl : Html.Plain l)
    (h : HasId i l v p) (d : Nat) :
    HasItem t alnum (html t alnum true .none p d) i (headsP .same (.line l v)).flatten := by
  induction p with
  | seq p q ihp ihq =>
    rcases h with h | h
    · have := (ihp h).wrap [] (html t alnum true .none q d); simpa [html] using this
    · have := (ihq h).wrap (html t alnum true .none p d) []; simpa [html] using this
  | indent c hd b _ ih =>
    have hb := ih h
    simp only [html, hb.ne, Bool.false_eq_true, if_false, branchHtml]
    exact hb.wrap _ _
  | field c lb b ih =>
    have hb := ih h
    simp only [html, hb.ne, Bool.false_eq_true, if_false, branchHtml]
    exact hb.wrap _ _
  | id m hd b _ _ =>
    obtain ⟨rfl, rfl⟩ := h
    refine ⟨[], headHtml t alnum .none (.line l v), [], head_reads (p := .line l v) hl .none, ?_⟩
    have e1 : lit "<li class=\"treebranch lazy\" id=\"" = lit "<li class=\"treebranch" ++ lit " lazy" ++ lit "\" id=\"" := by
      decide
    rw [e1]
    simp [html, idHtml, List.append_assoc]
  | _ => exact h.elim

theorem hasId_seqs {i : Nat} {l : Str} {v : Val} {ps : List P} {p : P} (hp : p ∈ ps) (h : HasId i l v p) :
    HasId i l v (P.seqs ps) := by
  induction ps with
  | nil => cases hp
  | cons q ps ih =>
    rcases List.mem_cons.1 hp with rfl | hp
    · exact .inl h
    · exact .inr (ih hp)

theorem mapM_mem {f : α → Option β} {l : List α} {m : List β} (h : l.mapM f = some m) {x : α} (hx : x ∈ l) :
    ∃ y ∈ m, f x = some y := by
  induction l generalizing m with
  | nil => cases hx
  | cons a l ih =>
    rw [List.mapM_cons] at h
    simp only [Option.bind_eq_bind, Option.bind_eq_some_iff, Option.pure_def, Option.some.injEq] at h
    obtain ⟨b, hb, m', hm, rfl⟩ := h
    rcases List.mem_cons.1 hx with rfl | hx
    · exact ⟨b, by simp, hb⟩
    · obtain ⟨y, hy, he⟩ := ih hm hx
      exact ⟨y, by simp [hy], he⟩

theorem hasId_sortList {α γ : Type} {cmp : α → γ → α → γ → Res Ordering} {x : γ} {print : α → Option P} {l : List α} {p : P}
    (hp : sortListP cmp x print l = some p) {a : α} (ha : a ∈ l) {i : Nat} {lb : Str} {v : Val}
    (h : ∀ q, print a = some q → HasId i lb v q) : HasId i lb v p := by
  simp only [sortListP, Option.bind_eq_bind, Option.bind_eq_some_iff] at hp
  obtain ⟨l', hl', hp⟩ := hp
  unfold listP at hp
  rw [Option.map_eq_some_iff] at hp
  obtain ⟨m, hm, rfl⟩ := hp
  obtain ⟨q, hq, he⟩ := mapM_mem hm ((sortWith_perm hl').mem_iff.2 ha)
  exact hasId_seqs hq (h q he)

/-- The listing of the file shows the item with this id and header, in the unit `u`. -/
inductive ListedIn (o : Options) (s : FileSide) (u : CompUnit) : Nat → Val → Prop
  | type {ty v} : o.categoryType = true → ty ∈ u.types → WantedType s.hash u o false ty →
      headerVal s.toSide ty.kind = some v → ListedIn o s u (s.extra ty.offset).id v
  | function {f} : o.categoryFunction = true → f ∈ u.functions → WantedFunction o f → ListedIn o s u (s.fnId f) (fnName f)
  | var {x} : o.categoryVariable = true → x ∈ u.variables → WantedVariable o x →
      ListedIn o s u (s.varId x) (variableName s.toSide x)

theorem body_hasId {o : Options} {s : FileSide} {n : Nat} (hhtml : o.html = true) {u : CompUnit} {i : Nat} {v : Val}
    (hl : ListedIn o s u i v) {p : P} (h : unitBodyP o s n u = some p) : HasId i [] v p := by
  simp only [unitBodyP, hhtml, if_true, Option.bind_eq_bind, Option.bind_eq_some_iff, Option.some.injEq] at h
  obtain ⟨part, hpart, types, htypes, f, hf, is, hi, vars, hvars, rfl⟩ := h
  cases hl with
  | @type ty v hc hm hw hh =>
    simp only [unitTypesP, whenP, hc, if_true] at htypes
    refine .inr (.inl (hasId_sortList (a := ty) htypes (List.mem_filter.2 ⟨hm, (okType_iff s.hash u o false ty).2 hw⟩) fun q hq => ?_))
    simp only [typeP, hh, Option.bind_eq_bind, Option.bind_eq_some_iff, Option.some.injEq] at hq
    obtain ⟨_, rfl, b, _, rfl⟩ := hq
    exact .inl ⟨rfl, rfl⟩
  | @function g hc hm hw =>
    simp only [whenP, hc, if_true] at hf hi
    have hin : g ∈ filterFunctions u o := List.mem_filter.2 ⟨hm, (okFunction_iff o g).2 hw⟩
    have key : ∀ q, functionP o s.toFnSide u.dir n g = some q → HasId (s.fnId g) [] (fnName g) q := by
      intro q hq
      simp only [functionP, Option.bind_eq_bind, Option.bind_eq_some_iff, Option.some.injEq] at hq
      obtain ⟨b, _, rfl⟩ := hq
      exact .inl ⟨rfl, rfl⟩
    refine .inr (.inr (.inl ?_))
    rw [if_pos hc]
    cases hz : g.size.isSome with
    | true => exact .inl (hasId_sortList (a := g) hf (List.mem_filter.2 ⟨hin, hz⟩) key)
    | false => exact .inr (hasId_sortList (a := g) hi (List.mem_filter.2 ⟨hin, by simp [hz]⟩) key)
  | @var x hc hm hw =>
    simp only [unitVariablesP, whenP, hc, if_true] at hvars
    refine .inr (.inr (.inr (.inl (hasId_sortList (a := x) hvars (List.mem_filter.2 ⟨hm, (okVariable_iff o x).2 hw⟩) fun q hq => ?_))))
    simp only [Option.some.injEq] at hq
    subst hq
    exact .inl ⟨rfl, rfl⟩

/-- **C88 (links).** Following a link to a listed item that is not loaded yet works: the answer for the parent of the
id names the unit, the page has an item with that id, and opening it loads an item with the id of the link and the
header of the linked item. -/
theorem C88_link (hhttp : o.http = true) (hhtml : o.html = true) (hids : IdsOf s)
    (hrows : ∀ f p, s.insns f = some p → OnlyRows p) (hsmall : (assignIds s.file.units).ids.length ≤ 2 ^ 64)
    (hdist : s.file.units.Nodup) (path : Str) (hpath : IsRoot path) (page : Str)
    (hpage : answer t alnum fr o s n path = some page)
    (u : CompUnit) (hu : u ∈ s.file.units) (hw : WantedUnit o u) (i : Nat) (v : Val) (hl : ListedIn o s u i v) :
    loads t alnum fr o s n i (some (k "parent")) = dec (s.unitId u) ∧
    HasItem t alnum page (s.unitId u) (headsP .same (.line [] (unitName u))).flatten ∧
    HasItem t alnum (loads t alnum fr o s n (s.unitId u) none) i (headsP .same (.line [] v)).flatten := by
  have hS : Setup o s := ⟨hhttp, hhtml, hids, fun f p h => (hrows f p h).noIds, hsmall⟩
  have ha : answer t alnum fr o s n path = printPage t alnum fr o s n := by
    simp [answer, (C39_print s.file.units path).1 hpath]
  rw [ha, printPage, Option.map_eq_some_iff] at hpage
  obtain ⟨p, hp, rfl⟩ := hpage
  have hsite := site_file (t := t) (alnum := alnum) (fr := fr) hS hp
  simp only [fileP, Option.bind_eq_bind, Option.bind_eq_some_iff, Option.some.injEq] at hp
  obtain ⟨hd, hhd, us, hus, rfl⟩ := hp
  obtain ⟨iu, hiu, hstore⟩ := hids.unit u hu
  have huf : u ∈ filterUnits s.file.units o := List.mem_filter.2 ⟨hu, (okUnit_iff o u).2 hw⟩
  -- the body of the unit
  have hbody : ∃ b, unitBodyP o s n u = some b := by
    have hus' := hus
    simp only [unitsP, sortListP, Option.bind_eq_bind, Option.bind_eq_some_iff] at hus'
    obtain ⟨l', hl', hp'⟩ := hus'
    unfold listP at hp'
    rw [Option.map_eq_some_iff] at hp'
    obtain ⟨m, hm, _⟩ := hp'
    obtain ⟨q, _, he⟩ := mapM_mem hm ((sortWith_perm hl').mem_iff.2 huf)
    simp only [unitP, Option.bind_eq_bind, Option.bind_eq_some_iff] at he
    obtain ⟨b, hb, _⟩ := he
    exact ⟨b, hb⟩
  obtain ⟨b, hb⟩ := hbody
  refine ⟨?_, ?_, ?_⟩
  · -- the parent
    have key : ∃ x, ItemOf s.file.units x ∧ InUnit x iu ∧ x ≠ .unit iu ∧ i = (assignIds s.file.units).store x := by
      have same : ∀ {j}, s.file.units[j]? = some u → j = iu := by
        intro j hj
        obtain ⟨h1, h2⟩ := List.getElem?_eq_some_iff.1 hj
        obtain ⟨h3, h4⟩ := List.getElem?_eq_some_iff.1 hiu
        exact (List.getElem_inj hdist).1 (h2.trans h4.symm)
      cases hl with
      | type _ hm _ _ =>
        obtain ⟨a, j, h1, h2, h3⟩ := hids.type u hu _ hm
        have := same h1; subst this
        exact ⟨.type a j, .type h1 h2, .type, by simp, h3⟩
      | function _ hm _ =>
        obtain ⟨a, j, h1, h2, h3⟩ := hids.function u hu _ hm
        have := same h1; subst this
        exact ⟨.function a j, .function h1 h2, .function, by simp, h3⟩
      | var _ hm _ =>
        obtain ⟨a, j, h1, h2, h3⟩ := hids.var u hu _ hm
        have := same h1; subst this
        exact ⟨.var a j, .var h1 h2, .var, by simp, h3⟩
    obtain ⟨x, h1, h2, h3, rfl⟩ := key
    have hid : (assignIds s.file.units).store x < 2 ^ 64 := hS.id_small h1
    have hpar := (C37_parent s.file.units ((assignIds s.file.units).store x) (s.unitId u)).2
      ⟨x, iu, (C37_print_ids s.file.units).1 x h1, h2, h3, hstore⟩
    have := (C39_print s.file.units (idPath ((assignIds s.file.units).store x) (some (k "parent")))).2.2.1 _
      (idPath_some hid (by decide))
    rw [hpar] at this
    simp only [Option.map_some, Option.getD_some] at this
    simp [loads, answer, this]
  · have hf : fresh t alnum o (.seq hd us) = html t alnum true .none (.seq hd us) o.inlineDepth :=
      fresh_html hhttp hsite.flat
    rw [hf]
    refine HasItem.wrap (hasItem_html plain_nil
      (show HasId (s.unitId u) [] (unitName u) (.seq hd us) from .inr (hasId_sortList (a := u) hus huf fun q hq => ?_)) _) _ _
    simp only [unitP, hhtml, if_true, Option.bind_eq_bind, Option.bind_eq_some_iff, Option.some.injEq] at hq
    obtain ⟨b', _, rfl⟩ := hq
    exact ⟨rfl, rfl⟩
  · have hpi := (C37_print_id s.file.units none).1 iu u hiu
    have hs := site_unitBody (t := t) (alnum := alnum) (fr := fr) hS hu hb
    rw [hstore, loads_none (hS.id_small (.unit hiu)) hpi (p := b) (by exact hb), fresh_html hhttp (hs none).flat]
    exact hasItem_html plain_nil (body_hasId hhtml hl hb) _

end Verif.Web
