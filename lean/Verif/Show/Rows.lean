import Verif.Show.RowsSpec
import Verif.Show.FnInst
import Verif.Show.TypeRefProps
import Verif.Frame.Props
import Verif.Code.Annot
import Verif.Print.Props
/-!
# Which rows the listing of a function consists of
-/
namespace Verif.Show
open Verif.Print Verif.Item Verif.Namespace Verif.Types Verif.Opts Verif.Range Verif.Frame Verif.Merge

/-- The lines of a listing are these rows. -/
def RowsOf (http : Bool) (d : Nat) (p : P) (rows : List Row) : Prop :=
  ∀ i x, p.ls http i x d = rows.map (Row.line x i)

variable {http : Bool} {d : Nat}

theorem line_deeper (rows : List Row) (x : DiffPrefix) (i : Nat) :
    (rows.map Row.deeper).map (Row.line x i) = rows.map (Row.line x (i + 1)) := by
  rw [List.map_map]
  refine List.map_congr_left fun r _ => ?_
  simp only [Function.comp, Row.line, Row.deeper, Line.line.injEq, true_and, and_true]
  omega

theorem rowsOf_skip : RowsOf http d .skip [] := fun _ _ => rfl

theorem rowsOf_seq {p q : P} {r s : List Row} (hp : RowsOf http d p r) (hq : RowsOf http d q s) :
    RowsOf http d (.seq p q) (r ++ s) := by
  intro i x
  simp only [P.ls, hp i x, hq i x, List.map_append]

theorem rowsOf_line (L : Str) (v : Val) : RowsOf http d (.line L v) (oneRow L v.text') := by
  intro i x
  simp only [P.ls, oneRow]
  split <;> simp [Row.line]

theorem rowsOf_line' {L t : Str} {v : Val} (h : v.text' = t) : RowsOf http d (.line L v) (oneRow L t) :=
  h ▸ rowsOf_line L v

theorem rowsOf_field {p : P} {r : List Row} (c : Bool) (L : Str) (hp : RowsOf http d p r) :
    RowsOf http d (.field c L p) (under L r) := by
  intro i x
  simp only [P.ls, under, hp (i + 1) x, List.map_eq_nil_iff]
  split
  · rfl
  · rw [List.map_cons, line_deeper]; rfl

theorem rowsOf_indent {p : P} {r : List Row} {t : Str} {v : Val} (c : Bool) (h : v.text' = t) (hp : RowsOf http d p r) :
    RowsOf http d (.indent c (.line [] v) p) (entry t r) := by
  intro i x
  have := rowsOf_line' (http := http) (d := d) (L := []) h i x
  simp only [P.ls] at this ⊢
  rw [this, hp (i + 1) x, entry, List.map_append, line_deeper]

theorem rowsOf_id {p : P} {r : List Row} {t : Str} {v : Val} (n : Nat) (h : v.text' = t) (hp : RowsOf http d p r) :
    RowsOf http d (.id n (.line [] v) p) (entry t r) := rowsOf_indent (c := false) h hp

theorem rowsOf_seqs : ∀ {ps : List P} {rs : List (List Row)}, All2 (RowsOf http d) ps rs →
    RowsOf http d (.seqs ps) rs.flatten
  | _, _, .nil => rowsOf_skip
  | _, _, .cons h t => rowsOf_seq h (rowsOf_seqs t)

theorem rowsOf_map {α : Type} (f : α → P) (g : α → List Row) (l : List α) (h : ∀ a ∈ l, RowsOf http d (f a) (g a)) :
    RowsOf http d (.seqs (l.map f)) (l.flatMap g) := by
  induction l with
  | nil => exact rowsOf_skip
  | cons a l ih =>
    exact rowsOf_seq (h a (List.mem_cons_self ..)) (ih fun b hb => h b (List.mem_cons_of_mem _ hb))

theorem rowsOf_if {p : P} {r : List Row} (b : Bool) (h : b = true → RowsOf http d p r) :
    RowsOf http d (if b then p else .skip) (shownIf b r) := by
  cases b
  · exact rowsOf_skip
  · exact h rfl

theorem rowsOf_leftOut {p : P} {r : List Row} (b : Bool) (h : RowsOf http d p r) :
    RowsOf http d (leftOut b p) (shownIf (!b) r) := by
  cases b
  · exact h
  · exact rowsOf_skip

theorem rowsOf_inline {p : P} {r : List Row} (h : d ≠ 0 → RowsOf http (d - 1) p r) :
    RowsOf http d (.inline p) (shownIf (d != 0) r) := by
  intro i x
  simp only [P.ls]
  by_cases hd : d = 0
  · simp [hd, shownIf]
  · simp only [hd, if_false]
    rw [h hd i x]
    simp [shownIf, hd]

theorem rowsOf_when {p : Option P} {q : P} {r : List Row} (b : Bool) (hq : whenP b p = some q)
    (h : b = true → ∀ q, p = some q → RowsOf http d q r) : RowsOf http d q (shownIf b r) := by
  cases b
  · cases hq; exact rowsOf_skip
  · exact h rfl q hq

/-- Rows of a list, each of which has rows described by `R`. -/
theorem rowsOf_list {α : Type} {R : α → List Row → Prop} {f : α → Option P} : ∀ {l : List α} {p : P}, listP f l = some p →
    (∀ a ∈ l, ∀ q, f a = some q → ∃ rows, R a rows ∧ RowsOf http d q rows) →
    ∃ rows, Each R l rows ∧ RowsOf http d p rows := by
  intro l
  induction l with
  | nil => intro p hp _; cases hp; exact ⟨[], ⟨[], .nil, rfl⟩, rowsOf_skip⟩
  | cons a l ih =>
    intro p hp h
    simp only [listP, Option.map_eq_some_iff, List.mapM_cons, Option.bind_eq_bind, Option.pure_def,
      Option.bind_eq_some_iff, Option.some.injEq] at hp
    obtain ⟨_, ⟨q, hq, qs, hqs, rfl⟩, rfl⟩ := hp
    obtain ⟨r, hr, hr'⟩ := h a (List.mem_cons_self ..) q hq
    obtain ⟨rs, ⟨ps, hps, rfl⟩, hrs'⟩ := ih (p := P.seqs qs) (by simp [listP, hqs])
      fun b hb => h b (List.mem_cons_of_mem _ hb)
    exact ⟨r ++ ps.flatten, ⟨r :: ps, .cons hr hps, rfl⟩, rowsOf_seq hr' hrs'⟩

/-- The same for a list whose printing cannot fail. -/
theorem rowsOf_seqs_map {α : Type} {R : α → List Row → Prop} {f : α → P} (l : List α)
    (h : ∀ a ∈ l, ∃ rows, R a rows ∧ RowsOf http d (f a) rows) :
    ∃ rows, Each R l rows ∧ RowsOf http d (.seqs (l.map f)) rows := by
  induction l with
  | nil => exact ⟨[], ⟨[], .nil, rfl⟩, rowsOf_skip⟩
  | cons a l ih =>
    obtain ⟨r, hr, hr'⟩ := h a (List.mem_cons_self ..)
    obtain ⟨rs, ⟨ps, hps, rfl⟩, hrs'⟩ := ih fun b hb => h b (List.mem_cons_of_mem _ hb)
    exact ⟨r ++ ps.flatten, ⟨r :: ps, .cons hr hps, rfl⟩, rowsOf_seq hr' hrs'⟩

/-- The same when the rows are a function of the element. -/
theorem rowsOf_listP {α : Type} {f : α → Option P} {g : α → List Row} {l : List α} {p : P} (hp : listP f l = some p)
    (h : ∀ a ∈ l, ∀ q, f a = some q → RowsOf http d q (g a)) : RowsOf http d p (l.flatMap g) := by
  obtain ⟨rows, ⟨ps, h1, rfl⟩, h2⟩ := rowsOf_list (R := fun a rows => rows = g a) hp
    fun a ha q hq => ⟨_, rfl, h a ha q hq⟩
  have : ps = l.map g := by
    clear h hp h2
    induction h1 with
    | nil => rfl
    | cons h _ ih => rw [h, ih]; rfl
  rw [List.flatMap_def, ← this]
  exact h2

/-! ## Texts -/

theorem text_qualified (f : Function) (id : Nat) : (fnRef id f).text' = titled f.ns f.name := by
  unfold fnRef qualified titled
  have := text_nsOpt f.ns
  unfold nsOpt at this
  simp only [Val.text']
  rw [← this]
  rfl

theorem bracketed_eq (n : Option Nat) : bracketed n = sizeBracket n := by cases n <;> rfl

theorem regVal_eq (s : FnSide) (r : Nat) : Code.regVal s.regName r = registerText s r := by
  unfold Code.regVal registerText
  cases s.regName r <;> rfl

theorem rangeText_eq (r : Range) : rangeText r = spanText r := by
  simp only [rangeText, spanText, at0x, gt_iff_lt]
  split <;> simp [k, Str.ofString]

theorem rangeSizeText_eq (r : Range) : rangeSizeText r = spanSizeText r := by
  unfold rangeSizeText spanSizeText spanText
  simp only [at0x, gt_iff_lt]
  split <;> simp [k, Str.ofString]

theorem offsetText_eq {o : Int} {t : Str} (h : offsetText o = some t) : t = signedHex o := by
  unfold offsetText at h
  unfold signedHex
  split at h
  · rename_i h1
    split at h
    · cases h
      have : o ≠ 0 := by omega
      simp only [this, if_false, h1, if_true]
      congr 2; omega
    · cases h
  · split at h
    · cases h
      have h1 : o ≠ 0 := by omega
      have h2 : ¬ o < 0 := by omega
      simp only [h1, h2, if_false]
      congr 2; omega
    · cases h
      have : o = 0 := by omega
      simp [this]

theorem locationVal_text {s : FnSide} {l : Location} {v : Val} (h : locationVal s l = some v) : v.text' = placeText s l := by
  cases l <;> simp only [locationVal, Option.some.injEq, Option.map_eq_some_iff] at h
  case empty => cases h; rfl
  case literal => cases h; rfl
  case register => cases h; exact regVal_eq ..
  case registerOffset =>
    obtain ⟨t, ht, rfl⟩ := h
    simp only [Val.text', placeText, regVal_eq, offsetText_eq ht]
  case frameOffset => obtain ⟨t, ht, rfl⟩ := h; simp only [Val.text', placeText, offsetText_eq ht]
  case cfaOffset => obtain ⟨t, ht, rfl⟩ := h; simp only [Val.text', placeText, offsetText_eq ht]
  case address a => cases h; cases a <;> rfl
  case tlsOffset => cases h; rfl
  case other => cases h; rfl

theorem addressVal_text (a : Option Nat) : (addressVal a).text' = (a.map at0x).getD [] := by cases a <;> rfl

/-! ## Parameters and variables -/

theorem mem_regs (locs : List (Range × Piece)) (r : Nat) : r ∈ (registers locs).map (·.2) ↔ InRegister locs r := by
  unfold registers InRegister
  simp only [List.mem_map, List.mem_filterMap, Prod.exists]
  constructor
  · rintro ⟨rg, r', ⟨a, p, hm, hp⟩, rfl⟩
    split at hp
    · cases hp
    · rename_i hv
      split at hp <;> simp only [Option.some.injEq, Prod.mk.injEq, reduceCtorEq] at hp
      rename_i hl
      exact ⟨a, p, hm, by simpa using hv, by rw [hl, hp.2]⟩
  · rintro ⟨a, p, hm, hv, hl⟩
    exact ⟨a, r, ⟨a, p, hm, by simp [hv, hl]⟩, rfl⟩

theorem regsP_rows (s : FnSide) (locs : List (Range × Piece)) :
    ∃ rows, RegisterRows s locs rows ∧ RowsOf http d (regsP s ((registers locs).map (·.2))) rows := by
  refine ⟨_, ⟨sortDedup compare ((registers locs).map (·.2)), fun r => ?_, ?_, rfl⟩, ?_⟩
  · rw [mem_sortDedup (cmp := compare), mem_regs]
  · exact (sortDedup_strict (cmp := compare) _).imp fun h => Nat.compare_eq_lt.1 h
  · exact rowsOf_field _ _ (rowsOf_map _ _ _ fun r _ => rowsOf_line' (regVal_eq s r))

theorem all2_map {α β : Type} {R : α → β → Prop} (f : α → β) (l : List α) (h : ∀ a ∈ l, R a (f a)) : All2 R l (l.map f) := by
  induction l with
  | nil => exact .nil
  | cons a l ih => exact .cons (h a (List.mem_cons_self ..)) (ih fun b hb => h b (List.mem_cons_of_mem _ hb))

theorem mapM_all2 {α β : Type} {f : α → Option β} : ∀ {l : List α} {m : List β}, l.mapM f = some m →
    All2 (fun a b => f a = some b) l m := by
  intro l
  induction l with
  | nil => intro m h; cases h; exact .nil
  | cons a l ih =>
    intro m h
    simp only [List.mapM_cons, Option.bind_eq_bind, Option.pure_def, Option.bind_eq_some_iff, Option.some.injEq] at h
    obtain ⟨b, hb, bs, hbs, rfl⟩ := h
    exact .cons hb (ih hbs)

theorem frameP_rows (locs : List (Range × Piece)) (ls : List FrameLocation) (h : ∀ l, l ∈ ls ↔ StoredAt locs l.offset l.bitSize) :
    ∃ rows, FrameRows locs rows ∧ RowsOf http d (printLocs ls) rows := by
  have mem : ∀ l, l ∈ sortDedup cmpLoc ls ↔ StoredAt locs l.offset l.bitSize := fun l => by
    rw [mem_sortDedup (cmp := cmpLoc), h]
  have srt := (sortDedup_strict (cmp := cmpLoc) ls).imp cmpLoc_before
  have wr : All2 Written (sortDedup cmpLoc ls) ((sortDedup cmpLoc ls).map fun l => (locVal l).text') :=
    all2_map _ _ fun l _ => locVal_written l
  unfold printLocs
  generalize sortDedup cmpLoc ls = us at mem srt wr
  match us, mem, srt, wr with
  | [], mem, srt, wr => exact ⟨[], ⟨[], [], mem, srt, wr, .inl ⟨by simp, rfl⟩⟩, rowsOf_skip⟩
  | [l], mem, srt, wr =>
    refine ⟨_, ⟨[l], _, mem, srt, wr, .inl ⟨by simp, rfl⟩⟩, ?_⟩
    have := rowsOf_line (http := http) (d := d) stackFrame (locVal l)
    simpa [stackFrame, k] using this
  | a :: b :: us, mem, srt, wr =>
    refine ⟨_, ⟨a :: b :: us, _, mem, srt, wr, .inr ⟨by simp, rfl⟩⟩, ?_⟩
    refine rowsOf_field _ _ ?_
    rw [List.flatMap_map]
    exact rowsOf_map _ _ _ fun l _ => rowsOf_line _ _

theorem paramP_rows (o : Options) (s : FnSide) (p : Parameter) :
    ∃ rows, ParameterRows o s p rows ∧ RowsOf http d (paramP o s p) rows := by
  obtain ⟨r, hr, hr'⟩ := regsP_rows (http := http) (d := d) s p.locations
  obtain ⟨f, hf, hf'⟩ := frameP_rows (http := http) (d := d) p.locations ((frameLocations p.locations).map (·.2)) (by
    intro l
    rw [← mem_frameLocations p.locations l.offset l.bitSize]
    simp only [List.mem_map, Prod.exists]
    constructor
    · rintro ⟨a, b, h, rfl⟩; exact ⟨a, h⟩
    · rintro ⟨a, h⟩; exact ⟨a, l, h, rfl⟩)
  refine ⟨_, ⟨r, f, hr, hf, rfl⟩, ?_⟩
  refine rowsOf_indent _ ?_ (rowsOf_if _ fun _ => rowsOf_seq hr' hf')
  unfold paramVal Code.paramDecl Parameter.byteSize
  cases p.name <;> simp [vals, Val.text', bracketed_eq, k]

theorem localP_rows (m : Hidden) (o : Options) (s : FnSide) (v : LocalVariable) :
    ∃ rows, LocalRows m o s v rows ∧ RowsOf http d (localHiding m o s v) rows := by
  obtain ⟨r, hr, hr'⟩ := regsP_rows (http := http) (d := d) s v.locations
  obtain ⟨f, hf, hf'⟩ := frameP_rows (http := http) (d := d) v.locations (localFrameLocations v.locations) (by
    intro l
    exact mem_localFrameLocations v.locations l.offset l.bitSize)
  refine ⟨_, ⟨r, f, hr, hf, rfl⟩, ?_⟩
  refine rowsOf_indent _ ?_ (rowsOf_if _ fun _ => ?_)
  · unfold localVal Code.varDecl LocalVariable.byteSize
    cases v.size <;> simp [vals, Val.text', bracketed_eq, k, anon]
  · have := rowsOf_seqs (http := http) (d := d)
      (.cons (rowsOf_leftOut m.variableAddress (rowsOf_line' (L := k "address") (addressVal_text v.address)))
        (.cons hr' (.cons hf' .nil)))
    simpa using this

theorem localsP_rows (m : Hidden) (o : Options) (s : FnSide) (vs : List LocalVariable) :
    ∃ rows, LocalsRows m o s vs rows ∧ RowsOf http d (localsHiding m o s vs) rows := by
  obtain ⟨rows, h1, h2⟩ := rowsOf_seqs_map (http := http) (d := d) (R := LocalRows m o s) (f := localHiding m o s)
    (if m.byName then sortLocals vs else vs) fun v _ => localP_rows m o s v
  refine ⟨rows, ⟨_, ⟨?_, ?_, ?_⟩, h1⟩, h2⟩
  · split
    · exact stableSort_perm _ vs
    · exact .refl _
  · intro h; simp [h]
  · intro h
    simp only [h, if_true, sortLocals]
    have tp := totalPreorder_cmp (cmp := compare (α := Option Str))
    refine (stableSort_sorted (le := fun x y : LocalVariable => compare x.name y.name != .gt)
      ⟨fun a b => tp.total a.name b.name, fun a b c => tp.trans a.name b.name c.name⟩ vs).imp ?_
    intro a b h
    simpa using h

theorem paramsP_rows (o : Options) (s : FnSide) (ps : List Parameter) :
    ∃ rows, Each (ParameterRows o s) ps rows ∧ RowsOf http d (paramsP o s ps) rows :=
  rowsOf_seqs_map ps fun p _ => paramP_rows o s p

/-! ## Calls -/

theorem piecesP_rows {s : FnSide} {ps : List Piece} {p : P} (h : piecesP s ps = some p) :
    RowsOf http d p (placeRows s ps) := by
  have := rowsOf_listP (http := http) (d := d) (g := fun l => oneRow [] (placeText s l)) h fun l _ q hq => by
    simp only [locationP, Option.map_eq_some_iff] at hq
    obtain ⟨v, hv, rfl⟩ := hq
    exact rowsOf_line' (locationVal_text hv)
  rw [List.flatMap_map] at this
  exact this

theorem callParamP_rows {o : Options} {s : FnSide} {p : CallParameter} {q : P} (h : callParamP o s p = some q) :
    RowsOf http d q (passedRows o s p) := by
  simp only [callParamP, Option.bind_eq_bind, Option.bind_eq_some_iff, Option.some.injEq] at h
  obtain ⟨b, hb, rfl⟩ := h
  refine rowsOf_indent _ ?_ (rowsOf_when _ hb ?_)
  · unfold callParamVal passedText
    cases p.ty with
    | none => simp [vals, Val.text']
    | some t =>
      cases h : fromOffset s.hash t <;> simp [vals, Val.text', h]
  · rintro - q hq
    simp only [Option.bind_eq_some_iff, Option.some.injEq] at hq
    obtain ⟨l, hl, v, hv, dl, hdl, dv, hdv, rfl⟩ := hq
    have := rowsOf_seqs (http := http) (d := d)
      (.cons (rowsOf_field false (k "location") (piecesP_rows hl))
        (.cons (rowsOf_field false (k "value") (piecesP_rows hv))
          (.cons (rowsOf_field false (k "data_location") (piecesP_rows hdl))
            (.cons (rowsOf_field false (k "data_value_location") (piecesP_rows hdv)) .nil))))
    simpa using this

theorem originVal_text (s : FnSide) (c : Option CallOrigin) : (originVal s c).text' = targetText c := by
  unfold originVal targetText
  split <;> simp only [Val.text', text_qualified, calledText] <;> rfl

theorem callSiteP_rows {o : Options} {s : FnSide} {dir : Option Str} {c : FunctionCall} {q : P}
    (h : callSiteP o s dir c = some q) : RowsOf http d q (siteRows o s dir c) := by
  simp only [callSiteP, Option.bind_eq_bind, Option.bind_eq_some_iff, Option.some.injEq] at h
  obtain ⟨t, ht, ps, hps, rfl⟩ := h
  refine rowsOf_indent _ ?_ ?_
  · unfold callHeader callPlace kindText
    cases c.kind <;> cases c.callAddress <;> cases c.returnAddress <;>
      simp [vals, Val.text', originVal_text, at0x]
  · have := rowsOf_seqs (http := http) (d := d)
      (.cons (rowsOf_line' (L := k "return address") (addressVal_text c.returnAddress))
        (.cons (rowsOf_when (r := under (k "target") (placeRows s c.target)) o.printVariableLocations ht (by
            rintro - q hq
            simp only [Option.map_eq_some_iff] at hq
            obtain ⟨p, hp, rfl⟩ := hq
            exact rowsOf_field _ _ (piecesP_rows hp)))
          (.cons (a := sourceP o dir c.source) (rowsOf_if o.printSource fun _ => rowsOf_line (k "source") (sourceVal dir c.source))
            (.cons (rowsOf_field false (k "parameters") (rowsOf_listP hps fun a _ q hq => callParamP_rows hq)) .nil))))
    simpa [sourceVal, Val.text'] using this

/-! ## The stack frame -/

theorem stack_rows {s : FnSide} {f : FunctionDetails} {p : P} (h : listing s.tsz s.tref f = some p) :
    ∃ rows, StackRows s f rows ∧ RowsOf http d p rows := by
  obtain ⟨l, hl, h0, hn, hls⟩ := C40_lines s.tsz s.tref f p h
  obtain ⟨h1, h2, h3, -⟩ := C40_listed s.tsz f l hl
  refine ⟨_, ⟨l, h1, h2, h3, h0, hn, rfl⟩, fun i x => ?_⟩
  rw [← P.lines_eq, hls]
  rw [List.map_flatMap]
  congr 1
  funext v
  have e : frameEntryText s v.2 ≠ [] := by simp [frameEntryText, k, Str.ofString]
  rw [List.map_append]
  congr 1
  · cases v.1 with
    | none => rfl
    | some o =>
      simp only
      split
      · have : decInt o ++ k "[" ++ decInt (v.2.offset - o) ++ k "]\t<unknown>" ≠ [] := by simp [k, Str.ofString]
        simp only [oneRow, this, if_false, List.map_cons, List.map_nil, unknownLine, Row.line]
        simp [k, Str.ofString]
      · rfl
  · simp only [oneRow, e, if_false, List.map_cons, List.map_nil, entryLine, Row.line]
    unfold frameEntryText sizeBracket entryVal
    cases v.2.size <;> simp [Val.text', k, Str.ofString, anon]

/-! ## Inlined functions -/

theorem inlined_text (s : FnSide) (f : InlinedFunction) :
    (inlinedVal s f).text' = sizeBracket f.size ++ k "\t" ++ ((s.fnAt f.origin).map calledText).getD (k "<anon>") := by
  unfold inlinedVal
  cases s.fnAt f.origin <;> simp [vals, Val.text', bracketed_eq, text_qualified, calledText, anon, k]

theorem inlinedP_rows (m : Hidden) (o : Options) (s : FnSide) (dir : Option Str) :
    ∀ (n : Nat) (d : Nat) (f : InlinedFunction) (p : P), inlinedHiding m o s dir n f = some p →
      ∃ rows, InlinedRows m o s dir d f rows ∧ RowsOf http d p rows := by
  intro n
  induction n with
  | zero => intro d f p h; cases h
  | succ n ih =>
    intro d f p h
    simp only [inlinedHiding, Option.bind_eq_bind, Option.bind_eq_some_iff, Option.some.injEq] at h
    obtain ⟨cs, hcs, inl, hinl, rfl⟩ := h
    obtain ⟨ps, hps, hps'⟩ := paramsP_rows (http := http) (d := d) o s f.parameters
    obtain ⟨vs, hvs, hvs'⟩ := localsP_rows (http := http) (d := d) m o s f.variables
    have hs := rowsOf_if (http := http) (d := d) o.printSource fun _ => rowsOf_line (k "call source") (sourceVal dir f.callSource)
    have hp := rowsOf_if (http := http) (d := d) o.printInlinedFunctionParameters fun _ => rowsOf_field false (k "parameters") hps'
    have hv := rowsOf_if (http := http) (d := d) o.printFunctionVariables fun _ => rowsOf_field true (k "variables") hvs'
    have hc := rowsOf_when (http := http) (d := d) (r := under (k "call sites") (f.calls.flatMap (siteRows o s dir)))
      o.printFunctionCalls hcs (by
        rintro - q hq
        simp only [Option.map_eq_some_iff] at hq
        obtain ⟨p, hp, rfl⟩ := hq
        exact rowsOf_field _ _ (rowsOf_listP hp fun a _ q hq => callSiteP_rows hq))
    cases d with
    | zero =>
      refine ⟨_, ⟨ps, vs, hps, hvs, rfl⟩, rowsOf_indent _ (inlined_text s f) ?_⟩
      have := rowsOf_seqs (.cons hs (.cons hp (.cons hv (.cons hc (.cons (rowsOf_inline (p := inl) (r := []) (fun h => absurd rfl h)) .nil)))))
      simpa [sourceVal, Val.text', shownIf] using this
    | succ d =>
      obtain ⟨is, his, his'⟩ := rowsOf_list (http := http) (d := d) (R := InlinedRows m o s dir d) hinl
        fun a _ q hq => ih d a q hq
      refine ⟨_, ⟨ps, vs, is, hps, hvs, his, rfl⟩, rowsOf_indent _ (inlined_text s f) ?_⟩
      have := rowsOf_seqs (.cons hs (.cons hp (.cons hv (.cons hc (.cons (rowsOf_inline (d := d + 1) (p := inl) (r := is) (fun _ => his')) .nil)))))
      simpa [sourceVal, Val.text', shownIf] using this

/-! ## Functions -/

theorem rangesP_rows (rs : List Range) : RowsOf http d (rangesP rs) (addressRows rs) := by
  unfold rangesP addressRows
  split
  · exact rowsOf_field _ _ (rowsOf_map _ _ _ fun r _ => rowsOf_line' (rangeSizeText_eq r))
  · rename_i h
    match rs, h with
    | [], _ => simpa [rangeVal, Val.text', oneRow] using rowsOf_line (http := http) (d := d) (k "address") .nil
    | [r], _ =>
      have := rowsOf_line (http := http) (d := d) (k "address") (rangeVal (some r))
      simpa [rangeVal, Val.text', rangeText_eq] using this
    | _ :: _ :: _, h => simp at h

theorem return_text (s : FnSide) (t : TypeOffset) : (returnVal s.toSide t).text' = returnText s t := by
  unfold returnVal returnText
  split
  · rfl
  · simp [vals, Val.text', bracketed_eq]

theorem yes_row (L : Str) (b : Bool) : RowsOf http d (.line L (yesVal b)) (shownIf b (oneRow L (k "yes"))) := by
  cases b
  · exact rowsOf_line' rfl
  · exact rowsOf_line' rfl

theorem fn_text (f : Function) : (fnName f).text' = k "fn " ++ titled f.ns f.name := by
  simp [fnName, vals, Val.text', text_nsOpt, titled, anon, k]

/-- What `functionHiding` writes for the instructions. -/
def insnsPart (m : Hidden) (o : Options) (s : FnSide) (f : Function) : Option P :=
  whenP (!m.instructions && o.printFunctionInstructions && !f.ranges.isEmpty)
    ((s.insns f).map (.fieldDetail (k "code") (k "instructions")))

theorem functionP_rows {m : Hidden} {o : Options} {s : FnSide} {dir : Option Str} {n : Nat} {f : Function} {p : P}
    (h : functionHiding m o s dir n f = some p) :
    ∃ rows q, FunctionRows m o s dir d f rows ∧ insnsPart m o s f = some q ∧
      ∀ i x, p.ls http i x d = rows.map (Row.line x i) ++ q.ls http (i + 1) x d ++ [.brk] := by
  simp only [functionHiding, fnBodyHiding, Option.bind_eq_bind, Option.bind_eq_some_iff, Option.some.injEq] at h
  obtain ⟨b, ⟨fr, hfr, inl, hinl, st, hst, cs, hcs, ins, hins, rfl⟩, rfl⟩ := h
  obtain ⟨ps, hps, hps'⟩ := paramsP_rows (http := http) (d := d) o s (s.details f).parameters
  obtain ⟨vs, hvs, hvs'⟩ := localsP_rows (http := http) (d := d) m o s (s.details f).variables
  have hframe : ∃ rows, (o.printFunctionStackFrame = true → StackRows s (s.details f) rows) ∧
      RowsOf http d fr (shownIf o.printFunctionStackFrame (under (k "stack frame") rows)) := by
    cases ho : o.printFunctionStackFrame with
    | false => rw [ho] at hfr; cases hfr; exact ⟨[], by simp, rowsOf_skip⟩
    | true =>
      rw [ho] at hfr
      simp only [whenP, if_true, Option.map_eq_some_iff] at hfr
      obtain ⟨p, hp, rfl⟩ := hfr
      obtain ⟨rows, h1, h2⟩ := stack_rows (http := http) (d := d) hp
      exact ⟨rows, fun _ => h1, rowsOf_field _ _ h2⟩
  obtain ⟨frame, hfr1, hfr2⟩ := hframe
  have hin : ∃ rows, (d ≠ 0 → Each (InlinedRows m o s dir (d - 1)) (s.details f).inlined rows) ∧
      (d ≠ 0 → RowsOf http (d - 1) (.field true (k "inlined functions") inl) (under (k "inlined functions") rows)) := by
    obtain ⟨rows, h1, h2⟩ := rowsOf_list (http := http) (d := d - 1) (R := InlinedRows m o s dir (d - 1)) hinl
      fun a _ q hq => inlinedP_rows m o s dir n (d - 1) a q hq
    exact ⟨rows, fun _ => h1, fun _ => rowsOf_field _ _ h2⟩
  obtain ⟨is, his1, his2⟩ := hin
  have hsites := rowsOf_when (http := http) (d := d) (r := under (k "call sites") ((s.details f).calls.flatMap (siteRows o s dir)))
      o.printFunctionCalls hst (by
        rintro - q hq
        simp only [Option.map_eq_some_iff] at hq
        obtain ⟨p, hp, rfl⟩ := hq
        exact rowsOf_field _ _ (rowsOf_listP hp fun a _ q hq => callSiteP_rows hq))
  have hcalls : ∃ calls, (o.printFunctionCalls = true → All2 (fun r l => s.callsOf r = some l) f.ranges calls) ∧
      RowsOf http d cs (shownIf o.printFunctionCalls (under (k "calls") (calls.flatten.flatMap fun c => oneRow [] (foundText o s c)))) := by
    cases ho : o.printFunctionCalls with
    | false => rw [ho] at hcs; cases hcs; exact ⟨[], by simp, rowsOf_skip⟩
    | true =>
      rw [ho] at hcs
      simp only [whenP, if_true, Option.map_eq_some_iff, fnCalls] at hcs
      obtain ⟨l, ⟨ls, hls, rfl⟩, rfl⟩ := hcs
      refine ⟨ls, fun _ => mapM_all2 hls, rowsOf_field _ _ (rowsOf_map _ _ _ fun c _ => rowsOf_line' ?_)⟩
      unfold callVal foundText
      cases h1 : s.fnByAddress c.2 <;> cases h2 : s.plt c.2 <;> cases o.ignoreFunctionAddress <;>
        simp [Val.text', text_qualified, calledText, at0x, k, Str.ofString]
  obtain ⟨calls, hc1, hc2⟩ := hcalls
  have hsz : RowsOf http d (.line (k "size") (sizeVal f.size)) (oneRow (k "size") ((f.size.map dec).getD [])) :=
    rowsOf_line' (by cases f.size <;> rfl)
  have hstr : ∀ L (v : Option Str), RowsOf http d (.line L (strVal v)) (oneRow L (v.getD [])) := fun L v =>
    rowsOf_line' (by cases v <;> rfl)
  have hsrc : RowsOf http d (sourceP o dir f.source) (shownIf o.printSource (oneRow (k "source") (f.source.print dir))) :=
    rowsOf_if _ fun _ => rowsOf_line _ _
  have body := rowsOf_seqs (.cons (rowsOf_leftOut m.linkageName (hstr (k "linkage name") f.linkageName))
    (.cons (rowsOf_leftOut m.symbolName (hstr (k "symbol name") f.symbolName)) (.cons hsrc
      (.cons (rowsOf_leftOut m.address (rangesP_rows f.ranges)) (.cons (rowsOf_leftOut m.size hsz)
        (.cons (rowsOf_leftOut m.inline (yes_row (k "inline") f.inline)) (.cons (yes_row (k "declaration") f.declaration)
          (.cons (rowsOf_field false (k "return type") (rowsOf_line' (L := []) (return_text s f.returnType)))
            (.cons (rowsOf_field false (k "parameters") hps')
              (.cons (rowsOf_if o.printFunctionVariables fun _ => rowsOf_field true (k "variables") hvs')
                (.cons hfr2 (.cons (rowsOf_inline his2) (.cons hsites (.cons hc2 .nil))))))))))))))
  refine ⟨_, leftOut m.instructions ins, ⟨ps, vs, frame, is, calls, hps, hvs, hfr1, his1, hc1, rfl⟩, ?_, fun i x => ?_⟩
  · unfold insnsPart
    cases hm : m.instructions with
    | true => rfl
    | false =>
      simp only [Bool.not_false, Bool.true_and, leftOut, Bool.false_eq_true, if_false]
      rw [← hins]
      cases hr : f.ranges.isEmpty with
      | true => simp [whenP]
      | false =>
        have : f.ranges ≠ [] := by simpa using hr
        simp [instructionsP, this]
  · have hb := rowsOf_id (s.fnId f) (fn_text f) body i x
    simp only [P.ls, P.ls_seqs, List.flatMap_cons, List.flatMap_nil, List.append_nil] at hb ⊢
    simp only [← List.append_assoc] at hb ⊢
    rw [hb]
    congr 3
    cases m.inline <;> simp [shownIf]

end Verif.Show
