import Verif.Show.FnSelf
/-!
# C81: the listing and the diff of a function
-/
namespace Verif.Show
open Verif.Print Verif.Item Verif.Namespace Verif.Types Verif.Path Verif.Opts Verif.Merge Verif.Range
  Verif.Frame

/-! ## A function against itself -/

/-- A function compared with itself, as it stands in the same file: no difference is reported, and
inside the hidden-when-unchanged list of functions nothing is printed. No line is marked, unless
instructions are listed: they are not compared, and always shown as deleted and added
(`C81_instructions_witness`). -/
theorem C81_self (o : Options) (s : FnSide) (same : Ty → Ty → Bool) (heap : Heap)
    (hs : ∀ o t, fromOffset s.hash o = some t → same t t = true) (uid : Nat) (dir : Option Str) (n : Nat)
    (f : Function) (e : D) (he : functionD o ⟨s, s, same, heap⟩ uid dir dir n f f = some e) (po : Print.Opts)
    (i : Nat) (x : DiffPrefix) (d : Nat) :
    e.flag po i x d = false ∧ (po.html = false → (D.printIfDiff e).lines po i x d = []) ∧
      (po.html = false → o.printFunctionInstructions = false → ∀ l ∈ e.lines po i x d, l.marked = false) := by
  generalize hc : (⟨s, s, same, heap⟩ : FnPair) = c at he
  have hab : c.a = c.b := by rw [← hc]
  have hsame : ∀ o t, fromOffset c.b.hash o = some t → c.same t t = true := by rw [← hc]; exact hs
  simp only [functionD, Option.bind_eq_bind, Option.bind_eq_some_iff, Option.some.injEq] at he
  obtain ⟨b, hb, rfl⟩ := he
  simp only [fnBodyD, Option.bind_eq_bind, Option.bind_eq_some_iff, Option.some.injEq, hab] at hb
  obtain ⟨ps, hps, vs, hvs, fr, hfr, inl, hinl, st, hst, cs, hcs, is, his, rfl⟩ := hb
  have h1 := paramsD_self hab hsame o _ ps hps
  have h2 := whenD_same (mapField_same _ _ (localsD_self hab hsame o _)) vs hvs
  have h3 := whenD_same (mapField_same _ _ (frameD_self hab _)) fr hfr
  have h4 : inl.Same := by
    have := inlinedD_self hab hsame o dir n (c.b.details f).inlined
    rw [hab] at this
    exact this inl hinl
  have h5 := whenD_same (mapField_same _ _ (callSitesD_self hab o dir _)) st hst
  have h6 : cs.Same := by
    refine whenD_same (fun e he => ?_) cs hcs
    simp only [Option.bind_eq_some_iff] at he
    obtain ⟨la, hla, lb, hlb, he⟩ := he
    rw [hla] at hlb
    cases hlb
    exact mapField_same _ _ (callsD_self hab o la) e he
  have hflag : ∀ (y : DiffPrefix), (D.den po (.seq (.id uid (.line [] (fnName f) (fnName f)) (.seqs [
    .ignoreDiff o.ignoreFunctionLinkageName (.line (k "linkage name") (strVal f.linkageName) (strVal f.linkageName)),
    .ignoreDiff o.ignoreFunctionSymbolName (.line (k "symbol name") (strVal f.symbolName) (strVal f.symbolName)),
    sourceD o dir f.source dir f.source,
    .ignoreDiff o.ignoreFunctionAddress (rangesD f.ranges f.ranges),
    .ignoreDiff o.ignoreFunctionSize (.line (k "size") (sizeVal f.size) (sizeVal f.size)),
    .ignoreDiff o.ignoreFunctionInline (.line (k "inline") (yesVal f.inline) (yesVal f.inline)),
    .line (k "declaration") (yesVal f.declaration) (yesVal f.declaration),
    .field false (k "return type") (.line [] (returnVal c.b.toSide f.returnType) (returnVal c.b.toSide f.returnType)),
    .field false (k "parameters") ps, vs, fr,
    .inline (.field true (k "inlined functions") inl), st, cs, is])) .lineBreak) i y d).2.1 = false := by
    intro y
    refine D.flag_dropIgnored po _ ?_ i y d
    refine ⟨⟨rfl, ?_⟩, trivial⟩
    have hline : ∀ (b : Bool) (l : Str) (v : Val), (D.ignoreDiff b (.line l v v)).dropIgnored.Same :=
      fun b l v => D.Same.drop (e := .ignoreDiff b (.line l v v)) rfl
    refine ⟨hline .., hline .., D.Same.drop (sourceD_self ..), ?_, hline .., hline .., rfl, rfl, D.Same.drop h1,
      D.Same.drop h2, D.Same.drop h3, D.Same.drop h4, D.Same.drop h5, D.Same.drop h6, ?_, trivial⟩
    · exact D.Same.drop (e := .ignoreDiff _ _) (rangesD_self f.ranges)
    · unfold whenD at his
      split at his
      · simp only [Option.bind_eq_some_iff, Option.some.injEq] at his
        obtain ⟨p, -, q, -, rfl⟩ := his
        trivial
      · cases his; trivial
  refine ⟨by rw [D.flag_eq]; exact hflag x, fun ho => ?_, fun ho hi => ?_⟩
  · rw [(C22_print_if_diff po ho _ i x d).1, D.flag_eq, hflag x]
    rfl
  · refine (C23_same po ho _ ?_ i x d).2.1
    refine ⟨⟨rfl, ?_⟩, trivial⟩
    refine ⟨rfl, rfl, sourceD_self .., rangesD_self _, rfl, rfl, rfl, rfl, h1, h2, h3, h4, h5, h6, ?_, trivial⟩
    rw [whenD, hi, if_neg (by simp)] at his
    cases his
    trivial

/-! ## Unreported -/

/-- If the diff of two functions reports no difference, the two listings are the same lines, apart
from what the user asked to ignore, the instructions, and the order of local variables: names,
source, addresses, sizes, return type, parameters, local variables and where they are stored, the
stack frame, everything inlined to any depth, call sites and calls. When variable locations are
listed, the variables of the new function must not have more than one stack-frame location
(`C54_missed_witness`: these are not all compared). -/
theorem C81_unreported (o : Options) (c : FnPair) (uid : Nat) (da db : Option Str) (n : Nat) (f g : Function)
    (e : D) (he : functionD o c uid da db n f g = some e)
    (hloc : o.printVariableLocations = true → OneLocation (c.b.details g))
    (po : Print.Opts) (i : Nat) (x : DiffPrefix) (d : Nat) (hf : e.flag po i x d = false) :
    ∃ p q, functionHiding (ignoredBy o) o c.a da n f = some p ∧ functionHiding (ignoredBy o) o c.b db n g = some q ∧
      p.lines po.http i .none d = q.lines po.http i .none d := by
  obtain ⟨p, q, hp, hq, h⟩ := (agree_fn po o).function c uid da db n f g
    ⟨fun _ _ _ => trivial, fun _ _ _ => trivial, trivial, fun _ _ => ⟨fun _ _ _ => trivial, fun _ _ _ => trivial, trivial⟩⟩
    ⟨fun hv p hp => (hloc hv).1 p (.inl hp), fun hv v hv' => (hloc hv).2 v (.inl hv'), trivial,
      fun j hj => ⟨fun hv p hp => (hloc hv).1 p (.inr ⟨j, hj, hp⟩), fun hv v hv' => (hloc hv).2 v (.inr ⟨j, hj, hv'⟩), trivial⟩⟩
    trivial e he
  refine ⟨p, q, hp, hq, ?_⟩
  rw [D.flag_eq] at hf
  rw [P.lines_eq, P.lines_eq]
  exact h i x d (.inr hf) .none

/-! ## Both listings are in the diff -/

theorem sortLocals_sorted {vs : List LocalVariable} (h : vs.Pairwise fun a b => compare a.name b.name ≠ .gt) :
    sortLocals vs = vs := by
  refine stableSort_of_sorted _ ?_
  exact h.imp fun {a b} h => by simpa using h

theorem OkFn.of {o : Options} {d : FunctionDetails} {V : List LocalVariable → Prop}
    (hloc : o.printVariableLocations = true → OneLocation d) (h : V d.variables)
    (h' : ∀ i, Within d.inlined i → V i.variables) : OkFn o OneLoc V d :=
  ⟨fun hv p hp => (hloc hv).1 p (.inl hp), fun hv v hv' => (hloc hv).2 v (.inl hv'), h,
    fun j hj => ⟨fun hv p hp => (hloc hv).1 p (.inr ⟨j, hj, hp⟩), fun hv v hv' => (hloc hv).2 v (.inr ⟨j, hj, hv'⟩), h' j hj⟩⟩

/-- The diff of two functions contains both listings, up to the order of their lines (local
variables are compared in the order of their names): the lines marked `-` are lines of the old
listing, the whole old listing is found among the lines not marked `+`, and the same for the new one
with `+` and `-` exchanged. Exceptions: one address against several, several stack-frame locations,
and instructions in the server's pages, which are on a page of their own. -/
theorem C81_listings (o : Options) (c : FnPair) (uid : Nat) (da db : Option Str) (n : Nat) (f g : Function)
    (e : D) (he : functionD o c uid da db n f g = some e) (hform : SameAddressForm f.ranges g.ranges)
    (hla : o.printVariableLocations = true → OneLocation (c.a.details f))
    (hlb : o.printVariableLocations = true → OneLocation (c.b.details g))
    (po : Print.Opts) (hi : po.http = true → o.printFunctionInstructions = false) (i : Nat) (x : DiffPrefix) (d : Nat) :
    ∃ p q, functionP o c.a da n f = some p ∧ functionP o c.b db n g = some q ∧
      ∃ old new : List Line, old.Perm ((p.lines po.http i .none d).map Line.erase) ∧
        new.Perm ((q.lines po.http i .none d).map Line.erase) ∧
        let diff := e.lines po i x d
        ((diff.filter Line.isDel).map Line.erase).Sublist old ∧
        old.Sublist ((diff.filter (fun l => !l.isAdd)).map Line.erase) ∧
        ((diff.filter Line.isAdd).map Line.erase).Sublist new ∧
        new.Sublist ((diff.filter (fun l => !l.isDel)).map Line.erase) := by
  have hR := made_fn perm_linesRel po.http o hi (fun _ => True)
    (fun vs _ F => List.Perm.flatMap_right F (stableSort_perm _ vs)) (fun _ _ _ h h' => h.trans h')
  obtain ⟨p, q, hp, hq, h⟩ := hR.function c uid da db n f g (.of hla trivial fun _ _ => trivial)
    (.of hlb trivial fun _ _ => trivial) hform e he
  rw [functionHiding_nothing] at hp hq
  refine ⟨p, q, hp, hq, ((e.side false).lines po.http i .none d).map Line.erase,
    ((e.side true).lines po.http i .none d).map Line.erase, ?_, ?_, C66_listings po e h.hide i x d⟩
  · rw [P.lines_eq, P.lines_eq]; exact (h.old i .none d).map _
  · rw [P.lines_eq, P.lines_eq]; exact (h.new i .none d).map _

/-- When the local variables are in the order of their names, the listings are contained in order. -/
theorem C81_listings_ordered (o : Options) (c : FnPair) (uid : Nat) (da db : Option Str) (n : Nat) (f g : Function)
    (e : D) (he : functionD o c uid da db n f g = some e) (hform : SameAddressForm f.ranges g.ranges)
    (hla : o.printVariableLocations = true → OneLocation (c.a.details f))
    (hlb : o.printVariableLocations = true → OneLocation (c.b.details g))
    (hva : VarsByName (c.a.details f)) (hvb : VarsByName (c.b.details g))
    (po : Print.Opts) (hi : po.http = true → o.printFunctionInstructions = false) (i : Nat) (x : DiffPrefix) (d : Nat) :
    ∃ p q, functionP o c.a da n f = some p ∧ functionP o c.b db n g = some q ∧
      let old := (p.lines po.http i .none d).map Line.erase
      let new := (q.lines po.http i .none d).map Line.erase
      let diff := e.lines po i x d
      ((diff.filter Line.isDel).map Line.erase).Sublist old ∧
      old.Sublist ((diff.filter (fun l => !l.isAdd)).map Line.erase) ∧
      ((diff.filter Line.isAdd).map Line.erase).Sublist new ∧
      new.Sublist ((diff.filter (fun l => !l.isDel)).map Line.erase) := by
  have hR := made_fn eq_linesRel po.http o hi (fun vs => vs.Pairwise fun a b => compare a.name b.name ≠ .gt)
    (fun vs h F => by rw [sortLocals_sorted h]) (fun _ _ _ h h' => h.trans h')
  obtain ⟨p, q, hp, hq, h⟩ := hR.function c uid da db n f g (.of hla hva.1 hva.2) (.of hlb hvb.1 hvb.2) hform e he
  rw [functionHiding_nothing] at hp hq
  refine ⟨p, q, hp, hq, ?_⟩
  have := C66_listings po e h.hide i x d
  simp only [P.lines_eq, h.old, h.new] at this ⊢
  exact this

/-! ## Reported differences are visible -/

theorem locationVal_ne {s : FnSide} (hn : NamedFn s) {l : Location} (h : l ≠ .empty) {v : Val}
    (hv : locationVal s l = some v) : v.text' ≠ [] := by
  cases l with
  | empty => exact absurd rfl h
  | literal n => cases hv; simp [Val.text', k, Str.ofString]
  | register r => cases hv; exact regVal_ne hn r
  | registerOffset r o =>
    simp only [locationVal, Option.map_eq_some_iff] at hv
    obtain ⟨t, -, rfl⟩ := hv
    simp [Val.text', regVal_ne hn r]
  | frameOffset o =>
    simp only [locationVal, Option.map_eq_some_iff] at hv
    obtain ⟨t, -, rfl⟩ := hv
    simp [Val.text', k, Str.ofString]
  | cfaOffset o =>
    simp only [locationVal, Option.map_eq_some_iff] at hv
    obtain ⟨t, -, rfl⟩ := hv
    simp [Val.text', k, Str.ofString]
  | address a => cases hv; simp [Val.text', k, Str.ofString]
  | tlsOffset o => cases hv; simp [Val.text', k, Str.ofString]
  | other => cases hv; simp [Val.text', k, Str.ofString]

theorem whenD_vis {b : Bool} {d : Option D} (h : RelV d) : RelV (whenD b d) := by
  cases b
  · intro e he http; cases he; trivial
  · exact h

theorem mapField_vis (c : Bool) (l : Str) {d : Option D} (h : RelV d) : RelV (d.map (.field c l)) := by
  intro e he http
  simp only [Option.map_eq_some_iff] at he
  obtain ⟨f, hf, rfl⟩ := he
  exact h f hf http

section
variable {c : FnPair} (ha : NamedFn c.a) (hb : NamedFn c.b)
include ha hb

theorem regsD_vis (la lb : List Nat) : RelV (regsD c la lb) :=
  mapField_vis _ _ (listD_vis (fun a _ p hp => by cases hp; exact Shown.line _ (by simpa [Val.text'] using regVal_ne ha a))
    (fun a _ p hp => by cases hp; exact Shown.line _ (by simpa [Val.text'] using regVal_ne hb a))
    (fun _ _ _ _ e he http => by cases he; trivial))

theorem piecesD_vis (la lb : List Piece) (h1 : NoEmptyPiece la) (h2 : NoEmptyPiece lb) : RelV (piecesD c la lb) := by
  have key : ∀ {s : FnSide} (hn : NamedFn s) (l : List Piece), NoEmptyPiece l → ∀ a ∈ l.map (·.location), ∀ p,
      locationP s a = some p → Shown p := by
    intro s hn l hl a hm p hp
    obtain ⟨q, hq, rfl⟩ := List.mem_map.1 hm
    simp only [locationP, Option.map_eq_some_iff] at hp
    obtain ⟨v, hv, rfl⟩ := hp
    exact Shown.line _ (locationVal_ne hn (hl q hq) hv)
  refine listD_vis (key ha la h1) (key hb lb h2) fun _ _ _ _ e he http => ?_
  simp only [locationD, Option.bind_eq_bind, Option.bind_eq_some_iff, Option.some.injEq] at he
  obtain ⟨x, hx, y, hy, rfl⟩ := he
  trivial

theorem paramsD_vis (o : Options) (la lb : List Parameter) : RelV (paramsD o c la lb) := by
  refine listD_vis (fun a _ p hp => by cases hp; exact paramP_shown ..) (fun a _ p hp => by cases hp; exact paramP_shown ..)
    fun a _ b _ e he http => ?_
  simp only [paramD, Option.bind_eq_bind, Option.bind_eq_some_iff, Option.some.injEq] at he
  obtain ⟨body, hbody, rfl⟩ := he
  refine ⟨trivial, whenD_vis (fun e he http => ?_) body hbody http⟩
  simp only [Option.bind_eq_some_iff, Option.some.injEq] at he
  obtain ⟨rs, hrs, rfl⟩ := he
  exact ⟨regsD_vis ha hb _ _ rs hrs http, diffLocs_visible ..⟩

theorem localsD_vis (o : Options) (la lb : List LocalVariable) : RelV (localsD o c la lb) := by
  refine listD_vis (fun a _ p hp => by cases hp; exact localP_shown ..) (fun a _ p hp => by cases hp; exact localP_shown ..)
    fun a _ b _ e he http => ?_
  simp only [localD, Option.bind_eq_bind, Option.bind_eq_some_iff, Option.some.injEq] at he
  obtain ⟨body, hbody, rfl⟩ := he
  refine ⟨trivial, whenD_vis (fun e he http => ?_) body hbody http⟩
  simp only [Option.bind_eq_some_iff, Option.some.injEq] at he
  obtain ⟨rs, hrs, rfl⟩ := he
  exact ⟨trivial, regsD_vis ha hb _ _ rs hrs http, diffLocs_visible .., trivial⟩

theorem callParamsD_vis (o : Options) (la lb : List CallParameter)
    (h1 : ∀ p ∈ la, p.name ≠ some [] ∧ NoEmptyPiece p.location ∧ NoEmptyPiece p.value ∧ NoEmptyPiece p.dataLocation ∧ NoEmptyPiece p.dataValue)
    (h2 : ∀ p ∈ lb, p.name ≠ some [] ∧ NoEmptyPiece p.location ∧ NoEmptyPiece p.value ∧ NoEmptyPiece p.dataLocation ∧ NoEmptyPiece p.dataValue) :
    RelV (callParamsD o c la lb) := by
  induction la generalizing lb with
  | nil =>
    induction lb with
    | nil => intro e he http; simp only [callParamsD, callParamsAddD, Option.some.injEq] at he; subst he; trivial
    | cons b lb ih =>
      intro e he http
      simp only [callParamsD, callParamsAddD, Option.bind_eq_bind, Option.bind_eq_some_iff, Option.some.injEq] at he
      obtain ⟨p, hp, r, hr, rfl⟩ := he
      exact ⟨((callParamP_noBlank hp).2 (h2 b (List.mem_cons_self ..)).1).visible http,
        ih (fun p hp => h2 p (List.mem_cons_of_mem _ hp)) r hr http⟩
  | cons a la ih =>
    cases lb with
    | nil =>
      intro e he http
      simp only [callParamsD, callParamsAddD, Option.bind_eq_bind, Option.bind_eq_some_iff, Option.some.injEq] at he
      obtain ⟨p, hp, r, hr, rfl⟩ := he
      exact ⟨((callParamP_noBlank hp).2 (h1 a (List.mem_cons_self ..)).1).visible http,
        ih [] (fun p hp => h1 p (List.mem_cons_of_mem _ hp)) h2 r hr http⟩
    | cons b lb =>
      intro e he http
      simp only [callParamsD, callParamsAddD, Option.bind_eq_bind, Option.bind_eq_some_iff, Option.some.injEq] at he
      obtain ⟨f, hf, r, hr, rfl⟩ := he
      refine ⟨?_, ih lb (fun p hp => h1 p (List.mem_cons_of_mem _ hp)) (fun p hp => h2 p (List.mem_cons_of_mem _ hp)) r hr http⟩
      simp only [callParamD, Option.bind_eq_bind, Option.bind_eq_some_iff, Option.some.injEq] at hf
      obtain ⟨body, hbody, rfl⟩ := hf
      refine ⟨trivial, whenD_vis (fun e he http => ?_) body hbody http⟩
      simp only [Option.bind_eq_some_iff, Option.some.injEq] at he
      obtain ⟨l, hl, v, hv', dl, hdl, dv, hdv, rfl⟩ := he
      have p1 := h1 a (List.mem_cons_self ..)
      have p2 := h2 b (List.mem_cons_self ..)
      exact ⟨piecesD_vis ha hb _ _ p1.2.1 p2.2.1 l hl http, piecesD_vis ha hb _ _ p1.2.2.1 p2.2.2.1 v hv' http,
        piecesD_vis ha hb _ _ p1.2.2.2.1 p2.2.2.2.1 dl hdl http, piecesD_vis ha hb _ _ p1.2.2.2.2 p2.2.2.2.2 dv hdv http, trivial⟩

theorem callSitesD_vis (o : Options) (da db : Option Str) (la lb : List FunctionCall)
    (h1 : ∀ x ∈ la, NamedCall x) (h2 : ∀ x ∈ lb, NamedCall x) : RelV (callSitesD o c da db la lb) := by
  refine listD_vis (fun a _ p hp => callSiteP_shown hp) (fun a _ p hp => callSiteP_shown hp) fun a hma b hmb e he http => ?_
  simp only [callSiteD, Option.bind_eq_bind, Option.bind_eq_some_iff, Option.some.injEq] at he
  obtain ⟨t, ht, ps, hps, rfl⟩ := he
  have na := h1 a hma
  have nb := h2 b hmb
  refine ⟨trivial, trivial, whenD_vis (mapField_vis _ _ (piecesD_vis ha hb _ _ na.target nb.target)) t ht http, ?_,
    whenD_vis (mapField_vis _ _ (callParamsD_vis ha hb o _ _ (fun p hp => ⟨na.names p hp, na.pieces p hp⟩)
      (fun p hp => ⟨nb.names p hp, nb.pieces p hp⟩))) ps hps http, trivial⟩
  unfold sourceD; split <;> trivial

theorem inlinedD_vis (o : Options) (da db : Option Str) (n : Nat) (la lb : List InlinedFunction)
    (h1 : ∀ i, Within la i → ∀ x ∈ i.calls, NamedCall x) (h2 : ∀ i, Within lb i → ∀ x ∈ i.calls, NamedCall x) :
    RelV (listD c.heap (inlinedP o c.a da n) (inlinedP o c.b db n) (inlinedD o c da db n)
      inlinedStep inlinedStep (inlinedCost c da db) la lb) := by
  induction n generalizing la lb with
  | zero => exact listD_vis (fun _ _ p hp => by cases hp) (fun _ _ p hp => by cases hp) fun _ _ _ _ e he http => by cases he
  | succ n ih =>
    refine listD_vis (fun a _ p hp => inlinedP_shown hp) (fun a _ p hp => inlinedP_shown hp) fun f hf g hg e he http => ?_
    simp only [inlinedD, Option.bind_eq_bind, Option.bind_eq_some_iff, Option.some.injEq] at he
    obtain ⟨ps, hps, vs, hvs, cs, hcs, inl, hinl, rfl⟩ := he
    refine ⟨trivial, ?_, whenD_vis (mapField_vis _ _ (paramsD_vis ha hb o _ _)) ps hps http,
      whenD_vis (mapField_vis _ _ (localsD_vis ha hb o _ _)) vs hvs http,
      whenD_vis (mapField_vis _ _ (callSitesD_vis ha hb o da db _ _ (h1 f (.here hf)) (h2 g (.here hg)))) cs hcs http,
      ih _ _ (fun i h => h1 i (.deeper hf h)) (fun i h => h2 i (.deeper hg h)) inl hinl http, trivial⟩
    split <;> trivial

end

/-- When a difference is reported for two functions, some line of their diff is marked. (The
converse does not hold: ignored differences are still shown, see `C81_self` for what is.) -/
theorem C81_flag (o : Options) (c : FnPair) (uid : Nat) (da db : Option Str) (n : Nat) (f g : Function)
    (e : D) (he : functionD o c uid da db n f g = some e) (ha : NamedFn c.a) (hb : NamedFn c.b)
    (hca : ∀ x, CallOf (c.a.details f) x → NamedCall x) (hcb : ∀ x, CallOf (c.b.details g) x → NamedCall x)
    (po : Print.Opts) (i : Nat) (x : DiffPrefix) (d : Nat) (hf : e.flag po i x d = true) :
    ∃ l ∈ e.lines po i x d, l.marked = true := by
  rw [D.flag_eq] at hf
  rw [D.lines_eq]
  refine D.den_flagged po e ?_ i x d hf
  simp only [functionD, Option.bind_eq_bind, Option.bind_eq_some_iff, Option.some.injEq] at he
  obtain ⟨b, hb', rfl⟩ := he
  simp only [fnBodyD, Option.bind_eq_bind, Option.bind_eq_some_iff, Option.some.injEq] at hb'
  obtain ⟨ps, hps, vs, hvs, fr, hfr, inl, hinl, st, hst, cs, hcs, is, his, rfl⟩ := hb'
  refine ⟨⟨trivial, trivial, trivial, ?_, rangesD_visible .., trivial, trivial, trivial, trivial,
    paramsD_vis ha hb o _ _ ps hps _, whenD_vis (mapField_vis _ _ (localsD_vis ha hb o _ _)) vs hvs _,
    whenD_vis (mapField_vis _ _ ?_) fr hfr _,
    inlinedD_vis ha hb o da db n _ _ (fun i h y hy => hca y (.inr ⟨i, h, hy⟩)) (fun i h y hy => hcb y (.inr ⟨i, h, hy⟩)) inl hinl _,
    whenD_vis (mapField_vis _ _ (callSitesD_vis ha hb o da db _ _ (fun y hy => hca y (.inl hy)) (fun y hy => hcb y (.inl hy)))) st hst _,
    whenD_vis ?_ cs hcs _, whenD_vis ?_ is his _, trivial⟩, trivial⟩
  · unfold sourceD; split <;> trivial
  · intro e he http
    simp only [frameD, Option.bind_eq_bind, Option.bind_eq_some_iff, ordListD, Option.map_eq_some_iff] at he
    obtain ⟨va, hva, vb, hvb, es, hes, rfl⟩ := he
    refine items_visible _ hes (fun a _ p hp => printEntry_shown hp) (fun a _ p hp => printEntry_shown hp)
      (fun a b _ e he http => ?_) http
    simp only [frameEntryD, Option.bind_eq_bind, Option.bind_eq_some_iff, Option.some.injEq] at he
    obtain ⟨u, hu, v, hv, rfl⟩ := he
    exact ⟨trivial, trivial⟩
  · intro e he http
    simp only [Option.bind_eq_some_iff] at he
    obtain ⟨la, hla, lb, hlb, he⟩ := he
    exact mapField_vis _ _ (listD_vis (fun a _ p hp => by cases hp; exact Shown.line _ (callVal_ne ha o a))
      (fun a _ p hp => by cases hp; exact Shown.line _ (callVal_ne hb o a))
      (fun _ _ _ _ e he http => by cases he; trivial)) e he http
  · intro e he http
    simp only [Option.bind_eq_some_iff, Option.some.injEq] at he
    obtain ⟨p, hp, q, hq, rfl⟩ := he
    have key : ∀ {s : FnSide} (hn : NamedFn s) (f : Function) (p : P), instructionsP s f = some p → p.NotBlank http := by
      intro s hn f p hp
      unfold instructionsP at hp
      split at hp
      · cases hp; exact NoBlank.skip.notBlank http
      · exact NoBlank.notBlank (fun http i x d => by rw [← P.lines_eq]; exact hn.insns f p hp http i x d) http
    exact ⟨key ha f p hp, key hb g q hq⟩

end Verif.Show
