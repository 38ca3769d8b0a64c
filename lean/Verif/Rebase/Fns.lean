import Verif.Rebase.Spec
import Verif.Move.Files
/-!
# C103: functions
-/
namespace Verif.Rebase
open Verif.Print Verif.Item Verif.Namespace Verif.Types Verif.Layout Verif.Path Verif.Opts Verif.Merge Verif.Range
  Verif.File Verif.Show Verif.Frame
open Verif.Move (off off_inj SameMoved)

/-! ### Lists of pairs -/

/-- Two lists that agree once something is left out are one list of pairs. -/
theorem pairs {α β : Type} {s t : α → β} {l l' : List α} (h : l'.map s = l.map t) :
    ∃ z : List { p : α × α // s p.2 = t p.1 }, l = z.map (·.1.1) ∧ l' = z.map (·.1.2) := by
  induction l generalizing l' with
  | nil =>
    cases l' with
    | nil => exact ⟨[], rfl, rfl⟩
    | cons b l' => cases h
  | cons a l ih =>
    cases l' with
    | nil => cases h
    | cons b l' =>
      simp only [List.map_cons, List.cons.injEq] at h
      obtain ⟨z, h1, h2⟩ := ih h.2
      exact ⟨⟨(a, b), h.1⟩ :: z, by simp [h1], by simp [h2]⟩

/-- Every diff there is has the same values on both sides, where differences count. -/
def RelI (d : Option D) : Prop := ∀ e, d = some e → e.dropIgnored.Same

theorem RelI.of {d : Option D} (h : RelS d) : RelI d := fun e he => D.Same.drop (h e he)

theorem drop_seqs {es : List D} (h : ∀ e ∈ es, e.dropIgnored.Same) : (D.seqs es).dropIgnored.Same := by
  induction es with
  | nil => trivial
  | cons e es ih => exact ⟨h e (List.mem_cons_self ..), ih fun e he => h e (List.mem_cons_of_mem _ he)⟩

theorem listD_two {α β : Type} {Q : Path.Heap} {print print' : α → Option P} {diff : α → α → Option D}
    {c1 c2 : α → Nat} {cost : α → α → Nat} {z : List β} (f g : β → α)
    (hc : ∀ x ∈ z, cost (f x) (g x) = 0) (h1 : ∀ x ∈ z, 0 < c1 (f x)) (h2 : ∀ x ∈ z, 0 < c2 (g x))
    (hd : ∀ x ∈ z, RelI (diff (f x) (g x))) : RelI (listD Q print print' diff c1 c2 cost (z.map f) (z.map g)) := by
  intro e he
  have htot : replaceCost c1 c2 (z.map f) (z.map g) < usizeMax := by
    unfold listD at he
    split at he
    · assumption
    · cases he
  obtain ⟨items, es, -, hi, hes, rfl⟩ := listD_inv he
  have h := C21_self Q (z.map fun x => (f x, g x)) c1 c2 cost (by simpa using hc) (by simpa using h1)
    (by simpa using h2) (by simpa [Function.comp_def] using htot) (enoughFuel (z.map f) (z.map g))
    (by simp [enoughFuel])
  simp only [List.map_map, Function.comp_def] at h
  rw [h] at hi
  cases hi
  refine drop_seqs fun e hem => ?_
  obtain ⟨it, hit, hie⟩ := mapM_mem hes e hem
  obtain ⟨a, ha, rfl⟩ := List.mem_map.1 hit
  exact hd a ha e hie

theorem whenD_rel {b : Bool} {d : Option D} (h : RelI d) : RelI (whenD b d) := by
  cases b
  · intro e he; cases he; trivial
  · exact h

theorem mapField_rel (c : Bool) (l : Str) {d : Option D} (h : RelI d) : RelI (d.map (.field c l)) := by
  intro e he
  simp only [Option.map_eq_some_iff] at he
  obtain ⟨f, hf, rfl⟩ := he
  exact h f hf

/-! ### Locations -/

theorem registers_locs (l : List (Range × Piece)) : (registers (locs l)).map (·.2) = (registers l).map (·.2) := by
  simp only [registers, locs, List.filterMap_map, List.map_filterMap]
  refine congrArg (fun f => List.filterMap f l) ?_
  funext ⟨r, p⟩
  simp only [Function.comp_apply, piece]
  split
  · rfl
  · cases p.location <;> rfl

theorem frames_locs (l : List (Range × Piece)) :
    (frameLocations (locs l)).map (·.2) = (frameLocations l).map (·.2) := by
  simp only [frameLocations, locs, List.filterMap_map, List.map_filterMap]
  refine congrArg (fun f => List.filterMap f l) ?_
  funext ⟨r, p⟩
  simp only [Function.comp_apply, piece]
  split
  · rfl
  · cases p.location <;> rfl

theorem localFrames_locs (l : List (Range × Piece)) : localFrameLocations (locs l) = localFrameLocations l := by
  simp only [localFrameLocations, locs, List.filterMap_map]
  refine congrArg (fun f => List.filterMap f l) ?_
  funext ⟨r, p⟩
  simp only [Function.comp_apply, piece]
  split
  · rfl
  · cases p.location <;> rfl

variable {ρ : Nat → Nat}

theorem registers_eq {l l' : List (Range × Piece)} (h : locs l' = locs l) :
    (registers l').map (·.2) = (registers l).map (·.2) := by
  rw [← registers_locs l', h, registers_locs]

theorem frames_eq {l l' : List (Range × Piece)} (h : locs l' = locs l) :
    (frameLocations l').map (·.2) = (frameLocations l).map (·.2) := by
  rw [← frames_locs l', h, frames_locs]

theorem localFrames_eq {l l' : List (Range × Piece)} (h : locs l' = locs l) :
    localFrameLocations l' = localFrameLocations l := by
  rw [← localFrames_locs l', h, localFrames_locs]

theorem param_fields {p q : Parameter} (h : param q = param (Move.param ρ p)) :
    q.name = p.name ∧ q.ty = off ρ p.ty ∧ locs q.locations = locs p.locations := by
  simp only [param, Move.param, Parameter.mk.injEq] at h
  exact h.2

theorem local_fields {p q : LocalVariable} (h : localVar q = localVar (Move.localVar ρ p)) :
    q.name = p.name ∧ q.ty = off ρ p.ty ∧ q.size = p.size ∧ locs q.locations = locs p.locations := by
  simp only [localVar, Move.localVar, LocalVariable.mk.injEq] at h
  exact ⟨h.2.1, h.2.2.1, h.2.2.2.2.2⟩

theorem function_fields {f g : Function} (h : function g = function (Move.function ρ f)) :
    g.ns = f.ns ∧ g.name = f.name ∧ g.linkageName = f.linkageName ∧ g.symbolName = f.symbolName ∧
      g.source = f.source ∧ addr g.address = addr f.address ∧ g.size = f.size ∧ g.inline = f.inline ∧
      g.declaration = f.declaration ∧ g.parameters = f.parameters.map (Move.paramType ρ) ∧
      g.returnType = off ρ f.returnType := by
  simp only [function, Move.function, Function.mk.injEq] at h
  simp [h]

theorem inlinedAll_eq (l : List InlinedFunction) : inlinedAll l = l.map inlined := by
  induction l with
  | nil => rfl
  | cons i is ih => simp [inlinedAll, ih]

section
variable {c : FnPair} (hm : Fns ρ c.a c.b) (hs : SameMoved ρ c.same c.a.hash)
include hm

theorem regsD_two {l l' : List Nat} (h : l' = l) : RelS (regsD c l l') := by
  subst h
  exact mapField_same _ _ (listD_self (by simp) (by simp) (by simp) fun a _ e he => by
    cases he; simp [D.Same, hm.regs])

theorem paramVal_two {p q : Parameter} (h : param q = param (Move.param ρ p)) :
    (paramVal c.b q).text' = (paramVal c.a p).text' := by
  have h := param_fields h
  simp only [paramVal, vals, Val.text', Parameter.byteSize, Code.paramDecl, h, hm.size, hm.ref]

theorem localVal_two {p q : LocalVariable} (h : localVar q = localVar (Move.localVar ρ p)) :
    (localVal c.b q).text' = (localVal c.a p).text' := by
  have h := local_fields h
  simp only [localVal, vals, Val.text', LocalVariable.byteSize, Code.varDecl, h, hm.size, hm.ref]

include hs in
theorem paramsD_two (o : Options) {l l' : List Parameter} (h : l'.map param = l.map fun p => param (Move.param ρ p)) :
    RelI (paramsD o c l l') := by
  obtain ⟨z, rfl, rfl⟩ := pairs h
  refine listD_two _ _ (fun x _ => ?_) (by simp) (by simp) fun x _ e he => ?_
  · have h := param_fields x.2
    have := Move.tyCost_moved (c := c.toPair) hm.toTypes hs 1 x.1.1.ty
    simp [paramCost, h, this]
  · have h := param_fields x.2
    simp only [paramD, Option.bind_eq_bind, Option.bind_eq_some_iff, Option.some.injEq] at he
    obtain ⟨body, hbody, rfl⟩ := he
    refine ⟨(paramVal_two hm x.2).symm, D.Same.drop ?_⟩
    refine whenD_same (fun e he => ?_) body hbody
    simp only [Option.bind_eq_some_iff, Option.some.injEq] at he
    obtain ⟨rs, hrs, rfl⟩ := he
    refine ⟨regsD_two hm (registers_eq h.2.2) rs hrs, ?_⟩
    rw [frames_eq h.2.2]
    exact diffLocs_self _

omit hm in
theorem sortLocals_two {β : Type} (f g : β → LocalVariable) (h : ∀ x, (g x).name = (f x).name) (z : List β) :
    ∃ w : List β, sortLocals (z.map f) = w.map f ∧ sortLocals (z.map g) = w.map g := by
  unfold sortLocals
  refine ⟨_, (Web.stableSort_map f (fun x y => compare x.name y.name != .gt) z).symm, ?_⟩
  have := Web.stableSort_map g (fun x y => compare x.name y.name != .gt) z
  simp only [h] at this
  exact this.symm

include hs in
theorem localsD_two (o : Options) (hv : o.ignoreVariableAddress = true) {l l' : List LocalVariable}
    (h : l'.map localVar = l.map fun p => localVar (Move.localVar ρ p)) : RelI (localsD o c l l') := by
  obtain ⟨z, rfl, rfl⟩ := pairs h
  unfold localsD
  obtain ⟨w, h1, h2⟩ := sortLocals_two (fun x : { p : LocalVariable × LocalVariable // localVar p.2 = localVar (Move.localVar ρ p.1) } => x.1.1)
    (fun x => x.1.2) (fun x => (local_fields x.2).1) z
  rw [h1, h2]
  refine listD_two _ _ (fun x _ => ?_) (by simp) (by simp) fun x _ e he => ?_
  · have h := local_fields x.2
    have := Move.tyCost_moved (c := c.toPair) hm.toTypes hs 1 x.1.1.ty
    simp [localCost, h, this]
  · have h := local_fields x.2
    simp only [localD, Option.bind_eq_bind, Option.bind_eq_some_iff, Option.some.injEq, hv] at he
    obtain ⟨body, hbody, rfl⟩ := he
    refine ⟨(localVal_two hm x.2).symm, ?_⟩
    refine whenD_rel (fun e he => ?_) body hbody
    simp only [Option.bind_eq_some_iff, Option.some.injEq] at he
    obtain ⟨rs, hrs, rfl⟩ := he
    refine ⟨trivial, D.Same.drop (regsD_two hm (registers_eq h.2.2.2) rs hrs), D.Same.drop ?_, trivial⟩
    rw [localFrames_eq h.2.2.2]
    exact diffLocs_self _

omit hm in
theorem fnSame_two {f g : Function} (h : function g = function (Move.function ρ f)) : fnSame f g = true := by
  have h := function_fields h
  have := fnSame_self f
  simpa [fnSame, h] using this

omit hm in
theorem fnRef_two (i j : Nat) {f g : Function} (h : function g = function (Move.function ρ f)) :
    (fnRef i g).text' = (fnRef j f).text' := by
  have h := function_fields h
  simp only [fnRef, h]
  rfl

theorem fnAt_two (o : Option Nat) : (c.b.fnAt (off ρ o) = none ∧ c.a.fnAt o = none) ∨
    ∃ g f, c.b.fnAt (off ρ o) = some g ∧ c.a.fnAt o = some f ∧ function g = function (Move.function ρ f) := by
  have := hm.fnAt o
  cases h1 : c.b.fnAt (off ρ o) with
  | none =>
    cases h2 : c.a.fnAt o with
    | none => exact .inl ⟨rfl, rfl⟩
    | some f => simp [h1, h2] at this
  | some g =>
    cases h2 : c.a.fnAt o with
    | none => simp [h1, h2] at this
    | some f => exact .inr ⟨g, f, rfl, rfl, by simpa [h1, h2] using this⟩

omit hm in
theorem inlined_fields {i j : InlinedFunction} (h : inlined j = inlined (Move.inlined ρ i)) :
    j.origin = off ρ i.origin ∧ j.size = i.size ∧ j.callSource = i.callSource ∧
      j.parameters.map param = (i.parameters.map fun p => param (Move.param ρ p)) ∧
      j.variables.map localVar = (i.variables.map fun p => localVar (Move.localVar ρ p)) ∧
      j.inlined.map inlined = i.inlined.map fun p => inlined (Move.inlined ρ p) := by
  cases i
  cases j
  simp only [inlined, Move.inlined, InlinedFunction.mk.injEq, inlinedAll_eq, Move.inlinedAll_eq, List.map_map] at h
  simp only [InlinedFunction.origin, InlinedFunction.size, InlinedFunction.callSource, InlinedFunction.parameters,
    InlinedFunction.variables, InlinedFunction.inlined]
  obtain ⟨h1, h2, -, h3, h4, h5, -, h6⟩ := h
  exact ⟨h1, h2, h6, h3, h4, h5⟩

theorem inlinedCost_two (dir : Option Str) {i j : InlinedFunction} (h : inlined j = inlined (Move.inlined ρ i)) :
    inlinedCost c dir dir i j = 0 := by
  have h := inlined_fields h
  simp only [inlinedCost, h, and_self, if_true, Nat.add_zero]
  rcases fnAt_two hm i.origin with ⟨h1, h2⟩ | ⟨g, f, h1, h2, h3⟩
  · simp [h1, h2, inlinedOriginCost]
  · simp [h1, h2, inlinedOriginCost, fnSame_two h3]

theorem inlinedVal_two {i j : InlinedFunction} (h : inlined j = inlined (Move.inlined ρ i)) :
    (inlinedVal c.b j).text' = (inlinedVal c.a i).text' := by
  have h := inlined_fields h
  simp only [inlinedVal, vals, Val.text', h]
  rcases fnAt_two hm i.origin with ⟨h1, h2⟩ | ⟨g, f, h1, h2, h3⟩
  · simp [h1, h2]
  · simp only [h1, h2, fnRef_two _ (c.a.fnId f) h3]

include hs in
theorem inlinedD_two (o : Options) (hv : o.ignoreVariableAddress = true) (hc : o.printFunctionCalls = false)
    (dir : Option Str) (n : Nat) {l l' : List InlinedFunction}
    (h : l'.map inlined = l.map fun p => inlined (Move.inlined ρ p)) :
    RelI (listD c.heap (inlinedP o c.a dir n) (inlinedP o c.b dir n) (inlinedD o c dir dir n)
      inlinedStep inlinedStep (inlinedCost c dir dir) l l') := by
  induction n generalizing l l' with
  | zero =>
    obtain ⟨z, rfl, rfl⟩ := pairs h
    exact listD_two _ _ (fun x _ => inlinedCost_two hm dir x.2) (by simp [inlinedStep]; omega)
      (by simp [inlinedStep]; omega) fun a _ e he => by cases he
  | succ n ih =>
    obtain ⟨z, rfl, rfl⟩ := pairs h
    refine listD_two _ _ (fun x _ => inlinedCost_two hm dir x.2) (by simp [inlinedStep]; omega)
      (by simp [inlinedStep]; omega) fun x _ e he => ?_
    have hv' := inlinedVal_two hm x.2
    obtain ⟨-, -, hsrc, h1, h2, h3⟩ := inlined_fields x.2
    simp only [inlinedD, Option.bind_eq_bind, Option.bind_eq_some_iff, Option.some.injEq] at he
    obtain ⟨qs, hqs, ws, hws, ds, hds, inl, hinl, rfl⟩ := he
    have hd : ds.dropIgnored.Same := by
      rw [hc] at hds
      cases hds
      trivial
    refine ⟨hv'.symm, ?_, whenD_rel (mapField_rel _ _ (paramsD_two hm hs o h1)) qs hqs,
      whenD_rel (mapField_rel _ _ (localsD_two hm hs o hv h2)) ws hws, hd, ih h3 inl hinl, trivial⟩
    rw [hsrc]
    split
    · exact rfl
    · trivial

/-! ### Stack frames -/

section
omit hm
variable {sa : TypeOffset → Option Nat}

theorem parameterEntries_bare (p : Parameter) : parameterEntries sa (param p) = parameterEntries sa p := by
  have h : ∀ q : Parameter, parameterEntries sa q =
      ((frameLocations q.locations).map (·.2)).map fun l => ⟨l.offset, locSize l (q.byteSize sa), q.name, q.ty⟩ := by
    intro q
    simp [parameterEntries]
  rw [h, h]
  simp only [param, frames_locs]
  rfl

theorem variableEntries_bare (v : LocalVariable) : variableEntries sa (localVar v) = variableEntries sa v := by
  simp only [variableEntries, localVar, localFrames_locs]
  rfl

mutual
theorem inlinedEntries_bare : (i : InlinedFunction) → inlinedEntries sa (inlined i) = inlinedEntries sa i
  | .mk org size ranges ps vs is cs src => by
    simp only [inlined, inlinedEntries, inlinedListEntries_bare is, List.flatMap_map, parameterEntries_bare,
      variableEntries_bare]
theorem inlinedListEntries_bare : (l : List InlinedFunction) →
    inlinedListEntries sa (inlinedAll l) = inlinedListEntries sa l
  | [] => rfl
  | i :: is => by
    simp only [inlinedAll, inlinedListEntries, inlinedEntries_bare i, inlinedListEntries_bare is]
end

theorem entries_bare (d : FunctionDetails) : entries sa (details d) = entries sa d := by
  simp only [entries, details, List.flatMap_map, parameterEntries_bare, variableEntries_bare, inlinedListEntries_bare]

end

theorem frameD_two {d d' : FunctionDetails} (hd : ∀ e ∈ entries c.a.tsz d, off ρ e.ty = e.ty)
    (h : details d' = details (Move.details ρ d)) : RelS (frameD c d d') := by
  have he : entries c.b.tsz d' = entries c.a.tsz d := by
    rw [← entries_bare, h, entries_bare, Move.entries_moved hm.size d hd]
  intro e he'
  simp only [frameD, frameVariables, he, Option.bind_eq_bind, Option.bind_eq_some_iff, ordListD,
    Option.map_eq_some_iff] at he'
  obtain ⟨va, hva, vb, hvb, es, hes, rfl⟩ := he'
  rw [hva] at hvb
  cases hvb
  rw [merged_self (fun x y : Option Int × Entry => Entry.cmp x.2 y.2)
    (fun a => Std.ReflCmp.compare_self (cmp := Entry.cmp)) _ _ (by omega)] at hes
  refine D.same_seqs fun e he => ?_
  obtain ⟨it, hit, hie⟩ := mapM_mem hes e he
  obtain ⟨a, ha, rfl⟩ := List.mem_map.1 hit
  simp only [itemD, frameEntryD, Option.bind_eq_bind, Option.bind_eq_some_iff, Option.some.injEq] at hie
  obtain ⟨x, hx, y, hy, rfl⟩ := hie
  rw [hx] at hy
  cases hy
  refine ⟨rfl, ?_⟩
  have h1 := hm.ref a.2.ty
  rw [hd a.2 (Move.link_mem hva a ha)] at h1
  simp only [D.Same, entryVal, Val.text', h1]

theorem returnVal_two (t : TypeOffset) : (returnVal c.b.toSide (off ρ t)).text' = (returnVal c.a.toSide t).text' := by
  simp only [returnVal, hm.hash]
  have : ((fromOffset c.a.hash t).map (Move.ty ρ) = some .void) ↔ fromOffset c.a.hash t = some .void := by
    cases fromOffset c.a.hash t with
    | none => simp
    | some t => cases t <;> simp [Move.ty]
  by_cases h : fromOffset c.a.hash t = some .void
  · rw [if_pos (this.2 h), if_pos h]
  · rw [if_neg (mt this.1 h), if_neg h]
    simp [vals, Val.text', hm.size, hm.ref]

include hs in
theorem functionD_two (o : Options) (hfa : o.ignoreFunctionAddress = true) (hv : o.ignoreVariableAddress = true)
    (hc : o.printFunctionCalls = false) (ho : o.printFunctionStackFrame = true → Move.FramesFixed ρ c.a) (uid : Nat)
    (dir : Option Str) (n : Nat) {f g : Function} (h : function g = function (Move.function ρ f)) :
    RelI (functionD o c uid dir dir n f g) := by
  intro e he
  have hd := hm.details f g h
  have hD := hd
  simp only [details, Move.details, FunctionDetails.mk.injEq, List.map_map, inlinedAll_eq, Move.inlinedAll_eq,
    and_true] at hd
  simp only [functionD, Option.bind_eq_bind, Option.bind_eq_some_iff, Option.some.injEq] at he
  obtain ⟨b, hb, rfl⟩ := he
  simp only [fnBodyD, Option.bind_eq_bind, Option.bind_eq_some_iff, Option.some.injEq] at hb
  obtain ⟨ps, hps, vs, hvs, fr, hfr, inl, hinl, st, hst, cs, hcs, is, his, rfl⟩ := hb
  have h1 := paramsD_two hm hs o hd.1 ps hps
  have h2 := whenD_rel (mapField_rel _ _ (localsD_two hm hs o hv hd.2.1)) vs hvs
  have h3 : fr.Same := by
    unfold whenD at hfr
    split at hfr
    · rename_i hon
      exact mapField_same _ _ (frameD_two hm (ho hon f) hD) fr hfr
    · cases hfr; trivial
  have h4 := inlinedD_two hm hs o hv hc dir n hd.2.2 inl hinl
  rw [hc] at hst hcs
  cases hst
  cases hcs
  obtain ⟨e1, e2, e3, e4, e5, -, e7, e8, e9, -, e11⟩ := function_fields h
  have hret := (returnVal_two hm f.returnType).symm
  have hline : ∀ (b : Bool) (l : Str) (v : Val), (D.ignoreDiff b (.line l v v)).dropIgnored.Same :=
    fun b l v => D.Same.drop (e := .ignoreDiff b (.line l v v)) rfl
  rw [hfa]
  simp only [fnName, e1, e2, e3, e4, e5, e7, e8, e9, e11]
  refine ⟨⟨rfl, hline .., hline .., D.Same.drop (sourceD_self ..), trivial, hline .., hline .., rfl, hret, h1, h2,
    D.Same.drop h3, h4, trivial, trivial, ?_, trivial⟩, trivial⟩
  unfold whenD at his
  split at his
  · simp only [Option.bind_eq_some_iff, Option.some.injEq] at his
    obtain ⟨p, -, q, -, rfl⟩ := his
    trivial
  · cases his; trivial

end

end Verif.Rebase
