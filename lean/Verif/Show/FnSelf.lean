import Verif.Show.FnInst
import Verif.Namespace.Props
/-!
# A function against itself; visible differences
-/
namespace Verif.Show
open Verif.Print Verif.Item Verif.Namespace Verif.Types Verif.Path Verif.Opts Verif.Merge Verif.Range
  Verif.Frame

/-! ### A function against itself -/

theorem fnSame_self (f : Function) : fnSame f f = true := by
  have := (Namespace.C09_cmpNsAndName_laws (f.ns, f.name) (f.ns, f.name) (f.ns, f.name)).2.2
  simp only [fnSame, beq_iff_eq]
  exact this.2 ⟨rfl, rfl⟩

theorem whenD_same {b : Bool} {d : Option D} (h : RelS d) : RelS (whenD b d) := by
  cases b
  · intro e he; cases he; trivial
  · exact h

theorem mapField_same (c : Bool) (l : Str) {d : Option D} (h : RelS d) : RelS (d.map (.field c l)) := by
  intro e he
  simp only [Option.map_eq_some_iff] at he
  obtain ⟨f, hf, rfl⟩ := he
  exact h f hf

section
variable {c : FnPair} (hab : c.a = c.b)
  (hs : ∀ o t, fromOffset c.b.hash o = some t → c.same t t = true)
include hab

theorem regsD_self (l : List Nat) : RelS (regsD c l l) :=
  mapField_same _ _ (listD_self (by simp) (by simp) (by simp) fun a _ e he => by cases he; simp [D.Same, hab])

theorem piecesD_self (l : List Piece) : RelS (piecesD c l l) :=
  listD_self (by simp) (by simp) (by simp) fun a _ e he => by
    simp only [locationD, Option.bind_eq_bind, Option.bind_eq_some_iff, Option.some.injEq, hab] at he
    obtain ⟨x, hx, y, hy, rfl⟩ := he
    rw [hx] at hy
    cases hy
    exact rfl

omit hab in
theorem diffLocs_self (l : List FrameLocation) : (diffLocs l l).Same := by
  unfold diffLocs
  simp only
  split
  · rw [merged_self cmpLoc (fun a => Std.ReflCmp.compare_self) _ _ (by omega)]
    refine D.same_seqs fun e he => ?_
    simp only [List.map_map, List.mem_map, Function.comp] at he
    obtain ⟨a, -, rfl⟩ := he
    exact rfl
  · exact rfl

omit hab in
theorem rangesD_self (l : List Range) : (rangesD l l).Same := by
  unfold rangesD
  split
  · rw [merged_self cmpRange (fun a => by simp [cmpRange]) _ _ (by omega)]
    refine D.same_seqs fun e he => ?_
    simp only [List.map_map, List.mem_map, Function.comp] at he
    obtain ⟨a, -, rfl⟩ := he
    exact rfl
  · exact rfl

include hs in
theorem paramsD_self (o : Options) (l : List Parameter) : RelS (paramsD o c l l) := by
  refine listD_self (fun a _ => ?_) (by simp) (by simp) fun a _ e he => ?_
  · simp only [paramCost, if_true]
    rw [tyCost_self (c := c.toPair) (by simp [FnPair.toPair, hab]) hs]
  · simp only [paramD, Option.bind_eq_bind, Option.bind_eq_some_iff, Option.some.injEq] at he
    obtain ⟨body, hbody, rfl⟩ := he
    refine ⟨by simp [D.Same, hab], ?_⟩
    refine whenD_same (fun e he => ?_) body hbody
    simp only [Option.bind_eq_some_iff, Option.some.injEq] at he
    obtain ⟨rs, hrs, rfl⟩ := he
    exact ⟨regsD_self hab _ rs hrs, diffLocs_self _⟩

include hs in
theorem localsD_self (o : Options) (l : List LocalVariable) : RelS (localsD o c l l) := by
  refine listD_self (fun a _ => ?_) (by simp) (by simp) fun a _ e he => ?_
  · simp only [localCost, if_true]
    rw [tyCost_self (c := c.toPair) (by simp [FnPair.toPair, hab]) hs]
  · simp only [localD, Option.bind_eq_bind, Option.bind_eq_some_iff, Option.some.injEq] at he
    obtain ⟨body, hbody, rfl⟩ := he
    refine ⟨by simp [D.Same, hab], ?_⟩
    refine whenD_same (fun e he => ?_) body hbody
    simp only [Option.bind_eq_some_iff, Option.some.injEq] at he
    obtain ⟨rs, hrs, rfl⟩ := he
    exact ⟨rfl, regsD_self hab _ rs hrs, diffLocs_self _, trivial⟩

theorem callParamsD_self (o : Options) (l : List CallParameter) : RelS (callParamsD o c l l) := by
  induction l with
  | nil => intro e he; simp only [callParamsD, callParamsAddD, Option.some.injEq] at he; subst he; trivial
  | cons a l ih =>
    intro e he
    simp only [callParamsD, callParamsAddD, Option.bind_eq_bind, Option.bind_eq_some_iff, Option.some.injEq] at he
    obtain ⟨f, hf, r, hr, rfl⟩ := he
    refine ⟨?_, ih r hr⟩
    simp only [callParamD, Option.bind_eq_bind, Option.bind_eq_some_iff, Option.some.injEq] at hf
    obtain ⟨body, hbody, rfl⟩ := hf
    refine ⟨by simp [D.Same, hab], ?_⟩
    refine whenD_same (fun e he => ?_) body hbody
    simp only [Option.bind_eq_some_iff, Option.some.injEq] at he
    obtain ⟨l, hl, v, hv', dl, hdl, dv, hdv, rfl⟩ := he
    exact ⟨piecesD_self hab _ l hl, piecesD_self hab _ v hv', piecesD_self hab _ dl hdl, piecesD_self hab _ dv hdv, trivial⟩

omit hab in
theorem sourceD_self (o : Options) (dir : Option Str) (z : Source) : (sourceD o dir z dir z).Same := by
  unfold sourceD; split
  · exact rfl
  · trivial

theorem callSitesD_self (o : Options) (dir : Option Str) (l : List FunctionCall) : RelS (callSitesD o c dir dir l l) := by
  refine listD_self (fun a _ => ?_) (by simp) (by simp) fun a _ e he => ?_
  · simp only [callSiteCost, if_true, Nat.zero_add]
    cases a.origin with
    | none => rfl
    | some x =>
      cases x with
      | direct f => simp [originCost, fnSame_self]
      | indirect f => cases f <;> rfl
  · simp only [callSiteD, Option.bind_eq_bind, Option.bind_eq_some_iff, Option.some.injEq] at he
    obtain ⟨t, ht, ps, hps, rfl⟩ := he
    refine ⟨by simp [D.Same, hab], rfl, ?_, sourceD_self .., ?_, trivial⟩
    · exact whenD_same (mapField_same _ _ (piecesD_self hab _)) t ht
    · exact whenD_same (mapField_same _ _ (callParamsD_self hab o _)) ps hps

include hs in
theorem inlinedD_self (o : Options) (dir : Option Str) (n : Nat) (l : List InlinedFunction) :
    RelS (listD c.heap (inlinedP o c.a dir n) (inlinedP o c.b dir n) (inlinedD o c dir dir n)
      inlinedStep inlinedStep (inlinedCost c dir dir) l l) := by
  induction n generalizing l with
  | zero =>
    refine listD_self (fun a _ => ?_) (by simp [inlinedStep]; omega) (by simp [inlinedStep]; omega)
      fun a _ e he => by cases he
    simp only [inlinedCost, and_self, if_true, hab, Nat.add_zero]
    cases c.b.fnAt a.origin <;> simp [inlinedOriginCost, fnSame_self]
  | succ n ih =>
    refine listD_self (fun a _ => ?_) (by simp [inlinedStep]; omega) (by simp [inlinedStep]; omega)
      fun a _ e he => ?_
    · simp only [inlinedCost, and_self, if_true, hab, Nat.add_zero]
      cases c.b.fnAt a.origin <;> simp [inlinedOriginCost, fnSame_self]
    · simp only [inlinedD, Option.bind_eq_bind, Option.bind_eq_some_iff, Option.some.injEq] at he
      obtain ⟨ps, hps, vs, hvs, cs, hcs, inl, hinl, rfl⟩ := he
      refine ⟨by simp [D.Same, hab], ?_, whenD_same (mapField_same _ _ (paramsD_self hab hs o _)) ps hps,
        whenD_same (mapField_same _ _ (localsD_self hab hs o _)) vs hvs,
        whenD_same (mapField_same _ _ (callSitesD_self hab o dir _)) cs hcs, ih _ inl hinl, trivial⟩
      split
      · exact rfl
      · trivial

theorem callsD_self (o : Options) (l : List (Nat × Nat)) : RelS (callsD o c l l) := by
  refine listD_self (fun a _ => ?_) (by simp) (by simp) fun a _ e he => by cases he; simp [D.Same, hab]
  simp only [callCost, hab]
  cases c.b.fnByAddress a.2 <;> simp [fnSame_self]

theorem frameD_self (d : FunctionDetails) : RelS (frameD c d d) := by
  intro e he
  simp only [frameD, Option.bind_eq_bind, Option.bind_eq_some_iff, ordListD, Option.map_eq_some_iff, hab] at he
  obtain ⟨va, hva, vb, hvb, es, hes, rfl⟩ := he
  rw [hva] at hvb
  cases hvb
  rw [merged_self (fun x y : Option Int × Entry => Entry.cmp x.2 y.2) (fun a => Std.ReflCmp.compare_self (cmp := Entry.cmp)) _ _ (by omega)] at hes
  refine D.same_seqs fun e he => ?_
  obtain ⟨it, hit, hie⟩ := mapM_mem hes e he
  obtain ⟨a, -, rfl⟩ := List.mem_map.1 hit
  simp only [itemD, frameEntryD, Option.bind_eq_bind, Option.bind_eq_some_iff, Option.some.injEq] at hie
  obtain ⟨x, hx, y, hy, rfl⟩ := hie
  rw [hx] at hy
  cases hy
  exact ⟨rfl, by simp [D.Same, hab]⟩

end

theorem D.Same.drop {e : D} (h : e.Same) : e.dropIgnored.Same := by
  induction e with
  | seq p q ihp ihq => exact ⟨ihp h.1, ihq h.2⟩
  | indent c x b ihh ihb => exact ⟨ihh h.1, ihb h.2⟩
  | field c l b ih => exact ih h
  | id n x b ihh ihb => exact ⟨ihh h.1, ihb h.2⟩
  | inline d ih => exact ih h
  | printIfDiff d ih => exact ih h
  | ignoreDiff f d ih => cases f; exact ih h; trivial
  | _ => exact h

theorem D.flag_dropIgnored (o : Print.Opts) (e : D) (h : e.dropIgnored.Same) (i : Nat) (x : DiffPrefix) (d : Nat) :
    (e.den o i x d).2.1 = false := by
  induction e generalizing i x d with
  | skip => rfl
  | seq p q ihp ihq => simp [D.den, ihp h.1, ihq h.2]
  | lineBreak => rfl
  | label l => rfl
  | line l a b =>
    have : a.text' = b.text' := h
    simp only [D.den, this, if_true]
    split <;> rfl
  | indent c hd b ihh ihb =>
    simp only [D.den]
    split
    · exact ihh h.1 ..
    · simp [ihh h.1, ihb h.2]
  | field c l b ihb =>
    simp only [D.den]
    split
    · rfl
    · exact ihb h ..
  | id n hd b ihh ihb => simp [D.den, ihh h.1, ihb h.2]
  | inline p ih =>
    simp only [D.den]
    split
    · rfl
    · exact ih h ..
  | prefixDelete p => exact h.elim
  | prefixAdd p => exact h.elim
  | block a b => obtain ⟨rfl, rfl⟩ := h; rfl
  | printIfDiff p ih => exact ih h ..
  | ignoreDiff flag p ih =>
    cases flag
    · simp only [D.den, Bool.false_eq_true, if_false]; exact ih h ..
    · simp [D.den]

/-! ### Visible differences -/

theorem NoBlank.inline {p : P} (h : NoBlank p) : NoBlank (.inline p) := by
  intro http i x d; simp only [P.ls]; split
  · simp
  · exact h _ _ _ _
theorem NoBlank.ite {c : Prop} [Decidable c] {p q : P} (h : NoBlank p) (h' : NoBlank q) : NoBlank (if c then p else q) := by
  split
  · exact h
  · exact h'

theorem NoBlank.listP {α : Type} {print : α → Option P} {l : List α} {p : P} (h : listP print l = some p)
    (hp : ∀ a ∈ l, ∀ q, print a = some q → NoBlank q) : NoBlank p := by
  obtain ⟨ps, hps, rfl⟩ := listP_inv h
  refine NoBlank.seqs fun q hq => ?_
  obtain ⟨a, ha, haq⟩ := mapM_mem hps q hq
  exact hp a ha q haq

theorem NoBlank.whenP {b : Bool} {p : Option P} (h : ∀ q, p = some q → NoBlank q) {q : P}
    (hq : whenP b p = some q) : NoBlank q := by
  cases b
  · cases hq; exact NoBlank.skip
  · exact h q hq

theorem NoBlank.mapField {p : Option P} (h : ∀ q, p = some q → NoBlank q) {c : Bool} {l : Str} {q : P}
    (hq : p.map (.field c l) = some q) : NoBlank q := by
  simp only [Option.map_eq_some_iff] at hq
  obtain ⟨r, hr, rfl⟩ := hq
  exact NoBlank.field _ _ (h r hr)

theorem sourceP_noBlank (o : Options) (dir : Option Str) (s : Source) : NoBlank (sourceP o dir s) :=
  NoBlank.ite (NoBlank.line _ _) NoBlank.skip

theorem regsP_noBlank (s : FnSide) (l : List Nat) : NoBlank (regsP s l) := by
  refine NoBlank.field _ _ (NoBlank.seqs fun p hp => ?_)
  simp only [List.mem_map] at hp
  obtain ⟨r, -, rfl⟩ := hp
  exact NoBlank.line _ _

theorem printLocs_noBlank (l : List FrameLocation) : NoBlank (printLocs l) := by
  unfold printLocs
  split
  · exact NoBlank.skip
  · exact NoBlank.line _ _
  · refine NoBlank.field _ _ (NoBlank.seqs fun p hp => ?_)
    simp only [List.mem_map] at hp
    obtain ⟨r, -, rfl⟩ := hp
    exact NoBlank.line _ _

theorem locationP_noBlank {s : FnSide} {l : Location} {p : P} (h : locationP s l = some p) : NoBlank p := by
  simp only [locationP, Option.map_eq_some_iff] at h
  obtain ⟨v, -, rfl⟩ := h
  exact NoBlank.line _ _

theorem piecesP_noBlank {s : FnSide} {l : List Piece} {p : P} (h : piecesP s l = some p) : NoBlank p :=
  NoBlank.listP h fun _ _ _ => locationP_noBlank

theorem paramP_shown (o : Options) (s : FnSide) (p : Parameter) : Shown (paramP o s p) :=
  Shown.indent _ (Shown.line _ (paramVal_ne s p))
    (NoBlank.ite (NoBlank.seq (regsP_noBlank _ _) (printLocs_noBlank _)) NoBlank.skip)

theorem localP_shown (o : Options) (s : FnSide) (v : LocalVariable) : Shown (localP o s v) :=
  Shown.indent _ (Shown.line _ (localVal_ne s v)) (NoBlank.ite (NoBlank.seqs (by
    simp only [List.mem_cons, List.not_mem_nil, or_false]
    rintro p (rfl | rfl | rfl)
    · exact NoBlank.line _ _
    · exact regsP_noBlank _ _
    · exact printLocs_noBlank _)) NoBlank.skip)

theorem callParamP_noBlank {o : Options} {s : FnSide} {c : CallParameter} {p : P} (h : callParamP o s c = some p) :
    NoBlank p ∧ (c.name ≠ some [] → Shown p) := by
  simp only [callParamP, Option.bind_eq_bind, Option.bind_eq_some_iff, Option.some.injEq] at h
  obtain ⟨b, hb, rfl⟩ := h
  have hbody : NoBlank b := by
    refine NoBlank.whenP (fun q hq => ?_) hb
    simp only [Option.bind_eq_some_iff, Option.some.injEq] at hq
    obtain ⟨l, hl, v, hv', dl, hdl, dv, hdv, rfl⟩ := hq
    exact NoBlank.seqs (by
      simp only [List.mem_cons, List.not_mem_nil, or_false]
      rintro p (rfl | rfl | rfl | rfl)
      · exact NoBlank.field _ _ (piecesP_noBlank hl)
      · exact NoBlank.field _ _ (piecesP_noBlank hv')
      · exact NoBlank.field _ _ (piecesP_noBlank hdl)
      · exact NoBlank.field _ _ (piecesP_noBlank hdv))
  refine ⟨NoBlank.indent _ (NoBlank.line _ _) hbody, fun hn => Shown.indent _ (Shown.line _ ?_) hbody⟩
  unfold callParamVal
  cases hc : c.name with
  | none => simp [vals, Val.text', k, Str.ofString]
  | some n =>
    have : n ≠ [] := fun h' => hn (by rw [hc, h'])
    simp [vals, Val.text', this]

theorem callSiteP_shown {o : Options} {s : FnSide} {dir : Option Str} {c : FunctionCall} {p : P}
    (h : callSiteP o s dir c = some p) : Shown p := by
  simp only [callSiteP, Option.bind_eq_bind, Option.bind_eq_some_iff, Option.some.injEq] at h
  obtain ⟨t, ht, ps, hps, rfl⟩ := h
  refine Shown.indent _ (Shown.line _ (callHeader_ne s c)) (NoBlank.seqs ?_)
  simp only [List.mem_cons, List.not_mem_nil, or_false]
  rintro p (rfl | rfl | rfl | rfl)
  · exact NoBlank.line _ _
  · exact NoBlank.whenP (fun q hq => NoBlank.mapField (fun _ h => piecesP_noBlank h) hq) ht
  · exact sourceP_noBlank _ _ _
  · exact NoBlank.field _ _ (NoBlank.listP hps fun _ _ _ h => (callParamP_noBlank h).1)

theorem inlinedP_shown {o : Options} {s : FnSide} {dir : Option Str} {n : Nat} :
    ∀ {f : InlinedFunction} {p : P}, inlinedP o s dir n f = some p → Shown p := by
  induction n with
  | zero => intro f p h; cases h
  | succ n ih =>
    intro f p h
    simp only [inlinedP, Option.bind_eq_bind, Option.bind_eq_some_iff, Option.some.injEq] at h
    obtain ⟨cs, hcs, inl, hinl, rfl⟩ := h
    refine Shown.indent _ (Shown.line _ (inlinedVal_ne s f)) (NoBlank.seqs ?_)
    simp only [List.mem_cons, List.not_mem_nil, or_false]
    rintro p (rfl | rfl | rfl | rfl | rfl)
    · exact NoBlank.ite (NoBlank.line _ _) NoBlank.skip
    · refine NoBlank.ite (NoBlank.field _ _ (NoBlank.seqs fun p hp => ?_)) NoBlank.skip
      simp only [List.mem_map] at hp
      obtain ⟨r, -, rfl⟩ := hp
      exact (paramP_shown ..).1
    · refine NoBlank.ite (NoBlank.field _ _ (NoBlank.seqs fun p hp => ?_)) NoBlank.skip
      simp only [List.mem_map] at hp
      obtain ⟨r, -, rfl⟩ := hp
      exact (localP_shown ..).1
    · exact NoBlank.whenP (fun q hq => NoBlank.mapField
        (fun _ h => NoBlank.listP h fun _ _ _ h => (callSiteP_shown h).1) hq) hcs
    · exact NoBlank.inline (NoBlank.listP hinl fun _ _ _ h => (ih h).1)

theorem printEntry_shown {tref : TypeOffset → Val} {v : Option Int × Entry} {p : P} (h : printEntry tref v = some p) :
    Shown p := by
  simp only [printEntry, Option.map_eq_some_iff] at h
  obtain ⟨u, -, rfl⟩ := h
  refine ⟨NoBlank.seq (NoBlank.line _ _) (NoBlank.line _ _), fun http i x d => ?_⟩
  simp [P.ls, entryVal, Val.text', decInt_ne_nil]

theorem nsVal_ne (ns : Namespace) : (nsVal ns).text' ≠ [] := by
  cases ns with
  | root n kd => cases kd <;> simp [nsVal, nsPart, Val.text', Str.ofString]
  | child p n kd => cases kd <;> simp [nsVal, nsPart, Val.text', Str.ofString]

theorem regVal_ne {s : FnSide} (h : NamedFn s) (r : Nat) : Code.regVal s.regName r ≠ [] := by
  unfold Code.regVal
  split
  · rename_i n hn
    exact fun h' => h.regs r (by rw [hn, h'])
  · simp

theorem callVal_ne {s : FnSide} (h : NamedFn s) (o : Options) (c : Nat × Nat) :
    (callVal o s c).text' ≠ [] := by
  unfold callVal
  cases o.ignoreFunctionAddress
  · simp [Val.text', k, Str.ofString]
  · simp only [if_true, Val.text', List.nil_append]
    split
    · rename_i f hf
      simp only [fnRef, Val.text', qualified]
      rcases h.fns _ f hf with h' | h'
      · cases hns : f.ns with
        | none => exact absurd hns h'
        | some ns => exact fun he => nsVal_ne ns (List.append_eq_nil_iff.1 he).1
      · cases hname : f.name with
        | none => simp [anon, Str.ofString]
        | some n =>
          have : n ≠ [] := fun e => h' (by rw [hname, e])
          simp [this]
    · split
      · rename_i p hp
        exact fun e => h.plt _ (by rw [hp]; exact congrArg some e)
      · simp [Val.text', k, Str.ofString]

end Verif.Show
