import Verif.Show.TotalSpec
import Verif.Show.FileLemmas
import Verif.Order.Props
import Verif.Frame.Lemmas
/-!
# C92: a listing always completes
-/
namespace Verif.Show
open Verif.Print Verif.Item Verif.Namespace Verif.Types Verif.Path Verif.Opts Verif.Merge Verif.Range
  Verif.File Verif.Order Verif.Filter Verif.Frame

/-! ### From some bound on -/

/-- The partial function gives a value for every large enough bound. -/
def Eventually (f : Nat → Bool) : Prop := ∃ N, ∀ n, N ≤ n → f n = true

theorem Eventually.and {f g : Nat → Bool} (hf : Eventually f) (hg : Eventually g) :
    Eventually fun n => f n && g n := by
  obtain ⟨N, hN⟩ := hf
  obtain ⟨M, hM⟩ := hg
  refine ⟨max N M, fun n hn => ?_⟩
  simp [hN n (by omega), hM n (by omega)]

theorem Eventually.all {α : Type} {f : α → Nat → Bool} (l : List α) (h : ∀ a ∈ l, Eventually (f a)) :
    ∃ N, ∀ n, N ≤ n → ∀ a ∈ l, f a n = true := by
  induction l with
  | nil => exact ⟨0, by simp⟩
  | cons a l ih =>
    obtain ⟨N, hN⟩ := ih fun a ha => h a (List.mem_cons_of_mem _ ha)
    obtain ⟨M, hM⟩ := h a (List.mem_cons_self ..)
    refine ⟨max N M, fun n hn b hb => ?_⟩
    rcases List.mem_cons.1 hb with rfl | hb
    · exact hM n (by omega)
    · exact hN n (by omega) b hb

theorem whenP_some {b : Bool} {p : Option P} (h : b = true → p.isSome) : (whenP b p).isSome := by
  cases b
  · rfl
  · exact h rfl

/-! ### Types -/

theorem typeP_total (o : Options) (s : Side) (dir : Option Str) (t : TypeEntry) {name ns}
    (hl : Listed t.kind name ns) (he : EndsBelow s t.kind) :
    Eventually fun n => (typeP o s dir n t).isSome := by
  have key : ∀ t', Acc (Inside s) t' → Eventually fun n => (membersP s n (some t')).isSome := by
    intro t' h
    obtain ⟨n, p, hp⟩ := (C77_members_end s t').1.2 h
    refine ⟨n, fun m hm => ?_⟩
    simp [membersP_le s hm hp]
  cases t with
  | mk off kind =>
    simp only at hl he
    cases hl with
    | base => exact ⟨0, fun n _ => by simp [typeP, headerVal, bodyP]⟩
    | typedef =>
      rename_i ty
      cases hd : defInline s ty with
      | none => exact ⟨0, fun n _ => by simp [typeP, headerVal, bodyP, hd]⟩
      | some t' =>
        have hacc : Acc (Inside s) t' := by
          unfold defInline at hd
          cases ht : fromOffset s.hash ty with
          | none => simp [ht] at hd
          | some t'' =>
            simp only [ht] at hd
            split at hd
            · cases hd
              exact he _ ht (by assumption)
            · cases hd
        obtain ⟨N, hN⟩ := key t' hacc
        refine ⟨N, fun n hn => ?_⟩
        obtain ⟨p, hp⟩ := Option.isSome_iff_exists.1 (hN n hn)
        simp [typeP, headerVal, bodyP, hd, hp]
    | struct =>
      obtain ⟨N, hN⟩ := key _ he
      refine ⟨N, fun n hn => ?_⟩
      obtain ⟨p, hp⟩ := Option.isSome_iff_exists.1 (hN n hn)
      simp [typeP, headerVal, bodyP, hp]
    | union =>
      obtain ⟨N, hN⟩ := key _ he
      refine ⟨N, fun n hn => ?_⟩
      obtain ⟨p, hp⟩ := Option.isSome_iff_exists.1 (hN n hn)
      simp [typeP, headerVal, bodyP, hp]
    | enum => exact ⟨0, fun n _ => by simp [typeP, headerVal, bodyP]⟩

/-! ### Functions -/

theorem locationVal_total (s : FnSide) (l : Location) (h : LocationOk l) : (locationVal s l).isSome := by
  have key : ∀ o : Int, -(2 ^ 63 : Int) < o ∧ o < 2 ^ 63 → ∃ t, offsetText o = some t := by
    intro o ho
    unfold offsetText
    split
    · rw [if_pos (by unfold I64; omega)]; exact ⟨_, rfl⟩
    · split <;> exact ⟨_, rfl⟩
  cases l with
  | registerOffset r o => obtain ⟨t, ht⟩ := key o h; simp [locationVal, ht]
  | frameOffset o => obtain ⟨t, ht⟩ := key o h; simp [locationVal, ht]
  | cfaOffset o => obtain ⟨t, ht⟩ := key o h; simp [locationVal, ht]
  | _ => rfl

theorem piecesP_total (s : FnSide) (ps : List Piece) (h : ∀ p ∈ ps, LocationOk p.location) :
    (piecesP s ps).isSome := by
  unfold piecesP
  rw [listP_isSome]
  intro l hl
  obtain ⟨p, hp, rfl⟩ := List.mem_map.1 hl
  simp [locationP, locationVal_total s _ (h p hp)]

theorem callSiteP_total (o : Options) (s : FnSide) (dir : Option Str) (c : FunctionCall)
    (h : o.printVariableLocations = true → CallOk c) : (callSiteP o s dir c).isSome := by
  obtain ⟨t, ht⟩ := Option.isSome_iff_exists.1 (whenP_some (b := o.printVariableLocations)
    (p := (piecesP s c.target).map (.field false (k "target"))) fun hv => by
      simp [piecesP_total s c.target (h hv).1])
  have hps : (listP (callParamP o s) c.parameters).isSome := by
    rw [listP_isSome]
    intro a ha
    unfold callParamP
    cases hv : o.printVariableLocations with
    | false => simp [whenP]
    | true =>
      have := (h hv).2 a ha
      obtain ⟨p1, h1⟩ := Option.isSome_iff_exists.1 (piecesP_total s a.location fun p hp => this p (by simp [hp]))
      obtain ⟨p2, h2⟩ := Option.isSome_iff_exists.1 (piecesP_total s a.value fun p hp => this p (by simp [hp]))
      obtain ⟨p3, h3⟩ := Option.isSome_iff_exists.1 (piecesP_total s a.dataLocation fun p hp => this p (by simp [hp]))
      obtain ⟨p4, h4⟩ := Option.isSome_iff_exists.1 (piecesP_total s a.dataValue fun p hp => this p (by simp [hp]))
      simp [whenP, h1, h2, h3, h4]
  obtain ⟨ps, hps⟩ := Option.isSome_iff_exists.1 hps
  simp [callSiteP, ht, hps]

theorem link_total (prev : Option Int) (l : List Entry) (h : ∀ e ∈ l, ∀ z, StackEnd e z → I64 z) :
    ∃ vs, link prev l = some vs ∧ vs.map (·.2) = l ∧
      ∀ x ∈ vs, x.1 = prev ∧ l.head? = some x.2 ∨
        ∃ before e after, l = before ++ e :: x.2 :: after ∧ ∀ z, x.1 = some z → StackEnd e z := by
  induction l generalizing prev with
  | nil => exact ⟨[], rfl, rfl, by simp⟩
  | cons e l ih =>
    obtain ⟨next, hn, hz⟩ : ∃ next, endOf e = some next ∧ ∀ z, next = some z → StackEnd e z := by
      unfold endOf
      cases hs : e.size with
      | none => exact ⟨none, rfl, by simp⟩
      | some n =>
        have := h e (List.mem_cons_self ..) _ ⟨n, hs, rfl⟩
        simp only [if_pos this]
        refine ⟨_, rfl, fun z hz => ⟨n, hs, ?_⟩⟩
        cases hz; rfl
    obtain ⟨vs, hvs, hm, hx⟩ := ih next fun e he => h e (List.mem_cons_of_mem _ he)
    refine ⟨(prev, e) :: vs, by simp [link, hn, hvs], by simp [hm], fun x hxm => ?_⟩
    rcases List.mem_cons.1 hxm with rfl | hxm
    · exact .inl ⟨rfl, rfl⟩
    · right
      rcases hx x hxm with ⟨h1, h2⟩ | ⟨before, e', after, h1, h2⟩
      · cases l with
        | nil => cases h2
        | cons e' l =>
          cases h2
          exact ⟨[], e, l, rfl, fun z hz' => hz z (h1 ▸ hz')⟩
      · exact ⟨e :: before, e', after, by simp [h1], h2⟩

theorem listing_total (tsz : TypeOffset → Option Nat) (tref : TypeOffset → Val) (d : FunctionDetails)
    (h : FrameFits (entries tsz d)) : (listing tsz tref d).isSome := by
  obtain ⟨vs, hvs, -, hx⟩ := link_total none _ h.1
  have : (vs.mapM (printEntry tref)).isSome := mapM_total fun x hxm => by
    have hu : (unknownVal x).isSome := by
      unfold unknownVal
      cases hp : x.1 with
      | none => rfl
      | some z =>
        simp only
        split
        · rename_i hlt
          rcases hx x hxm with ⟨h1, -⟩ | ⟨before, e, after, h1, h2⟩
          · rw [hp] at h1; cases h1
          · rw [if_pos (h.2 _ _ _ _ h1 z (h2 z hp) hlt)]; rfl
        · rfl
    simp [printEntry, hu]
  obtain ⟨ps, hps⟩ := Option.isSome_iff_exists.1 this
  simp [listing, frameVariables, hvs, hps]

mutual
theorem inlinedP_total (o : Options) (s : FnSide) (dir : Option Str) : ∀ (f : InlinedFunction),
    (o.printFunctionCalls = true → o.printVariableLocations = true →
      (∀ c ∈ f.calls, CallOk c) ∧ ∀ i, Frame.Within f.inlined i → ∀ c ∈ i.calls, CallOk c) →
    Eventually fun n => (inlinedP o s dir n f).isSome
  | .mk og sz rs ps vs is cs src => by
    intro h
    obtain ⟨N, hN⟩ := inlinedListP_total o s dir is fun h1 h2 => (h h1 h2).2
    refine ⟨N + 1, fun n hn => ?_⟩
    obtain ⟨n, rfl⟩ : ∃ m, n = m + 1 := ⟨n - 1, by omega⟩
    obtain ⟨q, hq⟩ := Option.isSome_iff_exists.1 ((listP_isSome (l := is)).2 (hN n (by omega)))
    obtain ⟨c, hc⟩ := Option.isSome_iff_exists.1 (whenP_some (b := o.printFunctionCalls)
      (p := (callSitesP o s dir cs).map (.field true (k "call sites"))) fun h1 => by
        simp only [Option.isSome_map, callSitesP]
        exact listP_isSome.2 fun c hc => callSiteP_total o s dir c fun h2 => (h h1 h2).1 c hc)
    simp [inlinedP, InlinedFunction.calls, InlinedFunction.inlined, hq, hc]
theorem inlinedListP_total (o : Options) (s : FnSide) (dir : Option Str) : ∀ (l : List InlinedFunction),
    (o.printFunctionCalls = true → o.printVariableLocations = true →
      ∀ i, Frame.Within l i → ∀ c ∈ i.calls, CallOk c) →
    ∃ N, ∀ n, N ≤ n → ∀ f ∈ l, (inlinedP o s dir n f).isSome = true
  | [] => fun _ => ⟨0, by simp⟩
  | f :: l => by
    intro h
    obtain ⟨N, hN⟩ := inlinedListP_total o s dir l fun h1 h2 i hi => h h1 h2 i (by
      cases hi with
      | here hm => exact .here (List.mem_cons_of_mem _ hm)
      | deeper hm hw => exact .deeper (List.mem_cons_of_mem _ hm) hw)
    obtain ⟨M, hM⟩ := inlinedP_total o s dir f fun h1 h2 =>
      ⟨h h1 h2 f (.here (List.mem_cons_self ..)), fun i hi => h h1 h2 i (.deeper (List.mem_cons_self ..) hi)⟩
    refine ⟨max N M, fun n hn b hb => ?_⟩
    rcases List.mem_cons.1 hb with rfl | hb
    · exact hM n (by omega)
    · exact hN n (by omega) b hb
end

theorem fnBodyP_total (o : Options) (s : FnSide) (dir : Option Str) (f : Function) (h : FnOk o s f) :
    Eventually fun n => (fnBodyP o s dir n f).isSome := by
  obtain ⟨N, hN⟩ := inlinedListP_total o s dir (s.details f).inlined fun h1 h2 => (h.calls h1 h2).2
  refine ⟨N, fun n hn => ?_⟩
  obtain ⟨q, hq⟩ := Option.isSome_iff_exists.1 ((listP_isSome (l := (s.details f).inlined)).2 (hN n hn))
  obtain ⟨fr, hfr⟩ := Option.isSome_iff_exists.1 (whenP_some (b := o.printFunctionStackFrame)
    (p := (listing s.tsz s.tref (s.details f)).map (.field true (k "stack frame"))) fun h1 => by
      simp [listing_total s.tsz s.tref _ (h.frame h1)])
  obtain ⟨c, hc⟩ := Option.isSome_iff_exists.1 (whenP_some (b := o.printFunctionCalls)
    (p := (callSitesP o s dir (s.details f).calls).map (.field true (k "call sites"))) fun h1 => by
      simp only [Option.isSome_map, callSitesP]
      exact listP_isSome.2 fun c hc => callSiteP_total o s dir c fun h2 => (h.calls h1 h2).1 c hc)
  obtain ⟨cs, hcs⟩ := Option.isSome_iff_exists.1 (whenP_some (b := o.printFunctionCalls)
    (p := (fnCalls s f).map fun l => .field true (k "calls") (.seqs (l.map fun x => .line [] (callVal o s x))))
    fun h1 => by
      simp only [fnCalls, Option.isSome_map]
      exact mapM_total fun r hr => Option.isSome_iff_exists.2 (h.code h1 r hr))
  obtain ⟨i, hi⟩ := Option.isSome_iff_exists.1 (whenP_some (b := o.printFunctionInstructions && !f.ranges.isEmpty)
    (p := (instructionsP s f).map (.fieldDetail (k "code") (k "instructions"))) fun h1 => by
      simp only [Bool.and_eq_true, Bool.not_eq_true', List.isEmpty_eq_false_iff] at h1
      obtain ⟨p, hp⟩ := h.insns h1.1 h1.2
      simp [instructionsP, h1.2, hp])
  simp only [fnBodyP, hq, hfr, hc, hcs, hi]
  rfl

theorem functionP_total (o : Options) (s : FnSide) (dir : Option Str) (f : Function) (h : FnOk o s f) :
    Eventually fun n => (functionP o s dir n f).isSome := by
  obtain ⟨N, hN⟩ := fnBodyP_total o s dir f h
  refine ⟨N, fun n hn => ?_⟩
  obtain ⟨b, hb⟩ := Option.isSome_iff_exists.1 (hN n hn)
  simp [functionP, hb]

/-! ### Sorted lists -/

theorem sortListP_total {α γ : Type} {cmpBy : Nat → α → γ → α → γ → Res Ordering} {g : γ} {l : List α}
    {print : Nat → α → Option P}
    (hs : ∃ N, ∀ n, N ≤ n → ∃ l', printOrder (cmpBy n) g l = some l' ∧ Arranged (fun x y => cmpBy n x g y g) l l')
    (hp : ∀ a ∈ l, Eventually fun n => (print n a).isSome) :
    Eventually fun n => (sortListP (cmpBy n) g (print n) l).isSome := by
  obtain ⟨N, hN⟩ := hs
  obtain ⟨M, hM⟩ := Eventually.all l hp
  refine ⟨max N M, fun n hn => ?_⟩
  obtain ⟨l', hl', ha⟩ := hN n (by omega)
  have : (listP (print n) l').isSome := listP_isSome.2 fun a hm => hM n (by omega) a (ha.perm.mem_iff.1 hm)
  simp [sortListP, hl', this]

theorem whenP_total {b : Bool} {p : Nat → Option P} (h : b = true → Eventually fun n => (p n).isSome) :
    Eventually fun n => (whenP b (p n)).isSome := by
  cases b
  · exact ⟨0, fun _ _ => rfl⟩
  · exact h rfl

/-! ### Units and files -/

theorem size_some {l : List Range} (h : Canonical l) : ∃ n, size? l = some n := by
  obtain ⟨n, hn⟩ := bound_list l
  exact ⟨_, size_eq_covered h n hn⟩

theorem unitPartP_total (o : Options) (s : Side) (u : CompUnit) : (unitPartP o s u).isSome := by
  obtain ⟨f, hf⟩ := size_some (canonical_sort (pushAll [] u.functionRanges))
  obtain ⟨v, hv⟩ := size_some (canonical_sort (pushAll [] (u.variableRanges s.tsz)))
  obtain ⟨w, hw⟩ : ∃ w, size? (u.unknownRanges s.tsz) = some w := size_some (canonical_sort _)
  simp [unitPartP, CompUnit.functionSize, CompUnit.variableSize, hf, hv, hw]

theorem unitSize_some (tsz : TypeOffset → Option Nat) (u : CompUnit) : ∃ n, u.size tsz = some n := by
  obtain ⟨f, hf⟩ := size_some (canonical_sort (pushAll [] u.functionRanges))
  obtain ⟨v, hv⟩ := size_some (canonical_sort (pushAll [] (u.variableRanges tsz)))
  exact ⟨f + v, by simp [CompUnit.size, CompUnit.functionSize, CompUnit.variableSize, hf, hv]⟩

theorem filePartP_total (o : Options) (s : FileSide) : (filePartP o s).isSome := by
  obtain ⟨n, h1, h2, h3⟩ := sizes_eq s.tsz s.file
  simp [filePartP, printSummary_eq h1 h2 h3]

theorem unitP_total (o : Options) (s : FileSide) (u : CompUnit) (h : UnitOk o s u) :
    Eventually fun n => (unitP o s n u).isSome := by
  have hT : Eventually fun n => (unitTypesP o s.toSide n u).isSome := by
    refine whenP_total fun hc => ?_
    have hw : ∀ t ∈ filterTypes s.hash u o false, t ∈ u.types ∧ WantedType s.hash u o false t := by
      intro t ht
      obtain ⟨h1, h2⟩ := List.mem_filter.1 ht
      exact ⟨h1, (okType_iff _ _ _ _ _).1 h2⟩
    refine sortListP_total ((C53_types o).1 s.hash _ fun t ht => (h.types hc t (hw t ht).1 (hw t ht).2).1)
      fun t ht => ?_
    obtain ⟨⟨name, ns, hl, -⟩, -⟩ := (hw t ht).2
    exact typeP_total o s.toSide u.dir t hl (h.types hc t (hw t ht).1 (hw t ht).2).2
  have hF : ∀ p : Function → Bool, o.categoryFunction = true →
      Eventually fun n => (fnListP o s.toFnSide n u ((filterFunctions u o).filter p)).isSome := by
    intro p hc
    have hw : ∀ f ∈ (filterFunctions u o).filter p, f ∈ u.functions ∧ WantedFunction o f := by
      intro f hf
      obtain ⟨h1, h2⟩ := List.mem_filter.1 (List.mem_filter.1 hf).1
      exact ⟨h1, (okFunction_iff _ _).1 h2⟩
    exact sortListP_total ((C53_functions o).1 s.hash _ fun f hf => (h.functions hc f (hw f hf).1 (hw f hf).2).1)
      fun f hf => functionP_total o s.toFnSide u.dir f (h.functions hc f (hw f hf).1 (hw f hf).2).2
  have hV : Eventually fun n => (unitVariablesP o s n u).isSome := by
    refine whenP_total fun hc => sortListP_total ((C53_variables o).1 s.hash _ fun v hv => ?_)
      fun v _ => ⟨0, fun _ _ => rfl⟩
    obtain ⟨h1, h2⟩ := List.mem_filter.1 hv
    exact h.variables hc v h1 ((okVariable_iff _ _).1 h2)
  have hP : (whenP o.categoryUnit (unitPartP o s.toSide u)).isSome := whenP_some fun _ => unitPartP_total o s.toSide u
  have hP' : (whenP o.categoryUnit ((unitPartP o s.toSide u).map (.indent false (.line [] (unitName u))))).isSome :=
    whenP_some fun _ => by simp [unitPartP_total o s.toSide u]
  have hAll : Eventually fun n => (whenP o.categoryFunction (fnListP o s.toFnSide n u (filterFunctions u o))).isSome :=
    whenP_total fun hc => by
      have := hF (fun _ => true) hc
      rwa [List.filter_eq_self.2 fun _ _ => rfl] at this
  have h1 : Eventually fun n =>
      (whenP o.categoryFunction (fnListP o s.toFnSide n u ((filterFunctions u o).filter (·.size.isSome)))).isSome :=
    whenP_total fun hc => hF _ hc
  have h2 : Eventually fun n =>
      (whenP o.categoryFunction (fnListP o s.toFnSide n u ((filterFunctions u o).filter (!·.size.isSome)))).isSome :=
    whenP_total fun hc => hF (fun f => !f.size.isSome) hc
  obtain ⟨N, hN⟩ := ((hT.and hV).and (hAll.and (h1.and h2)))
  refine ⟨N, fun n hn => ?_⟩
  have := hN n hn
  simp only [Bool.and_eq_true] at this
  obtain ⟨⟨a1, a2⟩, a3, a4, a5⟩ := this
  obtain ⟨x0, e0⟩ := Option.isSome_iff_exists.1 hP
  obtain ⟨x0', e0'⟩ := Option.isSome_iff_exists.1 hP'
  obtain ⟨x1, e1⟩ := Option.isSome_iff_exists.1 a1
  obtain ⟨x2, e2⟩ := Option.isSome_iff_exists.1 a2
  obtain ⟨x3, e3⟩ := Option.isSome_iff_exists.1 a3
  obtain ⟨x4, e4⟩ := Option.isSome_iff_exists.1 a4
  obtain ⟨x5, e5⟩ := Option.isSome_iff_exists.1 a5
  unfold unitP unitBodyP
  cases o.html
  · simp only [e0', e1, e2, e3]; rfl
  · simp only [e0, e1, e2, e4, e5]; rfl

/-- **C92 (printing).** Printing a file runs to the end, whatever the options, as long as every unit that is
listed is finite and in range. What is not listed does not matter. -/
theorem C92_print (o : Options) (s : FileSide)
    (h : ∀ u ∈ s.file.units, WantedUnit o u → UnitOk o s u) :
    ∃ N, ∀ n, N ≤ n → ∃ p, fileP o s n = some p := by
  have hw : ∀ u ∈ filterUnits s.file.units o, u ∈ s.file.units ∧ WantedUnit o u := by
    intro u hu
    obtain ⟨h1, h2⟩ := List.mem_filter.1 hu
    exact ⟨h1, (okUnit_iff o u).1 h2⟩
  have hU : Eventually fun n => (unitsP o s n).isSome :=
    sortListP_total ((C53_units o).1 s.tsz _ fun u _ => unitSize_some s.tsz u)
      fun u hu => unitP_total o s u (h u (hw u hu).1 (hw u hu).2)
  obtain ⟨N, hN⟩ := hU
  refine ⟨N, fun n hn => ?_⟩
  obtain ⟨p, hp⟩ := Option.isSome_iff_exists.1 (hN n hn)
  obtain ⟨q, hq⟩ := Option.isSome_iff_exists.1 (whenP_some (b := o.categoryFile) fun _ => filePartP_total o s)
  exact ⟨.seq q p, by simp [fileP, hp, hq]⟩

end Verif.Show
