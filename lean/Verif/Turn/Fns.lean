import Verif.Turn.Types
/-!
# C104: functions the other way round
-/
namespace Verif.Turn
open Verif.Print Verif.Item Verif.Namespace Verif.Types Verif.Layout Verif.Path Verif.Opts Verif.Merge Verif.Range
  Verif.File Verif.Show Verif.Order Verif.Frame

variable {po : Print.Opts}

/-- Both diffs of a part that is only shown on demand. -/
theorem whenD_twin {b : Bool} {x x' : Option D} {e e' : D} (h : whenD b x = some e) (h' : whenD b x' = some e')
    (ht : ∀ y y', x = some y → x' = some y' → Twin po y y') : Twin po e e' := by
  cases b
  · cases h; cases h'; exact Twin.skip
  · exact ht e e' h h'

/-- The two sides exchanged. -/
def turnFn (c : FnPair) : FnPair := ⟨c.b, c.a, fun x y => c.same y x, c.heap⟩

theorem Twin.inline {e e' : D} (h : Twin po e e') : Twin po (.inline e) (.inline e') := by
  intro i d x y
  simp only [D.den]
  split
  · simp
  · exact h i (d - 1) x y

/-! ### The options for items of one file do not matter inside functions -/

theorem inlinedP_turn (o : Options) (s : FnSide) (dir : Option Str) (n : Nat) :
    inlinedP (turnOptions o) s dir n = inlinedP o s dir n := by
  induction n with
  | zero => rfl
  | succ n ih =>
    funext f
    simp only [inlinedP, ih]
    rfl

theorem functionP_turn (o : Options) (s : FnSide) (dir : Option Str) (n : Nat) :
    functionP (turnOptions o) s dir n = functionP o s dir n := by
  funext f
  simp only [functionP, fnBodyP, inlinedP_turn]
  rfl

theorem paramsD_turn (o : Options) (c : FnPair) : paramsD (turnOptions o) c = paramsD o c := by
  have h : paramD (turnOptions o) c = paramD o c := rfl
  unfold paramsD
  rw [h]
  rfl

theorem localsD_turn (o : Options) (c : FnPair) : localsD (turnOptions o) c = localsD o c := by
  have h : localD (turnOptions o) c = localD o c := rfl
  unfold localsD
  rw [h]
  rfl

theorem callParamsAddD_turn (o : Options) (c : FnPair) : ∀ l, callParamsAddD (turnOptions o) c l = callParamsAddD o c l
  | [] => rfl
  | x :: l => by
    simp only [callParamsAddD, callParamsAddD_turn o c l]
    rfl

theorem callParamsD_turn (o : Options) (c : FnPair) : ∀ la lb, callParamsD (turnOptions o) c la lb = callParamsD o c la lb
  | [], l => by simp only [callParamsD, callParamsAddD_turn]
  | x :: la, [] => by
    simp only [callParamsD, callParamsD_turn o c la []]
    rfl
  | x :: la, y :: lb => by
    simp only [callParamsD, callParamsD_turn o c la lb]
    rfl

theorem callSitesD_turn (o : Options) (c : FnPair) (da db : Option Str) : callSitesD (turnOptions o) c da db = callSitesD o c da db := by
  have h : callSiteD (turnOptions o) c da db = callSiteD o c da db := by
    funext a b
    simp only [callSiteD, callParamsD_turn]
    rfl
  unfold callSitesD
  rw [h]
  rfl

theorem inlinedD_turn (o : Options) (c : FnPair) (da db : Option Str) (n : Nat) :
    inlinedD (turnOptions o) c da db n = inlinedD o c da db n := by
  induction n with
  | zero => rfl
  | succ n ih =>
    funext f g
    simp only [inlinedD, ih, inlinedP_turn, paramsD_turn, localsD_turn, callSitesD_turn]
    rfl

theorem functionD_turn (o : Options) (c : FnPair) (uid : Nat) (da db : Option Str) (n : Nat) :
    functionD (turnOptions o) c uid da db n = functionD o c uid da db n := by
  funext f g
  simp only [functionD, fnBodyD, inlinedD_turn, inlinedP_turn, paramsD_turn, localsD_turn, callSitesD_turn]
  rfl

/-! ### Costs -/

theorem paramCost_turn (c : FnPair) (a b : Parameter) : paramCost (turnFn c) b a = paramCost c a b := by
  simp only [paramCost, eq_comm (a := b.name)]
  exact congrArg _ (tyCost_turn c.toPair 1 a.ty b.ty)

theorem localCost_turn (c : FnPair) (a b : LocalVariable) : localCost (turnFn c) b a = localCost c a b := by
  simp only [localCost, eq_comm (a := b.name)]
  exact congrArg _ (tyCost_turn c.toPair 1 a.ty b.ty)

theorem fnSame_comm (f g : Function) : fnSame g f = fnSame f g := by
  unfold fnSame
  rw [nsName_swap (f.ns, f.name) (g.ns, g.name)]
  cases Namespace.cmpNsAndName f.ns f.name g.ns g.name <;> rfl

theorem inlinedCost_turn (c : FnPair) (da db : Option Str) (a b : InlinedFunction) :
    inlinedCost (turnFn c) db da b a = inlinedCost c da db a b := by
  have h : inlinedOriginCost (c.b.fnAt b.origin) (c.a.fnAt a.origin) = inlinedOriginCost (c.a.fnAt a.origin) (c.b.fnAt b.origin) := by
    cases c.a.fnAt a.origin <;> cases c.b.fnAt b.origin <;> simp only [inlinedOriginCost, fnSame_comm]
  simp only [inlinedCost, turnFn, h, eq_comm (a := b.callSource.path db), eq_comm (a := b.callSource.line),
    eq_comm (a := b.callSource.column), Nat.add_comm (b.size.getD 0)]

/-! ### Parameters and local variables -/

theorem bracketed_ne (x : Option Nat) (s : Str) : bracketed x ++ s ≠ [] := by
  cases x <;> simp [bracketed, k, Str.ofString]

theorem paramVal_ne (s : FnSide) (p : Parameter) : (paramVal s p).text' ≠ [] := bracketed_ne _ _
theorem localVal_ne (s : FnSide) (p : LocalVariable) : (localVal s p).text' ≠ [] := bracketed_ne _ _
theorem inlinedVal_ne (s : FnSide) (p : InlinedFunction) : (inlinedVal s p).text' ≠ [] := bracketed_ne _ _

variable {c : FnPair} {o : Options}

/-- Lists of lines that are the same if they read the same. -/
theorem regsD_twin (ho : po.html = false) {ra rb : List Nat}
    (hr : ∀ r ∈ ra, ∀ s ∈ rb, Code.regVal c.a.regName r = Code.regVal c.b.regName s → r = s)
    {e e' : D} (h : regsD c ra rb = some e) (h' : regsD (turnFn c) rb ra = some e') : Twin po e e' := by
  simp only [regsD, Option.map_eq_some_iff] at h h'
  obtain ⟨a, ha, rfl⟩ := h
  obtain ⟨b, hb, rfl⟩ := h'
  have hs : ∀ (l : List Nat) r, r ∈ sortDedup compare l ↔ r ∈ l := fun l r => mem_sortDedup l r
  refine Twin.field _ _ (listD_twin ho (A := fun a _ _ => Code.regVal c.a.regName a = []) (B := fun b _ _ => Code.regVal c.b.regName b = [])
    ?_ ha hb)
  refine ⟨fun _ => Nat.one_pos, fun a b => by simp only [eq_comm (a := b)], ?_, ?_, ?_, ?_, ?_, ?_, ?_⟩
  · rintro a _ x ⟨⟩ i m d
    by_cases h : Code.regVal c.a.regName a = [] <;> simp [P.ls, Val.text', h]
  · rintro a _ x ⟨⟩ i m d
    by_cases h : Code.regVal c.b.regName a = [] <;> simp [P.ls, Val.text', h]
  · rintro a _ b _ x ⟨⟩ i m d
    exact line_empty _ _ _ _ _ _
  · rintro a _ b _ x ⟨⟩ i m d
    exact (line_empty _ _ _ _ _ _).trans And.comm
  · rintro a _ b _ x y ⟨⟩ ⟨⟩
    exact Twin.lineSwap _ _ _
  · rintro a ha b hb x ⟨⟩ _ i m d hq
    exact if_pos (hr a ((hs _ _).1 ha) b ((hs _ _).1 hb) (line_quiet hq))
  · rintro a ha b hb x ⟨⟩ _ i m d hq
    exact if_pos (hr a ((hs _ _).1 ha) b ((hs _ _).1 hb) (line_quiet hq).symm)

theorem diffLocs_twin {a b : List FrameLocation} (ha : OneLoc a) (hb : OneLoc b) : Twin po (diffLocs a b) (diffLocs b a) := by
  rw [oneLoc_iff] at ha hb
  unfold diffLocs
  rw [if_neg (by simpa using ha), if_neg (by simpa using hb)]
  exact Twin.lineSwap _ _ _

theorem piecesD_twin (ho : po.html = false) {pa pb : List Piece}
    (hr : ∀ p ∈ pa, ∀ q ∈ pb, ∀ u v, locationVal c.a p.location = some u → locationVal c.b q.location = some v → u.text' = v.text' →
      p.location = q.location)
    {e e' : D} (h : piecesD c pa pb = some e) (h' : piecesD (turnFn c) pb pa = some e') : Twin po e e' := by
  have hd : ∀ (c : FnPair) a b x, locationD c a b = some x →
      ∃ u v, locationVal c.a a = some u ∧ locationVal c.b b = some v ∧ x = .line [] u v := by
    intro c a b x hx
    simp only [locationD, Option.bind_eq_bind, Option.bind_eq_some_iff, Option.some.injEq] at hx
    obtain ⟨u, hu, v, hv, rfl⟩ := hx
    exact ⟨u, v, hu, hv, rfl⟩
  have hp : ∀ (s : FnSide) (a : Location) x, locationP s a = some x → ∃ u, locationVal s a = some u ∧ x = .line [] u := by
    intro s a x hx
    simp only [locationP, Option.map_eq_some_iff] at hx
    obtain ⟨u, hu, rfl⟩ := hx
    exact ⟨u, hu, rfl⟩
  refine listD_twin ho (A := fun a _ _ => ∀ u, locationVal c.a a = some u → u.text' = [])
    (B := fun b _ _ => ∀ u, locationVal c.b b = some u → u.text' = []) ?_ h h'
  refine ⟨fun _ => Nat.one_pos, fun a b => by simp only [eq_comm (a := b)], ?_, ?_, ?_, ?_, ?_, ?_, ?_⟩
  · intro a _ x hx i m d
    obtain ⟨u, hu, rfl⟩ := hp _ _ _ hx
    by_cases h : u.text' = [] <;> simp [P.ls, hu, h]
  · intro a _ x hx i m d
    obtain ⟨u, hu, rfl⟩ := hp _ _ _ hx
    by_cases h : u.text' = [] <;> simp [P.ls, hu, h]
  · intro a _ b _ x hx i m d
    obtain ⟨u, v, hu, hv, rfl⟩ := hd _ _ _ _ hx
    rw [line_empty]
    simp [hu, hv]
  · intro a _ b _ x hx i m d
    obtain ⟨u, v, hu, hv, rfl⟩ := hd _ _ _ _ hx
    have hu' : locationVal c.b b = some u := hu
    have hv' : locationVal c.a a = some v := hv
    rw [line_empty]
    simp [hu', hv', and_comm]
  · intro a _ b _ x y hx hy
    obtain ⟨u, v, hu, hv, rfl⟩ := hd _ _ _ _ hx
    obtain ⟨v', u', hv', hu', rfl⟩ := hd _ _ _ _ hy
    cases Option.some.inj (hu.symm.trans hu')
    cases Option.some.inj (hv.symm.trans hv')
    exact Twin.lineSwap _ _ _
  · intro a ha b hb x hx _ i m d hq
    obtain ⟨u, v, hu, hv, rfl⟩ := hd _ _ _ _ hx
    obtain ⟨p, hp, rfl⟩ := List.mem_map.1 ha
    obtain ⟨q, hq', rfl⟩ := List.mem_map.1 hb
    exact if_pos (hr p hp q hq' u v hu hv (line_quiet hq))
  · intro a ha b hb x hx _ i m d hq
    obtain ⟨v, u, hv, hu, rfl⟩ := hd _ _ _ _ hx
    obtain ⟨p, hp, rfl⟩ := List.mem_map.1 ha
    obtain ⟨q, hq', rfl⟩ := List.mem_map.1 hb
    exact if_pos (hr p hp q hq' u v hu hv (line_quiet hq).symm)

theorem paramsD_twin (ho : po.html = false) {la lb : List Parameter}
    (hr : ∀ p ∈ la, ∀ q ∈ lb, (paramVal c.a p).text' = (paramVal c.b q).text' → p.name = q.name ∧ SameTy c.toPair p.ty q.ty)
    (hl : o.printVariableLocations = true → ∀ p ∈ la, ∀ q ∈ lb,
      OneLoc ((frameLocations p.locations).map (·.2)) ∧ OneLoc ((frameLocations q.locations).map (·.2)) ∧
      ∀ r ∈ (registers p.locations).map (·.2), ∀ s ∈ (registers q.locations).map (·.2),
        Code.regVal c.a.regName r = Code.regVal c.b.regName s → r = s)
    {e e' : D} (h : paramsD o c la lb = some e) (h' : paramsD o (turnFn c) lb la = some e') : Twin po e e' := by
  have hd : ∀ (c : FnPair) a b x, paramD o c a b = some x → ∃ e, x = .indent false (.line [] (paramVal c.a a) (paramVal c.b b)) e := by
    intro c a b x hx
    simp only [paramD, Option.bind_eq_bind, Option.bind_eq_some_iff, Option.some.injEq] at hx
    obtain ⟨e, -, rfl⟩ := hx
    exact ⟨e, rfl⟩
  have hz : ∀ p q, p.name = q.name ∧ SameTy c.toPair p.ty q.ty → paramCost c p q = 0 := by
    intro p q h
    rw [paramCost_eq]
    simp only [paramPrices]
    rw [points_zero (by simp [h.1]), points_zero (by simp [h.2])]
  refine listD_twin ho (A := fun _ _ _ => False) (B := fun _ _ _ => False) ?_ h h'
  refine ⟨fun _ => Nat.one_pos, fun a b => paramCost_turn c a b, ?_, ?_, ?_, ?_, ?_, ?_, ?_⟩
  · rintro a _ x ⟨⟩ i m d
    exact iff_of_false (indent_ls (paramVal_ne _ _) _ _ _ _) (fun h => h)
  · rintro a _ x ⟨⟩ i m d
    exact iff_of_false (indent_ls (paramVal_ne _ _) _ _ _ _) (fun h => h)
  · intro a _ b _ x hx i m d
    obtain ⟨z, rfl⟩ := hd _ _ _ _ hx
    exact iff_of_false (indent_lines (paramVal_ne _ _) _ _ _ _) (fun h => h.1)
  · intro a _ b _ x hx i m d
    obtain ⟨z, rfl⟩ := hd _ _ _ _ hx
    exact iff_of_false (indent_lines (paramVal_ne _ _) _ _ _ _) (fun h => h.1)
  · intro a ha b hb x y hx hy
    simp only [paramD, Option.bind_eq_bind, Option.bind_eq_some_iff, Option.some.injEq] at hx hy
    obtain ⟨z, hz, rfl⟩ := hx
    obtain ⟨w, hw, rfl⟩ := hy
    refine Twin.indent _ (Twin.lineSwap _ _ _) ?_
    cases hv : o.printVariableLocations
    · rw [hv] at hz hw
      cases hz; cases hw
      exact Twin.skip
    · obtain ⟨h1, h2, h3⟩ := hl hv a ha b hb
      refine whenD_twin hz hw fun s t hs' ht' => ?_
      simp only [Option.bind_eq_some_iff, Option.some.injEq] at hs' ht'
      obtain ⟨r1, hr1, rfl⟩ := hs'
      obtain ⟨r2, hr2, rfl⟩ := ht'
      exact Twin.seq (regsD_twin ho h3 hr1 hr2) (diffLocs_twin h1 h2)
  · intro a ha b hb x hx _ i m d hq
    obtain ⟨z, rfl⟩ := hd _ _ _ _ hx
    exact hz a b (hr a ha b hb (indent_quiet hq))
  · intro a ha b hb x hx _ i m d hq
    obtain ⟨z, rfl⟩ := hd _ _ _ _ hx
    exact hz a b (hr a ha b hb (indent_quiet hq).symm)

theorem localsD_twin (ho : po.html = false) {la lb : List LocalVariable}
    (hr : ∀ p ∈ la, ∀ q ∈ lb, (localVal c.a p).text' = (localVal c.b q).text' → p.name = q.name ∧ SameTy c.toPair p.ty q.ty)
    (hl : o.printVariableLocations = true → ∀ p ∈ la, ∀ q ∈ lb,
      OneLoc (localFrameLocations p.locations) ∧ OneLoc (localFrameLocations q.locations) ∧
      ∀ r ∈ (registers p.locations).map (·.2), ∀ s ∈ (registers q.locations).map (·.2),
        Code.regVal c.a.regName r = Code.regVal c.b.regName s → r = s)
    {e e' : D} (h : localsD o c la lb = some e) (h' : localsD o (turnFn c) lb la = some e') : Twin po e e' := by
  have hd : ∀ (c : FnPair) a b x, localD o c a b = some x → ∃ e, x = .indent false (.line [] (localVal c.a a) (localVal c.b b)) e := by
    intro c a b x hx
    simp only [localD, Option.bind_eq_bind, Option.bind_eq_some_iff, Option.some.injEq] at hx
    obtain ⟨e, -, rfl⟩ := hx
    exact ⟨e, rfl⟩
  have hz : ∀ p q, p.name = q.name ∧ SameTy c.toPair p.ty q.ty → localCost c p q = 0 := by
    intro p q h
    rw [localCost_eq]
    simp only [localPrices]
    rw [points_zero (by simp [h.1]), points_zero (by simp [h.2])]
  have hs : ∀ (l : List LocalVariable) v, v ∈ sortLocals l ↔ v ∈ l := fun l v => (stableSort_perm _ l).mem_iff
  refine listD_twin ho (A := fun _ _ _ => False) (B := fun _ _ _ => False) ?_ h h'
  refine ⟨fun _ => Nat.one_pos, fun a b => localCost_turn c a b, ?_, ?_, ?_, ?_, ?_, ?_, ?_⟩
  · rintro a _ x ⟨⟩ i m d
    exact iff_of_false (indent_ls (localVal_ne _ _) _ _ _ _) (fun h => h)
  · rintro a _ x ⟨⟩ i m d
    exact iff_of_false (indent_ls (localVal_ne _ _) _ _ _ _) (fun h => h)
  · intro a _ b _ x hx i m d
    obtain ⟨z, rfl⟩ := hd _ _ _ _ hx
    exact iff_of_false (indent_lines (localVal_ne _ _) _ _ _ _) (fun h => h.1)
  · intro a _ b _ x hx i m d
    obtain ⟨z, rfl⟩ := hd _ _ _ _ hx
    exact iff_of_false (indent_lines (localVal_ne _ _) _ _ _ _) (fun h => h.1)
  · intro a ha b hb x y hx hy
    simp only [localD, Option.bind_eq_bind, Option.bind_eq_some_iff, Option.some.injEq] at hx hy
    obtain ⟨z, hz, rfl⟩ := hx
    obtain ⟨w, hw, rfl⟩ := hy
    refine Twin.indent _ (Twin.lineSwap _ _ _) ?_
    cases hv : o.printVariableLocations
    · rw [hv] at hz hw
      cases hz; cases hw
      exact Twin.skip
    · obtain ⟨h1, h2, h3⟩ := hl hv a ((hs _ _).1 ha) b ((hs _ _).1 hb)
      refine whenD_twin hz hw fun s t hs' ht' => ?_
      simp only [Option.bind_eq_some_iff, Option.some.injEq] at hs' ht'
      obtain ⟨r1, hr1, rfl⟩ := hs'
      obtain ⟨r2, hr2, rfl⟩ := ht'
      exact Twin.seqs (.cons (Twin.ignoreDiff _ (Twin.lineSwap _ _ _)) (.cons (regsD_twin ho h3 hr1 hr2) (.cons (diffLocs_twin h1 h2) .nil)))
  · intro a ha b hb x hx _ i m d hq
    obtain ⟨z, rfl⟩ := hd _ _ _ _ hx
    exact hz a b (hr a ((hs _ _).1 ha) b ((hs _ _).1 hb) (indent_quiet hq))
  · intro a ha b hb x hx _ i m d hq
    obtain ⟨z, rfl⟩ := hd _ _ _ _ hx
    exact hz a b (hr a ((hs _ _).1 ha) b ((hs _ _).1 hb) (indent_quiet hq).symm)

/-! ### Calls -/

theorem originCost_turn (a b : Option CallOrigin) : originCost b a = originCost a b := by
  rcases a with _ | ⟨f⟩ | ⟨p⟩ <;> rcases b with _ | ⟨g⟩ | ⟨q⟩ <;> simp only [originCost, fnSame_comm]
  cases p <;> cases q <;> rfl

theorem callSiteCost_turn (a b : FunctionCall) : callSiteCost b a = callSiteCost a b := by
  simp only [callSiteCost, originCost_turn a.origin b.origin, eq_comm (a := b.kind), eq_comm (a := b.callAddress),
    eq_comm (a := b.returnAddress)]

theorem callCost_turn (c : FnPair) (a b : Nat × Nat) : callCost (turnFn c) b a = callCost c a b := by
  simp only [callCost, turnFn]
  cases c.a.fnByAddress a.2 <;> cases c.b.fnByAddress b.2 <;> simp only [fnSame_comm]

theorem callParamsAddD_twin (o : Options) (c : FnPair) : ∀ l e e', callParamsAddD o c l = some e →
    callParamsD o (turnFn c) l [] = some e' → Twin po e e'
  | [], _, _, h, h' => by
    simp only [callParamsD, callParamsAddD] at h h'
    cases h; cases h'
    exact Twin.skip
  | x :: l, e, e', h, h' => by
    simp only [callParamsD, callParamsAddD, Option.bind_eq_bind, Option.bind_eq_some_iff, Option.some.injEq] at h h'
    obtain ⟨p, hp, r, hr, rfl⟩ := h
    obtain ⟨p', hp', r', hr', rfl⟩ := h'
    cases Option.some.inj (hp.symm.trans hp')
    exact Twin.seq (Twin.deleted p).symm (callParamsAddD_twin o c l r r' hr hr')

/-- Two pieces that read the same are at the same place. -/
def PieceAlike (c : FnPair) (p q : Piece) : Prop := ∀ u v, locationVal c.a p.location = some u → locationVal c.b q.location = some v →
  u.text' = v.text' → p.location = q.location

/-- A piece of a parameter of a call. -/
def InParam (q : CallParameter) (p : Piece) : Prop := p ∈ q.location ∨ p ∈ q.value ∨ p ∈ q.dataLocation ∨ p ∈ q.dataValue

theorem callParamsD_twin (ho : po.html = false) {o : Options} (c : FnPair) : ∀ la lb,
    (o.printVariableLocations = true → ∀ x ∈ la, ∀ y ∈ lb, ∀ p q, InParam x p → InParam y q → PieceAlike c p q) → ∀ e e',
    callParamsD o c la lb = some e → callParamsD o (turnFn c) lb la = some e' → Twin po e e'
  | [], l, _, e, e', h, h' => by
    simp only [callParamsD] at h
    exact callParamsAddD_twin o c l e e' h h'
  | x :: la, [], _, e, e', h, h' => by
    simp only [callParamsD] at h'
    exact (callParamsAddD_twin o (turnFn c) (x :: la) e' e h' h).symm
  | x :: la, y :: lb, hl, e, e', h, h' => by
    simp only [callParamsD, callParamD, Option.bind_eq_bind, Option.bind_eq_some_iff, Option.some.injEq] at h h'
    obtain ⟨p, ⟨b, hb, rfl⟩, r, hr, rfl⟩ := h
    obtain ⟨p', ⟨b', hb', rfl⟩, r', hr', rfl⟩ := h'
    refine Twin.seq (Twin.indent _ (Twin.lineSwap _ _ _) ?_) (callParamsD_twin ho c la lb
      (fun hv x hx y hy => hl hv x (List.mem_cons_of_mem _ hx) y (List.mem_cons_of_mem _ hy)) r r' hr hr')
    cases hv : o.printVariableLocations
    · rw [hv] at hb hb'
      cases hb; cases hb'
      exact Twin.skip
    · have hh := hl hv x (List.mem_cons_self ..) y (List.mem_cons_self ..)
      refine whenD_twin hb hb' fun s t hs ht => ?_
      simp only [Option.bind_eq_some_iff, Option.some.injEq] at hs ht
      obtain ⟨l1, h1, l2, h2, l3, h3, l4, h4, rfl⟩ := hs
      obtain ⟨m1, g1, m2, g2, m3, g3, m4, g4, rfl⟩ := ht
      exact Twin.seqs (.cons (Twin.field _ _ (piecesD_twin ho (fun p hp q hq => hh p q (.inl hp) (.inl hq)) h1 g1))
        (.cons (Twin.field _ _ (piecesD_twin ho (fun p hp q hq => hh p q (.inr (.inl hp)) (.inr (.inl hq))) h2 g2))
        (.cons (Twin.field _ _ (piecesD_twin ho (fun p hp q hq => hh p q (.inr (.inr (.inl hp))) (.inr (.inr (.inl hq)))) h3 g3))
        (.cons (Twin.field _ _ (piecesD_twin ho (fun p hp q hq => hh p q (.inr (.inr (.inr hp))) (.inr (.inr (.inr hq)))) h4 g4)) .nil))))

theorem callHeader_ne (s : FnSide) (f : FunctionCall) : (callHeader s f).text' ≠ [] := by
  cases hk : f.kind <;> simp [callHeader, hk, vals, Val.text', k, Str.ofString]

theorem callSiteP_ls {s : FnSide} {dir : Option Str} {f : FunctionCall} {p : P} (h : callSiteP o s dir f = some p)
    (http : Bool) (i : Nat) (x : DiffPrefix) (d : Nat) : p.ls http i x d ≠ [] := by
  simp only [callSiteP, Option.bind_eq_bind, Option.bind_eq_some_iff, Option.some.injEq] at h
  obtain ⟨_, -, _, -, rfl⟩ := h
  exact indent_ls (callHeader_ne _ _) _ _ _ _

theorem callSiteD_facts (ho : po.html = false) {da db : Option Str} {f g : FunctionCall} {e : D}
    (h : callSiteD o c da db f g = some e) (i : Nat) (m : DiffPrefix) (d : Nat) : (e.den po i m d).1 ≠ [] ∧
      ((e.den po i m d).2.1 = false → (callHeader c.a f).text' = (callHeader c.b g).text' ∧
        (addressVal f.returnAddress).text' = (addressVal g.returnAddress).text') := by
  simp only [callSiteD, Option.bind_eq_bind, Option.bind_eq_some_iff, Option.some.injEq] at h
  obtain ⟨t, -, ps, -, rfl⟩ := h
  refine ⟨indent_lines (callHeader_ne _ _) _ _ _ _, fun hq => ⟨indent_quiet hq, ?_⟩⟩
  rw [indent_den] at hq
  have hd := seqs_den po ho [.line (k "return address") (addressVal f.returnAddress) (addressVal g.returnAddress), t,
    sourceD o da f.source db g.source, ps] (i + 1) .equal .equal d
  generalize (D.seqs [.line (k "return address") (addressVal f.returnAddress) (addressVal g.returnAddress), t,
    sourceD o da f.source db g.source, ps]).den po (i + 1) .equal d = r at hq hd
  by_cases h0 : r.1 = []
  · have := (line_empty _ _ _ _ _ _).1 (hd.1.1 h0 _ (List.mem_cons_self ..))
    rw [this.1, this.2]
  · rw [if_neg h0] at hq
    simp only [Bool.or_eq_false_iff] at hq
    refine line_quiet (po := po) (l := k "return address") (i := i + 1) (m := .equal) (d := d) ?_
    cases hf : ((D.line (k "return address") (addressVal f.returnAddress) (addressVal g.returnAddress)).den po (i + 1) .equal d).2.1
    · rfl
    · have := hd.2.2 ⟨_, List.mem_cons_self .., hf⟩
      rw [this] at hq
      cases hq.1

/-- A piece named at a call site. -/
def AtSite (s : FunctionCall) (p : Piece) : Prop := p ∈ s.target ∨ ∃ q ∈ s.parameters, InParam q p

theorem callSiteD_twin (ho : po.html = false) {da db : Option Str} {f g : FunctionCall}
    (hl : o.printVariableLocations = true → ∀ p q, AtSite f p → AtSite g q → PieceAlike c p q) {e e' : D}
    (h : callSiteD o c da db f g = some e) (h' : callSiteD o (turnFn c) db da g f = some e') : Twin po e e' := by
  simp only [callSiteD, Option.bind_eq_bind, Option.bind_eq_some_iff, Option.some.injEq] at h h'
  obtain ⟨t, ht, ps, hps, rfl⟩ := h
  obtain ⟨t', ht', ps', hps', rfl⟩ := h'
  refine Twin.indent _ (Twin.lineSwap _ _ _) (Twin.seqs (.cons (Twin.lineSwap _ _ _) (.cons ?_
    (.cons (sourceD_twin o da db _ _) (.cons ?_ .nil)))))
  · cases hv : o.printVariableLocations
    · rw [hv] at ht ht'
      cases ht; cases ht'
      exact Twin.skip
    · refine whenD_twin ht ht' fun a b ha hb => ?_
      simp only [Option.map_eq_some_iff] at ha hb
      obtain ⟨a, ha, rfl⟩ := ha
      obtain ⟨b, hb, rfl⟩ := hb
      exact Twin.field _ _ (piecesD_twin ho (fun p hp q hq => hl hv p q (.inl hp) (.inl hq)) ha hb)
  · rw [Bool.and_comm] at hps'
    refine whenD_twin hps hps' fun a b ha hb => ?_
    simp only [Option.map_eq_some_iff] at ha hb
    obtain ⟨a, ha, rfl⟩ := ha
    obtain ⟨b, hb, rfl⟩ := hb
    exact Twin.field _ _ (callParamsD_twin ho c _ _
      (fun hv x hx y hy p q hp hq => hl hv p q (.inr ⟨x, hx, hp⟩) (.inr ⟨y, hy, hq⟩)) _ _ ha hb)

theorem callSitesD_twin (ho : po.html = false) {da db : Option Str} {la lb : List FunctionCall}
    (hl : o.printVariableLocations = true → ∀ f ∈ la, ∀ g ∈ lb, ∀ p q, AtSite f p → AtSite g q → PieceAlike c p q)
    (hr : ∀ p ∈ la, ∀ q ∈ lb, (callHeader c.a p).text' = (callHeader c.b q).text' →
      (addressVal p.returnAddress).text' = (addressVal q.returnAddress).text' → SameSite p q)
    {e e' : D} (h : callSitesD o c da db la lb = some e) (h' : callSitesD o (turnFn c) db da lb la = some e') : Twin po e e' := by
  have hz : ∀ p q, SameSite p q → callSiteCost p q = 0 := by
    rintro p q ⟨h1, h2, h3, h4⟩
    rw [callSiteCost_eq]
    simp only [callSitePrices]
    rw [points_zero (by simp [h1]), points_zero (by simp [h2]), points_zero (by simp [h3]), h4]
  exact listD_twin ho (A := fun _ _ _ => False) (B := fun _ _ _ => False) {
    pos := fun _ => Nat.one_pos
    costs := fun a b => callSiteCost_turn a b
    old := fun a _ x hx i m d => iff_of_false (callSiteP_ls hx _ i m d) (fun h => h)
    new := fun a _ x hx i m d => iff_of_false (callSiteP_ls hx _ i m d) (fun h => h)
    empty := fun a _ b _ x hx i m d => iff_of_false (callSiteD_facts ho hx i m d).1 (fun h => h.1)
    empty' := fun a _ b _ x hx i m d => iff_of_false (callSiteD_facts ho hx i m d).1 (fun h => h.1)
    twin := fun a ha b hb x y hx hy => callSiteD_twin ho (fun hv => hl hv a ha b hb) hx hy
    quiet := fun a ha b hb x hx _ i m d hq => by
      have := (callSiteD_facts ho hx i m d).2 hq
      exact hz a b (hr a ha b hb this.1 this.2)
    quiet' := fun a ha b hb x hx _ i m d hq => by
      have := (callSiteD_facts ho hx i m d).2 hq
      exact hz a b (hr a ha b hb this.1.symm this.2.symm) } h h'

theorem callsD_twin (ho : po.html = false) {la lb : List (Nat × Nat)}
    (hr : ∀ p ∈ la, ∀ q ∈ lb, (callVal o c.a p).text' = (callVal o c.b q).text' →
      SameFnOpt (c.a.fnByAddress p.2) (c.b.fnByAddress q.2))
    {e e' : D} (h : callsD o c la lb = some e) (h' : callsD o (turnFn c) lb la = some e') : Twin po e e' := by
  have hz : ∀ p q : Nat × Nat, SameFnOpt (c.a.fnByAddress p.2) (c.b.fnByAddress q.2) → callCost c p q = 0 := by
    intro p q h
    rw [callCost_eq]
    simp only [callPrices]
    rw [points_zero (by simp [h])]
  refine listD_twin ho (A := fun a _ _ => (callVal o c.a a).text' = []) (B := fun b _ _ => (callVal o c.b b).text' = []) ?_ h h'
  refine ⟨fun _ => Nat.one_pos, fun a b => callCost_turn c a b, ?_, ?_, ?_, ?_, ?_, ?_, ?_⟩
  · rintro a _ x ⟨⟩ i m d
    by_cases h : (callVal o c.a a).text' = [] <;> simp [P.ls, h]
  · rintro a _ x ⟨⟩ i m d
    by_cases h : (callVal o c.b a).text' = [] <;> simp [P.ls, h]
  · rintro a _ b _ x ⟨⟩ i m d
    exact line_empty _ _ _ _ _ _
  · rintro a _ b _ x ⟨⟩ i m d
    exact (line_empty _ _ _ _ _ _).trans And.comm
  · rintro a _ b _ x y ⟨⟩ ⟨⟩
    exact Twin.lineSwap _ _ _
  · rintro a ha b hb x ⟨⟩ _ i m d hq
    exact hz a b (hr a ha b hb (line_quiet hq))
  · rintro a ha b hb x ⟨⟩ _ i m d hq
    exact hz a b (hr a ha b hb (line_quiet hq).symm)

/-! ### Stack frames -/

theorem frameEntryD_twin {a b : Option Int × Entry} {e e' : D} (h : frameEntryD c a b = some e)
    (h' : frameEntryD (turnFn c) b a = some e') : Twin po e e' := by
  simp only [frameEntryD, Option.bind_eq_bind, Option.bind_eq_some_iff, Option.some.injEq] at h h'
  obtain ⟨x, hx, y, hy, rfl⟩ := h
  obtain ⟨y', hy', x', hx', rfl⟩ := h'
  cases Option.some.inj (hx.symm.trans hx')
  cases Option.some.inj (hy.symm.trans hy')
  exact Twin.seq (Twin.lineSwap _ _ _) (Twin.lineSwap _ _ _)

theorem frameD_twin {x y : FunctionDetails} {e e' : D} (h : frameD c x y = some e) (h' : frameD (turnFn c) y x = some e') :
    Twin po e e' := by
  simp only [frameD, Option.bind_eq_bind, Option.bind_eq_some_iff, ordListD, Option.map_eq_some_iff] at h h'
  obtain ⟨va, hva, vb, hvb, ds, hds, rfl⟩ := h
  obtain ⟨vb', hvb', va', hva', ds', hds', rfl⟩ := h'
  cases Option.some.inj (hva.symm.trans hva')
  cases Option.some.inj (hvb.symm.trans hvb')
  rw [Nat.add_comm vb.length, merged_turn (cmp := fun x y : Option Int × Entry => Entry.cmp x.2 y.2)
    (fun a b => Std.OrientedCmp.eq_swap) va vb] at hds'
  generalize merged (fun x y : Option Int × Entry => Entry.cmp x.2 y.2) va vb (va.length + vb.length) = l at hds hds'
  refine Twin.seqs ?_
  induction l generalizing ds ds' with
  | nil => simp at hds hds'; subst hds hds'; exact .nil
  | cons z l ih =>
    simp only [List.map_cons, List.mapM_cons, Option.bind_eq_bind, Option.bind_eq_some_iff, Option.pure_def, Option.some.injEq] at hds hds'
    obtain ⟨u, hu, us, hus, rfl⟩ := hds
    obtain ⟨u', hu', us', hus', rfl⟩ := hds'
    refine .cons ?_ (ih us us' hus hus')
    cases z with
    | left a =>
      simp only [itemD, flipItem, Option.map_eq_some_iff] at hu hu'
      obtain ⟨p, hp, rfl⟩ := hu
      obtain ⟨p', hp', rfl⟩ := hu'
      cases Option.some.inj (hp.symm.trans hp')
      exact Twin.deleted p
    | right a =>
      simp only [itemD, flipItem, Option.map_eq_some_iff] at hu hu'
      obtain ⟨p, hp, rfl⟩ := hu
      obtain ⟨p', hp', rfl⟩ := hu'
      cases Option.some.inj (hp.symm.trans hp')
      exact (Twin.deleted p).symm
    | both a b => exact frameEntryD_twin hu hu'

/-! ### The places of a function -/

theorem FnReadAlike.paramPlaces {da db : Option Str} {x y : FunctionDetails} (ra : FnReadAlike o c da db x y)
    (hv : o.printVariableLocations = true) {p q : Parameter} (hp : ParamOf x p) (hq : ParamOf y q) :
    OneLoc ((frameLocations p.locations).map (·.2)) ∧ OneLoc ((frameLocations q.locations).map (·.2)) ∧
      ∀ r ∈ (registers p.locations).map (·.2), ∀ s ∈ (registers q.locations).map (·.2),
        Code.regVal c.a.regName r = Code.regVal c.b.regName s → r = s :=
  ⟨(ra.places hv).old.1 p hp, (ra.places hv).new.1 q hq,
    fun r hr s hs => (ra.places hv).regs r s (.inl ⟨p, hp, hr⟩) (.inl ⟨q, hq, hs⟩)⟩

theorem FnReadAlike.localPlaces {da db : Option Str} {x y : FunctionDetails} (ra : FnReadAlike o c da db x y)
    (hv : o.printVariableLocations = true) {p q : LocalVariable} (hp : LocalOf x p) (hq : LocalOf y q) :
    OneLoc (localFrameLocations p.locations) ∧ OneLoc (localFrameLocations q.locations) ∧
      ∀ r ∈ (registers p.locations).map (·.2), ∀ s ∈ (registers q.locations).map (·.2),
        Code.regVal c.a.regName r = Code.regVal c.b.regName s → r = s :=
  ⟨(ra.places hv).old.2 p hp, (ra.places hv).new.2 q hq,
    fun r hr s hs => (ra.places hv).regs r s (.inr ⟨p, hp, hr⟩) (.inr ⟨q, hq, hs⟩)⟩

theorem FnReadAlike.sitePlaces {da db : Option Str} {x y : FunctionDetails} (ra : FnReadAlike o c da db x y)
    (hv : o.printVariableLocations = true) {f g : FunctionCall} (hf : SiteOf x f) (hg : SiteOf y g) (p q : Piece)
    (hp : AtSite f p) (hq : AtSite g q) : PieceAlike c p q :=
  fun u v hu hv' h => (ra.places hv).places _ _ ⟨f, hf, p, rfl, hp⟩ ⟨g, hg, q, rfl, hq⟩ u v hu hv' h

/-! ### Inlined functions -/

theorem inlinedP_ls {s : FnSide} {dir : Option Str} {n : Nat} {f : InlinedFunction} {p : P} (h : inlinedP o s dir n f = some p)
    (http : Bool) (i : Nat) (x : DiffPrefix) (d : Nat) : p.ls http i x d ≠ [] := by
  cases n with
  | zero => simp [inlinedP] at h
  | succ n =>
    simp only [inlinedP, Option.bind_eq_bind, Option.bind_eq_some_iff, Option.some.injEq] at h
    obtain ⟨_, -, _, -, rfl⟩ := h
    exact indent_ls (inlinedVal_ne _ _) _ _ _ _

theorem inlinedD_facts (ho : po.html = false) {da db : Option Str} {n : Nat} {f g : InlinedFunction} {e : D}
    (h : inlinedD o c da db n f g = some e) (i : Nat) (m : DiffPrefix) (d : Nat) : (e.den po i m d).1 ≠ [] ∧
      ((e.den po i m d).2.1 = false → (inlinedVal c.a f).text' = (inlinedVal c.b g).text' ∧
        (o.printSource = true → (sourceVal da f.callSource).text' = (sourceVal db g.callSource).text')) := by
  cases n with
  | zero => simp [inlinedD] at h
  | succ n =>
    simp only [inlinedD, Option.bind_eq_bind, Option.bind_eq_some_iff, Option.some.injEq] at h
    obtain ⟨ps, -, vs, -, cs, -, il, -, rfl⟩ := h
    refine ⟨indent_lines (inlinedVal_ne _ _) _ _ _ _, fun hq => ⟨indent_quiet hq, fun hp => ?_⟩⟩
    rw [indent_den] at hq
    rw [if_pos hp] at hq
    have hd := seqs_den po ho [.line (k "call source") (sourceVal da f.callSource) (sourceVal db g.callSource), ps, vs, cs, .inline il]
      (i + 1) .equal .equal d
    generalize (D.seqs [.line (k "call source") (sourceVal da f.callSource) (sourceVal db g.callSource), ps, vs, cs, .inline il]).den po
      (i + 1) .equal d = r at hq hd
    by_cases h0 : r.1 = []
    · have := hd.1.1 h0 _ (List.mem_cons_self ..)
      have := (line_empty _ _ _ _ _ _).1 this
      rw [this.1, this.2]
    · rw [if_neg h0] at hq
      simp only [Bool.or_eq_false_iff] at hq
      refine line_quiet (po := po) (l := k "call source") (i := i + 1) (m := .equal) (d := d) ?_
      cases hf : ((D.line (k "call source") (sourceVal da f.callSource) (sourceVal db g.callSource)).den po (i + 1) .equal d).2.1
      · rfl
      · have := hd.2.2 ⟨_, List.mem_cons_self .., hf⟩
        rw [this] at hq
        cases hq.1

theorem inlineds_lists (ho : po.html = false) {da db : Option Str} {x y : FunctionDetails} (ra : FnReadAlike o c da db x y)
    {n : Nat} {la lb : List InlinedFunction} (hla : ∀ f ∈ la, Inside x f) (hlb : ∀ f ∈ lb, Inside y f)
    (ht : ∀ f g, Inside x f → Inside y g → ∀ e e', inlinedD o c da db n f g = some e →
      inlinedD o (turnFn c) db da n g f = some e' → Twin po e e') :
    Lists po (inlinedP o c.a da n) (inlinedP o c.b db n) (inlinedD o c da db n) (inlinedD o (turnFn c) db da n) inlinedStep
      (inlinedCost c da db) (inlinedCost (turnFn c) db da) (fun _ _ _ => False) (fun _ _ _ => False) la lb := by
  have hz : ∀ f g, SameFnOpt (c.a.fnAt f.origin) (c.b.fnAt g.origin) ∧ SamePlace da db f.callSource g.callSource →
      inlinedCost c da db f g = 0 := by
    intro f g h
    rw [inlinedCost_eq]
    simp only [inlinedPrices]
    rw [points_zero (by simp [h.1]), points_zero (by simp [h.2]), Nat.zero_mul]
  exact {
    pos := fun f => by unfold inlinedStep; omega
    costs := fun a b => inlinedCost_turn c da db a b
    old := fun a _ x hx i m d => iff_of_false (inlinedP_ls hx _ i m d) (fun h => h)
    new := fun a _ x hx i m d => iff_of_false (inlinedP_ls hx _ i m d) (fun h => h)
    empty := fun a _ b _ x hx i m d => iff_of_false (inlinedD_facts ho hx i m d).1 (fun h => h.1)
    empty' := fun a _ b _ x hx i m d => iff_of_false (inlinedD_facts ho hx i m d).1 (fun h => h.1)
    twin := fun a ha b hb x y hx hy => ht a b (hla a ha) (hlb b hb) x y hx hy
    quiet := fun a ha b hb x hx _ i m d hq => by
      have := (inlinedD_facts ho hx i m d).2 hq
      exact hz a b (ra.inlined a b (hla a ha) (hlb b hb) this.1 this.2)
    quiet' := fun a ha b hb x hx _ i m d hq => by
      have := (inlinedD_facts ho hx i m d).2 hq
      exact hz a b (ra.inlined a b (hla a ha) (hlb b hb) this.1.symm (fun hp => (this.2 hp).symm)) }

theorem inlinedD_twin (ho : po.html = false) {da db : Option Str} {x y : FunctionDetails} (ra : FnReadAlike o c da db x y) (n : Nat) :
    ∀ f g, Inside x f → Inside y g → ∀ e e', inlinedD o c da db n f g = some e →
      inlinedD o (turnFn c) db da n g f = some e' → Twin po e e' := by
  induction n with
  | zero => intro f g _ _ e e' h; simp [inlinedD] at h
  | succ n ih =>
    intro f g hf hg e e' h h'
    simp only [inlinedD, Option.bind_eq_bind, Option.bind_eq_some_iff, Option.some.injEq] at h h'
    obtain ⟨ps, hps, vs, hvs, cs, hcs, il, hil, rfl⟩ := h
    obtain ⟨ps', hps', vs', hvs', cs', hcs', il', hil', rfl⟩ := h'
    refine Twin.indent _ (Twin.lineSwap _ _ _) (Twin.seqs (.cons ?_ (.cons ?_ (.cons ?_ (.cons ?_ (.cons ?_ .nil))))))
    · exact Twin.whenSkip (Twin.lineSwap _ _ _)
    · refine whenD_twin hps hps' fun a b ha hb => ?_
      simp only [Option.map_eq_some_iff] at ha hb
      obtain ⟨a, ha, rfl⟩ := ha
      obtain ⟨b, hb, rfl⟩ := hb
      exact Twin.field _ _ (paramsD_twin ho (fun p hp q hq => ra.param p q (.inr ⟨f, hf, hp⟩) (.inr ⟨g, hg, hq⟩))
        (fun hv p hp q hq => ra.paramPlaces hv (.inr ⟨f, hf, hp⟩) (.inr ⟨g, hg, hq⟩)) ha hb)
    · refine whenD_twin hvs hvs' fun a b ha hb => ?_
      simp only [Option.map_eq_some_iff] at ha hb
      obtain ⟨a, ha, rfl⟩ := ha
      obtain ⟨b, hb, rfl⟩ := hb
      exact Twin.field _ _ (localsD_twin ho (fun p hp q hq => ra.locals p q (.inr ⟨f, hf, hp⟩) (.inr ⟨g, hg, hq⟩))
        (fun hv p hp q hq => ra.localPlaces hv (.inr ⟨f, hf, hp⟩) (.inr ⟨g, hg, hq⟩)) ha hb)
    · cases hpc : o.printFunctionCalls
      · rw [hpc] at hcs hcs'
        cases hcs; cases hcs'
        exact Twin.skip
      · rw [hpc] at hcs hcs'
        refine whenD_twin hcs hcs' fun a b ha hb => ?_
        simp only [Option.map_eq_some_iff] at ha hb
        obtain ⟨a, ha, rfl⟩ := ha
        obtain ⟨b, hb, rfl⟩ := hb
        exact Twin.field _ _ (callSitesD_twin ho (fun hv p hp q hq => ra.sitePlaces hv (.inr ⟨f, hf, hp⟩) (.inr ⟨g, hg, hq⟩))
        (fun p hp q hq => ra.sites hpc p q (.inr ⟨f, hf, hp⟩) (.inr ⟨g, hg, hq⟩)) ha hb)
    · exact Twin.inline (listD_twin ho (inlineds_lists ho ra (fun i hi => .deeper hf hi) (fun i hi => .deeper hg hi) ih) hil hil')

/-! ### Functions -/

theorem rangesD_twin (ra rb : List Range) : Twin po (rangesD ra rb) (rangesD rb ra) := by
  unfold rangesD
  by_cases h : ra.length > 1 ∨ rb.length > 1
  · rw [if_pos h, if_pos (Or.comm.1 h)]
    exact Twin.field _ _ (rangeItemsD_twin _ _)
  · rw [if_neg h, if_neg (fun h' => h (Or.comm.1 h'))]
    exact Twin.lineSwap _ _ _

theorem functionD_twin (ho : po.html = false) {da db : Option Str} (uid uid' : Nat) (n : Nat) {f g : Function}
    (ra : FnReadAlike o c da db (c.a.details f) (c.b.details g)) (rc : CallsAlike o c f g) {e e' : D}
    (h : functionD o c uid da db n f g = some e) (h' : functionD o (turnFn c) uid' db da n g f = some e') : Twin po e e' := by
  simp only [functionD, fnBodyD, Option.bind_eq_bind, Option.bind_eq_some_iff, Option.some.injEq] at h h'
  obtain ⟨_, ⟨ps, hps, vs, hvs, fr, hfr, il, hil, si, hsi, ca, hca, ins, hins, rfl⟩, rfl⟩ := h
  obtain ⟨_, ⟨ps', hps', vs', hvs', fr', hfr', il', hil', si', hsi', ca', hca', ins', hins', rfl⟩, rfl⟩ := h'
  refine Twin.seq (Twin.id _ _ (Twin.lineSwap _ _ _) (Twin.seqs ?_)) Twin.lineBreak
  refine .cons (Twin.ignoreDiff _ (Twin.lineSwap _ _ _)) (.cons (Twin.ignoreDiff _ (Twin.lineSwap _ _ _))
    (.cons (sourceD_twin o da db _ _) (.cons (Twin.ignoreDiff _ (rangesD_twin _ _)) (.cons (Twin.ignoreDiff _ (Twin.lineSwap _ _ _))
    (.cons (Twin.ignoreDiff _ (Twin.lineSwap _ _ _)) (.cons (Twin.lineSwap _ _ _) (.cons (Twin.field _ _ (Twin.lineSwap _ _ _))
    (.cons (Twin.field _ _ ?_) (.cons ?_ (.cons ?_ (.cons (Twin.inline (Twin.field _ _ ?_)) (.cons ?_ (.cons ?_
    (.cons ?_ .nil))))))))))))))
  · exact paramsD_twin ho (fun p hp q hq => ra.param p q (.inl hp) (.inl hq))
        (fun hv p hp q hq => ra.paramPlaces hv (.inl hp) (.inl hq)) hps hps'
  · refine whenD_twin hvs hvs' fun a b ha hb => ?_
    simp only [Option.map_eq_some_iff] at ha hb
    obtain ⟨a, ha, rfl⟩ := ha
    obtain ⟨b, hb, rfl⟩ := hb
    exact Twin.field _ _ (localsD_twin ho (fun p hp q hq => ra.locals p q (.inl hp) (.inl hq))
        (fun hv p hp q hq => ra.localPlaces hv (.inl hp) (.inl hq)) ha hb)
  · refine whenD_twin hfr hfr' fun a b ha hb => ?_
    simp only [Option.map_eq_some_iff] at ha hb
    obtain ⟨a, ha, rfl⟩ := ha
    obtain ⟨b, hb, rfl⟩ := hb
    exact Twin.field _ _ (frameD_twin ha hb)
  · exact listD_twin ho (inlineds_lists ho ra (fun i hi => .top hi) (fun i hi => .top hi) (inlinedD_twin ho ra n)) hil hil'
  · cases hpc : o.printFunctionCalls
    · rw [hpc] at hsi hsi'
      cases hsi; cases hsi'
      exact Twin.skip
    · rw [hpc] at hsi hsi'
      refine whenD_twin hsi hsi' fun a b ha hb => ?_
      simp only [Option.map_eq_some_iff] at ha hb
      obtain ⟨a, ha, rfl⟩ := ha
      obtain ⟨b, hb, rfl⟩ := hb
      exact Twin.field _ _ (callSitesD_twin ho (fun hv p hp q hq => ra.sitePlaces hv (.inl hp) (.inl hq))
        (fun p hp q hq => ra.sites hpc p q (.inl hp) (.inl hq)) ha hb)
  · cases hpc : o.printFunctionCalls
    · rw [hpc] at hca hca'
      cases hca; cases hca'
      exact Twin.skip
    · refine whenD_twin hca hca' fun a b ha hb => ?_
      simp only [Option.bind_eq_some_iff, Option.map_eq_some_iff] at ha hb
      obtain ⟨la, hla, lb, hlb, a, ha, rfl⟩ := ha
      obtain ⟨lb', hlb', la', hla', b, hb, rfl⟩ := hb
      cases Option.some.inj (hla.symm.trans hla')
      cases Option.some.inj (hlb.symm.trans hlb')
      exact Twin.field _ _ (callsD_twin ho (fun p hp q hq => rc hpc la lb hla hlb p hp q hq) ha hb)
  · refine whenD_twin hins hins' fun a b ha hb => ?_
    simp only [Option.bind_eq_some_iff, Option.some.injEq] at ha hb
    obtain ⟨p, hp, q, hq, rfl⟩ := ha
    obtain ⟨q', hq', p', hp', rfl⟩ := hb
    have e1 : some p = some p' := hp.symm.trans hp'
    have e2 : some q = some q' := hq.symm.trans hq'
    cases e1; cases e2
    exact Twin.field _ _ (Twin.ignoreDiff _ (Twin.block _ _))

end Verif.Turn
