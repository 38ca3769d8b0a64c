import Verif.Show.FileProps
/-!
# What is compared with itself has equal values everywhere

As `Show.FnSelf` and the first part of `Show.FileProps`, for values that are equal, not only of the same text: links are
the same, too.
-/
namespace Verif.Show
open Verif.Print Verif.Item Verif.Namespace Verif.Types Verif.Path Verif.Opts Verif.Merge Verif.Range
  Verif.Frame Verif.Layout Verif.File Verif.Order

/-- Both sides supply equal values everywhere, and no item is added or removed. -/
def _root_.Verif.Print.D.Alike : D → Prop
  | .seq p q => p.Alike ∧ q.Alike
  | .line _ a b => a = b
  | .indent _ h b => h.Alike ∧ b.Alike
  | .field _ _ b => b.Alike
  | .id _ h b => h.Alike ∧ b.Alike
  | .inline d => d.Alike
  | .printIfDiff d => d.Alike
  | .ignoreDiff _ d => d.Alike
  | .prefixDelete _ => False
  | .prefixAdd _ => False
  | .block a b => a = .skip ∧ b = .skip
  | .skip => True
  | .lineBreak => True
  | .label _ => True

theorem D.alike_seqs {es : List D} (h : ∀ e ∈ es, e.Alike) : (D.seqs es).Alike := by
  induction es with
  | nil => trivial
  | cons e es ih =>
    exact ⟨h e (List.mem_cons_self ..), ih fun e he => h e (List.mem_cons_of_mem _ he)⟩

/-- Every diff there is has equal values on both sides. -/
def RelA (d : Option D) : Prop := ∀ e, d = some e → e.Alike

theorem listD_alike {α : Type} {Q : Heap} {print print' : α → Option P} {diff : α → α → Option D}
    {c1 c2 : α → Nat} {cost : α → α → Nat} {l : List α}
    (hc : ∀ a ∈ l, cost a a = 0) (h1 : ∀ a ∈ l, 0 < c1 a) (h2 : ∀ a ∈ l, 0 < c2 a)
    (hd : ∀ a ∈ l, RelA (diff a a)) : RelA (listD Q print print' diff c1 c2 cost l l) := by
  intro e he
  have htot : replaceCost c1 c2 l l < usizeMax := by
    unfold listD at he
    split at he
    · assumption
    · cases he
  obtain ⟨items, es, -, hi, hes, rfl⟩ := listD_inv he
  have h := C21_self Q (l.map fun a => (a, a)) c1 c2 cost (by simpa using hc) (by simpa using h1)
    (by simpa using h2) (by simpa [Function.comp_def] using htot) (enoughFuel l l)
    (by simp [enoughFuel])
  simp only [List.map_map, Function.comp_def, List.map_id'] at h
  rw [h] at hi
  cases hi
  refine D.alike_seqs fun e hem => ?_
  obtain ⟨it, hit, hie⟩ := mapM_mem hes e hem
  obtain ⟨a, ha, rfl⟩ := List.mem_map.1 hit
  exact hd a ha e hie


theorem memberD_alike {c : Pair} (hab : c.a = c.b) {r : Recs} (hr : ∀ t, RelA (r.d t t)) (m : Member) :
    RelA (memberD c r m m) := by
  intro e he
  simp only [memberD, Option.bind_eq_bind, Option.bind_eq_some_iff, Option.some.injEq] at he
  obtain ⟨d, hd, rfl⟩ := he
  rw [hab] at hd
  exact ⟨by rw [hab]; rfl, hr _ d hd⟩

theorem layoutItemD_alike {c : Pair} (hab : c.a = c.b) {r : Recs} (hr : ∀ t, RelA (r.d t t))
    {pa pb : Layout → List Variant → Option P}
    {d : Layout → List Variant → Layout → List Variant → Option D}
    (hd : ∀ l v, RelA (d l v l v)) (l : Layout) : RelA (layoutItemD c r pa pb d l l) := by
  intro e he
  unfold layoutItemD at he
  cases h : l.item with
  | padding => simp only [h] at he; cases he; exact rfl
  | member m => simp only [h] at he; exact memberD_alike hab hr m e he
  | variantPart v =>
    simp only [h, Option.bind_eq_bind, Option.bind_eq_some_iff, Option.some.injEq] at he
    obtain ⟨f, hf, rfl⟩ := he
    exact ⟨rfl, hd _ _ f hf⟩
  | inherit i => simp only [h] at he; cases he; simp [D.Alike, hab]

theorem variantD_alike {c : Pair} (hab : c.a = c.b) (hs : ∀ o t, fromOffset c.b.hash o = some t → c.same t t = true) {r : Recs}
    (hr : ∀ t, RelA (r.d t t)) (l : Layout) (v : Variant) : RelA (variantD c r l l v v) := by
  intro e he
  simp only [variantD, Option.bind_eq_bind, Option.bind_eq_some_iff, Option.some.injEq, hab] at he
  obtain ⟨f, hf, rfl⟩ := he
  refine ⟨rfl, listD_alike (fun a _ => layoutCost_self hab hs a) (by simp) (by simp)
    (fun a _ => layoutItemD_alike hab hr (fun _ _ e he => by cases he; trivial) a) f hf⟩

theorem layoutD_alike {c : Pair} (hab : c.a = c.b) (hs : ∀ o t, fromOffset c.b.hash o = some t → c.same t t = true) {r : Recs}
    (hr : ∀ t, RelA (r.d t t)) (l : Layout) : RelA (layoutD c r l l) :=
  layoutItemD_alike hab hr (fun l v => listD_alike (fun a _ => by simp [variantCost]) (by simp) (by simp)
    (fun a _ => variantD_alike hab hs hr l a)) l

theorem membersD_alike {c : Pair} (hab : c.a = c.b) (hs : ∀ o t, fromOffset c.b.hash o = some t → c.same t t = true) (n : Nat) :
    ∀ t, RelA (membersD c n t t) := by
  induction n with
  | zero => intro t e he; cases he
  | succ n ih =>
    have other : ∀ t, membersP c.a (n + 1) t = some .skip → membersP c.b (n + 1) t = some .skip →
        RelA (do
          let p ← membersP c.a (n + 1) t
          let q ← membersP c.b (n + 1) t
          some (.block p q)) := by
      intro t h1 h2 e he
      simp only [h1, h2, Option.bind_eq_bind, Option.bind_some, Option.some.injEq] at he
      subst he
      exact ⟨rfl, rfl⟩
    intro t
    cases t with
    | none => exact other none rfl rfl
    | some t =>
      cases t with
      | struct_ ns name size ms vps inh =>
        simp only [membersD]
        rw [hab]
        exact listD_alike (fun a _ => layoutCost_self hab hs a) (by simp) (by simp)
          (fun a _ => layoutD_alike hab hs ih a)
      | union_ ns name size ms =>
        simp only [membersD]
        exact listD_alike (fun a _ => memberCost_self hab hs a) (by simp) (by simp)
          (fun a _ => memberD_alike hab ih a)
      | _ => exact other _ rfl rfl


theorem whenD_alike {b : Bool} {d : Option D} (h : RelA d) : RelA (whenD b d) := by
  cases b
  · intro e he; cases he; trivial
  · exact h

theorem mapField_alike (c : Bool) (l : Str) {d : Option D} (h : RelA d) : RelA (d.map (.field c l)) := by
  intro e he
  simp only [Option.map_eq_some_iff] at he
  obtain ⟨f, hf, rfl⟩ := he
  exact h f hf

section
variable {c : FnPair} (hab : c.a = c.b)
  (hs : ∀ o t, fromOffset c.b.hash o = some t → c.same t t = true)
include hab

theorem regsD_alike (l : List Nat) : RelA (regsD c l l) :=
  mapField_alike _ _ (listD_alike (by simp) (by simp) (by simp) fun a _ e he => by cases he; simp [D.Alike, hab])

theorem piecesD_alike (l : List Piece) : RelA (piecesD c l l) :=
  listD_alike (by simp) (by simp) (by simp) fun a _ e he => by
    simp only [locationD, Option.bind_eq_bind, Option.bind_eq_some_iff, Option.some.injEq, hab] at he
    obtain ⟨x, hx, y, hy, rfl⟩ := he
    rw [hx] at hy
    cases hy
    exact rfl

omit hab in
theorem diffLocs_alike (l : List FrameLocation) : (diffLocs l l).Alike := by
  unfold diffLocs
  simp only
  split
  · rw [merged_self cmpLoc (fun a => Std.ReflCmp.compare_self) _ _ (by omega)]
    refine D.alike_seqs fun e he => ?_
    simp only [List.map_map, List.mem_map, Function.comp] at he
    obtain ⟨a, -, rfl⟩ := he
    exact rfl
  · exact rfl

omit hab in
theorem rangesD_alike (l : List Range) : (rangesD l l).Alike := by
  unfold rangesD
  split
  · rw [merged_self cmpRange (fun a => by simp [cmpRange]) _ _ (by omega)]
    refine D.alike_seqs fun e he => ?_
    simp only [List.map_map, List.mem_map, Function.comp] at he
    obtain ⟨a, -, rfl⟩ := he
    exact rfl
  · exact rfl

include hs in
theorem paramsD_alike (o : Options) (l : List Parameter) : RelA (paramsD o c l l) := by
  refine listD_alike (fun a _ => ?_) (by simp) (by simp) fun a _ e he => ?_
  · simp only [paramCost, if_true]
    rw [tyCost_self (c := c.toPair) (by simp [FnPair.toPair, hab]) hs]
  · simp only [paramD, Option.bind_eq_bind, Option.bind_eq_some_iff, Option.some.injEq] at he
    obtain ⟨body, hbody, rfl⟩ := he
    refine ⟨by simp [D.Alike, hab], ?_⟩
    refine whenD_alike (fun e he => ?_) body hbody
    simp only [Option.bind_eq_some_iff, Option.some.injEq] at he
    obtain ⟨rs, hrs, rfl⟩ := he
    exact ⟨regsD_alike hab _ rs hrs, diffLocs_alike _⟩

include hs in
theorem localsD_alike (o : Options) (l : List LocalVariable) : RelA (localsD o c l l) := by
  refine listD_alike (fun a _ => ?_) (by simp) (by simp) fun a _ e he => ?_
  · simp only [localCost, if_true]
    rw [tyCost_self (c := c.toPair) (by simp [FnPair.toPair, hab]) hs]
  · simp only [localD, Option.bind_eq_bind, Option.bind_eq_some_iff, Option.some.injEq] at he
    obtain ⟨body, hbody, rfl⟩ := he
    refine ⟨by simp [D.Alike, hab], ?_⟩
    refine whenD_alike (fun e he => ?_) body hbody
    simp only [Option.bind_eq_some_iff, Option.some.injEq] at he
    obtain ⟨rs, hrs, rfl⟩ := he
    exact ⟨rfl, regsD_alike hab _ rs hrs, diffLocs_alike _, trivial⟩

theorem callParamsD_alike (o : Options) (l : List CallParameter) : RelA (callParamsD o c l l) := by
  induction l with
  | nil => intro e he; simp only [callParamsD, callParamsAddD, Option.some.injEq] at he; subst he; trivial
  | cons a l ih =>
    intro e he
    simp only [callParamsD, callParamsAddD, Option.bind_eq_bind, Option.bind_eq_some_iff, Option.some.injEq] at he
    obtain ⟨f, hf, r, hr, rfl⟩ := he
    refine ⟨?_, ih r hr⟩
    simp only [callParamD, Option.bind_eq_bind, Option.bind_eq_some_iff, Option.some.injEq] at hf
    obtain ⟨body, hbody, rfl⟩ := hf
    refine ⟨by simp [D.Alike, hab], ?_⟩
    refine whenD_alike (fun e he => ?_) body hbody
    simp only [Option.bind_eq_some_iff, Option.some.injEq] at he
    obtain ⟨l, hl, v, hv', dl, hdl, dv, hdv, rfl⟩ := he
    exact ⟨piecesD_alike hab _ l hl, piecesD_alike hab _ v hv', piecesD_alike hab _ dl hdl, piecesD_alike hab _ dv hdv, trivial⟩

omit hab in
theorem sourceD_alike (o : Options) (dir : Option Str) (z : Source) : (sourceD o dir z dir z).Alike := by
  unfold sourceD; split
  · exact rfl
  · trivial

theorem callSitesD_alike (o : Options) (dir : Option Str) (l : List FunctionCall) : RelA (callSitesD o c dir dir l l) := by
  refine listD_alike (fun a _ => ?_) (by simp) (by simp) fun a _ e he => ?_
  · simp only [callSiteCost, if_true, Nat.zero_add]
    cases a.origin with
    | none => rfl
    | some x =>
      cases x with
      | direct f => simp [originCost, fnSame_self]
      | indirect f => cases f <;> rfl
  · simp only [callSiteD, Option.bind_eq_bind, Option.bind_eq_some_iff, Option.some.injEq] at he
    obtain ⟨t, ht, ps, hps, rfl⟩ := he
    refine ⟨by simp [D.Alike, hab], rfl, ?_, sourceD_alike .., ?_, trivial⟩
    · exact whenD_alike (mapField_alike _ _ (piecesD_alike hab _)) t ht
    · exact whenD_alike (mapField_alike _ _ (callParamsD_alike hab o _)) ps hps

include hs in
theorem inlinedD_alike (o : Options) (dir : Option Str) (n : Nat) (l : List InlinedFunction) :
    RelA (listD c.heap (inlinedP o c.a dir n) (inlinedP o c.b dir n) (inlinedD o c dir dir n)
      inlinedStep inlinedStep (inlinedCost c dir dir) l l) := by
  induction n generalizing l with
  | zero =>
    refine listD_alike (fun a _ => ?_) (by simp [inlinedStep]; omega) (by simp [inlinedStep]; omega)
      fun a _ e he => by cases he
    simp only [inlinedCost, and_self, if_true, hab, Nat.add_zero]
    cases c.b.fnAt a.origin <;> simp [inlinedOriginCost, fnSame_self]
  | succ n ih =>
    refine listD_alike (fun a _ => ?_) (by simp [inlinedStep]; omega) (by simp [inlinedStep]; omega)
      fun a _ e he => ?_
    · simp only [inlinedCost, and_self, if_true, hab, Nat.add_zero]
      cases c.b.fnAt a.origin <;> simp [inlinedOriginCost, fnSame_self]
    · simp only [inlinedD, Option.bind_eq_bind, Option.bind_eq_some_iff, Option.some.injEq] at he
      obtain ⟨ps, hps, vs, hvs, cs, hcs, inl, hinl, rfl⟩ := he
      refine ⟨by simp [D.Alike, hab], ?_, whenD_alike (mapField_alike _ _ (paramsD_alike hab hs o _)) ps hps,
        whenD_alike (mapField_alike _ _ (localsD_alike hab hs o _)) vs hvs,
        whenD_alike (mapField_alike _ _ (callSitesD_alike hab o dir _)) cs hcs, ih _ inl hinl, trivial⟩
      split
      · exact rfl
      · trivial

theorem callsD_alike (o : Options) (l : List (Nat × Nat)) : RelA (callsD o c l l) := by
  refine listD_alike (fun a _ => ?_) (by simp) (by simp) fun a _ e he => by cases he; simp [D.Alike, hab]
  simp only [callCost, hab]
  cases c.b.fnByAddress a.2 <;> simp [fnSame_self]

theorem frameD_alike (d : FunctionDetails) : RelA (frameD c d d) := by
  intro e he
  simp only [frameD, Option.bind_eq_bind, Option.bind_eq_some_iff, ordListD, Option.map_eq_some_iff, hab] at he
  obtain ⟨va, hva, vb, hvb, es, hes, rfl⟩ := he
  rw [hva] at hvb
  cases hvb
  rw [merged_self (fun x y : Option Int × Entry => Entry.cmp x.2 y.2) (fun a => Std.ReflCmp.compare_self (cmp := Entry.cmp)) _ _ (by omega)] at hes
  refine D.alike_seqs fun e he => ?_
  obtain ⟨it, hit, hie⟩ := mapM_mem hes e he
  obtain ⟨a, -, rfl⟩ := List.mem_map.1 hit
  simp only [itemD, frameEntryD, Option.bind_eq_bind, Option.bind_eq_some_iff, Option.some.injEq] at hie
  obtain ⟨x, hx, y, hy, rfl⟩ := hie
  rw [hx] at hy
  cases hy
  exact ⟨rfl, by simp [D.Alike, hab]⟩

end


theorem rangeItemsD_alike (l : List Range) : (rangeItemsD l l).Alike := by
  unfold rangeItemsD
  rw [merged_self cmpRange (fun a => by simp [cmpRange]) _ _ (by omega)]
  refine D.alike_seqs fun e he => ?_
  simp only [List.map_map, List.mem_map, Function.comp] at he
  obtain ⟨a, -, rfl⟩ := he
  exact rfl

theorem fieldU64_alike (l : Str) (a : Nat) (e : D) (h : D.fieldU64 l a a = some e) : e.Alike ∧ e.NoHide := by
  simp only [D.fieldU64, fieldU64Val, ne_eq, not_true_eq_false, if_false, Option.some.injEq] at h
  subst h
  exact ⟨rfl, trivial⟩

theorem sizeLineD_alike (l : Str) (a : Nat) (e : D) (h : sizeLineD l a a = some e) : e.Alike := by
  unfold sizeLineD at h
  split at h
  · exact (fieldU64_alike l a e h).1
  · cases h; trivial

theorem unitPartD_alike (o : Options) (s : Side) (u : CompUnit) : RelA (unitPartD o s s u u) := by
  intro e he
  simp only [unitPartD, Option.bind_eq_bind, Option.bind_eq_some_iff, Option.some.injEq] at he
  obtain ⟨fa, hfa, fb, hfb, va, hva, vb, hvb, wa, hwa, wb, hwb, f, hf, x, hx, w, hw, rfl⟩ := he
  rw [hfa] at hfb; cases hfb
  rw [hva] at hvb; cases hvb
  rw [hwa] at hwb; cases hwb
  refine ⟨?_, sizeLineD_alike _ _ _ hf, sizeLineD_alike _ _ _ hx, sizeLineD_alike _ _ _ hw, trivial, trivial⟩
  split
  · refine ⟨?_, rangeItemsD_alike _⟩
    split
    · exact rangeItemsD_alike _
    · exact rfl
  · trivial


theorem filePartD_alike (o : Options) (s : FileSide) (same : Ty → Ty → Bool) (heap : Heap) :
    RelA (filePartD o ⟨s, s, same, heap⟩) := by
  intro e he
  simp only [filePartD, diffSummaries, Option.bind_eq_bind, Option.bind_eq_some_iff, Option.some.injEq, Option.pure_def] at he
  obtain ⟨m, ⟨sa, ha, sb, hb, rfl⟩, size, h1, fn, h2, var, h3, other, h4, sections, h5, rfl⟩ := he
  rw [ha] at hb
  cases hb
  refine ⟨⟨rfl, ?_, (fieldU64_alike _ _ _ h1).1, (fieldU64_alike _ _ _ h2).1, (fieldU64_alike _ _ _ h3).1,
    (fieldU64_alike _ _ _ h4).1, ?_, trivial⟩, trivial⟩
  · split
    · exact rangeItemsD_alike _
    · trivial
  · refine listD_alike (fun a _ => by simp [sectionCost]) (by simp) (by simp) (fun a _ e he => ?_) sections h5
    simp only [sectionD, Option.bind_eq_bind, Option.bind_eq_some_iff, Option.some.injEq] at he
    obtain ⟨z, hz, rfl⟩ := he
    exact ⟨rfl, rfl, (fieldU64_alike _ _ _ hz).1⟩


/-! ### Types, functions, units, files -/

theorem typeD_alike {o : Options} {s : Side} {same : Ty → Ty → Bool} {heap : Heap}
    (hs : ∀ o t, fromOffset s.hash o = some t → same t t = true) {dir : Option Str} {n : Nat} {t : TypeEntry} {e : D}
    (he : typeD o ⟨s, s, same, heap⟩ dir dir n t t = some e) : e.Alike := by
  simp only [typeD, Option.bind_eq_bind, Option.bind_eq_some_iff, Option.some.injEq] at he
  obtain ⟨h, hh, body, hbody, rfl⟩ := he
  refine ⟨⟨?_, ?_⟩, trivial⟩
  · obtain ⟨v, w, hv, hw, rfl⟩ := headerD_ok hh
    dsimp only at hv hw
    rw [hv] at hw
    cases hw
    exact rfl
  · generalize hc : (⟨s, s, same, heap⟩ : Pair) = c at hbody hh
    have hab : c.a = c.b := by rw [← hc]
    have hsame : ∀ o t, fromOffset c.b.hash o = some t → c.same t t = true := by rw [← hc]; exact hs
    have hsrc : ∀ z : Source, (sourceD o dir z dir z).Alike := fun z => sourceD_alike o dir z
    have hmem := fun t => membersD_alike hab hsame n t
    unfold bodyD at hbody
    cases hk : t.kind with
    | base name size => simp only [hk] at hbody; cases hbody; simp [D.seqs, D.Alike]
    | def_ ns name ty =>
      simp only [hk, Option.bind_eq_bind, Option.bind_eq_some_iff, Option.some.injEq, hab] at hbody
      obtain ⟨ms, hms, rfl⟩ := hbody
      exact ⟨hsrc _, rfl, hmem _ ms hms, trivial⟩
    | struct_ ns name size ms vps inh =>
      simp only [hk, Option.bind_eq_bind, Option.bind_eq_some_iff, Option.some.injEq] at hbody
      obtain ⟨m, hms, ih, hinh, rfl⟩ := hbody
      refine ⟨hsrc _, rfl, rfl, ?_, hmem _ m hms, trivial⟩
      unfold inheritsD at hinh
      split at hinh
      · simp only [Option.map_eq_some_iff] at hinh
        obtain ⟨f, hf, rfl⟩ := hinh
        exact listD_alike (fun a _ => tyCost_self hab hsame 2 a.ty) (by simp) (by simp)
          (fun a _ e he => by cases he; simp [D.Alike, hab]) f hf
      · cases hinh; simp [D.Alike, hab]
    | union_ ns name size ms =>
      simp only [hk, Option.bind_eq_bind, Option.bind_eq_some_iff, Option.some.injEq] at hbody
      obtain ⟨m, hms, rfl⟩ := hbody
      exact ⟨hsrc _, rfl, rfl, hmem _ m hms, trivial⟩
    | enum_ ns name ty size =>
      simp only [hk, Option.bind_eq_bind, Option.bind_eq_some_iff, Option.some.injEq, hab] at hbody
      obtain ⟨es, hes, rfl⟩ := hbody
      exact ⟨hsrc _, rfl, rfl, listD_alike (fun a _ => by simp [enumeratorCost]) (by simp) (by simp)
        (fun a _ e he => by cases he; exact rfl) es hes, trivial⟩
    | _ => simp [hk] at hbody

theorem functionD_alike {o : Options} {s : FnSide} {same : Ty → Ty → Bool} {heap : Heap}
    (hs : ∀ o t, fromOffset s.hash o = some t → same t t = true) (hins : o.printFunctionInstructions = false)
    {uid : Nat} {dir : Option Str} {n : Nat} {f : Function} {e : D}
    (he : functionD o ⟨s, s, same, heap⟩ uid dir dir n f f = some e) : e.Alike := by
  generalize hc : (⟨s, s, same, heap⟩ : FnPair) = c at he
  have hab : c.a = c.b := by rw [← hc]
  have hsame : ∀ o t, fromOffset c.b.hash o = some t → c.same t t = true := by rw [← hc]; exact hs
  simp only [functionD, Option.bind_eq_bind, Option.bind_eq_some_iff, Option.some.injEq] at he
  obtain ⟨b, hb, rfl⟩ := he
  simp only [fnBodyD, Option.bind_eq_bind, Option.bind_eq_some_iff, Option.some.injEq, hab] at hb
  obtain ⟨ps, hps, vs, hvs, fr, hfr, inl, hinl, st, hst, cs, hcs, is, his, rfl⟩ := hb
  have h1 := paramsD_alike hab hsame o _ ps hps
  have h2 := whenD_alike (mapField_alike _ _ (localsD_alike hab hsame o _)) vs hvs
  have h3 := whenD_alike (mapField_alike _ _ (frameD_alike hab _)) fr hfr
  have h4 : inl.Alike := by
    have := inlinedD_alike hab hsame o dir n (c.b.details f).inlined
    rw [hab] at this
    exact this inl hinl
  have h5 := whenD_alike (mapField_alike _ _ (callSitesD_alike hab o dir _)) st hst
  have h6 : cs.Alike := by
    refine whenD_alike (fun e he => ?_) cs hcs
    simp only [Option.bind_eq_some_iff] at he
    obtain ⟨la, hla, lb, hlb, he⟩ := he
    rw [hla] at hlb
    cases hlb
    exact mapField_alike _ _ (callsD_alike hab o la) e he
  refine ⟨⟨rfl, ?_⟩, trivial⟩
  refine ⟨rfl, rfl, sourceD_alike .., rangesD_alike _, rfl, rfl, rfl, rfl, h1, h2, h3, h4, h5, h6, ?_, trivial⟩
  rw [whenD, hins, if_neg (by simp)] at his
  cases his
  trivial

theorem sortListD_alike {α γ : Type} {o : Options} {cmpBy : α → γ → α → γ → Res Ordering} {ha hb : γ}
    {print print' : α → Option P} {diff : α → α → Option D} {items : List (MergeResult α α)} {e : D}
    (he : sortListD o cmpBy ha hb print print' diff items = some e)
    (hi : ∀ it ∈ items, ∃ a, it = .both a a)
    (hd : ∀ a f, .both a a ∈ items → diff a a = some f → f.Alike) : e.Alike := by
  simp only [sortListD, Option.bind_eq_bind, Option.bind_eq_some_iff, Option.map_eq_some_iff] at he
  obtain ⟨l, hl, es, hes, rfl⟩ := he
  refine D.alike_seqs fun f hf => ?_
  obtain ⟨it, hit, hf⟩ := mapM_mem hes f hf
  have hit := (sortWith_perm hl).mem_iff.1 hit
  obtain ⟨a, rfl⟩ := hi it hit
  simp only [sortItemD, Option.map_eq_some_iff] at hf
  obtain ⟨g, hg, rfl⟩ := hf
  exact hd a g hit hg

section
variable {o : Options} {s : FileSide} {same : Ty → Ty → Bool} {heap : Heap} {n : Nat} {u : CompUnit} {e : D}

theorem unitTypesD_alike (hs : ∀ o t, fromOffset s.hash o = some t → same t t = true)
    (he : unitTypesD o ⟨s.toSide, s.toSide, same, heap⟩ n u u = some e) : e.Alike := by
  unfold unitTypesD whenD at he
  split at he
  · simp only [Option.bind_eq_bind, Option.bind_eq_some_iff] at he
    obtain ⟨m, hm, he⟩ := he
    refine sortListD_alike he (fun it hit => ?_) fun a f _ hf => typeD_alike hs hf
    have hr : ∀ a : TypeEntry, cmpId false n s.hash a.kind s.hash a.kind = .ok .eq ∨
        ∀ q, cmpId false n s.hash a.kind s.hash a.kind ≠ .ok q := by
      intro a
      cases hc : cmpId false n s.hash a.kind s.hash a.kind with
      | ok q => exact .inl (by rw [cmpId_self false n s.hash a.kind _ hc])
      | _ => exact .inr (by simp)
    obtain ⟨a, -, h⟩ := merge_self hr hm it hit
    exact ⟨a, h⟩
  · cases he; trivial

theorem unitFnsD_alike (hs : ∀ o t, fromOffset s.hash o = some t → same t t = true) (hins : o.printFunctionInstructions = false)
    {wrap : Str → D → D} (hw : ∀ l e, D.Alike e → D.Alike (wrap l e))
    (he : unitFnsD o ⟨s, s, same, heap⟩ n u u wrap = some e) : e.Alike := by
  unfold unitFnsD whenD at he
  split at he
  · simp only [Option.bind_eq_bind, Option.bind_eq_some_iff, Option.some.injEq] at he
    obtain ⟨m, hm, f, hf, g, hg, rfl⟩ := he
    simp only [unitMergedFns, mergedFunctions, Option.bind_eq_bind, Option.bind_eq_some_iff, Option.pure_def,
      Option.some.injEq] at hm
    obtain ⟨m, hm, rfl⟩ := hm
    have hall := merge_self (fun a => .inl (by simp [functionCmpId, cmpNs_self])) hm
    have key : ∀ (q : MergeResult Function Function → Bool) (f : D), fnListD o ⟨s, s, same, heap⟩ n u u (m.filter q) = some f →
        f.Alike := by
      intro q f hf
      refine sortListD_alike hf (fun it hit => ?_) fun a f _ hf => functionD_alike (s := s.toFnSide) hs hins hf
      obtain ⟨a, -, h⟩ := hall it (List.mem_filter.1 hit).1
      exact ⟨a, h⟩
    exact ⟨hw _ _ (key _ _ hf), hw _ _ (key _ _ hg)⟩
  · cases he; trivial

theorem variableD_alike (o : Options) (dir : Option Str) (v : Variable) :
    (variableD o ⟨s, s, same, heap⟩ dir dir v v).Alike :=
  ⟨⟨rfl, rfl, rfl, sourceD_alike .., rfl, rfl, rfl, trivial⟩, trivial⟩

theorem unitVariablesD_alike (he : unitVariablesD o ⟨s, s, same, heap⟩ n u u = some e) : e.Alike := by
  unfold unitVariablesD whenD at he
  split at he
  · simp only [Option.bind_eq_bind, Option.bind_eq_some_iff] at he
    obtain ⟨m, hm, he⟩ := he
    refine sortListD_alike he (fun it hit => ?_) fun a f _ hf => ?_
    · obtain ⟨a, -, h⟩ := merge_self (fun a => .inl (by simp [variableCmpId, cmpNs_self])) hm it hit
      exact ⟨a, h⟩
    · cases hf
      exact variableD_alike o _ a
  · cases he; trivial

theorem unitD_alike (hs : ∀ o t, fromOffset s.hash o = some t → same t t = true) (hins : o.printFunctionInstructions = false)
    (he : unitD o ⟨s, s, same, heap⟩ n u u = some e) : e.Alike := by
  simp only [unitD, Option.bind_eq_bind, Option.bind_eq_some_iff, Option.some.injEq] at he
  obtain ⟨body, hbody, rfl⟩ := he
  have hb : body.Alike := by
    unfold unitBodyD at hbody
    split at hbody
    · simp only [Option.bind_eq_bind, Option.bind_eq_some_iff, Option.some.injEq] at hbody
      obtain ⟨part, hpart, types, htypes, fns, hfns, vars, hvars, rfl⟩ := hbody
      exact ⟨whenD_alike (unitPartD_alike o _ u) part hpart, (show types.Alike from unitTypesD_alike hs htypes),
        unitFnsD_alike hs hins (wrap := fun l => .field true l) (fun _ _ h => h) hfns, (show vars.Alike from unitVariablesD_alike hvars), trivial⟩
    · simp only [Option.bind_eq_bind, Option.bind_eq_some_iff, Option.some.injEq] at hbody
      obtain ⟨part, hpart, types, htypes, fns, hfns, vars, hvars, rfl⟩ := hbody
      refine ⟨whenD_alike (fun e he => ?_) part hpart, unitTypesD_alike hs htypes,
        unitFnsD_alike hs hins (wrap := fun _ e => e) (fun _ _ h => h) hfns, unitVariablesD_alike hvars, trivial⟩
      simp only [Option.map_eq_some_iff] at he
      obtain ⟨f, hf, rfl⟩ := he
      exact ⟨rfl, unitPartD_alike o _ u f hf⟩
  split
  · exact ⟨rfl, hb⟩
  · exact hb

theorem fileD_alike (hs : ∀ o t, fromOffset s.hash o = some t → same t t = true) (hins : o.printFunctionInstructions = false)
    (he : fileD o ⟨s, s, same, heap⟩ n = some e) : e.Alike := by
  simp only [fileD, Option.bind_eq_bind, Option.bind_eq_some_iff, Option.some.injEq] at he
  obtain ⟨head, hhead, units, hunits, rfl⟩ := he
  refine ⟨whenD_alike (filePartD_alike o s same heap) head hhead, ?_⟩
  simp only [unitsD, Option.bind_eq_bind, Option.bind_eq_some_iff] at hunits
  obtain ⟨m, hm, hunits⟩ := hunits
  refine sortListD_alike hunits (fun it hit => ?_) fun a f _ hf => unitD_alike hs hins hf
  obtain ⟨a, -, h⟩ := merge_self (fun a => .inl (by simp [unitCmpId])) hm it hit
  exact ⟨a, h⟩

end

end Verif.Show
