import Verif.Shuffle.Lemmas
/-!
# The listing and the diff of a file in another order (lemmas for C102)
-/
namespace Verif.Shuffle
open Verif.Types Verif.Item Verif.Opts Verif.Order Verif.Show Verif.Merge Verif.Print

/-! ## The comparisons -/

theorem laws_of {α β : Type} {r : Nat → β → β → Res Ordering} {G : β → Prop} (h : Lawful r G) (n : Nat) (f : α → β) :
    Laws (fun x y => r n (f x) (f y)) :=
  ⟨fun e => h.swap e, fun x y z => h.trans n (f x) (f y) (f z)⟩

theorem laws_types (o : Options) (n : Nat) (h : Hash) : Laws (fun x y => typeCmpBy o n x h y h) :=
  laws_of (lawful_types o) n (·, h)
theorem laws_functions (o : Options) (n : Nat) (h : Hash) : Laws (fun x y => functionCmpBy o n x h y h) :=
  laws_of (lawful_functions o) n (·, h)
theorem laws_variables (o : Options) (n : Nat) (h : Hash) : Laws (fun x y => variableCmpBy o n x h y h) :=
  laws_of (lawful_variables o) n (·, h)
theorem laws_units (o : Options) (n : Nat) (t : TypeOffset → Option Nat) : Laws (fun x y => unitCmpBy o n x t y t) :=
  laws_of (lawful_units o) n (·, t)

/-- The keys obey the laws. -/
structure Keys.Lawful (k : Keys) : Prop where
  unit : Laws k.unit
  type : Laws k.type
  function : Laws k.function
  var : Laws k.var

theorem listingKeys_lawful (o : Options) (n : Nat) (s : FileSide) : (listingKeys o n s).Lawful :=
  ⟨laws_units o n _, laws_types o n _, laws_functions o n _, laws_variables o n _⟩

theorem pairingKeys_lawful (o : Options) (n : Nat) (s : FileSide) : (pairingKeys o n s).Lawful :=
  ⟨laws_units { o with sort := .name } n s.tsz, laws_types { o with sort := .name } n s.hash,
    laws_functions { o with sort := .name } n s.hash, laws_variables { o with sort := .name } n s.hash⟩

/-! ## Filters -/

theorem inlineTypes_mem {h : Hash} {u u' : CompUnit} (hp : u.types.Perm u'.types) (t : TypeOffset) :
    (Filter.inlineTypes h u).contains t = (Filter.inlineTypes h u').contains t := by
  rw [Bool.eq_iff_iff, List.contains_iff_mem, List.contains_iff_mem]
  unfold Filter.inlineTypes
  simp only [List.mem_flatMap, hp.mem_iff]

theorem filterTypes_reordered {r : TypeEntry → TypeEntry → Res Ordering} {h : Hash} {o : Options} {d : Bool} {u u' : CompUnit}
    (hr : Reordered r u.types u'.types) : Reordered r (Filter.filterTypes h u o d) (Filter.filterTypes h u' o d) := by
  have : Filter.okType o d (Filter.inlineTypes h u') = Filter.okType o d (Filter.inlineTypes h u) := by
    funext t
    unfold Filter.okType
    rw [inlineTypes_mem hr.perm]
  unfold Filter.filterTypes
  rw [this]
  exact hr.filter _

/-! ## A listing -/

theorem sortListP_reordered {α γ : Type} {cmpBy : α → γ → α → γ → Res Ordering} {h : γ} {print : α → Option P} {l l' : List α}
    (hl : Laws fun x y => cmpBy x h y h) (hr : Reordered (fun x y => cmpBy x h y h) l l') :
    sortListP cmpBy h print l = sortListP cmpBy h print l' := by
  unfold sortListP printOrder
  rw [sortWith_reordered hl hr]

theorem sortListP_all2 {α γ : Type} {R : α → α → Prop} {cmpBy : α → γ → α → γ → Res Ordering} {h : γ}
    {print print' : α → Option P} {l l' : List α} (hc : ∀ a b a' b', R a b → R a' b' → cmpBy a h a' h = cmpBy b h b' h)
    (hp : ∀ a b, R a b → print a = print' b) (hr : All2 R l l') :
    sortListP cmpBy h print l = sortListP cmpBy h print' l' := by
  unfold sortListP printOrder
  have := sortWith_all2 (r := fun x y => cmpBy x h y h) (r' := fun x y => cmpBy x h y h) hc hr
  cases e : sortWith (fun x y => cmpBy x h y h) l <;> cases e' : sortWith (fun x y => cmpBy x h y h) l' <;>
    rw [e, e'] at this <;> simp only [OptAll] at this
  · rfl
  · simp only [Option.bind_eq_bind, Option.bind_some, listP, mapM_all2_eq hp this]

theorem sameUnit_dir {o : Options} {k : Keys} {s s' : FileSide} {u u' : CompUnit} (h : SameUnit o k s s' u u') :
    u'.dir = u.dir ∧ u'.name = u.name ∧ u'.lowPc = u.lowPc ∧ u'.ranges = u.ranges := by
  have := h.rest
  refine ⟨?_, ?_, ?_, ?_⟩ <;> rw [this]

theorem sameUnit_size {o : Options} {k : Keys} {s s' : FileSide} {u u' : CompUnit} (h : SameUnit o k s s' u u')
    (hs : o.sort = .size) (t : TypeOffset → Option Nat) : u'.size t = u.size t := by
  obtain ⟨h1, h2⟩ := h.summary (.inr hs)
  unfold CompUnit.size CompUnit.functionSize CompUnit.variableSize CompUnit.functionRanges CompUnit.variableRanges
  rw [h1, h2]

theorem sameUnit_key {o : Options} {k : Keys} {s s' : FileSide} {u u' : CompUnit} (h : SameUnit o k s s' u u') :
    unitKey o u' = unitKey o u := by
  unfold unitKey
  rw [(sameUnit_dir h).2.1]

theorem unitCmpBy_same {o : Options} {k k' : Keys} {s s' q q' : FileSide} {u u' v v' : CompUnit} (h : SameUnit o k s s' u u')
    (g : SameUnit o k' q q' v v') (n : Nat) (t t' : TypeOffset → Option Nat) : unitCmpBy o n u t v t' = unitCmpBy o n u' t v' t' := by
  unfold unitCmpBy
  cases hs : o.sort with
  | none => rfl
  | name => simp only [unitCmpId, sameUnit_key h, sameUnit_key g]
  | size => simp only [unitSizeRes, sameUnit_size h hs, sameUnit_size g hs]

theorem okUnit_same {o : Options} {k : Keys} {s s' : FileSide} {u u' : CompUnit} (h : SameUnit o k s s' u u') :
    Filter.okUnit o u = Filter.okUnit o u' := by
  unfold Filter.okUnit
  rw [(sameUnit_dir h).2.1]

theorem unitName_same {o : Options} {k : Keys} {s s' : FileSide} {u u' : CompUnit} (h : SameUnit o k s s' u u') :
    unitName u' = unitName u := by
  unfold unitName CompUnit.printRef
  rw [(sameUnit_dir h).1, (sameUnit_dir h).2.1]

theorem unitPartP_same {o : Options} {k : Keys} {s s' : FileSide} {u u' : CompUnit} (h : SameUnit o k s s' u u') (a : Side)
    (hc : o.categoryUnit = true) : unitPartP o a u' = unitPartP o a u := by
  obtain ⟨h1, h2⟩ := h.summary (.inl hc)
  have : u' = { u with types := u'.types } := by
    have := h.rest
    rw [h1, h2] at this
    exact this
  rw [this]
  rfl

variable {o : Options} {n : Nat}

theorem unitTypesP_same {s s' : FileSide} {u u' : CompUnit} (h : SameUnit o (listingKeys o n s) s s' u u') :
    unitTypesP o s.toSide n u' = unitTypesP o s.toSide n u := by
  unfold unitTypesP
  rw [(sameUnit_dir h).1]
  congr 1
  exact (sortListP_reordered (laws_types o n s.hash) (filterTypes_reordered h.types)).symm

theorem fnListP_same {s s' : FileSide} {u u' : CompUnit} (h : SameUnit o (listingKeys o n s) s s' u u') (p : Function → Bool) :
    fnListP o s.toFnSide n u' ((Filter.filterFunctions u' o).filter p) = fnListP o s.toFnSide n u ((Filter.filterFunctions u o).filter p) := by
  unfold fnListP
  rw [(sameUnit_dir h).1]
  exact (sortListP_reordered (laws_functions o n s.hash) ((h.functions.filter _).filter p)).symm

theorem fnListP_same' {s s' : FileSide} {u u' : CompUnit} (h : SameUnit o (listingKeys o n s) s s' u u') :
    fnListP o s.toFnSide n u' (Filter.filterFunctions u' o) = fnListP o s.toFnSide n u (Filter.filterFunctions u o) := by
  unfold fnListP
  rw [(sameUnit_dir h).1]
  exact (sortListP_reordered (laws_functions o n s.hash) (h.functions.filter _)).symm

theorem unitVariablesP_same {s s' : FileSide} (hside : s'.toFnSide = s.toFnSide) (hv : s'.varId = s.varId) {u u' : CompUnit}
    (h : SameUnit o (listingKeys o n s) s s' u u') : unitVariablesP o s' n u' = unitVariablesP o s n u := by
  unfold unitVariablesP
  rw [(sameUnit_dir h).1, hside]
  congr 1
  have : (fun v => some (variableP o s' u.dir v)) = fun v => some (variableP o s u.dir v) := by
    funext v; unfold variableP; rw [hv, hside]
  rw [this]
  exact (sortListP_reordered (laws_variables o n s.hash) (h.variables.filter _)).symm

theorem unitP_same {s s' : FileSide} (hside : s'.toFnSide = s.toFnSide) (hv : s'.varId = s.varId) {u u' : CompUnit}
    (h : SameUnit o (listingKeys o n s) s s' u u') : unitP o s' n u' = unitP o s n u := by
  have hpart : ∀ f : P → P, whenP o.categoryUnit ((unitPartP o s.toSide u').map f) =
      whenP o.categoryUnit ((unitPartP o s.toSide u).map f) := by
    intro f
    cases hc : o.categoryUnit with
    | false => rfl
    | true => rw [unitPartP_same h _ hc]
  have hpart' : whenP o.categoryUnit (unitPartP o s.toSide u') = whenP o.categoryUnit (unitPartP o s.toSide u) := by
    have := hpart (fun p => p)
    simpa using this
  unfold unitP unitBodyP
  rw [hside, h.id, unitName_same h]
  simp only [hpart, hpart', unitTypesP_same h, fnListP_same h, fnListP_same' h, unitVariablesP_same hside hv h]

theorem unitsP_same {s s' : FileSide} (h : SameFile o [listingKeys o n s] s s') : unitsP o s' n = unitsP o s n := by
  obtain ⟨us, h1, h2⟩ := h.units
  have h2 := h2 _ List.mem_cons_self
  unfold unitsP
  rw [show s'.tsz = s.tsz by rw [h.side]]
  have e1 : sortListP (unitCmpBy o n) s.tsz (unitP o s n) (Filter.filterUnits s.file.units o) =
      sortListP (unitCmpBy o n) s.tsz (unitP o s' n) (Filter.filterUnits us o) := by
    refine sortListP_all2 (R := fun u u' => ∀ k ∈ [listingKeys o n s], SameUnit o k s s' u u')
      (fun a b a' b' g g' => unitCmpBy_same (g _ List.mem_cons_self) (g' _ List.mem_cons_self) n _ _)
      (fun a b g => (unitP_same h.side h.varId (g _ List.mem_cons_self)).symm)
      (all2_filter (fun a b g => okUnit_same (g _ List.mem_cons_self)) h1)
  rw [e1]
  exact (sortListP_reordered (laws_units o n s.tsz) (h2.filter _)).symm

/-! ## A diff -/

theorem cmp_rel {α γ : Type} {R S : α → α → Prop} {cmpBy : α → γ → α → γ → Res Ordering} {ha hb : γ}
    (hc : ∀ a b a' b', (R a b ∨ S a b) → (R a' b' ∨ S a' b') → ∀ x y, cmpBy a x a' y = cmpBy b x b' y)
    {x x' y y' : MergeResult α α} (h : RelM R S x x') (g : RelM R S y y') :
    MergeResult.cmp cmpBy ha hb x y = MergeResult.cmp cmpBy ha hb x' y' := by
  cases h <;> cases g <;> simp only [MergeResult.cmp] <;> apply hc <;> first | exact .inl ‹_› | exact .inr ‹_›

theorem sortListD_all2 {α γ : Type} {R S : α → α → Prop} {cmpBy : α → γ → α → γ → Res Ordering} {ha hb : γ}
    {print print' print1 print1' : α → Option P} {diff diff1 : α → α → Option D}
    (hc : ∀ a b a' b', (R a b ∨ S a b) → (R a' b' ∨ S a' b') → ∀ x y, cmpBy a x a' y = cmpBy b x b' y)
    (hp : ∀ a b, R a b → print a = print1 b) (hp' : ∀ a b, S a b → print' a = print1' b)
    (hd : ∀ a b a' b', R a a' → S b b' → diff a b = diff1 a' b') {l l' : List (MergeResult α α)} (h : All2 (RelM R S) l l') :
    sortListD o cmpBy ha hb print print' diff l = sortListD o cmpBy ha hb print1 print1' diff1 l' := by
  unfold sortListD diffOrder
  have := sortWith_all2 (r := MergeResult.cmp cmpBy ha hb) (r' := MergeResult.cmp cmpBy ha hb)
    (fun a b a' b' h g => cmp_rel hc h g) h
  cases e : sortWith (MergeResult.cmp cmpBy ha hb) l <;> cases e' : sortWith (MergeResult.cmp cmpBy ha hb) l' <;>
    rw [e, e'] at this <;> simp only [OptAll] at this
  · rfl
  · simp only [Option.bind_eq_bind, Option.bind_some]
    rw [mapM_all2_eq (g := sortItemD o print1 print1' diff1) (fun a b h => ?_) this]
    cases h <;> simp only [sortItemD]
    · rw [hp _ _ ‹_›]
    · rw [hp' _ _ ‹_›]
    · rw [hd _ _ _ _ ‹_› ‹_›]

theorem unitMergedTypes_same {sa sa' sb sb' : FileSide} {u u' v v' : CompUnit}
    (h : SameUnit o (pairingKeys o n sa) sa sa' u u') (g : SameUnit o (pairingKeys o n sb) sb sb' v v') :
    mergedTypes n sa.hash (Filter.filterTypes sa.hash u' o true) sb.hash (Filter.filterTypes sb.hash v' o true) =
      mergedTypes n sa.hash (Filter.filterTypes sa.hash u o true) sb.hash (Filter.filterTypes sb.hash v o true) := by
  have e1 : sortWith (fun x y : TypeEntry => cmpId false n sa.hash x.kind sa.hash y.kind) (Filter.filterTypes sa.hash u o true) =
      sortWith (fun x y : TypeEntry => cmpId false n sa.hash x.kind sa.hash y.kind) (Filter.filterTypes sa.hash u' o true) :=
    sortWith_reordered (pairingKeys_lawful o n sa).type (filterTypes_reordered h.types)
  have e2 : sortWith (fun x y : TypeEntry => cmpId false n sb.hash x.kind sb.hash y.kind) (Filter.filterTypes sb.hash v o true) =
      sortWith (fun x y : TypeEntry => cmpId false n sb.hash x.kind sb.hash y.kind) (Filter.filterTypes sb.hash v' o true) :=
    sortWith_reordered (pairingKeys_lawful o n sb).type (filterTypes_reordered g.types)
  unfold mergedTypes
  rw [e1, e2]

theorem unitMergedFns_same {c : FilePair} {sa' sb' : FileSide} {u u' v v' : CompUnit}
    (h : SameUnit o (pairingKeys o n c.a) c.a sa' u u') (g : SameUnit o (pairingKeys o n c.b) c.b sb' v v') :
    unitMergedFns o c n u' v' = unitMergedFns o c n u v := by
  have e1 : sortWith (fun x y => functionCmpIdForSort n x c.a.hash y c.a.hash) (Filter.filterFunctions u o) =
      sortWith (fun x y => functionCmpIdForSort n x c.a.hash y c.a.hash) (Filter.filterFunctions u' o) :=
    sortWith_reordered (pairingKeys_lawful o n c.a).function (h.functions.filter _)
  have e2 : sortWith (fun x y => functionCmpIdForSort n x c.b.hash y c.b.hash) (Filter.filterFunctions v o) =
      sortWith (fun x y => functionCmpIdForSort n x c.b.hash y c.b.hash) (Filter.filterFunctions v' o) :=
    sortWith_reordered (pairingKeys_lawful o n c.b).function (g.functions.filter _)
  unfold unitMergedFns mergedFunctions mergedFunctionsAll
  rw [e1, e2]

theorem mergedVariables_same {sa sa' sb sb' : FileSide} {u u' v v' : CompUnit}
    (h : SameUnit o (pairingKeys o n sa) sa sa' u u') (g : SameUnit o (pairingKeys o n sb) sb sb' v v') :
    mergedVariables (Filter.filterVariables u' o) (Filter.filterVariables v' o) =
      mergedVariables (Filter.filterVariables u o) (Filter.filterVariables v o) := by
  have e1 : sortWith (fun x y => .ok (variableCmpId x y)) (Filter.filterVariables u o) =
      sortWith (fun x y => .ok (variableCmpId x y)) (Filter.filterVariables u' o) :=
    sortWith_reordered (pairingKeys_lawful o n sa).var (h.variables.filter _)
  have e2 : sortWith (fun x y => .ok (variableCmpId x y)) (Filter.filterVariables v o) =
      sortWith (fun x y => .ok (variableCmpId x y)) (Filter.filterVariables v' o) :=
    sortWith_reordered (pairingKeys_lawful o n sb).var (g.variables.filter _)
  unfold mergedVariables
  rw [e1, e2]

theorem samePair_fn {c c' : FilePair} (h : SamePair o n c c') : c'.toFnPair = c.toFnPair := by
  unfold FilePair.toFnPair
  rw [h.a.side, h.b.side, h.same, h.heap]

theorem unitPartD_same {k k' : Keys} {sa sa' sb sb' : FileSide} {u u' v v' : CompUnit}
    (h : SameUnit o k sa sa' u u') (g : SameUnit o k' sb sb' v v') (a b : Side)
    (hc : o.categoryUnit = true) : unitPartD o a b u' v' = unitPartD o a b u v := by
  have key : ∀ {k : Keys} {sa sa' : FileSide} {u u' : CompUnit}, SameUnit o k sa sa' u u' → u' = { u with types := u'.types } := by
    intro k sa sa' u u' h
    obtain ⟨h1, h2⟩ := h.summary (.inl hc)
    have := h.rest
    rw [h1, h2] at this
    exact this
  rw [key h, key g]
  rfl

theorem unitD_same {c c' : FilePair} (hc : SamePair o n c c') {u u' v v' : CompUnit}
    (h : SameUnit o (pairingKeys o n c.a) c.a c'.a u u') (g : SameUnit o (pairingKeys o n c.b) c.b c'.b v v') :
    unitD o c' n u' v' = unitD o c n u v := by
  have hpart : ∀ f : D → D, whenD o.categoryUnit ((unitPartD o c.a.toSide c.b.toSide u' v').map f) =
      whenD o.categoryUnit ((unitPartD o c.a.toSide c.b.toSide u v).map f) := by
    intro f
    cases hc : o.categoryUnit with
    | false => rfl
    | true => rw [unitPartD_same h g _ _ hc]
  have hpart' : whenD o.categoryUnit (unitPartD o c.a.toSide c.b.toSide u' v') =
      whenD o.categoryUnit (unitPartD o c.a.toSide c.b.toSide u v) := by
    have := hpart (fun p => p)
    simpa using this
  have htypes : unitTypesD o c.toFnPair.toPair n u' v' = unitTypesD o c.toFnPair.toPair n u v := by
    unfold unitTypesD
    rw [(sameUnit_dir h).1, (sameUnit_dir g).1]
    congr 1
    show (mergedTypes n c.a.hash (Filter.filterTypes c.a.hash u' o true) c.b.hash (Filter.filterTypes c.b.hash v' o true) >>= _) =
      (mergedTypes n c.a.hash (Filter.filterTypes c.a.hash u o true) c.b.hash (Filter.filterTypes c.b.hash v o true) >>= _)
    rw [unitMergedTypes_same h g]
  have hfns : ∀ w, unitFnsD o c' n u' v' w = unitFnsD o c n u v w := by
    intro w
    unfold unitFnsD
    have e1 : unitMergedFns o c' n u' v' = unitMergedFns o c n u v := by
      rw [← unitMergedFns_same h g]
      unfold unitMergedFns
      rw [hc.a.side, hc.b.side]
    have e2 : ∀ m, fnListD o c' n u' v' m = fnListD o c n u v m := by
      intro m
      unfold fnListD
      rw [samePair_fn hc, hc.a.side, hc.b.side, h.id, (sameUnit_dir h).1, (sameUnit_dir g).1]
    rw [e1]
    simp only [e2]
  have hvars : unitVariablesD o c' n u' v' = unitVariablesD o c n u v := by
    unfold unitVariablesD
    rw [mergedVariables_same h g, (sameUnit_dir h).1, (sameUnit_dir g).1]
    have e1 : ∀ d, (fun x => some (variableP o c'.a d x)) = fun x => some (variableP o c.a d x) := by
      intro d; funext v; unfold variableP; rw [hc.a.varId, hc.a.side]
    have e2 : ∀ d, (fun x => some (variableP o c'.b d x)) = fun x => some (variableP o c.b d x) := by
      intro d; funext v; unfold variableP; rw [hc.b.varId, hc.b.side]
    have e3 : ∀ d e, (fun x y => some (variableD o c' d e x y)) = fun x y => some (variableD o c d e x y) := by
      intro d e; funext v w; unfold variableD; rw [hc.a.side, hc.b.side]
    rw [e1, e2, e3, hc.a.side, hc.b.side]
  unfold unitD unitBodyD
  rw [samePair_fn hc, hc.a.side, hc.b.side, h.id, unitName_same h, unitName_same g]
  simp only [hpart, hpart', htypes, hfns, hvars]

theorem mergedUnits_same {R S : CompUnit → CompUnit → Prop} {us us1 us' vs vs1 vs' : List CompUnit}
    (hR : ∀ a b, R a b → unitKey o b = unitKey o a ∧ Filter.okUnit o a = Filter.okUnit o b)
    (hS : ∀ a b, S a b → unitKey o b = unitKey o a ∧ Filter.okUnit o a = Filter.okUnit o b)
    (h1 : All2 R us us1) (h2 : Reordered (fun x y => .ok (unitCmpId o x y)) us1 us')
    (g1 : All2 S vs vs1) (g2 : Reordered (fun x y => .ok (unitCmpId o x y)) vs1 vs') :
    OptAll (All2 (RelM R S))
      (mergedUnits o (Filter.filterUnits us o) (Filter.filterUnits vs o))
      (mergedUnits o (Filter.filterUnits us' o) (Filter.filterUnits vs' o)) := by
  have hl : Laws (fun x y => Res.ok (unitCmpId o x y)) := laws_units { o with sort := .name } 0 (fun _ => none)
  have e1 : sortWith (fun x y => .ok (unitCmpId o x y)) (Filter.filterUnits us1 o) =
      sortWith (fun x y => .ok (unitCmpId o x y)) (Filter.filterUnits us' o) := sortWith_reordered hl (h2.filter _)
  have e2 : sortWith (fun x y => .ok (unitCmpId o x y)) (Filter.filterUnits vs1 o) =
      sortWith (fun x y => .ok (unitCmpId o x y)) (Filter.filterUnits vs' o) := sortWith_reordered hl (g2.filter _)
  have s1 := sortWith_all2 (R := R) (r := fun x y => Res.ok (unitCmpId o x y)) (r' := fun x y => Res.ok (unitCmpId o x y))
    (fun a b a' b' h g => by simp only [unitCmpId, (hR _ _ h).1, (hR _ _ g).1]) (all2_filter (fun a b g => (hR a b g).2) h1)
  have s2 := sortWith_all2 (R := S) (r := fun x y => Res.ok (unitCmpId o x y)) (r' := fun x y => Res.ok (unitCmpId o x y))
    (fun a b a' b' h g => by simp only [unitCmpId, (hS _ _ h).1, (hS _ _ g).1]) (all2_filter (fun a b g => (hS a b g).2) g1)
  unfold mergedUnits
  unfold Filter.filterUnits at e1 e2 ⊢
  rw [← e1, ← e2]
  cases x1 : sortWith (fun x y => Res.ok (unitCmpId o x y)) (us.filter (Filter.okUnit o)) <;>
    cases x2 : sortWith (fun x y => Res.ok (unitCmpId o x y)) (us1.filter (Filter.okUnit o)) <;>
    rw [x1, x2] at s1 <;> simp only [OptAll] at s1
  · trivial
  · cases y1 : sortWith (fun x y => Res.ok (unitCmpId o x y)) (vs.filter (Filter.okUnit o)) <;>
      cases y2 : sortWith (fun x y => Res.ok (unitCmpId o x y)) (vs1.filter (Filter.okUnit o)) <;>
      rw [y1, y2] at s2 <;> simp only [OptAll] at s2
    · trivial
    · exact mergeWith_all2 (fun a a' b b' h g => by simp only [unitCmpId, (hR _ _ h).1, (hS _ _ g).1]) s1 s2

theorem unitsD_same {c c' : FilePair} (h : SamePair o n c c') : unitsD o c' n = unitsD o c n := by
  obtain ⟨us, h1, h2⟩ := h.a.units
  obtain ⟨vs, g1, g2⟩ := h.b.units
  have hm := mergedUnits_same (fun a b r => ⟨sameUnit_key (r _ List.mem_cons_self), okUnit_same (r _ List.mem_cons_self)⟩)
    (fun a b r => ⟨sameUnit_key (r _ List.mem_cons_self), okUnit_same (r _ List.mem_cons_self)⟩)
    h1 (h2 _ List.mem_cons_self) g1 (g2 _ List.mem_cons_self)
  unfold unitsD
  rw [show c'.a.tsz = c.a.tsz by rw [h.a.side], show c'.b.tsz = c.b.tsz by rw [h.b.side]]
  cases x : mergedUnits o (Filter.filterUnits c.a.file.units o) (Filter.filterUnits c.b.file.units o) <;>
    cases y : mergedUnits o (Filter.filterUnits c'.a.file.units o) (Filter.filterUnits c'.b.file.units o) <;>
    rw [x, y] at hm <;> simp only [OptAll] at hm
  · rfl
  · simp only [Option.bind_eq_bind, Option.bind_some]
    refine (sortListD_all2 ?_ (fun a b r => (unitP_same h.a.side h.a.varId (r _ (by simp))).symm)
      (fun a b r => (unitP_same h.b.side h.b.varId (r _ (by simp))).symm)
      (fun a b a' b' r q => (unitD_same h (r _ List.mem_cons_self) (q _ List.mem_cons_self)).symm) hm).symm
    intro a b a' b' r q x y
    rcases r with r | r <;> rcases q with q | q <;>
      exact unitCmpBy_same (r _ List.mem_cons_self) (q _ List.mem_cons_self) n x y

end Verif.Shuffle
