import Verif.Bloat.Lemmas
/-! # Property theorems C38 (bloat report) -/
namespace Verif.Bloat
open Verif.Item Verif.Print Verif.Show Verif.Range Verif.Ids

/-- **C38 (groups).** Whatever order the hash map iterates in: groups are distinct, listed by
non-increasing total; each is a non-empty list, in file order, of exactly the functions of known
size with its name and source; its total is the sum of their sizes; and every function of known
size is in the group of its name and source. -/
theorem C38_groups (iter : List (FunctionId × FunctionTotal) → List (FunctionId × FunctionTotal))
    (hiter : ∀ l, (iter l).Perm l) (calls : Option (Range → List Call)) (us : List CompUnit) :
    ((bloatIndex iter calls us).totals.map (·.1)).Nodup ∧
    (bloatIndex iter calls us).totals.Pairwise (fun a b => b.2.size ≤ a.2.size) ∧
    (∀ k t, (k, t) ∈ (bloatIndex iter calls us).totals →
      t.functions ≠ [] ∧ t.functions.Pairwise Before ∧
      (∀ pos, pos ∈ t.functions ↔ ∃ n, SizedAt us pos k n) ∧
      t.size = (sizesAt us t.functions).sum) ∧
    (∀ pos k n, SizedAt us pos k n → ∃ t, (k, t) ∈ (bloatIndex iter calls us).totals) := by
  have hp : (bloatIndex iter calls us).totals.Perm (maps calls us).totals :=
    (stableSort_perm _ _).trans (hiter _)
  refine ⟨((hp.map _).nodup_iff).2 (totals_nodup calls us), ?_, ?_, ?_⟩
  · exact (stableSort_sorted bigLe_total _).imp (by simp)
  · intro k t ht
    rw [hp.mem_iff, mem_totals] at ht
    obtain ⟨hne, rfl⟩ := ht
    refine ⟨by simpa using hne, ?_, ?_, ?_⟩
    · simp only [List.pairwise_map]
      exact (sized_before us).filter _
    · intro pos
      simp only [List.mem_map, List.mem_filter, Prod.exists, decide_eq_true_eq]
      constructor
      · rintro ⟨a, b, k', n, ⟨h1, h2⟩, h3⟩
        subst h2; subst h3
        exact ⟨n, (mem_sized us _ _ _).1 h1⟩
      · rintro ⟨n, h⟩
        exact ⟨pos.1, pos.2, k, n, ⟨(mem_sized us pos k n).2 h, rfl⟩, rfl⟩
    · simp only
      unfold sizesAt
      rw [List.map_map]
      congr 1
      apply List.map_congr_left
      intro x hx
      obtain ⟨h1, h2⟩ := List.mem_filter.1 hx
      obtain ⟨pos, k', n⟩ := x
      obtain ⟨u, f, h3, h4, h5, _⟩ := (mem_sized us pos k' n).1 h1
      simp [h3, h4, h5]
  · intro pos k n h
    refine ⟨_, hp.mem_iff.2 ((mem_totals calls us k _).2 ⟨?_, rfl⟩)⟩
    intro he
    have : (pos, k, n) ∈ (sized us).filter (fun x => x.2.1 = k) :=
      List.mem_filter.2 ⟨(mem_sized us pos k n).2 h, by simp⟩
    rw [he] at this
    simp at this

/-- **C38 (sum).** The group totals add up to the sizes of all functions of known size: nothing is
counted twice or lost. -/
theorem C38_sum (iter : List (FunctionId × FunctionTotal) → List (FunctionId × FunctionTotal))
    (hiter : ∀ l, (iter l).Perm l) (calls : Option (Range → List Call)) (us : List CompUnit) :
    ((bloatIndex iter calls us).totals.map (·.2.size)).sum =
      (us.flatMap fun u => u.functions.filterMap (·.size)).sum := by
  have hp : (bloatIndex iter calls us).totals.Perm (maps calls us).totals :=
    (stableSort_perm _ _).trans (hiter _)
  rw [(hp.map _).sum_nat, totals_sum]
  congr 1
  unfold sized positions
  have : ∀ (us : List CompUnit) (k : Nat),
      (((us.zipIdx k).flatMap fun x => x.1.functions.zipIdx.map fun y =>
        (((x.2, y.2), x.1, y.1) : (Nat × Nat) × CompUnit × Function)).filterMap fun x =>
        x.2.2.size.map fun n => (x.1, functionId x.2.1 x.2.2, n)).map (·.2.2) =
      us.flatMap fun u => u.functions.filterMap (·.size) := by
    intro us
    induction us with
    | nil => intro k; rfl
    | cons u us ih =>
      intro k
      rw [List.zipIdx_cons, List.flatMap_cons, List.filterMap_append, List.map_append, ih,
        List.flatMap_cons]
      congr 1
      have : ∀ (fs : List Function) (j : Nat),
          (((fs.zipIdx j).map fun y => (((k, y.2), u, y.1) : (Nat × Nat) × CompUnit × Function)).filterMap
            fun x => x.2.2.size.map fun n => (x.1, functionId x.2.1 x.2.2, n)).map (·.2.2) =
          fs.filterMap (·.size) := by
        intro fs
        induction fs with
        | nil => intro j; rfl
        | cons f fs ih =>
          intro j
          rw [List.zipIdx_cons, List.map_cons, List.filterMap_cons, List.filterMap_cons, ← ih (j + 1)]
          cases f.size <;> rfl
      exact this _ _
  exact this us 0

/-- **C38 (callers).** The callers listed for an address are the calls to it found in functions of
known size, in file order, nothing else. -/
theorem C38_callers (iter : List (FunctionId × FunctionTotal) → List (FunctionId × FunctionTotal))
    (calls : Range → List Call) (us : List CompUnit) (a : Nat) :
    (lookup (bloatIndex iter (some calls) us).callers a).getD [] = callsTo calls us a ∧
    lookup (bloatIndex iter none us).callers a = none :=
  ⟨lookup_callers calls us a, by show lookup (maps none us).callers a = none; rw [maps_callers_none]; rfl⟩

theorem mem_callsTo (calls : Range → List Call) (us : List CompUnit) (a : Nat) (c : Caller) :
    c ∈ callsTo calls us a → ∃ u f, us[c.unitIndex]? = some u ∧ u.functions[c.functionIndex]? = some f := by
  unfold callsTo
  simp only [List.mem_flatMap, Prod.exists, List.mem_zipIdx_iff_getElem?]
  rintro ⟨u, i, hu, f, j, hf, h⟩
  split at h
  · obtain ⟨x, _, rfl⟩ := List.mem_map.1 h
    exact ⟨u, f, hu, hf⟩
  · simp at h

/-- Every caller line can be printed. -/
theorem callers_some (iter : List (FunctionId × FunctionTotal) → List (FunctionId × FunctionTotal))
    (calls : Option (Range → List Call)) (us : List CompUnit) (store : Id → Nat) (a : Nat) :
    ∃ p, bloatCallers us store (bloatIndex iter calls us) a = some p ∧
      ∀ http i x d, p.lines http i x d =
        (callersOf calls us a).flatMap (callerText us x i) := by
  have one : ∀ l : List Caller, (∀ c ∈ l, ∃ u f, us[c.unitIndex]? = some u ∧
      u.functions[c.functionIndex]? = some f) →
      ∃ ps, l.mapM (callerLine us store) = some ps ∧ ∀ http i x d,
        (P.seqs ps).lines http i x d = l.flatMap (callerText us x i) := by
    intro l
    induction l with
    | nil =>
      intro _
      refine ⟨[], rfl, fun http i x d => ?_⟩
      rw [P.lines_eq]; rfl
    | cons c l ih =>
      intro h
      obtain ⟨ps, h1, h2⟩ := ih (fun c hc => h c (by simp [hc]))
      obtain ⟨u, f, hu, hf⟩ := h c (by simp)
      have hat : at? us (c.unitIndex, c.functionIndex) = some (u, f) := by simp [at?, hu, hf]
      refine ⟨_, by rw [List.mapM_cons, h1]; simp [callerLine, hat]; rfl, fun http i x d => ?_⟩
      rw [P.lines_eq]
      simp only [P.seqs, P.ls, List.flatMap_cons]
      rw [← P.lines_eq, h2]
      congr 1
      simp only [callerText, hat, Val.text', fnRef, spaced, textLine, withSource]
      by_cases hs : f.source.print u.dir = []
      · simp [hs, Val.text']
      · simp [hs, Val.text']
  unfold bloatCallers
  cases calls with
  | none =>
    have : lookup (bloatIndex iter none us).callers a = none := (C38_callers iter (fun _ => []) us a).2
    rw [this]
    exact ⟨.skip, rfl, fun http i x d => by rw [P.lines_eq]; rfl⟩
  | some calls =>
    have h := (C38_callers iter calls us a).1
    cases hl : lookup (bloatIndex iter (some calls) us).callers a with
    | none =>
      rw [hl] at h
      refine ⟨.skip, rfl, fun http i x d => ?_⟩
      rw [P.lines_eq]
      simp only [callersOf, ← h]; rfl
    | some l =>
      rw [hl] at h
      simp only [Option.getD_some] at h
      subst h
      obtain ⟨ps, h1, h2⟩ := one _ (fun c hc => mem_callsTo calls us a c hc)
      exact ⟨P.seqs ps, by simp only [h1]; rfl, h2⟩

theorem dec_ne (n : Nat) (s : Str) : dec n ++ [32] ++ s ≠ [] := by simp

/-- **C38 (report).** The text report succeeds exactly if every function of known size has an
address. It then shows, for each group in the order of `C38_groups`, the total, name and source,
then for each function of the group its size and unit, and below it the callers of its address. -/
theorem C38_report (iter : List (FunctionId × FunctionTotal) → List (FunctionId × FunctionTotal))
    (hiter : ∀ l, (iter l).Perm l) (calls : Option (Range → List Call)) (us : List CompUnit)
    (store : Id → Nat) :
    ((∃ u ∈ us, ∃ f ∈ u.functions, f.size.isSome = true ∧ f.address = none) →
      bloat us store (bloatIndex iter calls us) = none) ∧
    ((∀ u ∈ us, ∀ f ∈ u.functions, f.size.isSome = true → f.address.isSome = true) →
      ∃ p, bloat us store (bloatIndex iter calls us) = some p ∧ ∀ http x d,
        p.lines http 0 x d = (bloatIndex iter calls us).totals.flatMap fun (k, t) =>
          .line x 0 [] (dec t.size ++ [32] ++ withSource k.name k.source) ::
            t.functions.flatMap (functionLines calls us x)) := by
  obtain ⟨-, -, hg, hall⟩ := C38_groups iter hiter calls us
  constructor
  · rintro ⟨u, hu, f, hf, hs, ha⟩
    obtain ⟨i, hi⟩ := List.mem_iff_getElem?.1 hu
    obtain ⟨j, hj⟩ := List.mem_iff_getElem?.1 hf
    obtain ⟨n, hn⟩ := Option.isSome_iff_exists.1 hs
    have hsz : SizedAt us (i, j) (functionId u f) n := ⟨u, f, hi, hj, hn, rfl, rfl⟩
    obtain ⟨t, ht⟩ := hall _ _ _ hsz
    have hmem := ((hg _ _ ht).2.2.1 (i, j)).2 ⟨n, hsz⟩
    have none_of : ∀ {α β : Type} (g : α → Option β) (l : List α) (a : α), a ∈ l → g a = none →
        l.mapM g = none := by
      intro α β g l a
      induction l with
      | nil => intro h; simp at h
      | cons b l ih =>
        intro h hg
        rw [List.mapM_cons]
        rcases List.mem_cons.1 h with rfl | h
        · rw [hg]; rfl
        · rw [ih h hg]
          cases g b <;> rfl
    have h1 : bloatFunction us store (bloatIndex iter calls us) (i, j) = none := by
      simp [bloatFunction, at?, hi, hj, ha]
    have h2 : bloatGroup us store (bloatIndex iter calls us) (functionId u f, t) = none := by
      unfold bloatGroup
      rw [none_of _ _ _ hmem h1]; rfl
    unfold bloat
    rw [none_of _ _ _ ht h2]; rfl
  · intro hadr
    have fn : ∀ ps : List (Nat × Nat), (∀ p ∈ ps, ∃ k n, SizedAt us p k n) →
        ∃ qs, ps.mapM (bloatFunction us store (bloatIndex iter calls us)) = some qs ∧
          ∀ http x d, (P.seqs qs).lines http 1 x d = ps.flatMap (functionLines calls us x) := by
      intro ps
      induction ps with
      | nil => exact fun _ => ⟨[], rfl, fun http x d => by rw [P.lines_eq]; rfl⟩
      | cons p ps ih =>
        intro h
        obtain ⟨qs, h1, h2⟩ := ih (fun q hq => h q (by simp [hq]))
        obtain ⟨k, n, u, f, hu, hf, hn, -⟩ := h p (by simp)
        obtain ⟨a, ha⟩ := Option.isSome_iff_exists.1
          (hadr u (List.mem_of_getElem? hu) f (List.mem_of_getElem? hf) (by simp [hn]))
        obtain ⟨cp, hc1, hc2⟩ := callers_some iter calls us store a
        have hat : at? us p = some (u, f) := by simp [at?, hu, hf]
        refine ⟨_, by rw [List.mapM_cons, h1]; simp [bloatFunction, hat, ha, hn, hc1]; rfl,
          fun http x d => ?_⟩
        rw [P.lines_eq]
        simp only [P.seqs, P.ls, List.flatMap_cons]
        rw [← P.lines_eq, ← P.lines_eq, h2, hc2]
        congr 1
        rw [if_neg (show ¬ (Val.seq (.text (dec n ++ [32])) (.text u.printRef)).text' = []
          from dec_ne n u.printRef)]
        simp only [functionLines, hat, ha, hn, Val.text']
        rfl
    have grp : ∀ es : List (FunctionId × FunctionTotal), (∀ e ∈ es, e ∈ (bloatIndex iter calls us).totals) →
        ∃ qs, es.mapM (bloatGroup us store (bloatIndex iter calls us)) = some qs ∧
          ∀ http x d, (P.seqs qs).lines http 0 x d = es.flatMap fun (k, t) =>
          .line x 0 [] (dec t.size ++ [32] ++ withSource k.name k.source) ::
            t.functions.flatMap (functionLines calls us x) := by
      intro es
      induction es with
      | nil => exact fun _ => ⟨[], rfl, fun http x d => by rw [P.lines_eq]; rfl⟩
      | cons e es ih =>
        intro h
        obtain ⟨qs, h1, h2⟩ := ih (fun q hq => h q (by simp [hq]))
        obtain ⟨k, t⟩ := e
        obtain ⟨fs, hf1, hf2⟩ := fn t.functions (fun p hp => by
          obtain ⟨n, hn⟩ := ((hg k t (h _ (by simp))).2.2.1 p).1 hp
          exact ⟨k, n, hn⟩)
        refine ⟨_, by rw [List.mapM_cons, h1]; simp [bloatGroup, hf1]; rfl, fun http x d => ?_⟩
        rw [P.lines_eq]
        simp only [P.seqs, P.ls, List.flatMap_cons]
        rw [← P.lines_eq, ← P.lines_eq, h2, hf2]
        congr 1
        simp only [Val.text', spaced, withSource]
        by_cases hs : k.source = []
        · simp [hs, Val.text']
        · simp [hs, Val.text']
    obtain ⟨qs, h1, h2⟩ := grp _ (fun e he => he)
    exact ⟨P.seqs qs, by unfold bloat; rw [h1]; rfl, h2⟩

/-- **C38 (by id).** Asking for an id shows the callers of the function it was assigned to, and
nothing for other items and numbers out of range; for a function without address it panics. -/
theorem C38_bloat_id (iter : List (FunctionId × FunctionTotal) → List (FunctionId × FunctionTotal))
    (calls : Option (Range → List Call)) (us : List CompUnit) :
    (∀ i u j f a, us[i]? = some u → u.functions[j]? = some f → f.address = some a →
      ∃ p, bloatId us (assignIds us).store (bloatIndex iter calls us)
          ((assignIds us).store (.function i j)) = .shown p ∧
        bloatCallers us (assignIds us).store (bloatIndex iter calls us) a = some p) ∧
    (∀ i u j f, us[i]? = some u → u.functions[j]? = some f → f.address = none →
      bloatId us (assignIds us).store (bloatIndex iter calls us)
          ((assignIds us).store (.function i j)) = .panic) ∧
    (∀ n, (∀ i j, (assignIds us).ids[n]? ≠ some (.function i j)) →
      bloatId us (assignIds us).store (bloatIndex iter calls us) n = .nothing) := by
  have hids : (bloatIndex iter calls us).ids = (assignIds us).ids := rfl
  refine ⟨fun i u j f a hu hf ha => ?_, fun i u j f hu hf ha => ?_, fun n hn => ?_⟩
  · obtain ⟨p, hp, _⟩ := callers_some iter calls us (assignIds us).store a
    refine ⟨p, ?_, hp⟩
    unfold bloatId
    rw [hids, (C37_print_ids us).1 _ (.function hu hf)]
    simp [at?, hu, hf, ha, hp]
  · unfold bloatId
    rw [hids, (C37_print_ids us).1 _ (.function hu hf)]
    simp [at?, hu, hf, ha]
  · unfold bloatId
    rw [hids]
    cases h : (assignIds us).ids[n]? with
    | none => rfl
    | some x =>
      cases x with
      | function i j => exact absurd h (hn i j)
      | _ => rfl

/-- Non-vacuity: two units with a copy of `f` each and one of `g` that calls `f`. -/
example :
    let f : Function := { name := some (Str.ofString "f"), address := some 100, size := some 8
                          ranges := [⟨100, 108⟩] }
    let f' : Function := { name := some (Str.ofString "f"), address := some 200, size := some 8
                           ranges := [⟨200, 208⟩] }
    let g : Function := { name := some (Str.ofString "g"), address := some 300, size := some 10
                          ranges := [⟨300, 310⟩] }
    let us : List CompUnit := [{ name := some (Str.ofString "a"), functions := [f, { f with size := none }] },
                               { name := some (Str.ofString "b"), functions := [g, f'] }]
    let calls : Range → List Call := fun r => if r.lo = 300 then [⟨304, 200⟩] else []
    ((bloatIndex List.reverse (some calls) us).totals.map fun e => (e.2.size, e.2.functions)) =
      [(16, [(0, 0), (1, 1)]), (10, [(1, 0)])] ∧
    callsTo calls us 200 = [⟨1, 0, 304⟩] ∧
    (∀ u ∈ us, ∀ f ∈ u.functions, f.size.isSome = true → f.address.isSome = true) := by
  decide +kernel

/-- Finding (C38): a function of known size without an address makes the report panic. -/
example : ∃ us : List CompUnit, (∃ u ∈ us, ∃ f ∈ u.functions, f.size.isSome = true ∧ f.address = none) :=
  ⟨[{ functions := [{ size := some 8 }] }], _, List.mem_cons_self, _, List.mem_cons_self, rfl, rfl⟩

end Verif.Bloat
