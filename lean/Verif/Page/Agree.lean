import Verif.Page.AgreeSpec
import Verif.Page.Unmarked
import Verif.Show.Facts
/-!
# C106: a page without marks hides no difference
-/
namespace Verif.Page
open Verif.Print Verif.Html Verif.Item Verif.Types Verif.Opts Verif.Show Verif.Order Verif.Filter Verif.Web Verif.Merge Verif.Range

variable {o : Options} {c : FilePair} {n : Nat} {alnum : Nat → Bool}

/-! ### From what is seen -/

mutual
theorem unmarked_node : ∀ {n : Node}, (∀ m x, Sight.line m x ∈ n.sights alnum → m = .same) → NodeUnmarked n
  | .item ls kids, h => by
    refine ⟨fun y hy => h _ (lineText alnum y) ?_, unmarked_kids fun m x hx => h m x ?_⟩
    · simp only [Node.sights, List.cons_append, List.mem_cons, List.mem_append, List.mem_map]
      exact .inr (.inl (.inl ⟨y, hy, rfl⟩))
    · simp only [Node.sights, List.cons_append, List.mem_cons, List.mem_append]
      exact .inr (.inl (.inr hx))
theorem unmarked_kids : ∀ {kids : Option (List Node)}, (∀ m x, Sight.line m x ∈ kidsSights alnum kids → m = .same) → KidsUnmarked kids
  | none, _ => trivial
  | some ns, h => unmarked_nodes fun m x hx => h m x (by
      simp only [kidsSights, List.cons_append, List.mem_cons, List.mem_append]
      exact .inr (.inl hx))
theorem unmarked_nodes : ∀ {ns : List Node}, (∀ m x, Sight.line m x ∈ sights alnum ns → m = .same) → Unmarked ns
  | [], _ => trivial
  | n :: ns, h => ⟨unmarked_node fun m x hx => h m x (List.mem_append_left _ hx),
      unmarked_nodes fun m x hx => h m x (List.mem_append_right _ hx)⟩
end

/-! ### Lines without marks -/

mutual
theorem flat_same : ∀ {n : Node}, NodeUnmarked n → ∀ i, ∀ e ∈ n.flat i, e.mark = Mark.same
  | .item ls kids, h, i, e, he => by
    simp only [Node.flat, List.mem_append, List.mem_map] at he
    rcases he with ⟨y, hy, rfl⟩ | he
    · simp only [Html.entry, h.1 y hy, ite_self]
    · exact flatKids_same h.2 _ e he
theorem flatKids_same : ∀ {kids : Option (List Node)}, KidsUnmarked kids → ∀ i, ∀ e ∈ flatKids i kids, e.mark = Mark.same
  | none, _, _, _, he => by cases he
  | some ns, h, i, e, he => flats_same h i e he
theorem flats_same : ∀ {ns : List Node}, Unmarked ns → ∀ i, ∀ e ∈ flats i ns, e.mark = Mark.same
  | [], _, _, _, he => by cases he
  | n :: ns, h, i, e, he => by
    rcases List.mem_append.1 he with he | he
    · exact flat_same h.1 i e he
    · exact flats_same h.2 i e he
end

theorem versionAt_unmarked {ns : List Node} (h : Unmarked ns) (new : Bool) (i : Nat) :
    versionAt new i ns = ((flats i ns).filter fun e => e.text ≠ []).map fun e => ⟨e.depth, e.label, e.text⟩ := by
  unfold versionAt
  congr 1
  refine List.filter_congr fun e he => ?_
  have := flats_same h i e he
  cases new <;> simp [otherMark, this]

theorem versions_unmarked {old new : List Row} {ns : List Node} (h : Unmarked ns) (hv : Versions old new ns) : valued old = valued new := by
  rw [← hv.1, ← hv.2, versionAt_unmarked h, versionAt_unmarked h]

theorem versions_unmarked_perm {old new : List Row} {ns : List Node} (h : Unmarked ns) (hv : VersionsUpToOrder old new ns) :
    (valued old).Perm (valued new) := by
  refine hv.1.symm.trans ?_
  rw [versionAt_unmarked h, ← versionAt_unmarked h true]
  exact hv.2

/-- An item that says a text with a mark has a marked line. -/
theorem says_marked {m : Mark} (hm : m ≠ .same) {rows : List Row} {x : Node} (h : Says m rows [x]) (hr : ∃ r ∈ rows, r.text ≠ []) :
    ¬ NodeUnmarked x := by
  intro hu
  obtain ⟨r, hr, ht⟩ := hr
  have := h.1.subset (List.mem_map_of_mem hr)
  have := flats_same (ns := [x]) ⟨hu, trivial⟩ 0 _ this
  simp only [rowAt, ht, if_false] at this
  exact hm this

theorem entry_text {t : Str} (ht : t ≠ []) (rows : List Row) : ∃ r ∈ Show.entry t rows, r.text ≠ [] :=
  ⟨⟨0, [], t⟩, by simp [Show.entry, oneRow, ht], ht⟩

theorem k_ne {s : String} {t : Str} (h : k s ≠ []) : k s ++ t ≠ [] := by simp [h]

theorem typeItem_marked {m : Mark} (hm : m ≠ .same) {s : FileSide} {u : CompUnit} {t : TypeEntry} {x : Node}
    (h : TypeItem m o s u t x) : ¬ NodeUnmarked x := by
  obtain ⟨rows, hr, hs⟩ := h
  refine says_marked hm hs ?_
  generalize t.kind = ty at hr
  cases hr <;> exact entry_text (by simp [List.append_assoc, k, Str.ofString]) _

theorem functionItem_marked {m : Mark} (hm : m ≠ .same) {s : FileSide} {u : CompUnit} {f : Function} {x : Node}
    (h : FunctionItem m o s u f x) : ¬ NodeUnmarked x := by
  obtain ⟨rows, ⟨_, _, _, _, _, _, _, _, _, _, rfl⟩, hs⟩ := h
  exact says_marked hm hs (entry_text (by simp [k, Str.ofString]) _)

theorem variableItem_marked {m : Mark} (hm : m ≠ .same) {s : FileSide} {u : CompUnit} {v : Item.Variable} {x : Node}
    (h : VariableItem m o s u v x) : ¬ NodeUnmarked x :=
  says_marked hm h (entry_text (by simp [k, Str.ofString]) _)

theorem unitItem_marked {m : Mark} (hm : m ≠ .same) {s : FileSide} {u : CompUnit} {x : Node}
    (h : UnitItem m o s n u x) : ¬ NodeUnmarked x := by
  obtain ⟨name, part, types, fns, inl, vars, rfl, -⟩ := h
  intro hu
  exact hm (hu.1 _ (List.mem_singleton.2 rfl))

/-! ### Pairs -/

theorem parts_matched {α : Type} {R : α → α → Prop} {Both' : α → α → Node → Prop} {Old New : α → Node → Prop}
    (hb : ∀ a b x, Both' a b x → NodeUnmarked x → R a b)
    (ho : ∀ a x, Old a x → ¬ NodeUnmarked x) (hn : ∀ a x, New a x → ¬ NodeUnmarked x) :
    ∀ {order : List (MergeResult α α)} {parts : List (List Node)}, All2 (PairShown o Both' Old New) order parts →
      Unmarked parts.flatten → Matched o R (oldItems order) (newItems order) := by
  intro order parts h hu
  induction h with
  | nil => exact ⟨[], [], [], .nil, .nil, by simp, by simp, by simp⟩
  | @cons it part order parts hp _ ih =>
    rw [List.flatten_cons, unmarked_append] at hu
    obtain ⟨pairs, gone, new, h1, h2, h3, h4, h5⟩ := ih hu.2
    cases hp with
    | @both a b x h =>
      refine ⟨(a, b) :: pairs, gone, new, ?_, ?_, ?_, h4, h5⟩
      · exact h1.cons _
      · exact h2.cons _
      · intro p hp
        rcases List.mem_cons.1 hp with rfl | hp
        · exact hb _ _ _ h hu.1.1
        · exact h3 p hp
    | old _ h => exact absurd hu.1.1 (ho _ _ h)
    | new _ h => exact absurd hu.1.1 (hn _ _ h)
    | notOld hi =>
      exact ⟨pairs, _ :: gone, new, List.perm_middle.trans (h1.cons _), h2, h3, fun _ => hi, h5⟩
    | notNew hi =>
      exact ⟨pairs, gone, _ :: new, h1, List.perm_middle.trans (h2.cons _), h3, h4, fun _ => hi⟩

theorem matched_perm {α : Type} {R : α → α → Prop} {la lb la' lb' : List α} (h : Matched o R la lb) (ha : la.Perm la')
    (hb : lb.Perm lb') : Matched o R la' lb' := by
  obtain ⟨pairs, gone, new, h1, h2, h3, h4, h5⟩ := h
  exact ⟨pairs, gone, new, h1.trans ha, h2.trans hb, h3, h4, h5⟩

theorem unmarked_headed {l : Str} {ns : List Node} (h : Unmarked (headed l ns)) : Unmarked ns := by
  cases ns with
  | nil => trivial
  | cons n ns => exact h.1.2

/-! ### Sizes -/

theorem valued_append (xs ys : List Row) : valued (xs ++ ys) = valued xs ++ valued ys := List.filter_append ..

theorem sizePair_length {l : Str} {a b : Nat} {old new : List Row} (h : SizePair l a b old new) :
    (valued old).length = (valued new).length := by
  unfold SizePair at h
  split at h
  · obtain ⟨rfl, rfl⟩ := h; rfl
  · obtain ⟨rfl, t, ht, rfl⟩ := h
    have : t ≠ [] := by
      unfold SizeText at ht
      split at ht
      · rw [ht]; exact dec_ne_nil _
      · obtain ⟨d, h, _⟩ := ht
        rw [h]; simp [dec_ne_nil]
    simp [valued, dec_ne_nil, this]

theorem sizePair_eq {l : Str} {a b : Nat} {old new : List Row} (h : SizePair l a b old new) (he : valued old = valued new) : a = b := by
  unfold SizePair at h
  split at h
  · rename_i h0; exact h0.1.trans h0.2.symm
  · obtain ⟨rfl, t, ht, rfl⟩ := h
    unfold SizeText at ht
    split at ht
    · assumption
    · obtain ⟨d, rfl, _⟩ := ht
      simp [valued, dec_ne_nil] at he
      have : 32 ∈ dec a := by rw [he]; simp [k, Str.ofString]
      have := dec_digits _ _ this
      omega

/-! ### Units -/

theorem unmarked_one {x : Node} (h : NodeUnmarked x) : Unmarked [x] := ⟨h, trivial⟩

theorem unitRows_agree {u v : CompUnit} {ns : List Node} (h : UnitRowsBoth o c u v ns) (hu : Unmarked ns)
    (hf : o.printUnitAddress = true → (1 < (u.knownRanges c.a.tsz).length ↔ 1 < (v.knownRanges c.b.tsz).length)) :
    u.functionSize = v.functionSize ∧ u.variableSize c.a.tsz = v.variableSize c.b.tsz ∧
    size? (u.unknownRanges c.a.tsz) = size? (v.unknownRanges c.b.tsz) ∧
    (o.printUnitAddress = true → valued (unitAddressRows c.a.tsz u) = valued (unitAddressRows c.b.tsz v)) := by
  obtain ⟨f, f', x, x', w, w', fo, fn, xo, xn, wo, wn, e1, e2, e3, e4, e5, e6, p1, p2, p3, hv⟩ := h hf
  have := versions_unmarked hu hv
  simp only [valued_append] at this
  obtain ⟨this, q3⟩ := List.append_inj' this (sizePair_length p3)
  obtain ⟨this, q2⟩ := List.append_inj' this (sizePair_length p2)
  obtain ⟨this, q1⟩ := List.append_inj' this (sizePair_length p1)
  rw [e1, e2, e3, e4, e5, e6, sizePair_eq p1 q1, sizePair_eq p2 q2, sizePair_eq p3 q3]
  refine ⟨rfl, rfl, rfl, fun hp => ?_⟩
  simpa [shownIf, hp] using this

theorem oldItems_append {α : Type} (xs ys : List (MergeResult α α)) : oldItems (xs ++ ys) = oldItems xs ++ oldItems ys :=
  List.filterMap_append ..

theorem parts_append {α : Type} {Both : α → α → Node → Prop} {Old New : α → Node → Prop}
    {xs ys : List (MergeResult α α)} {ps qs : List (List Node)} (h : All2 (PairShown o Both Old New) xs ps)
    (h' : All2 (PairShown o Both Old New) ys qs) : All2 (PairShown o Both Old New) (xs ++ ys) (ps ++ qs) := by
  induction h with
  | nil => exact h'
  | cons h _ ih => exact .cons h ih

theorem unit_agree {u v : CompUnit} {x : Node} (h : UnitBoth o c n u v x) (hu : NodeUnmarked x) : UnitsSay o c u v := by
  obtain ⟨names, part, types, fns, inl, vars, rfl, hn, -, hp, -, ht, -, hf, -, hv⟩ := h
  have hk : Unmarked (part ++ headed (k "types") types ++ headed (k "functions") fns ++
      headed (k "inlined functions") inl ++ headed (k "variables") vars) := hu.2
  simp only [unmarked_append] at hk
  obtain ⟨⟨⟨⟨k1, k2⟩, k3⟩, k4⟩, k5⟩ := hk
  refine ⟨?_, fun hc hform => unitRows_agree (hp hc) k1 hform, fun hc => ?_, fun hc => ?_, fun hc => ?_⟩
  · have hne : ∀ u : CompUnit, unitText u ≠ [] := fun u => by simp [unitText, k, Str.ofString]
    have := versions_unmarked (ns := [.item names none]) ⟨⟨hu.1, trivial⟩, trivial⟩ hn
    simpa [valued, hne] using this
  · obtain ⟨order, h1, _, parts, h2, rfl⟩ := ht hc
    refine matched_perm (parts_matched (fun a b x hb hm hform => ?_) (fun a x => typeItem_marked (by simp))
      (fun a x => typeItem_marked (by simp)) h2 (unmarked_headed k2)) h1.old h1.new
    obtain ⟨old, new, r1, r2, hvs⟩ := hb hform
    exact ⟨old, new, r1, r2, versions_unmarked (unmarked_one hm) hvs⟩
  · obtain ⟨order, order', h1, _, _, ⟨_, parts, h2, rfl⟩, _, parts', h2', rfl⟩ := hf hc
    have hq := parts_append h2 h2'
    refine matched_perm (parts_matched (fun a b x hb hm hform hla hlb => ?_) (fun a x => functionItem_marked (by simp))
      (fun a x => functionItem_marked (by simp)) hq ?_) h1.old h1.new
    · obtain ⟨old, new, r1, r2, hvs, hvn⟩ := hb hform hla hlb
      exact ⟨old, new, r1, r2, versions_unmarked_perm (unmarked_one hm) hvs,
        fun ha hb => versions_unmarked (unmarked_one hm) (hvn ha hb)⟩
    · rw [List.flatten_append, unmarked_append]
      exact ⟨unmarked_headed k3, unmarked_headed k4⟩
  · obtain ⟨order, h1, _, parts, h2, rfl⟩ := hv hc
    exact matched_perm (parts_matched (fun a b x hb hm => versions_unmarked (unmarked_one hm) hb) (fun a x => variableItem_marked (by simp))
      (fun a x => variableItem_marked (by simp)) h2 (unmarked_headed k5)) h1.old h1.new

/-! ### The summary -/

/-- A label of a size. -/
def SizeLabel (l : Str) : Prop := l = k "size" ∨ l = k "fn size" ∨ l = k "var size" ∨ l = k "other size"

/-- Sizes are decimal. -/
def Sizes (rows : List Row) : Prop := ∀ r ∈ rows, SizeLabel r.label → ∃ n, r.text = dec n

theorem Sizes.append {xs ys : List Row} (h : Sizes xs) (h' : Sizes ys) : Sizes (xs ++ ys) := fun r hr =>
  (List.mem_append.1 hr).elim (h r) (h' r)

theorem Sizes.deeper {xs : List Row} (h : Sizes xs) : Sizes (xs.map Row.deeper) := by
  intro r hr hl
  obtain ⟨q, hq, rfl⟩ := List.mem_map.1 hr
  exact h q hq hl

theorem Sizes.flatMap {α : Type} {f : α → List Row} {l : List α} (h : ∀ x, Sizes (f x)) : Sizes (l.flatMap f) := by
  intro r hr
  obtain ⟨x, _, hx⟩ := List.mem_flatMap.1 hr
  exact h x r hx

theorem sizes_oneRow {l t : Str} (hl : ¬ SizeLabel l) : Sizes (oneRow l t) := by
  intro r hr
  unfold oneRow at hr
  split at hr
  · cases hr
  · obtain rfl := List.mem_singleton.1 hr
    exact fun h => absurd h hl

theorem sizes_count (l : Str) (n : Nat) : Sizes (countRow l (some n)) := by
  intro r hr _
  simp only [countRow, oneRow, Option.map_some, Option.getD_some, dec_ne_nil, if_false, List.mem_singleton] at hr
  exact ⟨n, by rw [hr]⟩

theorem Sizes.under {l : Str} {rows : List Row} (hl : ¬ SizeLabel l) (h : Sizes rows) : Sizes (under l rows) := by
  unfold Show.under
  split
  · exact nofun
  · intro r hr
    rcases List.mem_cons.1 hr with rfl | hr
    · exact fun h => absurd h hl
    · exact h.deeper r hr

theorem Sizes.entry {t : Str} {rows : List Row} (h : Sizes rows) : Sizes (Show.entry t rows) :=
  (sizes_oneRow (by simp [SizeLabel, k, Str.ofString])).append h.deeper

theorem sizes_file {s : FileSide} {rows : List Row} (h : FileRows o s rows) : Sizes rows := by
  obtain ⟨total, f, v, -, -, -, rfl⟩ := h
  refine Sizes.entry (Sizes.append (Sizes.append (Sizes.append (Sizes.append (Sizes.append ?_ (sizes_count _ _)) (sizes_count _ _))
    (sizes_count _ _)) (sizes_count _ _)) ?_)
  · unfold shownIf
    split
    · exact Sizes.under (by unfold SizeLabel; decide +kernel) (Sizes.flatMap fun r => sizes_oneRow (by unfold SizeLabel; decide +kernel))
    · exact nofun
  · exact Sizes.under (by unfold SizeLabel; decide +kernel) (Sizes.flatMap fun x =>
      Sizes.entry (Sizes.append (sizes_oneRow (by unfold SizeLabel; decide +kernel)) (sizes_count _ _)))

theorem sized_same {new old : List Row} (h : All2 Sized new old) (hs : Sizes old) : new = old := by
  induction h with
  | nil => rfl
  | @cons r t _ _ h _ ih =>
    rw [ih fun r hr => hs r (List.mem_cons_of_mem _ hr)]
    obtain ⟨hd, hl, ht⟩ := h
    have : t.text = r.text := by
      rcases ht with ht | ⟨hsz, a, b, e, ht⟩
      · exact ht
      · obtain ⟨n, hn⟩ := hs t (List.mem_cons_self ..) (hl ▸ hsz)
        unfold SizeText at ht
        split at ht
        · rw [ht, e]
        · obtain ⟨d, ht, _⟩ := ht
          rw [hn] at ht
          have : 32 ∈ dec n := by rw [ht]; simp [k, Str.ofString]
          have := dec_digits _ _ this
          omega
    cases r; cases t
    simp only at hd hl this
    rw [hd, hl, this]

theorem page_agree {ns : List Node} (h : DiffPage o c n ns) (hu : Unmarked ns) : FilesSay o c := by
  obtain ⟨head, units, order, rfl, -, hh, h1, _, parts, h2, rfl⟩ := h
  rw [unmarked_append] at hu
  have hm : Matched o (UnitsSay o c) (oldItems order) (newItems order) :=
    parts_matched (fun a b x h hx => unit_agree h hx) (fun a x h => unitItem_marked (by simp) h)
      (fun a x h => unitItem_marked (by simp) h) h2 hu.2
  refine ⟨fun hc => ?_, matched_perm hm h1.old h1.new⟩
  obtain ⟨rows, rows', r1, r2, e1, e2⟩ := hh hc
  refine ⟨rows, rows', r1, r2, ?_⟩
  have e : versionAt true 0 head = valued rows := by rw [← e1, versionAt_unmarked hu.1, versionAt_unmarked hu.1]
  rw [e] at e2
  exact (sized_same e2 fun r hr => sizes_file r1 r (List.mem_filter.1 hr).1).symm

/-- **C106** (no mark, no difference). If whoever reads the page of a diff, tag by tag, sees no line that is marked as deleted
or added, the same is said of both files: every unit to list has a partner, and in it every type, function and variable, with the
same size and the same rows, unless the user ignores what was deleted or added. -/
theorem C106_unmarked (t : EntityTable) (alnum : Nat → Bool) (fr : Frame) (o : Options) (c : FilePair) (n : Nat)
    (hhttp : o.http = false) (hhtml : o.html = true) (hins : o.printFunctionInstructions = false)
    (ga : ∀ u ∈ c.a.file.units, ∀ t ∈ u.types, Acc (IdRef c.a.hash) t.kind) (page : Str)
    (h : diffPage t alnum fr o c n = some page) :
    ∃ items, page = fr.header ++ items ++ fr.footer ∧
      ((∀ m x, Sight.line m x ∈ look t items → m = .same) → FilesSay o c) := by
  obtain ⟨items, ns, he, hr, hp⟩ := C106_diff t alnum fr o c n hhttp hhtml hins ga page h
  refine ⟨items, he, fun hm => page_agree hp (unmarked_nodes (alnum := alnum) ?_)⟩
  rw [← C80_look hr]
  exact hm

end Verif.Page
