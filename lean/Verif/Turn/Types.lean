import Verif.Turn.Lists
import Verif.Show.TypeTotal
/-!
# C104: types the other way round
-/
namespace Verif.Turn
open Verif.Print Verif.Item Verif.Namespace Verif.Types Verif.Layout Verif.Path Verif.Opts Verif.Merge Verif.Range
  Verif.File Verif.Show Verif.Order

variable {po : Print.Opts}

/-! ### Costs -/

theorem tyCost_turn (c : Pair) (w : Nat) (a b : TypeOffset) : tyCost (turnPair c) w b a = tyCost c w a b := by
  simp only [tyCost, turnPair]
  cases fromOffset c.a.hash a <;> cases fromOffset c.b.hash b <;> rfl

theorem memberCost_turn (c : Pair) (a b : Member) : memberCost (turnPair c) b a = memberCost c a b := by
  simp only [memberCost, tyCost_turn, eq_comm (a := b.name)]

theorem inheritCost_turn (c : Pair) (a b : Inherit) : inheritCost (turnPair c) b a = inheritCost c a b :=
  tyCost_turn c 2 _ _

theorem layoutCost_turn (c : Pair) (a b : Layout) : layoutCost (turnPair c) b a = layoutCost c a b := by
  obtain ⟨oa, sa, ia⟩ := a
  obtain ⟨ob, sb, ib⟩ := b
  cases ia <;> cases ib <;> simp only [layoutCost, memberCost_turn, inheritCost_turn]

theorem variantCost_turn (a b : Variant) : variantCost b a = variantCost a b := by
  simp only [variantCost, eq_comm (a := b.name), eq_comm (a := b.discrValue)]

theorem enumeratorCost_turn (a b : Enumerator) : enumeratorCost b a = enumeratorCost a b := by
  simp only [enumeratorCost, eq_comm (a := b.name), eq_comm (a := b.value)]

theorem sectionCost_turn (a b : Section) : sectionCost b a = sectionCost a b := by
  simp only [sectionCost, eq_comm (a := b.name), eq_comm (a := b.segment)]

/-! ### Lines -/

theorem line_empty (l : Str) (a b : Val) (i : Nat) (m : DiffPrefix) (d : Nat) :
    ((D.line l a b).den po i m d).1 = [] ↔ a.text' = [] ∧ b.text' = [] := by
  simp only [D.den]
  by_cases hab : a.text' = b.text' <;> by_cases h0 : a.text' = [] <;> by_cases h1 : b.text' = [] <;> simp [hab, h0, h1]

theorem line_quiet {l : Str} {a b : Val} {i : Nat} {m : DiffPrefix} {d : Nat}
    (h : ((D.line l a b).den po i m d).2.1 = false) : a.text' = b.text' := by
  simp only [D.den] at h
  by_cases hab : a.text' = b.text'
  · exact hab
  · rw [if_neg hab] at h
    split at h
    · simp at h
    · split at h <;> simp at h

theorem indent_den (c : Bool) (h b : D) (i : Nat) (x : DiffPrefix) (d : Nat) : (D.indent c h b).den po i x d =
    if (b.den po (i + 1) .equal d).1 = [] then h.den po i x d
    else ((h.den po i (if (b.den po (i + 1) .equal d).2.1 then .modify else .equal) d).1 ++ (b.den po (i + 1) .equal d).1,
      (b.den po (i + 1) .equal d).2.1 || (h.den po i (if (b.den po (i + 1) .equal d).2.1 then .modify else .equal) d).2.1,
      (h.den po i (if (b.den po (i + 1) .equal d).2.1 then .modify else .equal) d).2.2) := rfl

/-- The line of an item that has further items below. -/
theorem indent_quiet {c : Bool} {a b : Val} {e : D} {i : Nat} {m : DiffPrefix} {d : Nat}
    (h : ((D.indent c (.line [] a b) e).den po i m d).2.1 = false) : a.text' = b.text' := by
  rw [indent_den] at h
  split at h
  · exact line_quiet h
  · simp only [Bool.or_eq_false_iff] at h
    exact line_quiet h.2

theorem indent_lines {c : Bool} {a b : Val} (ha : a.text' ≠ []) (e : D) (i : Nat) (m : DiffPrefix) (d : Nat) :
    ((D.indent c (.line [] a b) e).den po i m d).1 ≠ [] := by
  rw [indent_den]
  split
  · exact fun h => ha ((line_empty (po := po) [] a b i m d).1 h).1
  · intro h
    rw [List.append_eq_nil_iff] at h
    exact ha ((line_empty (po := po) [] a b i _ d).1 h.1).1

theorem indent_ls {http : Bool} {c : Bool} {a : Val} (ha : a.text' ≠ []) (e : P) (i : Nat) (m : DiffPrefix) (d : Nat) :
    (P.indent c (.line [] a) e).ls http i m d ≠ [] := by
  simp [P.ls, ha]

theorem memberVal_ne (s : Side) (m : Member) : (memberVal s m).text' ≠ [] := by
  simp only [memberVal, vals, Val.text']
  intro h
  simp only [List.append_eq_nil_iff] at h
  have := h.2.2.1
  simp [k, Str.ofString] at this

theorem extent_ne (l : Layout) (s : Str) : extentStr l ++ s ≠ [] := by
  unfold extentStr
  simp [k, Str.ofString]

theorem paddingVal_ne (l : Layout) : (paddingVal l).text' ≠ [] := extent_ne l _

theorem layoutInheritVal_ne (s : Side) (l : Layout) (i : Inherit) : (layoutInheritVal s l i).text' ≠ [] := by
  simp only [layoutInheritVal, vals, Val.text']
  intro h
  exact extent_ne l _ (List.append_eq_nil_iff.1 h).1

theorem variantVal_ne (v : Variant) : (variantVal v).text' ≠ [] := by
  simp only [variantVal, vals, Val.text']
  intro h
  simp only [List.append_eq_nil_iff] at h
  have := h.2.1
  cases hd : v.discrValue <;> simp [hd, Val.text', k, Str.ofString] at this

/-! ### Members -/

variable {c : Pair}

/-- Diffs of what is below a member, both ways. -/
def RecTwin (po : Print.Opts) (c : Pair) (r r' : Recs) : Prop :=
  ∀ m m' x y, r.d (inlineTy c.a m) (inlineTy c.b m') = some x → r'.d (inlineTy c.b m') (inlineTy c.a m) = some y → Twin po x y

theorem memberD_twin {r r' : Recs} (hr : RecTwin po c r r') {a b : Member} {e e' : D}
    (h : memberD c r a b = some e) (h' : memberD (turnPair c) r' b a = some e') : Twin po e e' := by
  simp only [memberD, Option.bind_eq_bind, Option.bind_eq_some_iff, Option.some.injEq] at h h'
  obtain ⟨x, hx, rfl⟩ := h
  obtain ⟨y, hy, rfl⟩ := h'
  exact Twin.indent _ (Twin.lineSwap _ _ _) (hr a b x y hx hy)

theorem memberD_facts {r : Recs} {a b : Member} {e : D} (h : memberD c r a b = some e) (i : Nat) (m : DiffPrefix) (d : Nat) :
    (e.den po i m d).1 ≠ [] ∧ ((e.den po i m d).2.1 = false → (memberVal c.a a).text' = (memberVal c.b b).text') := by
  simp only [memberD, Option.bind_eq_bind, Option.bind_eq_some_iff, Option.some.injEq] at h
  obtain ⟨x, hx, rfl⟩ := h
  exact ⟨indent_lines (memberVal_ne _ _) _ _ _ _, indent_quiet⟩

theorem memberP_ls {s : Side} {rec : Option Ty → Option P} {m : Member} {p : P} (h : memberP s rec m = some p)
    (http : Bool) (i : Nat) (x : DiffPrefix) (d : Nat) : p.ls http i x d ≠ [] := by
  simp only [memberP, Option.bind_eq_bind, Option.bind_eq_some_iff, Option.some.injEq] at h
  obtain ⟨q, hq, rfl⟩ := h
  exact indent_ls (memberVal_ne _ _) _ _ _ _

theorem layoutItemP_ls {s : Side} {rec : Option Ty → Option P} {vs : Layout → List Variant → Option P} {l : Layout} {p : P}
    (h : layoutItemP s rec vs l = some p) (http : Bool) (i : Nat) (x : DiffPrefix) (d : Nat) : p.ls http i x d ≠ [] := by
  unfold layoutItemP at h
  split at h
  · cases h
    simp [P.ls, paddingVal_ne]
  · exact memberP_ls h http i x d
  · simp only [Option.bind_eq_bind, Option.bind_eq_some_iff, Option.some.injEq] at h
    obtain ⟨q, hq, rfl⟩ := h
    exact indent_ls (extent_ne _ _) _ _ _ _
  · cases h
    simp [P.ls, layoutInheritVal_ne]

theorem variantP_ls {s : Side} {rec : Option Ty → Option P} {l : Layout} {v : Variant} {p : P}
    (h : variantP s rec l v = some p) (http : Bool) (i : Nat) (x : DiffPrefix) (d : Nat) : p.ls http i x d ≠ [] := by
  simp only [variantP, Option.bind_eq_bind, Option.bind_eq_some_iff, Option.some.injEq] at h
  obtain ⟨q, hq, rfl⟩ := h
  exact indent_ls (variantVal_ne _) _ _ _ _

theorem memberCost_zero {c : Pair} {a b : Member} (h : a.name = b.name ∧ SameTy c a.ty b.ty) : memberCost c a b = 0 := by
  rw [memberCost_eq]
  simp only [memberPrices]
  rw [points_zero (by simp [h.1]), points_zero (by simp [h.2])]

/-- The members that are in a layout. -/
def ItemMember (l : Layout) (m : Member) : Prop := l.item = .member m

theorem layoutItemD_twin {r r' : Recs} (hr : RecTwin po c r r')
    (hpa : r'.pb = r.pa) (hpb : r'.pa = r.pb)
    {pa pb : Layout → List Variant → Option P} {dv dv' : Layout → List Variant → Layout → List Variant → Option D}
    {a b : Layout}
    (hdv : ∀ u v, a.item = .variantPart u → b.item = .variantPart v → ∀ x y, dv a u.variants b v.variants = some x →
      dv' b v.variants a u.variants = some y → Twin po x y)
    {e e' : D} (h : layoutItemD c r pa pb dv a b = some e) (h' : layoutItemD (turnPair c) r' pb pa dv' b a = some e') :
    Twin po e e' := by
  obtain ⟨oa, sa, ia⟩ := a
  obtain ⟨ob, sb, ib⟩ := b
  cases ia <;> cases ib <;> simp only [layoutItemD] at h h'
  case padding.padding => cases h; cases h'; exact Twin.lineSwap _ _ _
  case member.member x y => exact memberD_twin hr h h'
  case variantPart.variantPart x y =>
    simp only [Option.bind_eq_bind, Option.bind_eq_some_iff, Option.some.injEq] at h h'
    obtain ⟨p, hp, rfl⟩ := h
    obtain ⟨q, hq, rfl⟩ := h'
    exact Twin.indent _ (Twin.lineSwap _ _ _) (hdv x y rfl rfl p q hp hq)
  case inherit.inherit x y => cases h; cases h'; exact Twin.lineSwap _ _ _
  all_goals
    simp only [Option.bind_eq_bind, Option.bind_eq_some_iff, Option.some.injEq, turnPair, hpa, hpb] at h h'
    obtain ⟨p, hp, q, hq, rfl⟩ := h
    obtain ⟨q', hq', p', hp', rfl⟩ := h'
    rw [hp] at hp'
    rw [hq] at hq'
    cases hp'
    cases hq'
    exact Twin.block _ _

theorem layoutItemD_facts {r : Recs} {pa pb : Layout → List Variant → Option P}
    {dv : Layout → List Variant → Layout → List Variant → Option D} {a b : Layout} {e : D}
    (h : layoutItemD c r pa pb dv a b = some e) (i : Nat) (m : DiffPrefix) (d : Nat) :
    (e.den po i m d).1 ≠ [] ∧ ((e.den po i m d).2.1 = false → layoutCost c a b < 1 + 1 →
      (∀ x y, a.item = .member x → b.item = .member y → (memberVal c.a x).text' = (memberVal c.b y).text' →
        memberCost c x y = 0) → layoutCost c a b = 0) := by
  obtain ⟨oa, sa, ia⟩ := a
  obtain ⟨ob, sb, ib⟩ := b
  cases ia <;> cases ib <;> simp only [layoutItemD] at h
  case padding.padding =>
    cases h
    exact ⟨fun h => paddingVal_ne _ ((line_empty _ _ _ i m d).1 h).1, fun _ _ _ => rfl⟩
  case member.member x y =>
    have := memberD_facts (po := po) h i m d
    exact ⟨this.1, fun hq _ hm => hm x y rfl rfl (this.2 hq)⟩
  case variantPart.variantPart x y =>
    simp only [Option.bind_eq_bind, Option.bind_eq_some_iff, Option.some.injEq] at h
    obtain ⟨p, hp, rfl⟩ := h
    exact ⟨indent_lines (extent_ne _ _) _ _ _ _, fun _ _ _ => rfl⟩
  case inherit.inherit x y =>
    cases h
    refine ⟨fun h => ?_, fun _ hc _ => ?_⟩
    · exact layoutInheritVal_ne _ _ _ ((line_empty _ _ _ i m d).1 h).1
    · have : layoutCost c ⟨oa, sa, .inherit x⟩ ⟨ob, sb, .inherit y⟩ = inheritCost c x y := rfl
      rw [this] at hc ⊢
      simp only [inheritCost, tyCost] at hc ⊢
      split <;> rename_i h1 h2
      · split
        · rfl
        · rename_i hs; simp only [h1, h2, if_neg hs] at hc; omega
      · rfl
      · simp_all
  all_goals
    simp only [Option.bind_eq_bind, Option.bind_eq_some_iff, Option.some.injEq] at h
    obtain ⟨p, hp, q, hq, rfl⟩ := h
    refine ⟨fun h => ?_, fun _ hc _ => by simp [layoutCost] at hc⟩
    simp only [D.den, List.append_eq_nil_iff] at h
    exact layoutItemP_ls hp po.http i .delete d h.1

theorem layout_lists {r r' : Recs} (hr : RecTwin po c r r') (hpa : r'.pb = r.pa) (hpb : r'.pa = r.pb)
    {pa pb : Layout → List Variant → Option P} {dv dv' : Layout → List Variant → Layout → List Variant → Option D}
    {la lb : List Layout}
    (hm : ∀ a ∈ la, ∀ b ∈ lb, ∀ x y, a.item = .member x → b.item = .member y →
      (memberVal c.a x).text' = (memberVal c.b y).text' → memberCost c x y = 0)
    (hdv : ∀ a ∈ la, ∀ b ∈ lb, ∀ u v, a.item = .variantPart u → b.item = .variantPart v → ∀ x y,
      dv a u.variants b v.variants = some x → dv' b v.variants a u.variants = some y → Twin po x y) :
    Lists po (layoutItemP c.a r.pa pa) (layoutItemP c.b r.pb pb) (layoutItemD c r pa pb dv)
      (layoutItemD (turnPair c) r' pb pa dv') (fun _ => 1) (layoutCost c) (layoutCost (turnPair c))
      (fun _ _ _ => False) (fun _ _ _ => False) la lb where
  pos _ := Nat.one_pos
  costs a b := layoutCost_turn c a b
  old a _ x hx i m d := iff_of_false (layoutItemP_ls hx _ i m d) (fun h => h)
  new a _ x hx i m d := iff_of_false (layoutItemP_ls hx _ i m d) (fun h => h)
  empty a _ b _ x hx i m d := iff_of_false (layoutItemD_facts hx i m d).1 (fun h => h.1)
  empty' a _ b _ x hx i m d := iff_of_false (layoutItemD_facts hx i m d).1 (fun h => h.1)
  twin a ha b hb x y hx hy := layoutItemD_twin hr hpa hpb (hdv a ha b hb) hx hy
  quiet a ha b hb x hx hc i m d hq := (layoutItemD_facts hx i m d).2 hq hc (hm a ha b hb)
  quiet' a ha b hb x hx hc i m d hq := by
    rw [← layoutCost_turn] at hc ⊢
    refine (layoutItemD_facts hx i m d).2 hq hc fun x y hx hy ht => ?_
    rw [memberCost_turn]
    exact hm a ha b hb y x hy hx ht.symm

theorem member_lists {r r' : Recs} (hr : RecTwin po c r r') {la lb : List Member}
    (hm : ∀ a ∈ la, ∀ b ∈ lb, (memberVal c.a a).text' = (memberVal c.b b).text' → memberCost c a b = 0) :
    Lists po (memberP c.a r.pa) (memberP c.b r.pb) (memberD c r)
      (memberD (turnPair c) r') (fun _ => 1) (memberCost c) (memberCost (turnPair c))
      (fun _ _ _ => False) (fun _ _ _ => False) la lb where
  pos _ := Nat.one_pos
  costs a b := memberCost_turn c a b
  old a _ x hx i m d := iff_of_false (memberP_ls hx _ i m d) (fun h => h)
  new a _ x hx i m d := iff_of_false (memberP_ls hx _ i m d) (fun h => h)
  empty a _ b _ x hx i m d := iff_of_false (memberD_facts hx i m d).1 (fun h => h.1)
  empty' a _ b _ x hx i m d := iff_of_false (memberD_facts hx i m d).1 (fun h => h.1)
  twin a ha b hb x y hx hy := memberD_twin hr hx hy
  quiet a ha b hb x hx _ i m d hq := hm a ha b hb ((memberD_facts hx i m d).2 hq)
  quiet' a ha b hb x hx _ i m d hq := hm a ha b hb ((memberD_facts hx i m d).2 hq).symm

theorem variantD_twin (ho : po.html = false) {r r' : Recs} (hr : RecTwin po c r r') (hpa : r'.pb = r.pa) (hpb : r'.pa = r.pb)
    {la lb : Layout} {a b : Variant}
    (hm : ∀ x ∈ a.members, ∀ y ∈ b.members, (memberVal c.a x).text' = (memberVal c.b y).text' → memberCost c x y = 0)
    {e e' : D} (h : variantD c r la lb a b = some e) (h' : variantD (turnPair c) r' lb la b a = some e') : Twin po e e' := by
  simp only [variantD, Option.bind_eq_bind, Option.bind_eq_some_iff, Option.some.injEq] at h h'
  obtain ⟨x, hx, rfl⟩ := h
  obtain ⟨y, hy, rfl⟩ := h'
  rw [hpa, hpb] at hy
  refine Twin.indent _ (Twin.lineSwap _ _ _) (listD_twin ho (layout_lists hr hpa hpb ?_ ?_) hx hy)
  · intro l hl l' hl' x y hx hy
    exact hm x ((mem_layout_member ..).1 ⟨l, hl, hx⟩) y ((mem_layout_member ..).1 ⟨l', hl', hy⟩)
  · intro l hl l' hl' u v _ _ x y hx hy
    cases hx; cases hy
    exact Twin.skip

theorem variantD_facts {r : Recs} {la lb : Layout} {a b : Variant} {e : D} (h : variantD c r la lb a b = some e) (i : Nat)
    (m : DiffPrefix) (d : Nat) :
    (e.den po i m d).1 ≠ [] ∧ ((e.den po i m d).2.1 = false → (variantVal a).text' = (variantVal b).text') := by
  simp only [variantD, Option.bind_eq_bind, Option.bind_eq_some_iff, Option.some.injEq] at h
  obtain ⟨x, hx, rfl⟩ := h
  exact ⟨indent_lines (variantVal_ne _) _ _ _ _, indent_quiet⟩

theorem variant_lists (ho : po.html = false) {r r' : Recs} (hr : RecTwin po c r r') (hpa : r'.pb = r.pa) (hpb : r'.pa = r.pb)
    {la lb : Layout} {va vb : List Variant}
    (hv : ∀ a ∈ va, ∀ b ∈ vb, (variantVal a).text' = (variantVal b).text' → a.name = b.name ∧ a.discrValue = b.discrValue)
    (hm : ∀ a ∈ va, ∀ b ∈ vb, ∀ x ∈ a.members, ∀ y ∈ b.members, (memberVal c.a x).text' = (memberVal c.b y).text' →
      memberCost c x y = 0) :
    Lists po (variantP c.a r.pa la) (variantP c.b r.pb lb) (variantD c r la lb)
      (variantD (turnPair c) r' lb la) (fun _ => 1) variantCost variantCost
      (fun _ _ _ => False) (fun _ _ _ => False) va vb where
  pos _ := Nat.one_pos
  costs a b := variantCost_turn a b
  old a _ x hx i m d := iff_of_false (variantP_ls hx _ i m d) (fun h => h)
  new a _ x hx i m d := iff_of_false (variantP_ls hx _ i m d) (fun h => h)
  empty a _ b _ x hx i m d := iff_of_false (variantD_facts hx i m d).1 (fun h => h.1)
  empty' a _ b _ x hx i m d := iff_of_false (variantD_facts hx i m d).1 (fun h => h.1)
  twin a ha b hb x y hx hy := variantD_twin ho hr hpa hpb (hm a ha b hb) hx hy
  quiet a ha b hb x hx _ i m d hq := by
    have := hv a ha b hb ((variantD_facts hx i m d).2 hq)
    simp [variantCost, this]
  quiet' a ha b hb x hx _ i m d hq := by
    have := hv a ha b hb ((variantD_facts hx i m d).2 hq).symm
    simp [variantCost, this]

variable {Ta Tb : Ty → Prop}

theorem membersD_twin (ho : po.html = false) (ra : ReadAlike c Ta Tb) (ha : ∀ o t, fromOffset c.a.hash o = some t → Ta t)
    (hb : ∀ o t, fromOffset c.b.hash o = some t → Tb t) (n : Nat) : ∀ ta tb e e', (∀ t, ta = some t → Ta t) →
      (∀ t, tb = some t → Tb t) → membersD c n ta tb = some e → membersD (turnPair c) n tb ta = some e' → Twin po e e' := by
  induction n with
  | zero => intro ta tb e e' _ _ h; simp [membersD] at h
  | succ n ih =>
    intro ta tb e e' hta htb h h'
    have inl : ∀ (s : Side) m t, inlineTy s m = some t → fromOffset s.hash m.ty = some t := by
      intro s m t h
      unfold inlineTy at h
      split at h
      · exact h
      · cases h
    have hr : RecTwin po c ⟨membersP c.a n, membersP c.b n, membersD c n⟩
        ⟨membersP c.b n, membersP c.a n, membersD (turnPair c) n⟩ := by
      intro m m' x y hx hy
      exact ih _ _ x y (fun t ht => ha _ _ (inl _ _ _ ht)) (fun t ht => hb _ _ (inl _ _ _ ht)) hx hy
    have blk : ∀ x y, (do
          let p ← membersP c.a (n + 1) ta
          let q ← membersP c.b (n + 1) tb
          some (D.block p q)) = some x → (do
          let q ← membersP c.b (n + 1) tb
          let p ← membersP c.a (n + 1) ta
          some (D.block q p)) = some y → Twin po x y := by
      intro x y hx hy
      simp only [Option.bind_eq_bind, Option.bind_eq_some_iff, Option.some.injEq] at hx hy
      obtain ⟨p, hp, q, hq, rfl⟩ := hx
      obtain ⟨q', hq', p', hp', rfl⟩ := hy
      rw [hp] at hp'
      rw [hq] at hq'
      cases hp'
      cases hq'
      exact Twin.block _ _
    by_cases hs : ∃ ns nm sz ms vps inh ns' nm' sz' ms' vps' inh', ta = some (.struct_ ns nm sz ms vps inh) ∧
        tb = some (.struct_ ns' nm' sz' ms' vps' inh')
    · obtain ⟨ns, nm, sz, ms, vps, inh, ns', nm', sz', ms', vps', inh', rfl, rfl⟩ := hs
      simp only [membersD] at h h'
      have hA := hta _ rfl
      have hB := htb _ rfl
      refine listD_twin ho (layout_lists hr rfl rfl ?_ ?_) h h'
      · intro l hl l' hl' x y hx hy ht
        exact memberCost_zero (ra.member _ _ x y hA hB (.inl ((mem_layout_member ..).1 ⟨l, hl, hx⟩))
          (.inl ((mem_layout_member ..).1 ⟨l', hl', hy⟩)) ht)
      · intro l hl l' hl' u v hu hv x y hx hy
        have hu' := (mem_layout_part ..).1 ⟨l, hl, hu⟩
        have hv' := (mem_layout_part ..).1 ⟨l', hl', hv⟩
        refine listD_twin ho (variant_lists ho hr rfl rfl ?_ ?_) hx hy
        · intro a ha b hb ht
          exact ra.variants _ _ a b hA hB ⟨u, hu', ha⟩ ⟨v, hv', hb⟩ ht
        · intro a ha b hb x hx y hy ht
          exact memberCost_zero (ra.member _ _ x y hA hB (.inr ⟨u, hu', a, ha, hx⟩) (.inr ⟨v, hv', b, hb, hy⟩) ht)
    · by_cases hu : ∃ ns nm sz ms ns' nm' sz' ms', ta = some (.union_ ns nm sz ms) ∧ tb = some (.union_ ns' nm' sz' ms')
      · obtain ⟨ns, nm, sz, ms, ns', nm', sz', ms', rfl, rfl⟩ := hu
        simp only [membersD] at h h'
        refine listD_twin ho (member_lists hr ?_) h h'
        intro x hx y hy ht
        exact memberCost_zero (ra.member _ _ x y (hta _ rfl) (htb _ rfl) hx hy ht)
      · refine blk e e' ?_ ?_
        · unfold membersD at h
          split at h
          · exact absurd ⟨_, _, _, _, _, _, _, _, _, _, _, _, rfl, rfl⟩ hs
          · exact absurd ⟨_, _, _, _, _, _, _, _, rfl, rfl⟩ hu
          · exact h
        · unfold membersD at h'
          split at h'
          · exact absurd ⟨_, _, _, _, _, _, _, _, _, _, _, _, rfl, rfl⟩ hs
          · exact absurd ⟨_, _, _, _, _, _, _, _, rfl, rfl⟩ hu
          · exact h'

/-! ### Types -/

theorem inheritsD_twin (ho : po.html = false) {la lb : List Inherit} {e e' : D} (h : inheritsD c la lb = some e)
    (h' : inheritsD (turnPair c) lb la = some e') : Twin po e e' := by
  unfold inheritsD at h h'
  by_cases hl : la.length > 1 ∨ lb.length > 1
  · rw [if_pos hl] at h
    rw [if_pos (by omega)] at h'
    simp only [Option.map_eq_some_iff] at h h'
    obtain ⟨x, hx, rfl⟩ := h
    obtain ⟨y, hy, rfl⟩ := h'
    refine Twin.field _ _ (listD_twin ho (A := fun a _ _ => (inheritVal c.a a).text' = [])
      (B := fun b _ _ => (inheritVal c.b b).text' = []) ?_ hx hy)
    have zero : ∀ a b, inheritCost c a b < 1 + 1 → inheritCost c a b = 0 := by
      intro a b hc
      simp only [inheritCost, tyCost] at hc ⊢
      split <;> rename_i h1 h2
      · split
        · rfl
        · rename_i hs; simp only [h1, h2, if_neg hs] at hc; omega
      · rfl
      · simp_all
    refine ⟨fun _ => Nat.one_pos, fun a b => inheritCost_turn c a b, ?_, ?_, ?_, ?_, ?_, ?_, ?_⟩
    · rintro a _ x ⟨⟩ i m d
      simp only [inheritP, P.ls]
      split <;> simp_all
    · rintro a _ x ⟨⟩ i m d
      simp only [inheritP, P.ls]
      split <;> simp_all [turnPair]
    · rintro a _ b _ x ⟨⟩ i m d
      exact line_empty _ _ _ i m d
    · rintro a _ b _ x ⟨⟩ i m d
      exact (line_empty _ _ _ i m d).trans And.comm
    · rintro a _ b _ x y ⟨⟩ ⟨⟩
      exact Twin.lineSwap _ _ _
    · intro a _ b _ x _ hc _ _ _ _
      exact zero a b hc
    · intro a _ b _ x _ hc _ _ _ _
      exact zero a b hc
  · rw [if_neg hl] at h
    rw [if_neg (by omega)] at h'
    cases h; cases h'
    exact Twin.lineSwap _ _ _

theorem enumeratorsD_twin (ho : po.html = false) {Q Q' : Heap} {la lb : List Enumerator}
    (hr : ∀ x ∈ la, ∀ y ∈ lb, (enumeratorVal x).text' = (enumeratorVal y).text' → x = y) {e e' : D}
    (h : enumeratorsD Q la lb = some e) (h' : enumeratorsD Q' lb la = some e') : Twin po e e' := by
  unfold enumeratorsD at h h'
  refine listD_twin ho (A := fun a _ _ => (enumeratorVal a).text' = []) (B := fun b _ _ => (enumeratorVal b).text' = []) ?_ h h'
  refine ⟨fun _ => by decide, fun a b => enumeratorCost_turn a b, ?_, ?_, ?_, ?_, ?_, ?_, ?_⟩
  · rintro a _ x ⟨⟩ i m d
    simp only [enumeratorP, P.ls]
    split <;> simp_all
  · rintro a _ x ⟨⟩ i m d
    simp only [enumeratorP, P.ls]
    split <;> simp_all
  · rintro a _ b _ x ⟨⟩ i m d
    exact line_empty _ _ _ i m d
  · rintro a _ b _ x ⟨⟩ i m d
    exact (line_empty _ _ _ i m d).trans And.comm
  · rintro a _ b _ x y ⟨⟩ ⟨⟩
    exact Twin.lineSwap _ _ _
  · rintro a ha b hb x ⟨⟩ _ i m d hq
    rw [hr a ha b hb (line_quiet hq)]
    simp [enumeratorCost]
  · rintro a ha b hb x ⟨⟩ _ i m d hq
    rw [hr a ha b hb (line_quiet hq).symm]
    simp [enumeratorCost]

theorem sourceD_twin (o : Options) (da db : Option Str) (a b : Source) :
    Twin po (sourceD o da a db b) (sourceD o db b da a) := by
  unfold sourceD
  split
  · exact Twin.lineSwap _ _ _
  · exact Twin.skip

theorem headerD_twin {s t : Ty} {e e' : D} (h : headerD c s t = some e) (h' : headerD (turnPair c) t s = some e') :
    Twin po e e' := by
  unfold headerD at h
  split at h <;> first | cases h | skip
  all_goals simp only [headerD, Option.some.injEq] at h'; subst h'; exact Twin.lineSwap _ _ _

theorem bodyD_twin (ho : po.html = false) (ra : ReadAlike c Ta Tb) (ha : ∀ o t, fromOffset c.a.hash o = some t → Ta t)
    (hb : ∀ o t, fromOffset c.b.hash o = some t → Tb t) (o : Options) (da db : Option Str) (n : Nat) {x y : Extra}
    (hx : ∃ q, x = c.a.extra q) (hy : ∃ q, y = c.b.extra q) {s t : Ty} (hs : Ta s) (ht : Tb t) {e e' : D}
    (h : bodyD o c da db n x y s t = some e) (h' : bodyD o (turnPair c) db da n y x t s = some e') : Twin po e e' := by
  have mt := membersD_twin (po := po) ho ra ha hb n
  unfold bodyD at h
  split at h
  · simp only [bodyD] at h'
    cases h; cases h'
    exact Twin.seqs (.cons (Twin.lineSwap _ _ _) (.cons (Twin.lineSwap _ _ _) (.cons (Twin.lineSwap _ _ _) .nil)))
  · rename_i t1 _ _ t2
    simp only [bodyD, Option.bind_eq_bind, Option.bind_eq_some_iff, Option.some.injEq] at h h'
    obtain ⟨m, hm, rfl⟩ := h
    obtain ⟨m', hm', rfl⟩ := h'
    have inl : ∀ (s : Side) ty t, defInline s ty = some t → fromOffset s.hash ty = some t := by
      intro s ty t h
      unfold defInline at h
      split at h
      · rename_i h1
        split at h
        · cases h; exact h1
        · cases h
      · cases h
    exact Twin.seqs (.cons (sourceD_twin o da db _ _) (.cons (Twin.lineSwap _ _ _) (.cons
      (Twin.field _ _ (mt _ _ m m' (fun t ht => ha _ _ (inl _ _ _ ht)) (fun t ht => hb _ _ (inl _ _ _ ht)) hm hm')) .nil)))
  · simp only [bodyD, Option.bind_eq_bind, Option.bind_eq_some_iff, Option.some.injEq] at h h'
    obtain ⟨m, hm, i, hi, rfl⟩ := h
    obtain ⟨m', hm', i', hi', rfl⟩ := h'
    exact Twin.seqs (.cons (sourceD_twin o da db _ _) (.cons (Twin.lineSwap _ _ _) (.cons (Twin.lineSwap _ _ _) (.cons
      (inheritsD_twin ho hi hi') (.cons
      (Twin.field _ _ (mt _ _ m m' (fun t ht => by cases ht; exact hs) (fun t h => by cases h; exact ht) hm hm')) .nil)))))
  · simp only [bodyD, Option.bind_eq_bind, Option.bind_eq_some_iff, Option.some.injEq] at h h'
    obtain ⟨m, hm, rfl⟩ := h
    obtain ⟨m', hm', rfl⟩ := h'
    exact Twin.seqs (.cons (sourceD_twin o da db _ _) (.cons (Twin.lineSwap _ _ _) (.cons (Twin.lineSwap _ _ _) (.cons
      (Twin.field _ _ (mt _ _ m m' (fun t ht => by cases ht; exact hs) (fun t h => by cases h; exact ht) hm hm')) .nil))))
  · simp only [bodyD, Option.bind_eq_bind, Option.bind_eq_some_iff, Option.some.injEq] at h h'
    obtain ⟨m, hm, rfl⟩ := h
    obtain ⟨m', hm', rfl⟩ := h'
    obtain ⟨q, rfl⟩ := hx
    obtain ⟨q', rfl⟩ := hy
    exact Twin.seqs (.cons (sourceD_twin o da db _ _) (.cons (Twin.lineSwap _ _ _) (.cons (Twin.lineSwap _ _ _) (.cons
      (Twin.field _ _ (enumeratorsD_twin ho (ra.enumerator q q') hm hm')) .nil))))
  · cases h

theorem typeD_twin (ho : po.html = false) (ra : ReadAlike c Ta Tb) (ha : ∀ o t, fromOffset c.a.hash o = some t → Ta t)
    (hb : ∀ o t, fromOffset c.b.hash o = some t → Tb t) (o : Options) (da db : Option Str) (n : Nat) {s t : TypeEntry}
    (hs : Ta s.kind) (ht : Tb t.kind) {e e' : D}
    (h : typeD o c da db n s t = some e) (h' : typeD o (turnPair c) db da n t s = some e') : Twin po e e' := by
  simp only [typeD, Option.bind_eq_bind, Option.bind_eq_some_iff, Option.some.injEq] at h h'
  obtain ⟨x, hx, y, hy, rfl⟩ := h
  obtain ⟨x', hx', y', hy', rfl⟩ := h'
  exact Twin.seq (Twin.id _ _ (headerD_twin hx hx') (bodyD_twin ho ra ha hb o da db n ⟨_, rfl⟩ ⟨_, rfl⟩ hs ht hy hy'))
    Twin.lineBreak

end Verif.Turn
