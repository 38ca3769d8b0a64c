import Verif.Show.Sides
namespace Verif.Show
open Verif.Print Verif.Item Verif.Namespace Verif.Types Verif.Layout Verif.Path Verif.Opts Verif.Merge

/-! ## Lines of a type listing are never empty -/

theorem text_vals (vs : List Val) : (vals vs).text' = vs.flatMap Val.text' := by
  induction vs with
  | nil => rfl
  | cons v vs ih => simp [vals, Val.text', ih]

theorem memberVal_ne (s : Side) (m : Member) : (memberVal s m).text' ≠ [] := by
  simp [memberVal, text_vals, Val.text', k, Str.ofString]

theorem variantPartVal_ne (l : Layout) : (variantPartVal l).text' ≠ [] := by
  simp [variantPartVal, Val.text', k, Str.ofString]

theorem variantVal_ne (v : Variant) : (variantVal v).text' ≠ [] := by
  simp only [variantVal, text_vals, List.flatMap_cons]
  cases v.discrValue <;> simp [Val.text', k, Str.ofString]

theorem layoutInheritVal_ne (s : Side) (l : Layout) (i : Inherit) :
    (layoutInheritVal s l i).text' ≠ [] := by
  simp [layoutInheritVal, text_vals, Val.text', k, Str.ofString]

theorem paddingVal_ne (l : Layout) : (paddingVal l).text' ≠ [] := by
  simp [paddingVal, Val.text', k, Str.ofString]

/-! ## Members -/

/-- All printed member lists are free of blank lines. -/
def Clean (f : Option Ty → Option P) : Prop := ∀ t p, f t = some p → NoBlank p

theorem listP_clean {α : Type} {print : α → Option P} {l : List α} {p : P}
    (h : listP print l = some p) (hp : ∀ a ∈ l, ∀ q, print a = some q → NoBlank q) : NoBlank p := by
  obtain ⟨ps, hps, rfl⟩ := listP_inv h
  refine NoBlank.seqs fun q hq => ?_
  obtain ⟨a, ha, h'⟩ := mapM_mem hps q hq
  exact hp a ha q h'

theorem memberP_shown {s : Side} {rec : Option Ty → Option P} (hr : Clean rec) {m : Member} {p : P}
    (h : memberP s rec m = some p) : Shown p := by
  simp only [memberP, Option.bind_eq_bind, Option.bind_eq_some_iff, Option.some.injEq] at h
  obtain ⟨b, hb, rfl⟩ := h
  exact Shown.indent _ (Shown.line _ (memberVal_ne s m)) (hr _ _ hb)

theorem layoutItemP_shown {s : Side} {rec : Option Ty → Option P}
    {vs : Layout → List Variant → Option P} (hr : Clean rec)
    (hv : ∀ l v p, vs l v = some p → NoBlank p) {l : Layout} {p : P}
    (h : layoutItemP s rec vs l = some p) : Shown p := by
  unfold layoutItemP at h
  split at h
  · cases h; exact Shown.line _ (paddingVal_ne l)
  · exact memberP_shown hr h
  · simp only [Option.bind_eq_bind, Option.bind_eq_some_iff, Option.some.injEq] at h
    obtain ⟨b, hb, rfl⟩ := h
    exact Shown.indent _ (Shown.line _ (variantPartVal_ne l)) (hv _ _ _ hb)
  · cases h; exact Shown.line _ (layoutInheritVal_ne s l _)

theorem variantP_shown {s : Side} {rec : Option Ty → Option P} (hr : Clean rec) {l : Layout}
    {v : Variant} {p : P} (h : variantP s rec l v = some p) : Shown p := by
  simp only [variantP, Option.bind_eq_bind, Option.bind_eq_some_iff, Option.some.injEq] at h
  obtain ⟨b, hb, rfl⟩ := h
  refine Shown.indent _ (Shown.line _ (variantVal_ne v)) (listP_clean hb fun a _ q hq => ?_)
  exact (layoutItemP_shown hr (by intro l v p h; cases h; exact NoBlank.skip) hq).1

theorem variantsP_clean {s : Side} {rec : Option Ty → Option P} (hr : Clean rec) (l : Layout)
    (vs : List Variant) (p : P) (h : listP (variantP s rec l) vs = some p) : NoBlank p :=
  listP_clean h fun _ _ _ hq => (variantP_shown hr hq).1

theorem layoutP_shown {s : Side} {rec : Option Ty → Option P} (hr : Clean rec) {l : Layout} {p : P}
    (h : layoutP s rec l = some p) : Shown p :=
  layoutItemP_shown hr (fun l v p h => variantsP_clean hr l v p h) h

theorem membersP_clean (s : Side) (n : Nat) : Clean (membersP s n) := by
  induction n with
  | zero => intro t p h; cases h
  | succ n ih =>
    intro t p h
    unfold membersP at h
    split at h
    · exact listP_clean h fun a _ q hq => (layoutP_shown ih hq).1
    · exact listP_clean h fun a _ q hq => (memberP_shown ih hq).1
    · cases h; exact NoBlank.skip

/-- The functions a member diff calls agree with each other. -/
structure RecsOk (r : Recs) : Prop where
  rel : ∀ a b, Rel (r.d a b) (r.pa a) (r.pb b)
  vis : ∀ a b, RelV (r.d a b)
  pa : Clean r.pa
  pb : Clean r.pb

theorem memberD_ok {c : Pair} {r : Recs} (hr : RecsOk r) (a b : Member) :
    Rel (memberD c r a b) (memberP c.a r.pa a) (memberP c.b r.pb b) ∧ RelV (memberD c r a b) := by
  constructor
  · intro e he
    simp only [memberD, Option.bind_eq_bind, Option.bind_eq_some_iff, Option.some.injEq] at he
    obtain ⟨d, hd, rfl⟩ := he
    obtain ⟨p, q, hp, hq, hs⟩ := hr.rel _ _ d hd
    exact ⟨.indent false (.line [] (memberVal c.a a)) p, .indent false (.line [] (memberVal c.b b)) q,
      by simp [memberP, hp], by simp [memberP, hq], Sides.indent _ (Sides.line ..) hs⟩
  · intro e he http
    simp only [memberD, Option.bind_eq_bind, Option.bind_eq_some_iff, Option.some.injEq] at he
    obtain ⟨d, hd, rfl⟩ := he
    exact ⟨trivial, hr.vis _ _ d hd http⟩

theorem layoutItemD_ok {c : Pair} {r : Recs} {pa pb : Layout → List Variant → Option P}
    {d : Layout → List Variant → Layout → List Variant → Option D} (hr : RecsOk r)
    (hd : ∀ la va lb vb, Rel (d la va lb vb) (pa la va) (pb lb vb) ∧ RelV (d la va lb vb))
    (hpa : ∀ l v p, pa l v = some p → NoBlank p) (hpb : ∀ l v p, pb l v = some p → NoBlank p)
    (a b : Layout) :
    Rel (layoutItemD c r pa pb d a b) (layoutItemP c.a r.pa pa a) (layoutItemP c.b r.pb pb b) ∧
      RelV (layoutItemD c r pa pb d a b) := by
  unfold layoutItemD
  split
  · rename_i h1 h2
    refine ⟨?_, ?_⟩
    · intro e he
      cases he
      exact ⟨.line [] (paddingVal a), .line [] (paddingVal b), by simp [layoutItemP, h1],
        by simp [layoutItemP, h2], Sides.line ..⟩
    · intro e he http; cases he; trivial
  · rename_i x y h1 h2
    have := memberD_ok (c := c) hr x y
    simpa [layoutItemP, h1, h2] using this
  · rename_i x y h1 h2
    refine ⟨?_, ?_⟩
    · intro e he
      simp only [Option.bind_eq_bind, Option.bind_eq_some_iff, Option.some.injEq] at he
      obtain ⟨f, hf, rfl⟩ := he
      obtain ⟨p, q, hp, hq, hs⟩ := (hd _ _ _ _).1 f hf
      exact ⟨.indent false (.line [] (variantPartVal a)) p,
        .indent false (.line [] (variantPartVal b)) q,
        by simp [layoutItemP, h1, hp], by simp [layoutItemP, h2, hq],
        Sides.indent _ (Sides.line ..) hs⟩
    · intro e he http
      simp only [Option.bind_eq_bind, Option.bind_eq_some_iff, Option.some.injEq] at he
      obtain ⟨f, hf, rfl⟩ := he
      exact ⟨trivial, (hd _ _ _ _).2 f hf http⟩
  · rename_i x y h1 h2
    refine ⟨?_, ?_⟩
    · intro e he
      cases he
      exact ⟨.line [] (layoutInheritVal c.a a x), .line [] (layoutInheritVal c.b b y),
        by simp [layoutItemP, h1], by simp [layoutItemP, h2], Sides.line ..⟩
    · intro e he http; cases he; trivial
  · refine ⟨?_, ?_⟩
    · intro e he
      simp only [Option.bind_eq_bind, Option.bind_eq_some_iff, Option.some.injEq] at he
      obtain ⟨p, hp, q, hq, rfl⟩ := he
      exact ⟨p, q, hp, hq, Sides.block p q⟩
    · intro e he http
      simp only [Option.bind_eq_bind, Option.bind_eq_some_iff, Option.some.injEq] at he
      obtain ⟨p, hp, q, hq, rfl⟩ := he
      exact ⟨(layoutItemP_shown hr.pa hpa hp).1.notBlank http,
        (layoutItemP_shown hr.pb hpb hq).1.notBlank http⟩

theorem skip_clean : ∀ (l : Layout) (v : List Variant) (p : P), (some P.skip) = some p → NoBlank p := by
  intro l v p h; cases h; exact NoBlank.skip

theorem variantD_ok {c : Pair} {r : Recs} (hr : RecsOk r) (la lb : Layout) (a b : Variant) :
    Rel (variantD c r la lb a b) (variantP c.a r.pa la a) (variantP c.b r.pb lb b) ∧
      RelV (variantD c r la lb a b) := by
  have hi : ∀ a b, Rel (layoutItemD c r (fun _ _ => some .skip) (fun _ _ => some .skip)
      (fun _ _ _ _ => some .skip) a b) (layoutItemP c.a r.pa (fun _ _ => some .skip) a)
      (layoutItemP c.b r.pb (fun _ _ => some .skip) b) ∧ RelV _ := fun a b =>
    layoutItemD_ok hr (fun _ _ _ _ => ⟨fun e he => by cases he; exact ⟨_, _, rfl, rfl, Sides.skip⟩,
      fun e he http => by cases he; trivial⟩) skip_clean skip_clean a b
  constructor
  · intro e he
    simp only [variantD, Option.bind_eq_bind, Option.bind_eq_some_iff, Option.some.injEq] at he
    obtain ⟨f, hf, rfl⟩ := he
    obtain ⟨p, q, hp, hq, hs⟩ := listD_rel (fun a _ b _ => (hi a b).1) f hf
    exact ⟨.indent false (.line [] (variantVal a)) p, .indent false (.line [] (variantVal b)) q,
      by simp [variantP, hp], by simp [variantP, hq], Sides.indent _ (Sides.line ..) hs⟩
  · intro e he http
    simp only [variantD, Option.bind_eq_bind, Option.bind_eq_some_iff, Option.some.injEq] at he
    obtain ⟨f, hf, rfl⟩ := he
    exact ⟨trivial, listD_vis (fun a _ p hp => layoutItemP_shown hr.pa skip_clean hp)
      (fun a _ p hp => layoutItemP_shown hr.pb skip_clean hp) (fun a _ b _ => (hi a b).2) f hf http⟩

theorem layoutD_ok {c : Pair} {r : Recs} (hr : RecsOk r) (a b : Layout) :
    Rel (layoutD c r a b) (layoutP c.a r.pa a) (layoutP c.b r.pb b) ∧ RelV (layoutD c r a b) := by
  unfold layoutD layoutP
  refine layoutItemD_ok hr ?_ ?_ ?_ a b
  · intro la va lb vb
    exact ⟨listD_rel fun a _ b _ => (variantD_ok hr la lb a b).1,
      listD_vis (fun a _ p hp => variantP_shown hr.pa hp) (fun a _ p hp => variantP_shown hr.pb hp)
      fun a _ b _ => (variantD_ok hr la lb a b).2⟩
  · intro l v p h; exact variantsP_clean hr.pa l v p h
  · intro l v p h; exact variantsP_clean hr.pb l v p h

theorem recs_ok (c : Pair) (n : Nat) (ih : ∀ ta tb,
    Rel (membersD c n ta tb) (membersP c.a n ta) (membersP c.b n tb) ∧ RelV (membersD c n ta tb)) :
    RecsOk ⟨membersP c.a n, membersP c.b n, membersD c n⟩ :=
  ⟨fun a b => (ih a b).1, fun a b => (ih a b).2, membersP_clean _ _, membersP_clean _ _⟩

theorem membersD_ok (c : Pair) (n : Nat) : ∀ ta tb,
    Rel (membersD c n ta tb) (membersP c.a n ta) (membersP c.b n tb) ∧ RelV (membersD c n ta tb) := by
  induction n with
  | zero =>
    intro ta tb
    constructor
    · intro e he; cases he
    · intro e he; cases he
  | succ n ih =>
    intro ta tb
    have hr := recs_ok c n ih
    have other : ∀ ta tb, Rel (do
        let p ← membersP c.a (n + 1) ta
        let q ← membersP c.b (n + 1) tb
        some (.block p q)) (membersP c.a (n + 1) ta) (membersP c.b (n + 1) tb) ∧ RelV (do
        let p ← membersP c.a (n + 1) ta
        let q ← membersP c.b (n + 1) tb
        some (.block p q)) := by
      intro ta tb
      refine ⟨?_, ?_⟩
      · intro e he
        simp only [Option.bind_eq_bind, Option.bind_eq_some_iff, Option.some.injEq] at he
        obtain ⟨p, hp, q, hq, rfl⟩ := he
        exact ⟨p, q, hp, hq, Sides.block p q⟩
      · intro e he http
        simp only [Option.bind_eq_bind, Option.bind_eq_some_iff, Option.some.injEq] at he
        obtain ⟨p, hp, q, hq, rfl⟩ := he
        exact ⟨(membersP_clean _ _ _ _ hp).notBlank http, (membersP_clean _ _ _ _ hq).notBlank http⟩
    unfold membersD
    dsimp only
    split
    · simp only [membersP]
      exact ⟨listD_rel fun a _ b _ => (layoutD_ok hr a b).1,
        listD_vis (fun a _ p hp => layoutP_shown hr.pa hp) (fun a _ p hp => layoutP_shown hr.pb hp)
          fun a _ b _ => (layoutD_ok hr a b).2⟩
    · simp only [membersP]
      exact ⟨listD_rel fun a _ b _ => (memberD_ok hr a b).1,
        listD_vis (fun a _ p hp => memberP_shown hr.pa hp) (fun a _ p hp => memberP_shown hr.pb hp)
          fun a _ b _ => (memberD_ok hr a b).2⟩
    · exact other _ _

/-! ## A type against itself -/

theorem tyCost_self {c : Pair} (hab : c.a = c.b) (hs : ∀ o t, fromOffset c.b.hash o = some t → c.same t t = true) (w : Nat)
    (o : TypeOffset) : tyCost c w o o = 0 := by
  unfold tyCost
  rw [hab]
  cases ht : fromOffset c.b.hash o with
  | none => rfl
  | some t => simp [hs o t ht]

theorem memberCost_self {c : Pair} (hab : c.a = c.b) (hs : ∀ o t, fromOffset c.b.hash o = some t → c.same t t = true) (m : Member) :
    memberCost c m m = 0 := by simp [memberCost, tyCost_self hab hs]

theorem layoutCost_self {c : Pair} (hab : c.a = c.b) (hs : ∀ o t, fromOffset c.b.hash o = some t → c.same t t = true) (l : Layout) :
    layoutCost c l l = 0 := by
  unfold layoutCost
  cases h : l.item <;> simp [memberCost_self hab hs, inheritCost, tyCost_self hab hs]

theorem memberD_self {c : Pair} (hab : c.a = c.b) {r : Recs} (hr : ∀ t, RelS (r.d t t)) (m : Member) :
    RelS (memberD c r m m) := by
  intro e he
  simp only [memberD, Option.bind_eq_bind, Option.bind_eq_some_iff, Option.some.injEq] at he
  obtain ⟨d, hd, rfl⟩ := he
  rw [hab] at hd
  exact ⟨by rw [hab]; rfl, hr _ d hd⟩

theorem layoutItemD_self {c : Pair} (hab : c.a = c.b) {r : Recs} (hr : ∀ t, RelS (r.d t t))
    {pa pb : Layout → List Variant → Option P}
    {d : Layout → List Variant → Layout → List Variant → Option D}
    (hd : ∀ l v, RelS (d l v l v)) (l : Layout) : RelS (layoutItemD c r pa pb d l l) := by
  intro e he
  unfold layoutItemD at he
  cases h : l.item with
  | padding => simp only [h] at he; cases he; exact rfl
  | member m => simp only [h] at he; exact memberD_self hab hr m e he
  | variantPart v =>
    simp only [h, Option.bind_eq_bind, Option.bind_eq_some_iff, Option.some.injEq] at he
    obtain ⟨f, hf, rfl⟩ := he
    exact ⟨rfl, hd _ _ f hf⟩
  | inherit i => simp only [h] at he; cases he; simp [D.Same, hab]

theorem variantD_self {c : Pair} (hab : c.a = c.b) (hs : ∀ o t, fromOffset c.b.hash o = some t → c.same t t = true) {r : Recs}
    (hr : ∀ t, RelS (r.d t t)) (l : Layout) (v : Variant) : RelS (variantD c r l l v v) := by
  intro e he
  simp only [variantD, Option.bind_eq_bind, Option.bind_eq_some_iff, Option.some.injEq, hab] at he
  obtain ⟨f, hf, rfl⟩ := he
  refine ⟨rfl, listD_self (fun a _ => layoutCost_self hab hs a) (by simp) (by simp)
    (fun a _ => layoutItemD_self hab hr (fun _ _ e he => by cases he; trivial) a) f hf⟩

theorem layoutD_self {c : Pair} (hab : c.a = c.b) (hs : ∀ o t, fromOffset c.b.hash o = some t → c.same t t = true) {r : Recs}
    (hr : ∀ t, RelS (r.d t t)) (l : Layout) : RelS (layoutD c r l l) :=
  layoutItemD_self hab hr (fun l v => listD_self (fun a _ => by simp [variantCost]) (by simp) (by simp)
    (fun a _ => variantD_self hab hs hr l a)) l

theorem membersD_self {c : Pair} (hab : c.a = c.b) (hs : ∀ o t, fromOffset c.b.hash o = some t → c.same t t = true) (n : Nat) :
    ∀ t, RelS (membersD c n t t) := by
  induction n with
  | zero => intro t e he; cases he
  | succ n ih =>
    have other : ∀ t, membersP c.a (n + 1) t = some .skip → membersP c.b (n + 1) t = some .skip →
        RelS (do
          let p ← membersP c.a (n + 1) t
          let q ← membersP c.b (n + 1) t
          some (.block p q)) := by
      intro t h1 h2 e he
      simp only [h1, h2, Option.bind_eq_bind, Option.bind_some, Option.some.injEq] at he
      subst he
      exact ⟨rfl, rfl⟩
    intro t
    cases t with
    | none => exact other none rfl rfl
    | some t =>
      cases t with
      | struct_ ns name size ms vps inh =>
        simp only [membersD]
        rw [hab]
        exact listD_self (fun a _ => layoutCost_self hab hs a) (by simp) (by simp)
          (fun a _ => layoutD_self hab hs ih a)
      | union_ ns name size ms =>
        simp only [membersD]
        exact listD_self (fun a _ => memberCost_self hab hs a) (by simp) (by simp)
          (fun a _ => memberD_self hab ih a)
      | _ => exact other _ rfl rfl

end Verif.Show
