import Verif.Order.Lemmas
import Verif.Opts.Props
/-!
# Property theorems C53 (listing order) and C18 for the concrete kinds of items
-/
namespace Verif.Order
open Verif.Types Verif.Item Verif.Opts Verif.Merge Verif.Namespace

/-! ## The comparisons are lawful -/

theorem lawful_pure {κ : Type v} (k : α → κ) (cmp : κ → κ → Ordering) [Std.TransCmp cmp]
    (Good : α → Prop) : Lawful (fun _ x y => .ok (cmp (k x) (k y))) Good where
  mono _ h := h
  swap h := by
    cases h
    rw [Std.OrientedCmp.eq_swap (cmp := cmp)]
  trans _ x y z := T3.of_trans cmp _ _ _
  term _ _ := ⟨0, _, rfl⟩

theorem bind2_ok {f g : Res (Option Nat)} {o : Ordering}
    (h : (f.bind fun a => g.bind fun b => .ok (compare a b)) = .ok o) :
    ∃ a b, f = .ok a ∧ g = .ok b ∧ o = compare a b := by
  cases f <;> simp [Res.bind] at h
  cases g <;> simp at h
  exact ⟨_, _, rfl, rfl, h.symm⟩

theorem lawful_size (f : Nat → α → Res (Option Nat))
    (hm : ∀ {n m x s}, n ≤ m → f n x = .ok s → f m x = .ok s) :
    Lawful (fun n x y => (f n x).bind fun a => (f n y).bind fun b => .ok (compare a b))
      (fun x => ∃ n s, f n x = .ok s) where
  mono hnm h := by
    obtain ⟨a, b, h1, h2, rfl⟩ := bind2_ok h
    simp only [hm hnm h1, hm hnm h2, Res.bind]
  swap h := by
    obtain ⟨a, b, h1, h2, rfl⟩ := bind2_ok h
    simp only [h1, h2, Res.bind]
    rw [Std.OrientedOrd.eq_swap]
  trans n x y z := by
    intro o1 o2 e1 e2 l1 l2
    obtain ⟨a, b, h1, h2, rfl⟩ := bind2_ok e1
    obtain ⟨b', c, h3, h4, rfl⟩ := bind2_ok e2
    rw [h2] at h3; cases h3
    simp only [h1, h4, Res.bind]
    exact T3.of_trans compare a b c _ _ rfl rfl l1 l2
  term := by
    rintro x y ⟨n, s, h⟩ ⟨m, t, h'⟩
    refine ⟨max n m, compare s t, ?_⟩
    simp only [hm (Nat.le_max_left n m) h, hm (Nat.le_max_right n m) h', Res.bind]

theorem cmpId_ok_mono {n m : Nat} {ha hb a b o} (hnm : n ≤ m)
    (h : cmpId false n ha a hb b = .ok o) : cmpId false m ha a hb b = .ok o := by
  rw [cmpId_mono hnm (by rw [h]; simp), h]

theorem lawful_cmpId (k : α → Hash × Ty) :
    Lawful (fun n x y => cmpId false n (k x).1 (k x).2 (k y).1 (k y).2)
      (fun x => Acc (IdRef (k x).1) (k x).2) where
  mono hnm h := cmpId_ok_mono hnm h
  swap h := by rw [cmpId_swap, h]; rfl
  trans n x y z := cmpId_T3 _ _ _ _ _ _ _ _
  term := by
    intro x y hx _
    obtain ⟨n, hn⟩ := (C10_cmpId_total (k x).1 (k y).1 (k x).2 hx).1
    exact ⟨n, hn (k y).2⟩

theorem params_term {ha hb : Hash} (ps : List TypeOffset)
    (hp : ∀ p ∈ ps, ∀ t, fromOffset ha p = some t → Acc (IdRef ha) t) (qs : List TypeOffset) :
    ∃ n o, cmpParams (fun x y => cmpId false n ha x hb y) ha hb ps qs = .ok o := by
  induction ps generalizing qs with
  | nil => exact ⟨0, .eq, rfl⟩
  | cons p ps ih =>
    cases qs with
    | nil => exact ⟨0, .eq, rfl⟩
    | cons q qs =>
      obtain ⟨n, o, hn⟩ := ih (fun p hp' => hp p (by simp [hp'])) qs
      have : ∃ m o, cmpOptTy (fun x y => cmpId false m ha x hb y) (fromOffset ha p)
          (fromOffset hb q) = .ok o := by
        cases h1 : fromOffset ha p with
        | none => cases fromOffset hb q <;> exact ⟨0, _, rfl⟩
        | some t =>
          cases fromOffset hb q with
          | none => exact ⟨0, _, rfl⟩
          | some t' =>
            obtain ⟨m, hm⟩ := (C10_cmpId_total ha hb t (hp p (by simp) t h1)).1
            exact ⟨m, hm t'⟩
      obtain ⟨m, o', hm⟩ := this
      have e1 : ∀ k, m ≤ k → cmpOptTy (fun x y => cmpId false k ha x hb y) (fromOffset ha p)
          (fromOffset hb q) = .ok o' := fun k hk => by
        rw [cmpOptTy_ext (r := fun x y => cmpId false m ha x hb y)
          (fun a b h => cmpId_mono hk h) _ _ (by rw [hm]; simp), hm]
      have e2 : ∀ k, n ≤ k → cmpParams (fun x y => cmpId false k ha x hb y) ha hb ps qs = .ok o :=
        fun k hk => by
          rw [cmpParams_ext (r := fun x y => cmpId false n ha x hb y)
            (fun a b h => cmpId_mono hk h) _ _ (by rw [hn]; simp), hn]
      refine ⟨max n m, ?_⟩
      simp only [cmpParams, e1 _ (Nat.le_max_right n m), e2 _ (Nat.le_max_left n m)]
      cases o' <;> exact ⟨_, rfl⟩

theorem lexR_ok {x y : Res Ordering} {o : Ordering} (h : lexR x y = .ok o) :
    (x = .ok o ∧ o ≠ .eq) ∨ (x = .ok .eq ∧ y = .ok o) := by
  cases x with
  | ok p =>
    cases p <;> simp only [lexR] at h
    · cases h; exact .inl ⟨rfl, by simp⟩
    · exact .inr ⟨rfl, h⟩
    · cases h; exact .inl ⟨rfl, by simp⟩
  | _ => simp [lexR] at h

theorem Lawful.lex {r1 r2 : Nat → α → α → Res Ordering} {G : α → Prop}
    (h1 : Lawful r1 G) (h2 : Lawful r2 G) : Lawful (fun n x y => lexR (r1 n x y) (r2 n x y)) G where
  mono hnm h := by
    rcases lexR_ok h with ⟨h, hne⟩ | ⟨h, h'⟩
    · simp only [h1.mono hnm h]
      revert hne; rename_i o _; cases o <;> simp [lexR]
    · simp only [h1.mono hnm h, h2.mono hnm h', lexR]
  swap h := by
    rcases lexR_ok h with ⟨h, hne⟩ | ⟨h, h'⟩
    · simp only [h1.swap h]
      revert hne; rename_i o _; cases o <;> simp [lexR]
    · simp only [h1.swap h, h2.swap h', lexR, Ordering.swap]
  trans n x y z := T3.lex (h1.trans n x y z) (h2.trans n x y z)
  term hx hy := by
    obtain ⟨n, o, hn⟩ := h1.term hx hy
    obtain ⟨m, o', hm⟩ := h2.term hx hy
    refine ⟨max n m, ?_⟩
    simp only [h1.mono (Nat.le_max_left n m) hn, h2.mono (Nat.le_max_right n m) hm]
    cases o <;> exact ⟨_, rfl⟩

theorem lawful_types (o : Options) :
    Lawful (fun n (x y : TypeEntry × Hash) => typeCmpBy o n x.1 x.2 y.1 y.2)
      (fun x => GoodType x.2 x.1.kind) := by
  unfold typeCmpBy
  cases o.sort with
  | none => exact lawful_pure (fun x : TypeEntry × Hash => x.1.offset) cmpNoneLast _
  | name =>
    have := lawful_cmpId (fun x : TypeEntry × Hash => (x.2, x.1.kind))
    exact { this with term := fun hx hy => this.term hx.1 hy.1 }
  | size =>
    have := lawful_size (fun n (x : TypeEntry × Hash) => byteSize n x.2 x.1.kind)
      (fun hnm h => by rw [byteSize_mono hnm (by rw [h]; simp), h])
    exact { this with term := fun hx hy => this.term hx.2 hy.2 }

theorem lawful_functionSort :
    Lawful (fun n (x y : Function × Hash) => functionCmpIdForSort n x.1 x.2 y.1 y.2)
      (fun x => GoodFunction x.2 x.1) := by
  unfold functionCmpIdForSort
  apply Lawful.lex
  · exact lawful_pure (fun x : Function × Hash => (x.1.ns, x.1.name)) cmpQName _
  · have hl : ∀ f : Function, (f.parameters.map (·.ty)).length = f.parameters.length :=
      fun f => List.length_map _
    constructor
    · intro n m x y o hnm h
      rcases lexR_ok h with ⟨h, hne⟩ | ⟨h, h'⟩
      · rw [cmpParams_ext (r := fun a b => cmpId false n x.2 a y.2 b)
          (fun a b h => cmpId_mono hnm h) _ _ (by rw [h]; simp), h]
        cases o <;> simp_all [lexR]
      · rw [cmpParams_ext (r := fun a b => cmpId false n x.2 a y.2 b)
          (fun a b h => cmpId_mono hnm h) _ _ (by rw [h]; simp), h]
        exact h'
    · intro n x y o h
      rw [cmpParams_swap (r1 := fun a b => cmpId false n x.2 a y.2 b)
        (fun a b => cmpId_swap _ _ _ _ _ _),
        show (Res.ok (compare y.1.parameters.length x.1.parameters.length)) =
          (Res.ok (compare x.1.parameters.length y.1.parameters.length)).swap by
          rw [Std.OrientedOrd.eq_swap (α := Nat)]; rfl, ← swap_lexR, h]
      rfl
    · intro n x y z
      have := cmpParams_T3 (ha := x.2) (hb := y.2) (hc := z.2)
        (fun a b c => cmpId_T3 false n x.2 y.2 z.2 a b c) (x.1.parameters.map (·.ty))
        (y.1.parameters.map (·.ty)) (z.1.parameters.map (·.ty))
      simpa only [hl] using this
    · intro x y hx _
      obtain ⟨n, o, hn⟩ := params_term (ha := x.2) (hb := y.2) (x.1.parameters.map (·.ty))
        (by
          intro p hp t ht
          obtain ⟨q, hq, rfl⟩ := List.mem_map.1 hp
          exact hx q hq t ht) (y.1.parameters.map (·.ty))
      refine ⟨n, ?_⟩
      rw [hn]
      cases o <;> exact ⟨_, rfl⟩

theorem lawful_functions (o : Options) :
    Lawful (fun n (x y : Function × Hash) => functionCmpBy o n x.1 x.2 y.1 y.2)
      (fun x => GoodFunction x.2 x.1) := by
  unfold functionCmpBy
  cases o.sort with
  | none => exact lawful_pure (fun x : Function × Hash => x.1.address) compare _
  | name => exact lawful_functionSort
  | size => exact lawful_pure (fun x : Function × Hash => x.1.size) compare _

theorem variableByteSize_mono {n m : Nat} {h v s} (hnm : n ≤ m)
    (he : variableByteSize n h v = .ok s) : variableByteSize m h v = .ok s := by
  unfold variableByteSize at *
  split
  · simp_all
  · rename_i hs
    rw [if_neg hs] at he
    cases ht : fromOffset h v.ty with
    | none => simpa [ht] using he
    | some t =>
      simp only [ht] at he ⊢
      rw [byteSize_mono hnm (by rw [he]; simp), he]

theorem lawful_variables (o : Options) :
    Lawful (fun n (x y : Variable × Hash) => variableCmpBy o n x.1 x.2 y.1 y.2)
      (fun x => GoodVariable x.2 x.1) := by
  unfold variableCmpBy
  cases o.sort with
  | none => exact lawful_pure (fun x : Variable × Hash => x.1.address) compare _
  | name => exact lawful_pure (fun x : Variable × Hash => (x.1.ns, x.1.name)) cmpQName _
  | size =>
    have := lawful_size (fun n (x : Variable × Hash) => variableByteSize n x.2 x.1)
      (fun hnm h => variableByteSize_mono hnm h)
    have g : ∀ x : Variable × Hash, GoodVariable x.2 x.1 →
        ∃ n s, variableByteSize n x.2 x.1 = .ok s := by
      intro x hx
      unfold variableByteSize
      split
      · exact ⟨0, _, rfl⟩
      · cases ht : fromOffset x.2 x.1.ty with
        | none => exact ⟨0, _, rfl⟩
        | some t => exact hx t ht
    exact { this with term := fun hx hy => this.term (g _ hx) (g _ hy) }

theorem lawful_units (o : Options) :
    Lawful (fun n (x y : CompUnit × (TypeOffset → Option Nat)) => unitCmpBy o n x.1 x.2 y.1 y.2)
      (fun x => ∃ s, x.1.size x.2 = some s) := by
  unfold unitCmpBy
  cases o.sort with
  | none =>
    exact { mono := fun _ h => h, swap := fun h => by cases h; rfl,
            trans := fun _ _ _ _ => T3.refl_eq, term := fun _ _ => ⟨0, _, rfl⟩ }
  | name => exact lawful_pure (fun x : CompUnit × (TypeOffset → Option Nat) => unitKey o x.1) compare _
  | size =>
    have := lawful_size (fun _ (x : CompUnit × (TypeOffset → Option Nat)) => unitSizeRes x.2 x.1)
      (fun _ h => h)
    have g : ∀ x : CompUnit × (TypeOffset → Option Nat), (∃ s, x.1.size x.2 = some s) →
        ∃ (_ : Nat) (s : Option Nat), unitSizeRes x.2 x.1 = .ok s :=
      fun x ⟨s, hs⟩ => ⟨0, some s, by simp [unitSizeRes, hs]⟩
    exact { this with term := fun hx hy => this.term (g _ hx) (g _ hy) }

/-! ## Listing order -/

theorem print_arranged {cmpBy : Nat → α → γ → α → γ → Res Ordering} {G : α × γ → Prop}
    (h : Lawful (fun n x y => cmpBy n x.1 x.2 y.1 y.2) G) (f : γ) (l : List α)
    (hl : ∀ x ∈ l, G (x, f)) :
    ∃ N, ∀ n, N ≤ n → ∃ l', printOrder (cmpBy n) f l = some l' ∧
      Arranged (fun x y => cmpBy n x f y f) l l' := by
  obtain ⟨N, hN⟩ := h.okOn (l.map (·, f)) (l.map (·, f))
    (fun x hx => by obtain ⟨y, hy, rfl⟩ := List.mem_map.1 hx; exact hl y hy)
    (fun x hx => by obtain ⟨y, hy, rfl⟩ := List.mem_map.1 hx; exact hl y hy)
  refine ⟨N, fun n hn => ?_⟩
  refine sortWith_spec (fun x hx y hy => ?_) (fun hxy => h.swap (x := (_, f)) (y := (_, f)) hxy)
    (fun x y z => h.trans n (x, f) (y, f) (z, f))
  exact hN n hn (x, f) (List.mem_map.2 ⟨x, hx, rfl⟩) (y, f) (List.mem_map.2 ⟨y, hy, rfl⟩)

theorem diff_arranged {cmpBy : Nat → α → γ → α → γ → Res Ordering} {G : α × γ → Prop}
    (h : Lawful (fun n x y => cmpBy n x.1 x.2 y.1 y.2) G) (fa fb : γ)
    (l : List (MergeResult α α)) (hl : ∀ x ∈ l, G (shown fa fb x)) :
    ∃ N, ∀ n, N ≤ n → ∃ l', diffOrder (cmpBy n) fa fb l = some l' ∧
      Arranged (fun x y => cmpBy n (shown fa fb x).1 (shown fa fb x).2 (shown fa fb y).1
        (shown fa fb y).2) l l' := by
  obtain ⟨N, hN⟩ := h.okOn (l.map (shown fa fb)) (l.map (shown fa fb))
    (fun x hx => by obtain ⟨y, hy, rfl⟩ := List.mem_map.1 hx; exact hl y hy)
    (fun x hx => by obtain ⟨y, hy, rfl⟩ := List.mem_map.1 hx; exact hl y hy)
  refine ⟨N, fun n hn => ?_⟩
  have he : MergeResult.cmp (cmpBy n) fa fb = fun x y => cmpBy n (shown fa fb x).1 (shown fa fb x).2
      (shown fa fb y).1 (shown fa fb y).2 := by
    funext x y; exact C53_cmp_shown (cmpBy n) fa fb x y
  unfold diffOrder
  rw [he]
  refine sortWith_spec (fun x hx y hy => ?_)
    (fun hxy => h.swap (x := shown fa fb _) (y := shown fa fb _) hxy)
    (fun x y z => h.trans n (shown fa fb x) (shown fa fb y) (shown fa fb z))
  exact hN n hn _ (List.mem_map.2 ⟨x, hx, rfl⟩) _ (List.mem_map.2 ⟨y, hy, rfl⟩)

/-- **C53 (types).** Printing lists the types in the chosen order; so does a diff, with the new
type standing for a pair and each type compared in its own file. -/
theorem C53_types (o : Options) :
    (∀ (h : Hash) (l : List TypeEntry), (∀ x ∈ l, GoodType h x.kind) →
      ∃ N, ∀ n, N ≤ n → ∃ l', printOrder (typeCmpBy o n) h l = some l' ∧
        Arranged (fun x y => typeCmpBy o n x h y h) l l') ∧
    (∀ (ha hb : Hash) (l : List (MergeResult TypeEntry TypeEntry)),
      (∀ x ∈ l, GoodType (shown ha hb x).2 (shown ha hb x).1.kind) →
      ∃ N, ∀ n, N ≤ n → ∃ l', diffOrder (typeCmpBy o n) ha hb l = some l' ∧
        Arranged (fun x y => typeCmpBy o n (shown ha hb x).1 (shown ha hb x).2 (shown ha hb y).1
          (shown ha hb y).2) l l') :=
  ⟨fun h l hl => print_arranged (lawful_types o) h l hl,
   fun ha hb l hl => diff_arranged (lawful_types o) ha hb l hl⟩

/-- **C53 (functions).** -/
theorem C53_functions (o : Options) :
    (∀ (h : Hash) (l : List Function), (∀ x ∈ l, GoodFunction h x) →
      ∃ N, ∀ n, N ≤ n → ∃ l', printOrder (functionCmpBy o n) h l = some l' ∧
        Arranged (fun x y => functionCmpBy o n x h y h) l l') ∧
    (∀ (ha hb : Hash) (l : List (MergeResult Function Function)),
      (∀ x ∈ l, GoodFunction (shown ha hb x).2 (shown ha hb x).1) →
      ∃ N, ∀ n, N ≤ n → ∃ l', diffOrder (functionCmpBy o n) ha hb l = some l' ∧
        Arranged (fun x y => functionCmpBy o n (shown ha hb x).1 (shown ha hb x).2 (shown ha hb y).1
          (shown ha hb y).2) l l') :=
  ⟨fun h l hl => print_arranged (lawful_functions o) h l hl,
   fun ha hb l hl => diff_arranged (lawful_functions o) ha hb l hl⟩

/-- **C53 (variables).** -/
theorem C53_variables (o : Options) :
    (∀ (h : Hash) (l : List Variable), (∀ x ∈ l, GoodVariable h x) →
      ∃ N, ∀ n, N ≤ n → ∃ l', printOrder (variableCmpBy o n) h l = some l' ∧
        Arranged (fun x y => variableCmpBy o n x h y h) l l') ∧
    (∀ (ha hb : Hash) (l : List (MergeResult Variable Variable)),
      (∀ x ∈ l, GoodVariable (shown ha hb x).2 (shown ha hb x).1) →
      ∃ N, ∀ n, N ≤ n → ∃ l', diffOrder (variableCmpBy o n) ha hb l = some l' ∧
        Arranged (fun x y => variableCmpBy o n (shown ha hb x).1 (shown ha hb x).2 (shown ha hb y).1
          (shown ha hb y).2) l l') :=
  ⟨fun h l hl => print_arranged (lawful_variables o) h l hl,
   fun ha hb l hl => diff_arranged (lawful_variables o) ha hb l hl⟩

/-- **C53 (units).** The file argument gives the sizes of the types of the file. -/
theorem C53_units (o : Options) :
    (∀ (t : TypeOffset → Option Nat) (l : List CompUnit), (∀ x ∈ l, ∃ s, x.size t = some s) →
      ∃ N, ∀ n, N ≤ n → ∃ l', printOrder (unitCmpBy o n) t l = some l' ∧
        Arranged (fun x y => unitCmpBy o n x t y t) l l') ∧
    (∀ (ta tb : TypeOffset → Option Nat) (l : List (MergeResult CompUnit CompUnit)),
      (∀ x ∈ l, ∃ s, (shown ta tb x).1.size (shown ta tb x).2 = some s) →
      ∃ N, ∀ n, N ≤ n → ∃ l', diffOrder (unitCmpBy o n) ta tb l = some l' ∧
        Arranged (fun x y => unitCmpBy o n (shown ta tb x).1 (shown ta tb x).2 (shown ta tb y).1
          (shown ta tb y).2) l l') :=
  ⟨fun h l hl => print_arranged (lawful_units o) h l hl,
   fun ha hb l hl => diff_arranged (lawful_units o) ha hb l hl⟩

/-! ## What the order compares -/

/-- **C53 (key of a type).** Offset in the file by default, size in bytes for `size`; for `name`
the identity of the type. -/
theorem C53_type_key (o : Options) (n : Nat) (a : TypeEntry) (ha : Hash) (b : TypeEntry) (hb : Hash)
    (r : Ordering) (h : typeCmpBy o n a ha b hb = .ok r) :
    (o.sort = .none → r = cmpNoneLast a.offset b.offset) ∧
    (o.sort = .size → ∃ x y, SizeOf ha a.kind x ∧ SizeOf hb b.kind y ∧ r = compare x y) ∧
    (o.sort = .name → (r = .eq → ∀ i, IdentOf ha a.kind i ↔ IdentOf hb b.kind i) ∧
      (∀ i, IdentOf ha a.kind i → IdentOf hb b.kind i → r = .eq)) := by
  refine ⟨?_, ?_, ?_⟩
  · intro hs; simp only [typeCmpBy, hs] at h; cases h; rfl
  · intro hs
    simp only [typeCmpBy, hs] at h
    obtain ⟨x, y, h1, h2, h3⟩ := bind2_ok h
    exact ⟨x, y, C12_byteSize_sound _ _ _ _ h1, C12_byteSize_sound _ _ _ _ h2, h3⟩
  · intro hs
    simp only [typeCmpBy, hs] at h
    exact C11_eq_iff_same_identity_partial false n ha hb a.kind b.kind r h

theorem params_same {n : Nat} {ha hb : Hash} {ps qs : List TypeOffset}
    (h : cmpParams (fun x y => cmpId false n ha x hb y) ha hb ps qs = .ok .eq)
    (hlen : ps.length = qs.length) :
    All2 (fun p q => OptRel (fun s t => ∀ i, IdentOf ha s i ↔ IdentOf hb t i)
      (fromOffset ha p) (fromOffset hb q)) ps qs := by
  induction ps generalizing qs with
  | nil => cases qs with
    | nil => exact .nil
    | cons => cases hlen
  | cons p ps ih =>
    cases qs with
    | nil => cases hlen
    | cons q qs =>
      simp only [cmpParams] at h
      rcases lexR_ok h with ⟨_, h⟩ | ⟨h1, h2⟩
      · exact absurd rfl h
      · refine .cons ?_ (ih h2 (by simpa using hlen))
        revert h1
        cases hp : fromOffset ha p <;> cases hq : fromOffset hb q <;> simp only [cmpOptTy] <;>
          intro h1
        · exact .none
        · cases h1
        · cases h1
        · exact .some ((C11_eq_iff_same_identity_partial false n ha hb _ _ _ h1).1 rfl)

/-- **C53 (key of a function).** Address by default, size for `size`; for `name` the qualified
name, and between functions with the same qualified name (overloads) equality means that they have
equally many parameters with the same types. -/
theorem C53_function_key (o : Options) (n : Nat) (a : Function) (ha : Hash) (b : Function)
    (hb : Hash) (r : Ordering) (h : functionCmpBy o n a ha b hb = .ok r) :
    (o.sort = .none → r = compare a.address b.address) ∧
    (o.sort = .size → r = compare a.size b.size) ∧
    (o.sort = .name →
      (qname a.ns a.name ≠ qname b.ns b.name →
        r = (compare (qname a.ns a.name).1 (qname b.ns b.name).1).then (compare a.name b.name)) ∧
      (r = .eq → qname a.ns a.name = qname b.ns b.name ∧
        All2 (fun p q => OptRel (fun s t => ∀ i, IdentOf ha s i ↔ IdentOf hb t i)
          (fromOffset ha p.ty) (fromOffset hb q.ty)) a.parameters b.parameters)) := by
  refine ⟨?_, ?_, ?_⟩
  · intro hs; simp only [functionCmpBy, hs] at h; cases h; rfl
  · intro hs; simp only [functionCmpBy, hs] at h; cases h; rfl
  · intro hs
    simp only [functionCmpBy, hs, functionCmpIdForSort] at h
    have hq : functionCmpId a b =
        (compare (qname a.ns a.name).1 (qname b.ns b.name).1).then (compare a.name b.name) :=
      Namespace.C09_cmpNsAndName_is_pair_order _ _ _ _
    have hqe : functionCmpId a b = .eq ↔ qname a.ns a.name = qname b.ns b.name := by
      have := cmpQName_eq_eq (a.ns, a.name) (b.ns, b.name)
      simp only [qname, Prod.mk.injEq]
      exact this
    constructor
    · intro hne
      rcases lexR_ok h with ⟨h, _⟩ | ⟨h, _⟩
      · rw [← hq]; cases h; rfl
      · exact absurd (hqe.1 (Res.ok.inj h)) hne
    · rintro rfl
      rcases lexR_ok h with ⟨_, h⟩ | ⟨h1, h2⟩
      · exact absurd rfl h
      · refine ⟨hqe.1 (Res.ok.inj h1), ?_⟩
        rcases lexR_ok h2 with ⟨_, h⟩ | ⟨h3, h4⟩
        · exact absurd rfl h
        · have hlen : a.parameters.length = b.parameters.length :=
            Nat.compare_eq_eq.1 (Res.ok.inj h4)
          have := params_same h3 (by simpa using hlen)
          have conv : ∀ (ps qs : List ParameterType),
              All2 (fun p q => OptRel (fun s t => ∀ i, IdentOf ha s i ↔ IdentOf hb t i)
                (fromOffset ha p) (fromOffset hb q)) (ps.map (·.ty)) (qs.map (·.ty)) →
              All2 (fun p q => OptRel (fun s t => ∀ i, IdentOf ha s i ↔ IdentOf hb t i)
                (fromOffset ha p.ty) (fromOffset hb q.ty)) ps qs := by
            intro ps
            induction ps with
            | nil => intro qs h; cases qs with
              | nil => exact .nil
              | cons => cases h
            | cons p ps ih =>
              intro qs h
              cases qs with
              | nil => cases h
              | cons q qs =>
                cases h with
                | cons h1 h2 => exact .cons h1 (ih qs h2)
          exact conv _ _ this

/-- **C53 (key of a variable).** Address by default, size in bytes for `size`, and the qualified
name for `name`. -/
theorem C53_variable_key (o : Options) (n : Nat) (a : Variable) (ha : Hash) (b : Variable)
    (hb : Hash) (r : Ordering) (h : variableCmpBy o n a ha b hb = .ok r) :
    (o.sort = .none → r = compare a.address b.address) ∧
    (o.sort = .size → ∃ x y, variableByteSize n ha a = .ok x ∧ variableByteSize n hb b = .ok y ∧
      r = compare x y) ∧
    (o.sort = .name →
      r = (compare (qname a.ns a.name).1 (qname b.ns b.name).1).then (compare a.name b.name)) := by
  refine ⟨?_, ?_, ?_⟩
  · intro hs; simp only [variableCmpBy, hs] at h; cases h; rfl
  · intro hs; simp only [variableCmpBy, hs] at h; exact bind2_ok h
  · intro hs
    simp only [variableCmpBy, hs] at h; cases h
    exact Namespace.C09_cmpNsAndName_is_pair_order _ _ _ _

/-- The size of a variable: its own if it has one, and otherwise that of its type. -/
theorem C53_variable_size (n : Nat) (h : Hash) (v : Variable) (s : Option Nat)
    (he : variableByteSize n h v = .ok s) :
    (∀ k, v.size = some k → s = some k) ∧
    (v.size = none → ∀ t, fromOffset h v.ty = some t → SizeOf h t s) ∧
    (v.size = none → fromOffset h v.ty = none → s = none) := by
  unfold variableByteSize at he
  refine ⟨?_, ?_, ?_⟩
  · intro k hk; simp [hk] at he; exact he.symm
  · intro hn t ht; simp [hn, ht] at he; exact C12_byteSize_sound _ _ _ _ he
  · intro hn ht; simp [hn, ht] at he; exact he.symm

theorem cutAt_spec (s : Str) : CutAt s (cutAt s) := by
  unfold CutAt cutAt
  constructor
  · intro h
    have := List.all_takeWhile (p := (· != 64)) (l := s)
    rw [List.all_eq_true] at this
    simpa using this 64 h
  · cases hd : s.dropWhile (· != 64) with
    | nil =>
      left
      have := List.takeWhile_append_dropWhile (p := (· != 64)) (l := s)
      rw [hd, List.append_nil] at this; exact this.symm
    | cons x rest =>
      right
      have := List.takeWhile_append_dropWhile (p := (· != 64)) (l := s)
      have hx : x = 64 := by
        have h0 := List.head_dropWhile_not (p := (· != 64)) (l := s) (by rw [hd]; simp)
        simp only [hd, List.head_cons] at h0
        simpa using h0
      subst hx
      rw [hd] at this
      exact ⟨rest, this.symm⟩

theorem unitKey_spec (o : Options) (u : CompUnit) : UnitName o u (unitKey o u) := by
  rcases prefixLoop_spec (u.name.getD []) o.prefixMap with ⟨h1, h2⟩ | ⟨l1, p, l2, r, h1, h2, h3, h4⟩
  · simp only [unitKey, Options.mapPrefix, h2, List.nil_append]
    exact .plain (fun e he ⟨r, hr⟩ => h1 e he r hr.symm) (cutAt_spec _)
  · simp only [unitKey, Options.mapPrefix, h4]
    exact .mapped h1 h3 (fun e he ⟨r, hr⟩ => h2 e he r hr.symm) (cutAt_spec _)

theorem cutAt_unique {s h : Str} (hc : CutAt s h) : h = cutAt s := by
  obtain ⟨hn, rfl | ⟨rest, rfl⟩⟩ := hc
  · unfold cutAt
    have := List.takeWhile_append_of_pos (p := (· != 64)) (l₁ := s) (l₂ := [])
      (by intro x hx; simp only [bne_iff_ne, ne_eq]; rintro rfl; exact hn hx)
    simpa using this.symm
  · unfold cutAt
    rw [List.takeWhile_append_of_pos]
    · simp
    · intro x hx
      simp only [bne_iff_ne, ne_eq]
      rintro rfl; exact hn hx

theorem prefixLoop_skip (name : Str) (l1 l2 : List (Str × Str)) (h : ∀ e ∈ l1, ¬ e.1 <+: name) :
    prefixLoop name (l1 ++ l2) = prefixLoop name l2 := by
  induction l1 with
  | nil => rfl
  | cons e l1 ih =>
    obtain ⟨old, new⟩ := e
    have h0 : ¬ old.isPrefixOf name = true := fun hp =>
      h (old, new) (by simp) (List.isPrefixOf_iff_prefix.1 hp)
    simp only [List.cons_append, prefixLoop, h0]
    rw [if_neg (by simp)]
    exact ih (fun e he => h e (by simp [he]))

/-- A unit has exactly one name to be compared by. -/
theorem unitName_iff (o : Options) (u : CompUnit) (k : Str) : UnitName o u k ↔ k = unitKey o u := by
  constructor
  · intro h
    cases h with
    | mapped hl hn hb hc =>
      simp only [unitKey, Options.mapPrefix, hl, prefixLoop_skip _ _ _ hb]
      rw [cutAt_unique hc]
      have : ∀ (old rest : Str), old.isPrefixOf (old ++ rest) = true := fun old rest =>
        List.isPrefixOf_iff_prefix.2 ⟨rest, rfl⟩
      simp [prefixLoop, hn, this]
    | plain hb hc =>
      have := prefixLoop_skip _ o.prefixMap [] hb
      rw [List.append_nil] at this
      simp only [unitKey, Options.mapPrefix, this, prefixLoop, List.nil_append]
      exact cutAt_unique hc
  · rintro rfl; exact unitKey_spec o u

/-- **C53 (key of a unit).** Units keep their order by default; they are compared by the total
size of their functions and variables for `size`, and by their mapped name for `name`. -/
theorem C53_unit_key (o : Options) (n : Nat) (a : CompUnit) (ta : TypeOffset → Option Nat)
    (b : CompUnit) (tb : TypeOffset → Option Nat) (r : Ordering)
    (h : unitCmpBy o n a ta b tb = .ok r) :
    (o.sort = .none → r = .eq) ∧
    (o.sort = .size → ∃ x y, a.size ta = some x ∧ b.size tb = some y ∧ r = compare x y) ∧
    (o.sort = .name → ∃ x y, UnitName o a x ∧ UnitName o b y ∧ r = compare x y) := by
  refine ⟨?_, ?_, ?_⟩
  · intro hs; simp only [unitCmpBy, hs] at h; cases h; rfl
  · intro hs
    simp only [unitCmpBy, hs] at h
    obtain ⟨x, y, h1, h2, h3⟩ := bind2_ok h
    unfold unitSizeRes at h1 h2
    cases ha : a.size ta with
    | none => simp [ha] at h1
    | some s =>
      cases hb : b.size tb with
      | none => simp [hb] at h2
      | some t =>
        simp only [ha, hb] at h1 h2
        cases h1; cases h2
        exact ⟨s, t, rfl, rfl, h3⟩
  · intro hs
    simp only [unitCmpBy, hs] at h; cases h
    exact ⟨_, _, unitKey_spec o a, unitKey_spec o b, rfl⟩

/-- **C53 (default order of units).** Without a sort option units are listed as in the file. -/
theorem C53_units_unsorted (o : Options) (t : TypeOffset → Option Nat) (l : List CompUnit) (n : Nat)
    (hs : o.sort = .none) : printOrder (unitCmpBy o n) t l = some l := by
  have h : ∀ x y, unitCmpBy o n x t y t = .ok .eq := fun x y => by simp [unitCmpBy, hs]
  unfold printOrder sortWith
  rw [if_pos (by simp [h])]
  congr 1
  apply stableSort_of_sorted
  exact List.pairwise_of_forall (fun x y => by simp [h])

/-! ## Pairing -/

/-- **C18 (types).** -/
theorem C18_merged_types (ha hb : Hash) (la lb : List TypeEntry)
    (ga : ∀ x ∈ la, Acc (IdRef ha) x.kind) (gb : ∀ x ∈ lb, Acc (IdRef hb) x.kind) :
    ∃ N, ∀ n, N ≤ n → ∃ out, mergedTypes n ha la hb lb = some out ∧
      Paired (fun a b : TypeEntry => ∃ i, IdentOf ha a.kind i ∧ IdentOf hb b.kind i) la lb out := by
  have hL := lawful_cmpId (fun x : TypeEntry × Hash => (x.2, x.1.kind))
  have hg : ∀ x ∈ la.map (·, ha) ++ lb.map (·, hb), Acc (IdRef x.2) x.1.kind := by
    intro x hx
    rcases List.mem_append.1 hx with h | h <;> obtain ⟨y, hy, rfl⟩ := List.mem_map.1 h
    · exact ga y hy
    · exact gb y hy
  obtain ⟨N, hN⟩ := hL.okOn _ _ hg hg
  refine ⟨N, fun n hn => ?_⟩
  obtain ⟨out, h1, h2⟩ := merge_spec
    (r := fun x y : TypeEntry × Hash => cmpId false n x.2 x.1.kind y.2 y.1.kind)
    (c := fun x y : TypeEntry × Hash => cmpId false n x.2 x.1.kind y.2 y.1.kind)
    ha hb la lb (fun h => hL.swap h) (fun x y z => hL.trans n x y z) (fun h => hL.swap h)
    (fun x y z => hL.trans n x y z) (fun x y o h1 h2 => ⟨o, h1, h2⟩) (hN n hn).append.1 (hN n hn).append.2.1 (hN n hn)
  refine ⟨out, h1, h2.old, h2.new, ?_, ?_⟩
  · intro a b h
    have hab := (C11_eq_iff_same_identity_partial false n ha hb _ _ _ (h2.pairs a b h)).1 rfl
    have hm : a ∈ la := h2.old.mem_iff.1 (List.mem_filterMap.2 ⟨_, h, rfl⟩)
    obtain ⟨i, hi⟩ := C11_identity_exists ha a.kind (ga a hm)
    exact ⟨i, hi, (hab i).1 hi⟩
  · rintro a b h h' ⟨i, i1, i2⟩
    have m1 : a ∈ la := h2.old.mem_iff.1 (List.mem_filterMap.2 ⟨_, h, rfl⟩)
    have m2 : b ∈ lb := h2.new.mem_iff.1 (List.mem_filterMap.2 ⟨_, h', rfl⟩)
    obtain ⟨o, ho⟩ := hN n hn (a, ha) (List.mem_append_left _ (List.mem_map.2 ⟨a, m1, rfl⟩)) (b, hb)
      (List.mem_append_right _ (List.mem_map.2 ⟨b, m2, rfl⟩))
    have := (C11_eq_iff_same_identity_partial false n ha hb _ _ _ ho).2 i i1 i2
    subst this
    exact h2.maximal a b h h' ho

theorem merge_pure_spec {α : Type} {κ : Type} (k : α → κ) (cmp : κ → κ → Ordering) [Std.TransCmp cmp]
    (la lb : List α) :
    ∃ out, (do
      let sa ← sortWith (fun x y => .ok (cmp (k x) (k y))) la
      let sb ← sortWith (fun x y => .ok (cmp (k x) (k y))) lb
      mergeWith (fun x y => .ok (cmp (k x) (k y))) sa sb) = some out ∧
      Paired (fun x y => cmp (k x) (k y) = .eq) la lb out := by
  have hL := lawful_pure (fun x : α × Unit => k x.1) cmp (fun _ => True)
  obtain ⟨out, h1, h2⟩ := merge_spec
    (r := fun x y : α × Unit => .ok (cmp (k x.1) (k y.1)))
    (c := fun x y : α × Unit => .ok (cmp (k x.1) (k y.1))) () () la lb
    (fun h => hL.swap (n := 0) h) (fun x y z => hL.trans 0 x y z) (fun h => hL.swap (n := 0) h)
    (fun x y z => hL.trans 0 x y z) (fun x y o h1 h2 => ⟨o, h1, h2⟩)
    (fun _ _ _ _ => ⟨_, rfl⟩) (fun _ _ _ _ => ⟨_, rfl⟩) (fun _ _ _ _ => ⟨_, rfl⟩)
  exact ⟨out, h1, h2.old, h2.new, fun a b h => Res.ok.inj (h2.pairs a b h),
    fun a b h h' e => h2.maximal a b h h' (by rw [e])⟩

theorem sameQName (a b : Option Namespace × Option Str) :
    cmpQName a b = .eq ↔ qname a.1 a.2 = qname b.1 b.2 := by
  rw [cmpQName_eq_eq]; simp [qname]

/-- **C18 (variables).** No assumption at all. -/
theorem C18_merged_variables (la lb : List Variable) :
    ∃ out, mergedVariables la lb = some out ∧
      Paired (fun a b : Variable => qname a.ns a.name = qname b.ns b.name) la lb out := by
  obtain ⟨out, h1, h2⟩ := merge_pure_spec (fun v : Variable => (v.ns, v.name)) cmpQName la lb
  exact ⟨out, h1, h2.old, h2.new, fun a b h => (sameQName _ _).1 (h2.pairs a b h),
    fun a b h h' e => h2.maximal a b h h' ((sameQName _ _).2 e)⟩

/-- **C18 (units).** Units are paired by their mapped names. -/
theorem C18_merged_units (o : Options) (la lb : List CompUnit) :
    ∃ out, mergedUnits o la lb = some out ∧
      Paired (fun a b : CompUnit => ∃ k, UnitName o a k ∧ UnitName o b k) la lb out := by
  obtain ⟨out, h1, h2⟩ := merge_pure_spec (unitKey o) compare la lb
  have he : ∀ a b, (∃ k, UnitName o a k ∧ UnitName o b k) ↔ unitKey o a = unitKey o b := by
    intro a b
    simp only [unitName_iff]
    exact ⟨fun ⟨k, h1, h2⟩ => h1.symm.trans h2, fun h => ⟨_, rfl, h⟩⟩
  exact ⟨out, h1, h2.old, h2.new,
    fun a b h => (he a b).2 (Std.LawfulEqOrd.compare_eq_iff_eq.1 (h2.pairs a b h)),
    fun a b h h' e => h2.maximal a b h h' (Std.LawfulEqOrd.compare_eq_iff_eq.2 ((he a b).1 e))⟩

theorem filter_not_perm (p : α → Bool) (out : List α) :
    (out.filter (fun x => !p x) ++ out.filter p).Perm out := by
  induction out with
  | nil => exact List.Perm.nil
  | cons x out ih =>
    cases hx : p x with
    | true =>
      rw [List.filter_cons_of_neg (by simp [hx]), List.filter_cons_of_pos (by simp [hx])]
      exact List.perm_middle.trans (ih.cons x)
    | false =>
      rw [List.filter_cons_of_pos (by simp [hx]), List.filter_cons_of_neg (by simp [hx])]
      exact ih.cons x

/-- **C18 (functions).** All functions of both units are paired by qualified name; the listing of
functions has those with a size on every side present, that of inlined functions the others. -/
theorem C18_merged_functions (ha hb : Hash) (la lb : List Function)
    (ga : ∀ x ∈ la, GoodFunction ha x) (gb : ∀ x ∈ lb, GoodFunction hb x) :
    ∃ N, ∀ n, N ≤ n → ∃ out fs is, mergedFunctions n ha la hb lb = some (fs, is) ∧
      Paired (fun a b : Function => qname a.ns a.name = qname b.ns b.name) la lb out ∧
      (fs ++ is).Perm out ∧
      (∀ x, x ∈ is ↔ x ∈ out ∧ ((∃ a, oldItem x = some a ∧ a.size = none) ∨
        (∃ b, newItem x = some b ∧ b.size = none))) := by
  have hL := lawful_functionSort
  have hC := lawful_pure (fun x : Function × Hash => (x.1.ns, x.1.name)) cmpQName (fun _ => True)
  have hg : ∀ x ∈ la.map (·, ha) ++ lb.map (·, hb), GoodFunction x.2 x.1 := by
    intro x hx
    rcases List.mem_append.1 hx with h | h <;> obtain ⟨y, hy, rfl⟩ := List.mem_map.1 h
    · exact ga y hy
    · exact gb y hy
  obtain ⟨N, hN⟩ := hL.okOn _ _ hg hg
  refine ⟨N, fun n hn => ?_⟩
  obtain ⟨out, h1, h2⟩ := merge_spec
    (r := fun x y : Function × Hash => functionCmpIdForSort n x.1 x.2 y.1 y.2)
    (c := fun x y : Function × Hash => .ok (cmpQName (x.1.ns, x.1.name) (y.1.ns, y.1.name)))
    ha hb la lb (fun h => hL.swap h) (fun x y z => hL.trans n x y z)
    (fun h => hC.swap (n := 0) h) (fun x y z => hC.trans 0 x y z)
    (fun x y o h1 h2 => by
      rcases lexR_ok h1 with ⟨h, _⟩ | ⟨h, _⟩
      · exact ⟨o, h, h2⟩
      · exact ⟨.eq, h, by simp⟩)
    (hN n hn).append.1 (hN n hn).append.2.1 (fun _ _ _ _ => ⟨_, rfl⟩)
  have h1 : mergedFunctionsAll n ha la hb lb = some out := h1
  refine ⟨out, out.filter (fun x => !mergedInline x), out.filter mergedInline, ?_, ?_, ?_, ?_⟩
  · simp [mergedFunctions, h1]
  · exact ⟨h2.old, h2.new, fun a b h => (sameQName _ _).1 (Res.ok.inj (h2.pairs a b h)),
      fun a b h h' e => h2.maximal a b h h' (by rw [(sameQName _ _).2 e])⟩
  · exact filter_not_perm mergedInline out
  · intro x
    rw [List.mem_filter]
    refine and_congr_right fun _ => ?_
    cases x <;> simp [mergedInline, oldItem, newItem]

/-! ## Concrete cases -/

/-- Three functions: two overloads of `f` (taking `int` and `int *` of `exHash`) and `g`. -/
def exFunctions : List Function :=
  [ { name := some [103], address := some 16, size := some 4 },
    { name := some [102], address := some 64, size := some 8, parameters := [⟨none, none, some 2⟩] },
    { name := some [102], address := some 32, size := none, parameters := [⟨none, none, some 1⟩] } ]

example : printOrder (functionCmpBy {} 5) exHash exFunctions =
      some [exFunctions[0], exFunctions[2], exFunctions[1]] ∧
    printOrder (functionCmpBy { sort := .name } 5) exHash exFunctions =
      some [exFunctions[2], exFunctions[1], exFunctions[0]] ∧
    printOrder (functionCmpBy { sort := .size } 5) exHash exFunctions =
      some [exFunctions[2], exFunctions[0], exFunctions[1]] ∧
    mergedFunctions 5 exHash exFunctions exHash (exFunctions.take 2) =
      some ([.left exFunctions[1], .both exFunctions[0] exFunctions[0]],
        [.both exFunctions[2] exFunctions[1]]) := by decide +kernel

example : ∀ x ∈ exFunctions, GoodFunction exHash x := by
  intro x hx p hp t ht
  have h1 : Acc (IdRef exHash) (.base (some [105]) ⟨4⟩) :=
    ⟨_, fun y ⟨o, ho, _⟩ => by simp [Ty.idRefs] at ho⟩
  simp only [exFunctions, List.mem_cons, List.not_mem_nil, or_false] at hx
  rcases hx with rfl | rfl | rfl
  · simp at hp
  · simp at hp; subst hp
    cases ht
    exact ⟨_, fun y ⟨o, ho, e⟩ => by
      simp [Ty.idRefs] at ho; subst ho; cases e; exact h1⟩
  · simp at hp; subst hp
    cases ht
    exact h1

example : unitKey { prefixMap := [(Str.ofString "/build", Str.ofString "/src")] }
    { name := some (Str.ofString "/build/a.c/@/x") } = Str.ofString "/src/a.c/" := by decide +kernel

end Verif.Order
