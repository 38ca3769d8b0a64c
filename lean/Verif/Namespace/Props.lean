import Verif.Namespace.Spec
/-!
# Property theorems C07-C09, C62 (namespaces)
-/
namespace Verif.Namespace.Namespace

theorem length_path (a : Namespace) : a.path.length = a.len := by
  induction a with
  | root => rfl
  | child p n k ih => simp [path, len, ih]

theorem compare_append_same {α : Type _} [Ord α] (xs ys zs ws : List α)
    (h : xs.length = ys.length) :
    compare (xs ++ zs) (ys ++ ws) = (compare xs ys).then (compare zs ws) := by
  induction xs generalizing ys with
  | nil =>
    cases ys with
    | nil => simp [List.compare_nil_nil]
    | cons => simp at h
  | cons x xs ih =>
    cases ys with
    | nil => simp at h
    | cons y ys =>
      simp only [List.cons_append, List.compare_cons_cons]
      rw [ih ys (by simpa using h)]
      cases compare x y <;> simp

theorem compare_singleton {α : Type _} [Ord α] (x y : α) :
    compare [x] [y] = compare x y := by
  rw [List.compare_cons_cons, List.compare_nil_nil]; cases compare x y <;> rfl

theorem cmp'_eq (a b : Namespace) (h : a.len = b.len) : cmp' a b = compare a.path b.path := by
  induction a generalizing b with
  | root n k =>
    cases b with
    | root => simp [cmp', path, name, compare_singleton]
    | child p n k =>
      have := length_path p
      simp [len] at h
      cases p <;> simp [len] at h
  | child p n k ih =>
    cases b with
    | root => cases p <;> simp [len] at h
    | child q m j =>
      have hl : p.len = q.len := by simpa [len] using h
      simp only [cmp', path]
      rw [compare_append_same _ _ _ _ (by rw [length_path, length_path, hl]), ih q hl,
        compare_singleton]
      cases compare p.path q.path <;> simp

theorem len_pos (a : Namespace) : 0 < a.len := by cases a <;> simp [len]

theorem path_up (a : Namespace) (n : Nat) (h : n < a.len) :
    (a.up n).path ++ a.path.drop (a.len - n) = a.path ∧ (a.up n).len = a.len - n := by
  induction a generalizing n with
  | root m k =>
    have : n = 0 := by simp [len] at h; omega
    subst this
    simp [up, len, path]
  | child p m k ih =>
    cases n with
    | zero =>
      have := length_path (child p m k)
      simp only [up, Nat.sub_zero, and_true]
      rw [List.drop_of_length_le (by omega), List.append_nil]
    | succ n =>
      have := ih n (by simp [len] at h; omega)
      have hl : p.path.length = p.len := length_path p
      simp only [up, path, len]
      have e : p.len + 1 - (n + 1) = p.len - n := by omega
      rw [e, List.drop_append_of_le_length (by omega), ← List.append_assoc, this.1]
      exact ⟨rfl, this.2⟩

theorem compare_nil_of_length_pos {α : Type _} [Ord α] (l : List α) (h : 0 < l.length) :
    compare [] l = .lt ∧ compare l [] = .gt := by
  cases l with
  | nil => simp at h
  | cons => simp [List.compare_nil_cons, List.compare_cons_nil]

/-- **C07.** Namespace comparison is the lexicographic comparison of qualified paths. -/
theorem C07_cmp_is_path_order (a b : Namespace) : cmp a b = compare a.path b.path := by
  have la := length_path a
  have lb := length_path b
  unfold cmp
  split
  · rename_i h
    exact cmp'_eq a b (Nat.compare_eq_eq.1 h)
  · rename_i h
    have h := Nat.compare_eq_lt.1 h
    have hu := path_up b (b.len - a.len) (by have := len_pos a; omega)
    rw [cmp'_eq a _ (by omega)]
    have hp : compare a.path b.path =
        (compare a.path (b.up (b.len - a.len)).path).then .lt := by
      conv => lhs; rw [← hu.1, ← List.append_nil a.path]
      rw [compare_append_same]
      · rw [(compare_nil_of_length_pos _ _).1]
        rw [List.length_drop]; omega
      · rw [length_path, length_path, hu.2]; omega
    rw [hp]
    cases compare a.path (b.up (b.len - a.len)).path <;> rfl
  · rename_i h
    have h := Nat.compare_eq_gt.1 h
    have hu := path_up a (a.len - b.len) (by have := len_pos b; omega)
    rw [cmp'_eq _ b (by omega)]
    have hp : compare a.path b.path =
        (compare (a.up (a.len - b.len)).path b.path).then .gt := by
      conv => lhs; rw [← hu.1, ← List.append_nil b.path]
      rw [compare_append_same]
      · rw [(compare_nil_of_length_pos _ _).2]
        rw [List.length_drop]; omega
      · rw [length_path, length_path, hu.2]; omega
    rw [hp]
    cases compare (a.up (a.len - b.len)).path b.path <;> rfl

/-- **C07 (assertion).** The lengths passed to the inner comparison are always equal, so its
`debug_assert_eq!` cannot fire, and the same holds for its recursive calls. -/
theorem C07_cmp_assert_holds (a b : Namespace) :
    (a.len < b.len → a.len = (b.up (b.len - a.len)).len) ∧
    (b.len < a.len → (a.up (a.len - b.len)).len = b.len) ∧
    (∀ p q n m k j, a = child p n k → b = child q m j → a.len = b.len → p.len = q.len) := by
  refine ⟨fun h => ?_, fun h => ?_, ?_⟩
  · rw [(path_up b _ (by have := len_pos a; omega)).2]; omega
  · rw [(path_up a _ (by have := len_pos b; omega)).2]; omega
  · rintro p q n m k j rfl rfl h
    simpa [len] using h

/-- **C07 (laws).** It is a total order on paths: antisymmetric under swapping, transitive, and
equal exactly for equal paths. -/
theorem C07_cmp_laws (a b c : Namespace) :
    cmp b a = (cmp a b).swap ∧
    ((cmp a b).isLE → (cmp b c).isLE → (cmp a c).isLE) ∧
    (cmp a b = .eq ↔ a.path = b.path) := by
  simp only [C07_cmp_is_path_order]
  exact ⟨Std.OrientedOrd.eq_swap, Std.TransOrd.isLE_trans, Std.LawfulEqOrd.compare_eq_iff_eq⟩

/-- Non-vacuity of C07: `a::c < a::c::b < b`, comparing chains of different depth. -/
example :
    let s := Str.ofString
    let a := child (root (some (s "a")) .namespace_) (some (s "c")) .namespace_
    let b := child a (some (s "b")) .type
    let c := root (some (s "b")) .function
    cmp a b = .lt ∧ cmp b c = .lt ∧ cmp c a = .gt := by decide

theorem isWithin'_eq (ns : Namespace) (f : List Str) :
    (f.map some).take ns.path.length = ns.path.take f.length →
      ns.isWithin' f = (true, min f.length ns.path.length) := by
  induction ns with
  | root n k =>
    intro h
    cases f with
    | nil => simp [isWithin', isWithinStep]
    | cons x xs =>
      simp [path] at h
      simp [isWithin', isWithinStep, path, ← h]
  | child p n k ih =>
    intro h
    simp only [path, List.length_append, List.length_singleton] at h ⊢
    have hp : (f.map some).take p.path.length = p.path.take f.length := by
      have := congrArg (List.take p.path.length) h
      rw [List.take_take, List.take_take] at this
      rw [Nat.min_eq_left (by omega)] at this
      rw [this]
      rw [Nat.min_comm, ← List.take_take, List.take_append_of_le_length (Nat.le_refl _), List.take_length]
    rw [isWithin', ih hp]
    unfold isWithinStep
    simp only
    split
    · rename_i hlt
      have hlt' : p.path.length < f.length := by omega
      have hm : min f.length p.path.length = p.path.length := by omega
      have hn : n = some (f[p.path.length]) := by
        have := congrArg (fun l => l[p.path.length]?) h
        simp [List.getElem?_take, hlt'] at this
        exact this.symm
      subst hn
      simp [hm]
      omega
    · congr 1; omega

theorem isWithin'_true (ns : Namespace) (f : List Str) (k : Nat)
    (h : ns.isWithin' f = (true, k)) :
      (f.map some).take ns.path.length = ns.path.take f.length ∧ k = min f.length ns.path.length := by
  induction ns generalizing k with
  | root n j =>
    cases f with
    | nil => simpa [isWithin', isWithinStep, path, eq_comm] using h
    | cons x xs =>
      cases n with
      | none => simp [isWithin', isWithinStep] at h
      | some n =>
        simp [isWithin', isWithinStep] at h
        simp [path, h.1]
        omega
  | child p n j ih =>
    rw [isWithin'] at h
    cases hp : p.isWithin' f with
    | mk b o =>
      cases b with
      | false => simp [hp, isWithinStep] at h
      | true =>
        obtain ⟨h1, h2⟩ := ih o hp
        rw [hp] at h
        unfold isWithinStep at h
        simp only at h
        simp only [path, List.length_append, List.length_singleton]
        split at h
        · rename_i hlt
          have hlt' : p.path.length < f.length := by omega
          have ho : o = p.path.length := by omega
          subst ho
          cases n with
          | none => simp at h
          | some n =>
            simp at h
            refine ⟨?_, by omega⟩
            rw [List.take_of_length_le (l := p.path) (by omega)] at h1
            have h1' : List.map some (List.take p.path.length f) = p.path := by
              rw [List.map_take]; exact h1
            rw [← List.map_take, List.take_add_one, List.map_append, h1',
              List.take_of_length_le (by simp; omega)]
            simp [List.getElem?_eq_getElem hlt', h.1]
        · have ho : o = f.length := by omega
          simp at h
          refine ⟨?_, by omega⟩
          rw [List.take_append_of_le_length (by omega), ← h1,
            List.take_of_length_le (by simp; omega), List.take_of_length_le (by simp; omega)]

/-- **C08.** A namespace is within the filter iff the filter's names are a prefix of its path;
unnamed scopes never match. -/
theorem C08_isWithin_iff_prefix (ns : Namespace) (f : List Str) :
    ns.isWithin f = true ↔ f.map some <+: ns.path := by
  unfold isWithin
  rw [beq_iff_eq]
  constructor
  · intro h
    obtain ⟨h1, h2⟩ := isWithin'_true ns f _ h
    have : f.length ≤ ns.path.length := by omega
    rw [List.prefix_iff_eq_take]
    rw [List.take_of_length_le (by simpa using this)] at h1
    simpa using h1
  · intro h
    have hl : f.length ≤ ns.path.length := by simpa using h.length_le
    rw [List.prefix_iff_eq_take] at h
    rw [isWithin'_eq ns f]
    · congr 1; omega
    · rw [List.take_of_length_le (by simpa using hl)]
      simpa using h

example :
    let s := Str.ofString
    let a := child (root (some (s "a")) .namespace_) none .namespace_
    a.isWithin [s "a"] = true ∧ a.isWithin [s "a", s "x"] = false ∧ a.isWithin [] = true := by
  decide

/-- **C09.** Qualified-name comparison orders by namespace path first (absent first), then by name:
it is exactly the lexicographic order on (optional path, optional name). -/
theorem C09_cmpNsAndName_is_pair_order (ns1 : Option Namespace) (n1 : Option Str)
    (ns2 : Option Namespace) (n2 : Option Str) :
    cmpNsAndName ns1 n1 ns2 n2 =
      (compare (ns1.map path) (ns2.map path)).then (compare n1 n2) := by
  cases ns1 with
  | none => cases ns2 <;> simp [cmpNsAndName, compare]
  | some a =>
    cases ns2 with
    | none => simp [cmpNsAndName, compare]
    | some b =>
      simp only [cmpNsAndName, C07_cmp_is_path_order, Option.map_some, compare]
      cases List.compareLex (fun x y => instOrdOption.compare x y) a.path b.path <;> rfl

/-- **C09 (laws).** -/
theorem C09_cmpNsAndName_laws (a b c : Option Namespace × Option Str) :
    let cmp := fun x y : Option Namespace × Option Str => cmpNsAndName x.1 x.2 y.1 y.2
    cmp b a = (cmp a b).swap ∧
    ((cmp a b).isLE → (cmp b c).isLE → (cmp a c).isLE) ∧
    (cmp a b = .eq ↔ a.1.map path = b.1.map path ∧ a.2 = b.2) := by
  have key : ∀ x y : Option Namespace × Option Str, cmpNsAndName x.1 x.2 y.1 y.2 =
      compareLex (compareOn (fun z : Option Namespace × Option Str => z.1.map path))
        (compareOn (fun z : Option Namespace × Option Str => z.2)) x y := by
    intro x y
    rw [C09_cmpNsAndName_is_pair_order]; rfl
  simp only [key]
  refine ⟨Std.OrientedCmp.eq_swap, Std.TransCmp.isLE_trans, ?_⟩
  rw [compareLex_eq_eq]
  simp [compareOn, Std.LawfulEqOrd.compare_eq_iff_eq]

example : cmpNsAndName none (some [97]) (some (root (some [96]) .namespace_)) (some [95]) = .lt := by
  decide

/-- **C62.** A namespace counts as an anonymous type iff, going outwards from the innermost scope,
there is an unnamed type scope with only (named or unnamed) type scopes inside it. -/
theorem C62_isAnonType_iff (ns : Option Namespace) :
    isAnonType ns = true ↔ ∃ n, ns = some n ∧ ∃ outer inner : List (Option Str × NamespaceKind),
      n.scopes = outer ++ (none, .type) :: inner ∧ ∀ s ∈ inner, s.2 = .type := by
  cases ns with
  | none => simp [isAnonType]
  | some ns =>
    simp only [isAnonType, Option.some.injEq, exists_eq_left']
    induction ns with
    | root n k =>
      simp only [isAnonType', scopes]
      constructor
      · intro h
        simp at h
        refine ⟨[], [], ?_, by simp⟩
        simp [h.1, h.2]
      · rintro ⟨outer, inner, h, _⟩
        cases outer with
        | nil => simp at h; simp [h.1]
        | cons => simp at h
    | child p n k ih =>
      simp only [isAnonType', scopes, Bool.and_eq_true, Bool.or_eq_true, beq_iff_eq,
        Option.isNone_iff_eq_none]
      rw [ih]
      constructor
      · rintro ⟨rfl, rfl | ⟨outer, inner, h1, h2⟩⟩
        · exact ⟨p.scopes, [], rfl, by simp⟩
        · refine ⟨outer, inner ++ [(n, .type)], by simp [h1], ?_⟩
          intro s hs
          rcases List.mem_append.1 hs with hs | hs
          · exact h2 s hs
          · simp only [List.mem_singleton] at hs; subst hs; rfl
      · rintro ⟨outer, inner, h1, h2⟩
        rcases List.eq_nil_or_concat inner with rfl | ⟨inner', l, rfl⟩
        · have := List.append_inj_right' h1 rfl
          simp at this
          exact ⟨this.2, .inl this.1⟩
        · rw [List.concat_eq_append] at h1 h2
          have e : outer ++ (none, NamespaceKind.type) :: (inner' ++ [l]) =
              (outer ++ (none, .type) :: inner') ++ [l] := by simp
          rw [e] at h1
          have hr := List.append_inj_right' h1 rfl
          have hl := List.append_inj_left' h1 rfl
          simp only [List.cons.injEq, and_true] at hr
          subst hr
          refine ⟨h2 (n, k) (by simp), .inr ⟨outer, inner', hl, ?_⟩⟩
          intro s hs
          exact h2 s (by simp [hs])

example : isAnonType (some (child (root none .type) (some [97]) .type)) = true := by decide

end Verif.Namespace.Namespace
