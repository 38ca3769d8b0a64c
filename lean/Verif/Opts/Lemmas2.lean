import Verif.Opts.Lemmas
namespace Verif.Opts

theorem splitEq_iff (v a b : Str) : splitEq v = some (a, b) ↔ IsPair v a b := by
  unfold IsPair
  fun_induction splitEq v generalizing a with
  | case1 => simp
  | case2 t =>
    constructor
    · intro h; cases h; simp
    · rintro ⟨h1, h2⟩
      cases a with
      | nil => simp at h1; simp [h1]
      | cons x a => simp at h1; simp [h1.1] at h2
  | case3 c t hne ih =>
    constructor
    · intro h
      cases hs : splitEq t with
      | none => simp [hs] at h
      | some p =>
        obtain ⟨a', b'⟩ := p
        simp [hs] at h
        obtain ⟨rfl, rfl⟩ := h
        have := (ih a').1 hs
        refine ⟨by simp [this.1], ?_⟩
        intro hm
        rcases List.mem_cons.1 hm with h | h
        · exact hne h.symm
        · exact this.2 h
    · rintro ⟨h1, h2⟩
      cases a with
      | nil => simp at h1; exact absurd h1.1 hne
      | cons x a =>
        simp at h1
        obtain ⟨rfl, rfl⟩ := h1
        rw [(ih a).2 ⟨rfl, fun h => h2 (List.mem_cons_of_mem _ h)⟩]
        rfl

theorem splitEq_isSome (v : Str) : (splitEq v).isSome = true ↔ 61 ∈ v := by
  constructor
  · intro h
    obtain ⟨⟨a, b⟩, hp⟩ := Option.isSome_iff_exists.1 h
    have := (splitEq_iff v a b).1 hp
    rw [this.1]; simp
  · intro h
    obtain ⟨a, b, rfl, hn⟩ := List.eq_append_cons_of_mem h
    rw [(splitEq_iff _ a b).2 ⟨rfl, hn⟩]
    rfl

theorem splitColons_ne_nil (s : Str) : splitColons s ≠ [] := by
  unfold splitColons
  split
  · simp
  · simp
  · split <;> simp

theorem join_cons (c : Nat) (h : Str) (r : List Str) :
    joinColons ((c :: h) :: r) = c :: joinColons (h :: r) := by
  cases r <;> rfl

theorem infix_cons {c : Nat} {h : Str} (hi : [58, 58] <:+: c :: h) :
    (c = 58 ∧ ∃ t, h = 58 :: t) ∨ [58, 58] <:+: h := by
  rcases List.infix_cons_iff.1 hi with hp | hi
  · left
    obtain ⟨t, ht⟩ := hp
    simp at ht
    exact ⟨ht.1.symm, t, ht.2.symm⟩
  · exact .inr hi

theorem cut_splitColons (s : Str) : CutAtColons s (splitColons s) := by
  fun_induction splitColons s with
  | case1 =>
    refine ⟨by simp, rfl, ?_, by simp⟩
    intro p hp hi
    simp at hp; subst hp
    have := hi.length_le; simp at this
  | case2 t ih =>
    obtain ⟨h1, h2, h3, h4⟩ := ih
    have hne := splitColons_ne_nil t
    refine ⟨by simp, ?_, ?_, ?_⟩
    · cases hs : splitColons t with
      | nil => exact absurd hs hne
      | cons q qs => rw [hs] at h2; simp [joinColons, h2]
    · intro p hp
      rcases List.mem_cons.1 hp with rfl | hp
      · intro hi; have := hi.length_le; simp at this
      · exact h3 p hp
    · intro p hp
      rw [List.dropLast_cons_of_ne_nil hne] at hp
      rcases List.mem_cons.1 hp with rfl | hp
      · simp
      · exact h4 p hp
  | case3 c t hne h r hs ih =>
    rw [hs] at ih
    obtain ⟨-, h2, h3, h4⟩ := ih
    have key : ∀ t', h = 58 :: t' → c ≠ 58 := by
      rintro t' rfl rfl
      have : t = 58 :: joinColons (t' :: r) := by rw [← h2, join_cons]
      exact hne _ rfl this
    refine ⟨by simp, by rw [join_cons, h2], ?_, ?_⟩
    · intro p hp hi
      rcases List.mem_cons.1 hp with rfl | hp
      · rcases infix_cons hi with ⟨hc, t', ht'⟩ | hi
        · exact key t' ht' hc
        · exact h3 h (by simp) hi
      · exact h3 p (List.mem_cons_of_mem _ hp) hi
    · intro p hp
      cases r with
      | nil => simp at hp
      | cons q qs =>
        rw [List.dropLast_cons_of_ne_nil (by simp)] at hp h4
        rcases List.mem_cons.1 hp with rfl | hp
        · have := h4 h (by simp)
          cases h with
          | nil =>
            intro hc
            simp at hc
            have : t = 58 :: 58 :: joinColons (q :: qs) := by rw [← h2]; rfl
            subst hc
            exact hne _ rfl this
          | cons x xs => simpa using this
        · exact h4 p (List.mem_cons_of_mem _ hp)
  | case4 c t hne hs ih => exact absurd hs (splitColons_ne_nil t)

theorem cut_unique (s : Str) (parts : List Str) (h : CutAtColons s parts) :
    parts = splitColons s := by
  fun_induction splitColons s generalizing parts with
  | case1 =>
    obtain ⟨h1, h2, h3, h4⟩ := h
    match parts, h1 with
    | [p], _ => simp [joinColons] at h2; simp [h2]
    | p :: q :: ps, _ => simp [joinColons] at h2
  | case2 t ih =>
    obtain ⟨h1, h2, h3, h4⟩ := h
    match parts, h1 with
    | [] :: ps, _ =>
      cases ps with
      | nil => simp [joinColons] at h2
      | cons q qs =>
        simp [joinColons] at h2
        rw [← ih (q :: qs) ⟨by simp, h2, fun p hp => h3 p (List.mem_cons_of_mem _ hp),
          fun p hp => h4 p (by
            rw [List.dropLast_cons_of_ne_nil (by simp)]
            exact List.mem_cons_of_mem _ hp)⟩]
    | (c :: p) :: ps, _ =>
      exfalso
      rw [join_cons] at h2
      simp only [List.cons.injEq] at h2
      obtain ⟨rfl, h2⟩ := h2
      cases p with
      | nil =>
        cases ps with
        | nil => simp [joinColons] at h2
        | cons q qs => exact h4 [58] (by simp) rfl
      | cons d p =>
        rw [join_cons] at h2
        simp only [List.cons.injEq] at h2
        obtain ⟨rfl, h2⟩ := h2
        exact h3 (58 :: 58 :: p) (by simp) ⟨[], p, rfl⟩
  | case3 c t hne h' r hs ih =>
    obtain ⟨h1, h2, h3, h4⟩ := h
    match parts, h1 with
    | [] :: ps, _ =>
      exfalso
      cases ps with
      | nil => simp [joinColons] at h2
      | cons q qs =>
        simp only [joinColons, List.nil_append, List.cons.injEq] at h2
        exact hne _ h2.1.symm h2.2.symm
    | (d :: p) :: ps, _ =>
      rw [join_cons] at h2
      simp only [List.cons.injEq] at h2
      obtain ⟨rfl, h2⟩ := h2
      have := ih (p :: ps) ⟨by simp, h2, ?_, ?_⟩
      · rw [hs] at this; simp at this; rw [this.1, this.2]
      · intro q hq hi
        rcases List.mem_cons.1 hq with rfl | hq
        · exact h3 _ (List.mem_cons_self) (hi.trans ⟨[d], [], by simp⟩)
        · exact h3 q (List.mem_cons_of_mem _ hq) hi
      · intro q hq
        cases ps with
        | nil => simp at hq
        | cons p2 ps2 =>
          rw [List.dropLast_cons_of_ne_nil (by simp)] at hq h4
          rcases List.mem_cons.1 hq with rfl | hq
          · have := h4 _ (List.mem_cons_self)
            cases q with
            | nil => simp
            | cons x xs => simpa using this
          · exact h4 q (List.mem_cons_of_mem _ hq)
  | case4 c t hne hs ih => exact absurd hs (splitColons_ne_nil t)

theorem foldlM_last {σ β : Type} (f : σ → Str → Option σ) (get : σ → β) (R : Str → β → Prop)
    (h1 : ∀ o v o' b, f o v = some o' → R v b → get o' = b)
    (h2 : ∀ o v o', f o v = some o' → (∀ b, ¬ R v b) → get o' = get o)
    (vs : List Str) (o o' : σ) (h : vs.foldlM f o = some o') :
    LastSetting R (get o) vs (get o') := by
  induction vs generalizing o with
  | nil =>
    simp at h; subst h
    exact .none (by simp)
  | cons v vs ih =>
    rw [List.foldlM_cons] at h
    obtain ⟨o1, ho1, h⟩ := Option.bind_eq_some_iff.1 h
    have hl := ih o1 h
    generalize hg : get o1 = g1 at hl
    generalize get o' = g at hl
    cases hl with
    | none hn =>
      by_cases hv : ∃ b, R v b
      · obtain ⟨b, hb⟩ := hv
        have := h1 o v o1 b ho1 hb
        rw [hg] at this; subst this
        exact .last (pre := []) hb hn
      · have hv' : ∀ b, ¬ R v b := fun b hb => hv ⟨b, hb⟩
        have := h2 o v o1 ho1 hv'
        rw [hg] at this; subst this
        refine .none ?_
        intro w hw
        rcases List.mem_cons.1 hw with rfl | hw
        · exact hv'
        · exact hn w hw
    | last hb hn =>
      exact LastSetting.last (pre := v :: _) hb hn

theorem pair_unique {v a b a' b' : Str} (h : IsPair v a b) (h' : IsPair v a' b') :
    a = a' ∧ b = b' := by
  have h1 := (splitEq_iff v a b).2 h
  have h2 := (splitEq_iff v a' b').2 h'
  rw [h1] at h2; simpa using h2

/-- What one accepted filter value does. -/
theorem filter1_cases (o : Options) (v : Str) :
    (∃ value, IsPair v (k "name") value ∧ applyFilter1 o v = some { o with filterName := some value }) ∨
    (∃ value, IsPair v (k "unit") value ∧ applyFilter1 o v = some { o with filterUnit := some value }) ∨
    (∃ value, IsPair v (k "namespace") value ∧
      applyFilter1 o v = some { o with filterNamespace := splitColons value }) ∨
    (∃ b, SetsInline v (some b) ∧ applyFilter1 o v = some { o with filterFunctionInline := some b }) ∨
    (applyFilter1 o v = none ∧ ¬ FilterOk v) := by
  unfold applyFilter1
  cases hs : splitEq v with
  | none =>
    right; right; right; right
    refine ⟨rfl, ?_⟩
    have hno : ∀ a b, ¬ IsPair v a b := fun a b h => by
      rw [(splitEq_iff v a b).2 h] at hs; cases hs
    rintro (⟨_, _, h, _⟩ | ⟨_, _, h, _⟩ | ⟨_, _, _, h, _⟩ | ⟨_, _, h, _⟩) <;> exact hno _ _ h
  | some p =>
    obtain ⟨key, value⟩ := p
    have hp := (splitEq_iff v key value).1 hs
    simp only
    by_cases hi : key = k "inline" ∨ key = k "function-inline"
    · rw [if_pos hi]
      by_cases hy : value = k "y" ∨ value = k "yes"
      · rw [if_pos hy]
        exact .inr (.inr (.inr (.inl ⟨true, ⟨key, value, hp, hi, .inl ⟨hy, rfl⟩⟩, rfl⟩)))
      · rw [if_neg hy]
        by_cases hn : value = k "n" ∨ value = k "no"
        · rw [if_pos hn]
          exact .inr (.inr (.inr (.inl ⟨false, ⟨key, value, hp, hi, .inr ⟨hn, rfl⟩⟩, rfl⟩)))
        · rw [if_neg hn]
          refine .inr (.inr (.inr (.inr ⟨rfl, ?_⟩)))
          have c1 : ¬ (k "name" = k "inline" ∨ k "name" = k "function-inline") := by decide
          have c2 : ¬ (k "unit" = k "inline" ∨ k "unit" = k "function-inline") := by decide
          have c3 : ¬ (k "namespace" = k "inline" ∨ k "namespace" = k "function-inline") := by decide
          rintro (⟨_, _, h, _⟩ | ⟨_, _, h, _⟩ | ⟨_, _, _, h, _, h2⟩ | ⟨_, _, h, _⟩)
          · have e := (pair_unique hp h).1; subst e; exact c1 hi
          · have e := (pair_unique hp h).1; subst e; exact c2 hi
          · have := pair_unique hp h
            rw [← this.2] at h2
            rcases h2 with ⟨h2, _⟩ | ⟨h2, _⟩
            · exact hy h2
            · exact hn h2
          · have e := (pair_unique hp h).1; subst e; exact c3 hi
    · rw [if_neg hi]
      by_cases h1 : key = k "name"
      · rw [if_pos h1]; subst h1; exact .inl ⟨value, hp, rfl⟩
      rw [if_neg h1]
      by_cases h2 : key = k "namespace"
      · rw [if_pos h2]; subst h2; exact .inr (.inr (.inl ⟨value, hp, rfl⟩))
      rw [if_neg h2]
      by_cases h3 : key = k "unit"
      · rw [if_pos h3]; subst h3; exact .inr (.inl ⟨value, hp, rfl⟩)
      rw [if_neg h3]
      refine .inr (.inr (.inr (.inr ⟨rfl, ?_⟩)))
      rintro (⟨_, _, h, _⟩ | ⟨_, _, h, _⟩ | ⟨_, _, _, h, h', _⟩ | ⟨_, _, h, _⟩)
      · exact h1 (pair_unique hp h).1
      · exact h3 (pair_unique hp h).1
      · rw [← (pair_unique hp h).1] at h'; exact hi h'
      · exact h2 (pair_unique hp h).1

theorem inline_not_name {v : Str} {b : Option Bool} (h : SetsInline v b) {value : Str} :
    ¬ IsPair v (k "name") value ∧ ¬ IsPair v (k "unit") value ∧ ¬ IsPair v (k "namespace") value := by
  obtain ⟨key, value', hp, hk, _⟩ := h
  refine ⟨fun h => ?_, fun h => ?_, fun h => ?_⟩ <;>
  · have e := (pair_unique hp h).1
    subst e
    revert hk; decide

theorem inline_unique {v : Str} {b b' : Option Bool} (h : SetsInline v b) (h' : SetsInline v b') :
    b = b' := by
  obtain ⟨key, value, hp, hk, hv⟩ := h
  obtain ⟨key', value', hp', hk', hv'⟩ := h'
  obtain ⟨rfl, rfl⟩ := pair_unique hp hp'
  have d : ∀ x : Str, (x = k "y" ∨ x = k "yes") → ¬ (x = k "n" ∨ x = k "no") := by
    rintro x (rfl | rfl) <;> decide
  rcases hv with ⟨h1, rfl⟩ | ⟨h1, rfl⟩ <;> rcases hv' with ⟨h2, rfl⟩ | ⟨h2, rfl⟩
  · rfl
  · exact absurd h2 (d _ h1)
  · exact absurd h1 (d _ h2)
  · rfl

theorem key_ne {v a b : Str} {x y : String} (h : IsPair v (k x) a) (h' : IsPair v (k y) b)
    (hne : k x ≠ k y) : False := hne (pair_unique h h').1

theorem filter1_name (o : Options) (v : Str) (o' : Options) (h : applyFilter1 o v = some o') :
    (∀ b, SetsTo "name" v b → o'.filterName = b) ∧
    ((∀ b, ¬ SetsTo "name" v b) → o'.filterName = o.filterName) := by
  rcases filter1_cases o v with ⟨x, hp, he⟩ | ⟨x, hp, he⟩ | ⟨x, hp, he⟩ | ⟨x, hp, he⟩ | ⟨he, _⟩ <;>
    rw [he] at h <;> cases h
  · refine ⟨?_, fun hn => absurd ⟨x, hp, rfl⟩ (hn (some x))⟩
    rintro b ⟨y, hy, rfl⟩
    rw [(pair_unique hp hy).2]
  · refine ⟨?_, fun _ => rfl⟩
    rintro b ⟨y, hy, rfl⟩
    exact (key_ne hp hy (by decide)).elim
  · refine ⟨?_, fun _ => rfl⟩
    rintro b ⟨y, hy, rfl⟩
    exact (key_ne hp hy (by decide)).elim
  · refine ⟨?_, fun _ => rfl⟩
    rintro b ⟨y, hy, rfl⟩
    exact absurd hy (inline_not_name hp).1

theorem filter1_unit (o : Options) (v : Str) (o' : Options) (h : applyFilter1 o v = some o') :
    (∀ b, SetsTo "unit" v b → o'.filterUnit = b) ∧
    ((∀ b, ¬ SetsTo "unit" v b) → o'.filterUnit = o.filterUnit) := by
  rcases filter1_cases o v with ⟨x, hp, he⟩ | ⟨x, hp, he⟩ | ⟨x, hp, he⟩ | ⟨x, hp, he⟩ | ⟨he, _⟩ <;>
    rw [he] at h <;> cases h
  · refine ⟨?_, fun _ => rfl⟩
    rintro b ⟨y, hy, rfl⟩
    exact (key_ne hp hy (by decide)).elim
  · refine ⟨?_, fun hn => absurd ⟨x, hp, rfl⟩ (hn (some x))⟩
    rintro b ⟨y, hy, rfl⟩
    rw [(pair_unique hp hy).2]
  · refine ⟨?_, fun _ => rfl⟩
    rintro b ⟨y, hy, rfl⟩
    exact (key_ne hp hy (by decide)).elim
  · refine ⟨?_, fun _ => rfl⟩
    rintro b ⟨y, hy, rfl⟩
    exact absurd hy (inline_not_name hp).2.1

theorem filter1_namespace (o : Options) (v : Str) (o' : Options) (h : applyFilter1 o v = some o') :
    (∀ b, SetsNamespace v b → o'.filterNamespace = b) ∧
    ((∀ b, ¬ SetsNamespace v b) → o'.filterNamespace = o.filterNamespace) := by
  rcases filter1_cases o v with ⟨x, hp, he⟩ | ⟨x, hp, he⟩ | ⟨x, hp, he⟩ | ⟨x, hp, he⟩ | ⟨he, _⟩ <;>
    rw [he] at h <;> cases h
  · refine ⟨?_, fun _ => rfl⟩
    rintro b ⟨y, hy, _⟩
    exact (key_ne hp hy (by decide)).elim
  · refine ⟨?_, fun _ => rfl⟩
    rintro b ⟨y, hy, _⟩
    exact (key_ne hp hy (by decide)).elim
  · refine ⟨?_, fun hn => absurd ⟨x, hp, cut_splitColons x⟩ (hn _)⟩
    rintro b ⟨y, hy, hc⟩
    rw [cut_unique y b hc, (pair_unique hp hy).2]
  · refine ⟨?_, fun _ => rfl⟩
    rintro b ⟨y, hy, _⟩
    exact absurd hy (inline_not_name hp).2.2

theorem filter1_inline (o : Options) (v : Str) (o' : Options) (h : applyFilter1 o v = some o') :
    (∀ b, SetsInline v b → o'.filterFunctionInline = b) ∧
    ((∀ b, ¬ SetsInline v b) → o'.filterFunctionInline = o.filterFunctionInline) := by
  rcases filter1_cases o v with ⟨x, hp, he⟩ | ⟨x, hp, he⟩ | ⟨x, hp, he⟩ | ⟨x, hp, he⟩ | ⟨he, _⟩ <;>
    rw [he] at h <;> cases h
  · exact ⟨fun b hb => absurd hp (inline_not_name hb).1, fun _ => rfl⟩
  · exact ⟨fun b hb => absurd hp (inline_not_name hb).2.1, fun _ => rfl⟩
  · exact ⟨fun b hb => absurd hp (inline_not_name hb).2.2, fun _ => rfl⟩
  · exact ⟨fun b hb => inline_unique hp hb, fun hn => absurd hp (hn _)⟩

/-- Filters touch only the four filter settings. -/
def SameButFilters (o o' : Options) : Prop :=
  o' = { o with filterName := o'.filterName, filterUnit := o'.filterUnit,
                filterNamespace := o'.filterNamespace,
                filterFunctionInline := o'.filterFunctionInline }

theorem filter1_frame (o : Options) (v : Str) (o' : Options) (h : applyFilter1 o v = some o') :
    SameButFilters o o' := by
  rcases filter1_cases o v with ⟨x, hp, he⟩ | ⟨x, hp, he⟩ | ⟨x, hp, he⟩ | ⟨x, hp, he⟩ | ⟨he, _⟩ <;>
    rw [he] at h <;> cases h <;> rfl

theorem filter_frame (vs : List Str) (o o' : Options) (h : vs.foldlM applyFilter1 o = some o') :
    SameButFilters o o' := by
  induction vs generalizing o with
  | nil => simp at h; subst h; rfl
  | cons v vs ih =>
    rw [List.foldlM_cons] at h
    obtain ⟨o1, h1, h⟩ := Option.bind_eq_some_iff.1 h
    have h1 := filter1_frame o v o1 h1
    have h2 := ih o1 h
    unfold SameButFilters at *
    rw [h2, h1]

theorem filter_accepts (vs : List Str) (o : Options) :
    (vs.foldlM applyFilter1 o).isSome = true ↔ ∀ v ∈ vs, FilterOk v := by
  induction vs generalizing o with
  | nil => simp
  | cons v vs ih =>
    rw [List.foldlM_cons, List.forall_mem_cons]
    cases h : applyFilter1 o v with
    | none =>
      simp
      intro hok
      exfalso
      rcases filter1_cases o v with ⟨x, hp, he⟩ | ⟨x, hp, he⟩ | ⟨x, hp, he⟩ | ⟨x, hp, he⟩ | ⟨he, hn⟩
      · rw [h] at he; cases he
      · rw [h] at he; cases he
      · rw [h] at he; cases he
      · rw [h] at he; cases he
      · exact hn hok
    | some o1 =>
      show (vs.foldlM applyFilter1 o1).isSome = true ↔ _
      rw [ih]
      have : FilterOk v := by
        rcases filter1_cases o v with ⟨x, hp, he⟩ | ⟨x, hp, he⟩ | ⟨x, hp, he⟩ | ⟨x, hp, he⟩ | ⟨he, hn⟩
        · exact .inl ⟨_, x, hp, rfl⟩
        · exact .inr (.inl ⟨_, x, hp, rfl⟩)
        · exact .inr (.inr (.inr ⟨_, x, hp, cut_splitColons x⟩))
        · exact .inr (.inr (.inl ⟨_, hp⟩))
        · rw [h] at he; cases he
      simp [this]

theorem prefix_fold (vs : List Str) (o : Options) :
    vs.foldlM applyPrefix1 o =
      (vs.mapM splitEq).map fun ps => { o with prefixMap := o.prefixMap ++ ps } := by
  induction vs generalizing o with
  | nil => simp
  | cons v vs ih =>
    rw [List.foldlM_cons, List.mapM_cons]
    cases h : splitEq v with
    | none => simp [applyPrefix1, h]
    | some p =>
      simp only [applyPrefix1, h, Option.map_some, Option.bind_eq_bind, Option.bind_some]
      rw [ih]
      cases vs.mapM splitEq <;> simp

end Verif.Opts
