import Verif.File.Unknown
/-!
# The file summary of `print` and `diff` (C55)

The sums are on `Nat`: that the additions of sizes do not exceed 64 bits is not modelled.
-/
namespace Verif.File
open Verif.Item Verif.Types Verif.Range

/-- The four numbers shown for a file (main/src/print/file.rs:357-360, 499-502). -/
structure Summary where
  size : Nat
  fnSize : Nat
  varSize : Nat
  otherSize : Nat
deriving DecidableEq, Repr

/-- The computation of main/src/print/file.rs:345-353 in `print`; `none` is a panic. -/
def File.printSummary (tsz : TypeOffset → Option Nat) (f : File) : Option Summary := do
  let size ← size? (unitRanges tsz f.units)
  let fnSize ← f.functionSize
  let varSize ← f.variableSize tsz
  let other := if fnSize + varSize ≤ size then size - (fnSize + varSize) else 0
  pure ⟨size, fnSize, varSize, other⟩

/-- `a - b` on `u64` in a debug build: `none` is the overflow panic (used at
main/src/print/file.rs:492-493). -/
def checkedSub (a b : Nat) : Option Nat := if b ≤ a then some (a - b) else none

/-- The computation of main/src/print/file.rs:484-493 in `diff`, for one of the two files: `none`
is a panic. -/
def File.diffSummary (tsz : TypeOffset → Option Nat) (f : File) : Option Summary := do
  let size ← size? (unitRanges tsz f.units)
  let fnSize ← f.functionSize
  let varSize ← f.variableSize tsz
  let rest ← checkedSub size fnSize
  let other ← checkedSub rest varSize
  pure ⟨size, fnSize, varSize, other⟩

/-- Both sides (main/src/print/file.rs:484-493): a panic on either side is a panic of `diff`. -/
def diffSummaries (tszA tszB : TypeOffset → Option Nat) (a b : File) : Option (Summary × Summary) := do
  let sa ← a.diffSummary tszA
  let sb ← b.diffSummary tszB
  pure (sa, sb)

/-! ### Specification -/

/-- The address sets a unit contributes to the function and to the variable total: its own
addresses and the alignment padding between two of them. -/
def countedSets (tsz : TypeOffset → Option Nat) (u : CompUnit) : List (Nat → Prop) :=
  [fun x => InFunction u x ∨ PadGap (InFunction u) x,
   fun x => InVariable tsz u x ∨ PadGap (InVariable tsz u) x]

/-- No address is counted twice. -/
def CountedOnce (tsz : TypeOffset → Option Nat) (us : List CompUnit) : Prop :=
  (us.flatMap (countedSets tsz)).Pairwise (fun P Q => ∀ x, ¬ (P x ∧ Q x))

/-! ### Lemmas -/

theorem push_grow (l : List Range) (r : Range) :
    (∀ q ∈ l, ∃ q' ∈ push l r, q'.lo = q.lo ∧ q.hi ≤ q'.hi) ∧
    (∀ q' ∈ push l r, (∃ q ∈ l, q.lo = q'.lo) ∨ (r.lo < r.hi ∧ r.lo = q'.lo)) := by
  rcases eq_nil_or_concat l with rfl | ⟨l, p, rfl⟩
  · rw [push_nil]
    refine ⟨by simp, ?_⟩
    split
    · simp
    · intro q' hq
      simp only [List.mem_singleton] at hq
      subst hq
      exact .inr ⟨by omega, rfl⟩
  · rw [push_concat]
    split
    · exact ⟨fun q hq => ⟨q, hq, rfl, Nat.le_refl _⟩, fun q hq => .inl ⟨q, hq, rfl⟩⟩
    · split
      · constructor
        · intro q hq
          rcases List.mem_append.1 hq with hq | hq
          · exact ⟨q, by simp [hq], rfl, Nat.le_refl _⟩
          · simp only [List.mem_singleton] at hq
            subst hq
            exact ⟨_, List.mem_append_right _ (List.mem_singleton.2 rfl), rfl, Nat.le_max_left _ _⟩
        · intro q' hq
          rcases List.mem_append.1 hq with hq | hq
          · exact .inl ⟨q', by simp [hq], rfl⟩
          · simp only [List.mem_singleton] at hq
            subst hq
            exact .inl ⟨p, by simp, rfl⟩
      · constructor
        · intro q hq; exact ⟨q, List.mem_append_left _ hq, rfl, Nat.le_refl _⟩
        · intro q' hq
          rcases List.mem_append.1 hq with hq | hq
          · exact .inl ⟨q', hq, rfl⟩
          · simp only [List.mem_singleton] at hq
            subst hq
            exact .inr ⟨by omega, rfl⟩

theorem pushAll_grow (l rs : List Range) :
    (∀ q ∈ l, ∃ q' ∈ pushAll l rs, q'.lo = q.lo ∧ q.hi ≤ q'.hi) ∧
    (∀ q' ∈ pushAll l rs, (∃ q ∈ l, q.lo = q'.lo) ∨ ∃ r ∈ rs, r.lo < r.hi ∧ r.lo = q'.lo) := by
  induction rs generalizing l with
  | nil => exact ⟨fun q hq => ⟨q, hq, rfl, Nat.le_refl _⟩, fun q hq => .inl ⟨q, hq, rfl⟩⟩
  | cons r rs ih =>
    show (∀ q ∈ l, ∃ q' ∈ pushAll (push l r) rs, _) ∧ ∀ q' ∈ pushAll (push l r) rs, _
    obtain ⟨h1, h2⟩ := ih (push l r)
    obtain ⟨g1, g2⟩ := push_grow l r
    constructor
    · intro q hq
      obtain ⟨q', hq', e1, e2⟩ := g1 q hq
      obtain ⟨q'', hq'', e3, e4⟩ := h1 q' hq'
      exact ⟨q'', hq'', e3.trans e1, Nat.le_trans e2 e4⟩
    · intro q' hq'
      rcases h2 q' hq' with ⟨q, hq, e⟩ | ⟨r', hr', e⟩
      · rcases g2 q hq with ⟨q0, hq0, e0⟩ | ⟨e0, e1⟩
        · exact .inl ⟨q0, hq0, e0.trans e⟩
        · exact .inr ⟨r, by simp, e0, e1.trans e⟩
      · exact .inr ⟨r', by simp [hr'], e⟩

theorem pushAll_nonempty (rs : List Range) : ∀ r ∈ pushAll [] rs, r.lo < r.hi :=
  fun r hr => ((Inv.nil (B := fun _ => True) (E := fun _ => True) (S := fun _ => True)).pushAll (rs := rs)
    (fun _ _ _ => ⟨trivial, trivial, fun _ _ _ => trivial⟩)).ok r hr |>.1

/-- Adding ranges that begin nowhere in the sorted list does not uncover anything. -/
theorem covers_sort_mono (A rs : List Range) (hA : ∀ r ∈ A, r.lo < r.hi)
    (hd : ∀ r ∈ rs, r.lo < r.hi → ¬ Covers (sort A) r.lo)
    {x : Nat} (h : Covers (sort A) x) : Covers (sort (pushAll A rs)) x := by
  rw [C02_sort_exact] at h ⊢
  rcases h with h | ⟨p, hp, r, hr, h1, h2, h3, h4, h5, h6, h7⟩
  · exact .inl (covers_pushAll (.inl h))
  · by_cases hc : Covers (pushAll A rs) x
    · exact .inl hc
    · obtain ⟨g1, g2⟩ := pushAll_grow A rs
      obtain ⟨p', hp', e1, e2⟩ := g1 p hp
      obtain ⟨r', hr', e3, e4⟩ := g1 r hr
      have hx : p'.hi ≤ x := by
        rcases Nat.lt_or_ge x p'.hi with h | h
        · exact absurd ⟨p', hp', by omega, h⟩ hc
        · exact h
      refine .inr ⟨p', hp', r', hr', by omega, by omega, hx, by omega, by omega, by omega, ?_⟩
      intro q hq hq1 hq2
      rcases g2 q hq with ⟨q0, hq0, e⟩ | ⟨q0, hq0, e0, e⟩
      · have := h7 q0 hq0 (hA q0 hq0) (by omega); omega
      · rcases Nat.lt_or_ge q.lo r.lo with hlt | hge
        · exfalso
          apply hd q0 hq0 e0
          rw [e, C02_sort_exact]
          exact .inr ⟨p, hp, r, hr, h1, h2, by omega, by omega, h5, h6,
            fun q hq hq1 hq2 => h7 q hq hq1 (by omega)⟩
        · omega

/-- Pushing the same ranges onto a non-empty list covers at least as much. -/
theorem covers_pushAll_mono (B L rs : List Range)
    (hl : ∀ B' q, B = B' ++ [q] → ∃ L' p, L = L' ++ [p] ∧ p.lo ≤ q.lo ∧ q.hi ≤ p.hi)
    (hc : ∀ x, Covers B x → Covers L x) : ∀ x, Covers (pushAll B rs) x → Covers (pushAll L rs) x := by
  induction rs generalizing B L with
  | nil => exact hc
  | cons r rs ih =>
    refine ih (push B r) (push L r) ?_ ?_
    · intro B' q hB
      by_cases hr : r.hi ≤ r.lo
      · have e1 : push B r = B := by simp [push, hr]
        have e2 : push L r = L := by simp [push, hr]
        rw [e1] at hB; rw [e2]
        exact hl B' q hB
      · have key : q.lo = r.lo ∧ q.hi = r.hi ∨ ∃ B0 q0, B = B0 ++ [q0] ∧ q.lo = q0.lo ∧
            q.hi = max q0.hi r.hi ∧ q0.lo ≤ r.lo ∧ r.lo ≤ q0.hi + padding r.lo := by
          rcases eq_nil_or_concat B with rfl | ⟨B0, q0, rfl⟩
          · rw [push_nil, if_neg hr] at hB
            have : [r] = [] ++ [r] := rfl
            rw [this] at hB
            have := (List.append_inj' hB rfl).2
            simp only [List.cons.injEq, and_true] at this
            subst this; exact .inl ⟨rfl, rfl⟩
          · rw [push_concat, if_neg hr] at hB
            split at hB
            · rename_i hm
              have := (List.append_inj' hB rfl).2
              simp only [List.cons.injEq, and_true] at this
              subst this
              exact .inr ⟨B0, q0, rfl, rfl, rfl, hm⟩
            · have := (List.append_inj' hB rfl).2
              simp only [List.cons.injEq, and_true] at this
              subst this; exact .inl ⟨rfl, rfl⟩
        rcases eq_nil_or_concat L with rfl | ⟨L0, p0, rfl⟩
        · rcases key with ⟨e1, e2⟩ | ⟨B0, q0, e, _⟩
          · exact ⟨[], r, by rw [push_nil, if_neg hr]; rfl, by omega, by omega⟩
          · obtain ⟨L', p, h, _⟩ := hl B0 q0 e
            simp at h
        · rw [push_concat, if_neg hr]
          rcases key with ⟨e1, e2⟩ | ⟨B0, q0, e, e1, e2, e3, e4⟩
          · split
            · exact ⟨L0, _, rfl, by simp; omega, by simp; omega⟩
            · exact ⟨_, r, rfl, by omega, by omega⟩
          · obtain ⟨L', p, h, h1, h2⟩ := hl B0 q0 e
            have := (List.append_inj' h rfl).2
            simp only [List.cons.injEq, and_true] at this
            subst this
            rw [if_pos ⟨by omega, by omega⟩]
            exact ⟨L0, _, rfl, by simp; omega, by simp; omega⟩
    · intro x hx
      have : Covers B x ∨ (r.lo ≤ x ∧ x < r.hi) ∨
          ∃ B0 q0, B = B0 ++ [q0] ∧ ¬ r.hi ≤ r.lo ∧ q0.lo ≤ r.lo ∧ r.lo ≤ q0.hi + padding r.lo ∧
            q0.lo ≤ x ∧ x < max q0.hi r.hi := by
        rcases eq_nil_or_concat B with rfl | ⟨B0, q0, rfl⟩
        · rw [push_nil] at hx
          split at hx
          · simp at hx
          · simp at hx; exact .inr (.inl hx)
        · rw [push_concat] at hx
          split at hx
          · exact .inl hx
          · split at hx
            · rename_i h1 h2
              rcases covers_append.1 hx with h | h
              · exact .inl (covers_append.2 (.inl h))
              · rw [covers_cons] at h
                simp only [covers_nil, or_false] at h
                exact .inr (.inr ⟨B0, q0, rfl, h1, h2.1, h2.2, h⟩)
            · rcases covers_append.1 hx with h | h
              · exact .inl h
              · rw [covers_cons] at h
                simp only [covers_nil, or_false] at h
                exact .inr (.inl h)
      rcases this with h | h | ⟨B0, q0, e, h1, h2, h3, h4, h5⟩
      · exact covers_push_of_covers (hc x h)
      · exact covers_push_of_mem h
      · obtain ⟨L0, p, e', h6, h7⟩ := hl B0 q0 e
        subst e'
        rw [push_concat, if_neg h1, if_pos ⟨by omega, by omega⟩]
        refine covers_append.2 (.inr ?_)
        rw [covers_cons]
        exact .inl ⟨by simp; omega, by simp; omega⟩

/-- The other way round: ranges pushed earlier that begin nowhere in what the later ones cover on
their own do not uncover anything either. -/
theorem covers_sort_mono_right (A rs : List Range)
    (hd : ∀ r ∈ A, ¬ Covers (sort (pushAll [] rs)) r.lo)
    {x : Nat} (h : Covers (sort (pushAll [] rs)) x) : Covers (sort (pushAll A rs)) x := by
  have hcov : ∀ x, Covers (pushAll [] rs) x → Covers (pushAll A rs) x :=
    covers_pushAll_mono [] A rs (fun B' q h => by simp at h) (fun x h => absurd h covers_nil)
  by_cases hc : Covers (pushAll A rs) x
  · exact covers_sort_of_covers hc
  rw [C02_sort_exact] at h ⊢
  rcases h with h | ⟨p, hp, r, hr, h1, h2, h3, h4, h5, h6, h7⟩
  · exact .inl (hcov x h)
  · obtain ⟨g1, g2⟩ := pushAll_grow A rs
    obtain ⟨P, hP, hP1, hP2⟩ := hcov (p.hi - 1) ⟨p, hp, by omega, by omega⟩
    obtain ⟨R, hR, hR1, hR2⟩ := hcov r.lo ⟨r, hr, by omega, by omega⟩
    have nc : ∀ q ∈ pushAll A rs, q.lo ≤ x → q.hi ≤ x := by
      intro q hq hlo
      rcases Nat.lt_or_ge x q.hi with h | h
      · exact absurd ⟨q, hq, hlo, h⟩ hc
      · exact h
    have hPx := nc P hP (by omega)
    have hRx : x < R.lo := by
      rcases Nat.lt_or_ge x R.lo with h | h
      · exact h
      · have := nc R hR h; omega
    have min : ∀ q ∈ pushAll A rs, x < q.lo → r.lo ≤ q.lo := by
      intro q hq hq2
      rcases Nat.lt_or_ge q.lo r.lo with hlt | hge
      · exfalso
        rcases g2 q hq with ⟨q0, hq0, e⟩ | ⟨v, hv, e0, e⟩
        · apply hd q0 hq0
          rw [e, C02_sort_exact]
          exact .inr ⟨p, hp, r, hr, h1, h2, by omega, by omega, h5, h6,
            fun q hq hq1 hq2 => h7 q hq hq1 (by omega)⟩
        · obtain ⟨Q, hQ, hQ1, hQ2⟩ : Covers (pushAll [] rs) v.lo :=
            covers_pushAll (.inr ⟨v, hv, by omega, by omega⟩)
          rcases Nat.lt_or_ge x Q.lo with h | h
          · have := h7 Q hQ (by omega) h; omega
          · exact hc (hcov x ⟨Q, hQ, h, by omega⟩)
      · exact hge
    have := min R hR hRx
    have hRlo : R.lo = r.lo := by omega
    exact .inr ⟨P, hP, R, hR, by omega, by omega, hPx, by omega, by omega, by omega,
      fun q hq _ hq2 => by have := min q hq hq2; omega⟩

/-- The function addresses of a unit, as counted by `Unit::function_size`. -/
def fnList (u : CompUnit) : List Range := sort (pushAll [] u.functionRanges)

/-- The variable addresses of a unit, as counted by `Unit::variable_size`. -/
def varList (tsz : TypeOffset → Option Nat) (u : CompUnit) : List Range :=
  sort (pushAll [] (u.variableRanges tsz))

theorem covers_padded (rs : List Range) (S : Nat → Prop) (hS : ∀ x, Covers rs x ↔ S x) (x : Nat)
    (h : Covers (sort (pushAll [] rs)) x) : S x ∨ PadGap S x := by
  rcases C02_only_padding_invented rs x h with h | ⟨p, hp, r, hr, h1, h2, h3, h4, h5, h6⟩
  · exact .inl ((hS x).1 h)
  · exact .inr ⟨p.hi - 1, r.lo, (hS _).1 ⟨p, hp, by omega, by omega⟩,
      (hS _).1 ⟨r, hr, by omega, by omega⟩, by omega, h4, h5, by omega⟩

theorem known_covers (tsz : TypeOffset → Option Nat) (u : CompUnit)
    (hd : ∀ x, ¬ (Covers (fnList u) x ∧ Covers (varList tsz u) x)) (x : Nat)
    (h : Covers (fnList u) x ∨ Covers (varList tsz u) x) : Covers (u.knownRanges tsz) x := by
  rcases h with h | h
  · refine covers_sort_mono _ _ (pushAll_nonempty _) (fun r hr hne hc => hd r.lo ⟨hc, ?_⟩) h
    exact (C02_no_address_lost _ _ ⟨r, hr, by omega, by omega⟩).2
  · refine covers_sort_mono_right _ _ (fun r hr hc => hd r.lo ⟨?_, hc⟩) h
    have := pushAll_nonempty _ r hr
    exact covers_sort_of_covers ⟨r, hr, by omega, by omega⟩

theorem unitRanges_covers (tsz : TypeOffset → Option Nat) (us : List CompUnit) (u : CompUnit)
    (hu : u ∈ us) (x : Nat) (h : Covers (u.knownRanges tsz) x) : Covers (unitRanges tsz us) x := by
  unfold unitRanges
  apply covers_sort_of_covers
  have mono : ∀ (us : List CompUnit) (acc : RangeList), Covers acc x →
      Covers (us.foldl (fun acc u => pushAll (pushAll acc (u.knownRanges tsz)) (u.unknownRanges tsz)) acc) x := by
    intro us
    induction us with
    | nil => exact fun acc h => h
    | cons v us ih => exact fun acc h => ih _ (covers_pushAll (.inl (covers_pushAll (.inl h))))
  have go : ∀ (us : List CompUnit) (acc : RangeList), u ∈ us →
      Covers (us.foldl (fun acc u => pushAll (pushAll acc (u.knownRanges tsz)) (u.unknownRanges tsz)) acc) x := by
    intro us
    induction us with
    | nil => exact fun acc h => by simp at h
    | cons v us ih =>
      intro acc hu
      rcases List.mem_cons.1 hu with e | hu
      · subst e
        exact mono us _ (covers_pushAll (.inl (covers_pushAll (.inr h))))
      · exact ih _ hu
  exact go us [] hu

theorem sum_covered (Ls : List (List Range)) (n : Nat)
    (hd : Ls.Pairwise (fun a b => ∀ x, ¬ (Covers a x ∧ Covers b x))) :
    (Ls.map (coveredBelow · n)).sum =
      (List.range n).countP (fun x => Ls.any fun l => l.any (fun r => decide (r.lo ≤ x ∧ x < r.hi))) := by
  induction Ls with
  | nil => simp
  | cons L Ls ih =>
    obtain ⟨h1, h2⟩ := List.pairwise_cons.1 hd
    simp only [List.map_cons, List.sum_cons, List.any_cons, ih h2]
    rw [countP_or_disjoint]
    · rfl
    · rintro x _ ⟨ha, hb⟩
      rw [covers_iff_any] at ha
      rw [List.any_eq_true] at hb
      obtain ⟨l, hl, hb⟩ := hb
      rw [covers_iff_any] at hb
      exact h1 l hl x ⟨ha, hb⟩

theorem foldlM_sum (us : List CompUnit) (g : CompUnit → Option Nat) (h : CompUnit → Nat) (acc : Nat)
    (hg : ∀ u ∈ us, g u = some (h u)) :
    us.foldlM (fun s u => (g u).map (s + ·)) acc = some (acc + (us.map h).sum) := by
  induction us generalizing acc with
  | nil => simp
  | cons u us ih =>
    rw [List.foldlM_cons, hg u (by simp)]
    simp only [Option.map_some, Option.bind_eq_bind, Option.bind_some]
    rw [ih _ (fun v hv => hg v (by simp [hv]))]
    simp; omega

theorem bound_list (l : List Range) : ∃ n, ∀ r ∈ l, r.hi ≤ n := by
  induction l with
  | nil => exact ⟨0, by simp⟩
  | cons r l ih =>
    obtain ⟨n, hn⟩ := ih
    refine ⟨max r.hi n, fun q hq => ?_⟩
    rcases List.mem_cons.1 hq with rfl | hq
    · omega
    · have := hn q hq; omega

theorem sizes_eq (tsz : TypeOffset → Option Nat) (f : File) : ∃ n,
    size? (unitRanges tsz f.units) = some (coveredBelow (unitRanges tsz f.units) n) ∧
    f.functionSize = some ((f.units.map fun u => coveredBelow (fnList u) n).sum) ∧
    f.variableSize tsz = some ((f.units.map fun u => coveredBelow (varList tsz u) n).sum) := by
  obtain ⟨n, hn⟩ := bound_list (unitRanges tsz f.units ++
    f.units.flatMap (fun u => fnList u ++ varList tsz u))
  refine ⟨n, size_eq_covered (canonical_sort _) n (fun r hr => hn r (List.mem_append_left _ hr)), ?_, ?_⟩
  · have := foldlM_sum f.units (fun u => u.functionSize) (fun u => coveredBelow (fnList u) n) 0
      (fun u hu => size_eq_covered (canonical_sort _) n (fun r hr => hn r (by
        refine List.mem_append_right _ (List.mem_flatMap.2 ⟨u, hu, List.mem_append_left _ hr⟩))))
    simpa [File.functionSize] using this
  · have := foldlM_sum f.units (fun u => u.variableSize tsz) (fun u => coveredBelow (varList tsz u) n) 0
      (fun u hu => size_eq_covered (canonical_sort _) n (fun r hr => hn r (by
        refine List.mem_append_right _ (List.mem_flatMap.2 ⟨u, hu, List.mem_append_right _ hr⟩))))
    simpa [File.variableSize] using this

theorem sum_pairs (us : List CompUnit) (a b : CompUnit → Nat) :
    (us.map a).sum + (us.map b).sum = (us.flatMap fun u => [a u, b u]).sum := by
  induction us with
  | nil => rfl
  | cons u us ih => simp only [List.map_cons, List.sum_cons, List.flatMap_cons, List.sum_append,
      List.sum_nil, ← ih]; omega

theorem printSummary_eq {tsz : TypeOffset → Option Nat} {f : File} {S F V : Nat}
    (h1 : size? (unitRanges tsz f.units) = some S) (h2 : f.functionSize = some F)
    (h3 : f.variableSize tsz = some V) :
    f.printSummary tsz = some ⟨S, F, V, if F + V ≤ S then S - (F + V) else 0⟩ := by
  unfold File.printSummary
  rw [h1, h2, h3]
  rfl

theorem diffSummary_eq {tsz : TypeOffset → Option Nat} {f : File} {S F V : Nat}
    (h1 : size? (unitRanges tsz f.units) = some S) (h2 : f.functionSize = some F)
    (h3 : f.variableSize tsz = some V) :
    f.diffSummary tsz = if F + V ≤ S then some ⟨S, F, V, S - (F + V)⟩ else none := by
  unfold File.diffSummary
  rw [h1, h2, h3]
  simp only [checkedSub, Option.bind_eq_bind, Option.bind_some]
  by_cases h : F + V ≤ S
  · rw [if_pos h, if_pos (by omega : F ≤ S)]
    simp only [Option.bind_some]
    rw [if_pos (by omega : V ≤ S - F)]
    simp only [Option.bind_some, Option.pure_def, Option.some.injEq, Summary.mk.injEq, true_and]
    omega
  · rw [if_neg h]
    split
    · simp only [Option.bind_some]
      rw [if_neg (by omega)]; rfl
    · rfl

/-! ### C55 -/

/-- **C55 (print).** Printing a file never fails on the summary; the total is the size of the
file's ranges, and function, variable and other size add up to it unless functions and variables
together exceed it, in which case the other size is shown as 0. -/
theorem C55_print (tsz : TypeOffset → Option Nat) (f : File) :
    ∃ s, f.printSummary tsz = some s ∧ size? (unitRanges tsz f.units) = some s.size ∧
      f.functionSize = some s.fnSize ∧ f.variableSize tsz = some s.varSize ∧
      ((s.fnSize + s.varSize + s.otherSize = s.size) ∨
       (s.size < s.fnSize + s.varSize ∧ s.otherSize = 0)) := by
  obtain ⟨n, h1, h2, h3⟩ := sizes_eq tsz f
  refine ⟨_, printSummary_eq h1 h2 h3, h1, h2, h3, ?_⟩
  simp only
  split
  · left; omega
  · right; exact ⟨by omega, rfl⟩

/-- **C55 (diff).** Diffing two files gets past the summary exactly if, on both sides, functions
and variables together do not exceed the total; it then shows the same numbers as printing, and
they add up. -/
theorem C55_diff (tszA tszB : TypeOffset → Option Nat) (a b : File) :
    ∃ sa sb, a.printSummary tszA = some sa ∧ b.printSummary tszB = some sb ∧
      ((sa.fnSize + sa.varSize ≤ sa.size ∧ sb.fnSize + sb.varSize ≤ sb.size ∧
        diffSummaries tszA tszB a b = some (sa, sb)) ∨
       ((sa.size < sa.fnSize + sa.varSize ∨ sb.size < sb.fnSize + sb.varSize) ∧
        diffSummaries tszA tszB a b = none)) := by
  have one : ∀ (tsz : TypeOffset → Option Nat) (f : File), ∃ s, f.printSummary tsz = some s ∧
      f.diffSummary tsz = if s.fnSize + s.varSize ≤ s.size then some s else none := by
    intro tsz f
    obtain ⟨n, h1, h2, h3⟩ := sizes_eq tsz f
    refine ⟨_, printSummary_eq h1 h2 h3, ?_⟩
    rw [diffSummary_eq h1 h2 h3]
    simp only
    split <;> rfl
  obtain ⟨sa, ha, ha'⟩ := one tszA a
  obtain ⟨sb, hb, hb'⟩ := one tszB b
  refine ⟨sa, sb, ha, hb, ?_⟩
  unfold diffSummaries
  rw [ha', hb']
  by_cases h1 : sa.fnSize + sa.varSize ≤ sa.size
  · by_cases h2 : sb.fnSize + sb.varSize ≤ sb.size
    · left; rw [if_pos h1, if_pos h2]; exact ⟨h1, h2, rfl⟩
    · right; rw [if_pos h1, if_neg h2]; exact ⟨.inr (by omega), rfl⟩
  · right; rw [if_neg h1]; exact ⟨.inl (by omega), rfl⟩

/-- **C55 (consistent files).** If no address is counted twice (as function and variable, or in two
units), functions and variables fit in the total: printing and diffing show parts that add up. -/
theorem C55_counted_once (tsz : TypeOffset → Option Nat) (f : File)
    (h : CountedOnce tsz f.units) :
    ∃ s, f.printSummary tsz = some s ∧ f.diffSummary tsz = some s ∧
      s.fnSize + s.varSize + s.otherSize = s.size := by
  have hdl : (f.units.flatMap fun u => [fnList u, varList tsz u]).Pairwise
      (fun a b => ∀ x, ¬ (Covers a x ∧ Covers b x)) := by
    have e1 : (f.units.flatMap fun u => [fnList u, varList tsz u]) =
        (f.units.flatMap fun u => [(fnList u, fun x => InFunction u x ∨ PadGap (InFunction u) x),
          (varList tsz u, fun x => InVariable tsz u x ∨ PadGap (InVariable tsz u) x)]).map Prod.fst := by
      simp [List.map_flatMap]
    have e2 : (f.units.flatMap (countedSets tsz)) =
        (f.units.flatMap fun u => [(fnList u, fun x => InFunction u x ∨ PadGap (InFunction u) x),
          (varList tsz u, fun x => InVariable tsz u x ∨ PadGap (InVariable tsz u) x)]).map Prod.snd := by
      simp [List.map_flatMap]; rfl
    unfold CountedOnce at h
    rw [e2, List.pairwise_map] at h
    rw [e1, List.pairwise_map]
    refine h.imp_of_mem ?_
    have sub : ∀ z ∈ (f.units.flatMap fun u =>
        [(fnList u, fun x => InFunction u x ∨ PadGap (InFunction u) x),
          (varList tsz u, fun x => InVariable tsz u x ∨ PadGap (InVariable tsz u) x)]),
        ∀ x, Covers z.1 x → z.2 x := by
      intro z hz x hx
      obtain ⟨u, hu, hz⟩ := List.mem_flatMap.1 hz
      simp only [List.mem_cons, List.not_mem_nil, or_false] at hz
      rcases hz with rfl | rfl
      · exact covers_padded _ _ (covers_functionRanges u) x hx
      · exact covers_padded _ _ (covers_variableRanges tsz u) x hx
    intro y z hy hz hyz x ⟨hx1, hx2⟩
    exact hyz x ⟨sub y hy x hx1, sub z hz x hx2⟩
  obtain ⟨n, h1, h2, h3⟩ := sizes_eq tsz f
  have hle : (f.units.map fun u => coveredBelow (fnList u) n).sum +
      (f.units.map fun u => coveredBelow (varList tsz u) n).sum ≤
      coveredBelow (unitRanges tsz f.units) n := by
    rw [sum_pairs]
    have : (f.units.flatMap fun u => [coveredBelow (fnList u) n, coveredBelow (varList tsz u) n]) =
        (f.units.flatMap fun u => [fnList u, varList tsz u]).map (coveredBelow · n) := by
      simp [List.map_flatMap]
    rw [this, sum_covered _ _ hdl]
    unfold coveredBelow
    apply List.countP_mono_left
    intro x _ hx
    rw [List.any_eq_true] at hx
    obtain ⟨l, hl, hx⟩ := hx
    rw [covers_iff_any] at hx ⊢
    obtain ⟨u, hu, hl⟩ := List.mem_flatMap.1 hl
    refine unitRanges_covers tsz _ u hu x (known_covers tsz u ?_ x ?_)
    · obtain ⟨l1, l2, e⟩ := List.append_of_mem hu
      rw [e, List.flatMap_append, List.flatMap_cons] at hdl
      have := (List.pairwise_append.1 (List.pairwise_append.1 hdl).2.1).1
      simpa using this
    · simp only [List.mem_cons, List.not_mem_nil, or_false] at hl
      rcases hl with rfl | rfl
      · exact .inl hx
      · exact .inr hx
  refine ⟨_, printSummary_eq h1 h2 h3, ?_, ?_⟩
  · rw [diffSummary_eq h1 h2 h3, if_pos hle, if_pos hle]
  · simp only
    rw [if_pos hle]; omega

/-- Finding (C55): a file with two copies of the same function (the usual inline function emitted
in two units) counts it twice: printing shows other size 0, diffing panics. -/
theorem C55_diff_panics : ∃ f : File, ∀ tsz,
    f.printSummary tsz = some ⟨10, 20, 0, 0⟩ ∧ ∀ g tszB, diffSummaries tsz tszB f g = none ∧
      diffSummaries tszB tsz g f = none := by
  let u : CompUnit := { functions := [{ ranges := [⟨100, 110⟩] }] }
  have hp : ∀ tsz, ({ units := [u, u] } : File).printSummary tsz = some ⟨10, 20, 0, 0⟩ := by
    intro tsz
    have e : unitRanges tsz [u, u] = [⟨100, 110⟩] := by
      unfold unitRanges
      have hk : u.knownRanges tsz = [⟨100, 110⟩] := rfl
      have hu : u.unknownRanges tsz = [] := by
        unfold CompUnit.unknownRanges subtract
        rw [subtractLoop_eq, hk]
        show sort (pushAll [] (pieces [] _)) = []
        rw [pieces]; rfl
      simp only [List.foldl_cons, List.foldl_nil, hk, hu]; rfl
    unfold File.printSummary
    simp only [e]; rfl
  refine ⟨{ units := [u, u] }, fun tsz => ⟨hp tsz, fun g tszB => ?_⟩⟩
  constructor
  · obtain ⟨sa, sb, ha, _, h⟩ := C55_diff tsz tszB { units := [u, u] } g
    rw [hp tsz] at ha; cases ha
    rcases h with ⟨h, _⟩ | ⟨_, h⟩
    · simp at h
    · exact h
  · obtain ⟨sa, sb, _, ha, h⟩ := C55_diff tszB tsz g { units := [u, u] }
    rw [hp tsz] at ha; cases ha
    rcases h with ⟨_, h, _⟩ | ⟨_, h⟩
    · simp at h
    · exact h

/-- Non-vacuity of `C55_counted_once`: a function with padding after it, a second one, and a
variable elsewhere. -/
example : CountedOnce (fun _ => none)
    [{ functions := [{ ranges := [⟨100, 110⟩] }, { ranges := [⟨112, 120⟩] }]
       variables := [{ address := some 200, size := some 8 }] }] := by
  unfold CountedOnce
  simp only [List.flatMap_cons, List.flatMap_nil, List.append_nil, countedSets, List.pairwise_cons,
    List.mem_cons, List.not_mem_nil, or_false, forall_eq, false_implies, implies_true, List.Pairwise.nil,
    and_true, InFunction, InVariable, PadGap, exists_eq_or_imp, exists_eq_left]
  rintro x ⟨hf, hv⟩
  have hfx : x < 120 := by
    rcases hf with h | ⟨p, r, _, hr, _, h2, _⟩
    · omega
    · omega
  have hvx : 200 ≤ x := by
    rcases hv with ⟨a, n, ha, h, _⟩ | ⟨p, r, hp, _, h1, _⟩
    · simp at ha; omega
    · obtain ⟨a, n, ha, h, _⟩ := hp
      simp at ha; omega
  omega

end Verif.File
