import Verif.Layout.Lemmas
/-!
# Property theorems C14-C16, C65 (layouts and variants)
-/
namespace Verif.Layout
open Verif.Sentinel Verif.Types

/-- **C14.** If the members, bases and variant parts have known sizes, do not overlap and fit the
struct (of known size, with at least one item), the layout tiles the struct from 0 to its size. -/
theorem C14_layout_tiles (ms : List Member) (is : List Inherit) (vs : List VariantPart)
    (base total : Nat) (sz : TypeOffset → Option Nat)
    (hne : inputs ms is vs base sz ≠ [])
    (hknown : ∀ x ∈ inputs ms is vs base sz, ∃ n, x.bitSize.get = some n)
    (hdisj : (inputs ms is vs base sz).Pairwise Disjoint)
    (hfit : ∀ x ∈ inputs ms is vs base sz, ∀ n, x.bitSize.get = some n → x.bitOffset + n ≤ total)
    (hb : total < top) :
    Tiles 0 (layout ms is vs base (some total) sz) total := by
  unfold layout
  rw [layoutItems_eq]
  have hsorted := stableSort_sorted itemLe_total (inputs ms is vs base sz)
  have hperm := stableSort_perm itemLe (inputs ms is vs base sz)
  generalize inputs ms is vs base sz = l at *
  have hk' : ∀ y ∈ stableSort itemLe l, ∃ n, y.bitSize.get = some n :=
    fun y hy => hknown y ((mem_stableSort _).1 hy)
  have hf' : ∀ y ∈ stableSort itemLe l, ∀ n, y.bitSize.get = some n → y.bitOffset + n ≤ total :=
    fun y hy => hfit y ((mem_stableSort _).1 hy)
  have hd' : (stableSort itemLe l).Pairwise Disjoint :=
    (hperm.pairwise_iff (fun h n m h1 h2 => (h m n h2 h1).symm)).2 hdisj
  have hends := ends_before hk' hsorted hd'
  have hb' : ∀ y ∈ stableSort itemLe l, y.bitOffset < top := by
    intro y hy
    obtain ⟨n, hn⟩ := hk' y hy
    have := hf' y hy n hn
    omega
  cases hl : stableSort itemLe l with
  | nil =>
    rw [hl] at hperm
    exact absurd (List.nil_perm.1 hperm) hne
  | cons x xs =>
    rw [hl] at hk' hends hb' hf'
    have ht := tiles_fwd x xs (some total) total hk' hends ⟨rfl, hb, hf'⟩ hb'
    unfold lead
    simp only []
    split
    · simp only [List.cons_append, List.nil_append, Tiles, true_and]
      exact ⟨_, get_new (by have := hb' x (by simp); omega), by simpa using ht⟩
    · have : x.bitOffset = 0 := by omega
      rw [this] at ht
      simpa using ht

/-- Non-vacuity of C14: members at bits 32..40 and 0..8 of a 64-bit struct. -/
example : layout [⟨1, none, none, 32, ⟨8⟩⟩, ⟨2, none, none, 8, ⟨8⟩⟩] [] [] 0 (some 64)
      (fun _ => none) =
    [⟨0, ⟨8⟩, .padding⟩, ⟨8, ⟨8⟩, .member ⟨2, none, none, 8, ⟨8⟩⟩⟩, ⟨16, ⟨16⟩, .padding⟩,
      ⟨32, ⟨8⟩, .member ⟨1, none, none, 32, ⟨8⟩⟩⟩, ⟨40, ⟨24⟩, .padding⟩] := by decide

/-- **C14 (structs).** The layout of a struct whose size is known, counted in bits. -/
theorem C14_struct_tiles (ms : List Member) (is : List Inherit) (vs : List VariantPart)
    (byteSize : Size) (bytes : Nat) (sz : TypeOffset → Option Nat)
    (hsize : byteSize.get = some bytes)
    (hne : inputs ms is vs 0 sz ≠ [])
    (hknown : ∀ x ∈ inputs ms is vs 0 sz, ∃ n, x.bitSize.get = some n)
    (hdisj : (inputs ms is vs 0 sz).Pairwise Disjoint)
    (hfit : ∀ x ∈ inputs ms is vs 0 sz, ∀ n, x.bitSize.get = some n → x.bitOffset + n ≤ 8 * bytes)
    (hb : 8 * bytes < top) :
    Tiles 0 (structLayout ms is vs byteSize sz) (8 * bytes) := by
  have : structLayout ms is vs byteSize sz = layout ms is vs 0 (some (8 * bytes)) sz := by
    simp [structLayout, hsize, Nat.mul_comm]
  rw [this]
  exact C14_layout_tiles ms is vs 0 (8 * bytes) sz hne hknown hdisj hfit hb

/-- Non-vacuity: a byte at offset 2 and an `int` at offset 4 of an 8-byte struct. -/
example : structLayout [⟨1, none, some 7, 16, .none⟩, ⟨2, none, some 8, 32, .none⟩] [] [] ⟨8⟩
      (fun t => if t = some 7 then some 1 else some 4) =
    [⟨0, ⟨16⟩, .padding⟩, ⟨16, ⟨8⟩, .member ⟨1, none, some 7, 16, .none⟩⟩,
      ⟨24, ⟨8⟩, .padding⟩, ⟨32, ⟨32⟩, .member ⟨2, none, some 8, 32, .none⟩⟩] := by decide

/-- **C16 (members).** A member is as large as it declares (a bit-field), or else as its type. -/
theorem C16_member_size (m : Member) (sz : TypeOffset → Option Nat) (n : Nat) :
    memberBitSize sz m = some n ↔ MemberBits sz m n := by
  unfold memberBitSize MemberBits
  cases h : m.bitSize.get with
  | some k =>
    have : m.bitSize.isSome = true := by
      simp only [Opt64.get] at h
      split at h
      · cases h
      · rename_i hn; simpa [Opt64.isSome, Opt64.isNone] using hn
    simp [this]
  | none =>
    have : m.bitSize.isSome = false := by
      simp only [Opt64.get] at h
      split at h
      · rename_i hn; simpa [Opt64.isSome, Opt64.isNone] using hn
      · cases h
    simp only [this, Bool.false_eq_true, if_false, Option.map_eq_some_iff, reduceCtorEq, false_or,
      true_and]
    constructor
    · rintro ⟨k, h1, rfl⟩; exact ⟨k, h1, Nat.mul_comm _ _⟩
    · rintro ⟨k, h1, rfl⟩; exact ⟨k, h1, Nat.mul_comm _ _⟩

/-- **C15.** For every list of items the layout without its padding is the stable sort of the
items by (offset, size), so each item occurs exactly once. -/
theorem C15_layout_has_every_item (ms : List Member) (is : List Inherit) (vs : List VariantPart)
    (base : Nat) (total : Option Nat) (sz : TypeOffset → Option Nat) :
    let items := (layout ms is vs base total sz).filter (fun x => decide (x.item ≠ .padding))
    items.Perm (inputs ms is vs base sz) ∧
    items.Pairwise (fun a b => a.bitOffset < b.bitOffset ∨
      (a.bitOffset = b.bitOffset ∧ a.bitSize.raw ≤ b.bitSize.raw)) ∧
    (∀ o s, items.filter (fun x => x.bitOffset == o && x.bitSize == s) =
      (inputs ms is vs base sz).filter (fun x => x.bitOffset == o && x.bitSize == s)) := by
  intro items
  have e : items = stableSort itemLe (inputs ms is vs base sz) := by
    simp only [items, layout]
    rw [layoutItems_eq, List.filter_append, filter_lead, List.nil_append]
    exact filter_fwd _ _ (fun x hx => inputs_not_padding ((mem_stableSort _).1 hx))
  rw [e]
  refine ⟨stableSort_perm _ _, ?_, ?_⟩
  · exact (stableSort_sorted itemLe_total _).imp (fun h => (itemLe_iff _ _).1 h)
  · intro o s
    have := stableSort_stable itemLe_total ⟨o, s, .padding⟩ (inputs ms is vs base sz)
    have hp : ∀ y : Layout, (itemLe y ⟨o, s, .padding⟩ && itemLe ⟨o, s, .padding⟩ y) =
        (y.bitOffset == o && y.bitSize == s) := by
      intro y
      rw [Bool.eq_iff_iff]
      simp only [Bool.and_eq_true, itemLe_iff, beq_iff_eq]
      have hr : y.bitSize = s ↔ y.bitSize.raw = s.raw := by
        constructor
        · intro h; rw [h]
        · intro h; cases hy : y.bitSize; cases s; simp_all
      rw [hr]; omega
    simpa only [hp] using this

/-- **C15 (entries).** An entry of the layout that is not padding stands for a member, base or
variant part; if its size is given, that entry is at the bits the item occupies, and every item
whose size is known (and is not the largest `u64`) has such an entry. -/
theorem C15_entries (ms : List Member) (is : List Inherit) (vs : List VariantPart)
    (base : Nat) (total : Option Nat) (sz : TypeOffset → Option Nat) (x : LayoutItem) (o n : Nat)
    (hp : x ≠ .padding) (hn : n < top) :
    (∃ e ∈ layout ms is vs base total sz, e.item = x ∧ e.bitOffset = o ∧ e.bitSize.get = some n) ↔
      Occupies ms is vs base sz x o n := by
  have hperm := (C15_layout_has_every_item ms is vs base total sz).1
  have hmem : ∀ e : Layout, e.item = x →
      (e ∈ layout ms is vs base total sz ↔ e ∈ inputs ms is vs base sz) := by
    intro e he
    rw [← hperm.mem_iff, List.mem_filter]
    simp [he, hp]
  have hof : ∀ s : Option Nat, (Opt64.ofOption s).get = some n ↔ s = some n := by
    intro s
    have hne : n ≠ top := by omega
    cases s with
    | none => simp [Opt64.ofOption, Opt64.get, Opt64.isNone]
    | some k =>
      by_cases hk : k = top
      · subst hk
        have : (Opt64.ofOption (some top)).get = none := by decide
        rw [this]; simp; omega
      · rw [show Opt64.ofOption (some k) = Opt64.new k from rfl, get_new hk]
  constructor
  · rintro ⟨e, he, hx, ho, hs⟩
    rw [hmem e hx] at he
    simp only [inputs, List.mem_append, List.mem_map] at he
    rcases he with (⟨m, hm, rfl⟩ | ⟨i, hi, rfl⟩) | ⟨v, hv, rfl⟩
    · subst hx ho
      exact .member hm ((C16_member_size m sz n).1 ((hof _).1 hs))
    · subst hx ho
      obtain ⟨k, h1, rfl⟩ := Option.map_eq_some_iff.1 ((hof _).1 hs)
      rw [Nat.mul_comm]
      exact .inherit hi h1
    · subst hx ho
      exact .variantPart hv ((hof _).1 hs)
  · intro h
    cases h with
    | member hm hb =>
      refine ⟨_, (hmem _ rfl).2 (List.mem_append_left _ (List.mem_append_left _
        (List.mem_map.2 ⟨_, hm, rfl⟩))), rfl, rfl, (hof _).2 ((C16_member_size _ sz n).2 hb)⟩
    | inherit hi hk =>
      refine ⟨_, (hmem _ rfl).2 (List.mem_append_left _ (List.mem_append_right _
        (List.mem_map.2 ⟨_, hi, rfl⟩))), rfl, rfl, (hof _).2 ?_⟩
      simp [inheritBitSize, hk, Nat.mul_comm]
    | variantPart hv hs =>
      exact ⟨_, (hmem _ rfl).2 (List.mem_append_right _
        (List.mem_map.2 ⟨_, hv, rfl⟩)), rfl, rfl, (hof _).2 hs⟩

/-- Helper for C15: the forward layout has exact padding. -/
theorem fwd_padding (x : Layout) (l : List Layout) (total : Option Nat)
    (hp : ∀ y ∈ x :: l, y.item ≠ .padding) (hb : ∀ y ∈ x :: l, y.bitOffset < top)
    (ht : ∀ t, total = some t → t < top)
    (pre : List Layout) (p : Layout) (post : List Layout)
    (h : fwd (x :: l) total = pre ++ p :: post) (hpad : p.item = .padding) :
    ∃ a, pre.getLast? = some a ∧ a.item ≠ .padding ∧ ∃ n k, p.bitSize.get = some n ∧ 0 < n ∧
      a.bitSize.get = some k ∧ p.bitOffset = a.bitOffset + k ∧
      (match post.head? with
        | none => total = some (p.bitOffset + n)
        | some b => b.item ≠ .padding ∧ b.bitOffset = p.bitOffset + n) := by
  induction l generalizing x pre with
  | nil =>
    simp only [fwd, nextOf, List.append_nil] at h
    cases pre with
    | nil =>
      simp only [List.nil_append, List.cons.injEq] at h
      exact absurd hpad (by rw [← h.1]; exact hp x (by simp))
    | cons q pre =>
      simp only [List.cons_append, List.cons.injEq] at h
      obtain ⟨rfl, h⟩ := h
      have hm : p ∈ gapAfter x total := by rw [h]; simp
      obtain ⟨s, k, h1, h2, h3, h4⟩ := gap_mem hm
      have hg : gapAfter x total = [p] := by
        simp only [gapAfter, h1, h2]
        rw [if_pos (by omega), h4]
      rw [hg] at h
      have := congrArg List.length h
      simp at this
      have : pre = [] := by cases pre <;> simp_all
      subst this
      simp only [List.nil_append, List.cons.injEq, true_and] at h
      refine ⟨x, rfl, hp x (by simp), k - (x.bitOffset + s), s, ?_, by omega, h1, ?_, ?_⟩
      · rw [h4]; exact get_new (by have := ht k h2; omega)
      · rw [h4]
      · rw [← h]; simp only [List.head?_nil, h2, h4]; congr 1; omega
  | cons y ys ih =>
    rw [fwd] at h
    have ih := fun pre h => ih y (fun z hz => hp z (by simp [hz]))
      (fun z hz => hb z (by simp [hz])) pre h
    cases pre with
    | nil =>
      simp only [List.nil_append, List.cons.injEq] at h
      exact absurd hpad (by rw [← h.1]; exact hp x (by simp))
    | cons q pre =>
      simp only [List.cons_append, List.cons.injEq] at h
      obtain ⟨rfl, h⟩ := h
      cases hg : gapAfter x (nextOf (y :: ys) total) with
      | nil =>
        rw [hg, List.nil_append] at h
        obtain ⟨a, h1, h2⟩ := ih pre h
        refine ⟨a, ?_, h2⟩
        cases pre with
        | nil => simp at h1
        | cons z zs => simpa using h1
      | cons g gs =>
        have hm : g ∈ gapAfter x (nextOf (y :: ys) total) := by rw [hg]; simp
        obtain ⟨s, k, h1, h2, h3, h4⟩ := gap_mem hm
        have hg' : gapAfter x (nextOf (y :: ys) total) = [g] := by
          simp only [gapAfter, h1, h2]
          rw [if_pos (by omega), h4]
        rw [hg'] at h
        cases pre with
        | nil =>
          simp only [List.cons_append, List.nil_append, List.cons.injEq] at h
          obtain ⟨rfl, h⟩ := h
          simp only [nextOf, Option.some.injEq] at h2
          refine ⟨x, rfl, hp x (by simp), k - (x.bitOffset + s), s, ?_, by omega, h1, ?_, ?_⟩
          · rw [h4]; exact get_new (by have := hb y (by simp); omega)
          · rw [h4]
          · rw [← h, fwd]
            simp only [List.head?_cons]
            exact ⟨hp y (by simp), by rw [h4]; simp only []; omega⟩
        | cons z zs =>
          simp only [List.cons_append, List.nil_append, List.cons.injEq] at h
          obtain ⟨rfl, h⟩ := h
          obtain ⟨a, h1, h2⟩ := ih zs h
          refine ⟨a, ?_, h2⟩
          cases zs with
          | nil => simp at h1
          | cons z' zs => simpa using h1

/-- **C15 (padding).** For every list of items, overlapping or not, padding is never empty and
spans exactly from the end of the item before it (or 0) to the start of the item after it (or the
struct's size). -/
theorem C15_padding_exact (ms : List Member) (is : List Inherit) (vs : List VariantPart)
    (base : Nat) (total : Option Nat) (sz : TypeOffset → Option Nat)
    (hb : ∀ x ∈ inputs ms is vs base sz, x.bitOffset < top)
    (ht : ∀ t, total = some t → t < top) :
    PaddingExact total (layout ms is vs base total sz) := by
  intro pre p post h hpad
  rw [layout, layoutItems_eq] at h
  have hp' : ∀ y ∈ stableSort itemLe (inputs ms is vs base sz), y.item ≠ .padding :=
    fun x hx => inputs_not_padding ((mem_stableSort _).1 hx)
  have hb' : ∀ y ∈ stableSort itemLe (inputs ms is vs base sz), y.bitOffset < top :=
    fun x hx => hb x ((mem_stableSort _).1 hx)
  cases hl : stableSort itemLe (inputs ms is vs base sz) with
  | nil => rw [hl] at h; simp [lead, fwd] at h
  | cons x xs =>
    rw [hl] at h hp' hb'
    by_cases hx : x.bitOffset > 0
    · simp only [lead, if_pos hx, List.cons_append, List.nil_append] at h
      cases pre with
      | nil =>
        simp only [List.nil_append, List.cons.injEq] at h
        obtain ⟨rfl, h⟩ := h
        refine ⟨x.bitOffset, get_new (by have := hb' x (by simp); omega), hx, rfl, ?_⟩
        rw [← h, fwd]
        exact ⟨hp' x (by simp), by simp⟩
      | cons q pre =>
        simp only [List.cons_append, List.cons.injEq] at h
        obtain ⟨a, h1, h2, n, k, h3, h4, h5, h6, h7⟩ :=
          fwd_padding x xs total hp' hb' ht pre p post h.2 hpad
        refine ⟨n, h3, h4, ?_, h7⟩
        have : (q :: pre).getLast? = some a := by
          cases pre with
          | nil => simp at h1
          | cons z zs => simpa using h1
        rw [this]; exact ⟨h2, k, h5, h6⟩
    · simp only [lead, if_neg hx, List.nil_append] at h
      obtain ⟨a, h1, h2, n, k, h3, h4, h5, h6, h7⟩ :=
        fwd_padding x xs total hp' hb' ht pre p post h hpad
      refine ⟨n, h3, h4, ?_, h7⟩
      rw [h1]; exact ⟨h2, k, h5, h6⟩

/-- **C15 (completeness of padding).** Padding is not missing: between two consecutive items of the
listing there is no gap after an item of known size. -/
theorem C15_no_gap_left (ms : List Member) (is : List Inherit) (vs : List VariantPart)
    (base : Nat) (total : Option Nat) (sz : TypeOffset → Option Nat)
    (pre post : List Layout) (a b : Layout) (n : Nat)
    (h : layout ms is vs base total sz = pre ++ a :: b :: post)
    (ha : a.item ≠ .padding) (hbp : b.item ≠ .padding) (hn : a.bitSize.get = some n) :
    b.bitOffset ≤ a.bitOffset + n := by
  rw [layout, layoutItems_eq] at h
  have hp' : ∀ y ∈ stableSort itemLe (inputs ms is vs base sz), y.item ≠ .padding :=
    fun x hx => inputs_not_padding ((mem_stableSort _).1 hx)
  have key : ∀ (l : List Layout) (pre : List Layout), (∀ y ∈ l, y.item ≠ .padding) →
      fwd l total = pre ++ a :: b :: post → b.bitOffset ≤ a.bitOffset + n := by
    clear h
    intro l
    induction l with
    | nil => intro pre _ h; simp [fwd] at h
    | cons x xs ih =>
      intro pre hp h
      rw [fwd] at h
      cases pre with
      | nil =>
        simp only [List.nil_append, List.cons.injEq] at h
        obtain ⟨rfl, h⟩ := h
        cases hg : gapAfter x (nextOf xs total) with
        | cons g gs =>
          rw [hg] at h
          simp only [List.cons_append, List.cons.injEq] at h
          have : g ∈ gapAfter x (nextOf xs total) := by rw [hg]; simp
          obtain ⟨_, _, _, _, _, hgp⟩ := gap_mem this
          rw [h.1] at hgp
          rw [hgp] at hbp
          simp at hbp
        | nil =>
          rw [hg, List.nil_append] at h
          cases xs with
          | nil => simp [fwd] at h
          | cons y ys =>
            rw [fwd] at h
            simp only [List.cons.injEq] at h
            obtain ⟨rfl, _⟩ := h
            simp only [gapAfter, hn, nextOf] at hg
            split at hg
            · simp at hg
            · omega
      | cons q pre =>
        simp only [List.cons_append, List.cons.injEq] at h
        obtain ⟨rfl, h⟩ := h
        cases hg : gapAfter x (nextOf xs total) with
        | nil =>
          rw [hg, List.nil_append] at h
          exact ih pre (fun y hy => hp y (by simp [hy])) h
        | cons g gs =>
          have hm : g ∈ gapAfter x (nextOf xs total) := by rw [hg]; simp
          obtain ⟨s, k, h1, h2, h3, h4⟩ := gap_mem hm
          have hg' : gapAfter x (nextOf xs total) = [g] := by
            simp only [gapAfter, h1, h2]
            rw [if_pos (by omega), h4]
          rw [hg'] at h
          cases pre with
          | nil =>
            simp only [List.cons_append, List.nil_append, List.cons.injEq] at h
            obtain ⟨rfl, _⟩ := h
            rw [h4] at ha; simp at ha
          | cons z zs =>
            simp only [List.cons_append, List.nil_append, List.cons.injEq] at h
            exact ih zs (fun y hy => hp y (by simp [hy])) h.2
  cases hl : stableSort itemLe (inputs ms is vs base sz) with
  | nil => rw [hl] at h; simp [lead, fwd] at h
  | cons x xs =>
    rw [hl] at h hp'
    by_cases hx : x.bitOffset > 0
    · simp only [lead, if_pos hx, List.cons_append, List.nil_append] at h
      cases pre with
      | nil =>
        simp only [List.nil_append, List.cons.injEq] at h
        rw [← h.1] at ha; simp at ha
      | cons q pre =>
        simp only [List.cons_append, List.cons.injEq] at h
        exact key _ pre hp' h.2
    · simp only [lead, if_neg hx, List.nil_append] at h
      exact key _ pre hp' h

/-- Non-vacuity of C15 on overlapping and unsized members (with the overlap left as is). -/
example : layout [⟨1, none, none, 0, ⟨64⟩⟩, ⟨2, none, none, 8, ⟨8⟩⟩, ⟨3, none, none, 32, .none⟩] []
      [] 0 (some 128) (fun _ => none) =
    [⟨0, ⟨64⟩, .member ⟨1, none, none, 0, ⟨64⟩⟩⟩, ⟨8, ⟨8⟩, .member ⟨2, none, none, 8, ⟨8⟩⟩⟩,
      ⟨16, ⟨16⟩, .padding⟩, ⟨32, .none, .member ⟨3, none, none, 32, .none⟩⟩] := by decide

/-- An empty struct has an empty layout, even if its size is not zero. -/
theorem C14_empty_struct (total : Option Nat) (sz : TypeOffset → Option Nat) :
    layout [] [] [] 0 total sz = [] := rfl

theorem minLoop_spec (acc : Nat) (l : List Nat) :
    minLoop acc l ∈ acc :: l ∧ ∀ x ∈ acc :: l, minLoop acc l ≤ x := by
  induction l generalizing acc with
  | nil => simp [minLoop]
  | cons o os ih =>
    have ih := ih (if acc > o then o else acc)
    simp only [minLoop]
    refine ⟨?_, ?_⟩
    · have := ih.1
      simp only [List.mem_cons] at this ⊢
      rcases this with h | h
      · rw [h]; split <;> simp
      · exact .inr (.inr h)
    · intro x hx
      have h0 := ih.2 (if acc > o then o else acc) (by simp)
      simp only [List.mem_cons] at hx
      rcases hx with rfl | rfl | hx
      · refine Nat.le_trans h0 ?_; split <;> omega
      · refine Nat.le_trans h0 ?_; split <;> omega
      · exact ih.2 x (by simp [hx])

/-- The least element of a list of offsets, 0 for the empty list. -/
theorem orZero_minLoop (l : List Nat) (h : ∀ x ∈ l, x < max64) :
    (l = [] → orZero (minLoop max64 l) = 0) ∧
    (l ≠ [] → orZero (minLoop max64 l) ∈ l ∧ ∀ x ∈ l, orZero (minLoop max64 l) ≤ x) := by
  constructor
  · rintro rfl; simp [minLoop, orZero]
  · intro hne
    obtain ⟨h1, h2⟩ := minLoop_spec max64 l
    obtain ⟨y, hy⟩ := List.exists_mem_of_ne_nil l hne
    have := h2 y (by simp [hy])
    have := h y hy
    have hlt : minLoop max64 l < max64 := by omega
    rw [orZero, if_pos hlt]
    refine ⟨?_, fun x hx => h2 x (by simp [hx])⟩
    rcases List.mem_cons.1 h1 with h1 | h1
    · omega
    · exact h1

theorem orZero_le (l : List Nat) : ∀ x ∈ l, orZero (minLoop max64 l) ≤ x := by
  intro x hx
  have := (minLoop_spec max64 l).2 x (by simp [hx])
  unfold orZero
  split <;> omega

theorem endLoop_spec (acc : Nat) (l : List (Nat × Option Nat)) :
    (endLoop acc l = none ↔ ∃ x ∈ l, x.2 = none) ∧
    (∀ e, endLoop acc l = some e → acc ≤ e ∧ (∀ o s, (o, some s) ∈ l → o + s ≤ e) ∧
      (e = acc ∨ ∃ o s, (o, some s) ∈ l ∧ e = o + s)) := by
  induction l generalizing acc with
  | nil => simp [endLoop]
  | cons x xs ih =>
    obtain ⟨o, s⟩ := x
    cases s with
    | none => simp [endLoop]
    | some s =>
      obtain ⟨h1, h2⟩ := ih (if acc < o + s then o + s else acc)
      simp only [endLoop]
      constructor
      · rw [h1]; simp
      · intro e he
        obtain ⟨g1, g2, g3⟩ := h2 e he
        refine ⟨by split at g1 <;> omega, ?_, ?_⟩
        · intro o' s' hm
          simp only [List.mem_cons, Prod.mk.injEq, Option.some.injEq] at hm
          rcases hm with ⟨rfl, rfl⟩ | hm
          · split at g1 <;> omega
          · exact g2 o' s' hm
        · rcases g3 with g3 | ⟨o', s', hm, g3⟩
          · split at g3
            · exact .inr ⟨o, s, by simp, g3⟩
            · exact .inl g3
          · exact .inr ⟨o', s', by simp [hm], g3⟩

/-- **C16 (variant).** The offset of a variant is its least member offset (0 without members); its
size is the distance from there to the furthest member end; unknown iff a member size is. -/
theorem C16_variant_extent (v : Variant) (sz : TypeOffset → Option Nat)
    (h : ∀ m ∈ v.members, m.bitOffset < max64) :
    (v.members = [] → Variant.bitOffset v = 0 ∧ Variant.bitSize sz v = some 0) ∧
    (v.members ≠ [] → (∃ m ∈ v.members, m.bitOffset = Variant.bitOffset v) ∧
      ∀ m ∈ v.members, Variant.bitOffset v ≤ m.bitOffset) ∧
    (Variant.bitSize sz v = none ↔ ∃ m ∈ v.members, memberBitSize sz m = none) ∧
    (∀ n, Variant.bitSize sz v = some n →
      (∀ m ∈ v.members, ∀ s, memberBitSize sz m = some s →
        m.bitOffset + s ≤ Variant.bitOffset v + n) ∧
      (n = 0 ∨ ∃ m ∈ v.members, ∃ s, memberBitSize sz m = some s ∧
        m.bitOffset + s = Variant.bitOffset v + n)) := by
  have hm := orZero_minLoop (v.members.map (·.bitOffset)) (by simpa using h)
  have he := endLoop_spec (Variant.bitOffset v)
    (v.members.map (fun m => (m.bitOffset, memberBitSize sz m)))
  refine ⟨?_, ?_, ?_, ?_⟩
  · intro hn
    have h0 : Variant.bitOffset v = 0 := hm.1 (by simp [hn])
    simp [Variant.bitSize, hn, endLoop, h0]
  · intro hn
    obtain ⟨h1, h2⟩ := hm.2 (by simpa using hn)
    obtain ⟨m, hmm, hme⟩ := List.mem_map.1 h1
    exact ⟨⟨m, hmm, hme⟩, fun m hm => h2 _ (List.mem_map.2 ⟨m, hm, rfl⟩)⟩
  · simp only [Variant.bitSize, Option.map_eq_none_iff]
    rw [he.1]
    constructor
    · rintro ⟨x, hx, hn⟩
      obtain ⟨m, hm, rfl⟩ := List.mem_map.1 hx
      exact ⟨m, hm, hn⟩
    · rintro ⟨m, hm, hn⟩
      exact ⟨_, List.mem_map.2 ⟨m, hm, rfl⟩, hn⟩
  · intro n hn
    simp only [Variant.bitSize, Option.map_eq_some_iff] at hn
    obtain ⟨e, h1, h2⟩ := hn
    obtain ⟨g1, g2, g3⟩ := he.2 e h1
    refine ⟨fun m hm s hs => ?_, ?_⟩
    · have := g2 m.bitOffset s (List.mem_map.2 ⟨m, hm, by rw [hs]⟩); omega
    · rcases g3 with g3 | ⟨o, s, hm, g3⟩
      · left; omega
      · obtain ⟨m, hmm, hme⟩ := List.mem_map.1 hm
        simp only [Prod.mk.injEq] at hme
        exact .inr ⟨m, hmm, s, hme.2, by omega⟩

/-- **C16 (variant part).** Likewise over the variants, whose extents are given by C16 above. -/
theorem C16_variantPart_extent (vp : VariantPart) (sz : TypeOffset → Option Nat)
    (h : ∀ v ∈ vp.variants, Variant.bitOffset v < max64) :
    (vp.variants = [] → VariantPart.bitOffset vp = 0 ∧ VariantPart.bitSize sz vp = some 0) ∧
    (vp.variants ≠ [] → (∃ v ∈ vp.variants, Variant.bitOffset v = VariantPart.bitOffset vp) ∧
      ∀ v ∈ vp.variants, VariantPart.bitOffset vp ≤ Variant.bitOffset v) ∧
    (VariantPart.bitSize sz vp = none ↔ ∃ v ∈ vp.variants, Variant.bitSize sz v = none) ∧
    (∀ n, VariantPart.bitSize sz vp = some n →
      (∀ v ∈ vp.variants, ∀ s, Variant.bitSize sz v = some s →
        Variant.bitOffset v + s ≤ VariantPart.bitOffset vp + n) ∧
      (n = 0 ∨ ∃ v ∈ vp.variants, ∃ s, Variant.bitSize sz v = some s ∧
        Variant.bitOffset v + s = VariantPart.bitOffset vp + n)) := by
  have hm := orZero_minLoop (vp.variants.map Variant.bitOffset) (by simpa using h)
  have he := endLoop_spec (VariantPart.bitOffset vp)
    (vp.variants.map (fun v => (Variant.bitOffset v, Variant.bitSize sz v)))
  refine ⟨?_, ?_, ?_, ?_⟩
  · intro hn
    have h0 : VariantPart.bitOffset vp = 0 := hm.1 (by simp [hn])
    simp [VariantPart.bitSize, hn, endLoop, h0]
  · intro hn
    obtain ⟨h1, h2⟩ := hm.2 (by simpa using hn)
    obtain ⟨m, hmm, hme⟩ := List.mem_map.1 h1
    exact ⟨⟨m, hmm, hme⟩, fun m hm => h2 _ (List.mem_map.2 ⟨m, hm, rfl⟩)⟩
  · simp only [VariantPart.bitSize, Option.map_eq_none_iff]
    rw [he.1]
    constructor
    · rintro ⟨x, hx, hn⟩
      obtain ⟨m, hm, rfl⟩ := List.mem_map.1 hx
      exact ⟨m, hm, hn⟩
    · rintro ⟨m, hm, hn⟩
      exact ⟨_, List.mem_map.2 ⟨m, hm, rfl⟩, hn⟩
  · intro n hn
    simp only [VariantPart.bitSize, Option.map_eq_some_iff] at hn
    obtain ⟨e, h1, h2⟩ := hn
    obtain ⟨g1, g2, g3⟩ := he.2 e h1
    refine ⟨fun v hv s hs => ?_, ?_⟩
    · have := g2 (Variant.bitOffset v) s (List.mem_map.2 ⟨v, hv, by rw [hs]⟩); omega
    · rcases g3 with g3 | ⟨o, s, hm, g3⟩
      · left; omega
      · obtain ⟨m, hmm, hme⟩ := List.mem_map.1 hm
        simp only [Prod.mk.injEq] at hme
        exact .inr ⟨m, hmm, s, hme.2, by omega⟩

/-- Non-vacuity of C16. -/
example :
    let v : Variant := ⟨none, none, [⟨1, none, none, 40, ⟨8⟩⟩, ⟨2, none, none, 32, ⟨4⟩⟩]⟩
    Variant.bitOffset v = 32 ∧ Variant.bitSize (fun _ => none) v = some 16 ∧
      (∀ m ∈ v.members, m.bitOffset < max64) := by
  refine ⟨by decide, by decide, ?_⟩
  simp [max64, top]

/-- **C65.** Laying out a variant with its variant part's offset and size never subtracts below
zero, and every member of the variant ends within the variant part. -/
theorem C65_variant_inside_part (vp : VariantPart) (sz : TypeOffset → Option Nat) (v : Variant)
    (hv : v ∈ vp.variants) (m : Member) (hm : m ∈ v.members) :
    VariantPart.bitOffset vp ≤ m.bitOffset ∧
    (∀ n s, VariantPart.bitSize sz vp = some n → memberBitSize sz m = some s →
      m.bitOffset + s ≤ VariantPart.bitOffset vp + n) := by
  have h1 : VariantPart.bitOffset vp ≤ Variant.bitOffset v :=
    orZero_le _ _ (List.mem_map.2 ⟨v, hv, rfl⟩)
  have h2 : Variant.bitOffset v ≤ m.bitOffset := orZero_le _ _ (List.mem_map.2 ⟨m, hm, rfl⟩)
  refine ⟨by omega, ?_⟩
  intro n s hn hs
  simp only [VariantPart.bitSize, Option.map_eq_some_iff] at hn
  obtain ⟨e, he, rfl⟩ := hn
  obtain ⟨g1, g2, _⟩ := (endLoop_spec _ _).2 e he
  have hsome : ∃ k, Variant.bitSize sz v = some k := by
    cases hk : Variant.bitSize sz v with
    | some k => exact ⟨k, rfl⟩
    | none =>
      have := (endLoop_spec (VariantPart.bitOffset vp)
        (vp.variants.map (fun v => (Variant.bitOffset v, Variant.bitSize sz v)))).1.2
        ⟨_, List.mem_map.2 ⟨v, hv, rfl⟩, hk⟩
      rw [this] at he; cases he
  obtain ⟨k, hk⟩ := hsome
  have g := g2 _ k (List.mem_map.2 ⟨v, hv, by rw [hk]⟩)
  simp only [Variant.bitSize, Option.map_eq_some_iff] at hk
  obtain ⟨e', he', rfl⟩ := hk
  obtain ⟨f1, f2, _⟩ := (endLoop_spec _ _).2 e' he'
  have := f2 _ s (List.mem_map.2 ⟨m, hm, by rw [hs]⟩)
  omega

/-- **C65 (witness).** One variant without members (such as Rust's `None`) makes the variant part
start at bit 0, although every member of the part is at bit 64 or later. -/
theorem C65_empty_variant_moves_start :
    ∃ vp : VariantPart, (∃ v ∈ vp.variants, v.members ≠ []) ∧
      (∀ v ∈ vp.variants, ∀ m ∈ v.members, 64 ≤ m.bitOffset) ∧
      VariantPart.bitOffset vp = 0 ∧ VariantPart.bitSize (fun _ => none) vp = some 128 :=
  ⟨⟨none, [⟨some 0, none, []⟩, ⟨some 1, none, [⟨1, none, none, 64, ⟨64⟩⟩]⟩]⟩, by decide⟩

end Verif.Layout
