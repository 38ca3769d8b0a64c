import Verif.Frame.Spec
import Verif.Print.Lemmas
import Verif.Print.Lemmas3
/-! # Lemmas about frame listings -/
namespace Verif.Frame
open Verif.Types Verif.Item Verif.Print Verif.Range Verif.Merge

instance : Std.TransCmp Entry.cmp := by
  have h1 : Std.TransCmp (fun a b : Entry => compare a.offset b.offset) := transCmp_on compare Entry.offset
  have h2 : Std.TransCmp (fun a b : Entry => compare a.size b.size) := transCmp_on compare Entry.size
  have h3 : Std.TransCmp (fun a b : Entry => compare a.name b.name) := transCmp_on compare Entry.name
  have h4 : Std.TransCmp (fun a b : Entry => cmpNoneLast a.ty b.ty) := transCmp_on cmpNoneLast Entry.ty
  have h34 := transCmp_then (fun a b : Entry => compare a.name b.name) (fun a b : Entry => cmpNoneLast a.ty b.ty)
  have h234 := transCmp_then (fun a b : Entry => compare a.size b.size)
    (fun a b : Entry => (compare a.name b.name).then (cmpNoneLast a.ty b.ty))
  exact transCmp_then (fun a b : Entry => compare a.offset b.offset)
    (fun a b : Entry => (compare a.size b.size).then ((compare a.name b.name).then (cmpNoneLast a.ty b.ty)))

instance : Std.LawfulEqCmp Entry.cmp where
  compare_self := by
    intro a
    simp [Entry.cmp, Std.ReflCmp.compare_self (cmp := cmpNoneLast), Std.ReflCmp.compare_self (cmp := compare)]
  eq_of_compare := by
    intro a b h
    simp only [Entry.cmp, Ordering.then_eq_eq] at h
    obtain ⟨h1, h2, h3, h4⟩ := h
    cases a; cases b
    simp only [Entry.mk.injEq]
    exact ⟨Std.LawfulEqOrd.eq_of_compare h1, Std.LawfulEqOrd.eq_of_compare h2,
      Std.LawfulEqOrd.eq_of_compare h3, Std.LawfulEqCmp.eq_of_compare h4⟩

theorem cmp_lt_offset {a b : Entry} (h : Entry.cmp a b = .lt) : a.offset ≤ b.offset := by
  unfold Entry.cmp at h
  rw [Ordering.then_eq_lt] at h
  rcases h with h | ⟨h, -⟩
  · have := (Int.compare_eq_lt).1 h; omega
  · have := (Int.compare_eq_eq).1 h; omega

instance : Std.TransCmp cmpLoc := by
  have h1 : Std.TransCmp (fun a b : FrameLocation => compare a.offset b.offset) := transCmp_on compare FrameLocation.offset
  have h2 : Std.TransCmp (fun a b : FrameLocation => cmpNoneLast a.bitSize b.bitSize) := transCmp_on cmpNoneLast FrameLocation.bitSize
  exact transCmp_then (fun a b : FrameLocation => compare a.offset b.offset) (fun a b : FrameLocation => cmpNoneLast a.bitSize b.bitSize)

instance : Std.LawfulEqCmp cmpLoc where
  compare_self := by
    intro a
    simp [cmpLoc, Std.ReflCmp.compare_self (cmp := cmpNoneLast), Std.ReflCmp.compare_self (cmp := compare)]
  eq_of_compare := by
    intro a b h
    simp only [cmpLoc, Ordering.then_eq_eq] at h
    cases a; cases b
    simp only [FrameLocation.mk.injEq]
    exact ⟨Std.LawfulEqOrd.eq_of_compare h.1, Std.LawfulEqCmp.eq_of_compare h.2⟩

theorem mem_frameLocations (locs : List (Range × Piece)) (o : Int) (b : Option Nat) :
    (∃ r, (r, (⟨o, b⟩ : FrameLocation)) ∈ frameLocations locs) ↔ StoredAt locs o b := by
  unfold frameLocations StoredAt
  constructor
  · rintro ⟨r, h⟩
    obtain ⟨⟨r', p⟩, hm, h⟩ := List.mem_filterMap.1 h
    simp only at h
    split at h
    · cases h
    · rename_i hv
      refine ⟨r', p, hm, by simpa using hv, ?_⟩
      split at h <;> simp at h <;> obtain ⟨_, h1, h2⟩ := h <;> subst h1 <;> refine ⟨h2, ?_⟩ <;> simp_all
  · rintro ⟨r, p, hm, hv, hb, hl⟩
    refine ⟨r, List.mem_filterMap.2 ⟨_, hm, ?_⟩⟩
    rcases hl with hl | hl <;> simp [hv, hl, hb]

theorem mem_localFrameLocations (locs : List (Range × Piece)) (o : Int) (b : Option Nat) :
    (⟨o, b⟩ : FrameLocation) ∈ localFrameLocations locs ↔ StoredAt locs o b := by
  rw [← mem_frameLocations]
  unfold localFrameLocations frameLocations
  simp only [List.mem_filterMap]
  constructor
  · rintro ⟨⟨r, p⟩, hm, h⟩
    refine ⟨r, (r, p), hm, ?_⟩
    simp only at h ⊢
    (repeat' split at h) <;> simp_all
  · rintro ⟨r, ⟨r', p⟩, hm, h⟩
    refine ⟨(r', p), hm, ?_⟩
    simp only at h ⊢
    (repeat' split at h) <;> simp_all

theorem locSize_iff (l : FrameLocation) (whole s : Option Nat) :
    locSize l whole = s ↔ SizeIs s l.bitSize whole := by
  unfold locSize SizeIs bytesOf
  cases l.bitSize with
  | none => simp [eq_comm]
  | some b =>
    simp only [Option.some.injEq, forall_eq', reduceCtorEq, false_implies, and_true]
    constructor
    · rintro rfl; exact ⟨_, rfl, by omega, by omega⟩
    · rintro ⟨n, rfl, h1, h2⟩; congr 1; omega

theorem mem_parameterEntries (tsz : TypeOffset → Option Nat) (p : Parameter) (e : Entry) :
    e ∈ parameterEntries tsz p ↔ ∃ bits, StoredAt p.locations e.offset bits ∧ e.name = p.name ∧
      e.ty = p.ty ∧ SizeIs e.size bits (tsz p.ty) := by
  unfold parameterEntries
  simp only [List.mem_map, Prod.exists]
  constructor
  · rintro ⟨r, l, hm, rfl⟩
    exact ⟨l.bitSize, (mem_frameLocations _ _ _).1 ⟨r, hm⟩, rfl, rfl, (locSize_iff l _ _).1 rfl⟩
  · rintro ⟨bits, hs, h1, h2, h3⟩
    obtain ⟨r, hm⟩ := (mem_frameLocations _ _ _).2 hs
    refine ⟨r, _, hm, ?_⟩
    have := (locSize_iff ⟨e.offset, bits⟩ (tsz p.ty) e.size).2 h3
    cases e
    simp_all [Parameter.byteSize]

theorem mem_variableEntries (tsz : TypeOffset → Option Nat) (v : LocalVariable) (e : Entry) :
    e ∈ variableEntries tsz v ↔ ∃ bits, StoredAt v.locations e.offset bits ∧ e.name = v.name ∧
      e.ty = v.ty ∧ SizeIs e.size bits (if v.size.isSome then v.size else tsz v.ty) := by
  unfold variableEntries
  simp only [List.mem_map]
  constructor
  · rintro ⟨l, hm, rfl⟩
    exact ⟨l.bitSize, (mem_localFrameLocations _ _ _).1 hm, rfl, rfl, (locSize_iff l _ _).1 rfl⟩
  · rintro ⟨bits, hs, h1, h2, h3⟩
    refine ⟨_, (mem_localFrameLocations _ _ _).2 hs, ?_⟩
    have := (locSize_iff ⟨e.offset, bits⟩ (v.byteSize tsz) e.size).2 h3
    cases e
    simp_all

/-- Entries of one level. -/
def own (tsz : TypeOffset → Option Nat) (i : InlinedFunction) (e : Entry) : Prop :=
  e ∈ i.parameters.flatMap (parameterEntries tsz) ∨ e ∈ i.variables.flatMap (variableEntries tsz)

theorem within_nil {i : InlinedFunction} : ¬ Within [] i := by
  intro h
  cases h with
  | here h => cases h
  | deeper h _ => cases h

theorem within_cons {i j : InlinedFunction} {l : List InlinedFunction} :
    Within (i :: l) j ↔ j = i ∨ Within i.inlined j ∨ Within l j := by
  constructor
  · intro h
    cases h with
    | here h =>
      rcases List.mem_cons.1 h with h | h
      · exact .inl h
      · exact .inr (.inr (.here h))
    | deeper h h' =>
      rcases List.mem_cons.1 h with rfl | h
      · exact .inr (.inl h')
      · exact .inr (.inr (.deeper h h'))
  · rintro (rfl | h | h)
    · exact .here (by simp)
    · exact .deeper (by simp) h
    · cases h with
      | here h => exact .here (by simp [h])
      | deeper h h' => exact .deeper (List.mem_cons_of_mem _ h) h'

theorem mem_inlinedList (tsz : TypeOffset → Option Nat) : ∀ (l : List InlinedFunction) (e : Entry),
    e ∈ inlinedListEntries tsz l ↔ ∃ i, Within l i ∧ own tsz i e
  | [], e => by
    simp only [inlinedListEntries, List.not_mem_nil, false_iff]
    rintro ⟨i, h, -⟩; exact within_nil h
  | .mk a b c ps vs is calls cs :: l, e => by
    have h1 := mem_inlinedList tsz is e
    have h2 := mem_inlinedList tsz l e
    simp only [inlinedListEntries, inlinedEntries, List.mem_append, h1, h2]
    constructor
    · rintro (((h | h) | ⟨i, h, h'⟩) | ⟨i, h, h'⟩)
      · exact ⟨_, within_cons.2 (.inl rfl), .inl h⟩
      · exact ⟨_, within_cons.2 (.inl rfl), .inr h⟩
      · exact ⟨i, within_cons.2 (.inr (.inl h)), h'⟩
      · exact ⟨i, within_cons.2 (.inr (.inr h)), h'⟩
    · rintro ⟨i, h, h'⟩
      rcases within_cons.1 h with rfl | h | h
      · exact .inl (.inl h')
      · exact .inl (.inr ⟨i, h, h'⟩)
      · exact .inr ⟨i, h, h'⟩

theorem mem_entries (tsz : TypeOffset → Option Nat) (d : FunctionDetails) (e : Entry) :
    e ∈ entries tsz d ↔ FrameEntry tsz d e := by
  unfold entries
  rw [mem_sortDedup]
  simp only [List.mem_append, mem_inlinedList, own, List.mem_flatMap, mem_parameterEntries,
    mem_variableEntries, FrameEntry, ParamOf, VarOf]
  constructor
  · rintro ((⟨p, hp, b, h⟩ | ⟨v, hv, b, h⟩) | ⟨i, hi, ⟨p, hp, b, h⟩ | ⟨v, hv, b, h⟩⟩)
    · exact .inl ⟨p, b, .inl hp, h⟩
    · exact .inr ⟨v, b, .inl hv, h⟩
    · exact .inl ⟨p, b, .inr ⟨i, hi, hp⟩, h⟩
    · exact .inr ⟨v, b, .inr ⟨i, hi, hv⟩, h⟩
  · rintro (⟨p, b, hp | ⟨i, hi, hp⟩, h⟩ | ⟨v, b, hv | ⟨i, hi, hv⟩, h⟩)
    · exact .inl (.inl ⟨p, hp, b, h⟩)
    · exact .inr ⟨i, hi, .inl ⟨p, hp, b, h⟩⟩
    · exact .inl (.inr ⟨v, hv, b, h⟩)
    · exact .inr ⟨i, hi, .inr ⟨v, hv, b, h⟩⟩

theorem link_snd {prev : Option Int} {es : List Entry} {l : List (Option Int × Entry)}
    (h : link prev es = some l) : l.map Prod.snd = es := by
  induction es generalizing prev l with
  | nil => simp [link] at h; subst h; rfl
  | cons e es ih =>
    simp only [link] at h
    split at h
    · cases h
    · rename_i next _
      cases hl : link next es with
      | none => rw [hl] at h; cases h
      | some l' =>
        rw [hl] at h; simp at h; subst h
        simp [ih hl]

theorem link_none {prev : Option Int} {es : List Entry} :
    link prev es = none ↔ ∃ e ∈ es, endOf e = none := by
  induction es generalizing prev with
  | nil => simp [link]
  | cons e es ih =>
    simp only [link]
    cases he : endOf e with
    | none => simp [he]
    | some next => simp [he, ih]

theorem link_prev {prev : Option Int} {es : List Entry} {l : List (Option Int × Entry)}
    (h : link prev es = some l) :
    (∀ x, l[0]? = some x → x.1 = prev) ∧
    ∀ k x y, l[k]? = some x → l[k + 1]? = some y → endOf x.2 = some y.1 := by
  induction es generalizing prev l with
  | nil => simp [link] at h; subst h; simp
  | cons e es ih =>
    simp only [link] at h
    split at h
    · cases h
    · rename_i next hn
      cases hl : link next es with
      | none => rw [hl] at h; cases h
      | some l' =>
        rw [hl] at h; simp at h; subst h
        obtain ⟨h1, h2⟩ := ih hl
        refine ⟨by simp, fun k x y hx hy => ?_⟩
        cases k with
        | zero =>
          simp at hx hy; subst hx
          rw [h1 y (by simpa using hy)]; exact hn
        | succ k => exact h2 k x y (by simpa using hx) (by simpa using hy)

theorem decInt_ne_nil (z : Int) : decInt z ≠ [] := by
  unfold decInt; split
  · simp
  · exact dec_ne_nil _

theorem asI64_of_lt {n : Nat} (h : n < 2 ^ 63) : asI64 n = n := by simp [asI64, h]

end Verif.Frame
