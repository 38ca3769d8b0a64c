import Verif.Frame.Lemmas
import Verif.Merge.Props
import Verif.Print.Lemmas2
/-!
# Property theorems: C40 (stack layout), C54 (frame location changes)
-/
namespace Verif.Frame
open Verif.Types Verif.Item Verif.Print Verif.Range Verif.Merge

/-! ### C40 -/

/-- **C40 (contents and order).** The stack layout lists exactly the parameters and local
variables, of the function and of everything inlined into it at any depth, that are stored in the
frame; each once, by increasing offset (then size, name, type). -/
theorem C40_listed (tsz : TypeOffset → Option Nat) (d : FunctionDetails)
    (l : List (Option Int × Entry)) (h : frameVariables tsz d = some l) :
    (∀ e, e ∈ l.map Prod.snd ↔ FrameEntry tsz d e) ∧ (l.map Prod.snd).Nodup ∧
    (l.map Prod.snd).Pairwise (fun a b => a.offset ≤ b.offset) ∧
    (l.map Prod.snd).Pairwise (fun a b => Entry.cmp a b = .lt) := by
  have hs := link_snd h
  rw [hs]
  exact ⟨mem_entries tsz d, sortDedup_nodup (cmp := Entry.cmp) _,
    (sortDedup_strict (cmp := Entry.cmp) _).imp fun h => cmp_lt_offset h, sortDedup_strict (cmp := Entry.cmp) _⟩

/-- **C40 (a function of the contents).** Two functions with the same frame contents have the same
stack layout, in whatever order and at whatever inlining depth the contents were found. -/
theorem C40_determined (tsz : TypeOffset → Option Nat) (d d' : FunctionDetails)
    (h : ∀ e, FrameEntry tsz d e ↔ FrameEntry tsz d' e) :
    frameVariables tsz d = frameVariables tsz d' := by
  unfold frameVariables
  congr 1
  unfold entries
  refine sortDedup_congr (cmp := Entry.cmp) _ _ fun e => ?_
  have h1 := mem_entries tsz d e
  have h2 := mem_entries tsz d' e
  unfold entries at h1 h2
  rw [mem_sortDedup] at h1 h2
  rw [h1, h2, h]

/-- **C40 (when it fails).** Building the layout panics exactly if the end of some entry is not a
64-bit signed number. -/
theorem C40_panics_iff (tsz : TypeOffset → Option Nat) (d : FunctionDetails) :
    frameVariables tsz d = none ↔
      ∃ e s, FrameEntry tsz d e ∧ e.size = some s ∧ ¬ I64 (e.offset + asI64 s) := by
  unfold frameVariables
  rw [link_none]
  constructor
  · rintro ⟨e, he, h⟩
    unfold endOf at h
    split at h
    · cases h
    · rename_i s hs
      split at h
      · cases h
      · rename_i hi; exact ⟨e, s, (mem_entries tsz d e).1 he, hs, hi⟩
  · rintro ⟨e, s, he, hs, hi⟩
    exact ⟨e, (mem_entries tsz d e).2 he, by simp [endOf, hs, hi]⟩

/-- The line for a part of unknown contents. -/
def unknownLine (x : DiffPrefix) (i : Nat) (o n : Int) : Line :=
  .line x i [] (decInt o ++ [91] ++ decInt n ++ Str.ofString "]\t<unknown>")

/-- The line for an entry. -/
def entryLine (tref : TypeOffset → Val) (x : DiffPrefix) (i : Nat) (e : Entry) : Line :=
  .line x i [] (entryVal tref e).text'

theorem entryVal_ne (tref : TypeOffset → Val) (e : Entry) : (entryVal tref e).text' ≠ [] := by
  simp [entryVal, Val.text', decInt_ne_nil]

/-- **C40 (lines).** The printed layout is, for each entry in order, an "unknown" line exactly if
the entry before it has a known end that lies before this entry, with that end and the distance,
then the entry's own line. -/
theorem C40_lines (tsz : TypeOffset → Option Nat) (tref : TypeOffset → Val) (d : FunctionDetails)
    (p : P) (h : listing tsz tref d = some p) :
    ∃ l, frameVariables tsz d = some l ∧
      (∀ x, l[0]? = some x → x.1 = none) ∧
      (∀ k x y, l[k]? = some x → l[k + 1]? = some y → (∀ s, x.2.size = some s → s < 2 ^ 63) →
        y.1 = x.2.size.map fun s => x.2.offset + (s : Int)) ∧
      ∀ http i x dp, p.lines http i x dp = l.flatMap fun v =>
        (match v.1 with
          | some o => if o < v.2.offset then [unknownLine x i o (v.2.offset - o)] else []
          | none => []) ++ [entryLine tref x i v.2] := by
  unfold listing at h
  cases hl : frameVariables tsz d with
  | none => rw [hl] at h; cases h
  | some l =>
    rw [hl] at h
    simp only [Option.bind_eq_bind, Option.bind_some, Option.pure_def] at h
    obtain ⟨h1, h2⟩ := link_prev hl
    refine ⟨l, rfl, h1, fun k x y hx hy hs => ?_, ?_⟩
    · have := h2 k x y hx hy
      unfold endOf at this
      cases hsz : x.2.size with
      | none => rw [hsz] at this; simp at this; rw [← this]; rfl
      | some s =>
        rw [hsz] at this
        simp only [asI64_of_lt (hs s hsz)] at this
        split at this
        · simp at this; simp [this]
        · cases this
    · have main : ∀ (l : List (Option Int × Entry)) (p : P),
          ((l.mapM (printEntry tref)).bind fun ps => some (P.seqs ps)) = some p →
          ∀ http i x dp, p.lines http i x dp = l.flatMap fun v =>
            (match v.1 with
              | some o => if o < v.2.offset then [unknownLine x i o (v.2.offset - o)] else []
              | none => []) ++ [entryLine tref x i v.2] := by
        intro l
        induction l with
        | nil =>
          intro p h http i x dp
          simp at h; subst h
          rw [P.lines_eq]; rfl
        | cons v l ih =>
          intro p h http i x dp
          rw [List.mapM_cons] at h
          cases hv : printEntry tref v with
          | none => rw [hv] at h; simp at h
          | some pv =>
            rw [hv] at h
            simp only [Option.bind_eq_bind, Option.bind_some] at h
            cases hm : l.mapM (printEntry tref) with
            | none => rw [hm] at h; simp at h
            | some ps =>
              rw [hm] at h
              simp at h; subst h
              have := ih (P.seqs ps) (by rw [hm]; rfl) http i x dp
              rw [P.lines_eq] at this ⊢
              simp only [P.seqs, P.ls, this, List.flatMap_cons]
              congr 1
              unfold printEntry at hv
              cases hu : unknownVal v with
              | none => rw [hu] at hv; cases hv
              | some u =>
                rw [hu] at hv; simp at hv; subst hv
                simp only [P.ls, if_neg (entryVal_ne tref v.2)]
                refine congrArg (· ++ _) ?_
                unfold unknownVal at hu
                cases hv1 : v.1 with
                | none => rw [hv1] at hu; simp at hu; subst hu; simp [Val.text']
                | some o =>
                  rw [hv1] at hu
                  simp only at hu ⊢
                  split at hu
                  · rename_i hlt
                    split at hu
                    · simp only [Option.some.injEq] at hu; subst hu
                      simp [Val.text', hlt, unknownLine, decInt_ne_nil]
                    · cases hu
                  · rename_i hlt
                    simp at hu; subst hu; simp [Val.text', hlt]
      exact main l p h

/-- **C40 (gaps are exactly the unoccupied parts).** If consecutive entries do not overlap and
their sizes are known, then between the first and the last entry an offset is shown as unknown
exactly if no entry occupies it. -/
theorem C40_gaps (tsz : TypeOffset → Option Nat) (d : FunctionDetails)
    (l : List (Option Int × Entry)) (h : frameVariables tsz d = some l)
    (hc : (l.map Prod.snd).Pairwise Clear) (first last : Entry)
    (hf : (l.map Prod.snd).head? = some first) (hl : (l.map Prod.snd).getLast? = some last) (z : Int)
    (h1 : first.offset ≤ z) (h2 : z < last.offset) :
    InUnknown l z ↔ ∀ e, FrameEntry tsz d e → ¬ Occupies e z := by
  have hmem := (C40_listed tsz d l h).1
  have key : ∀ (es : List Entry) (prev : Option Int) (l : List (Option Int × Entry)),
      link prev es = some l → es.Pairwise Clear → ∀ first last, es.head? = some first →
      es.getLast? = some last → z < last.offset →
      (∀ o, prev = some o → o ≤ first.offset) →
      ((prev.isSome = true ∧ ∃ o, prev = some o ∧ o ≤ z) ∨ first.offset ≤ z) →
      (InUnknown l z ↔ ∀ e ∈ es, ¬ Occupies e z) := by
    intro es
    induction es with
    | nil => intro prev l _ _ first last hf; cases hf
    | cons e es ih =>
      intro prev l hlk hcl first last hf hla hz hpo hlo
      simp at hf; subst hf
      obtain ⟨hc1, hc2⟩ := List.pairwise_cons.1 hcl
      simp only [link] at hlk
      split at hlk
      · cases hlk
      · rename_i next hn
        cases hl' : link next es with
        | none => rw [hl'] at hlk; cases hlk
        | some l' =>
          rw [hl'] at hlk; simp at hlk; subst hlk
          have hsnd := link_snd hl'
          by_cases hze : z < e.offset
          · -- in the gap before `e`
            rcases hlo with ⟨_, o, ho, hoz⟩ | hlo
            · constructor
              · intro _ e' he' ⟨s, hs, ho1, ho2⟩
                rcases List.mem_cons.1 he' with rfl | he'
                · omega
                · obtain ⟨s', _, _, h3⟩ := hc1 e' he'
                  omega
              · intro _
                exact ⟨o, e, by simp [ho], hoz, hze⟩
            · omega
          · cases es with
            | nil => simp at hla; subst hla; exact absurd hz hze
            | cons e2 es =>
              obtain ⟨s, hs, hs63, hse⟩ := hc1 e2 (by simp)
              have hnext : next = some (e.offset + (s : Int)) := by
                unfold endOf at hn
                rw [hs] at hn
                simp only [asI64_of_lt hs63] at hn
                split at hn
                · simpa using hn.symm
                · cases hn
              have hprev : ∀ o' e', (some o', e') ∈ l' → e.offset + (s : Int) ≤ o' ∨ o' = e.offset + (s:Int) ∨ True := by
                intros; simp
              by_cases hin : z < e.offset + s
              · -- occupied by e
                constructor
                · rintro ⟨o, e', hm, ho1, ho2⟩
                  exfalso
                  rcases List.mem_cons.1 hm with he | hm
                  · simp at he; obtain ⟨-, rfl⟩ := he; omega
                  · -- every start of a gap is an end of an entry at or after e
                    obtain ⟨k, hk⟩ := List.mem_iff_getElem?.1 hm
                    obtain ⟨hp0, hps⟩ := link_prev hl'
                    cases k with
                    | zero =>
                      have := hp0 _ hk
                      simp [hnext] at this; omega
                    | succ k =>
                      obtain ⟨y, hy⟩ : ∃ y, l'[k]? = some y :=
                        List.getElem?_eq_some_iff.2 |> fun f => ⟨l'[k]'(by
                          have := (List.getElem?_eq_some_iff.1 hk).1; omega), f ⟨_, rfl⟩⟩
                      have he := hps k _ _ hy hk
                      unfold endOf at he
                      have hymem : y.2 ∈ e2 :: es := by
                        rw [← hsnd]; exact List.mem_map.2 ⟨y, List.mem_of_getElem? hy, rfl⟩
                      obtain ⟨_, hs1, -, hyo⟩ := hc1 _ hymem
                      rw [hs] at hs1; cases hs1
                      have he'm : e' ∈ e2 :: es := by
                        rw [← hsnd]; exact List.mem_map.2 ⟨(some o, e'), hm, rfl⟩
                      -- y precedes e', so its size is known and small
                      have hpw : (l'.map Prod.snd).Pairwise Clear := by rw [hsnd]; exact hc2
                      have hk1 : (l'.map Prod.snd)[k]? = some y.2 := by simp [hy]
                      have hk2 : (l'.map Prod.snd)[k + 1]? = some e' := by simp [hk]
                      obtain ⟨hb1, hg1⟩ := List.getElem?_eq_some_iff.1 hk1
                      obtain ⟨hb2, hg2⟩ := List.getElem?_eq_some_iff.1 hk2
                      have := List.pairwise_iff_getElem.1 hpw k (k + 1) hb1 hb2 (by omega)
                      rw [hg1, hg2] at this
                      obtain ⟨s2, hs2, hs2l, -⟩ := this
                      rw [hs2] at he
                      simp only [asI64_of_lt hs2l] at he
                      split at he
                      · simp at he; omega
                      · cases he
                · intro hno
                  exact absurd ⟨s, hs, by omega, hin⟩ (hno e (by simp))
              · have hla' : (e2 :: es).getLast? = some last := by
                  rw [List.getLast?_cons_cons] at hla; exact hla
                have := ih next l' hl' hc2 e2 last rfl hla' hz
                  (fun o ho => by rw [hnext] at ho; cases ho; exact hse)
                  (.inl ⟨by simp [hnext], _, hnext, by omega⟩)
                constructor
                · rintro ⟨o, e', hm, ho1, ho2⟩ f hf' hocc
                  rcases List.mem_cons.1 hm with he | hm
                  · simp at he; obtain ⟨-, rfl⟩ := he; omega
                  · rcases List.mem_cons.1 hf' with rfl | hf'
                    · obtain ⟨s', hs', _, ho4⟩ := hocc
                      rw [hs] at hs'; cases hs'; omega
                    · exact this.1 ⟨o, e', hm, ho1, ho2⟩ f hf' hocc
                · intro hno
                  obtain ⟨o, e', hm, ho1, ho2⟩ := this.2 fun f hf' => hno f (List.mem_cons_of_mem _ hf')
                  exact ⟨o, e', List.mem_cons_of_mem _ hm, ho1, ho2⟩
  have hs := link_snd h
  rw [key _ none l h (by rw [← hs]; exact hc) first last (by rw [← hs]; exact hf) (by rw [← hs]; exact hl) h2
    (by simp) (.inr h1)]
  rw [← hs]
  exact ⟨fun hh e he => hh e ((hmem e).2 he), fun hh e he => hh e ((hmem e).1 he)⟩

/-- Finding (C40): with overlapping entries (a variable stored inside the area of a larger one) an
offset can be shown as unknown although the larger variable occupies it. -/
theorem C40_overlap_witness : ∃ (d : FunctionDetails) (l : List (Option Int × Entry)) (e : Entry),
    frameVariables (fun _ => none) d = some l ∧ e ∈ l.map Prod.snd ∧ Occupies e 14 ∧ InUnknown l 14 := by
  let loc (o : Int) (b : Nat) : Range × Piece := (⟨0, 10⟩, ⟨0, some b, .frameOffset o, 0, false⟩)
  refine ⟨{ variables := [{ locations := [loc 0 (8 * 16), loc 8 (8 * 4), loc 20 8] }] },
    [(none, ⟨0, some 16, none, none⟩), (some 16, ⟨8, some 4, none, none⟩), (some 12, ⟨20, some 1, none, none⟩)],
    ⟨0, some 16, none, none⟩, by decide +kernel, by simp, ⟨16, rfl, by decide, by decide⟩,
    ⟨12, ⟨20, some 1, none, none⟩, by simp, by decide, by decide⟩⟩

/-- Non-vacuity: a parameter, an inlined variable and a gap between them; all hypotheses of
`C40_gaps` hold. -/
example :
    let loc (o : Int) (b : Option Nat) : Range × Piece := (⟨0, 10⟩, ⟨0, b, .cfaOffset o, 0, false⟩)
    let d : FunctionDetails :=
      { parameters := [{ name := some [97], ty := some 5, locations := [loc (-8) none] }],
        inlined := [.mk none none [] [] [] [.mk none none [] [] [{ locations := [loc (-24) (some 60)] }] [] [] {}] [] {}] }
    let l : List (Option Int × Entry) :=
      [(none, ⟨-24, some 8, none, none⟩), (some (-16), ⟨-8, some 4, some [97], some 5⟩)]
    frameVariables (fun _ => some 4) d = some l ∧ (l.map Prod.snd).Pairwise Clear ∧ InUnknown l (-10) := by
  refine ⟨by decide +kernel, ?_, ⟨-16, ⟨-8, some 4, some [97], some 5⟩, by simp, by decide, by decide⟩⟩
  simp only [List.map_cons, List.map_nil, List.pairwise_cons, List.mem_cons, List.not_mem_nil, or_false]
  refine ⟨?_, by simp⟩
  rintro e rfl
  exact ⟨8, rfl, by decide, by decide⟩

/-! ### C54 -/

/-- The text of a location determines its offset and its size in bytes. -/
theorem locVal_eq (a b : FrameLocation) :
    (locVal a).text' = (locVal b).text' ↔ a.offset = b.offset ∧ a.bitSize.map bytesOf = b.bitSize.map bytesOf := by
  constructor
  · intro h
    simp only [locVal, Val.text'] at h
    have no91 : ∀ z, 91 ∉ decInt z := by
      intro z hz
      have hd : ∀ n, 91 ∉ dec n := by
        intro n hn
        obtain ⟨c, hc, h2⟩ := List.mem_map.1 hn
        have := Nat.isDigit_of_mem_toDigits (by decide) (by decide) hc
        simp only [Char.isDigit, Bool.and_eq_true, decide_eq_true_eq] at this
        have h3 : c.val.toNat ≤ (57 : UInt32).toNat := UInt32.le_iff_toNat_le.1 this.2
        have h4 : c.val.toNat = 91 := h2
        rw [h4] at h3
        exact absurd h3 (by decide)
      unfold decInt at hz
      split at hz
      · simp at hz; exact hd _ hz
      · exact hd _ hz
    have cut : ∀ (x y u v : Str), 91 ∉ x → 91 ∉ y → (u = [] ∨ u.head? = some 91) →
        (v = [] ∨ v.head? = some 91) → x ++ u = y ++ v → x = y ∧ u = v := by
      intro x
      induction x with
      | nil =>
        intro y u v _ hy hu hv h
        cases y with
        | nil => exact ⟨rfl, by simpa using h⟩
        | cons c y =>
          exfalso
          rcases hu with rfl | hu
          · simp at h
          · simp at h; subst h; simp at hu; simp [hu] at hy
      | cons c x ih =>
        intro y u v hx hy hu hv h
        cases y with
        | nil =>
          exfalso
          rcases hv with rfl | hv
          · simp at h
          · simp at h; subst h; simp at hv; simp [hv] at hx
        | cons c' y =>
          simp only [List.cons_append, List.cons.injEq] at h
          simp only [List.mem_cons, not_or] at hx hy
          obtain ⟨h1, h2⟩ := ih y u v hx.2 hy.2 hu hv h.2
          exact ⟨by rw [h.1, h1], h2⟩
    obtain ⟨h1, h2⟩ := cut _ _ _ _ (no91 _) (no91 _) (by cases a.bitSize <;> simp)
      (by cases b.bitSize <;> simp) h
    constructor
    · unfold decInt at h1
      have hd : ∀ n, dec n ≠ [] := dec_ne_nil
      have h45 : ∀ n m, dec n ≠ 45 :: dec m := by
        intro n m e
        have : 45 ∈ dec n := by rw [e]; simp
        obtain ⟨c, hc, h2⟩ := List.mem_map.1 this
        have := Nat.isDigit_of_mem_toDigits (by decide) (by decide) hc
        simp only [Char.isDigit, Bool.and_eq_true, decide_eq_true_eq] at this
        have h3 : (48 : UInt32).toNat ≤ c.val.toNat := UInt32.le_iff_toNat_le.1 this.1
        have h4 : c.val.toNat = 45 := h2
        rw [h4] at h3
        exact absurd h3 (by decide)
      split at h1 <;> split at h1
      · simp at h1; have := dec_inj h1; omega
      · exact absurd h1.symm (h45 _ _)
      · exact absurd h1 (h45 _ _)
      · have := dec_inj h1; omega
    · cases ha : a.bitSize <;> cases hb : b.bitSize <;> rw [ha, hb] at h2 <;> simp at h2 ⊢
      exact dec_inj h2
  · rintro ⟨h1, h2⟩
    unfold locVal
    rw [h1]
    cases ha : a.bitSize <;> cases hb : b.bitSize <;> rw [ha, hb] at h2 <;> simp_all

theorem locVal_ne (a : FrameLocation) : (locVal a).text' ≠ [] := by
  simp [locVal, Val.text', decInt_ne_nil]

theorem two_iff (l : List FrameLocation) : (sortDedup cmpLoc l).length > 1 ↔ ∃ x ∈ l, ∃ y ∈ l, x ≠ y := by
  have hn := sortDedup_nodup (cmp := cmpLoc) l
  have hm := mem_sortDedup (cmp := cmpLoc) l
  constructor
  · intro h
    match hs : sortDedup cmpLoc l with
    | [] => rw [hs] at h; simp at h
    | [x] => rw [hs] at h; simp at h
    | x :: y :: t =>
      rw [hs] at hn
      refine ⟨x, (hm x).1 (by simp [hs]), y, (hm y).1 (by simp [hs]), ?_⟩
      rintro rfl; simp at hn
  · rintro ⟨x, hx, y, hy, hne⟩
    have hx := (hm x).2 hx
    have hy := (hm y).2 hy
    match hs : sortDedup cmpLoc l with
    | [] => rw [hs] at hx; cases hx
    | [z] => rw [hs] at hx hy; simp at hx hy; exact absurd (hx.trans hy.symm) hne
    | x :: y :: t => simp

/-- The item is on one side only. -/
def onlyOne : MergeResult FrameLocation FrameLocation → Bool
  | .both _ _ => false
  | _ => true

/-- **C54 (old side has several locations).** The difference is reported exactly if the two sets of
locations differ. -/
theorem C54_many (o : Opts) (a b : List FrameLocation) (h : ∃ x ∈ a, ∃ y ∈ a, x ≠ y) (i : Nat)
    (x : DiffPrefix) (dp : Nat) :
    (diffLocs a b).flag o i x dp = true ↔ ∃ l, ¬ (l ∈ a ↔ l ∈ b) := by
  have h2 := (two_iff a).2 h
  have hsa := sortDedup_strict (cmp := cmpLoc) a
  have hsb := sortDedup_strict (cmp := cmpLoc) b
  rw [D.flag_eq]
  unfold diffLocs
  simp only [if_pos (Or.inl h2 : _ ∨ _)]
  have eqx : ∀ x y : FrameLocation, cmpLoc x y = .eq ↔ x = y :=
    fun x y => Std.LawfulEqCmp.compare_eq_iff_eq
  generalize hitems : merged cmpLoc (sortDedup cmpLoc a) (sortDedup cmpLoc b)
    ((sortDedup cmpLoc a).length + (sortDedup cmpLoc b).length) = items
  have hdel : ∀ l, .left l ∈ items ↔ l ∈ a ∧ l ∉ b := by
    intro l
    rw [← hitems]
    have := C18_deleted_iff cmpLoc id id (sortDedup cmpLoc a) (sortDedup cmpLoc b) _ (Nat.le_refl _) hsa hsb l
    simp only [id] at this
    rw [this, mem_sortDedup]
    refine and_congr_right fun _ => ⟨fun h hb => h l ((mem_sortDedup b l).2 hb) ((eqx _ _).2 rfl),
      fun h y hy e => h ?_⟩
    rw [(eqx _ _).1 e]; exact (mem_sortDedup b y).1 hy
  have hadd : ∀ l, .right l ∈ items ↔ l ∈ b ∧ l ∉ a := by
    intro l
    rw [← hitems]
    have := C18_added_iff cmpLoc id id (sortDedup cmpLoc a) (sortDedup cmpLoc b) _ (Nat.le_refl _) hsa hsb l
    simp only [id] at this
    rw [this, mem_sortDedup]
    refine and_congr_right fun _ => ⟨fun h ha => h l ((mem_sortDedup a l).2 ha) ((eqx _ _).2 rfl),
      fun h y hy e => h ?_⟩
    rw [← (eqx _ _).1 e]; exact (mem_sortDedup a y).1 hy
  have hboth : ∀ x y, .both x y ∈ items → x = y := by
    intro x y hm
    rw [← hitems] at hm
    exact (eqx _ _).1 (C18_pair_equal _ _ _ _ (Nat.le_refl _) x y hm)
  have flagItem : ∀ (it : MergeResult FrameLocation FrameLocation) (hb : ∀ x y, it = .both x y → x = y) i x,
      ((listItem (fun l => .line [] (locVal l)) (fun l => .line [] (locVal l))
        (fun x y => D.line [] (locVal x) (locVal y)) it).den o i x dp).2.1 =
      onlyOne it ∧
      ((listItem (fun l => .line [] (locVal l)) (fun l => .line [] (locVal l))
        (fun x y => D.line [] (locVal x) (locVal y)) it).den o i x dp).1 ≠ [] := by
    intro it hb i x
    cases it with
    | left l => simp [onlyOne, listItem, D.den, P.ls, locVal_ne]
    | right l => simp [onlyOne, listItem, D.den, P.ls, locVal_ne]
    | both u v =>
      obtain rfl := hb u v rfl
      simp [onlyOne, listItem, D.den, locVal_ne]
  -- flag and emptiness of the body
  have body : ∀ (its : List (MergeResult FrameLocation FrameLocation)),
      (∀ u v, .both u v ∈ its → u = v) → ∀ i x,
      ((D.ofItems (fun l => .line [] (locVal l)) (fun l => .line [] (locVal l))
        (fun x y => D.line [] (locVal x) (locVal y)) its).den o i x dp).2.1 =
        its.any onlyOne ∧
      (((D.ofItems (fun l => .line [] (locVal l)) (fun l => .line [] (locVal l))
        (fun x y => D.line [] (locVal x) (locVal y)) its).den o i x dp).1 = [] ↔ its = []) := by
    intro its
    induction its with
    | nil => intro _ i x; simp [D.ofItems, D.seqs, D.den]
    | cons it its ih =>
      intro hb i x
      have f1 := flagItem it (fun u v e => hb u v (by simp [e])) i x
      have ih := ih (fun u v h => hb u v (by simp [h])) i
      simp only [D.ofItems, List.map_cons, D.seqs, D.den, List.any_cons] at ih ⊢
      refine ⟨by rw [f1.1, (ih _).1], ?_⟩
      simp only [List.append_eq_nil_iff, reduceCtorEq, iff_false, not_and]
      intro h; exact absurd h f1.2
  obtain ⟨b1, b2⟩ := body items hboth (i + 1) .equal
  have hne : items ≠ [] := by
    intro hnil
    obtain ⟨hc, -⟩ := C18_complete cmpLoc (sortDedup cmpLoc a) (sortDedup cmpLoc b) _ (Nat.le_refl _)
    rw [hitems, hnil] at hc
    rw [← hc] at h2
    simp [oldItems] at h2
  simp only [D.den, if_neg (fun h => hne (b2.1 h)), b1]
  rw [List.any_eq_true]
  constructor
  · rintro ⟨it, hm, hf⟩
    cases it with
    | left l => exact ⟨l, fun hh => ((hdel l).1 hm).2 (hh.1 ((hdel l).1 hm).1)⟩
    | right l => exact ⟨l, fun hh => ((hadd l).1 hm).2 (hh.2 ((hadd l).1 hm).1)⟩
    | both u v => cases hf
  · rintro ⟨l, hl⟩
    by_cases hla : l ∈ a
    · exact ⟨.left l, (hdel l).2 ⟨hla, fun hb => hl ⟨fun _ => hb, fun _ => hla⟩⟩, rfl⟩
    · have hlb : l ∈ b := Classical.byContradiction fun hb => hl ⟨fun h => absurd h hla, fun h => absurd h hb⟩
      exact ⟨.right l, (hadd l).2 ⟨hlb, hla⟩, rfl⟩

/-- The location that sorts first. -/
def IsFirst (l : List FrameLocation) (x : FrameLocation) : Prop :=
  x ∈ l ∧ ∀ y ∈ l, y = x ∨ cmpLoc x y = .lt

theorem head_first (l : List FrameLocation) :
    (sortDedup cmpLoc l).head? = none ∧ l = [] ∨ ∃ x, (sortDedup cmpLoc l).head? = some x ∧ IsFirst l x := by
  have hm := mem_sortDedup (cmp := cmpLoc) l
  have hs := sortDedup_strict (cmp := cmpLoc) l
  cases h : sortDedup cmpLoc l with
  | nil =>
    left
    refine ⟨rfl, List.eq_nil_iff_forall_not_mem.2 fun x hx => ?_⟩
    have := (hm x).2 hx
    rw [h] at this; cases this
  | cons x t =>
    right
    rw [h] at hs hm
    refine ⟨x, rfl, (hm x).1 (by simp), fun y hy => ?_⟩
    rcases List.mem_cons.1 ((hm y).2 hy) with e | hy
    · exact .inl e
    · exact .inr ((List.pairwise_cons.1 hs).1 y hy)

/-- **C54 (old side has at most one location).** Only the first location of each side is compared,
and only by offset and size in bytes: with `x` the old and `y` the first new location (if any), the
difference is reported exactly if one is absent and the other not, or they differ in offset or in
size in bytes. -/
theorem C54_single (o : Opts) (a b : List FrameLocation) (h : ∀ x ∈ a, ∀ y ∈ a, x = y) (i : Nat)
    (p : DiffPrefix) (dp : Nat) :
    (a = [] → b = [] → (diffLocs a b).flag o i p dp = false) ∧
    (a = [] → b ≠ [] → (diffLocs a b).flag o i p dp = true) ∧
    (a ≠ [] → b = [] → (diffLocs a b).flag o i p dp = true) ∧
    (∀ x y, IsFirst a x → IsFirst b y →
      ((diffLocs a b).flag o i p dp = true ↔
        ¬ (x.offset = y.offset ∧ x.bitSize.map bytesOf = y.bitSize.map bytesOf))) := by
  have h1 : ¬ (sortDedup cmpLoc a).length > 1 := fun hh => by
    obtain ⟨x, hx, y, hy, hne⟩ := (two_iff a).1 hh
    exact hne (h x hx y hy)
  have first_unique : ∀ {l x y}, IsFirst l x → IsFirst l y → x = y := by
    intro l x y hx hy
    rcases hx.2 y hy.1 with e | e
    · exact e.symm
    · rcases hy.2 x hx.1 with e' | e'
      · exact e'
      · have := Std.TransCmp.lt_trans e e'
        rw [Std.ReflCmp.compare_self (cmp := cmpLoc)] at this; cases this
  rw [D.flag_eq]
  unfold diffLocs
  simp only [h1, or_self, if_false]
  have nofirst : ∀ l x, l = [] → ¬ IsFirst l x := by rintro l x rfl ⟨h, -⟩; cases h
  rcases head_first a with ⟨ea, ha⟩ | ⟨x, ea, ha⟩ <;> rcases head_first b with ⟨eb, hb⟩ | ⟨y, eb, hb⟩ <;>
    rw [ea, eb]
  · refine ⟨fun _ _ => by simp [D.den, firstVal, Val.text'], fun _ h => absurd hb h, fun h => absurd ha h,
      fun x y hx => absurd hx (nofirst _ _ ha)⟩
  · have hbn : b ≠ [] := by rintro rfl; cases hb.1
    refine ⟨fun _ h => absurd h hbn, fun _ _ => ?_, fun h => absurd ha h, fun x y hx => absurd hx (nofirst _ _ ha)⟩
    simp [D.den, firstVal, Val.text', fun e => locVal_ne y e, Ne.symm (locVal_ne y)]
  · have han : a ≠ [] := by rintro rfl; cases ha.1
    refine ⟨fun h => absurd h han, fun h => absurd h han, fun _ _ => ?_,
      fun x y _ hy => absurd hy (nofirst _ _ hb)⟩
    simp [D.den, firstVal, Val.text', locVal_ne x]
  · have han : a ≠ [] := by rintro rfl; cases ha.1
    have hbn : b ≠ [] := by rintro rfl; cases hb.1
    refine ⟨fun h => absurd h han, fun h => absurd h han, fun _ h => absurd h hbn, fun x' y' hx' hy' => ?_⟩
    obtain rfl := first_unique hx' ha
    obtain rfl := first_unique hy' hb
    rw [← locVal_eq]
    by_cases he : (locVal x').text' = (locVal y').text'
    · simp [D.den, firstVal, he, locVal_ne]
    · simp [D.den, firstVal, he, locVal_ne]

/-- Finding (C54): one old location, two new ones: no difference is reported, because the number of
old locations is tested twice and the number of new ones never. -/
theorem C54_missed_witness : ∃ a b : List FrameLocation, (∃ l, l ∈ b ∧ l ∉ a) ∧
    ∀ o i p dp, (diffLocs a b).flag o i p dp = false ∧
      ∀ l ∈ (diffLocs a b).lines o i p dp, l.marked = false := by
  refine ⟨[⟨8, none⟩], [⟨8, none⟩, ⟨16, none⟩], ⟨⟨16, none⟩, by decide, by decide⟩, fun o i p dp => ?_⟩
  rw [D.flag_eq, D.lines_eq]
  have : diffLocs [⟨8, none⟩] [⟨8, none⟩, ⟨16, none⟩] =
      .line stackFrame (locVal ⟨8, none⟩) (locVal ⟨8, none⟩) := by decide +kernel
  rw [this]
  simp [D.den, locVal_ne]
  split <;> rfl

/-- Non-vacuity: two old locations, one removed. -/
example : (∃ x ∈ [(⟨8, none⟩ : FrameLocation), ⟨16, some 32⟩], ∃ y ∈ [(⟨8, none⟩ : FrameLocation), ⟨16, some 32⟩], x ≠ y) ∧
    ∃ l, ¬ (l ∈ [(⟨8, none⟩ : FrameLocation), ⟨16, some 32⟩] ↔ l ∈ [(⟨8, none⟩ : FrameLocation)]) :=
  ⟨⟨_, by simp, _, by simp, (by decide : (⟨8, none⟩ : FrameLocation) ≠ ⟨16, some 32⟩)⟩,
    ⟨16, some 32⟩, by decide⟩

/-- A location's text is the specified one. -/
theorem locVal_written (l : FrameLocation) : Written l (locVal l).text' := by
  obtain ⟨o, b⟩ := l
  constructor
  · intro h; simp at h; subst h; simp [locVal, Val.text']
  · intro b' n h h1 h2
    simp at h; subst h
    have : bytesOf b' = n := by unfold bytesOf; omega
    simp [locVal, Val.text', this]

theorem cmpLoc_before {a b : FrameLocation} (h : cmpLoc a b = .lt) : Before a b := by
  obtain ⟨o, s⟩ := a
  obtain ⟨o', s'⟩ := b
  unfold cmpLoc at h
  rw [Ordering.then_eq_lt] at h
  rcases h with h | ⟨h1, h2⟩
  · exact .inl (Int.compare_eq_lt.1 h)
  · refine .inr ⟨Int.compare_eq_eq.1 h1, ?_⟩
    cases s <;> cases s' <;> simp [cmpNoneLast, Nat.compare_eq_lt] at h2 ⊢
    exact h2

/-- **C54 (listing).** Printing lists exactly the locations there are, each once, in order: nothing
if there is none, on the line of the label if there is one, and below the label if there are
several. -/
theorem C54_listing (locs : List FrameLocation) (http : Bool) (i : Nat) (x : DiffPrefix) (dp : Nat) :
    ∃ (ls : List FrameLocation) (ts : List Str), (∀ l, l ∈ ls ↔ l ∈ locs) ∧ ls.Pairwise Before ∧
      (ts.length = ls.length ∧ ∀ (k : Nat) l t, ls[k]? = some l → ts[k]? = some t → Written l t) ∧
      (ls = [] → (printLocs locs).lines http i x dp = []) ∧
      (ls.length = 1 → (printLocs locs).lines http i x dp = ts.map (.line x i (Str.ofString "stack frame"))) ∧
      (2 ≤ ls.length → (printLocs locs).lines http i x dp =
        .line x i (Str.ofString "stack frame") [] :: ts.map (.line x (i + 1) [])) := by
  refine ⟨sortDedup cmpLoc locs, (sortDedup cmpLoc locs).map fun l => (locVal l).text',
    mem_sortDedup (cmp := cmpLoc) locs, (sortDedup_strict (cmp := cmpLoc) locs).imp cmpLoc_before, ?_, ?_, ?_, ?_⟩
  · refine ⟨by simp, fun k l t h1 h2 => ?_⟩
    rw [List.getElem?_map, h1] at h2
    simp at h2
    exact h2 ▸ locVal_written l
  all_goals
    intro h
    rw [P.lines_eq]
    unfold printLocs
    generalize sortDedup cmpLoc locs = ls at h ⊢
  · subst h; simp [P.ls]
  · match ls, h with
    | [l], _ => simp [P.ls, locVal_ne, stackFrame]
  · match ls, h with
    | a :: b :: t, _ =>
      have : ∀ ls : List FrameLocation, (P.seqs (ls.map fun l => .line [] (locVal l))).ls http (i + 1) x dp =
          ls.map fun l => .line x (i + 1) [] (locVal l).text' := by
        intro ls
        induction ls with
        | nil => simp [P.seqs, P.ls]
        | cons l t ih => simp [P.seqs, P.ls, locVal_ne] at ih ⊢; exact ih
      simp only [P.ls, this]
      simp [stackFrame]

/-- Non-vacuity: three different locations. -/
example : (printLocs [⟨16, some 31⟩, ⟨-8, none⟩, ⟨16, none⟩, ⟨-8, none⟩]).lines false 0 .none 0 =
    [.line .none 0 (Str.ofString "stack frame") [], .line .none 1 [] (Str.ofString "-8"),
     .line .none 1 [] (Str.ofString "16[4]"), .line .none 1 [] (Str.ofString "16")] := by decide +kernel

end Verif.Frame
