import Verif.Web.Walk
/-!
# The diff programs have flat headers, plain labels and no ids
-/
namespace Verif.Web
open Verif.Print Verif.Html Verif.Item Verif.Opts Verif.Show Verif.Merge Verif.Range Verif.Frame Verif.Types Verif.Layout
  Verif.Namespace Verif.File

/-- Diff programs with flat headers, plain labels, and without ids and instructions. -/
def CleanD : D → Prop
  | .skip => True
  | .seq p q => CleanD p ∧ CleanD q
  | .lineBreak => True
  | .label l => Html.Plain l
  | .line l _ _ => Html.Plain l
  | .indent _ h b => FlatD h ∧ CleanD b
  | .field _ l b => Html.Plain l ∧ CleanD b
  | .id .. => False
  | .inline e => CleanD e
  | .prefixDelete p => Clean p
  | .prefixAdd p => Clean p
  | .block a b => Clean a ∧ Clean b
  | .printIfDiff e => CleanD e
  | .ignoreDiff _ e => CleanD e

theorem CleanD.seqs {l : List D} (h : ∀ e ∈ l, CleanD e) : CleanD (D.seqs l) := by
  induction l with
  | nil => trivial
  | cons e l ih => exact ⟨h e (by simp), ih fun x hx => h x (by simp [hx])⟩

theorem CleanD.whenD {b : Bool} {f : Option D} {e : D} (h : ∀ x, f = some x → CleanD x) (he : whenD b f = some e) :
    CleanD e := by
  unfold Show.whenD at he
  split at he
  · exact h _ he
  · simp only [Option.some.injEq] at he; subst he; trivial

theorem CleanD.map_field {c : Bool} {l : Str} {f : Option D} {e : D} (hl : Html.Plain l) (h : ∀ x, f = some x → CleanD x)
    (he : f.map (.field c l) = some e) : CleanD e := by
  rw [Option.map_eq_some_iff] at he
  obtain ⟨x, hx, rfl⟩ := he
  exact ⟨hl, h x hx⟩

theorem CleanD.items {α : Type} {print print' : α → Option P} {diff : α → α → Option D} {l : List (MergeResult α α)} {es : List D}
    (hp : ∀ x p, print x = some p → Clean p) (hq : ∀ x p, print' x = some p → Clean p)
    (hd : ∀ x y e, diff x y = some e → CleanD e) (h : l.mapM (itemD print print' diff) = some es) : CleanD (D.seqs es) := by
  refine CleanD.seqs fun e he => ?_
  obtain ⟨x, _, hx⟩ := mapM_option h e he
  cases x with
  | both a b => exact hd _ _ _ hx
  | left a =>
    simp only [itemD, Option.map_eq_some_iff] at hx
    obtain ⟨p, hp', rfl⟩ := hx
    exact hp _ _ hp'
  | right a =>
    simp only [itemD, Option.map_eq_some_iff] at hx
    obtain ⟨p, hp', rfl⟩ := hx
    exact hq _ _ hp'

theorem CleanD.list {α : Type} {Q : Path.Heap} {print print' : α → Option P} {diff : α → α → Option D} {c1 c2 : α → Nat}
    {cost : α → α → Nat} {la lb : List α} {e : D}
    (hp : ∀ x p, print x = some p → Clean p) (hq : ∀ x p, print' x = some p → Clean p)
    (hd : ∀ x y e, diff x y = some e → CleanD e) (h : listD Q print print' diff c1 c2 cost la lb = some e) : CleanD e := by
  unfold listD at h
  split at h
  · split at h
    · rw [Option.map_eq_some_iff] at h
      obtain ⟨es, hes, rfl⟩ := h
      exact CleanD.items hp hq hd hes
    · cases h
  · cases h

theorem CleanD.ordList {α : Type} {cmp : α → α → Ordering} {print print' : α → Option P} {diff : α → α → Option D}
    {la lb : List α} {e : D}
    (hp : ∀ x p, print x = some p → Clean p) (hq : ∀ x p, print' x = some p → Clean p)
    (hd : ∀ x y e, diff x y = some e → CleanD e) (h : ordListD cmp print print' diff la lb = some e) : CleanD e := by
  unfold ordListD at h
  rw [Option.map_eq_some_iff] at h
  obtain ⟨es, hes, rfl⟩ := h
  exact CleanD.items hp hq hd hes

theorem CleanD.ofItems {α : Type} {print print' : α → P} {diff : α → α → D} {l : List (MergeResult α α)}
    (hp : ∀ x, Clean (print x)) (hq : ∀ x, Clean (print' x)) (hd : ∀ x y, CleanD (diff x y)) :
    CleanD (D.ofItems print print' diff l) := by
  refine CleanD.seqs fun e he => ?_
  obtain ⟨x, _, rfl⟩ := List.mem_map.1 he
  cases x with
  | both a b => exact hd _ _
  | left a => exact hp _
  | right a => exact hq _

/-! ### Types -/

theorem cleanD_source (o : Options) (da db : Option Str) (a b : Source) : CleanD (sourceD o da a db b) := by
  unfold sourceD; split
  · show Html.Plain _; decide
  · trivial

theorem clean_variants {s : Side} {rec : Option Ty → Option P} (hr : ∀ t p, rec t = some p → Clean p) {l : Layout}
    {v : Variant} {p : P} (hq : variantP s rec l v = some p) : Clean p := by
  simp only [variantP, Option.bind_eq_bind, Option.bind_eq_some_iff, Option.some.injEq] at hq
  obtain ⟨b, hb, rfl⟩ := hq
  refine ⟨plain_nil, Clean.list (fun x _ q hq => ?_) hb⟩
  refine clean_layoutItem hr (fun l v p h => ?_) hq
  simp only [Option.some.injEq] at h
  subst h; trivial

/-- What `membersD` and its parts call is clean. -/
structure CleanRecs (r : Recs) : Prop where
  pa : ∀ t p, r.pa t = some p → Clean p
  pb : ∀ t p, r.pb t = some p → Clean p
  d : ∀ t u e, r.d t u = some e → CleanD e

theorem cleanD_member {c : Pair} {r : Recs} (hr : CleanRecs r) {a b : Member} {e : D} (h : memberD c r a b = some e) :
    CleanD e := by
  simp only [memberD, Option.bind_eq_bind, Option.bind_eq_some_iff, Option.some.injEq] at h
  obtain ⟨b, hb, rfl⟩ := h
  exact ⟨plain_nil, hr.d _ _ _ hb⟩

theorem cleanD_layoutItem {c : Pair} {r : Recs} (hr : CleanRecs r) {pa pb : Layout → List Variant → Option P}
    {d : Layout → List Variant → Layout → List Variant → Option D} (ha : ∀ l v p, pa l v = some p → Clean p)
    (hb : ∀ l v p, pb l v = some p → Clean p) (hd : ∀ l v m w e, d l v m w = some e → CleanD e) {a b : Layout} {e : D}
    (h : layoutItemD c r pa pb d a b = some e) : CleanD e := by
  unfold layoutItemD at h
  split at h
  · simp only [Option.some.injEq] at h; subst h; exact plain_nil
  · exact cleanD_member hr h
  · simp only [Option.bind_eq_bind, Option.bind_eq_some_iff, Option.some.injEq] at h
    obtain ⟨b, hb, rfl⟩ := h
    exact ⟨plain_nil, hd _ _ _ _ _ hb⟩
  · simp only [Option.some.injEq] at h; subst h; exact plain_nil
  · simp only [Option.bind_eq_bind, Option.bind_eq_some_iff, Option.some.injEq] at h
    obtain ⟨p, hp, q, hq, rfl⟩ := h
    exact ⟨clean_layoutItem hr.pa ha hp, clean_layoutItem hr.pb hb hq⟩

theorem cleanD_variant {c : Pair} {r : Recs} (hr : CleanRecs r) {la lb : Layout} {a b : Variant} {e : D}
    (h : variantD c r la lb a b = some e) : CleanD e := by
  have hs : ∀ (l : Layout) (v : List Variant) (p : P), (some P.skip : Option P) = some p → Clean p := by
    intro _ _ p h; simp only [Option.some.injEq] at h; subst h; trivial
  simp only [variantD, Option.bind_eq_bind, Option.bind_eq_some_iff, Option.some.injEq] at h
  obtain ⟨b, hb, rfl⟩ := h
  refine ⟨plain_nil, CleanD.list (fun x p hp => clean_layoutItem hr.pa hs hp) (fun x p hp => clean_layoutItem hr.pb hs hp)
    (fun x y e he => cleanD_layoutItem hr hs hs ?_ he) hb⟩
  intro _ _ _ _ e h; simp only [Option.some.injEq] at h; subst h; trivial

theorem cleanD_layout {c : Pair} {r : Recs} (hr : CleanRecs r) {a b : Layout} {e : D} (h : layoutD c r a b = some e) :
    CleanD e :=
  cleanD_layoutItem hr (fun _ _ _ h => Clean.list (fun _ _ _ hq => clean_variants hr.pa hq) h)
    (fun _ _ _ h => Clean.list (fun _ _ _ hq => clean_variants hr.pb hq) h)
    (fun _ _ _ _ _ h => CleanD.list (fun _ _ hp => clean_variants hr.pa hp) (fun _ _ hp => clean_variants hr.pb hp)
      (fun _ _ _ he => cleanD_variant hr he) h) h

theorem cleanD_members (c : Pair) (n : Nat) : ∀ t u e, membersD c n t u = some e → CleanD e := by
  induction n with
  | zero => intro t u e h; simp [membersD] at h
  | succ n ih =>
    intro t u e h
    have hr : CleanRecs ⟨membersP c.a n, membersP c.b n, membersD c n⟩ := ⟨clean_members _ _, clean_members _ _, ih⟩
    unfold membersD at h
    split at h
    · exact CleanD.list (fun _ _ hp => clean_layout hr.pa hp) (fun _ _ hp => clean_layout hr.pb hp)
        (fun _ _ _ he => cleanD_layout hr he) h
    · exact CleanD.list (fun _ _ hp => clean_member hr.pa hp) (fun _ _ hp => clean_member hr.pb hp)
        (fun _ _ _ he => cleanD_member hr he) h
    · simp only [Option.bind_eq_bind, Option.bind_eq_some_iff, Option.some.injEq] at h
      obtain ⟨p, hp, q, hq, rfl⟩ := h
      exact ⟨clean_members _ _ _ _ hp, clean_members _ _ _ _ hq⟩

theorem cleanD_inherits {c : Pair} {la lb : List Inherit} {e : D} (h : inheritsD c la lb = some e) : CleanD e := by
  have l1 : Html.Plain (k "inherits") := by decide
  unfold inheritsD at h
  split at h
  · refine CleanD.map_field l1 (fun x hx => CleanD.list (fun _ _ hp => ?_) (fun _ _ hp => ?_) (fun _ _ _ he => ?_) hx) h
    · simp only [Option.some.injEq] at hp; subst hp; exact plain_nil
    · simp only [Option.some.injEq] at hp; subst hp; exact plain_nil
    · simp only [Option.some.injEq] at he; subst he; exact plain_nil
  · simp only [Option.some.injEq] at h; subst h; exact l1

theorem cleanD_body {o : Options} {c : Pair} {da db : Option Str} {n : Nat} {x y : Extra} {t u : Ty} {e : D}
    (h : bodyD o c da db n x y t u = some e) : CleanD e := by
  have lab : Html.Plain (k "size") ∧ Html.Plain (k "encoding") ∧ Html.Plain (k "endianity") ∧ Html.Plain (k "members") ∧
    Html.Plain (k "declaration") ∧ Html.Plain (k "enumerators") := by decide
  obtain ⟨l1, l2, l3, l4, l5, l6⟩ := lab
  unfold bodyD at h
  split at h
  · simp only [Option.some.injEq] at h; subst h
    exact ⟨l1, l2, l3, trivial⟩
  · simp only [Option.bind_eq_bind, Option.bind_eq_some_iff, Option.some.injEq] at h
    obtain ⟨b, hb, rfl⟩ := h
    exact ⟨cleanD_source _ _ _ _ _, l1, ⟨l4, cleanD_members _ _ _ _ _ hb⟩, trivial⟩
  · simp only [Option.bind_eq_bind, Option.bind_eq_some_iff, Option.some.injEq] at h
    obtain ⟨b, hb, i, hi, rfl⟩ := h
    exact ⟨cleanD_source _ _ _ _ _, l5, l1, cleanD_inherits hi, ⟨l4, cleanD_members _ _ _ _ _ hb⟩, trivial⟩
  · simp only [Option.bind_eq_bind, Option.bind_eq_some_iff, Option.some.injEq] at h
    obtain ⟨b, hb, rfl⟩ := h
    exact ⟨cleanD_source _ _ _ _ _, l5, l1, ⟨l4, cleanD_members _ _ _ _ _ hb⟩, trivial⟩
  · simp only [Option.bind_eq_bind, Option.bind_eq_some_iff, Option.some.injEq] at h
    obtain ⟨b, hb, rfl⟩ := h
    refine ⟨cleanD_source _ _ _ _ _, l5, l1, ⟨l6, CleanD.list (fun _ _ hp => ?_) (fun _ _ hp => ?_) (fun _ _ _ he => ?_) hb⟩,
      trivial⟩
    · simp only [Option.some.injEq] at hp; subst hp; exact plain_nil
    · simp only [Option.some.injEq] at hp; subst hp; exact plain_nil
    · simp only [Option.some.injEq] at he; subst he; exact plain_nil
  · cases h

theorem flatD_header {c : Pair} {t u : Ty} {e : D} (h : headerD c t u = some e) : ∃ a b, e = .line [] a b := by
  unfold headerD at h
  split at h
  all_goals first
    | (simp only [Option.some.injEq] at h; exact ⟨_, _, h.symm⟩)
    | cases h

/-! ### Functions -/

theorem cleanD_regs {c : FnPair} {la lb : List Nat} {e : D} (h : regsD c la lb = some e) : CleanD e := by
  have l1 : Html.Plain (k "registers") := by decide
  refine CleanD.map_field l1 (fun x hx => CleanD.list (fun _ _ hp => ?_) (fun _ _ hp => ?_) (fun _ _ _ he => ?_) hx) h
  · simp only [Option.some.injEq] at hp; subst hp; exact plain_nil
  · simp only [Option.some.injEq] at hp; subst hp; exact plain_nil
  · simp only [Option.some.injEq] at he; subst he; exact plain_nil

theorem cleanD_locs (la lb : List FrameLocation) : CleanD (diffLocs la lb) := by
  have l1 : Html.Plain stackFrame := by decide
  unfold diffLocs
  simp only
  split
  · exact ⟨l1, CleanD.ofItems (fun _ => plain_nil) (fun _ => plain_nil) fun _ _ => plain_nil⟩
  · exact l1

theorem cleanD_pieces {c : FnPair} {la lb : List Piece} {e : D} (h : piecesD c la lb = some e) : CleanD e := by
  have hp : ∀ {s : FnSide} (x : Location) (p : P), locationP s x = some p → Clean p := by
    intro s x p h
    unfold locationP at h
    rw [Option.map_eq_some_iff] at h
    obtain ⟨v, _, rfl⟩ := h
    exact plain_nil
  refine CleanD.list hp hp (fun _ _ _ he => ?_) h
  simp only [locationD, Option.bind_eq_bind, Option.bind_eq_some_iff, Option.some.injEq] at he
  obtain ⟨_, _, _, _, rfl⟩ := he
  exact plain_nil

theorem some_eq {α : Type} {Q : α → Prop} {x y : α} (h : some x = some y) (hx : Q x) : Q y := by
  cases h; exact hx

theorem cleanD_params {o : Options} {c : FnPair} {la lb : List Parameter} {e : D} (h : paramsD o c la lb = some e) :
    CleanD e := by
  refine CleanD.list (fun _ _ hp => some_eq hp (clean_param _ _ _)) (fun _ _ hp => some_eq hp (clean_param _ _ _))
    (fun _ _ _ he => ?_) h
  simp only [paramD, Option.bind_eq_bind, Option.bind_eq_some_iff, Option.some.injEq] at he
  obtain ⟨b, hb, rfl⟩ := he
  refine ⟨plain_nil, CleanD.whenD (fun x hx => ?_) hb⟩
  simp only [Option.bind_eq_some_iff, Option.some.injEq] at hx
  obtain ⟨rs, hrs, rfl⟩ := hx
  exact ⟨cleanD_regs hrs, cleanD_locs _ _⟩

theorem cleanD_locals {o : Options} {c : FnPair} {la lb : List LocalVariable} {e : D} (h : localsD o c la lb = some e) :
    CleanD e := by
  have l1 : Html.Plain (k "address") := by decide
  refine CleanD.list (fun _ _ hp => some_eq hp (clean_local _ _ _)) (fun _ _ hp => some_eq hp (clean_local _ _ _))
    (fun _ _ _ he => ?_) h
  simp only [localD, Option.bind_eq_bind, Option.bind_eq_some_iff, Option.some.injEq] at he
  obtain ⟨b, hb, rfl⟩ := he
  refine ⟨plain_nil, CleanD.whenD (fun x hx => ?_) hb⟩
  simp only [Option.bind_eq_some_iff, Option.some.injEq] at hx
  obtain ⟨rs, hrs, rfl⟩ := hx
  exact ⟨l1, cleanD_regs hrs, cleanD_locs _ _, trivial⟩

theorem cleanD_callParam {o : Options} {c : FnPair} {a b : CallParameter} {e : D} (h : callParamD o c a b = some e) :
    CleanD e := by
  have lab : Html.Plain (k "location") ∧ Html.Plain (k "value") ∧ Html.Plain (k "data_location") ∧
    Html.Plain (k "data_value_location") := by decide
  obtain ⟨l1, l2, l3, l4⟩ := lab
  simp only [callParamD, Option.bind_eq_bind, Option.bind_eq_some_iff, Option.some.injEq] at h
  obtain ⟨b, hb, rfl⟩ := h
  refine ⟨plain_nil, CleanD.whenD (fun q hq => ?_) hb⟩
  simp only [Option.bind_eq_some_iff, Option.some.injEq] at hq
  obtain ⟨a1, h1, a2, h2, a3, h3, a4, h4, rfl⟩ := hq
  exact ⟨⟨l1, cleanD_pieces h1⟩, ⟨l2, cleanD_pieces h2⟩, ⟨l3, cleanD_pieces h3⟩, ⟨l4, cleanD_pieces h4⟩, trivial⟩

theorem cleanD_callParamsAdd {o : Options} {c : FnPair} {bs : List CallParameter} {e : D}
    (h : callParamsAddD o c bs = some e) : CleanD e := by
  induction bs generalizing e with
  | nil => simp only [callParamsAddD, Option.some.injEq] at h; subst h; trivial
  | cons b bs ih =>
    simp only [callParamsAddD, Option.bind_eq_bind, Option.bind_eq_some_iff, Option.some.injEq] at h
    obtain ⟨p, hp, r, hr, rfl⟩ := h
    exact ⟨clean_callParam hp, ih hr⟩

theorem cleanD_callParams {o : Options} {c : FnPair} {as bs : List CallParameter} {e : D}
    (h : callParamsD o c as bs = some e) : CleanD e := by
  induction as generalizing bs e with
  | nil => unfold callParamsD at h; exact cleanD_callParamsAdd h
  | cons a as ih =>
    cases bs with
    | nil =>
      simp only [callParamsD, Option.bind_eq_bind, Option.bind_eq_some_iff, Option.some.injEq] at h
      obtain ⟨p, hp, r, hr, rfl⟩ := h
      exact ⟨clean_callParam hp, ih hr⟩
    | cons b bs =>
      simp only [callParamsD, Option.bind_eq_bind, Option.bind_eq_some_iff, Option.some.injEq] at h
      obtain ⟨p, hp, r, hr, rfl⟩ := h
      exact ⟨cleanD_callParam hp, ih hr⟩

theorem cleanD_callSites {o : Options} {c : FnPair} {da db : Option Str} {la lb : List FunctionCall} {e : D}
    (h : callSitesD o c da db la lb = some e) : CleanD e := by
  have lab : Html.Plain (k "target") ∧ Html.Plain (k "return address") ∧ Html.Plain (k "parameters") := by decide
  obtain ⟨l1, l2, l3⟩ := lab
  refine CleanD.list (fun _ _ hp => clean_callSite hp) (fun _ _ hp => clean_callSite hp) (fun _ _ _ he => ?_) h
  simp only [callSiteD, Option.bind_eq_bind, Option.bind_eq_some_iff, Option.some.injEq] at he
  obtain ⟨t, ht, ps, hps, rfl⟩ := he
  exact ⟨plain_nil, l2, CleanD.whenD (fun q hq => CleanD.map_field l1 (fun _ h => cleanD_pieces h) hq) ht,
    cleanD_source _ _ _ _ _, CleanD.whenD (fun q hq => CleanD.map_field l3 (fun _ h => cleanD_callParams h) hq) hps, trivial⟩

theorem cleanD_inlined {o : Options} {c : FnPair} {da db : Option Str} (n : Nat) :
    ∀ f g e, inlinedD o c da db n f g = some e → CleanD e := by
  have lab : Html.Plain (k "call source") ∧ Html.Plain (k "parameters") ∧ Html.Plain (k "variables") ∧
    Html.Plain (k "call sites") := by decide
  obtain ⟨l1, l2, l3, l4⟩ := lab
  induction n with
  | zero => intro f g e h; simp [inlinedD] at h
  | succ n ih =>
    intro f g e h
    simp only [inlinedD, Option.bind_eq_bind, Option.bind_eq_some_iff, Option.some.injEq] at h
    obtain ⟨ps, hps, vs, hvs, cs, hcs, is, his, rfl⟩ := h
    refine ⟨plain_nil, ?_, CleanD.whenD (fun q hq => CleanD.map_field l2 (fun _ h => cleanD_params h) hq) hps,
      CleanD.whenD (fun q hq => CleanD.map_field l3 (fun _ h => cleanD_locals h) hq) hvs,
      CleanD.whenD (fun q hq => CleanD.map_field l4 (fun _ h => cleanD_callSites h) hq) hcs,
      show CleanD is from CleanD.list (fun _ _ hp => clean_inlined n _ _ hp) (fun _ _ hp => clean_inlined n _ _ hp) ih his,
      trivial⟩
    split
    · exact l1
    · trivial

theorem cleanD_frame {c : FnPair} {da db : FunctionDetails} {e : D} (h : frameD c da db = some e) : CleanD e := by
  have hp : ∀ {tref : TypeOffset → Val} (x : Option Int × Entry) (p : P), printEntry tref x = some p → Clean p := by
    intro tref x p h
    simp only [printEntry, Option.map_eq_some_iff] at h
    obtain ⟨u, _, rfl⟩ := h
    exact ⟨plain_nil, plain_nil⟩
  simp only [frameD, Option.bind_eq_bind, Option.bind_eq_some_iff] at h
  obtain ⟨va, _, vb, _, h⟩ := h
  refine CleanD.ordList hp hp (fun _ _ _ he => ?_) h
  simp only [frameEntryD, Option.bind_eq_bind, Option.bind_eq_some_iff, Option.some.injEq] at he
  obtain ⟨_, _, _, _, rfl⟩ := he
  exact ⟨plain_nil, plain_nil⟩

theorem cleanD_ranges (ra rb : List Range) : CleanD (rangesD ra rb) := by
  unfold rangesD
  split
  · exact ⟨by decide, CleanD.ofItems (fun _ => plain_nil) (fun _ => plain_nil) fun _ _ => plain_nil⟩
  · show Html.Plain _; decide

/-- The diff of the bodies of functions, before their instructions. -/
theorem fnBodyD_parts {o : Options} {c : FnPair} {da db : Option Str} {n : Nat} {f g : Function} {e : D}
    (h : fnBodyD o c da db n f g = some e) :
    ∃ (l : List D) (insns : D), e = D.seqs (l ++ [insns]) ∧ (∀ q ∈ l, CleanD q) ∧
      whenD o.printFunctionInstructions (do
        let p ← instructionsP c.a f
        let q ← instructionsP c.b g
        some (D.field true (k "instructions") (.ignoreDiff true (.block p q)))) = some insns := by
  have lab : Html.Plain (k "linkage name") ∧ Html.Plain (k "symbol name") ∧ Html.Plain (k "size") ∧ Html.Plain (k "inline") ∧
    Html.Plain (k "declaration") ∧ Html.Plain (k "return type") ∧ Html.Plain (k "parameters") ∧ Html.Plain (k "variables") ∧
    Html.Plain (k "stack frame") ∧ Html.Plain (k "inlined functions") ∧ Html.Plain (k "call sites") ∧
    Html.Plain (k "calls") := by decide
  obtain ⟨l1, l2, l3, l4, l5, l6, l7, l8, l9, l10, l11, l12⟩ := lab
  rw [fnBodyD] at h
  simp only [Option.bind_eq_bind, Option.bind_eq_some_iff, Option.some.injEq] at h
  obtain ⟨ps, hps, vs, hvs, fr, hfr, inl, hinl, st, hst, cs, hcs, ins, hins, rfl⟩ := h
  refine ⟨[_, _, _, _, _, _, _, _, _, _, _, _, _, _], ins, rfl, ?_, ?_⟩
  · simp only [List.forall_mem_cons]
    refine ⟨l1, l2, cleanD_source _ _ _ _ _, cleanD_ranges _ _, l3, l4, l5, ⟨l6, plain_nil⟩, ⟨l7, cleanD_params hps⟩,
      CleanD.whenD (fun q hq => CleanD.map_field l8 (fun _ h => cleanD_locals h) hq) hvs,
      CleanD.whenD (fun q hq => CleanD.map_field l9 (fun _ h => cleanD_frame h) hq) hfr,
      ⟨l10, CleanD.list (fun _ _ hp => clean_inlined n _ _ hp) (fun _ _ hp => clean_inlined n _ _ hp)
        (cleanD_inlined n) hinl⟩,
      CleanD.whenD (fun q hq => CleanD.map_field l11 (fun _ h => cleanD_callSites h) hq) hst,
      CleanD.whenD (fun q hq => ?_) hcs, by simp⟩
    simp only [Option.bind_eq_some_iff] at hq
    obtain ⟨la, _, lb, _, hq⟩ := hq
    refine CleanD.map_field l12 (fun _ h => CleanD.list (fun _ _ hp => ?_) (fun _ _ hp => ?_) (fun _ _ _ he => ?_) h) hq
    · simp only [Option.some.injEq] at hp; subst hp; exact plain_nil
    · simp only [Option.some.injEq] at hp; subst hp; exact plain_nil
    · simp only [Option.some.injEq] at he; subst he; exact plain_nil
  · rw [← hins]; rfl

/-! ### Units and files -/

theorem cleanD_variable (o : Options) (a b : Side) (da db : Option Str) (v w : Variable) :
    CleanD (variableBodyD o a b da db v w) := by
  have lab : Html.Plain (k "linkage name") ∧ Html.Plain (k "symbol name") ∧ Html.Plain (k "size") ∧
    Html.Plain (k "address") ∧ Html.Plain (k "declaration") := by decide
  exact ⟨lab.1, lab.2.1, cleanD_source _ _ _ _ _, lab.2.2.2.1, lab.2.2.1, lab.2.2.2.2, trivial⟩

theorem cleanD_rangeItems (ra rb : List Range) : CleanD (rangeItemsD ra rb) :=
  CleanD.ofItems (fun _ => plain_nil) (fun _ => plain_nil) fun _ _ => plain_nil

theorem cleanD_u64 {l : Str} (hl : Html.Plain l) {a b : Nat} {e : D} (h : D.fieldU64 l a b = some e) : CleanD e := by
  unfold D.fieldU64 at h
  split at h
  · simp only [Option.some.injEq] at h; subst h; exact hl
  · cases h

theorem cleanD_unitPart {o : Options} {a b : Side} {u v : CompUnit} {e : D} (h : unitPartD o a b u v = some e) :
    CleanD e := by
  have lab : Html.Plain (k "fn size") ∧ Html.Plain (k "var size") ∧ Html.Plain (k "unknown size") ∧
    Html.Plain (k "addresses") ∧ Html.Plain (k "address") ∧ Html.Plain (k "unknown addresses") := by decide
  obtain ⟨l1, l2, l3, l4, l5, l6⟩ := lab
  have hz : ∀ {l : Str} {n m : Nat} {e : D}, Html.Plain l → sizeLineD l n m = some e → CleanD e := by
    intro l n m e hl h
    unfold sizeLineD at h
    split at h
    · exact cleanD_u64 hl h
    · simp only [Option.some.injEq] at h; subst h; trivial
  simp only [unitPartD, Option.bind_eq_bind, Option.bind_eq_some_iff, Option.some.injEq] at h
  obtain ⟨_, _, _, _, _, _, _, _, _, _, _, _, x, hx, y, hy, z, hz', rfl⟩ := h
  refine ⟨?_, hz l1 hx, hz l2 hy, hz l3 hz', trivial, trivial⟩
  split
  · refine ⟨?_, l6, cleanD_rangeItems _ _⟩
    split
    · exact ⟨l4, cleanD_rangeItems _ _⟩
    · exact l5
  · trivial

theorem clean_section (x : Section) : Clean (sectionP x) := by
  have lab : Html.Plain (k "size") ∧ Html.Plain (k "address") := by decide
  exact ⟨plain_nil, lab.2, lab.1⟩

theorem cleanD_filePart {o : Options} {c : FilePair} {e : D} (h : filePartD o c = some e) : CleanD e := by
  have lab : Html.Plain (k "addresses") ∧ Html.Plain (k "size") ∧ Html.Plain (k "fn size") ∧ Html.Plain (k "var size") ∧
    Html.Plain (k "other size") ∧ Html.Plain (k "sections") ∧ Html.Plain (k "address") := by decide
  obtain ⟨l1, l2, l3, l4, l5, l6, l7⟩ := lab
  simp only [filePartD, Option.bind_eq_bind, Option.bind_eq_some_iff, Option.some.injEq] at h
  obtain ⟨m, _, a1, h1, a2, h2, a3, h3, a4, h4, ss, hss, rfl⟩ := h
  refine ⟨⟨plain_nil, ?_, cleanD_u64 l2 h1, cleanD_u64 l3 h2, cleanD_u64 l4 h3, cleanD_u64 l5 h4, ⟨l6, ?_⟩, trivial⟩, trivial⟩
  · split
    · exact ⟨l1, cleanD_rangeItems _ _⟩
    · trivial
  · refine CleanD.list (fun _ _ hp => some_eq hp (clean_section _)) (fun _ _ hp => some_eq hp (clean_section _))
      (fun _ _ _ he => ?_) hss
    simp only [sectionD, Option.bind_eq_bind, Option.bind_eq_some_iff, Option.some.injEq] at he
    obtain ⟨s, hs, rfl⟩ := he
    exact ⟨plain_nil, l7, cleanD_u64 l2 hs⟩

end Verif.Web
