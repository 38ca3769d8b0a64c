import Verif.Web.Opens
import Verif.Show.FileModel
/-!
# The bodies of items have no ids, and headers of one line
-/
namespace Verif.Web
open Verif.Print Verif.Html Verif.Item Verif.Types Verif.Opts Verif.Show Verif.Frame Verif.Range Verif.Layout

/-- No ids, no details, no instructions; headers of lines; plain labels. -/
def Clean : P → Prop
  | .skip => True
  | .seq p q => Clean p ∧ Clean q
  | .lineBreak => True
  | .label l => Plain l
  | .line l _ => Plain l
  | .instruction .. => False
  | .indent _ h b => FlatP h ∧ Clean b
  | .field _ l b => Plain l ∧ Clean b
  | .id .. => False
  | .fieldDetail .. => False
  | .inline p => Clean p

theorem Clean.noIds {p : P} (h : Clean p) : NoIds p := by
  induction p with
  | seq p q ihp ihq => exact ⟨ihp h.1, ihq h.2⟩
  | indent c hd b _ ih => exact ⟨h.1, ih h.2⟩
  | field c l b ih => exact ih h.2
  | id => exact h.elim
  | fieldDetail => exact h.elim
  | inline p ih => exact ih h
  | _ => trivial

theorem Clean.tree {p : P} (h : Clean p) : TreeP p := by
  induction p with
  | seq p q ihp ihq => exact ⟨ihp h.1, ihq h.2⟩
  | indent c hd b _ ih => exact ⟨h.1, ih h.2⟩
  | field c l b ih => exact ⟨h.1, ih h.2⟩
  | id => exact h.elim
  | fieldDetail => exact h.elim
  | inline p ih => exact ih h
  | _ => exact h

theorem Clean.seqs {l : List P} (h : ∀ p ∈ l, Clean p) : Clean (P.seqs l) := by
  induction l with
  | nil => trivial
  | cons p ps ih =>
    exact ⟨h p (by simp), ih fun q hq => h q (by simp [hq])⟩

theorem Clean.seqs_map {l : List α} {f : α → P} (h : ∀ x, Clean (f x)) : Clean (P.seqs (l.map f)) := by
  refine Clean.seqs fun p hp => ?_
  obtain ⟨x, _, rfl⟩ := List.mem_map.1 hp
  exact h x

theorem mapM_option {f : α → Option β} {l : List α} {m : List β} (h : l.mapM f = some m) :
    ∀ y ∈ m, ∃ x ∈ l, f x = some y := by
  induction l generalizing m with
  | nil => simp at h; subst h; simp
  | cons a l ih =>
    rw [List.mapM_cons] at h
    simp only [Option.bind_eq_bind, Option.bind_eq_some_iff, Option.pure_def, Option.some.injEq] at h
    obtain ⟨b, hb, m', hm, rfl⟩ := h
    intro y hy
    rcases List.mem_cons.1 hy with rfl | hy
    · exact ⟨a, by simp, hb⟩
    · obtain ⟨x, hx, he⟩ := ih hm y hy
      exact ⟨x, by simp [hx], he⟩

theorem Clean.list {f : α → Option P} {l : List α} {p : P} (h : ∀ x ∈ l, ∀ q, f x = some q → Clean q)
    (hl : listP f l = some p) : Clean p := by
  unfold listP at hl
  rw [Option.map_eq_some_iff] at hl
  obtain ⟨m, hm, rfl⟩ := hl
  refine Clean.seqs fun q hq => ?_
  obtain ⟨x, hx, he⟩ := mapM_option hm q hq
  exact h x hx q he

theorem Clean.whenP {b : Bool} {f : Option P} {p : P} (h : ∀ q, f = some q → Clean q) (hp : whenP b f = some p) :
    Clean p := by
  cases b with
  | true => exact h p hp
  | false =>
    simp only [Show.whenP, Bool.false_eq_true, if_false, Option.some.injEq] at hp
    subst hp; trivial

theorem Clean.map_field {c : Bool} {l : Str} {f : Option P} {p : P} (hl : Plain l) (h : ∀ q, f = some q → Clean q)
    (hp : f.map (.field c l) = some p) : Clean p := by
  rw [Option.map_eq_some_iff] at hp
  obtain ⟨q, hq, rfl⟩ := hp
  exact ⟨hl, h q hq⟩

theorem plain_nil : Plain [] := by decide

/-! ### Types -/

theorem clean_source (o : Options) (dir : Option Str) (s : Source) : Clean (sourceP o dir s) := by
  unfold sourceP; split
  · show Plain _; decide
  · trivial

theorem clean_member {s : Side} {rec : Option Ty → Option P} (hr : ∀ t p, rec t = some p → Clean p) {m : Member} {p : P}
    (h : memberP s rec m = some p) : Clean p := by
  simp only [memberP, Option.bind_eq_bind, Option.bind_eq_some_iff, Option.some.injEq] at h
  obtain ⟨b, hb, rfl⟩ := h
  exact ⟨plain_nil, hr _ _ hb⟩

theorem clean_layoutItem {s : Side} {rec : Option Ty → Option P} (hr : ∀ t p, rec t = some p → Clean p)
    {vs : Layout → List Variant → Option P} (hv : ∀ l v p, vs l v = some p → Clean p) {l : Layout} {p : P}
    (h : layoutItemP s rec vs l = some p) : Clean p := by
  unfold layoutItemP at h
  split at h
  · simp only [Option.some.injEq] at h; subst h; exact plain_nil
  · exact clean_member hr h
  · simp only [Option.bind_eq_bind, Option.bind_eq_some_iff, Option.some.injEq] at h
    obtain ⟨b, hb, rfl⟩ := h
    exact ⟨plain_nil, hv _ _ _ hb⟩
  · simp only [Option.some.injEq] at h; subst h; exact plain_nil

theorem clean_layout {s : Side} {rec : Option Ty → Option P} (hr : ∀ t p, rec t = some p → Clean p) {l : Layout} {p : P}
    (h : layoutP s rec l = some p) : Clean p := by
  refine clean_layoutItem hr (fun l vs p h => ?_) h
  refine Clean.list (fun v _ q hq => ?_) h
  simp only [variantP, Option.bind_eq_bind, Option.bind_eq_some_iff, Option.some.injEq] at hq
  obtain ⟨b, hb, rfl⟩ := hq
  refine ⟨plain_nil, Clean.list (fun x _ q hq => ?_) hb⟩
  refine clean_layoutItem hr (fun l v p h => ?_) hq
  simp only [Option.some.injEq] at h
  subst h; trivial

theorem clean_members (s : Side) (n : Nat) : ∀ t p, membersP s n t = some p → Clean p := by
  induction n with
  | zero => intro t p h; simp [membersP] at h
  | succ n ih =>
    intro t p h
    unfold membersP at h
    split at h
    · exact Clean.list (fun x _ q hq => clean_layout ih hq) h
    · exact Clean.list (fun x _ q hq => clean_member ih hq) h
    · simp only [Option.some.injEq] at h; subst h; trivial

theorem clean_inherits (s : Side) (l : List Inherit) : Clean (inheritsP s l) := by
  unfold inheritsP
  split
  · trivial
  · show Plain _; decide
  · exact ⟨by decide, Clean.seqs_map fun _ => plain_nil⟩

theorem clean_body {o : Options} {s : Side} {dir : Option Str} {n : Nat} {x : Extra} {t : Ty} {p : P}
    (h : bodyP o s dir n x t = some p) : Clean p := by
  have lab : Plain (k "size") ∧ Plain (k "encoding") ∧ Plain (k "endianity") ∧ Plain (k "members") ∧
    Plain (k "declaration") ∧ Plain (k "enumerators") := by decide
  obtain ⟨l1, l2, l3, l4, l5, l6⟩ := lab
  unfold bodyP at h
  split at h
  · simp only [Option.some.injEq] at h; subst h
    exact ⟨l1, l2, l3, trivial⟩
  · split at h
    · simp only [Option.bind_eq_bind, Option.bind_eq_some_iff, Option.some.injEq] at h
      obtain ⟨b, hb, rfl⟩ := h
      exact ⟨clean_source _ _ _, l1, ⟨l4, clean_members _ _ _ _ hb⟩, trivial⟩
    · simp only [Option.some.injEq] at h; subst h
      exact ⟨clean_source _ _ _, l1, trivial⟩
  · simp only [Option.bind_eq_bind, Option.bind_eq_some_iff, Option.some.injEq] at h
    obtain ⟨b, hb, rfl⟩ := h
    exact ⟨clean_source _ _ _, l5, l1, clean_inherits _ _, ⟨l4, clean_members _ _ _ _ hb⟩, trivial⟩
  · simp only [Option.bind_eq_bind, Option.bind_eq_some_iff, Option.some.injEq] at h
    obtain ⟨b, hb, rfl⟩ := h
    exact ⟨clean_source _ _ _, l5, l1, ⟨l4, clean_members _ _ _ _ hb⟩, trivial⟩
  · simp only [Option.some.injEq] at h; subst h
    exact ⟨clean_source _ _ _, l5, l1, ⟨l6, Clean.seqs_map fun _ => plain_nil⟩, trivial⟩
  · cases h

/-! ### Functions -/

theorem clean_regs (s : FnSide) (l : List Nat) : Clean (regsP s l) :=
  ⟨by decide, Clean.seqs_map fun _ => plain_nil⟩

theorem clean_locs (l : List FrameLocation) : Clean (printLocs l) := by
  unfold printLocs
  split
  · trivial
  · show Plain _; decide
  · exact ⟨by decide, Clean.seqs_map fun _ => plain_nil⟩

theorem clean_pieces {s : FnSide} {l : List Piece} {p : P} (h : piecesP s l = some p) : Clean p := by
  refine Clean.list (fun x _ q hq => ?_) h
  unfold locationP at hq
  rw [Option.map_eq_some_iff] at hq
  obtain ⟨v, _, rfl⟩ := hq
  exact plain_nil

theorem clean_param (o : Options) (s : FnSide) (p : Parameter) : Clean (paramP o s p) := by
  refine ⟨plain_nil, ?_⟩
  split
  · exact ⟨clean_regs _ _, clean_locs _⟩
  · trivial

theorem clean_local (o : Options) (s : FnSide) (v : LocalVariable) : Clean (localP o s v) := by
  refine ⟨plain_nil, ?_⟩
  split
  · exact ⟨by show Plain _; decide, clean_regs _ _, clean_locs _, trivial⟩
  · trivial

theorem clean_callParam {o : Options} {s : FnSide} {c : CallParameter} {p : P} (h : callParamP o s c = some p) : Clean p := by
  have lab : Plain (k "location") ∧ Plain (k "value") ∧ Plain (k "data_location") ∧ Plain (k "data_value_location") := by
    decide
  obtain ⟨l1, l2, l3, l4⟩ := lab
  simp only [callParamP, Option.bind_eq_bind, Option.bind_eq_some_iff, Option.some.injEq] at h
  obtain ⟨b, hb, rfl⟩ := h
  refine ⟨plain_nil, Clean.whenP (fun q hq => ?_) hb⟩
  simp only [Option.bind_eq_some_iff, Option.some.injEq] at hq
  obtain ⟨a1, h1, a2, h2, a3, h3, a4, h4, rfl⟩ := hq
  exact ⟨⟨l1, clean_pieces h1⟩, ⟨l2, clean_pieces h2⟩, ⟨l3, clean_pieces h3⟩, ⟨l4, clean_pieces h4⟩, trivial⟩

theorem clean_callSite {o : Options} {s : FnSide} {dir : Option Str} {c : FunctionCall} {p : P}
    (h : callSiteP o s dir c = some p) : Clean p := by
  have lab : Plain (k "target") ∧ Plain (k "return address") ∧ Plain (k "parameters") := by decide
  obtain ⟨l1, l2, l3⟩ := lab
  simp only [callSiteP, Option.bind_eq_bind, Option.bind_eq_some_iff, Option.some.injEq] at h
  obtain ⟨t, ht, ps, hps, rfl⟩ := h
  exact ⟨plain_nil, l2, Clean.whenP (fun q hq => Clean.map_field l1 (fun _ h => clean_pieces h) hq) ht, clean_source _ _ _,
    ⟨l3, Clean.list (fun _ _ _ hq => clean_callParam hq) hps⟩, trivial⟩

theorem clean_callSites {o : Options} {s : FnSide} {dir : Option Str} {l : List FunctionCall} {p : P}
    (h : callSitesP o s dir l = some p) : Clean p := Clean.list (fun _ _ _ hq => clean_callSite hq) h

theorem clean_inlined {o : Options} {s : FnSide} {dir : Option Str} (n : Nat) :
    ∀ f p, inlinedP o s dir n f = some p → Clean p := by
  have lab : Plain (k "call source") ∧ Plain (k "parameters") ∧ Plain (k "variables") ∧ Plain (k "call sites") := by
    decide
  obtain ⟨l1, l2, l3, l4⟩ := lab
  induction n with
  | zero => intro f p h; simp [inlinedP] at h
  | succ n ih =>
    intro f p h
    simp only [inlinedP, Option.bind_eq_bind, Option.bind_eq_some_iff, Option.some.injEq] at h
    obtain ⟨cs, hcs, is, his, rfl⟩ := h
    refine ⟨plain_nil, ?_, ?_, ?_, Clean.whenP (fun q hq => Clean.map_field l4 (fun _ h => clean_callSites h) hq) hcs,
      show Clean is from Clean.list (fun x _ q hq => ih x q hq) his, trivial⟩
    · split
      · exact l1
      · trivial
    · split
      · exact ⟨l2, Clean.seqs_map fun _ => clean_param _ _ _⟩
      · trivial
    · split
      · exact ⟨l3, Clean.seqs_map fun _ => clean_local _ _ _⟩
      · trivial

theorem clean_frame {tsz : TypeOffset → Option Nat} {tref : TypeOffset → Val} {d : FunctionDetails} {p : P}
    (h : listing tsz tref d = some p) : Clean p := by
  simp only [listing, Option.bind_eq_bind, Option.bind_eq_some_iff, Option.pure_def, Option.some.injEq] at h
  obtain ⟨vs, _, ps, hps, rfl⟩ := h
  refine Clean.seqs fun q hq => ?_
  obtain ⟨x, _, he⟩ := mapM_option hps q hq
  simp only [printEntry, Option.map_eq_some_iff] at he
  obtain ⟨u, _, rfl⟩ := he
  exact ⟨plain_nil, plain_nil⟩

theorem clean_ranges (l : List Range) : Clean (rangesP l) := by
  unfold rangesP
  split
  · exact ⟨by decide, Clean.seqs_map fun _ => plain_nil⟩
  · show Plain _; decide

/-- The body of a function, before its instructions. -/
theorem fnBody_parts {o : Options} {s : FnSide} {dir : Option Str} {n : Nat} {f : Function} {p : P}
    (h : fnBodyP o s dir n f = some p) :
    ∃ (l : List P) (insns : P), p = P.seqs (l ++ [insns]) ∧ (∀ q ∈ l, Clean q) ∧
      whenP (o.printFunctionInstructions && !f.ranges.isEmpty)
        ((instructionsP s f).map (.fieldDetail (k "code") (k "instructions"))) = some insns := by
  have lab : Plain (k "linkage name") ∧ Plain (k "symbol name") ∧ Plain (k "size") ∧ Plain (k "inline") ∧
    Plain (k "declaration") ∧ Plain (k "return type") ∧ Plain (k "parameters") ∧ Plain (k "variables") ∧
    Plain (k "stack frame") ∧ Plain (k "inlined functions") ∧ Plain (k "call sites") ∧ Plain (k "calls") := by
    decide
  obtain ⟨l1, l2, l3, l4, l5, l6, l7, l8, l9, l10, l11, l12⟩ := lab
  simp only [fnBodyP, Option.bind_eq_bind, Option.bind_eq_some_iff, Option.some.injEq] at h
  obtain ⟨fr, hfr, inl, hinl, st, hst, cs, hcs, ins, hins, rfl⟩ := h
  refine ⟨[_, _, _, _, _, _, _, _, _, _, _, _, _, _], ins, rfl, ?_, hins⟩
  simp only [List.forall_mem_cons]
  refine ⟨l1, l2, clean_source _ _ _, clean_ranges _, l3, l4, l5, ⟨l6, plain_nil⟩,
    ⟨l7, Clean.seqs_map fun _ => clean_param _ _ _⟩, ?_,
    Clean.whenP (fun q hq => Clean.map_field l9 (fun _ h => clean_frame h) hq) hfr,
    ⟨l10, Clean.list (fun x _ q hq => clean_inlined n x q hq) hinl⟩,
    Clean.whenP (fun q hq => Clean.map_field l11 (fun _ h => clean_callSites h) hq) hst,
    Clean.whenP (fun q hq => ?_) hcs, by simp⟩
  · split
    · exact ⟨l8, Clean.seqs_map fun _ => clean_local _ _ _⟩
    · trivial
  · rw [Option.map_eq_some_iff] at hq
    obtain ⟨l, _, rfl⟩ := hq
    exact ⟨l12, Clean.seqs_map fun _ => plain_nil⟩

/-! ### Units and files -/

theorem clean_variable (o : Options) (s : Side) (dir : Option Str) (v : Variable) : Clean (variableBodyP o s dir v) := by
  have lab : Plain (k "linkage name") ∧ Plain (k "symbol name") ∧ Plain (k "size") ∧ Plain (k "address") ∧
    Plain (k "declaration") := by decide
  exact ⟨lab.1, lab.2.1, clean_source _ _ _, lab.2.2.2.1, lab.2.2.1, lab.2.2.2.2, trivial⟩

theorem clean_rangeItems (l : List Range) : Clean (rangeItemsP l) := Clean.seqs_map fun _ => plain_nil

theorem clean_unitPart {o : Options} {s : Side} {u : CompUnit} {p : P} (h : unitPartP o s u = some p) : Clean p := by
  have lab : Plain (k "fn size") ∧ Plain (k "var size") ∧ Plain (k "unknown size") ∧ Plain (k "addresses") ∧
    Plain (k "address") ∧ Plain (k "unknown addresses") := by decide
  obtain ⟨l1, l2, l3, l4, l5, l6⟩ := lab
  have hz : ∀ {l : Str} (n : Nat), Plain l → Clean (sizeLineP l n) := by
    intro l n hl
    unfold sizeLineP
    split
    · exact hl
    · trivial
  simp only [unitPartP, Option.bind_eq_bind, Option.bind_eq_some_iff, Option.some.injEq] at h
  obtain ⟨a, _, b, _, c, _, rfl⟩ := h
  refine ⟨?_, hz _ l1, hz _ l2, hz _ l3, trivial, trivial⟩
  split
  · refine ⟨?_, l6, clean_rangeItems _⟩
    split
    · exact ⟨l4, clean_rangeItems _⟩
    · exact l5
  · trivial

theorem clean_filePart {o : Options} {s : FileSide} {p : P} (h : filePartP o s = some p) : Clean p := by
  have lab : Plain (k "addresses") ∧ Plain (k "size") ∧ Plain (k "fn size") ∧ Plain (k "var size") ∧
    Plain (k "other size") ∧ Plain (k "sections") ∧ Plain (k "address") := by decide
  obtain ⟨l1, l2, l3, l4, l5, l6, l7⟩ := lab
  simp only [filePartP, Option.bind_eq_bind, Option.bind_eq_some_iff, Option.some.injEq] at h
  obtain ⟨m, _, rfl⟩ := h
  refine ⟨⟨plain_nil, ?_, l2, l3, l4, l5, ⟨l6, Clean.seqs_map fun x => ⟨plain_nil, l7, l2⟩⟩, trivial⟩, trivial⟩
  split
  · exact ⟨l1, clean_rangeItems _⟩
  · trivial

end Verif.Web
