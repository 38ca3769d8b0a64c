import Verif.Show.TypeProps
import Verif.Layout.Props
/-!
# C77: what the member list of a type contains, and when it is finite
-/
namespace Verif.Show
open Verif.Print Verif.Item Verif.Namespace Verif.Types Verif.Layout Verif.Path Verif.Opts Verif.Merge

/-! ### Vocabulary -/

/-- The data members of a type: those of a union or struct and those of its variants. -/
def membersOf : Ty → List Member
  | .struct_ _ _ _ ms vps _ => ms ++ vps.flatMap fun vp => vp.variants.flatMap (·.members)
  | .union_ _ _ _ ms => ms
  | _ => []

/-- `t'` is listed inside `t`: it is the type of a member of `t` without a name of its own (or one
that is expanded for another reason). -/
def Inside (s : Side) (t' t : Ty) : Prop := ∃ m ∈ membersOf t, inlineTy s m = some t'

/-- The text of the line of a data member: offset and size in bytes, name and type. -/
def memberLine (offset : Nat) (size : Option Nat) (name : Option Str) (type : Str) : Str :=
  formatBit offset ++ k "[" ++ (match size with
    | some n => formatBit n
    | none => k "??") ++ k "]\t" ++ name.getD (k "<anon>") ++ k ": " ++ type

/-- The text of the line of an item of a struct. -/
def itemLine (s : Side) (l : Layout) : Str :=
  match l.item with
  | .padding => formatBit l.bitOffset ++ k "[" ++ formatBit (l.bitSize.get.getD 0) ++ k "]\t<padding>"
  | .member m => memberLine m.bitOffset (memberBitSize s.tsz m) m.name (s.tref m.ty).text'
  | .variantPart _ =>
    formatBit l.bitOffset ++ k "[" ++ formatBit (l.bitSize.get.getD 0) ++ k "]\t<variant part>"
  | .inherit i => formatBit l.bitOffset ++ k "[" ++ formatBit (l.bitSize.get.getD 0) ++
    k "]\t<inherit>: " ++ (s.tref i.ty).text'

/-! ### Existence -/

theorem mapM_total {α β : Type} {f : α → Option β} {l : List α} (h : ∀ a ∈ l, (f a).isSome) :
    (l.mapM f).isSome := by
  induction l with
  | nil => rfl
  | cons a l ih =>
    obtain ⟨b, hb⟩ := Option.isSome_iff_exists.1 (h a (List.mem_cons_self ..))
    obtain ⟨r, hr⟩ := Option.isSome_iff_exists.1 (ih fun a ha => h a (List.mem_cons_of_mem _ ha))
    simp [List.mapM_cons, hb, hr]

theorem mapM_isSome_mem {α β : Type} {f : α → Option β} {l : List α} (h : (l.mapM f).isSome) :
    ∀ a ∈ l, (f a).isSome := by
  induction l with
  | nil => simp
  | cons a l ih =>
    simp only [List.mapM_cons, Option.bind_eq_bind, Option.pure_def] at h
    cases hf : f a with
    | none => simp [hf] at h
    | some b =>
      cases hl : l.mapM f with
      | none => simp [hf, hl] at h
      | some r =>
        intro a' ha'
        rcases List.mem_cons.1 ha' with rfl | ha'
        · simp [hf]
        · exact ih (by simp [hl]) a' ha'

theorem listP_isSome {α : Type} {f : α → Option P} {l : List α} :
    (listP f l).isSome ↔ ∀ a ∈ l, (f a).isSome := by
  simp only [listP, Option.isSome_map]
  exact ⟨mapM_isSome_mem, mapM_total⟩

theorem memberP_isSome {s : Side} {rec : Option Ty → Option P} {m : Member} :
    (memberP s rec m).isSome ↔ (rec (inlineTy s m)).isSome := by
  unfold memberP
  cases rec (inlineTy s m) <;> simp

theorem layoutItemP_isSome {s : Side} {rec : Option Ty → Option P}
    {vs : Layout → List Variant → Option P} {l : Layout} :
    (layoutItemP s rec vs l).isSome ↔ (∀ m, l.item = .member m → (rec (inlineTy s m)).isSome) ∧
      (∀ vp, l.item = .variantPart vp → (vs l vp.variants).isSome) := by
  unfold layoutItemP
  cases h : l.item with
  | padding => simp
  | member m => simp [memberP_isSome]
  | variantPart vp => cases hv : vs l vp.variants <;> simp [hv]
  | inherit i => simp

/-- The members in the layout are the members there are. -/
theorem mem_layout_member (ms : List Member) (is : List Inherit) (vs : List VariantPart) (base : Nat)
    (total : Option Nat) (sz : TypeOffset → Option Nat) (m : Member) :
    (∃ l ∈ layout ms is vs base total sz, l.item = .member m) ↔ m ∈ ms := by
  have hp := (C15_layout_has_every_item ms is vs base total sz).1
  constructor
  · rintro ⟨l, hl, hm⟩
    have : l ∈ inputs ms is vs base sz := hp.mem_iff.1 (List.mem_filter.2 ⟨hl, by simp [hm]⟩)
    simp only [inputs, List.mem_append, List.mem_map] at this
    rcases this with (⟨x, hx, rfl⟩ | ⟨x, hx, rfl⟩) | ⟨x, hx, rfl⟩ <;> simp at hm
    rwa [← hm]
  · intro hm
    have : (⟨m.bitOffset - base, .ofOption (memberBitSize sz m), .member m⟩ : Layout) ∈
        inputs ms is vs base sz := by
      simp only [inputs, List.mem_append, List.mem_map]
      exact .inl (.inl ⟨m, hm, rfl⟩)
    have := hp.mem_iff.2 this
    exact ⟨_, (List.mem_filter.1 this).1, rfl⟩

theorem mem_layout_part (ms : List Member) (is : List Inherit) (vs : List VariantPart) (base : Nat)
    (total : Option Nat) (sz : TypeOffset → Option Nat) (v : VariantPart) :
    (∃ l ∈ layout ms is vs base total sz, l.item = .variantPart v) ↔ v ∈ vs := by
  have hp := (C15_layout_has_every_item ms is vs base total sz).1
  constructor
  · rintro ⟨l, hl, hm⟩
    have : l ∈ inputs ms is vs base sz := hp.mem_iff.1 (List.mem_filter.2 ⟨hl, by simp [hm]⟩)
    simp only [inputs, List.mem_append, List.mem_map] at this
    rcases this with (⟨x, hx, rfl⟩ | ⟨x, hx, rfl⟩) | ⟨x, hx, rfl⟩ <;> simp at hm
    rwa [← hm]
  · intro hm
    have : (⟨VariantPart.bitOffset v - base, .ofOption (VariantPart.bitSize sz v),
        .variantPart v⟩ : Layout) ∈ inputs ms is vs base sz := by
      simp only [inputs, List.mem_append, List.mem_map]
      exact .inr ⟨v, hm, rfl⟩
    have := hp.mem_iff.2 this
    exact ⟨_, (List.mem_filter.1 this).1, rfl⟩

theorem variantP_isSome {s : Side} {rec : Option Ty → Option P} {l : Layout} {v : Variant} :
    (variantP s rec l v).isSome ↔ ∀ m ∈ v.members, (rec (inlineTy s m)).isSome := by
  have : (variantP s rec l v).isSome ↔ (listP (layoutItemP s rec fun _ _ => some .skip)
      (Variant.layout v l.bitOffset l.bitSize.get s.tsz)).isSome := by
    unfold variantP
    cases listP (layoutItemP s rec fun _ _ => some .skip)
      (Variant.layout v l.bitOffset l.bitSize.get s.tsz) <;> simp
  rw [this, listP_isSome]
  simp only [layoutItemP_isSome, Option.isSome_some, implies_true, and_true, Variant.layout]
  constructor
  · intro h m hm
    obtain ⟨x, hx, hxm⟩ := (mem_layout_member v.members [] [] l.bitOffset l.bitSize.get s.tsz m).2 hm
    exact h x hx m hxm
  · intro h x hx m hxm
    exact h m ((mem_layout_member v.members [] [] l.bitOffset l.bitSize.get s.tsz m).1 ⟨x, hx, hxm⟩)

theorem membersP_isSome (s : Side) (n : Nat) (t : Ty) :
    (membersP s (n + 1) (some t)).isSome ↔
      ∀ m ∈ membersOf t, (membersP s n (inlineTy s m)).isSome := by
  cases t with
  | struct_ ns name size ms vps inh =>
    simp only [membersP, membersOf, listP_isSome, layoutP, layoutItemP_isSome, variantP_isSome,
      List.mem_append, List.mem_flatMap, structLayout]
    constructor
    · rintro h m (hm | ⟨vp, hvp, v, hv, hm⟩)
      · obtain ⟨x, hx, hxm⟩ := (mem_layout_member ms inh vps 0 (size.get.map (· * 8)) s.tsz m).2 hm
        exact (h x hx).1 m hxm
      · obtain ⟨x, hx, hxm⟩ := (mem_layout_part ms inh vps 0 (size.get.map (· * 8)) s.tsz vp).2 hvp
        exact (h x hx).2 vp hxm v hv m hm
    · intro h x hx
      refine ⟨fun m hxm => h m (.inl ?_), fun vp hxv v hv m hm => h m (.inr ⟨vp, ?_, v, hv, hm⟩)⟩
      · exact (mem_layout_member ms inh vps 0 (size.get.map (· * 8)) s.tsz m).1 ⟨x, hx, hxm⟩
      · exact (mem_layout_part ms inh vps 0 (size.get.map (· * 8)) s.tsz vp).1 ⟨x, hx, hxv⟩
  | union_ ns name size ms => simp only [membersP, membersOf, listP_isSome, memberP_isSome]
  | _ => simp [membersP, membersOf]

theorem membersP_mono (s : Side) (n : Nat) : ∀ t p, membersP s n t = some p →
    membersP s (n + 1) t = some p := by
  have mp : ∀ {α : Type} {f g : α → Option P} {l : List α} {p : P},
      (∀ a ∈ l, ∀ q, f a = some q → g a = some q) → listP f l = some p → listP g l = some p := by
    intro α f g l p hfg
    induction l generalizing p with
    | nil => exact id
    | cons a l ih =>
      intro h
      simp only [listP, List.mapM_cons, Option.bind_eq_bind, Option.pure_def, Option.map_eq_some_iff,
        Option.bind_eq_some_iff, Option.some.injEq] at h
      obtain ⟨ps, ⟨q, hq, qs, hqs, rfl⟩, rfl⟩ := h
      refine listP_cons (hfg a (List.mem_cons_self ..) q hq)
        (ih (fun a ha => hfg a (List.mem_cons_of_mem _ ha)) ?_)
      simp [listP, hqs]
  induction n with
  | zero => intro t p h; cases h
  | succ n ih =>
    have hm : ∀ m q, memberP s (membersP s n) m = some q → memberP s (membersP s (n + 1)) m = some q := by
      intro m q h
      simp only [memberP, Option.bind_eq_bind, Option.bind_eq_some_iff, Option.some.injEq] at h ⊢
      obtain ⟨b, hb, rfl⟩ := h
      exact ⟨b, ih _ _ hb, rfl⟩
    have hi : ∀ (vs vs' : Layout → List Variant → Option P),
        (∀ l v p, vs l v = some p → vs' l v = some p) → ∀ l q,
        layoutItemP s (membersP s n) vs l = some q → layoutItemP s (membersP s (n + 1)) vs' l = some q := by
      intro vs vs' hvs l q h
      unfold layoutItemP at h ⊢
      split at h
      · exact h
      · exact hm _ _ h
      · simp only [Option.bind_eq_bind, Option.bind_eq_some_iff, Option.some.injEq] at h ⊢
        obtain ⟨b, hb, rfl⟩ := h
        exact ⟨b, hvs _ _ _ hb, rfl⟩
      · exact h
    have hv : ∀ l v q, variantP s (membersP s n) l v = some q →
        variantP s (membersP s (n + 1)) l v = some q := by
      intro l v q h
      simp only [variantP, Option.bind_eq_bind, Option.bind_eq_some_iff, Option.some.injEq] at h ⊢
      obtain ⟨b, hb, rfl⟩ := h
      exact ⟨b, mp (fun a _ q hq => hi _ _ (fun _ _ _ h => h) a q hq) hb, rfl⟩
    intro t p h
    unfold membersP at h ⊢
    split at h
    · exact mp (fun a _ q hq => hi _ _ (fun l vs p h => mp (fun v _ q hq => hv l v q hq) h) a q hq) h
    · exact mp (fun a _ q hq => hm a q hq) h
    · exact h

theorem membersP_le (s : Side) {n m : Nat} (hnm : n ≤ m) {t : Option Ty} {p : P}
    (h : membersP s n t = some p) : membersP s m t = some p := by
  induction hnm with
  | refl => exact h
  | step _ ih => exact membersP_mono s _ _ _ ih

/-- Listing the members of a type terminates exactly when following members that are listed in
place always comes to an end, whatever else the file contains (cyclic pointers do not matter); and
the listing does not depend on the bound used in the model. -/
theorem C77_members_end (s : Side) (t : Ty) :
    ((∃ n p, membersP s n (some t) = some p) ↔ Acc (Inside s) t) ∧
    (∀ n m p q, membersP s n (some t) = some p → membersP s m (some t) = some q → p = q) := by
  refine ⟨⟨?_, ?_⟩, ?_⟩
  · rintro ⟨n, p, hp⟩
    have h : (membersP s n (some t)).isSome := by rw [hp]; rfl
    clear hp p
    induction n generalizing t with
    | zero => cases h
    | succ n ih =>
      refine Acc.intro t fun t' ⟨m, hm, hin⟩ => ih t' ?_
      have := (membersP_isSome s n t).1 h m hm
      rwa [hin] at this
  · intro h
    induction h with
    | intro t _ ih =>
      have key : ∀ l : List Member, (∀ m ∈ l, m ∈ membersOf t) →
          ∃ n, ∀ m ∈ l, (membersP s n (inlineTy s m)).isSome := by
        intro l
        induction l with
        | nil => intro _; exact ⟨0, by simp⟩
        | cons m l ihl =>
          intro hl
          obtain ⟨n, hn⟩ := ihl fun m hm => hl m (List.mem_cons_of_mem _ hm)
          have hm : ∃ n', (membersP s n' (inlineTy s m)).isSome := by
            cases hi : inlineTy s m with
            | none => exact ⟨1, rfl⟩
            | some t' =>
              obtain ⟨n', p, h'⟩ := ih t' ⟨m, hl m (List.mem_cons_self ..), hi⟩
              exact ⟨n', by rw [h']; rfl⟩
          obtain ⟨n', hn'⟩ := hm
          refine ⟨max n n', fun x hx => ?_⟩
          have lift : ∀ {n n' : Nat} {t}, n ≤ n' → (membersP s n t).isSome → (membersP s n' t).isSome := by
            intro n n' t hle h
            obtain ⟨p, hp⟩ := Option.isSome_iff_exists.1 h
            rw [membersP_le s hle hp]
            rfl
          rcases List.mem_cons.1 hx with rfl | hx
          · exact lift (Nat.le_max_right ..) hn'
          · exact lift (Nat.le_max_left ..) (hn x hx)
      obtain ⟨n, hn⟩ := key (membersOf t) fun _ h => h
      obtain ⟨p, hp⟩ := Option.isSome_iff_exists.1 ((membersP_isSome s n t).2 hn)
      exact ⟨n + 1, p, hp⟩
  · intro n m p q hp hq
    have h1 := membersP_le s (Nat.le_max_left n m) hp
    have h2 := membersP_le s (Nat.le_max_right n m) hq
    rw [h1] at h2
    exact Option.some.inj h2

/-! ### Contents -/

/-- The lines of a listing that stand at its own indentation. -/
def atLevel (i : Nat) (l : List Line) : List Line := l.filter fun x => x.indent == some i

theorem atLevel_deeper (http : Bool) (p : P) (i : Nat) (x : DiffPrefix) (d : Nat) :
    atLevel i (p.ls http (i + 1) x d) = [] := by
  unfold atLevel
  rw [List.filter_eq_nil_iff]
  intro l hl h
  have := P.ls_indent http p (i + 1) x d l hl i (by simpa using h)
  omega

theorem atLevel_append (i : Nat) (l m : List Line) : atLevel i (l ++ m) = atLevel i l ++ atLevel i m := by
  simp [atLevel]

theorem atLevel_line (i : Nat) (x : DiffPrefix) (v : Val) (h : v.text' ≠ []) (http : Bool) (d : Nat) :
    atLevel i ((P.line [] v).ls http i x d) = [.line x i [] v.text'] := by
  simp [P.ls, h, atLevel, Line.indent]

theorem memberVal_text (s : Side) (m : Member) : (memberVal s m).text' =
    memberLine m.bitOffset (memberBitSize s.tsz m) m.name (s.tref m.ty).text' := by
  simp only [memberVal, text_vals, memberLine, List.flatMap_cons, Val.text', List.flatMap_nil]
  cases memberBitSize s.tsz m <;> simp [k, Str.ofString, anon]

theorem atLevel_member {s : Side} {rec : Option Ty → Option P} {m : Member} {p : P}
    (h : memberP s rec m = some p) (http : Bool) (i : Nat) (x : DiffPrefix) (d : Nat) :
    atLevel i (p.ls http i x d) = [.line x i []
      (memberLine m.bitOffset (memberBitSize s.tsz m) m.name (s.tref m.ty).text')] := by
  simp only [memberP, Option.bind_eq_bind, Option.bind_eq_some_iff, Option.some.injEq] at h
  obtain ⟨b, hb, rfl⟩ := h
  rw [show (P.indent false (.line [] (memberVal s m)) b).ls http i x d =
    (P.line [] (memberVal s m)).ls http i x d ++ b.ls http (i + 1) x d from rfl, atLevel_append,
    atLevel_deeper, atLevel_line _ _ _ (memberVal_ne s m), memberVal_text]
  rfl

theorem atLevel_layout {s : Side} {rec : Option Ty → Option P} {l : Layout} {p : P}
    (h : layoutP s rec l = some p) (http : Bool) (i : Nat) (x : DiffPrefix) (d : Nat) :
    atLevel i (p.ls http i x d) = [.line x i [] (itemLine s l)] := by
  unfold layoutP layoutItemP at h
  unfold itemLine
  split at h
  · rename_i hi
    cases h
    rw [atLevel_line _ _ _ (paddingVal_ne l), hi]
    simp [paddingVal, Val.text', extentStr, k, Str.ofString]
  · rename_i m hi
    rw [atLevel_member h, hi]
  · rename_i vp hi
    simp only [Option.bind_eq_bind, Option.bind_eq_some_iff, Option.some.injEq] at h
    obtain ⟨b, hb, rfl⟩ := h
    rw [show (P.indent false (.line [] (variantPartVal l)) b).ls http i x d =
      (P.line [] (variantPartVal l)).ls http i x d ++ b.ls http (i + 1) x d from rfl, atLevel_append,
      atLevel_deeper, atLevel_line _ _ _ (variantPartVal_ne l), hi]
    simp [variantPartVal, Val.text', extentStr, k, Str.ofString]
  · rename_i j hi
    cases h
    rw [atLevel_line _ _ _ (layoutInheritVal_ne s l j), hi]
    simp [layoutInheritVal, text_vals, Val.text', extentStr, k, Str.ofString]

theorem atLevel_list {α : Type} {f : α → Option P} {l : List α} {p : P} (h : listP f l = some p)
    (g : α → Str) (http : Bool) (i : Nat) (x : DiffPrefix) (d : Nat)
    (hg : ∀ a ∈ l, ∀ q, f a = some q → atLevel i (q.ls http i x d) = [.line x i [] (g a)]) :
    atLevel i (p.ls http i x d) = l.map fun a => .line x i [] (g a) := by
  induction l generalizing p with
  | nil => cases h; rfl
  | cons a l ih =>
    simp only [listP, List.mapM_cons, Option.bind_eq_bind, Option.pure_def, Option.map_eq_some_iff,
      Option.bind_eq_some_iff, Option.some.injEq] at h
    obtain ⟨ps, ⟨q, hq, qs, hqs, rfl⟩, rfl⟩ := h
    have := ih (p := .seqs qs) (by simp [listP, hqs]) fun a ha => hg a (List.mem_cons_of_mem _ ha)
    simp only [P.seqs, P.ls, atLevel_append, List.map_cons, this, hg a (List.mem_cons_self ..) q hq]
    rfl

/-- The lines of a struct's member list at its own level are, in order of layout, one line for each
data member, base class, variant part and gap: with its offset and size in bytes, and for a member
its name and type. Which items these are, and that they cover the struct, is C14 and C15. All other
lines are indented further. -/
theorem C77_struct_members (s : Side) (n : Nat) (ns : Option Namespace) (name : Option Str)
    (size : Size) (ms : List Member) (vps : List VariantPart) (inh : List Inherit) (p : P)
    (h : membersP s n (some (.struct_ ns name size ms vps inh)) = some p) (http : Bool) (i : Nat)
    (x : DiffPrefix) (d : Nat) :
    atLevel i (p.lines http i x d) =
      (structLayout ms inh vps size s.tsz).map (fun l => .line x i [] (itemLine s l)) ∧
    ∀ l ∈ p.lines http i x d, ∃ j, l.indent = some j ∧ i ≤ j := by
  rw [P.lines_eq]
  constructor
  · cases n with
    | zero => cases h
    | succ n =>
      exact atLevel_list h (itemLine s) http i x d fun a _ q hq => atLevel_layout hq http i x d
  · intro l hl
    have hnb := membersP_clean s n _ p h http i x d
    cases hi : l.indent with
    | none => cases l <;> simp [Line.indent] at hi; exact (hnb hl).elim
    | some j => exact ⟨j, rfl, P.ls_indent http p i x d l hl j hi⟩

/-- The same for a union: one line for each member, in the order of the debug information. -/
theorem C77_union_members (s : Side) (n : Nat) (ns : Option Namespace) (name : Option Str)
    (size : Size) (ms : List Member) (p : P)
    (h : membersP s n (some (.union_ ns name size ms)) = some p) (http : Bool) (i : Nat)
    (x : DiffPrefix) (d : Nat) :
    atLevel i (p.lines http i x d) = ms.map fun m => .line x i []
      (memberLine m.bitOffset (memberBitSize s.tsz m) m.name (s.tref m.ty).text') := by
  rw [P.lines_eq]
  cases n with
  | zero => cases h
  | succ n =>
    exact atLevel_list h _ http i x d fun a _ q hq => atLevel_member hq http i x d

/-- A member is followed, one level deeper, by the member list of its type if that is listed in
place, and by nothing otherwise. -/
theorem C77_nested (s : Side) (n : Nat) (m : Member) (p : P)
    (h : memberP s (membersP s n) m = some p) (http : Bool) (i : Nat) (x : DiffPrefix) (d : Nat) :
    ∃ below, membersP s n (inlineTy s m) = some below ∧
      p.lines http i x d = .line x i []
        (memberLine m.bitOffset (memberBitSize s.tsz m) m.name (s.tref m.ty).text') ::
        below.lines http (i + 1) x d ∧
      (Filter.memberInline s.hash m = false → below.lines http (i + 1) x d = []) := by
  simp only [memberP, Option.bind_eq_bind, Option.bind_eq_some_iff, Option.some.injEq] at h
  obtain ⟨b, hb, rfl⟩ := h
  refine ⟨b, hb, ?_, ?_⟩
  · rw [P.lines_eq, P.lines_eq, ← memberVal_text]
    simp [P.ls, memberVal_ne s m]
  · intro hi
    simp only [inlineTy, hi] at hb
    cases n with
    | zero => cases hb
    | succ n => cases hb; rfl

/-! ### Concrete cases -/

private def anonS : Ty := .struct_ none none ⟨8⟩ [⟨40, some (k "x"), some 1, 0, ⟨32⟩⟩] [] []
private def outer : Ty := .union_ none (some (k "U")) ⟨8⟩
  [⟨41, some (k "n"), some 2, 0, ⟨64⟩⟩, ⟨42, none, some 4, 0, ⟨64⟩⟩]
private def exU : Side := exSide [(1, .base (some (k "int")) ⟨4⟩), (2, .base (some (k "long")) ⟨8⟩),
  (4, anonS)]

example : ((membersP exU 3 (some outer)).map fun p => render (p.lines false 0 .none 0)) =
    some (k "0[8]\tn: long\n0[8]\t<anon>: X\n\t0[4]\tx: int\n\t4[4]\t<padding>\n") := by decide +kernel

example : Inside exU anonS outer := ⟨⟨42, none, some 4, 0, ⟨64⟩⟩, by simp [membersOf, outer], by decide +kernel⟩

/-- Finding: a struct with an unnamed member of its own type makes the listing run forever. -/
theorem C77_endless_witness :
    let t : Ty := .struct_ none none ⟨8⟩ [⟨40, none, some 5, 0, ⟨64⟩⟩] [] []
    let s := exSide [(5, t)]
    ∀ n, membersP s n (some t) = none := by
  intro t s n
  induction n with
  | zero => rfl
  | succ n ih =>
    have := (membersP_isSome s n t).1
    cases h : membersP s (n + 1) (some t) with
    | none => rfl
    | some p =>
      have h2 := this (by rw [h]; rfl) ⟨40, none, some 5, 0, ⟨64⟩⟩ (by simp [membersOf, t])
      have h3 : inlineTy s ⟨40, none, some 5, 0, ⟨64⟩⟩ = some t := by decide +kernel
      rw [h3, ih] at h2
      cases h2

/-- Finding: inside a variant the offset of a gap is relative to the variant part, the offset of a
member is not: here a gap at byte 12 is shown at 4, between members shown at 8 and 16. -/
theorem C77_variant_gap_witness :
    let t : Ty := .struct_ none (some (k "E")) ⟨24⟩ []
      [⟨none, [⟨some 0, some (k "A"), [⟨50, some (k "x"), some 1, 64, ⟨32⟩⟩, ⟨51, some (k "y"), some 2, 128, ⟨64⟩⟩]⟩]⟩] []
    ((membersP exU 3 (some t)).map fun p => render (p.lines false 0 .none 0)) = some ((["0[8]\t<padding>\n", "8[16]\t<variant part>\n", "\tA: <0>\n", "\t\t8[4]\tx: int\n", "\t\t4[4]\t<padding>\n", "\t\t16[8]\ty: long\n"].flatMap k)) := by
  decide +kernel

end Verif.Show
