import Verif.Show.Split
import Verif.Show.TypeRefProps
/-! # The facts in the listing of a type -/
namespace Verif.Show
open Verif.Print Verif.Item Verif.Namespace Verif.Types Verif.Layout Verif.Path Verif.Opts Verif.Merge

theorem all2_imp {α β : Type} {R S : α → β → Prop} {l : List α} {m : List β} (h : All2 R l m)
    (hRS : ∀ a b, R a b → S a b) : All2 S l m := by
  induction h with
  | nil => exact .nil
  | cons h _ ih => exact .cons (hRS _ _ h) ih

/-! ## Members -/

theorem membersP_items (s : Side) (n : Nat) (t : Option Ty) :
    membersP s (n + 1) t = listP (layoutP s (membersP s n)) (itemsOf s t) := by
  unfold membersP itemsOf
  split
  · rfl
  · rename_i ms
    simp only [listP, List.mapM_map]
    rfl
  · rename_i h1 h2
    split
    · rename_i h; exact absurd rfl (h1 _ _ _ _ _ _)
    · rename_i h; exact absurd rfl (h2 _ _ _ _)
    · rfl

theorem layoutItem_shape {s : Side} {rec : Option Ty → Option P} {vs : Layout → List Variant → Option P} (hr : Clean rec)
    (hv : ∀ l v p, vs l v = some p → NoBlank p) {l : Layout} {p : P} (h : layoutItemP s rec vs l = some p) :
    ∃ v b, v.text' = itemLine s l ∧ v.text' ≠ [] ∧ NoBlank b ∧
      (∀ http i x d, p.ls http i x d = (P.indent false (.line [] v) b).ls http i x d) ∧
      (∀ m, l.item = .member m → rec (inlineTy s m) = some b) ∧
      (∀ vp, l.item = .variantPart vp → vs l vp.variants = some b) := by
  unfold layoutItemP at h
  split at h
  · rename_i hi
    cases h
    refine ⟨paddingVal l, .skip, ?_, paddingVal_ne l, NoBlank.skip, ?_, by simp [hi], by simp [hi]⟩
    · rw [itemLine, hi]; simp [paddingVal, Val.text', extentStr, k, Str.ofString]
    · intro http i x d; simp [P.ls]
  · rename_i m hi
    simp only [memberP, Option.bind_eq_bind, Option.bind_eq_some_iff, Option.some.injEq] at h
    obtain ⟨b, hb, rfl⟩ := h
    refine ⟨memberVal s m, b, ?_, memberVal_ne s m, hr _ _ hb, fun _ _ _ _ => rfl, ?_, by simp [hi]⟩
    · rw [itemLine, hi, memberVal_text]
    · intro m' h'; rw [hi] at h'; cases h'; exact hb
  · rename_i vp hi
    simp only [Option.bind_eq_bind, Option.bind_eq_some_iff, Option.some.injEq] at h
    obtain ⟨b, hb, rfl⟩ := h
    refine ⟨variantPartVal l, b, ?_, variantPartVal_ne l, hv _ _ _ hb, fun _ _ _ _ => rfl, by simp [hi], ?_⟩
    · rw [itemLine, hi]; simp [variantPartVal, Val.text', extentStr, k, Str.ofString]
    · intro m' h'; rw [hi] at h'; cases h'; exact hb
  · rename_i j hi
    cases h
    refine ⟨layoutInheritVal s l j, .skip, ?_, layoutInheritVal_ne s l j, NoBlank.skip, ?_, by simp [hi], by simp [hi]⟩
    · rw [itemLine, hi]; simp [layoutInheritVal, text_vals, Val.text', extentStr, k, Str.ofString]
    · intro http i x d; simp [P.ls]

theorem layoutItem_group {s : Side} {rec : Option Ty → Option P} {vs : Layout → List Variant → Option P} (hr : Clean rec)
    (hv : ∀ l v p, vs l v = some p → NoBlank p) {l : Layout} {p : P} (h : layoutItemP s rec vs l = some p)
    (http : Bool) (i : Nat) (x : DiffPrefix) (d : Nat) : Group i (p.ls http i x d) := by
  obtain ⟨v, b, -, hne, hb, e, -, -⟩ := layoutItem_shape hr hv h
  rw [e]
  exact group_indent hne hb http i x d false []

theorem layoutItem_same {s s' : Side} {rec rec' : Option Ty → Option P} {vs vs' : Layout → List Variant → Option P}
    (hr : Clean rec) (hr' : Clean rec') (hv : ∀ l v p, vs l v = some p → NoBlank p)
    (hv' : ∀ l v p, vs' l v = some p → NoBlank p) {l l' : Layout} {p q : P}
    (h : layoutItemP s rec vs l = some p) (h' : layoutItemP s' rec' vs' l' = some q) (hp : PlainItem l)
    (hp' : PlainItem l') {http : Bool} {i : Nat} {x : DiffPrefix} {d : Nat} (e : p.ls http i x d = q.ls http i x d)
    {S : Option Ty → Option Ty → Prop} {V : Layout → List Variant → Layout → List Variant → Prop}
    (hS : ∀ m m' p q, rec (inlineTy s m) = some p → rec' (inlineTy s' m') = some q →
      p.ls http (i + 1) x d = q.ls http (i + 1) x d → S (inlineTy s m) (inlineTy s' m'))
    (hV : ∀ vp vp' p q, l.item = .variantPart vp → l'.item = .variantPart vp' → vs l vp.variants = some p →
      vs' l' vp'.variants = some q →
      p.ls http (i + 1) x d = q.ls http (i + 1) x d → V l vp.variants l' vp'.variants) : SameItem s s' S V l l' := by
  obtain ⟨v, b, h1, hne, hb, e1, h2, h3⟩ := layoutItem_shape hr hv h
  obtain ⟨v', b', h1', hne', hb', e1', h2', h3'⟩ := layoutItem_shape hr' hv' h'
  rw [e1, e1'] at e
  obtain ⟨e2, e3⟩ := indent_eq hne hne' e
  have r1 := itemReads_line s l
  have r2 := itemReads_line s' l'
  rw [← h1, e2] at r1
  rw [← h1'] at r2
  cases r1.same r2 hp hp' with
  | padding a b c d => exact .padding a b c d
  | member a b c d e f g => exact .member a b c d e f (hS _ _ _ _ (h2 _ a) (h2' _ b) e3)
  | variantPart a b c d g => exact .variantPart a b c d (hV _ _ _ _ a b (h3 _ a) (h3' _ b) e3)
  | base a b c d e => exact .base a b c d e

theorem plain_layout {ms : List Member} {is : List Inherit} {vs : List VariantPart} {base : Nat} {total : Option Nat}
    {sz : TypeOffset → Option Nat} (h : ∀ m ∈ ms, Plain m.name) : ∀ l ∈ layout ms is vs base total sz, PlainItem l :=
  fun l hl m hm => h m ((mem_layout_member ms is vs base total sz m).1 ⟨l, hl, hm⟩)

theorem variantsP_same {s s' : Side} {rec rec' : Option Ty → Option P} (hr : Clean rec) (hr' : Clean rec')
    {l l' : Layout} {vs vs' : List Variant} {p q : P} (h : listP (variantP s rec l) vs = some p)
    (h' : listP (variantP s' rec' l') vs' = some q)
    (hp : ∀ v ∈ vs, Plain v.name ∧ ∀ m ∈ v.members, Plain m.name)
    (hp' : ∀ v ∈ vs', Plain v.name ∧ ∀ m ∈ v.members, Plain m.name)
    {http : Bool} {i : Nat} {x : DiffPrefix} {d : Nat} (e : p.ls http i x d = q.ls http i x d)
    {S : Option Ty → Option Ty → Prop}
    (hS : ∀ m m' p q, rec (inlineTy s m) = some p → rec' (inlineTy s' m') = some q →
      p.ls http (i + 1 + 1) x d = q.ls http (i + 1 + 1) x d → S (inlineTy s m) (inlineTy s' m')) :
    All2 (SameVariant s s' S l l') vs vs' := by
  have shape : ∀ {s : Side} {rec : Option Ty → Option P} {l : Layout}, Clean rec → ∀ v p, variantP s rec l v = some p →
      ∃ b, listP (layoutItemP s rec fun _ _ => some .skip) (Variant.layout v l.bitOffset l.bitSize.get s.tsz) = some b ∧
        p = .indent false (.line [] (variantVal v)) b ∧ NoBlank b := by
    intro s rec l hr v p h
    simp only [variantP, Option.bind_eq_bind, Option.bind_eq_some_iff, Option.some.injEq] at h
    obtain ⟨b, hb, rfl⟩ := h
    exact ⟨b, hb, rfl, listP_clean hb fun a _ q hq => (layoutItemP_shown hr skip_clean hq).1⟩
  refine all2_imp (listP_split h h' ?_ ?_ e) ?_
  · intro v _ p hp
    obtain ⟨b, -, rfl, hb⟩ := shape hr v p hp
    exact group_indent (variantVal_ne v) hb http i x d false []
  · intro v _ p hp
    obtain ⟨b, -, rfl, hb⟩ := shape hr' v p hp
    exact group_indent (variantVal_ne v) hb http i x d false []
  · rintro v v' ⟨hv, hv', p, q, h1, h2, e⟩
    obtain ⟨b, hb, rfl, nb⟩ := shape hr v p h1
    obtain ⟨b', hb', rfl, nb'⟩ := shape hr' v' q h2
    obtain ⟨e1, e2⟩ := indent_eq (variantVal_ne v) (variantVal_ne v') e
    have r1 := variantReads_val v
    have r2 := variantReads_val v'
    rw [e1] at r1
    obtain ⟨n1, n2⟩ := r1.same r2 (hp v hv).1 (hp' v' hv').1
    refine ⟨n1, n2, all2_imp (listP_split hb hb' ?_ ?_ e2) ?_⟩
    · intro a _ p hp; exact layoutItem_group hr skip_clean hp http (i + 1) x d
    · intro a _ p hp; exact layoutItem_group hr' skip_clean hp http (i + 1) x d
    · rintro a a' ⟨ha, ha', p, q, h3, h4, e⟩
      exact layoutItem_same hr hr' skip_clean skip_clean h3 h4 (plain_layout (hp v hv).2 a ha)
        (plain_layout (hp' v' hv').2 a' ha') e hS (fun _ _ _ _ _ _ _ _ _ => trivial)

theorem plain_items {s : Side} {t : Option Ty} (h : ∀ x, t = some x → PlainTy x) : ∀ l ∈ itemsOf s t, PlainItem l ∧
    ∀ vp, l.item = .variantPart vp → ∀ v ∈ vp.variants, Plain v.name ∧ ∀ m ∈ v.members, Plain m.name := by
  intro l hl
  unfold itemsOf at hl
  split at hl
  · rename_i ms vps inh
    have hp := h _ rfl
    refine ⟨plain_layout hp.1 l hl, fun vp hvp => ?_⟩
    exact hp.2 vp ((mem_layout_part _ _ _ _ _ _ vp).1 ⟨l, hl, hvp⟩)
  · rename_i ms
    obtain ⟨m, hm, rfl⟩ := List.mem_map.1 hl
    have hp := h _ rfl
    refine ⟨fun m' hm' => ?_, fun vp hvp => by cases hvp⟩
    cases hm'
    exact hp m hm
  · cases hl

theorem inlineTy_from {s : Side} {m : Member} {t : Ty} (h : inlineTy s m = some t) : fromOffset s.hash m.ty = some t := by
  unfold inlineTy at h
  split at h
  · exact h
  · cases h

/-- Equal member lists show the same facts. -/
theorem membersP_same {s s' : Side} (hf : PlainFile s) (hf' : PlainFile s') (n : Nat) : ∀ {t t' : Option Ty} {p q : P},
    membersP s n t = some p → membersP s' n t' = some q → (∀ x, t = some x → PlainTy x) →
    (∀ x, t' = some x → PlainTy x) → ∀ {http : Bool} {i : Nat} {x : DiffPrefix} {d : Nat},
    p.ls http i x d = q.ls http i x d → SameItems s s' n t t' := by
  induction n with
  | zero => intro t t' p q h; cases h
  | succ n ih =>
    intro t t' p q h h' hp hp' http i x d e
    rw [membersP_items] at h h'
    have c := membersP_clean s n
    have c' := membersP_clean s' n
    have hS : ∀ (i : Nat) m m' p q, membersP s n (inlineTy s m) = some p → membersP s' n (inlineTy s' m') = some q →
        p.ls http i x d = q.ls http i x d → SameItems s s' n (inlineTy s m) (inlineTy s' m') :=
      fun i m m' p q h1 h2 e => ih h1 h2 (fun t ht => hf _ t (inlineTy_from ht))
        (fun t ht => hf' _ t (inlineTy_from ht)) e
    refine all2_imp (listP_split h h' ?_ ?_ e) ?_
    · intro a _ p hp; exact layoutItem_group c (variantsP_clean c) hp http i x d
    · intro a _ p hp; exact layoutItem_group c' (variantsP_clean c') hp http i x d
    · rintro a a' ⟨ha, ha', p, q, h1, h2, e⟩
      obtain ⟨p1, p2⟩ := plain_items hp a ha
      obtain ⟨p1', p2'⟩ := plain_items hp' a' ha'
      refine layoutItem_same c c' (variantsP_clean c) (variantsP_clean c') h1 h2 p1 p1' e (hS (i + 1)) ?_
      intro vp vp' p q hi hi' h3 h4 e
      exact variantsP_same c c' h3 h4 (p2 vp hi) (p2' vp' hi') e (hS _)

theorem SameItem.imp {s s' : Side} {S S' : Option Ty → Option Ty → Prop}
    {V V' : Layout → List Variant → Layout → List Variant → Prop} {l l' : Layout} (h : SameItem s s' S V l l')
    (hS : ∀ t t', S t t' → S' t t') (hV : ∀ l v l' v', V l v l' v' → V' l v l' v') : SameItem s s' S' V' l l' := by
  cases h with
  | padding a b c d => exact .padding a b c d
  | member a b c d e f g => exact .member a b c d e f (hS _ _ g)
  | variantPart a b c d g => exact .variantPart a b c d (hV _ _ _ _ g)
  | base a b c d e => exact .base a b c d e

theorem SameItems.pred {s s' : Side} (n : Nat) : ∀ {t t' : Option Ty}, SameItems s s' (n + 1) t t' → SameItems s s' n t t' := by
  induction n with
  | zero => intro t t' _; trivial
  | succ n ih =>
    intro t t' h
    refine all2_imp h fun a b hab => hab.imp (fun t t' h => ih h) fun l v l' v' h => all2_imp h fun v v' h => ?_
    exact ⟨h.name, h.discr, all2_imp h.items fun a b hab => hab.imp (fun t t' h => ih h) fun _ _ _ _ _ => trivial⟩

theorem SameItems.le {s s' : Side} {n m : Nat} (h : n ≤ m) {t t' : Option Ty} (hs : SameItems s s' m t t') :
    SameItems s s' n t t' := by
  induction h with
  | refl => exact hs
  | step _ ih => exact ih hs.pred

/-- The same, to any depth. -/
theorem membersP_same_all {s s' : Side} (hf : PlainFile s) (hf' : PlainFile s') {n : Nat} {t t' : Option Ty} {p q : P}
    (h : membersP s n t = some p) (h' : membersP s' n t' = some q) (hp : ∀ x, t = some x → PlainTy x)
    (hp' : ∀ x, t' = some x → PlainTy x) {http : Bool} {i : Nat} {x : DiffPrefix} {d : Nat}
    (e : p.ls http i x d = q.ls http i x d) (depth : Nat) : SameItems s s' depth t t' := by
  have h1 := membersP_le s (Nat.le_max_left n depth) h
  have h2 := membersP_le s' (Nat.le_max_left n depth) h'
  exact SameItems.le (Nat.le_max_right n depth) (membersP_same hf hf' _ h1 h2 hp hp' e)

end Verif.Show
