import Verif.Move.Spec
import Verif.Show.TypeProps
import Verif.Show.FileProps
import Verif.Web.Pairs
/-!
# C95: types
-/
namespace Verif.Move
open Verif.Print Verif.Item Verif.Namespace Verif.Types Verif.Layout Verif.Path Verif.Opts Verif.Merge
  Verif.File Verif.Show

/-! ### Lists -/

theorem listD_map {α : Type} {Q : Path.Heap} {print print' : α → Option P} {diff : α → α → Option D}
    {c1 c2 : α → Nat} {cost : α → α → Nat} {l : List α} (f : α → α)
    (hc : ∀ a ∈ l, cost a (f a) = 0) (h1 : ∀ a ∈ l, 0 < c1 a) (h2 : ∀ a ∈ l, 0 < c2 (f a))
    (hd : ∀ a ∈ l, RelS (diff a (f a))) : RelS (listD Q print print' diff c1 c2 cost l (l.map f)) := by
  intro e he
  have htot : replaceCost c1 c2 l (l.map f) < usizeMax := by
    unfold listD at he
    split at he
    · assumption
    · cases he
  obtain ⟨items, es, -, hi, hes, rfl⟩ := listD_inv he
  have h := C21_self Q (l.map fun a => (a, f a)) c1 c2 cost (by simpa using hc) (by simpa using h1)
    (by simpa using h2) (by simpa [Function.comp_def] using htot) (enoughFuel l (l.map f))
    (by simp [enoughFuel])
  simp only [List.map_map, Function.comp_def, List.map_id'] at h
  rw [h] at hi
  cases hi
  refine D.same_seqs fun e hem => ?_
  obtain ⟨it, hit, hie⟩ := mapM_mem hes e hem
  obtain ⟨a, ha, rfl⟩ := List.mem_map.1 hit
  exact hd a ha e hie

theorem merged_map (cmp : α → α → Ordering) (f : α → α) (l : List α) (hc : ∀ a ∈ l, cmp a (f a) = .eq) (n : Nat)
    (hn : l.length ≤ n) : merged cmp l (l.map f) n = l.map (fun a => .both a (f a)) := by
  unfold merged MergeIterator.new
  induction l generalizing n with
  | nil => cases n <;> simp [MergeIterator.take, MergeIterator.next]
  | cons a l ih =>
    cases n with
    | zero => simp at hn
    | succ n =>
      simp only [List.length_cons, Nat.add_le_add_iff_right] at hn
      have := ih (fun b hb => hc b (List.mem_cons_of_mem _ hb)) n hn
      simp only [List.map_cons, List.tail_cons, List.head?_cons, MergeIterator.take, MergeIterator.next,
        hc a (List.mem_cons_self ..)]
      exact congrArg _ this

/-! ### Layout -/

variable {ρ : Nat → Nat}

def item (ρ : Nat → Nat) : LayoutItem → LayoutItem
  | .padding => .padding
  | .member m => .member (member ρ m)
  | .variantPart v => .variantPart (variantPart ρ v)
  | .inherit i => .inherit (inherit' ρ i)

def lay (ρ : Nat → Nat) (l : Layout) : Layout := { l with item := item ρ l.item }

section
variable {sa sb : TypeOffset → Option Nat} (hs : ∀ o, sb (off ρ o) = sa o)
include hs

theorem memberBitSize_moved (m : Member) : memberBitSize sb (member ρ m) = memberBitSize sa m := by
  simp [memberBitSize, member, hs]

theorem inheritBitSize_moved (i : Inherit) : inheritBitSize sb (inherit' ρ i) = inheritBitSize sa i := by
  simp [inheritBitSize, inherit', hs]

omit hs in
theorem variantBitOffset_moved (v : Variant) : Variant.bitOffset (variant ρ v) = Variant.bitOffset v := by
  simp [Variant.bitOffset, variant, Function.comp_def, member]

theorem variantBitSize_moved (v : Variant) : Variant.bitSize sb (variant ρ v) = Variant.bitSize sa v := by
  simp only [Variant.bitSize, variantBitOffset_moved]
  simp only [variant, List.map_map, Function.comp_def, memberBitSize_moved hs]
  rfl

omit hs in
theorem variantPartBitOffset_moved (v : VariantPart) :
    VariantPart.bitOffset (variantPart ρ v) = VariantPart.bitOffset v := by
  simp [VariantPart.bitOffset, variantPart, Function.comp_def, variantBitOffset_moved]

theorem variantPartBitSize_moved (v : VariantPart) :
    VariantPart.bitSize sb (variantPart ρ v) = VariantPart.bitSize sa v := by
  simp only [VariantPart.bitSize, variantPartBitOffset_moved]
  simp only [variantPart, List.map_map, Function.comp_def, variantBitSize_moved hs, variantBitOffset_moved]

theorem inputs_moved (ms : List Member) (inh : List Inherit) (vps : List VariantPart) (base : Nat) :
    inputs (ms.map (member ρ)) (inh.map (inherit' ρ)) (vps.map (variantPart ρ)) base sb =
      (inputs ms inh vps base sa).map (lay ρ) := by
  simp only [inputs, List.map_append, List.map_map, Function.comp_def, memberBitSize_moved hs,
    inheritBitSize_moved hs, variantPartBitSize_moved hs, variantPartBitOffset_moved]
  rfl

omit hs in
theorem gapAfter_moved (l : Layout) (next : Option Nat) : gapAfter (lay ρ l) next = (gapAfter l next).map (lay ρ) := by
  have h1 : (lay ρ l).bitSize = l.bitSize := rfl
  have h2 : (lay ρ l).bitOffset = l.bitOffset := rfl
  unfold gapAfter
  rw [h1, h2]
  cases l.bitSize.get with
  | none => rfl
  | some n =>
    cases next with
    | none => rfl
    | some m =>
      dsimp only
      split <;> rfl

omit hs in
theorem layoutLoop_moved (ls : List Layout) (next : Option Nat) (acc : List Layout) :
    layoutLoop (ls.map (lay ρ)) next (acc.map (lay ρ)) = (layoutLoop ls next acc).map (lay ρ) := by
  induction ls generalizing next acc with
  | nil => rfl
  | cons l ls ih =>
    simp only [List.map_cons, layoutLoop, gapAfter_moved]
    rw [← ih]
    simp [lay]

omit hs in
theorem leading_moved (acc : List Layout) : leading (acc.map (lay ρ)) = (leading acc).map (lay ρ) := by
  simp only [leading, List.getLast?_map]
  cases acc.getLast? with
  | none => rfl
  | some x =>
    simp only [Option.map_some, lay]
    split
    · simp [lay, item]
    · rfl

omit hs in
theorem layoutItems_moved (ls : List Layout) (size : Option Nat) :
    layoutItems (ls.map (lay ρ)) size = (layoutItems ls size).map (lay ρ) := by
  unfold layoutItems
  rw [← Web.stableSort_map (lay ρ) itemLe ls, ← List.map_reverse]
  have : (fun a b => itemLe (lay ρ a) (lay ρ b)) = itemLe := by
    funext a b; rfl
  rw [this]
  have h := layoutLoop_moved (ρ := ρ) (stableSort itemLe ls).reverse size []
  simp only [List.map_nil] at h
  rw [h, leading_moved, List.map_reverse]

theorem structLayout_moved (ms : List Member) (inh : List Inherit) (vps : List VariantPart) (size : Size) :
    structLayout (ms.map (member ρ)) (inh.map (inherit' ρ)) (vps.map (variantPart ρ)) size sb =
      (structLayout ms inh vps size sa).map (lay ρ) := by
  simp only [structLayout, layout, inputs_moved hs, layoutItems_moved]

theorem variantLayout_moved (v : Variant) (o : Nat) (size : Option Nat) :
    Variant.layout (variant ρ v) o size sb = (Variant.layout v o size sa).map (lay ρ) := by
  have := inputs_moved hs v.members [] [] o
  simp only [List.map_nil] at this
  simp only [Variant.layout, layout, variant, this, layoutItems_moved]

end

/-! ### Diffs -/

/-- What is needed of a comparison: a type and the same type with its references moved are equal. -/
def SameMoved (ρ : Nat → Nat) (same : Ty → Ty → Bool) (h : Hash) : Prop :=
  ∀ o t, fromOffset h o = some t → same t (ty ρ t) = true

section
variable {c : Pair} (hm : Types ρ c.a c.b) (hs : SameMoved ρ c.same c.a.hash)
include hm

include hs in
theorem tyCost_moved (w : Nat) (o : TypeOffset) : tyCost c w o (off ρ o) = 0 := by
  unfold tyCost
  rw [hm.hash]
  cases ht : fromOffset c.a.hash o with
  | none => rfl
  | some t => simp [hs o t ht]

include hs in
theorem memberCost_moved (m : Member) : memberCost c m (member ρ m) = 0 := by
  have := tyCost_moved hm hs 1 m.ty
  simp [memberCost, member, this]

include hs in
theorem layoutCost_moved (l : Layout) : layoutCost c l (lay ρ l) = 0 := by
  unfold layoutCost
  cases h : l.item with
  | inherit i => simp [lay, h, item, inheritCost, inherit', tyCost_moved hm hs]
  | _ => simp [lay, h, item, memberCost_moved hm hs]

omit hm in
theorem isAnon_moved (t : Ty) : (ty ρ t).isAnon = t.isAnon := by
  cases t <;> rfl

theorem memberInline_moved (m : Member) :
    Filter.memberInline c.b.hash (member ρ m) = Filter.memberInline c.a.hash m := by
  simp only [Filter.memberInline, member, hm.hash]
  cases m.name with
  | none => rfl
  | some s =>
    simp only
    split
    · rfl
    · cases fromOffset c.a.hash m.ty with
      | none => rfl
      | some t => exact isAnon_moved t

theorem inlineTy_moved (m : Member) : inlineTy c.b (member ρ m) = (inlineTy c.a m).map (ty ρ) := by
  simp only [inlineTy, memberInline_moved hm]
  split
  · exact hm.hash m.ty
  · rfl

theorem memberVal_moved (m : Member) : (memberVal c.b (member ρ m)).text' = (memberVal c.a m).text' := by
  simp only [memberVal, memberBitSize_moved hm.size, vals, Val.text']
  simp only [member, hm.ref]

theorem layoutInheritVal_moved (l : Layout) (i : Inherit) :
    (layoutInheritVal c.b (lay ρ l) (inherit' ρ i)).text' = (layoutInheritVal c.a l i).text' := by
  simp only [layoutInheritVal, vals, Val.text', inherit', hm.ref]
  rfl

theorem memberD_moved {r : Recs} (hr : ∀ t, RelS (r.d t (t.map (ty ρ)))) (m : Member) :
    RelS (memberD c r m (member ρ m)) := by
  intro e he
  simp only [memberD, Option.bind_eq_bind, Option.bind_eq_some_iff, Option.some.injEq, inlineTy_moved hm] at he
  obtain ⟨d, hd, rfl⟩ := he
  exact ⟨(memberVal_moved hm m).symm, hr _ d hd⟩

theorem layoutItemD_moved {r : Recs} (hr : ∀ t, RelS (r.d t (t.map (ty ρ))))
    {pa pb : Layout → List Variant → Option P}
    {d : Layout → List Variant → Layout → List Variant → Option D}
    (hd : ∀ l v, RelS (d l v (lay ρ l) (v.map (variant ρ)))) (l : Layout) :
    RelS (layoutItemD c r pa pb d l (lay ρ l)) := by
  intro e he
  unfold layoutItemD at he
  cases h : l.item with
  | padding => simp only [lay, h, item] at he; cases he; exact rfl
  | member m => simp only [lay, h, item] at he; exact memberD_moved hm hr m e he
  | variantPart v =>
    have hi : (lay ρ l).item = .variantPart (variantPart ρ v) := by simp [lay, h, item]
    simp only [h, hi, Option.bind_eq_bind, Option.bind_eq_some_iff, Option.some.injEq] at he
    obtain ⟨f, hf, rfl⟩ := he
    exact ⟨rfl, hd _ _ f hf⟩
  | inherit i =>
    have hi : (lay ρ l).item = .inherit (inherit' ρ i) := by simp [lay, h, item]
    simp only [h, hi] at he
    cases he
    exact (layoutInheritVal_moved hm l i).symm

include hs in
theorem variantD_moved {r : Recs} (hr : ∀ t, RelS (r.d t (t.map (ty ρ)))) (l : Layout) (v : Variant) :
    RelS (variantD c r l (lay ρ l) v (variant ρ v)) := by
  intro e he
  have hl := variantLayout_moved hm.size v l.bitOffset l.bitSize.get
  simp only [variantD, Option.bind_eq_bind, Option.bind_eq_some_iff, Option.some.injEq] at he
  obtain ⟨f, hf, rfl⟩ := he
  refine ⟨rfl, ?_⟩
  have e1 : (lay ρ l).bitOffset = l.bitOffset := rfl
  have e2 : (lay ρ l).bitSize = l.bitSize := rfl
  rw [e1, e2, hl] at hf
  exact listD_map (lay ρ) (fun a _ => layoutCost_moved hm hs a) (by simp) (by simp)
    (fun a _ => layoutItemD_moved hm hr (fun _ _ e he => by cases he; trivial) a) f hf

include hs in
theorem layoutD_moved {r : Recs} (hr : ∀ t, RelS (r.d t (t.map (ty ρ)))) (l : Layout) :
    RelS (layoutD c r l (lay ρ l)) :=
  layoutItemD_moved hm hr (fun l v => listD_map (variant ρ) (fun a _ => by simp [variantCost, variant]) (by simp)
    (by simp) (fun a _ => variantD_moved hm hs hr l a)) l

include hs in
theorem membersD_moved (n : Nat) : ∀ t, RelS (membersD c n t (t.map (ty ρ))) := by
  induction n with
  | zero => intro t e he; cases he
  | succ n ih =>
    have other : ∀ t t', membersP c.a (n + 1) t = some .skip → membersP c.b (n + 1) t' = some .skip →
        RelS (do
          let p ← membersP c.a (n + 1) t
          let q ← membersP c.b (n + 1) t'
          some (.block p q)) := by
      intro t t' h1 h2 e he
      simp only [h1, h2, Option.bind_eq_bind, Option.bind_some, Option.some.injEq] at he
      subst he
      exact ⟨rfl, rfl⟩
    intro t
    cases t with
    | none => exact other none none rfl rfl
    | some t =>
      cases t with
      | struct_ ns name size ms vps inh =>
        simp only [Option.map_some, ty, membersD, structLayout_moved hm.size]
        exact listD_map (lay ρ) (fun a _ => layoutCost_moved hm hs a) (by simp) (by simp)
          (fun a _ => layoutD_moved hm hs ih a)
      | union_ ns name size ms =>
        simp only [Option.map_some, ty, membersD]
        exact listD_map (member ρ) (fun a _ => memberCost_moved hm hs a) (by simp) (by simp)
          (fun a _ => memberD_moved hm ih a)
      | _ => exact other _ _ rfl rfl

include hs in
theorem inheritsD_moved (l : List Inherit) : RelS (inheritsD c l (l.map (inherit' ρ))) := by
  intro e he
  unfold inheritsD at he
  split at he
  · simp only [Option.map_eq_some_iff] at he
    obtain ⟨f, hf, rfl⟩ := he
    refine listD_map (inherit' ρ) (fun a _ => ?_) (by simp) (by simp) (fun a _ e he => ?_) f hf
    · simp [inheritCost, inherit', tyCost_moved hm hs]
    · cases he
      exact (hm.ref a.ty).symm
  · cases he
    cases l with
    | nil => exact rfl
    | cons i l => exact (hm.ref i.ty).symm

theorem headerD_moved (t : Ty) : RelS (headerD c t (ty ρ t)) := by
  intro e he
  cases t with
  | def_ ns name t =>
    cases he
    simp only [D.Same, defVal, vals, Val.text', hm.ref]
  | base => cases he; exact rfl
  | struct_ => cases he; exact rfl
  | union_ => cases he; exact rfl
  | enum_ => cases he; exact rfl
  | _ => cases he

theorem defInline_moved (o : TypeOffset) : defInline c.b (off ρ o) = (defInline c.a o).map (ty ρ) := by
  simp only [defInline, hm.hash]
  cases fromOffset c.a.hash o with
  | none => rfl
  | some t =>
    simp only [Option.map_some, isAnon_moved]
    split <;> rfl

theorem enumSize_moved (o : TypeOffset) (size : Size) : enumSize c.b (off ρ o) size = enumSize c.a o size := by
  simp [enumSize, hm.size]

theorem extra_moved (o : TypeOffset) : ∃ i, c.b.extra (off ρ o) = { c.a.extra o with id := i } := by
  refine ⟨(c.b.extra (off ρ o)).id, ?_⟩
  have := hm.extra o
  revert this
  generalize c.b.extra (off ρ o) = x
  generalize c.a.extra o = y
  intro h
  cases x
  cases y
  simp only [Extra.mk.injEq] at h ⊢
  simp_all

include hs in
theorem typeD_moved (o : Options) (dir : Option Str) (n : Nat) (t : TypeEntry) :
    RelS (typeD o c dir dir n t (entry ρ t)) := by
  intro e he
  simp only [typeD, Option.bind_eq_bind, Option.bind_eq_some_iff, Option.some.injEq] at he
  obtain ⟨h, hh, body, hbody, rfl⟩ := he
  refine ⟨⟨headerD_moved hm t.kind h hh, ?_⟩, trivial⟩
  have hx : c.b.extra (entry ρ t).offset = c.b.extra (off ρ t.offset) := rfl
  obtain ⟨i, hi⟩ := extra_moved hm t.offset
  rw [hx, hi] at hbody
  have hsrc := sourceD_self o dir (c.a.extra t.offset).source
  have hmem := membersD_moved hm hs n
  have hkind : (entry ρ t).kind = ty ρ t.kind := rfl
  rw [hkind] at hbody
  unfold bodyD at hbody
  cases hk : t.kind with
  | base name size => simp only [hk, ty] at hbody; cases hbody; simp [D.seqs, D.Same]
  | def_ ns name o' =>
    simp only [hk, ty, Option.bind_eq_bind, Option.bind_eq_some_iff, Option.some.injEq, defInline_moved hm, hm.size] at hbody
    obtain ⟨ms, hms, rfl⟩ := hbody
    exact ⟨hsrc, rfl, hmem _ ms hms, trivial⟩
  | struct_ ns name size ms vps inh =>
    simp only [hk, ty, Option.bind_eq_bind, Option.bind_eq_some_iff, Option.some.injEq] at hbody
    obtain ⟨m, hms, ih, hinh, rfl⟩ := hbody
    exact ⟨hsrc, rfl, rfl, inheritsD_moved hm hs _ ih hinh, hmem _ m hms, trivial⟩
  | union_ ns name size ms =>
    simp only [hk, ty, Option.bind_eq_bind, Option.bind_eq_some_iff, Option.some.injEq] at hbody
    obtain ⟨m, hms, rfl⟩ := hbody
    exact ⟨hsrc, rfl, rfl, hmem _ m hms, trivial⟩
  | enum_ ns name o' size =>
    simp only [hk, ty, Option.bind_eq_bind, Option.bind_eq_some_iff, Option.some.injEq, enumSize_moved hm] at hbody
    obtain ⟨es, hes, rfl⟩ := hbody
    refine ⟨hsrc, rfl, rfl, ?_, trivial⟩
    refine listD_self (fun a _ => by simp [enumeratorCost]) (by simp) (by simp) (fun a _ e he => ?_) es hes
    cases he
    exact rfl
  | _ => simp [hk, ty] at hbody

end

end Verif.Move
