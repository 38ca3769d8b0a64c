import Verif.Show.Total
import Verif.Path.Props
import Verif.Merge.Props
/-!
# C92: a diff always completes
-/
namespace Verif.Show
open Verif.Print Verif.Item Verif.Namespace Verif.Types Verif.Path Verif.Opts Verif.Merge Verif.Range
  Verif.File Verif.Order Verif.Filter Verif.Frame Verif.Layout

theorem whenD_some {b : Bool} {p : Option D} (h : b = true → p.isSome) : (whenD b p).isSome := by
  cases b
  · rfl
  · exact h rfl

theorem whenD_total {b : Bool} {p : Nat → Option D} (h : b = true → Eventually fun n => (p n).isSome) :
    Eventually fun n => (whenD b (p n)).isSome := by
  cases b
  · exact ⟨0, fun _ _ => rfl⟩
  · exact h rfl

/-! ### Lists -/

theorem itemD_total {α : Type} {print print' : α → Option P} {diff : α → α → Option D} {la lb : List α}
    (h1 : ∀ a ∈ la, (print a).isSome) (h2 : ∀ b ∈ lb, (print' b).isSome)
    (h3 : ∀ a ∈ la, ∀ b ∈ lb, (diff a b).isSome) {items : List (MergeResult α α)}
    (ho : ∀ x ∈ oldItems items, x ∈ la) (hn : ∀ x ∈ newItems items, x ∈ lb) :
    (items.mapM (itemD print print' diff)).isSome := by
  refine mapM_total fun x hx => ?_
  cases x with
  | both a b =>
    exact h3 a (ho a (List.mem_filterMap.2 ⟨_, hx, rfl⟩)) b (hn b (List.mem_filterMap.2 ⟨_, hx, rfl⟩))
  | left a => simp [itemD, h1 a (ho a (List.mem_filterMap.2 ⟨_, hx, rfl⟩))]
  | right b => simp [itemD, h2 b (hn b (List.mem_filterMap.2 ⟨_, hx, rfl⟩))]

theorem listD_total {α : Type} (Q : Heap) {print print' : α → Option P} {diff : α → α → Option D}
    {c1 c2 : α → Nat} {cost : α → α → Nat} {la lb : List α}
    (hc : replaceCost c1 c2 la lb < usizeMax)
    (h1 : ∀ a ∈ la, (print a).isSome) (h2 : ∀ b ∈ lb, (print' b).isSome)
    (h3 : ∀ a ∈ la, ∀ b ∈ lb, (diff a b).isSome) :
    (listD Q print print' diff c1 c2 cost la lb).isSome := by
  obtain ⟨items, hi, ha⟩ := C19_alignment Q la lb c1 c2 cost hc (enoughFuel la lb) (Nat.le_refl _)
  have := itemD_total h1 h2 h3 (items := items) (fun x hx => ha.old ▸ hx) (fun x hx => ha.new ▸ hx)
  simp [listD, if_pos hc, hi, this]

theorem sum_const {α : Type} (l : List α) (c : Nat) : (l.map fun _ => c).sum = c * l.length := by
  induction l with
  | nil => simp
  | cons a l ih => simp [ih, Nat.mul_add]; omega

/-- With a constant step cost of at most 3 the costs fit. -/
theorem cost_const {α : Type} {la lb : List α} {c : Nat} (hc : c ≤ 3) (ha : la.length < 2 ^ 61 + 2)
    (hb : lb.length < 2 ^ 61 + 2) : replaceCost (fun _ => c) (fun _ => c) la lb < usizeMax := by
  unfold replaceCost usizeMax
  rw [sum_const, sum_const]
  have h1 : c * la.length ≤ 3 * la.length := Nat.mul_le_mul_right _ hc
  have h2 : c * lb.length ≤ 3 * lb.length := Nat.mul_le_mul_right _ hc
  omega

theorem Short.wide {α : Type} {l : List α} (h : Short l) : l.length < 2 ^ 61 + 2 := by
  unfold Short at h; omega

theorem Short.map {α β : Type} {l : List α} (h : Short l) (f : α → β) : Short (l.map f) := by
  simpa [Short] using h

theorem ordListD_total {α : Type} {cmp : α → α → Ordering} {print print' : α → Option P} {diff : α → α → Option D}
    {la lb : List α} (h1 : ∀ a ∈ la, (print a).isSome) (h2 : ∀ b ∈ lb, (print' b).isSome)
    (h3 : ∀ a ∈ la, ∀ b ∈ lb, (diff a b).isSome) : (ordListD cmp print print' diff la lb).isSome := by
  obtain ⟨ho, hn⟩ : oldItems (merged cmp la lb (la.length + lb.length)) = la ∧
      newItems (merged cmp la lb (la.length + lb.length)) = lb :=
    C18_complete cmp la lb _ (Nat.le_refl _)
  have := itemD_total h1 h2 h3 (items := merged cmp la lb (la.length + lb.length)) (fun x hx => ho ▸ hx) (fun x hx => hn ▸ hx)
  simp [ordListD, this]

/-! ### Layouts -/

theorem layoutLoop_length (l : List Layout) (next : Option Nat) (acc : List Layout) :
    (layoutLoop l next acc).length ≤ acc.length + 2 * l.length := by
  induction l generalizing next acc with
  | nil => simp [layoutLoop]
  | cons m l ih =>
    have hg : (gapAfter m next).length ≤ 1 := by
      unfold gapAfter
      repeat' split
      all_goals simp
    have := ih (some m.bitOffset) (acc ++ gapAfter m next ++ [m])
    simp only [layoutLoop, List.length_append, List.length_cons, List.length_nil] at this ⊢
    omega

theorem layout_length (ms : List Member) (inh : List Inherit) (vps : List VariantPart) (base : Nat)
    (total : Option Nat) (sz : TypeOffset → Option Nat) :
    (layout ms inh vps base total sz).length ≤ 2 * (ms.length + inh.length + vps.length) + 1 := by
  have hl : ∀ acc : List Layout, (leading acc).length ≤ acc.length + 1 := by
    intro acc
    unfold leading
    repeat' split
    all_goals simp
  have := layoutLoop_length (stableSort itemLe (inputs ms inh vps base sz)).reverse total []
  have hs : (stableSort itemLe (inputs ms inh vps base sz)).length = ms.length + inh.length + vps.length := by
    rw [(stableSort_perm _ _).length_eq]
    simp [inputs, Nat.add_assoc]
  have h2 := hl (layoutLoop (stableSort itemLe (inputs ms inh vps base sz)).reverse total [])
  simp only [layout, layoutItems, List.length_reverse, List.length_nil] at *
  omega

/-! ### Types -/

/-- Whatever can be listed in the two files can be compared. -/
theorem membersD_total (c : Pair)
    (ha : ∀ off t, fromOffset c.a.hash off = some t → TyShort t)
    (hb : ∀ off t, fromOffset c.b.hash off = some t → TyShort t) (n : Nat) :
    ∀ ta tb : Option Ty, (∀ t, ta = some t → TyShort t) → (∀ t, tb = some t → TyShort t) →
      (membersP c.a n ta).isSome → (membersP c.b n tb).isSome → (membersD c n ta tb).isSome := by
  induction n with
  | zero => intro ta tb _ _ h; cases h
  | succ n ih =>
    intro ta tb sa sb pa pb
    have hin : ∀ (s : Side) (m : Member) t, inlineTy s m = some t → ∃ off, fromOffset s.hash off = some t := by
      intro s m t h
      unfold inlineTy at h
      split at h
      · exact ⟨_, h⟩
      · cases h
    have hm : ∀ x y, (memberP c.a (membersP c.a n) x).isSome → (memberP c.b (membersP c.b n) y).isSome →
        (memberD c ⟨membersP c.a n, membersP c.b n, membersD c n⟩ x y).isSome := by
      intro x y hx hy
      obtain ⟨e, he⟩ := Option.isSome_iff_exists.1 (ih (inlineTy c.a x) (inlineTy c.b y)
        (fun t ht => (hin _ _ _ ht).elim fun o h => ha o t h) (fun t ht => (hin _ _ _ ht).elim fun o h => hb o t h)
        (memberP_isSome.1 hx) (memberP_isSome.1 hy))
      simp [memberD, he]
    have hli : ∀ (qa qb : Layout → List Variant → Option P)
        (d : Layout → List Variant → Layout → List Variant → Option D) (x y : Layout),
        (layoutItemP c.a (membersP c.a n) qa x).isSome → (layoutItemP c.b (membersP c.b n) qb y).isSome →
        (∀ v w, x.item = .variantPart v → y.item = .variantPart w → (d x v.variants y w.variants).isSome) →
        (layoutItemD c ⟨membersP c.a n, membersP c.b n, membersD c n⟩ qa qb d x y).isSome := by
      intro qa qb d x y hx hy hd
      obtain ⟨p, hp⟩ := Option.isSome_iff_exists.1 hx
      obtain ⟨q, hq⟩ := Option.isSome_iff_exists.1 hy
      unfold layoutItemD
      split
      · rfl
      · rename_i v w h1 h2
        refine hm v w ?_ ?_
        · simpa [layoutItemP, h1] using hx
        · simpa [layoutItemP, h2] using hy
      · rename_i v w h1 h2
        obtain ⟨e, he⟩ := Option.isSome_iff_exists.1 (hd v w h1 h2)
        simp [he]
      · rfl
      · simp [hp, hq]
    have hv : ∀ (la lb : Layout) (v w : Variant), Short v.members → Short w.members →
        (variantP c.a (membersP c.a n) la v).isSome → (variantP c.b (membersP c.b n) lb w).isSome →
        (variantD c ⟨membersP c.a n, membersP c.b n, membersD c n⟩ la lb v w).isSome := by
      intro la lb v w sv sw hpv hpw
      have key : ∀ (s : Side) (l : Layout) (v : Variant), (variantP s (membersP s n) l v).isSome →
          ∀ x ∈ Variant.layout v l.bitOffset l.bitSize.get s.tsz,
            (layoutItemP s (membersP s n) (fun _ _ => some .skip) x).isSome := by
        intro s l v h
        unfold variantP at h
        cases hl : listP (layoutItemP s (membersP s n) fun _ _ => some .skip)
            (Variant.layout v l.bitOffset l.bitSize.get s.tsz) with
        | none => simp [hl] at h
        | some p => exact listP_isSome.1 (by rw [hl]; rfl)
      have len : ∀ (l : Layout) (v : Variant) (sz : TypeOffset → Option Nat), Short v.members →
          (Variant.layout v l.bitOffset l.bitSize.get sz).length < 2 ^ 61 + 2 := by
        intro l v sz h
        have := layout_length v.members [] [] l.bitOffset l.bitSize.get sz
        unfold Short at h
        simp only [Variant.layout, List.length_nil] at *
        omega
      have := listD_total c.heap (cost := layoutCost c)
        (cost_const (c := 1) (by omega) (len la v c.a.tsz sv) (len lb w c.b.tsz sw))
        (key c.a la v hpv) (key c.b lb w hpw) (diff := layoutItemD c ⟨membersP c.a n, membersP c.b n, membersD c n⟩
          (fun _ _ => some .skip) (fun _ _ => some .skip) fun _ _ _ _ => some .skip)
        (fun x hx y hy => hli _ _ _ x y (key c.a la v hpv x hx) (key c.b lb w hpw y hy) fun _ _ _ _ => rfl)
      obtain ⟨e, he⟩ := Option.isSome_iff_exists.1 this
      simp only [variantD, he]
      rfl
    have hl : ∀ x y, (∀ v, x.item = .variantPart v → Short v.variants ∧ ∀ w ∈ v.variants, Short w.members) →
        (∀ v, y.item = .variantPart v → Short v.variants ∧ ∀ w ∈ v.variants, Short w.members) →
        (layoutP c.a (membersP c.a n) x).isSome → (layoutP c.b (membersP c.b n) y).isSome →
        (layoutD c ⟨membersP c.a n, membersP c.b n, membersD c n⟩ x y).isSome := by
      intro x y sx sy hx hy
      refine hli _ _ _ x y hx hy fun v w h1 h2 => ?_
      have e1 := listP_isSome.1 ((layoutItemP_isSome.1 hx).2 v h1)
      have e2 := listP_isSome.1 ((layoutItemP_isSome.1 hy).2 w h2)
      exact listD_total c.heap (cost_const (by omega) (sx v h1).1.wide (sy w h2).1.wide) e1 e2
        fun a hav b hbv => hv x y a b ((sx v h1).2 a hav) ((sy w h2).2 b hbv) (e1 a hav) (e2 b hbv)
    have blk : (do
        let p ← membersP c.a (n + 1) ta
        let q ← membersP c.b (n + 1) tb
        some (D.block p q)).isSome := by
      obtain ⟨p, hp⟩ := Option.isSome_iff_exists.1 pa
      obtain ⟨q, hq⟩ := Option.isSome_iff_exists.1 pb
      simp [hp, hq]
    unfold membersD
    simp only
    split
    · rename_i ns1 n1 size ms vps inh ns2 n2 size' ms' vps' inh'
      have ka := sa _ rfl
      have kb := sb _ rfl
      have ea := listP_isSome.1 pa
      have eb := listP_isSome.1 pb
      have la := layout_length ms inh vps 0 (size.get.map (· * 8)) c.a.tsz
      have lb := layout_length ms' inh' vps' 0 (size'.get.map (· * 8)) c.b.tsz
      refine listD_total c.heap (cost_const (by omega) ?_ ?_) ea eb fun x hx y hy =>
        hl x y (fun v hv => ka.2 v ((mem_layout_part ms inh vps 0 (size.get.map (· * 8)) c.a.tsz v).1 ⟨x, hx, hv⟩))
          (fun v hv => kb.2 v ((mem_layout_part ms' inh' vps' 0 (size'.get.map (· * 8)) c.b.tsz v).1 ⟨y, hy, hv⟩))
          (ea x hx) (eb y hy)
      · have := ka.1; simp only [structLayout]; omega
      · have := kb.1; simp only [structLayout]; omega
    · have ka : Short _ := sa _ rfl
      have kb : Short _ := sb _ rfl
      have ea := listP_isSome.1 pa
      have eb := listP_isSome.1 pb
      exact listD_total c.heap (cost_const (by omega) ka.wide kb.wide) ea eb
        fun x hx y hy => hm x y (ea x hx) (eb y hy)
    · exact blk

theorem inheritsD_total (c : Pair) (la lb : List Inherit) (ha : la.length < 2 ^ 60) (hb : lb.length < 2 ^ 60) :
    (inheritsD c la lb).isSome := by
  unfold inheritsD
  split
  · rw [Option.isSome_map]
    exact listD_total c.heap (cost_const (by omega) (by omega) (by omega)) (fun _ _ => rfl) (fun _ _ => rfl)
      fun _ _ _ _ => rfl
  · rfl

theorem enumeratorsD_total (Q : Heap) (la lb : List Enumerator) (ha : Short la) (hb : Short lb) :
    (enumeratorsD Q la lb).isSome :=
  listD_total Q (cost_const (by omega) ha.wide hb.wide) (fun _ _ => rfl) (fun _ _ => rfl) fun _ _ _ _ => rfl

theorem typeD_total (o : Options) (c : Pair) (da db : Option Str)
    (ha : ∀ off t, fromOffset c.a.hash off = some t → TyShort t)
    (hb : ∀ off t, fromOffset c.b.hash off = some t → TyShort t) (n : Nat) (hn : 0 < n) (a b : TypeEntry)
    {i : Ident} (ia : IdentOf c.a.hash a.kind i) (ib : IdentOf c.b.hash b.kind i)
    (sa : TyShort a.kind) (sb : TyShort b.kind) (ea : Short (c.a.extra a.offset).enumerators)
    (eb : Short (c.b.extra b.offset).enumerators)
    (pa : (typeP o c.a da n a).isSome) (pb : (typeP o c.b db n b).isSome) :
    (typeD o c da db n a b).isSome := by
  have body : ∀ (s : Side) (dir : Option Str) (t : TypeEntry), (typeP o s dir n t).isSome →
      ∃ p, bodyP o s dir n (s.extra t.offset) t.kind = some p := by
    intro s dir t h
    cases hh : headerVal s t.kind with
    | none => simp [typeP, hh] at h
    | some v =>
      cases hb : bodyP o s dir n (s.extra t.offset) t.kind with
      | none => simp [typeP, hh, hb] at h
      | some p => exact ⟨p, rfl⟩
  obtain ⟨p, hp⟩ := body c.a da a pa
  obtain ⟨q, hq⟩ := body c.b db b pb
  have mp : ∀ (s : Side) (x : Extra) (dir : Option Str) (ns : Option Namespace) (nm : Option Str) (ty : TypeOffset) p,
      bodyP o s dir n x (.def_ ns nm ty) = some p → (membersP s n (defInline s ty)).isSome := by
    intro s x dir ns nm ty p h
    simp only [bodyP] at h
    cases hd : defInline s ty with
    | none =>
      cases n with
      | zero => omega
      | succ n => rfl
    | some t =>
      cases hm : membersP s n (some t) with
      | none => simp [hd, hm] at h
      | some p => rfl
  have di : ∀ (s : Side) (ty : TypeOffset) t, defInline s ty = some t → fromOffset s.hash ty = some t := by
    intro s ty t h
    unfold defInline at h
    cases hf : fromOffset s.hash ty with
    | none => simp [hf] at h
    | some t' =>
      simp only [hf] at h
      split at h
      · exact h
      · cases h
  have ms : ∀ (s : Side) (x : Extra) (dir : Option Str) ns nm sz m v inh p,
      bodyP o s dir n x (.struct_ ns nm sz m v inh) = some p →
      (membersP s n (some (.struct_ ns nm sz m v inh))).isSome := by
    intro s x dir ns nm sz m v inh p h
    cases hm : membersP s n (some (.struct_ ns nm sz m v inh)) with
    | none => simp [bodyP, hm] at h
    | some p => rfl
  have mu : ∀ (s : Side) (x : Extra) (dir : Option Str) ns nm sz m p,
      bodyP o s dir n x (.union_ ns nm sz m) = some p → (membersP s n (some (.union_ ns nm sz m))).isSome := by
    intro s x dir ns nm sz m p h
    cases hm : membersP s n (some (.union_ ns nm sz m)) with
    | none => simp [bodyP, hm] at h
    | some p => rfl
  obtain ⟨offa, ka⟩ := a
  obtain ⟨offb, kb⟩ := b
  simp only at *
  generalize hj : i = j at ib
  cases ia with
  | base =>
    cases ib <;> simp at hj
    simp [typeD, headerD, bodyD]
  | def_ =>
    cases ib <;> simp at hj
    obtain ⟨e, he⟩ := Option.isSome_iff_exists.1 (membersD_total c ha hb n (defInline c.a _) (defInline c.b _)
      (fun t ht => ha _ _ (di _ _ _ ht)) (fun t ht => hb _ _ (di _ _ _ ht)) (mp _ _ _ _ _ _ _ hp) (mp _ _ _ _ _ _ _ hq))
    simp [typeD, headerD, bodyD, he]
  | struct_ =>
    cases ib <;> simp at hj
    obtain ⟨e, he⟩ := Option.isSome_iff_exists.1 (membersD_total c ha hb n _ _
      (fun t ht => by cases ht; exact sa) (fun t ht => by cases ht; exact sb) (ms _ _ _ _ _ _ _ _ _ _ hp)
      (ms _ _ _ _ _ _ _ _ _ _ hq))
    rename_i ns1 n1 s1 ms1 vs1 is1 ns2 n2 s2 ms2 vs2 is2
    have l1 := sa.1
    have l2 := sb.1
    obtain ⟨f, hf⟩ := Option.isSome_iff_exists.1 (inheritsD_total c is1 is2 (by omega) (by omega))
    simp only [typeD, headerD, bodyD, he, hf]
    rfl
  | union_ =>
    cases ib <;> simp at hj
    obtain ⟨e, he⟩ := Option.isSome_iff_exists.1 (membersD_total c ha hb n _ _
      (fun t ht => by cases ht; exact sa) (fun t ht => by cases ht; exact sb) (mu _ _ _ _ _ _ _ _ hp)
      (mu _ _ _ _ _ _ _ _ hq))
    simp [typeD, headerD, bodyD, he]
  | enum_ =>
    cases ib <;> simp at hj
    obtain ⟨e, he⟩ := Option.isSome_iff_exists.1 (enumeratorsD_total c.heap _ _ ea eb)
    simp [typeD, headerD, bodyD, he]
  | _ => simp [bodyP] at hp

/-! ### Functions -/

theorem dedup_length {α : Type} [DecidableEq α] (l : List α) : (dedup l).length ≤ l.length := by
  fun_induction dedup l <;> (try simp only [List.length_cons] at *) <;> omega

theorem sortDedup_short {α : Type} [DecidableEq α] (cmp : α → α → Ordering) {l : List α} (h : Short l) :
    Short (sortDedup cmp l) := by
  have := dedup_length (stableSort (fun a b => cmp a b != .gt) l)
  rw [(stableSort_perm _ _).length_eq] at this
  exact Nat.lt_of_le_of_lt this h

theorem regsD_total (c : FnPair) {ra rb : List Nat} (ha : Short ra) (hb : Short rb) : (regsD c ra rb).isSome := by
  unfold regsD
  rw [Option.isSome_map]
  exact listD_total c.heap (cost_const (by omega) (sortDedup_short _ ha).wide (sortDedup_short _ hb).wide)
    (fun _ _ => rfl) (fun _ _ => rfl) fun _ _ _ _ => rfl

theorem registers_short {l : List (Range × Piece)} (h : Short l) : Short ((registers l).map (·.2)) := by
  refine Short.map ?_ _
  exact Nat.lt_of_le_of_lt (List.length_filterMap_le _ _) h

theorem paramD_total (o : Options) (c : FnPair) (a b : Parameter) (ha : Short a.locations) (hb : Short b.locations) :
    (paramD o c a b).isSome := by
  obtain ⟨e, he⟩ := Option.isSome_iff_exists.1 (regsD_total c (registers_short ha) (registers_short hb))
  unfold paramD
  cases o.printVariableLocations <;> simp [whenD, he]

theorem localD_total (o : Options) (c : FnPair) (a b : LocalVariable) (ha : Short a.locations)
    (hb : Short b.locations) : (localD o c a b).isSome := by
  obtain ⟨e, he⟩ := Option.isSome_iff_exists.1 (regsD_total c (registers_short ha) (registers_short hb))
  unfold localD
  cases o.printVariableLocations <;> simp [whenD, he]

theorem paramsD_total (o : Options) (c : FnPair) {pa pb : List Parameter}
    (ha : Short pa ∧ ∀ p ∈ pa, Short p.locations) (hb : Short pb ∧ ∀ p ∈ pb, Short p.locations) :
    (paramsD o c pa pb).isSome :=
  listD_total c.heap (cost_const (by omega) ha.1.wide hb.1.wide) (fun _ _ => rfl) (fun _ _ => rfl)
    fun a h1 b h2 => paramD_total o c a b (ha.2 a h1) (hb.2 b h2)

theorem localsD_total (o : Options) (c : FnPair) {va vb : List LocalVariable}
    (ha : Short va ∧ ∀ p ∈ va, Short p.locations) (hb : Short vb ∧ ∀ p ∈ vb, Short p.locations) :
    (localsD o c va vb).isSome := by
  have hs : ∀ l : List LocalVariable, Short l → (sortLocals l).length < 2 ^ 61 + 2 := by
    intro l h
    rw [sortLocals, (stableSort_perm _ _).length_eq]
    exact h.wide
  have hm : ∀ (l : List LocalVariable) x, x ∈ sortLocals l → x ∈ l := fun l x h => (stableSort_perm _ _).mem_iff.1 h
  exact listD_total c.heap (cost_const (by omega) (hs _ ha.1) (hs _ hb.1)) (fun _ _ => rfl) (fun _ _ => rfl)
    fun a h1 b h2 => localD_total o c a b (ha.2 a (hm _ _ h1)) (hb.2 b (hm _ _ h2))

theorem piecesD_total (c : FnPair) {pa pb : List Piece} (sa : Short pa) (sb : Short pb)
    (ha : ∀ p ∈ pa, LocationOk p.location) (hb : ∀ p ∈ pb, LocationOk p.location) : (piecesD c pa pb).isSome := by
  have key : ∀ (s : FnSide) (ps : List Piece), (∀ p ∈ ps, LocationOk p.location) →
      ∀ l ∈ ps.map (·.location), ∃ v, locationVal s l = some v := by
    intro s ps h l hl
    obtain ⟨p, hp, rfl⟩ := List.mem_map.1 hl
    exact Option.isSome_iff_exists.1 (locationVal_total s _ (h p hp))
  refine listD_total c.heap (cost_const (by omega) (sa.map _).wide (sb.map _).wide) (fun l hl => ?_) (fun l hl => ?_)
    fun l hl m hm => ?_
  · obtain ⟨v, hv⟩ := key c.a pa ha l hl
    simp [locationP, hv]
  · obtain ⟨v, hv⟩ := key c.b pb hb l hl
    simp [locationP, hv]
  · obtain ⟨v, hv⟩ := key c.a pa ha l hl
    obtain ⟨w, hw⟩ := key c.b pb hb m hm
    simp [locationD, hv, hw]

/-- What is needed of a call parameter. -/
def ArgOk (o : Options) (p : CallParameter) : Prop :=
  (Short p.location ∧ Short p.value ∧ Short p.dataLocation ∧ Short p.dataValue) ∧
  (o.printVariableLocations = true →
    ∀ x ∈ p.location ++ p.value ++ p.dataLocation ++ p.dataValue, LocationOk x.location)

theorem callParamP_total (o : Options) (s : FnSide) (a : CallParameter) (h : ArgOk o a) :
    (callParamP o s a).isSome := by
  unfold callParamP
  cases hv : o.printVariableLocations with
  | false => simp [whenP]
  | true =>
    have := h.2 hv
    obtain ⟨p1, h1⟩ := Option.isSome_iff_exists.1 (piecesP_total s a.location fun p hp => this p (by simp [hp]))
    obtain ⟨p2, h2⟩ := Option.isSome_iff_exists.1 (piecesP_total s a.value fun p hp => this p (by simp [hp]))
    obtain ⟨p3, h3⟩ := Option.isSome_iff_exists.1 (piecesP_total s a.dataLocation fun p hp => this p (by simp [hp]))
    obtain ⟨p4, h4⟩ := Option.isSome_iff_exists.1 (piecesP_total s a.dataValue fun p hp => this p (by simp [hp]))
    simp [whenP, h1, h2, h3, h4]

theorem callParamD_total (o : Options) (c : FnPair) (a b : CallParameter) (ha : ArgOk o a) (hb : ArgOk o b) :
    (callParamD o c a b).isSome := by
  unfold callParamD
  cases hv : o.printVariableLocations with
  | false => simp [whenD]
  | true =>
    have ka := ha.2 hv
    have kb := hb.2 hv
    obtain ⟨s1, s2, s3, s4⟩ := ha.1
    obtain ⟨t1, t2, t3, t4⟩ := hb.1
    obtain ⟨p1, h1⟩ := Option.isSome_iff_exists.1 (piecesD_total c s1 t1 (fun p hp => ka p (by simp [hp])) fun p hp => kb p (by simp [hp]))
    obtain ⟨p2, h2⟩ := Option.isSome_iff_exists.1 (piecesD_total c s2 t2 (fun p hp => ka p (by simp [hp])) fun p hp => kb p (by simp [hp]))
    obtain ⟨p3, h3⟩ := Option.isSome_iff_exists.1 (piecesD_total c s3 t3 (fun p hp => ka p (by simp [hp])) fun p hp => kb p (by simp [hp]))
    obtain ⟨p4, h4⟩ := Option.isSome_iff_exists.1 (piecesD_total c s4 t4 (fun p hp => ka p (by simp [hp])) fun p hp => kb p (by simp [hp]))
    simp [whenD, h1, h2, h3, h4]

theorem callParamsD_total (o : Options) (c : FnPair) (la lb : List CallParameter) (ha : ∀ a ∈ la, ArgOk o a)
    (hb : ∀ b ∈ lb, ArgOk o b) : (callParamsD o c la lb).isSome := by
  have add : ∀ l, (∀ b ∈ l, ArgOk o b) → (callParamsAddD o c l).isSome := by
    intro l
    induction l with
    | nil => intro _; rfl
    | cons b l ih =>
      intro h
      obtain ⟨p, hp⟩ := Option.isSome_iff_exists.1 (callParamP_total o c.b b (h b (List.mem_cons_self ..)))
      obtain ⟨r, hr⟩ := Option.isSome_iff_exists.1 (ih fun x hx => h x (List.mem_cons_of_mem _ hx))
      simp [callParamsAddD, hp, hr]
  induction la generalizing lb with
  | nil => simpa [callParamsD] using add lb hb
  | cons a la ih =>
    cases lb with
    | nil =>
      obtain ⟨p, hp⟩ := Option.isSome_iff_exists.1 (callParamP_total o c.a a (ha a (List.mem_cons_self ..)))
      obtain ⟨r, hr⟩ := Option.isSome_iff_exists.1 (ih [] (fun x hx => ha x (List.mem_cons_of_mem _ hx)) (by simp))
      simp [callParamsD, hp, hr]
    | cons b lb =>
      obtain ⟨p, hp⟩ := Option.isSome_iff_exists.1 (callParamD_total o c a b (ha a (List.mem_cons_self ..)) (hb b (List.mem_cons_self ..)))
      obtain ⟨r, hr⟩ := Option.isSome_iff_exists.1 (ih lb (fun x hx => ha x (List.mem_cons_of_mem _ hx)) fun x hx => hb x (List.mem_cons_of_mem _ hx))
      simp [callParamsD, hp, hr]

theorem callSiteD_total (o : Options) (c : FnPair) (da db : Option Str) (a b : FunctionCall)
    (sa : CallShort a) (sb : CallShort b) (ha : o.printVariableLocations = true → CallOk a)
    (hb : o.printVariableLocations = true → CallOk b) : (callSiteD o c da db a b).isSome := by
  obtain ⟨t, ht⟩ := Option.isSome_iff_exists.1 (whenD_some (b := o.printVariableLocations)
    (p := (piecesD c a.target b.target).map (.field false (k "target"))) fun hv => by
      simp [piecesD_total c sa.1 sb.1 (ha hv).1 (hb hv).1])
  obtain ⟨ps, hps⟩ := Option.isSome_iff_exists.1 (whenD_some (b := !(a.parameters.isEmpty && b.parameters.isEmpty))
    (p := (callParamsD o c a.parameters b.parameters).map (.field false (k "parameters"))) fun _ => by
      rw [Option.isSome_map]
      exact callParamsD_total o c _ _ (fun x hx => ⟨sa.2 x hx, fun hv => (ha hv).2 x hx⟩)
        fun x hx => ⟨sb.2 x hx, fun hv => (hb hv).2 x hx⟩)
  simp only [callSiteD, ht, hps]
  rfl

theorem callSitesD_total (o : Options) (c : FnPair) (da db : Option Str) (la lb : List FunctionCall)
    (sa : Short la ∧ ∀ x ∈ la, CallShort x) (sb : Short lb ∧ ∀ x ∈ lb, CallShort x)
    (ha : o.printVariableLocations = true → ∀ x ∈ la, CallOk x)
    (hb : o.printVariableLocations = true → ∀ x ∈ lb, CallOk x) : (callSitesD o c da db la lb).isSome :=
  listD_total c.heap (cost_const (by omega) sa.1.wide sb.1.wide)
    (fun x hx => callSiteP_total o c.a da x fun hv => ha hv x hx)
    (fun x hx => callSiteP_total o c.b db x fun hv => hb hv x hx)
    fun x hx y hy => callSiteD_total o c da db x y (sa.2 x hx) (sb.2 y hy) (fun hv => ha hv x hx) fun hv => hb hv y hy

theorem frameD_total (c : FnPair) (x y : FunctionDetails) (hx : FrameFits (entries c.a.tsz x))
    (hy : FrameFits (entries c.b.tsz y)) : (frameD c x y).isSome := by
  have key : ∀ (tsz : TypeOffset → Option Nat) (d : FunctionDetails), FrameFits (entries tsz d) →
      ∃ vs, frameVariables tsz d = some vs ∧ ∀ x ∈ vs, ∃ v, unknownVal x = some v := by
    intro tsz d h
    obtain ⟨vs, hvs, -, hx⟩ := link_total none _ h.1
    refine ⟨vs, hvs, fun x hxm => ?_⟩
    unfold unknownVal
    cases hp : x.1 with
    | none => exact ⟨_, rfl⟩
    | some z =>
      simp only
      split
      · rename_i hlt
        rcases hx x hxm with ⟨h1, -⟩ | ⟨before, e, after, h1, h2⟩
        · rw [hp] at h1; cases h1
        · rw [if_pos (h.2 _ _ _ _ h1 z (h2 z hp) hlt)]; exact ⟨_, rfl⟩
      · exact ⟨_, rfl⟩
  obtain ⟨va, h1, ha⟩ := key _ _ hx
  obtain ⟨vb, h2, hb⟩ := key _ _ hy
  simp only [frameD, h1, h2]
  refine ordListD_total (fun a hm => ?_) (fun b hm => ?_) fun a hma b hmb => ?_
  · obtain ⟨v, hv⟩ := ha a hm; simp [printEntry, hv]
  · obtain ⟨v, hv⟩ := hb b hm; simp [printEntry, hv]
  · obtain ⟨v, hv⟩ := ha a hma
    obtain ⟨w, hw⟩ := hb b hmb
    simp [frameEntryD, hv, hw]

theorem inlined_cost {la lb : List InlinedFunction}
    (ha : Short la ∧ (la.map fun i => i.size.getD 0).sum < 2 ^ 60)
    (hb : Short lb ∧ (lb.map fun i => i.size.getD 0).sum < 2 ^ 60) :
    replaceCost inlinedStep inlinedStep la lb < usizeMax := by
  have key : ∀ l : List InlinedFunction, (l.map inlinedStep).sum = 2 * l.length + 4 * (l.map fun i => i.size.getD 0).sum := by
    intro l
    induction l with
    | nil => rfl
    | cons i l ih => simp only [List.map_cons, List.sum_cons, ih, inlinedStep, List.length_cons]; omega
  unfold replaceCost usizeMax
  rw [key, key]
  unfold Short at ha hb
  omega

/-- What is needed of an inlined function, at every level. -/
structure InlOk (o : Options) (l : List InlinedFunction) : Prop where
  short : ∀ i, Frame.Within l i → ListsShort i.parameters i.variables i.inlined i.calls
  calls : o.printFunctionCalls = true → o.printVariableLocations = true →
    ∀ i, Frame.Within l i → ∀ c ∈ i.calls, CallOk c

theorem InlOk.below {o : Options} {l : List InlinedFunction} (h : InlOk o l) {i : InlinedFunction} (hi : i ∈ l) :
    InlOk o i.inlined :=
  ⟨fun j hj => h.short j (.deeper hi hj), fun h1 h2 j hj => h.calls h1 h2 j (.deeper hi hj)⟩

theorem inlinedP_below {o : Options} {s : FnSide} {dir : Option Str} {n : Nat} {f : InlinedFunction}
    (h : (inlinedP o s dir (n + 1) f).isSome) : ∀ g ∈ f.inlined, (inlinedP o s dir n g).isSome := by
  unfold inlinedP at h
  cases hl : listP (inlinedP o s dir n) f.inlined with
  | none => simp [hl] at h
  | some p => exact listP_isSome.1 (by rw [hl]; rfl)

theorem inlinedD_total (o : Options) (c : FnPair) (da db : Option Str) (n : Nat) :
    ∀ (la lb : List InlinedFunction), InlOk o la → InlOk o lb → ∀ f ∈ la, ∀ g ∈ lb,
      (inlinedP o c.a da n f).isSome → (inlinedP o c.b db n g).isSome → (inlinedD o c da db n f g).isSome := by
  induction n with
  | zero => intro la lb _ _ f _ g _ h; cases h
  | succ n ih =>
    intro la lb ha hb f hf g hg pf pg
    have sf := ha.short f (.here hf)
    have sg := hb.short g (.here hg)
    obtain ⟨e1, h1⟩ := Option.isSome_iff_exists.1 (whenD_some (b := o.printInlinedFunctionParameters)
      (p := (paramsD o c f.parameters g.parameters).map (.field false (k "parameters"))) fun _ => by
        simp [paramsD_total o c sf.params sg.params])
    obtain ⟨e2, h2⟩ := Option.isSome_iff_exists.1 (whenD_some (b := o.printFunctionVariables)
      (p := (localsD o c f.variables g.variables).map (.field true (k "variables"))) fun _ => by
        simp [localsD_total o c sf.vars sg.vars])
    obtain ⟨e3, h3⟩ := Option.isSome_iff_exists.1 (whenD_some (b := o.printFunctionCalls)
      (p := (callSitesD o c da db f.calls g.calls).map (.field true (k "call sites"))) fun hc => by
        simp [callSitesD_total o c da db _ _ sf.calls sg.calls (fun hv => ha.calls hc hv f (.here hf))
          (fun hv => hb.calls hc hv g (.here hg))])
    have pf' := inlinedP_below pf
    have pg' := inlinedP_below pg
    obtain ⟨e4, h4⟩ := Option.isSome_iff_exists.1 (listD_total c.heap (cost := inlinedCost c da db)
      (diff := inlinedD o c da db n) (inlined_cost sf.inlined sg.inlined) pf' pg'
      fun x hx y hy => ih _ _ (ha.below hf) (hb.below hg) x hx y hy (pf' x hx) (pg' y hy))
    simp only [inlinedD, h1, h2, h3, h4]
    rfl

theorem fnOk_inl {o : Options} {s : FnSide} {f : Function} (h : FnOk o s f) (hs : FnShort s f) :
    InlOk o (s.details f).inlined := ⟨hs.below, fun h1 h2 => (h.calls h1 h2).2⟩

theorem functionD_total (o : Options) (c : FnPair) (uid : Nat) (da db : Option Str) (f g : Function)
    (hf : FnOk o c.a f) (hg : FnOk o c.b g) (sf : FnShort c.a f) (sg : FnShort c.b g) :
    Eventually fun n => (functionD o c uid da db n f g).isSome := by
  obtain ⟨N, hN⟩ := inlinedListP_total o c.a da (c.a.details f).inlined fun h1 h2 => (hf.calls h1 h2).2
  obtain ⟨M, hM⟩ := inlinedListP_total o c.b db (c.b.details g).inlined fun h1 h2 => (hg.calls h1 h2).2
  refine ⟨max N M, fun n hn => ?_⟩
  have pf := hN n (by omega)
  have pg := hM n (by omega)
  obtain ⟨e1, h1⟩ := Option.isSome_iff_exists.1 (paramsD_total o c sf.own.params sg.own.params)
  obtain ⟨e2, h2⟩ := Option.isSome_iff_exists.1 (whenD_some (b := o.printFunctionVariables)
    (p := (localsD o c (c.a.details f).variables (c.b.details g).variables).map (.field true (k "variables"))) fun _ => by
      simp [localsD_total o c sf.own.vars sg.own.vars])
  obtain ⟨e3, h3⟩ := Option.isSome_iff_exists.1 (whenD_some (b := o.printFunctionStackFrame)
    (p := (frameD c (c.a.details f) (c.b.details g)).map (.field true (k "stack frame"))) fun hc => by
      simp [frameD_total c _ _ (hf.frame hc) (hg.frame hc)])
  obtain ⟨e4, h4⟩ := Option.isSome_iff_exists.1 (listD_total c.heap (cost := inlinedCost c da db)
    (diff := inlinedD o c da db n) (inlined_cost sf.own.inlined sg.own.inlined) pf pg
    fun x hx y hy => inlinedD_total o c da db n _ _ (fnOk_inl hf sf) (fnOk_inl hg sg) x hx y hy (pf x hx) (pg y hy))
  obtain ⟨e5, h5⟩ := Option.isSome_iff_exists.1 (whenD_some (b := o.printFunctionCalls)
    (p := (callSitesD o c da db (c.a.details f).calls (c.b.details g).calls).map (.field true (k "call sites"))) fun hc => by
      simp [callSitesD_total o c da db _ _ sf.own.calls sg.own.calls (fun hv => (hf.calls hc hv).1)
        (fun hv => (hg.calls hc hv).1)])
  have hcalls : ∀ (s : FnSide) (f : Function), FnOk o s f → o.printFunctionCalls = true → ∃ l, fnCalls s f = some l := by
    intro s f h hc
    refine Option.isSome_iff_exists.1 ?_
    simp only [fnCalls, Option.isSome_map]
    exact mapM_total fun r hr => Option.isSome_iff_exists.2 (h.code hc r hr)
  obtain ⟨e6, h6⟩ := Option.isSome_iff_exists.1 (whenD_some (b := o.printFunctionCalls)
    (p := (do
      let la ← fnCalls c.a f
      let lb ← fnCalls c.b g
      (callsD o c la lb).map (.field true (k "calls")))) fun hc => by
      obtain ⟨la, hla⟩ := hcalls c.a f hf hc
      obtain ⟨lb, hlb⟩ := hcalls c.b g hg hc
      have : (callsD o c la lb).isSome := listD_total c.heap
        (cost_const (by omega) (sf.code la hla).wide (sg.code lb hlb).wide) (fun _ _ => rfl) (fun _ _ => rfl)
        fun _ _ _ _ => rfl
      simp [hla, hlb, this])
  have hins : ∀ (s : FnSide) (f : Function), FnOk o s f → o.printFunctionInstructions = true →
      ∃ p, instructionsP s f = some p := by
    intro s f h hc
    unfold instructionsP
    split
    · exact ⟨_, rfl⟩
    · exact h.insns hc (by assumption)
  obtain ⟨e7, h7⟩ := Option.isSome_iff_exists.1 (whenD_some (b := o.printFunctionInstructions)
    (p := (do
      let p ← instructionsP c.a f
      let q ← instructionsP c.b g
      some (D.field true (k "instructions") (.ignoreDiff true (.block p q))))) fun hc => by
      obtain ⟨p, hp⟩ := hins c.a f hf hc
      obtain ⟨q, hq⟩ := hins c.b g hg hc
      simp [hp, hq])
  simp only [functionD, fnBodyD, h1, h2, h3, h4, h5, h6, h7]
  rfl

/-! ### Sorted lists -/

/-- Merged items of two lists, sorted: from some bound on, whatever the merge. -/
theorem diffOrder_total {α γ : Type} {cmpBy : Nat → α → γ → α → γ → Res Ordering} {G : α × γ → Prop}
    (h : Lawful (fun n x y => cmpBy n x.1 x.2 y.1 y.2) G) (fa fb : γ) (la lb : List α)
    (ha : ∀ x ∈ la, G (x, fa)) (hb : ∀ x ∈ lb, G (x, fb)) :
    ∃ N, ∀ n, N ≤ n → ∀ items : List (MergeResult α α), (∀ x ∈ oldItems items, x ∈ la) →
      (∀ x ∈ newItems items, x ∈ lb) → ∃ l', diffOrder (cmpBy n) fa fb items = some l' ∧ l'.Perm items := by
  have hg : ∀ x ∈ la.map (·, fa) ++ lb.map (·, fb), G x := by
    intro x hx
    rcases List.mem_append.1 hx with h | h <;> obtain ⟨y, hy, rfl⟩ := List.mem_map.1 h
    · exact ha y hy
    · exact hb y hy
  obtain ⟨N, hN⟩ := h.okOn _ _ hg hg
  refine ⟨N, fun n hn items ho hnw => ?_⟩
  have he : MergeResult.cmp (cmpBy n) fa fb = fun x y => cmpBy n (shown fa fb x).1 (shown fa fb x).2
      (shown fa fb y).1 (shown fa fb y).2 := by
    funext x y; exact C53_cmp_shown (cmpBy n) fa fb x y
  have hsh : ∀ x ∈ items, shown fa fb x ∈ la.map (·, fa) ++ lb.map (·, fb) := by
    intro x hx
    cases x with
    | both a b =>
      refine List.mem_append_right _ (List.mem_map.2 ⟨b, hnw b (List.mem_filterMap.2 ⟨_, hx, rfl⟩), rfl⟩)
    | left a => exact List.mem_append_left _ (List.mem_map.2 ⟨a, ho a (List.mem_filterMap.2 ⟨_, hx, rfl⟩), rfl⟩)
    | right b => exact List.mem_append_right _ (List.mem_map.2 ⟨b, hnw b (List.mem_filterMap.2 ⟨_, hx, rfl⟩), rfl⟩)
  obtain ⟨l', h1, h2⟩ : ∃ l', diffOrder (cmpBy n) fa fb items = some l' ∧
      Arranged (fun x y => cmpBy n (shown fa fb x).1 (shown fa fb x).2 (shown fa fb y).1 (shown fa fb y).2) items l' := by
    unfold diffOrder
    rw [he]
    exact sortWith_spec (fun x hx y hy => hN n hn _ (hsh x hx) _ (hsh y hy))
      (fun hxy => h.swap (x := shown fa fb _) (y := shown fa fb _) hxy)
      (fun x y z => h.trans n (shown fa fb x) (shown fa fb y) (shown fa fb z))
  exact ⟨l', h1, h2.perm⟩

theorem sortListD_total {α γ : Type} {o : Options} {cmpBy : Nat → α → γ → α → γ → Res Ordering} {G : α × γ → Prop}
    (h : Lawful (fun n x y => cmpBy n x.1 x.2 y.1 y.2) G) (fa fb : γ) (la lb : List α)
    (ha : ∀ x ∈ la, G (x, fa)) (hb : ∀ x ∈ lb, G (x, fb))
    {print print' : Nat → α → Option P} {diff : Nat → α → α → Option D} (S : α → α → Prop)
    (h1 : ∀ a ∈ la, Eventually fun n => (print n a).isSome)
    (h2 : ∀ b ∈ lb, Eventually fun n => (print' n b).isSome)
    (h3 : ∀ a ∈ la, ∀ b ∈ lb, S a b → Eventually fun n => (diff n a b).isSome) :
    ∃ N, ∀ n, N ≤ n → ∀ items : List (MergeResult α α), (∀ x ∈ oldItems items, x ∈ la) →
      (∀ x ∈ newItems items, x ∈ lb) → (∀ a b, .both a b ∈ items → S a b) →
      (sortListD o (cmpBy n) fa fb (print n) (print' n) (diff n) items).isSome := by
  obtain ⟨N0, hN0⟩ := diffOrder_total h fa fb la lb ha hb
  obtain ⟨N1, hN1⟩ := Eventually.all la h1
  obtain ⟨N2, hN2⟩ := Eventually.all lb h2
  have h3' : ∃ N, ∀ n, N ≤ n → ∀ a ∈ la, ∀ b ∈ lb, S a b → (diff n a b).isSome = true := by
    have : ∀ a ∈ la, ∃ N, ∀ n, N ≤ n → ∀ b ∈ lb, S a b → (diff n a b).isSome = true := by
      intro a ham
      clear hN2 h2 hb
      induction lb with
      | nil => exact ⟨0, by simp⟩
      | cons b l ih =>
        obtain ⟨N, hN⟩ := ih (fun a ha b hb => h3 a ha b (List.mem_cons_of_mem _ hb)) (hN0 := by
          intro n hn items ho hnw
          exact hN0 n hn items ho fun x hx => List.mem_cons_of_mem _ (hnw x hx))
        by_cases hs : S a b
        · obtain ⟨M, hM⟩ := h3 a ham b (List.mem_cons_self ..) hs
          refine ⟨max N M, fun n hn x hx hsx => ?_⟩
          rcases List.mem_cons.1 hx with rfl | hx
          · exact hM n (by omega)
          · exact hN n (by omega) x hx hsx
        · refine ⟨N, fun n hn x hx hsx => ?_⟩
          rcases List.mem_cons.1 hx with rfl | hx
          · exact absurd hsx hs
          · exact hN n hn x hx hsx
    clear hN1 hN0 ha h1 h3
    induction la with
    | nil => exact ⟨0, by simp⟩
    | cons a l ih =>
      obtain ⟨N, hN⟩ := ih fun a ha => this a (List.mem_cons_of_mem _ ha)
      obtain ⟨M, hM⟩ := this a (List.mem_cons_self ..)
      refine ⟨max N M, fun n hn x hx => ?_⟩
      rcases List.mem_cons.1 hx with rfl | hx
      · exact hM n (by omega)
      · exact hN n (by omega) x hx
  obtain ⟨N3, hN3⟩ := h3'
  refine ⟨max (max N0 N1) (max N2 N3), fun n hn items ho hnw hp => ?_⟩
  obtain ⟨l', hl', hperm⟩ := hN0 n (by omega) items ho hnw
  have : (l'.mapM (sortItemD o (print n) (print' n) (diff n))).isSome := by
    refine mapM_total fun x hx => ?_
    have hx := hperm.mem_iff.1 hx
    cases x with
    | both a b =>
      have := hN3 n (by omega) a (ho a (List.mem_filterMap.2 ⟨_, hx, rfl⟩)) b
        (hnw b (List.mem_filterMap.2 ⟨_, hx, rfl⟩)) (hp a b hx)
      simp [sortItemD, this]
    | left a =>
      have := hN1 n (by omega) a (ho a (List.mem_filterMap.2 ⟨_, hx, rfl⟩))
      cases hi : o.ignoreDeleted <;> simp [sortItemD, hi, this]
    | right b =>
      have := hN2 n (by omega) b (hnw b (List.mem_filterMap.2 ⟨_, hx, rfl⟩))
      cases hi : o.ignoreAdded <;> simp [sortItemD, hi, this]
  simp [sortListD, hl', this]

end Verif.Show
