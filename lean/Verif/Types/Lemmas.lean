import Verif.Types.Spec
import Verif.Namespace.Props
/-!
# Lemmas about identity comparison and sizes
-/
namespace Verif.Types
open Verif.Sentinel Verif.Namespace

theorem Opt64.get_inj {a b : Opt64} : a.get = b.get ↔ a = b := by
  constructor
  · intro h
    cases a; cases b
    simp [Opt64.get, Opt64.isNone, Opt64.none] at h
    split at h <;> split at h <;> simp_all
  · rintro rfl; rfl

/-! ## Order laws of one comparison result -/

/-- Reversal of a result. -/
def Res.swap : Res Ordering → Res Ordering
  | .ok o => .ok o.swap
  | r => r

theorem swap_lexR (x y : Res Ordering) : (lexR x y).swap = lexR x.swap y.swap := by
  cases x with
  | ok o => cases o <;> rfl
  | _ => rfl

/-- Transitivity of three results `a~b`, `b~c`, `a~c`. -/
def T3 (x y z : Res Ordering) : Prop :=
  ∀ o1 o2, x = .ok o1 → y = .ok o2 → o1.isLE → o2.isLE →
    ∃ o, z = .ok o ∧ o.isLE ∧ (o = .eq ↔ o1 = .eq ∧ o2 = .eq)

theorem T3.lex' {x y z x' y' z'} (h : T3 x y z)
    (h' : x = .ok .eq → y = .ok .eq → T3 x' y' z') :
    T3 (lexR x x') (lexR y y') (lexR z z') := by
  intro o1 o2 e1 e2 l1 l2
  cases x with
  | diverge => simp [lexR] at e1
  | panic => simp [lexR] at e1
  | ok p =>
  cases y with
  | diverge => simp [lexR] at e2
  | panic => simp [lexR] at e2
  | ok q =>
  cases p with
  | gt => simp [lexR] at e1; subst e1; simp at l1
  | lt =>
    simp [lexR] at e1; subst e1
    cases q with
    | gt => simp [lexR] at e2; subst e2; simp at l2
    | lt =>
      obtain ⟨o, rfl, a, b⟩ := h _ _ rfl rfl rfl rfl
      clear h' h; cases o <;> simp_all [lexR]
    | eq =>
      obtain ⟨o, rfl, a, b⟩ := h _ _ rfl rfl rfl rfl
      clear h' h; cases o <;> simp_all [lexR]
  | eq =>
    cases q with
    | gt => simp [lexR] at e2; subst e2; simp at l2
    | lt =>
      obtain ⟨o, rfl, a, b⟩ := h _ _ rfl rfl rfl rfl
      simp [lexR] at e2; subst e2
      clear h' h; cases o <;> simp_all [lexR]
    | eq =>
      obtain ⟨o, rfl, a, b⟩ := h _ _ rfl rfl rfl rfl
      simp at b; subst b
      simp only [lexR] at e1 e2 ⊢
      exact h' rfl rfl _ _ e1 e2 l1 l2

theorem T3.lex {x y z x' y' z'} (h : T3 x y z) (h' : T3 x' y' z') :
    T3 (lexR x x') (lexR y y') (lexR z z') := T3.lex' h (fun _ _ => h')

theorem T3.of_trans {α : Type _} (cmp : α → α → Ordering) [Std.TransCmp cmp] (a b c : α) :
    T3 (.ok (cmp a b)) (.ok (cmp b c)) (.ok (cmp a c)) := by
  intro o1 o2 e1 e2 l1 l2
  cases e1; cases e2
  refine ⟨_, rfl, Std.TransCmp.isLE_trans l1 l2, ?_⟩
  constructor
  · intro h
    have h1 : cmp b a ≠ .lt := by
      rw [Std.OrientedCmp.eq_swap (cmp := cmp)]; revert l1; cases cmp a b <;> simp
    have hca : cmp c a = .eq := Std.OrientedCmp.eq_comm.1 h
    have hba : (cmp b a).isLE := Std.TransCmp.isLE_trans l2 (by simp [hca])
    have hcb : (cmp c b).isLE := Std.TransCmp.isLE_trans (by simp [hca]) l1
    rw [Std.OrientedCmp.eq_swap (cmp := cmp)] at hba hcb
    revert l1 l2 hba hcb
    cases cmp a b <;> cases cmp b c <;> simp
  · rintro ⟨h1, h2⟩
    exact Std.TransCmp.eq_trans h1 h2

theorem T3.refl_eq : T3 (.ok .eq) (.ok .eq) (.ok .eq) := by
  intro o1 o2 e1 e2 _ _; cases e1; cases e2; exact ⟨_, rfl, rfl, by simp⟩

theorem cmpOptTy_T3 {r1 r2 r3 : Ty → Ty → Res Ordering}
    (h : ∀ a b c, T3 (r1 a b) (r2 b c) (r3 a c)) (a b c : Option Ty) :
    T3 (cmpOptTy r1 a b) (cmpOptTy r2 b c) (cmpOptTy r3 a c) := by
  cases a <;> cases b <;> cases c <;> simp only [cmpOptTy] <;>
    first
    | exact h _ _ _
    | (intro o1 o2 e1 e2 l1 l2
       first
       | (simp at e1 e2; subst e1 e2; simp at l1 l2 ⊢; done)
       | (simp at e2; subst e2; simp at l1 l2 ⊢; done)
       | (simp at e1; subst e1; simp at l1 l2 ⊢; done))

theorem compare_succ (a b : Nat) : compare (a + 1) (b + 1) = compare a b := by
  rw [Nat.compare_eq_ite_lt, Nat.compare_eq_ite_lt]; simp

theorem compare_zero_succ (a : Nat) : compare 0 (a + 1) = .lt := Nat.compare_eq_lt.2 (by omega)
theorem compare_succ_zero (a : Nat) : compare (a + 1) 0 = .gt := Nat.compare_eq_gt.2 (by omega)

theorem cmpParams_T3 {r1 r2 r3 : Ty → Ty → Res Ordering} {ha hb hc : Hash}
    (h : ∀ a b c, T3 (r1 a b) (r2 b c) (r3 a c)) (a b c : List TypeOffset) :
    T3 (lexR (cmpParams r1 ha hb a b) (.ok (compare a.length b.length)))
      (lexR (cmpParams r2 hb hc b c) (.ok (compare b.length c.length)))
      (lexR (cmpParams r3 ha hc a c) (.ok (compare a.length c.length))) := by
  have hassoc : ∀ p q s, lexR (lexR p q) s = lexR p (lexR q s) := by
    intro p q s; cases p with
    | ok o => cases o <;> rfl
    | _ => rfl
  induction a generalizing b c with
  | nil =>
    cases b with
    | nil =>
      cases c <;> simp only [cmpParams, lexR] <;> exact T3.of_trans compare _ _ _
    | cons y ys =>
      cases c with
      | nil =>
        intro o1 o2 e1 e2 l1 l2
        simp [cmpParams, lexR, compare_succ_zero] at e2
        subst e2; simp at l2
      | cons z zs =>
        intro o1 o2 e1 e2 l1 l2
        simp [cmpParams, lexR, compare_zero_succ] at e1
        subst e1
        exact ⟨.lt, by simp [cmpParams, lexR, compare_zero_succ], rfl, by simp⟩
  | cons x xs ih =>
    cases b with
    | nil =>
      intro o1 o2 e1 e2 l1 l2
      simp [cmpParams, lexR, compare_succ_zero] at e1
      subst e1; simp at l1
    | cons y ys =>
      cases c with
      | nil =>
        intro o1 o2 e1 e2 l1 l2
        simp [cmpParams, lexR, compare_succ_zero] at e2
        subst e2; simp at l2
      | cons z zs =>
        simp only [cmpParams, hassoc, List.length_cons, compare_succ]
        exact T3.lex (cmpOptTy_T3 h _ _ _) (ih ys zs)

instance : Std.OrientedCmp Opt64.cmp where
  eq_swap := by intro a b; exact Std.OrientedCmp.eq_swap (cmp := (compare : Nat → Nat → _))
instance : Std.TransCmp Opt64.cmp where
  isLE_trans := by
    intro a b c h1 h2; exact Std.TransCmp.isLE_trans (cmp := (compare : Nat → Nat → _)) h1 h2

/-- The comparison of qualified names as a comparison of pairs. -/
def cmpQName (a b : Option Namespace × Option Str) : Ordering :=
  Namespace.cmpNsAndName a.1 a.2 b.1 b.2

theorem cmpQName_eq (a b : Option Namespace × Option Str) :
    cmpQName a b = (compare (a.1.map Namespace.path) (b.1.map Namespace.path)).then
      (compare a.2 b.2) := Namespace.C09_cmpNsAndName_is_pair_order _ _ _ _

instance : Std.OrientedCmp cmpQName where
  eq_swap := by
    intro a b
    rw [cmpQName_eq, cmpQName_eq, Ordering.swap_then]
    congr 1 <;> exact Std.OrientedOrd.eq_swap

instance : Std.TransCmp cmpQName where
  isLE_trans := by
    intro a b c h1 h2
    exact (Namespace.C09_cmpNsAndName_laws a b c).2.1 h1 h2

theorem cmpQName_eq_eq (a b : Option Namespace × Option Str) :
    cmpQName a b = .eq ↔ a.1.map Namespace.path = b.1.map Namespace.path ∧ a.2 = b.2 := by
  rw [cmpQName_eq, Ordering.then_eq_eq, Std.LawfulEqOrd.compare_eq_iff_eq,
    Std.LawfulEqOrd.compare_eq_iff_eq]

theorem cmpStep_of_ne (dbg r ha hb a b) (h : a.discr ≠ b.discr) :
    cmpStep dbg r ha hb a b = .ok (compare a.discr b.discr) := by
  have hb' : (a.discr == b.discr) = false := by simpa using h
  unfold cmpStep
  split <;> first
    | (exfalso; exact h rfl)
    | simp [hb']

theorem cmpStep_lex (dbg r ha hb a b) :
    cmpStep dbg r ha hb a b =
      lexR (.ok (compare a.discr b.discr)) (cmpStep dbg r ha hb a b) := by
  by_cases h : a.discr = b.discr
  · rw [h, Nat.compare_eq_eq.2 rfl]; rfl
  · rw [cmpStep_of_ne _ _ _ _ _ _ h]
    have : compare a.discr b.discr ≠ .eq := by simpa [Nat.compare_eq_eq] using h
    revert this
    cases compare a.discr b.discr <;> simp [lexR]

theorem cmpStep_T3 {dbg} {r1 r2 r3 : Ty → Ty → Res Ordering} {ha hb hc : Hash}
    (h : ∀ a b c, T3 (r1 a b) (r2 b c) (r3 a c)) (a b c : Ty) :
    T3 (cmpStep dbg r1 ha hb a b) (cmpStep dbg r2 hb hc b c) (cmpStep dbg r3 ha hc a c) := by
  rw [cmpStep_lex dbg r1, cmpStep_lex dbg r2, cmpStep_lex dbg r3]
  refine T3.lex' (T3.of_trans compare _ _ _) ?_
  intro e1 e2
  simp only [Res.ok.injEq, Nat.compare_eq_eq] at e1 e2
  have hq : ∀ x y z : Option Namespace × Option Str,
      T3 (.ok (cmpQName x y)) (.ok (cmpQName y z)) (.ok (cmpQName x z)) :=
    fun x y z => T3.of_trans cmpQName x y z
  have hassoc : ∀ p q s, lexR p (lexR q s) = lexR (lexR p q) s := by
    intro p q s; cases p with
    | ok o => cases o <;> rfl
    | _ => rfl
  cases a <;> cases b <;> simp only [Ty.discr, Nat.reduceEqDiff] at e1 <;>
    cases c <;> simp only [Ty.discr, Nat.reduceEqDiff] at e2
  case void => cases dbg <;> intro o1 o2 e1 e2 _ _ <;> simp_all [cmpStep, Ty.discr]
  case base => exact T3.of_trans compare _ _ _
  case def_ => exact hq (_, _) (_, _) (_, _)
  case struct_ => exact hq (_, _) (_, _) (_, _)
  case union_ => exact hq (_, _) (_, _) (_, _)
  case enum_ => exact hq (_, _) (_, _) (_, _)
  case unspecified => exact hq (_, _) (_, _) (_, _)
  case array =>
    exact T3.lex (cmpOptTy_T3 h _ _ _) (T3.of_trans Opt64.cmp _ _ _)
  case function =>
    simp only [cmpStep]
    rw [hassoc (cmpParams r1 _ _ _ _), hassoc (cmpParams r2 _ _ _ _),
      hassoc (cmpParams r3 _ _ _ _)]
    exact T3.lex (cmpParams_T3 h _ _ _) (T3.lex (cmpOptTy_T3 h _ _ _) T3.refl_eq)
  case pointerToMember =>
    exact T3.lex (cmpOptTy_T3 h _ _ _) (T3.lex (cmpOptTy_T3 h _ _ _) T3.refl_eq)
  case modifier =>
    exact T3.lex (cmpOptTy_T3 h _ _ _) (T3.of_trans compare _ _ _)
  case subrange =>
    exact T3.lex (cmpOptTy_T3 h _ _ _) (T3.lex (T3.of_trans compare _ _ _)
      (T3.of_trans compare _ _ _))

theorem cmpId_T3 (dbg n ha hb hc a b c) :
    T3 (cmpId dbg n ha a hb b) (cmpId dbg n hb b hc c) (cmpId dbg n ha a hc c) := by
  induction n generalizing a b c with
  | zero => intro o1 o2 e1; simp [cmpId] at e1
  | succ n ih => exact cmpStep_T3 ih a b c

/-! ## Reversal -/

theorem cmpOptTy_swap {r1 r2 : Ty → Ty → Res Ordering} (h : ∀ a b, r2 b a = (r1 a b).swap)
    (a b : Option Ty) : cmpOptTy r2 b a = (cmpOptTy r1 a b).swap := by
  cases a <;> cases b <;> simp [cmpOptTy, Res.swap, h]

theorem cmpParams_swap {r1 r2 : Ty → Ty → Res Ordering} {ha hb : Hash}
    (h : ∀ a b, r2 b a = (r1 a b).swap) (a b : List TypeOffset) :
    cmpParams r2 hb ha b a = (cmpParams r1 ha hb a b).swap := by
  induction a generalizing b with
  | nil => cases b <;> rfl
  | cons x xs ih =>
    cases b with
    | nil => rfl
    | cons y ys => simp only [cmpParams, swap_lexR, ih, cmpOptTy_swap h]

theorem cmpStep_swap {dbg} {r1 r2 : Ty → Ty → Res Ordering} {ha hb : Hash}
    (h : ∀ a b, r2 b a = (r1 a b).swap) (a b : Ty) :
    cmpStep dbg r2 hb ha b a = (cmpStep dbg r1 ha hb a b).swap := by
  have hq : ∀ x y : Option Namespace × Option Str, cmpQName y x = (cmpQName x y).swap :=
    fun x y => Std.OrientedCmp.eq_swap
  have hqn : ∀ a b c d, Namespace.cmpNsAndName a b c d = cmpQName (a, b) (c, d) :=
    fun _ _ _ _ => rfl
  have hs : ∀ x y : Opt64, Opt64.cmp y x = (Opt64.cmp x y).swap :=
    fun x y => Std.OrientedCmp.eq_swap
  have hn : ∀ x y : Nat, compare y x = (compare x y).swap := fun x y => Std.OrientedCmp.eq_swap
  have hon : ∀ x y : Option Nat, compare y x = (compare x y).swap :=
    fun x y => Std.OrientedCmp.eq_swap
  have hos : ∀ x y : Option Str, compare y x = (compare x y).swap :=
    fun x y => Std.OrientedCmp.eq_swap
  by_cases hd : a.discr = b.discr
  · cases a <;> cases b <;> simp only [Ty.discr, Nat.reduceEqDiff] at hd
    case void => cases dbg <;> rfl
    case base => simp only [cmpStep, Res.swap]; rw [hos]
    case def_ => simp only [cmpStep, Res.swap, hqn]; rw [hq]
    case struct_ => simp only [cmpStep, Res.swap, hqn]; rw [hq]
    case union_ => simp only [cmpStep, Res.swap, hqn]; rw [hq]
    case enum_ => simp only [cmpStep, Res.swap, hqn]; rw [hq]
    case unspecified => simp only [cmpStep, Res.swap, hqn]; rw [hq]
    case array =>
      simp only [cmpStep, swap_lexR]; rw [cmpOptTy_swap h, hs]; rfl
    case function =>
      simp only [cmpStep, swap_lexR]; rw [cmpOptTy_swap h, hn, cmpParams_swap h]; rfl
    case pointerToMember =>
      simp only [cmpStep, swap_lexR]; rw [cmpOptTy_swap h, cmpOptTy_swap h]; rfl
    case modifier =>
      simp only [cmpStep, swap_lexR]; rw [cmpOptTy_swap h, hn]; rfl
    case subrange _ _ l1 u1 _ _ _ l2 u2 _ =>
      simp only [cmpStep, swap_lexR]; rw [cmpOptTy_swap h, hon l1 l2, hon u1 u2]; rfl
  · rw [cmpStep_of_ne _ _ _ _ _ _ hd, cmpStep_of_ne _ _ _ _ _ _ (Ne.symm hd), hn]; rfl

theorem cmpId_swap (dbg n ha hb a b) :
    cmpId dbg n hb b ha a = (cmpId dbg n ha a hb b).swap := by
  induction n generalizing a b with
  | zero => rfl
  | succ n ih => exact cmpStep_swap (fun a b => ih a b) a b

/-! ## Fuel -/

/-- `r'` agrees with `r` wherever `r` returns. -/
def Ext (r r' : Ty → Ty → Res Ordering) : Prop := ∀ a b, r a b ≠ .diverge → r' a b = r a b

theorem lexR_ne_diverge {x y} (h : lexR x y ≠ .diverge) :
    x ≠ .diverge ∧ (x = .ok .eq → y ≠ .diverge) := by
  cases x with
  | ok o => cases o <;> simp_all [lexR]
  | _ => simp_all [lexR]

theorem lexR_ext {x y x' y'} (hx : x ≠ .diverge → x' = x) (hy : y ≠ .diverge → y' = y)
    (h : lexR x y ≠ .diverge) : lexR x' y' = lexR x y := by
  have := lexR_ne_diverge h
  rw [hx this.1]
  cases x with
  | ok o =>
    cases o with
    | eq => simp [lexR]; exact hy (this.2 rfl)
    | _ => rfl
  | _ => rfl

theorem cmpOptTy_ext {r r'} (h : Ext r r') (a b : Option Ty) (hn : cmpOptTy r a b ≠ .diverge) :
    cmpOptTy r' a b = cmpOptTy r a b := by
  cases a <;> cases b <;> simp_all [cmpOptTy]
  exact h _ _ hn

theorem cmpParams_ext {r r' ha hb} (h : Ext r r') (a b : List TypeOffset)
    (hn : cmpParams r ha hb a b ≠ .diverge) : cmpParams r' ha hb a b = cmpParams r ha hb a b := by
  induction a generalizing b with
  | nil => rfl
  | cons x xs ih =>
    cases b with
    | nil => rfl
    | cons y ys => exact lexR_ext (cmpOptTy_ext h _ _) (ih ys) hn

theorem cmpStep_ext {dbg r r' ha hb} (h : Ext r r') (a b : Ty)
    (hn : cmpStep dbg r ha hb a b ≠ .diverge) :
    cmpStep dbg r' ha hb a b = cmpStep dbg r ha hb a b := by
  by_cases hd : a.discr = b.discr
  · cases a <;> cases b <;> simp only [Ty.discr, Nat.reduceEqDiff] at hd <;>
      first
      | rfl
      | exact lexR_ext (cmpOptTy_ext h _ _) (fun _ => rfl) hn
      | exact lexR_ext (cmpOptTy_ext h _ _) (fun hn => lexR_ext (cmpOptTy_ext h _ _) (fun _ => rfl) hn) hn
      | exact lexR_ext (cmpParams_ext h _ _) (fun hn => lexR_ext (fun _ => rfl)
          (fun hn => lexR_ext (cmpOptTy_ext h _ _) (fun _ => rfl) hn) hn) hn
  · rw [cmpStep_of_ne _ _ _ _ _ _ hd, cmpStep_of_ne _ _ _ _ _ _ hd]

theorem cmpId_succ (dbg n ha a hb b) (h : cmpId dbg n ha a hb b ≠ .diverge) :
    cmpId dbg (n + 1) ha a hb b = cmpId dbg n ha a hb b := by
  induction n generalizing a b with
  | zero => simp [cmpId] at h
  | succ n ih => exact cmpStep_ext (fun a b hn => ih a b hn) a b h

theorem cmpId_mono {dbg n m ha a hb b} (hnm : n ≤ m) (h : cmpId dbg n ha a hb b ≠ .diverge) :
    cmpId dbg m ha a hb b = cmpId dbg n ha a hb b := by
  induction hnm with
  | refl => rfl
  | step _ ih => rw [cmpId_succ _ _ _ _ _ _ (by rw [ih]; exact h), ih]

end Verif.Types
