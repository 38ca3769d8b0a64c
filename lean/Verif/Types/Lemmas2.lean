import Verif.Types.Lemmas
/-!
# Lemmas: identity trees, termination, sizes
-/
namespace Verif.Types
open Verif.Sentinel Verif.Namespace

theorem refersTo_eq (k : ModKind) : k.refersTo = k.isPointerLike := by cases k <;> rfl

theorem lexR_eq {x y} (h : lexR x y = .ok .eq) : x = .ok .eq ∧ y = .ok .eq := by
  cases x with
  | ok o => cases o <;> simp_all [lexR]
  | _ => simp_all [lexR]

theorem cmpOptTy_ident {r : Ty → Ty → Res Ordering} {ha hb : Hash}
    (h : ∀ a b, r a b = .ok .eq → ∀ i, IdentOf ha a i → IdentOf hb b i)
    {a b : Option Ty} (he : cmpOptTy r a b = .ok .eq) {i} (hi : OptRel (IdentOf ha) a i) :
    OptRel (IdentOf hb) b i := by
  cases hi with
  | none => cases b <;> simp_all [cmpOptTy]; exact .none
  | some hi =>
    cases b with
    | none => simp [cmpOptTy] at he
    | some b => exact .some (h _ _ he _ hi)

theorem cmpParams_ident {r : Ty → Ty → Res Ordering} {ha hb : Hash}
    (h : ∀ a b, r a b = .ok .eq → ∀ i, IdentOf ha a i → IdentOf hb b i)
    {a b : List TypeOffset} (he : cmpParams r ha hb a b = .ok .eq) (hl : a.length = b.length)
    {i} (hi : All2 (OptRel (IdentOf ha)) (a.map (fromOffset ha)) i) :
    All2 (OptRel (IdentOf hb)) (b.map (fromOffset hb)) i := by
  induction a generalizing b i with
  | nil =>
    cases b with
    | nil => cases hi; exact .nil
    | cons => simp at hl
  | cons x xs ih =>
    cases b with
    | nil => simp at hl
    | cons y ys =>
      cases hi with
      | cons h1 h2 =>
      obtain ⟨e1, e2⟩ := lexR_eq he
      exact .cons (cmpOptTy_ident h e1 h1) (ih e2 (by simpa using hl) h2)

theorem cmpStep_ident {dbg} {r : Ty → Ty → Res Ordering} {ha hb : Hash}
    (h : ∀ a b, r a b = .ok .eq → ∀ i, IdentOf ha a i → IdentOf hb b i)
    {a b : Ty} (he : cmpStep dbg r ha hb a b = .ok .eq) {i} (hi : IdentOf ha a i) :
    IdentOf hb b i := by
  have hqn : ∀ a b c d, Namespace.cmpNsAndName a b c d = .eq →
      a.map Namespace.path = c.map Namespace.path ∧ b = d :=
    fun a b c d h => (cmpQName_eq_eq (a, b) (c, d)).1 h
  have hd : a.discr = b.discr := by
    by_cases hd : a.discr = b.discr
    · exact hd
    · rw [cmpStep_of_ne _ _ _ _ _ _ hd] at he
      simpa [Nat.compare_eq_eq] using he
  cases hi <;> cases b <;> simp only [Ty.discr, Nat.reduceEqDiff] at hd
  case void => exact .void
  case base =>
    simp only [cmpStep, Res.ok.injEq, Std.LawfulEqOrd.compare_eq_iff_eq] at he
    subst he; exact .base
  case def_ =>
    simp only [cmpStep, Res.ok.injEq] at he
    obtain ⟨e1, rfl⟩ := hqn _ _ _ _ he; rw [e1]; exact .def_
  case struct_ =>
    simp only [cmpStep, Res.ok.injEq] at he
    obtain ⟨e1, rfl⟩ := hqn _ _ _ _ he; rw [e1]; exact .struct_
  case union_ =>
    simp only [cmpStep, Res.ok.injEq] at he
    obtain ⟨e1, rfl⟩ := hqn _ _ _ _ he; rw [e1]; exact .union_
  case enum_ =>
    simp only [cmpStep, Res.ok.injEq] at he
    obtain ⟨e1, rfl⟩ := hqn _ _ _ _ he; rw [e1]; exact .enum_
  case unspecified =>
    simp only [cmpStep, Res.ok.injEq] at he
    obtain ⟨e1, rfl⟩ := hqn _ _ _ _ he; rw [e1]; exact .unspecified
  case array c1 _ _ _ hi _ c2 _ _ =>
    obtain ⟨e1, e2⟩ := lexR_eq he
    simp only [Res.ok.injEq, Opt64.cmp, Nat.compare_eq_eq] at e2
    have e2 : c1 = c2 := congrArg Opt64.mk e2
    rw [e2]; exact .array (cmpOptTy_ident h e1 hi)
  case function h1 h2 _ _ _ =>
    obtain ⟨e1, e2⟩ := lexR_eq he
    obtain ⟨e2, e3⟩ := lexR_eq e2
    obtain ⟨e3, _⟩ := lexR_eq e3
    simp only [Res.ok.injEq, Nat.compare_eq_eq] at e2
    exact .function (cmpParams_ident h e1 e2 h1) (cmpOptTy_ident h e3 h2)
  case pointerToMember h1 h2 _ _ _ _ =>
    obtain ⟨e1, e2⟩ := lexR_eq he
    obtain ⟨e2, _⟩ := lexR_eq e2
    exact .pointerToMember (cmpOptTy_ident h e1 h1) (cmpOptTy_ident h e2 h2)
  case modifier k1 _ _ _ _ h1 k2 _ _ _ =>
    obtain ⟨e1, e2⟩ := lexR_eq he
    simp only [Res.ok.injEq, Nat.compare_eq_eq] at e2
    have : k1 = k2 := by cases k1 <;> cases k2 <;> simp [ModKind.discr] at e2 ⊢
    subst this
    exact .modifier (cmpOptTy_ident h e1 h1)
  case subrange h1 _ _ _ _ _ =>
    obtain ⟨e1, e2⟩ := lexR_eq he
    obtain ⟨e2, e3⟩ := lexR_eq e2
    simp only [Res.ok.injEq, Std.LawfulEqOrd.compare_eq_iff_eq] at e2 e3
    subst e2 e3
    exact .subrange (cmpOptTy_ident h e1 h1)

theorem cmpId_ident {dbg n ha hb a b} (he : cmpId dbg n ha a hb b = .ok .eq) {i}
    (hi : IdentOf ha a i) : IdentOf hb b i := by
  induction n generalizing a b i with
  | zero => simp [cmpId] at he
  | succ n ih => exact cmpStep_ident (fun a b he i hi => ih he hi) he hi

/-! ## Same identity compares equal -/

/-- The result is equality whenever the comparison returns. -/
def EqIfOk (x : Res Ordering) : Prop := ∀ o, x = .ok o → o = .eq

theorem EqIfOk.lex {x y} (hx : EqIfOk x) (hy : EqIfOk y) : EqIfOk (lexR x y) := by
  intro o h
  cases x with
  | ok p => have := hx _ rfl; subst this; exact hy _ h
  | _ => simp [lexR] at h

theorem EqIfOk.ok {o} (h : o = .eq) : EqIfOk (.ok o) := by intro o' h'; cases h'; exact h

theorem cmpOptTy_same {r : Ty → Ty → Res Ordering} {ha hb : Hash}
    (h : ∀ a b i, IdentOf ha a i → IdentOf hb b i → EqIfOk (r a b))
    {a b : Option Ty} {i} (h1 : OptRel (IdentOf ha) a i) (h2 : OptRel (IdentOf hb) b i) :
    EqIfOk (cmpOptTy r a b) := by
  cases h1 with
  | none => cases h2; exact EqIfOk.ok rfl
  | some h1 => cases h2 with | some h2 => exact h _ _ _ h1 h2

theorem cmpParams_same {r : Ty → Ty → Res Ordering} {ha hb : Hash}
    (h : ∀ a b i, IdentOf ha a i → IdentOf hb b i → EqIfOk (r a b))
    {a b : List TypeOffset} {i} (h1 : All2 (OptRel (IdentOf ha)) (a.map (fromOffset ha)) i)
    (h2 : All2 (OptRel (IdentOf hb)) (b.map (fromOffset hb)) i) :
    EqIfOk (cmpParams r ha hb a b) ∧ a.length = b.length := by
  induction a generalizing b i with
  | nil => cases h1; cases b with
    | nil => exact ⟨EqIfOk.ok rfl, rfl⟩
    | cons => cases h2
  | cons x xs ih =>
    cases h1 with | cons h1 h1' =>
    cases b with
    | nil => cases h2
    | cons y ys =>
      cases h2 with | cons h2 h2' =>
      obtain ⟨e1, e2⟩ := ih h1' h2'
      exact ⟨EqIfOk.lex (cmpOptTy_same h h1 h2) e1, by simp [e2]⟩

theorem cmpStep_same {dbg} {r : Ty → Ty → Res Ordering} {ha hb : Hash}
    (h : ∀ a b i, IdentOf ha a i → IdentOf hb b i → EqIfOk (r a b))
    {a b : Ty} {i} (h1 : IdentOf ha a i) (h2 : IdentOf hb b i) :
    EqIfOk (cmpStep dbg r ha hb a b) := by
  have hqn : ∀ (a b : Option Namespace) n, a.map Namespace.path = b.map Namespace.path →
      EqIfOk (.ok (Namespace.cmpNsAndName a n b n)) :=
    fun a b n h => EqIfOk.ok ((cmpQName_eq_eq (a, n) (b, n)).2 ⟨h, rfl⟩)
  generalize hgi : i = i' at h2
  cases h1 <;> cases h2 <;> simp only [reduceCtorEq, Ident.base.injEq, Ident.named.injEq,
    Ident.array.injEq, Ident.function.injEq, Ident.pointerToMember.injEq, Ident.modifier.injEq,
    Ident.subrange.injEq, Nat.reduceEqDiff, false_and, true_and] at hgi
  case void => intro o ho; cases dbg <;> simp_all [cmpStep, Ty.discr, Nat.compare_eq_eq]
  case base => subst hgi; exact EqIfOk.ok (Std.LawfulEqOrd.compare_eq_iff_eq.2 rfl)
  case def_ => obtain ⟨e, rfl⟩ := hgi; exact hqn _ _ _ e
  case struct_ => obtain ⟨e, rfl⟩ := hgi; exact hqn _ _ _ e
  case union_ => obtain ⟨e, rfl⟩ := hgi; exact hqn _ _ _ e
  case enum_ => obtain ⟨e, rfl⟩ := hgi; exact hqn _ _ _ e
  case unspecified => obtain ⟨e, rfl⟩ := hgi; exact hqn _ _ _ e
  case array h1 _ _ _ _ _ h2 =>
    obtain ⟨rfl, e⟩ := hgi
    rw [Opt64.get_inj] at e
    subst e
    exact EqIfOk.lex (cmpOptTy_same h h1 h2) (EqIfOk.ok (Nat.compare_eq_eq.2 rfl))
  case function h1 h1' _ _ _ _ _ h2 h2' =>
    obtain ⟨rfl, rfl⟩ := hgi
    obtain ⟨e1, e2⟩ := cmpParams_same h h1 h2
    exact EqIfOk.lex e1 (EqIfOk.lex (EqIfOk.ok (Nat.compare_eq_eq.2 e2))
      (EqIfOk.lex (cmpOptTy_same h h1' h2') (EqIfOk.ok rfl)))
  case pointerToMember h1 h1' _ _ _ _ _ _ h2 h2' =>
    obtain ⟨rfl, rfl⟩ := hgi
    exact EqIfOk.lex (cmpOptTy_same h h1 h2) (EqIfOk.lex (cmpOptTy_same h h1' h2') (EqIfOk.ok rfl))
  case modifier h1 _ _ _ _ _ h2 =>
    obtain ⟨rfl, rfl⟩ := hgi
    exact EqIfOk.lex (cmpOptTy_same h h1 h2) (EqIfOk.ok (Nat.compare_eq_eq.2 rfl))
  case subrange h1 _ _ _ _ _ _ h2 =>
    obtain ⟨rfl, rfl, rfl⟩ := hgi
    exact EqIfOk.lex (cmpOptTy_same h h1 h2) (EqIfOk.lex
      (EqIfOk.ok (Std.LawfulEqOrd.compare_eq_iff_eq.2 rfl))
      (EqIfOk.ok (Std.LawfulEqOrd.compare_eq_iff_eq.2 rfl)))

theorem cmpId_same {dbg n ha hb a b i} (h1 : IdentOf ha a i) (h2 : IdentOf hb b i) :
    EqIfOk (cmpId dbg n ha a hb b) := by
  induction n generalizing a b i with
  | zero => intro o h; simp [cmpId] at h
  | succ n ih => exact cmpStep_same (fun a b i h1 h2 => ih h1 h2) h1 h2

/-! ## Termination on acyclic references -/

theorem lexR_term {x y} (hx : x ≠ .diverge) (hy : y ≠ .diverge) : lexR x y ≠ .diverge := by
  cases x with
  | ok o => cases o <;> simp_all [lexR]
  | _ => simp_all [lexR]

theorem cmpOptTy_term {r : Ty → Ty → Res Ordering} {a : Option Ty}
    (h : ∀ a', a = some a' → ∀ b, r a' b ≠ .diverge) (b : Option Ty) :
    cmpOptTy r a b ≠ .diverge := by
  cases a <;> cases b <;> simp_all [cmpOptTy]

theorem cmpParams_term {r : Ty → Ty → Res Ordering} {ha hb : Hash} {a : List TypeOffset}
    (h : ∀ o ∈ a, ∀ a', fromOffset ha o = some a' → ∀ b, r a' b ≠ .diverge)
    (b : List TypeOffset) : cmpParams r ha hb a b ≠ .diverge := by
  induction a generalizing b with
  | nil => simp [cmpParams]
  | cons x xs ih =>
    cases b with
    | nil => simp [cmpParams]
    | cons y ys =>
      exact lexR_term (cmpOptTy_term (h x (by simp)) _) (ih (fun o ho => h o (by simp [ho])) _)

theorem cmpStep_term {dbg} {r : Ty → Ty → Res Ordering} {ha hb : Hash} {a : Ty}
    (h : ∀ a', IdRef ha a' a → ∀ b, r a' b ≠ .diverge) (b : Ty) :
    cmpStep dbg r ha hb a b ≠ .diverge := by
  by_cases hd : a.discr = b.discr
  · have hk : ∀ (x : Res Ordering) y, x ≠ .diverge → lexR x (.ok y) ≠ .diverge :=
      fun x y hx => lexR_term hx (by simp)
    have h1 : ∀ o ∈ a.idRefs, ∀ a', fromOffset ha o = some a' → ∀ b, r a' b ≠ .diverge :=
      fun o ho a' ha' => h a' ⟨o, ho, ha'⟩
    cases a <;> cases b <;> simp only [Ty.discr, Nat.reduceEqDiff] at hd <;>
      simp only [Ty.idRefs] at h1
    case void => cases dbg <;> simp [cmpStep, Ty.discr]
    case array => exact hk _ _ (cmpOptTy_term (h1 _ (by simp)) _)
    case function =>
      exact lexR_term (cmpParams_term (fun o ho => h1 o (by simp [ho])) _)
        (lexR_term (by simp) (hk _ _ (cmpOptTy_term (h1 _ (by simp)) _)))
    case pointerToMember =>
      exact lexR_term (cmpOptTy_term (h1 _ (by simp)) _)
        (hk _ _ (cmpOptTy_term (h1 _ (by simp)) _))
    case modifier => exact hk _ _ (cmpOptTy_term (h1 _ (by simp)) _)
    case subrange =>
      exact lexR_term (cmpOptTy_term (h1 _ (by simp)) _) (lexR_term (by simp) (by simp))
    all_goals simp [cmpStep]
  · rw [cmpStep_of_ne _ _ _ _ _ _ hd]; simp

/-- Finitely many types, each with a sufficient fuel, have a common one. -/
theorem common_fuel {P : Nat → Ty → Prop} (mono : ∀ n m t, n ≤ m → P n t → P m t)
    (h : Hash) (l : List TypeOffset)
    (hl : ∀ o ∈ l, ∀ t, fromOffset h o = some t → ∃ n, P n t) :
    ∃ n, ∀ o ∈ l, ∀ t, fromOffset h o = some t → P n t := by
  induction l with
  | nil => exact ⟨0, by simp⟩
  | cons x xs ih =>
    obtain ⟨n, hn⟩ := ih (fun o ho => hl o (by simp [ho]))
    have hx : ∃ m, ∀ t, fromOffset h x = some t → P m t := by
      cases hf : fromOffset h x with
      | none => exact ⟨0, by simp⟩
      | some t =>
        obtain ⟨m, hm⟩ := hl x (by simp) t hf
        exact ⟨m, by intro t' ht'; cases ht'; exact hm⟩
    obtain ⟨m, hm⟩ := hx
    refine ⟨max n m, ?_⟩
    intro o ho t ht
    rcases List.mem_cons.1 ho with rfl | ho
    · exact mono _ _ _ (by omega) (hm t ht)
    · exact mono _ _ _ (by omega) (hn o ho t ht)

theorem cmpId_term (dbg) {ha a} (hacc : Acc (IdRef ha) a) (hb : Hash) :
    ∃ n, ∀ b, cmpId dbg n ha a hb b ≠ .diverge := by
  induction hacc with
  | intro a _ ih =>
    obtain ⟨n, hn⟩ := common_fuel
      (P := fun n t => ∀ b, cmpId dbg n ha t hb b ≠ .diverge)
      (fun n m t hnm h b => by rw [cmpId_mono hnm (h b)]; exact h b) ha a.idRefs
      (fun o ho t ht => ih t ⟨o, ho, ht⟩)
    refine ⟨n + 1, fun b => cmpStep_term ?_ b⟩
    rintro a' ⟨o, ho, ht⟩
    exact hn o ho a' ht

theorem optIdent {h : Hash} {o : TypeOffset}
    (ih : ∀ t, fromOffset h o = some t → ∃ i, IdentOf h t i) :
    ∃ i, OptRel (IdentOf h) (fromOffset h o) i := by
  cases hf : fromOffset h o with
  | none => exact ⟨none, .none⟩
  | some t => obtain ⟨i, hi⟩ := ih t hf; exact ⟨some i, .some hi⟩

theorem listIdent {h : Hash} {l : List TypeOffset}
    (ih : ∀ o ∈ l, ∀ t, fromOffset h o = some t → ∃ i, IdentOf h t i) :
    ∃ is, All2 (OptRel (IdentOf h)) (l.map (fromOffset h)) is := by
  induction l with
  | nil => exact ⟨[], .nil⟩
  | cons x xs ihl =>
    obtain ⟨is, h1⟩ := ihl (fun o ho => ih o (by simp [ho]))
    obtain ⟨i, h2⟩ := optIdent (ih x (by simp))
    exact ⟨i :: is, .cons h2 h1⟩

theorem ident_exists {h a} (hacc : Acc (IdRef h) a) : ∃ i, IdentOf h a i := by
  induction hacc with
  | intro a _ ih =>
    have ih : ∀ o ∈ a.idRefs, ∀ t, fromOffset h o = some t → ∃ i, IdentOf h t i :=
      fun o ho t ht => ih t ⟨o, ho, ht⟩
    cases a with
    | void => exact ⟨_, .void⟩
    | base => exact ⟨_, .base⟩
    | def_ => exact ⟨_, .def_⟩
    | struct_ => exact ⟨_, .struct_⟩
    | union_ => exact ⟨_, .union_⟩
    | enum_ => exact ⟨_, .enum_⟩
    | unspecified => exact ⟨_, .unspecified⟩
    | array ty =>
      obtain ⟨i, hi⟩ := optIdent (ih ty (by simp [Ty.idRefs])); exact ⟨_, .array hi⟩
    | modifier _ ty =>
      obtain ⟨i, hi⟩ := optIdent (ih ty (by simp [Ty.idRefs])); exact ⟨_, .modifier hi⟩
    | subrange _ ty =>
      obtain ⟨i, hi⟩ := optIdent (ih ty (by simp [Ty.idRefs])); exact ⟨_, .subrange hi⟩
    | pointerToMember ty c _ _ =>
      obtain ⟨i, hi⟩ := optIdent (ih c (by simp [Ty.idRefs]))
      obtain ⟨j, hj⟩ := optIdent (ih ty (by simp [Ty.idRefs]))
      exact ⟨_, .pointerToMember hi hj⟩
    | function ps rt _ =>
      obtain ⟨is, hi⟩ := listIdent (l := ps) (fun o ho => ih o (by simp [Ty.idRefs, ho]))
      obtain ⟨j, hj⟩ := optIdent (ih rt (by simp [Ty.idRefs])); exact ⟨_, .function hi hj⟩

/-! ## Comparing a type with itself -/

theorem cmpOptTy_self {r : Ty → Ty → Res Ordering} (h : ∀ a, EqIfOk (r a a)) (a : Option Ty) :
    EqIfOk (cmpOptTy r a a) := by
  cases a with
  | none => exact EqIfOk.ok rfl
  | some a => exact h a

theorem cmpParams_self {r : Ty → Ty → Res Ordering} {ha} (h : ∀ a, EqIfOk (r a a))
    (l : List TypeOffset) : EqIfOk (cmpParams r ha ha l l) := by
  induction l with
  | nil => exact EqIfOk.ok rfl
  | cons x xs ih => exact EqIfOk.lex (cmpOptTy_self h _) ih

theorem cmpStep_self {dbg} {r : Ty → Ty → Res Ordering} {ha} (h : ∀ a, EqIfOk (r a a)) (a : Ty) :
    EqIfOk (cmpStep dbg r ha ha a a) := by
  have hqn : ∀ (a : Option Namespace) n, EqIfOk (.ok (Namespace.cmpNsAndName a n a n)) :=
    fun a n => EqIfOk.ok ((cmpQName_eq_eq (a, n) (a, n)).2 ⟨rfl, rfl⟩)
  have hn : ∀ n : Nat, EqIfOk (.ok (compare n n)) := fun n => EqIfOk.ok (Nat.compare_eq_eq.2 rfl)
  have hon : ∀ n : Option Nat, EqIfOk (.ok (compare n n)) :=
    fun n => EqIfOk.ok (Std.LawfulEqOrd.compare_eq_iff_eq.2 rfl)
  have ho := cmpOptTy_self h
  cases a
  case void => intro o ho; cases dbg <;> simp_all [cmpStep, Ty.discr, Nat.compare_eq_eq]
  case base => exact EqIfOk.ok (Std.LawfulEqOrd.compare_eq_iff_eq.2 rfl)
  case def_ => exact hqn _ _
  case struct_ => exact hqn _ _
  case union_ => exact hqn _ _
  case enum_ => exact hqn _ _
  case unspecified => exact hqn _ _
  case array => exact EqIfOk.lex (ho _) (hn _)
  case function => exact EqIfOk.lex (cmpParams_self h _) (EqIfOk.lex (hn _) (EqIfOk.lex (ho _) (EqIfOk.ok rfl)))
  case pointerToMember => exact EqIfOk.lex (ho _) (EqIfOk.lex (ho _) (EqIfOk.ok rfl))
  case modifier => exact EqIfOk.lex (ho _) (hn _)
  case subrange => exact EqIfOk.lex (ho _) (EqIfOk.lex (hon _) (hon _))

theorem cmpId_self (dbg n h a) : EqIfOk (cmpId dbg n h a h a) := by
  induction n generalizing a with
  | zero => intro o h; simp [cmpId] at h
  | succ n ih => exact cmpStep_self ih a

theorem cmpParams_self_ok {r : Ty → Ty → Res Ordering} {ha} (l : List TypeOffset)
    (h : cmpParams r ha ha l l = .ok .eq) :
    ∀ o ∈ l, ∀ t, fromOffset ha o = some t → r t t = .ok .eq := by
  induction l with
  | nil => simp
  | cons x xs ih =>
    obtain ⟨h1, h2⟩ := lexR_eq h
    intro o ho t ht
    rcases List.mem_cons.1 ho with rfl | ho
    · rw [ht] at h1; exact h1
    · exact ih h2 o ho t ht

theorem cmpStep_self_ok {dbg} {r : Ty → Ty → Res Ordering} {ha} {a : Ty}
    (h : cmpStep dbg r ha ha a a = .ok .eq) :
    ∀ t, IdRef ha t a → r t t = .ok .eq := by
  rintro t ⟨o, ho, ht⟩
  have hk : ∀ o, fromOffset ha o = some t →
      cmpOptTy r (fromOffset ha o) (fromOffset ha o) = .ok .eq → r t t = .ok .eq := by
    intro o ho h; rw [ho] at h; exact h
  cases a <;> simp only [Ty.idRefs, List.mem_singleton, List.not_mem_nil, List.mem_append,
    List.mem_cons, or_false] at ho
  case array => subst ho; exact hk _ ht (lexR_eq h).1
  case modifier => subst ho; exact hk _ ht (lexR_eq h).1
  case subrange => subst ho; exact hk _ ht (lexR_eq h).1
  case pointerToMember =>
    rcases ho with rfl | rfl
    · exact hk _ ht (lexR_eq h).1
    · exact hk _ ht (lexR_eq (lexR_eq h).2).1
  case function =>
    rcases ho with ho | rfl
    · exact cmpParams_self_ok _ (lexR_eq h).1 o ho t ht
    · exact hk _ ht (lexR_eq (lexR_eq (lexR_eq h).2).2).1

theorem acc_of_self {dbg n h a} (he : cmpId dbg n h a h a = .ok .eq) : Acc (IdRef h) a := by
  induction n generalizing a with
  | zero => simp [cmpId] at he
  | succ n ih => exact ⟨a, fun t ht => ih (cmpStep_self_ok he t ht)⟩

/-- Without the debug assertion the comparison never panics. -/
theorem lexR_panic {x y} (h : lexR x y = .panic) : x = .panic ∨ y = .panic := by
  cases x with
  | ok o => cases o <;> simp_all [lexR]
  | _ => simp_all [lexR]

theorem cmpParams_panic {r : Ty → Ty → Res Ordering} {ha hb} (h : ∀ a b, r a b ≠ .panic) (a b) :
    cmpParams r ha hb a b ≠ .panic := by
  have ho : ∀ a b, cmpOptTy r a b ≠ .panic := by
    intro a b; cases a <;> cases b <;> simp [cmpOptTy, h]
  induction a generalizing b with
  | nil => simp [cmpParams]
  | cons x xs ih =>
    cases b with
    | nil => simp [cmpParams]
    | cons y ys =>
      intro hp
      rcases lexR_panic hp with hp | hp
      · exact ho _ _ hp
      · exact ih _ hp

theorem cmpId_no_panic (n ha a hb b) : cmpId false n ha a hb b ≠ .panic := by
  induction n generalizing a b with
  | zero => simp [cmpId]
  | succ n ih =>
    have ho : ∀ x y, cmpOptTy (fun x y => cmpId false n ha x hb y) x y ≠ .panic := by
      intro a b; cases a <;> cases b <;> simp [cmpOptTy, ih]
    simp only [cmpId]
    unfold cmpStep
    split <;> intro hp <;>
      first
      | (simp at hp; done)
      | (rcases lexR_panic hp with hp | hp
         · first
           | exact ho _ _ hp
           | exact cmpParams_panic ih _ _ hp
         · first
           | (simp at hp; done)
           | (rcases lexR_panic hp with hp | hp
              · first
                | exact ho _ _ hp
                | (simp at hp; done)
              · first
                | (simp at hp; done)
                | (rcases lexR_panic hp with hp | hp
                   · exact ho _ _ hp
                   · simp at hp)))

/-! ## Sizes -/

theorem Opt64.isSome_iff (s : Opt64) : s.isSome = true ↔ ∃ n, s.get = some n := by
  simp [Opt64.isSome, Opt64.get, Opt64.isNone]

theorem Opt64.isSome_false (s : Opt64) : s.isSome = false ↔ s.get = none := by
  simp [Opt64.isSome, Opt64.get, Opt64.isNone]

theorem isFunction_spec {n h t b} (he : isFunction n h t = .ok b) : IsFn h t b := by
  induction n generalizing t with
  | zero => simp [isFunction] at he
  | succ n ih =>
    cases t <;> simp only [isFunction] at he
    case def_ =>
      split at he
      · rename_i hf; exact .def_ hf (ih he)
      · rename_i hf; cases he; exact .danglingDef hf
    case modifier =>
      split at he
      · rename_i hf; exact .modifier hf (ih he)
      · rename_i hf; cases he; exact .danglingMod hf
    case function => cases he; exact .function
    all_goals (cases he; exact .other (by simp [Ty.discr]) (by simp [Ty.discr]) (by simp [Ty.discr]))

theorem IsFn.unique {h t b b'} (h1 : IsFn h t b) (h2 : IsFn h t b') : b = b' := by
  induction h1 generalizing b' with
  | function => cases h2 <;> simp_all [Ty.discr]
  | def_ hf _ ih =>
    cases h2 with
    | def_ hf' h2 => rw [hf] at hf'; cases hf'; exact ih h2
    | _ => simp_all [Ty.discr]
  | modifier hf _ ih =>
    cases h2 with
    | modifier hf' h2 => rw [hf] at hf'; cases hf'; exact ih h2
    | _ => simp_all [Ty.discr]
  | danglingDef => cases h2 <;> simp_all [Ty.discr]
  | danglingMod => cases h2 <;> simp_all [Ty.discr]
  | other => cases h2 <;> simp_all [Ty.discr]

theorem mulCounts_ok {size cs r} (h : mulCounts size cs = .ok r) :
    r = (prodAll (cs.map Opt64.get)).map (size * ·) := by
  induction cs generalizing size with
  | nil => simp [mulCounts] at h; simp [prodAll, ← h]
  | cons c cs ih =>
    simp only [mulCounts] at h
    cases hc : c.get with
    | none => rw [hc] at h; simp at h; simp [prodAll, hc, ← h]
    | some n =>
      rw [hc] at h
      simp only [mulU64] at h
      split at h
      · simp only [Res.bind] at h
        rw [ih h]
        simp only [List.map_cons, hc, prodAll, Option.map_map]
        congr 1; funext x; simp [Nat.mul_assoc]
      · simp [Res.bind] at h

theorem counts_dims (count : Size) (counts : List Size) :
    (countsAsSlice count counts).map Opt64.get = dims count counts := by
  cases counts <;> rfl

theorem byteSize_spec {n h t s} (he : byteSize n h t = .ok s) : SizeOf h t s := by
  have hdecl : ∀ {t : Ty} {z : Size} {s}, t.declared = z.get → z.isSome = true →
      (Res.ok z.get : Res (Option Nat)) = .ok s → SizeOf h t s := by
    intro t z s h1 h2 h3
    obtain ⟨n, hn⟩ := (Opt64.isSome_iff z).1 h2
    cases h3; rw [hn] at h1 ⊢; exact .declared h1
  induction n generalizing t s with
  | zero => simp [byteSize] at he
  | succ n ih =>
    have hself : ∀ (z : Size), t.declared = z.get → t.discr ∈ [2, 4, 5, 8, 9] →
        (Res.ok z.get : Res (Option Nat)) = .ok s → SizeOf h t s := by
      intro z h1 h2 h3
      cases h3
      cases hz : z.get with
      | none => exact .undeclared (by rw [h1, hz]) h2
      | some n => exact .declared (by rw [h1, hz])
    have htgt : ∀ (ty : TypeOffset), t.declared = none →
        (t.discr ∈ [3, 6, 12] ∨ ∃ k s' a, t = .modifier k ty s' a ∧ k.refersTo = false) →
        t.idTarget = some ty →
        (match fromOffset h ty with
          | some t' => byteSize n h t'
          | none => .ok none) = .ok s → SizeOf h t s := by
      intro ty h1 h2 h3 h4
      cases hf : fromOffset h ty with
      | none =>
        rw [hf] at h4; cases h4
        refine .dangling h1 ?_ h3 hf
        rcases h2 with h2 | h2
        · left; simp at h2 ⊢; omega
        · exact .inr h2
      | some t' => rw [hf] at h4; exact .target h1 h2 h3 hf (ih h4)
    cases t <;> simp only [byteSize] at he
    case void => cases he; exact .void
    case base => exact hself _ rfl (by simp [Ty.discr]) he
    case def_ => exact htgt _ rfl (.inl (by simp [Ty.discr])) rfl he
    case struct_ => exact hself _ rfl (by simp [Ty.discr]) he
    case union_ => exact hself _ rfl (by simp [Ty.discr]) he
    case function => exact hself _ rfl (by simp [Ty.discr]) he
    case unspecified => cases he; exact .undeclared rfl (by simp [Ty.discr])
    case enum_ =>
      split at he
      · exact hdecl rfl ‹_› he
      · rename_i hz
        have hz := (Opt64.isSome_false _).1 (by simpa using hz)
        exact htgt _ hz (.inl (by simp [Ty.discr])) rfl he
    case subrange =>
      split at he
      · exact hdecl rfl ‹_› he
      · rename_i hz
        have hz := (Opt64.isSome_false _).1 (by simpa using hz)
        exact htgt _ hz (.inl (by simp [Ty.discr])) rfl he
    case modifier =>
      split at he
      · exact hdecl rfl ‹_› he
      · rename_i hz
        have hz := (Opt64.isSome_false _).1 (by simpa using hz)
        split at he
        · cases he; exact .pointer hz (by rw [refersTo_eq]; assumption)
        · rename_i hk
          exact htgt _ hz (.inr ⟨_, _, _, rfl, by rw [refersTo_eq]; simpa using hk⟩) rfl he
    case array =>
      split at he
      · exact hdecl rfl ‹_› he
      · rename_i hz
        have hz := (Opt64.isSome_false _).1 (by simpa using hz)
        split at he
        · rename_i t' hf
          cases hb : byteSize n h t' with
          | diverge => rw [hb] at he; simp [Res.bind] at he
          | panic => rw [hb] at he; simp [Res.bind] at he
          | ok z =>
            rw [hb] at he
            cases z with
            | none => simp only [Res.bind] at he; cases he; exact .arrayUnknown hz hf (ih hb)
            | some z =>
              simp only [Res.bind] at he
              rw [mulCounts_ok he, counts_dims]
              exact .array hz hf (ih hb)
        · rename_i hf; cases he; exact .dangling hz (.inl (by simp [Ty.discr])) rfl hf
    case pointerToMember ty c z a =>
      split at he
      · exact hdecl rfl ‹_› he
      · rename_i hz
        have hz := (Opt64.isSome_false _).1 (by simpa using hz)
        split at he
        · rename_i t' hf
          cases hb : isFunction n h t' with
          | diverge => rw [hb] at he; simp [Res.bind] at he
          | panic => rw [hb] at he; simp [Res.bind] at he
          | ok b =>
            rw [hb] at he
            have hb := isFunction_spec hb
            cases b with
            | false => simp only [Res.bind] at he; cases he; exact .memberData hz hf hb
            | true =>
              simp only [Res.bind] at he
              have : s = a.map (· * 2) := by
                cases a with
                | none => cases he; rfl
                | some v =>
                  by_cases hv : v * 2 ≤ top
                  · simp only [mulU64, hv, if_true] at he; cases he; rfl
                  · simp only [mulU64, hv, if_false] at he; cases he
              rw [this]; exact .memberFn hz hf hb
        · rename_i hf; cases he; exact .dangling hz (.inl (by simp [Ty.discr])) rfl hf

theorem isFunction_diverge {n h t} : isFunction n h t = .diverge ↔ chain h n (.isFn t) ≠ none := by
  induction n generalizing t with
  | zero => simp [isFunction, chain]
  | succ n ih =>
    cases t <;> simp only [isFunction, chain, Q.next] <;> try simp
    case def_ ty => cases fromOffset h ty <;> simp [ih]
    case modifier ty _ _ => cases fromOffset h ty <;> simp [ih]

theorem Res.bind_diverge {x : Res α} {f : α → Res β} (hf : ∀ a, f a ≠ .diverge) :
    x.bind f = .diverge ↔ x = .diverge := by
  cases x <;> simp [Res.bind, hf]

theorem mulCounts_ne_diverge (size cs) : mulCounts size cs ≠ .diverge := by
  induction cs generalizing size with
  | nil => simp [mulCounts]
  | cons c cs ih =>
    simp only [mulCounts]
    split
    · simp only [mulU64]
      split
      · simp [Res.bind, ih]
      · simp [Res.bind]
    · simp

theorem byteSize_diverge {n h t} : byteSize n h t = .diverge ↔ chain h n (.size t) ≠ none := by
  induction n generalizing t with
  | zero => simp [byteSize, chain]
  | succ n ih =>
    have hz : ∀ s : Size, s.isSome = true → ∃ n, s.get = some n := fun s => (Opt64.isSome_iff s).1
    have hz' : ∀ s : Size, ¬ s.isSome = true → s.get = none :=
      fun s h => (Opt64.isSome_false s).1 (by simpa using h)
    cases t <;> simp only [byteSize, chain, Q.next]
    case void => simp [Ty.declared]
    case base s => cases hs : s.get <;> simp [Ty.declared, hs]
    case struct_ s _ _ _ => cases hs : s.get <;> simp [Ty.declared, hs]
    case union_ s _ => cases hs : s.get <;> simp [Ty.declared, hs]
    case function s => cases hs : s.get <;> simp [Ty.declared, hs]
    case unspecified => simp [Ty.declared]
    case def_ ty =>
      simp only [Ty.declared]
      cases fromOffset h ty <;> simp [ih]
    case enum_ ty s =>
      split
      · obtain ⟨n, hn⟩ := hz _ ‹_›; simp [Ty.declared, hn]
      · simp only [Ty.declared, hz' _ ‹_›]
        cases fromOffset h ty <;> simp [ih]
    case subrange ty _ _ s =>
      split
      · obtain ⟨n, hn⟩ := hz _ ‹_›; simp [Ty.declared, hn]
      · simp only [Ty.declared, hz' _ ‹_›]
        cases fromOffset h ty <;> simp [ih]
    case modifier k ty s _ =>
      split
      · obtain ⟨n, hn⟩ := hz _ ‹_›; simp [Ty.declared, hn]
      · simp only [Ty.declared, hz' _ ‹_›, refersTo_eq]
        split
        · simp
        · cases fromOffset h ty <;> simp [ih]
    case array ty _ _ s =>
      split
      · obtain ⟨n, hn⟩ := hz _ ‹_›; simp [Ty.declared, hn]
      · simp only [Ty.declared, hz' _ ‹_›]
        cases fromOffset h ty with
        | none => simp
        | some t' =>
          simp only [Option.map_some, Option.bind_some]
          rw [Res.bind_diverge, ih]
          rintro (_ | a)
          · simp
          · exact mulCounts_ne_diverge _ _
    case pointerToMember ty _ s a =>
      split
      · obtain ⟨n, hn⟩ := hz _ ‹_›; simp [Ty.declared, hn]
      · simp only [Ty.declared, hz' _ ‹_›]
        cases fromOffset h ty with
        | none => simp
        | some t' =>
          simp only [Option.map_some, Option.bind_some]
          rw [Res.bind_diverge, isFunction_diverge]
          rintro (_ | _)
          · simp
          · cases a with
            | none => simp
            | some v => simp only [mulU64]; split <;> simp [Res.bind]

theorem isFunction_ne_panic {n h t} : isFunction n h t ≠ .panic := by
  induction n generalizing t with
  | zero => simp [isFunction]
  | succ n ih =>
    cases t <;> simp only [isFunction] <;> try simp
    case def_ ty => cases fromOffset h ty <;> simp [ih]
    case modifier ty _ _ => cases fromOffset h ty <;> simp [ih]

theorem mulCounts_panic {size cs} (h : mulCounts size cs = .panic) :
    ∃ pre post p, cs.map Opt64.get = pre ++ post ∧ prodAll pre = some p ∧ top < size * p := by
  induction cs generalizing size with
  | nil => simp [mulCounts] at h
  | cons c cs ih =>
    simp only [mulCounts] at h
    cases hc : c.get with
    | none => rw [hc] at h; simp at h
    | some n =>
      rw [hc] at h
      by_cases hm : size * n ≤ top
      · simp only [mulU64, hm, if_true, Res.bind] at h
        obtain ⟨pre, post, p, h1, h2, h3⟩ := ih h
        refine ⟨some n :: pre, post, n * p, by simp [hc, h1], by simp [prodAll, h2], ?_⟩
        rwa [← Nat.mul_assoc]
      · exact ⟨[some n], cs.map Opt64.get, n, by simp [hc], by simp [prodAll], by omega⟩

theorem Res.bind_panic {x : Res α} {f : α → Res β} (h : x.bind f = .panic) :
    x = .panic ∨ ∃ a, x = .ok a ∧ f a = .panic := by
  cases x <;> simp_all [Res.bind]

theorem byteSize_panic {n h t} (he : byteSize n h t = .panic) : Overflows h t := by
  induction n generalizing t with
  | zero => simp [byteSize] at he
  | succ n ih =>
    have hz' : ∀ s : Size, ¬ s.isSome = true → s.get = none :=
      fun s h => (Opt64.isSome_false s).1 (by simpa using h)
    cases t <;> simp only [byteSize] at he
    case void => simp at he
    case base s => simp at he
    case struct_ s _ _ _ => simp at he
    case union_ s _ => simp at he
    case function s => simp at he
    case unspecified => simp at he
    case def_ ty =>
      split at he
      · rename_i hf; exact .target (by simp [Q.next, Ty.declared, hf]) (ih he)
      · simp at he
    case enum_ ty s =>
      split at he
      · simp at he
      · have hz := hz' _ ‹_›
        split at he
        · rename_i hf; exact .target (by simp [Q.next, Ty.declared, hf, hz]) (ih he)
        · simp at he
    case subrange ty _ _ s =>
      split at he
      · simp at he
      · have hz := hz' _ ‹_›
        split at he
        · rename_i hf; exact .target (by simp [Q.next, Ty.declared, hf, hz]) (ih he)
        · simp at he
    case modifier k ty s _ =>
      split at he
      · simp at he
      · have hz := hz' _ ‹_›
        split at he
        · simp at he
        · rename_i hk
          split at he
          · rename_i hf
            exact .target (by simp [Q.next, Ty.declared, hf, hz, hk, refersTo_eq]) (ih he)
          · simp at he
    case array ty _ _ s =>
      split at he
      · simp at he
      · have hz := hz' _ ‹_›
        split at he
        · rename_i hf
          rcases Res.bind_panic he with he | ⟨a, h1, h2⟩
          · exact .target (by simp [Q.next, Ty.declared, hf, hz]) (ih he)
          · cases a with
            | none => simp at h2
            | some z =>
              obtain ⟨pre, post, p, e1, e2, e3⟩ := mulCounts_panic h2
              rw [counts_dims] at e1
              exact .array hz hf (byteSize_spec h1) e1 e2 e3
        · simp at he
    case pointerToMember ty _ s a =>
      split at he
      · simp at he
      · have hz := hz' _ ‹_›
        split at he
        · rename_i hf
          rcases Res.bind_panic he with he | ⟨b, h1, h2⟩
          · exact absurd he isFunction_ne_panic
          · cases b with
            | false => simp at h2
            | true =>
              cases a with
              | none => simp at h2
              | some v =>
                by_cases hv : v * 2 ≤ top
                · simp [mulU64, hv, Res.bind] at h2
                · exact .memberFn hz hf (isFunction_spec h1) (by omega)
        · simp at he

theorem isFunction_succ {n h t} (hd : isFunction n h t ≠ .diverge) :
    isFunction (n + 1) h t = isFunction n h t := by
  induction n generalizing t with
  | zero => simp [isFunction] at hd
  | succ n ih =>
    rw [isFunction.eq_def] at hd
    conv => lhs; rw [isFunction.eq_def]
    conv => rhs; rw [isFunction.eq_def]
    cases t <;> try rfl
    case def_ ty => cases hf : fromOffset h ty <;> simp_all
    case modifier ty _ _ => cases hf : fromOffset h ty <;> simp_all

theorem byteSize_succ {n h t} (hd : byteSize n h t ≠ .diverge) :
    byteSize (n + 1) h t = byteSize n h t := by
  induction n generalizing t with
  | zero => simp [byteSize] at hd
  | succ n ih =>
    rw [byteSize.eq_def] at hd
    conv => lhs; rw [byteSize.eq_def]
    conv => rhs; rw [byteSize.eq_def]
    cases t <;> try rfl
    case def_ ty => cases hf : fromOffset h ty <;> simp_all
    case enum_ ty s => cases hs : s.isSome <;> cases hf : fromOffset h ty <;> simp_all
    case subrange ty _ _ s => cases hs : s.isSome <;> cases hf : fromOffset h ty <;> simp_all
    case modifier k ty s _ =>
      cases hs : s.isSome <;> cases hk : k.isPointerLike <;> cases hf : fromOffset h ty <;> simp_all
    case array =>
      dsimp only at hd ⊢
      split <;> try rfl
      rename_i hz
      rw [if_neg hz] at hd
      split
      · rename_i t' hf
        rw [hf] at hd
        dsimp only at hd
        have : byteSize n h t' ≠ .diverge := by intro h'; rw [h'] at hd; exact hd rfl
        rw [ih this]
      · rfl
    case pointerToMember =>
      dsimp only at hd ⊢
      split <;> try rfl
      rename_i hz
      rw [if_neg hz] at hd
      split
      · rename_i t' hf
        rw [hf] at hd
        dsimp only at hd
        have : isFunction n h t' ≠ .diverge := by intro h'; rw [h'] at hd; exact hd rfl
        rw [isFunction_succ this]
      · rfl

theorem byteSize_mono {n m h t} (hnm : n ≤ m) (hd : byteSize n h t ≠ .diverge) :
    byteSize m h t = byteSize n h t := by
  induction hnm with
  | refl => rfl
  | step _ ih => rw [byteSize_succ (by rw [ih]; exact hd), ih]

theorem isFunction_complete {h t b} (hs : IsFn h t b) : ∃ n, isFunction n h t = .ok b := by
  induction hs with
  | function => exact ⟨1, rfl⟩
  | def_ hf _ ih => obtain ⟨n, hn⟩ := ih; exact ⟨n + 1, by simp [isFunction, hf, hn]⟩
  | modifier hf _ ih => obtain ⟨n, hn⟩ := ih; exact ⟨n + 1, by simp [isFunction, hf, hn]⟩
  | danglingDef hf => exact ⟨1, by simp [isFunction, hf]⟩
  | danglingMod hf => exact ⟨1, by simp [isFunction, hf]⟩
  | @other t h1 h2 h3 => exact ⟨1, by cases t <;> simp_all [isFunction, Ty.discr]⟩

theorem mulCounts_some (size cs) :
    mulCounts size cs = .ok ((prodAll (cs.map Opt64.get)).map (size * ·)) ∨
      mulCounts size cs = .panic := by
  cases h : mulCounts size cs with
  | diverge => exact absurd h (mulCounts_ne_diverge _ _)
  | panic => exact .inr rfl
  | ok r => rw [mulCounts_ok h]; exact .inl rfl

theorem byteSize_complete {h t s} (hs : SizeOf h t s) :
    ∃ n, byteSize n h t = .ok s ∨ byteSize n h t = .panic := by
  have hsome : ∀ z : Size, ∀ n, z.get = some n → z.isSome = true :=
    fun z n h => (Opt64.isSome_iff z).2 ⟨n, h⟩
  have hnone : ∀ z : Size, z.get = none → z.isSome = false := fun z h => (Opt64.isSome_false z).2 h
  induction hs with
  | void => exact ⟨1, .inl rfl⟩
  | @declared t n hd =>
    refine ⟨1, .inl ?_⟩
    cases t <;> simp only [Ty.declared] at hd <;> first
      | (simp only [byteSize, hd]; done)
      | (simp only [byteSize, hsome _ _ hd, hd, if_true]; done)
      | (cases hd; done)
  | @undeclared t hd hk =>
    refine ⟨1, .inl ?_⟩
    cases t <;> simp [Ty.discr] at hk <;> simp only [Ty.declared] at hd <;> simp [byteSize, hd]
  | @target t ty t' s hd hk ht hf _ ih =>
    obtain ⟨n, hn⟩ := ih
    refine ⟨n + 1, ?_⟩
    have : byteSize (n + 1) h t = byteSize n h t' := by
      rcases hk with hk | ⟨k, s', a, rfl, hk⟩
      · cases t <;> simp [Ty.discr] at hk <;> simp only [Ty.declared] at hd <;>
          simp only [Ty.idTarget, Option.some.injEq] at ht <;> subst ht <;>
          simp [byteSize, hf] <;> simp [hnone _ hd]
      · simp only [Ty.declared] at hd
        simp [byteSize, hf, hnone _ hd, ← refersTo_eq, hk]
    rw [this]; exact hn
  | @dangling t ty hd hk ht hf =>
    refine ⟨1, .inl ?_⟩
    rcases hk with hk | ⟨k, s', a, rfl, hk⟩
    · cases t <;> simp [Ty.discr] at hk <;> simp only [Ty.declared] at hd <;>
        simp only [Ty.idTarget, Option.some.injEq] at ht <;> subst ht <;>
        simp [byteSize, hf] <;> simp [hnone _ hd]
    · simp only [Ty.declared] at hd
      simp [byteSize, hf, hnone _ hd, ← refersTo_eq, hk]
  | pointer hz hk => exact ⟨1, .inl (by simp [byteSize, hnone _ hz, ← refersTo_eq, hk])⟩
  | array hz hf _ ih =>
    obtain ⟨n, hn | hn⟩ := ih
    · refine ⟨n + 1, ?_⟩
      simp only [byteSize, hnone _ hz, hf, hn, Res.bind, Bool.false_eq_true, if_false]
      rw [← counts_dims]
      exact mulCounts_some _ _
    · exact ⟨n + 1, .inr (by simp [byteSize, hnone _ hz, hf, hn, Res.bind])⟩
  | arrayUnknown hz hf _ ih =>
    obtain ⟨n, hn | hn⟩ := ih
    · exact ⟨n + 1, .inl (by simp [byteSize, hnone _ hz, hf, hn, Res.bind])⟩
    · exact ⟨n + 1, .inr (by simp [byteSize, hnone _ hz, hf, hn, Res.bind])⟩
  | @memberFn ty c s a t' hz hf hfn =>
    obtain ⟨n, hn⟩ := isFunction_complete hfn
    refine ⟨n + 1, ?_⟩
    simp only [byteSize, hnone _ hz, hf, hn, Res.bind, Bool.false_eq_true, if_false]
    cases a with
    | none => exact .inl rfl
    | some v =>
      by_cases hv : v * 2 ≤ top
      · left; simp [mulU64, hv]
      · right; simp [mulU64, hv]
  | memberData hz hf hfn =>
    obtain ⟨n, hn⟩ := isFunction_complete hfn
    exact ⟨n + 1, .inl (by simp [byteSize, hnone _ hz, hf, hn, Res.bind])⟩

end Verif.Types
