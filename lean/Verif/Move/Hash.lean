import Verif.Move.Types
import Verif.Show.TypeRef
import Verif.Whole.Model
/-!
# C95: what is computed from the types of a file: identity, size, references
-/
namespace Verif.Move
open Verif.Print Verif.Item Verif.Namespace Verif.Types Verif.Layout Verif.Path Verif.Opts Verif.Merge
  Verif.File Verif.Show

variable {ρ : Nat → Nat}

/-- The types of the second file are those of the first, moved. -/
def HashMoved (ρ : Nat → Nat) (a b : Hash) : Prop := ∀ o, fromOffset b (off ρ o) = (fromOffset a o).map (ty ρ)

/-- What is kept beside the types is the same, but for the ids. -/
def ExtraMoved (ρ : Nat → Nat) (x y : TypeOffset → Extra) : Prop :=
  ∀ o, ({ y (off ρ o) with id := 0 } : Extra) = { x o with id := 0 }

theorem discr_moved (t : Ty) : (ty ρ t).discr = t.discr := by cases t <;> rfl

section
variable {a b : Hash} (hm : HashMoved ρ a b)
include hm

theorem cmpOptTy_left {r r' : Ty → Ty → Res Ordering} (hr : ∀ x y, r (ty ρ x) y = r' x y) (o : TypeOffset) (y : Option Ty) :
    cmpOptTy r (fromOffset b (off ρ o)) y = cmpOptTy r' (fromOffset a o) y := by
  rw [hm]
  cases fromOffset a o <;> cases y <;> simp [cmpOptTy, hr]

theorem cmpParams_left {r r' : Ty → Ty → Res Ordering} (hr : ∀ x y, r (ty ρ x) y = r' x y) (h : Hash)
    (ps qs : List TypeOffset) : cmpParams r b h (ps.map (off ρ)) qs = cmpParams r' a h ps qs := by
  induction ps generalizing qs with
  | nil => rfl
  | cons p ps ih =>
    cases qs with
    | nil => rfl
    | cons q qs => simp only [List.map_cons, cmpParams, ih, cmpOptTy_left hm hr]

theorem cmpStep_left (dbg : Bool) {r r' : Ty → Ty → Res Ordering} (hr : ∀ x y, r (ty ρ x) y = r' x y) (h : Hash) (x y : Ty) :
    cmpStep dbg r b h (ty ρ x) y = cmpStep dbg r' a h x y := by
  by_cases hd : x.discr = y.discr
  · cases x <;> cases y <;> first
      | (exfalso; simp [Ty.discr] at hd; done)
      | simp [ty, cmpStep, cmpOptTy_left hm hr, cmpParams_left hm hr]
  · rw [cmpStep_of_ne _ _ _ _ _ _ hd, cmpStep_of_ne _ _ _ _ _ _ (by rwa [discr_moved]), discr_moved]

theorem cmpId_left (dbg : Bool) (n : Nat) (h : Hash) (x y : Ty) :
    cmpId dbg n b (ty ρ x) h y = cmpId dbg n a x h y := by
  induction n generalizing x y with
  | zero => rfl
  | succ n ih => exact cmpStep_left hm dbg ih h x y

theorem cmpId_right (dbg : Bool) (n : Nat) (h : Hash) (x y : Ty) :
    cmpId dbg n h x b (ty ρ y) = cmpId dbg n h x a y := by
  rw [cmpId_swap, cmpId_left hm, ← cmpId_swap]

theorem cmpParams_both {n : Nat} (ps qs : List TypeOffset) :
    cmpParams (fun x y => cmpId false n b x b y) b b (ps.map (off ρ)) (qs.map (off ρ)) =
      cmpParams (fun x y => cmpId false n a x a y) a a ps qs := by
  induction ps generalizing qs with
  | nil => rfl
  | cons p ps ih =>
    cases qs with
    | nil => rfl
    | cons q qs =>
      simp only [List.map_cons, cmpParams, ih]
      rw [hm p, hm q]
      cases fromOffset a p <;> cases fromOffset a q <;> simp [cmpOptTy, cmpId_left hm, cmpId_right hm]

theorem isFunction_moved (n : Nat) (t : Ty) : isFunction n b (ty ρ t) = isFunction n a t := by
  induction n generalizing t with
  | zero => rfl
  | succ n ih =>
    cases t with
    | def_ ns name o => simp only [ty, isFunction, hm o]; cases fromOffset a o <;> simp [ih]
    | modifier kind o s ad => simp only [ty, isFunction, hm o]; cases fromOffset a o <;> simp [ih]
    | _ => rfl

theorem byteSize_moved (n : Nat) (t : Ty) : byteSize n b (ty ρ t) = byteSize n a t := by
  induction n generalizing t with
  | zero => rfl
  | succ n ih =>
    cases t with
    | def_ ns name o => simp only [ty, byteSize, hm o]; cases fromOffset a o <;> simp [ih]
    | enum_ ns name o s => simp only [ty, byteSize, hm o]; cases fromOffset a o <;> simp [ih]
    | array o c cs s => simp only [ty, byteSize, hm o]; cases fromOffset a o <;> simp [ih]
    | pointerToMember o c s ad =>
      simp only [ty, byteSize, hm o]; cases fromOffset a o <;> simp [isFunction_moved hm]
    | modifier kind o s ad => simp only [ty, byteSize, hm o]; cases fromOffset a o <;> simp [ih]
    | subrange name o l u s => simp only [ty, byteSize, hm o]; cases fromOffset a o <;> simp [ih]
    | _ => rfl

theorem sizeAt_moved (n : Nat) (o : TypeOffset) : Whole.sizeAt n b (off ρ o) = Whole.sizeAt n a o := by
  simp only [Whole.sizeAt, hm o]
  cases fromOffset a o with
  | none => rfl
  | some t => simp only [Option.map_some, byteSize_moved hm]

/-! ### References -/

theorem refId_moved (n : Nat) (x y : TypeOffset → Extra) (o : TypeOffset) :
    ((refId n b y (off ρ o)).map fun r => r.isSome) = (refId n a x o).map fun r => r.isSome := by
  induction n generalizing o with
  | zero => rfl
  | succ n ih =>
    simp only [refId, hm o]
    cases fromOffset a o with
    | none => rfl
    | some t => cases t <;> first | rfl | exact ih _

theorem returnShown_moved (o : TypeOffset) : returnShown b (off ρ o) = returnShown a o := by
  simp only [returnShown, hm o]
  cases fromOffset a o with
  | none => rfl
  | some t => cases t <;> rfl

end

theorem namedRef_text (name : Str) (r : Option Nat) : (namedRef name r).text' = name := by cases r <;> rfl

theorem paramRef_text {n : Option Str} {v w : Val} (h : v.text' = w.text') :
    (paramRef (n, v)).text' = (paramRef (n, w)).text' := by
  cases n <;> simp [paramRef, vals, Val.text', h]

theorem withNames_map {ns : List (Option Str)} {vs ws : List Val} (h : vs.map Val.text' = ws.map Val.text') :
    (withNames ns vs).map (fun p => (paramRef p).text') = (withNames ns ws).map (fun p => (paramRef p).text') := by
  induction vs generalizing ws ns with
  | nil =>
    cases ws with
    | nil => rfl
    | cons w ws => simp at h
  | cons v vs ih =>
    cases ws with
    | nil => simp at h
    | cons w ws =>
      simp only [List.map_cons, List.cons.injEq] at h
      cases ns with
      | nil => simp only [withNames, List.map_cons, paramRef_text h.1, ih h.2]
      | cons n ns => simp only [withNames, List.map_cons, paramRef_text h.1, ih h.2]

theorem paramRefs_text {ps qs : List (Option Str × Val)}
    (h : ps.map (fun p => (paramRef p).text') = qs.map (fun p => (paramRef p).text')) :
    (paramRefs ps).text' = (paramRefs qs).text' := by
  have tail : ∀ ps qs : List (Option Str × Val),
      ps.map (fun p => (paramRef p).text') = qs.map (fun p => (paramRef p).text') →
      (vals (ps.map fun p => Val.seq (.text (k ", ")) (paramRef p))).text' =
        (vals (qs.map fun p => Val.seq (.text (k ", ")) (paramRef p))).text' := by
    intro ps
    induction ps with
    | nil =>
      intro qs h
      cases qs with
      | nil => rfl
      | cons q qs => simp at h
    | cons p ps ih =>
      intro qs h
      cases qs with
      | nil => simp at h
      | cons q qs =>
        simp only [List.map_cons, List.cons.injEq] at h
        simp only [List.map_cons, vals, Val.text', h.1, ih qs h.2]
  cases ps with
  | nil =>
    cases qs with
    | nil => rfl
    | cons q qs => simp at h
  | cons p ps =>
    cases qs with
    | nil => simp at h
    | cons q qs =>
      simp only [List.map_cons, List.cons.injEq] at h
      simp only [paramRefs, Val.text', h.1, tail ps qs h.2]

/-- Both written in the same way, or neither. -/
def SameText : Option Val → Option Val → Prop
  | some v, some w => v.text' = w.text'
  | none, none => True
  | _, _ => False

theorem SameText.inv {x y : Option Val} (h : SameText x y) :
    (x = none ∧ y = none) ∨ ∃ v w, x = some v ∧ y = some w ∧ v.text' = w.text' := by
  cases x with
  | none =>
    cases y with
    | none => exact .inl ⟨rfl, rfl⟩
    | some w => exact h.elim
  | some v =>
    cases y with
    | none => exact h.elim
    | some w => exact .inr ⟨v, w, rfl, rfl, h⟩

theorem sameText_refs {f g : TypeOffset → Option Val} (h : ∀ o, SameText (f (off ρ o)) (g o)) (ps : List TypeOffset) :
    ((ps.map (off ρ)).mapM f = none ∧ ps.mapM g = none) ∨
      ∃ vs ws, (ps.map (off ρ)).mapM f = some vs ∧ ps.mapM g = some ws ∧ vs.map Val.text' = ws.map Val.text' := by
  induction ps with
  | nil => exact .inr ⟨[], [], rfl, rfl, rfl⟩
  | cons p ps ih =>
    rcases (h p).inv with ⟨h1, h2⟩ | ⟨v, w, h1, h2, h3⟩
    · left
      simp [List.mapM_cons, h1, h2]
    · rcases ih with ⟨h4, h5⟩ | ⟨vs, ws, h4, h5, h6⟩
      · left
        simp only [List.map_cons, List.mapM_cons, h1, h2, h4, h5]
        exact ⟨rfl, rfl⟩
      · right
        refine ⟨v :: vs, w :: ws, ?_, ?_, by simp [h3, h6]⟩
        · simp only [List.map_cons, List.mapM_cons, h1, h4]; rfl
        · simp only [List.mapM_cons, h2, h5]; rfl

theorem typeRef_moved {a b : Hash} (hm : HashMoved ρ a b) {x y : TypeOffset → Extra} (hx : ExtraMoved ρ x y)
    (n : Nat) (o : TypeOffset) : SameText (typeRef n b y (off ρ o)) (typeRef n a x o) := by
  induction n generalizing o with
  | zero => exact trivial
  | succ n ih =>
    have hxn : (y (off ρ o)).name = (x o).name := by
      have := congrArg Extra.name (hx o); exact this
    have hxp : (y (off ρ o)).paramNames = (x o).paramNames := by
      have := congrArg Extra.paramNames (hx o); exact this
    have named : ∀ (name : Str) (p : TypeOffset),
        SameText ((refId n b y (off ρ p)).map (namedRef name)) ((refId n a x p).map (namedRef name)) := by
      intro name p
      have := refId_moved hm n x y p
      cases h1 : refId n b y (off ρ p) <;> cases h2 : refId n a x p <;> simp [h1, h2] at this
      · exact trivial
      · simp [SameText, namedRef_text]
    simp only [typeRef, hm o]
    cases fromOffset a o with
    | none => exact rfl
    | some t =>
      cases t with
      | array t c cs s =>
        simp only [Option.map_some, ty]
        rcases (ih t).inv with ⟨h1, h2⟩ | ⟨v, w, h1, h2, h3⟩
        · rw [h1, h2]; exact trivial
        · rw [h1, h2]; simp [SameText, vals, Val.text', h3]
      | pointerToMember t c s ad =>
        simp only [Option.map_some, ty]
        rcases (ih c).inv with ⟨h1, h2⟩ | ⟨v, w, h1, h2, h3⟩
        · rw [h1, h2]; exact trivial
        · rw [h1, h2]
          rcases (ih t).inv with ⟨h4, h5⟩ | ⟨v', w', h4, h5, h6⟩
          · rw [h4, h5]; exact trivial
          · rw [h4, h5]; simp [SameText, vals, Val.text', h3, h6]
      | modifier kind t s ad =>
        simp only [Option.map_some, ty, hxn]
        cases (x o).name with
        | some name => exact named name t
        | none =>
          rcases (ih t).inv with ⟨h1, h2⟩ | ⟨v, w, h1, h2, h3⟩
          · simp only [h1, h2]; exact trivial
          · simp only [h1, h2]; simp [SameText, vals, Val.text', h3]
      | subrange name t l u s =>
        simp only [Option.map_some, ty]
        cases name with
        | some name =>
          rcases (named name t).inv with ⟨h1, h2⟩ | ⟨v, w, h1, h2, h3⟩
          · simp only [h1, h2]; exact trivial
          · simp only [h1, h2]; simp [SameText, vals, Val.text', h3]
        | none =>
          rcases (ih t).inv with ⟨h1, h2⟩ | ⟨v, w, h1, h2, h3⟩
          · simp only [h1, h2]; exact trivial
          · simp only [h1, h2]; simp [SameText, vals, Val.text', h3]
      | function ps ret s =>
        simp only [Option.map_some, ty, hxp, returnShown_moved hm]
        rcases sameText_refs (f := typeRef n b y) (g := typeRef n a x) ih ps with ⟨h1, h2⟩ | ⟨vs, ws, h1, h2, h3⟩
        · rw [h1, h2]; exact trivial
        · rw [h1, h2]
          have hp := paramRefs_text (withNames_map (ns := (x o).paramNames) h3)
          simp only [Option.bind_eq_bind, Option.bind_some]
          split
          · rcases (ih ret).inv with ⟨h4, h5⟩ | ⟨v', w', h4, h5, h6⟩
            · rw [h4, h5]; exact trivial
            · rw [h4, h5]; simp [SameText, vals, Val.text', hp, h6]
          · simp [SameText, vals, Val.text', hp]
      | _ => exact rfl

/-- Sizes and references need not be assumed: those that the program computes from the types follow. -/
theorem types_of_hash {a b : Side} (n : Nat) (inj : ∀ x y, ρ x = ρ y → x = y) (hm : HashMoved ρ a.hash b.hash)
    (hx : ExtraMoved ρ a.extra b.extra)
    (sa : a.tsz = Whole.sizeAt n a.hash) (sb : b.tsz = Whole.sizeAt n b.hash)
    (ra : a.tref = fun o => (typeRef n a.hash a.extra o).getD .nil)
    (rb : b.tref = fun o => (typeRef n b.hash b.extra o).getD .nil) : Types ρ a b where
  inj := inj
  hash := hm
  extra := hx
  size o := by rw [sa, sb]; exact sizeAt_moved hm n o
  ref o := by
    rw [ra, rb]
    rcases (typeRef_moved hm hx n o).inv with ⟨h1, h2⟩ | ⟨v, w, h1, h2, h3⟩
    · simp only [h1, h2]
    · simp only [h1, h2, Option.getD_some, h3]

/-- So does the comparison of types, where it returns. -/
theorem same_of_hash {a b : Hash} (n : Nat) (hm : HashMoved ρ a b)
    (hret : ∀ o t, fromOffset a o = some t → cmpId false n a t a t ≠ .diverge) :
    SameMoved ρ (fun x y => cmpId false n a x b y == .ok .eq) a := by
  intro o t ht
  simp only [cmpId_right hm]
  cases hc : cmpId false n a t a t with
  | diverge => exact absurd hc (hret o t ht)
  | panic => exact absurd hc (cmpId_no_panic n a t a t)
  | ok q => rw [cmpId_self false n a t q hc]; rfl

end Verif.Move
