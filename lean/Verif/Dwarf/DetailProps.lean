import Verif.Dwarf.DetailSpec
import Verif.Dwarf.CallProps
import Verif.Dwarf.AttrProps
import Verif.Dwarf.EvalTotal
import Verif.Dwarf.LookupProps
/-!
# Property theorems: C56 (parameters, local variables and inlined calls of a function), C57 (inlined
calls)
-/
namespace Verif.Dwarf
open Verif.Item Verif.Types Verif.Namespace Verif.Range Verif.Sentinel Verif.File

/-! ### Loops that may panic -/

theorem foldlM_guard {σ β : Type} (step : σ → β → Option σ) (ok : β → Prop) (g : σ → β → σ)
    (h1 : ∀ s b, ok b → step s b = some (g s b)) (h2 : ∀ s b, ¬ ok b → step s b = none) (l : List β) :
    ∀ s, ((∀ b ∈ l, ok b) → l.foldlM step s = some (l.foldl g s)) ∧ ((∃ b ∈ l, ¬ ok b) → l.foldlM step s = none) := by
  induction l with
  | nil => intro s; exact ⟨fun _ => rfl, fun ⟨b, hb, _⟩ => by simp at hb⟩
  | cons b l ih =>
    intro s
    rw [List.foldlM_cons]
    by_cases hb : ok b
    · rw [h1 s b hb]
      refine ⟨fun h => (ih _).1 fun b hb => h b (List.mem_cons_of_mem _ hb), fun ⟨c, hc, hn⟩ => (ih _).2 ⟨c, ?_, hn⟩⟩
      rcases List.mem_cons.1 hc with rfl | hc
      · exact absurd hb hn
      · exact hc
    · rw [h2 s b hb]
      exact ⟨fun h => absurd (h b List.mem_cons_self) hb, fun _ => rfl⟩

theorem foldl_append {σ β γ : Type} (step : σ → β → σ) (g : σ → List γ) (f : β → List γ)
    (h : ∀ s b, g (step s b) = g s ++ f b) (l : List β) : ∀ s, g (l.foldl step s) = g s ++ l.flatMap f := by
  induction l with
  | nil => intro s; simp
  | cons b l ih => intro s; rw [List.foldl_cons, ih, h, List.flatMap_cons, List.append_assoc]

/-- The attribute's location expressions evaluate. -/
def Val.LocOk (asz : Nat) (v : Val) : Prop := ∀ re ∈ v.locEntries, (evaluateSimple asz re.2).isSome

/-- The attribute is harmless. -/
def AttrOk (asz : Nat) (av : At × Val) : Prop := av.1 = .location → av.2.LocOk asz

theorem evaluates_iff (asz : Nat) (d : Die) : d.Evaluates asz ↔ ∀ av ∈ d.attrs, AttrOk asz av := by
  unfold Die.Evaluates Die.locEntries AttrOk Val.LocOk
  simp only [List.mem_flatMap]
  constructor
  · intro h av hav ha re hre
    exact h re ⟨av, hav, by rw [if_pos ha]; exact hre⟩
  · rintro h re ⟨av, hav, hre⟩
    split at hre
    · rename_i ha; exact h av hav ha re hre
    · simp at hre

theorem pieces_eq (asz : Nat) (d : Die) :
    d.pieces asz = d.attrs.flatMap fun av => if av.1 = .location then av.2.locEntries.flatMap (entryPieces asz) else [] := by
  unfold Die.pieces Die.locEntries
  induction d.attrs with
  | nil => rfl
  | cons av l ih =>
    rw [List.flatMap_cons, List.flatMap_cons, List.flatMap_append, ih]
    split <;> rfl

theorem parameterLocation_eq (asz : Nat) (range : Range) (e : List Oper) (p : Parameter) :
    ((evaluateSimple asz e).isSome → parameterLocation asz range e p =
        some { p with locations := p.locations ++ entryPieces asz (range, e) }) ∧
    (¬ (evaluateSimple asz e).isSome → parameterLocation asz range e p = none) := by
  unfold parameterLocation entryPieces
  cases h : evaluateSimple asz e with
  | none => simp
  | some r => cases r <;> simp

/-- What a location attribute adds to a parameter. -/
theorem paramLocation_eq (asz : Nat) (p : Parameter) (v : Val) :
    (v.LocOk asz → paramLocation asz p v = some { p with locations := p.locations ++ v.locEntries.flatMap (entryPieces asz) }) ∧
    (¬ v.LocOk asz → paramLocation asz p v = none) := by
  unfold Val.LocOk
  cases v with
  | exprloc ps e =>
    simp only [paramLocation, Val.locEntries, List.mem_singleton, forall_eq, List.flatMap_cons, List.flatMap_nil, List.append_nil]
    exact parameterLocation_eq asz Range.all e p
  | loclist o es =>
    simp only [paramLocation, Val.locEntries]
    have := foldlM_guard (fun (p : Parameter) (re : Range × List Oper) => parameterLocation asz re.1 re.2 p)
      (fun re => (evaluateSimple asz re.2).isSome) (fun p re => { p with locations := p.locations ++ entryPieces asz re })
      (fun p re h => (parameterLocation_eq asz re.1 re.2 p).1 h) (fun p re h => (parameterLocation_eq asz re.1 re.2 p).2 h) es p
    refine ⟨fun h => ?_, fun h => this.2 ?_⟩
    · rw [this.1 h]
      congr 1
      clear this h
      induction es generalizing p with
      | nil => simp
      | cons re es ih => rw [List.foldl_cons, ih]; simp [List.append_assoc]
    · apply Classical.byContradiction
      intro hc
      apply h
      intro re hre
      apply Classical.byContradiction
      intro hn
      exact hc ⟨re, hre, hn⟩
  | _ => simp [paramLocation, Val.locEntries]

/-- The attribute loop without panics. -/
def paramStep (asz : Nat) (s : Parameter × Option Nat) (av : At × Val) : Parameter × Option Nat :=
  match av with
  | (.location, v) => ({ s.1 with locations := s.1.locations ++ v.locEntries.flatMap (entryPieces asz) }, s.2)
  | av => (detParamAttr asz s av).getD s

theorem detParamAttr_eq (asz : Nat) (s : Parameter × Option Nat) (av : At × Val) :
    (AttrOk asz av → detParamAttr asz s av = some (paramStep asz s av)) ∧ (¬ AttrOk asz av → detParamAttr asz s av = none) := by
  obtain ⟨a, v⟩ := av
  by_cases ha : a = .location
  · subst ha
    have := paramLocation_eq asz s.1 v
    unfold AttrOk
    simp only [true_imp_iff, detParamAttr, paramStep]
    exact ⟨fun h => by rw [this.1 h]; rfl, fun h => by rw [this.2 h]; rfl⟩
  · have hok : AttrOk asz (a, v) := fun h => absurd h ha
    refine ⟨fun _ => ?_, fun h => absurd hok h⟩
    cases a <;> first | exact absurd rfl ha | (simp only [detParamAttr, paramStep]; try cases v.offset <;> rfl)

theorem ownDetParam_eq (asz : Nat) (d : Die) :
    (d.Evaluates asz → ∃ p, ownDetParam asz d = some (p, d.lastOf .abstractOrigin Val.offset) ∧ NewParam asz d p) ∧
    (¬ d.Evaluates asz → ownDetParam asz d = none) := by
  have hg := foldlM_guard (detParamAttr asz) (AttrOk asz) (paramStep asz) (fun s b => (detParamAttr_eq asz s b).1)
    (fun s b => (detParamAttr_eq asz s b).2) d.attrs ({ offset := some d.offset }, none)
  rw [evaluates_iff]
  refine ⟨fun h => ?_, fun h => hg.2 ?_⟩
  · refine ⟨(d.attrs.foldl (paramStep asz) ({ offset := some d.offset }, none)).1, ?_, ?_⟩
    · unfold ownDetParam
      rw [hg.1 h]
      have : (d.attrs.foldl (paramStep asz) ({ offset := some d.offset }, none)).2 = d.lastOf .abstractOrigin Val.offset := by
        refine foldl_lastSome (paramStep asz) (·.2) .abstractOrigin Val.offset (fun s v => ?_) (fun s a v h => ?_) d _ rfl
        · simp only [paramStep, detParamAttr]; cases v.offset <;> rfl
        · cases a <;> first | exact absurd rfl h | (simp only [paramStep, detParamAttr, Option.getD_some]; try cases v.offset <;> rfl)
      rw [← this]
    · constructor
      · rw [foldl_lastBy (paramStep asz) (·.1.offset) (fun _ => none)]
        · have : d.attrs.filterMap (fun _ => (none : Option (Option Nat))) = [] := by simp
          rw [this]; rfl
        · rintro s ⟨a, v⟩
          cases a <;> simp only [paramStep, detParamAttr, Option.getD_some, Option.getD_none] <;> try cases v.offset <;> rfl
      · refine foldl_last (paramStep asz) (·.1.name) .name Val.str (fun s v => ?_) (fun s a v h => ?_) d _ rfl
        · simp only [paramStep, detParamAttr, Option.getD_some]
        · cases a <;> first | exact absurd rfl h | (simp only [paramStep, detParamAttr, Option.getD_some]; try cases v.offset <;> rfl)
      · refine foldl_lastSome (paramStep asz) (·.1.ty) .type Val.offset (fun s v => ?_) (fun s a v h => ?_) d _ rfl
        · simp only [paramStep, detParamAttr]; cases v.offset <;> rfl
        · cases a <;> first | exact absurd rfl h | (simp only [paramStep, detParamAttr, Option.getD_some]; try cases v.offset <;> rfl)
      · rw [pieces_eq, foldl_append (paramStep asz) (·.1.locations)
          (fun av => if av.1 = .location then av.2.locEntries.flatMap (entryPieces asz) else [])]
        · rfl
        · rintro s ⟨a, v⟩
          cases a <;> simp only [paramStep, detParamAttr, Option.getD_some, reduceCtorEq, if_false, if_true, List.append_nil] <;>
            try cases v.offset <;> rfl
  · apply Classical.byContradiction
    intro hc
    apply h
    intro av hav
    apply Classical.byContradiction
    intro hn
    exact hc ⟨av, hav, hn⟩

/-- `updateFirst`, as a relation. -/
theorem updateFirst_joined {α : Type} (off : α → Option Nat) (new : α) (upd : α → α) (origin : Option Nat) (xs : List α)
    (New : α → Prop) (Upd : α → α → Prop) (h1 : New new) (h2 : ∀ x, Upd x (upd x)) :
    Joined off origin New Upd xs
      (match origin with
       | some o => (updateFirst (fun x => off x = some o) upd xs).getD (xs ++ [new])
       | none => xs ++ [new]) := by
  cases origin with
  | none => exact .inr ⟨fun o h => (by cases h), new, rfl, h1⟩
  | some o =>
    simp only
    have key : (∃ pre x post, xs = pre ++ x :: post ∧ off x = some o ∧ (∀ z ∈ pre, off z ≠ some o) ∧
          updateFirst (fun x => off x = some o) upd xs = some (pre ++ upd x :: post)) ∨
        ((∀ z ∈ xs, off z ≠ some o) ∧ updateFirst (fun x => off x = some o) upd xs = none) := by
      clear h1 h2
      induction xs with
      | nil => exact .inr ⟨by simp, rfl⟩
      | cons x xs ih =>
        by_cases hx : off x = some o
        · exact .inl ⟨[], x, xs, rfl, hx, by simp, by simp [updateFirst, hx]⟩
        · rcases ih with ⟨pre, y, post, rfl, a, b, c⟩ | ⟨a, b⟩
          · refine .inl ⟨x :: pre, y, post, rfl, a, fun z hz => ?_, by simp [updateFirst, hx, c]⟩
            rcases List.mem_cons.1 hz with rfl | hz
            · exact hx
            · exact b z hz
          · refine .inr ⟨fun z hz => ?_, by simp [updateFirst, hx, b]⟩
            rcases List.mem_cons.1 hz with rfl | hz
            · exact hx
            · exact a z hz
    rcases key with ⟨pre, x, post, a, b, c, e⟩ | ⟨a, b⟩
    · rw [e]
      exact .inl ⟨o, pre, x, upd x, post, rfl, a, rfl, b, c, h2 x⟩
    · rw [b]
      exact .inr ⟨fun o' h => by cases h; exact a, new, rfl, h1⟩

theorem override_or {α : Type} (a b : Option α) : (if a.isSome then a else b) = a.or b := by cases a <;> rfl

/-- **C56** (parameters of a function signature). -/
theorem C56_parameter_type (ps : List ParameterType) (d : Die) :
    Joined ParameterType.offset (d.lastOf .abstractOrigin Val.offset) (NewParamType d) (ParamTypeUpdate d) ps (addParam ps d) := by
  obtain ⟨h1, h2, h3, h4⟩ := C72_parameter d
  have := updateFirst_joined ParameterType.offset (ownParam d).1 (fun x => overrideParam x (ownParam d).1) (ownParam d).2 ps
    (NewParamType d) (ParamTypeUpdate d) ⟨h1, h2, h3⟩ (fun x => ⟨rfl, by simp only [overrideParam]; rw [h2, override_or], by
      simp only [overrideParam]; rw [h3, override_or]⟩)
  rw [h4] at this
  have he : addParam ps d = (match d.lastOf .abstractOrigin Val.offset with
       | some o => (updateFirst (fun x => x.offset = some o) (fun x => overrideParam x (ownParam d).1) ps).getD (ps ++ [(ownParam d).1])
       | none => ps ++ [(ownParam d).1]) := by
    unfold addParam
    rw [← h4]
    generalize ownParam d = r
    obtain ⟨p, _ | o⟩ := r <;> rfl
  rw [he]
  exact this

/-- **C56** (parameters with locations). -/
theorem C56_parameter (asz : Nat) (ps qs : List Parameter) (d : Die) (h : addDetParam asz ps d = some qs) : ParamJoin asz d ps qs := by
  unfold addDetParam at h
  by_cases he : d.Evaluates asz
  · obtain ⟨p, hp, hn⟩ := (ownDetParam_eq asz d).1 he
    rw [hp] at h
    simp only [Option.map_some, Option.some.injEq] at h
    subst h
    exact updateFirst_joined Parameter.offset p (fun x => overrideDetParam x p) (d.lastOf .abstractOrigin Val.offset) ps
      (NewParam asz d) (ParamUpdate asz d) hn (fun x => ⟨rfl, by simp only [overrideDetParam]; rw [hn.name, override_or], by
        simp only [overrideDetParam]; rw [hn.ty, override_or], by simp only [overrideDetParam]; rw [hn.locations]⟩)
  · rw [(ownDetParam_eq asz d).2 he] at h
    cases h

/-! ### Local variables -/

/-- Address, size and locations of a variable. -/
abbrev Loc3 := Option Nat × Option Nat × List (Range × Piece)

/-- The first piece in memory at a fixed address. -/
def headFixed (ps : List (Range × Piece)) : Option (Nat × Option Nat) := (ps.filterMap fun p => Piece.fixed p.2).head?

/-- A size in bits, in bytes. -/
def toBytes (p : Nat × Option Nat) : Option Nat := p.2.map fun bits => (bits + 7) / 8

/-- What pieces add. -/
def note (ps : List (Range × Piece)) (t : Loc3) : Loc3 :=
  (t.1.or ((headFixed ps).map Prod.fst), if t.1.isSome then t.2.1 else ((headFixed ps).bind toBytes).or t.2.1, t.2.2 ++ ps)

theorem headFixed_append (ps qs : List (Range × Piece)) : headFixed (ps ++ qs) = (headFixed ps).or (headFixed qs) := by
  unfold headFixed; rw [List.filterMap_append, List.head?_append]

theorem note_append (ps qs : List (Range × Piece)) (t : Loc3) : note (ps ++ qs) t = note qs (note ps t) := by
  obtain ⟨a, s, l⟩ := t
  unfold note
  rw [headFixed_append]
  cases a <;> cases headFixed ps <;> simp [List.append_assoc]

theorem note_nil (t : Loc3) : note [] t = t := by
  obtain ⟨a, s, l⟩ := t
  cases a <;> simp [note, headFixed]

theorem foldl_note {σ β : Type} (step : σ → β → σ) (g : σ → Loc3) (f : β → List (Range × Piece))
    (h : ∀ s b, g (step s b) = note (f b) (g s)) (l : List β) : ∀ s, g (l.foldl step s) = note (l.flatMap f) (g s) := by
  induction l with
  | nil => intro s; simp [note_nil]
  | cons b l ih => intro s; rw [List.foldl_cons, ih, h, List.flatMap_cons, note_append]

/-- The location data of a variable. -/
def loc3 (v : LocalVariable) : Loc3 := (v.address, v.size, v.locations)

/-- Change the location data of a variable. -/
def setLoc3 (v : LocalVariable) (t : Loc3) : LocalVariable := { v with address := t.1, size := t.2.1, locations := t.2.2 }

/-- Take pieces into account. -/
def notePieces (ps : List (Range × Piece)) (v : LocalVariable) : LocalVariable := setLoc3 v (note ps (loc3 v))

theorem noteAddress_eq (v : LocalVariable) (r : Range) (p : Piece) (hp : p.location ≠ .address none) :
    setLoc3 (noteAddress v p) ((noteAddress v p).address, (noteAddress v p).size, v.locations ++ [(r, p)]) = notePieces [(r, p)] v := by
  unfold notePieces note loc3 headFixed
  obtain ⟨bo, bs, l, lo, iv⟩ := p
  cases iv with
  | true => simp only [noteAddress, Piece.fixed, if_true, List.filterMap]; cases v; rename_i a _ _; cases a <;> simp [setLoc3]
  | false =>
    cases l with
    | address a =>
      cases a with
      | none => exact absurd rfl hp
      | some a =>
        cases v with
        | mk off name ty source addr size locs =>
        cases addr <;> cases bs <;> simp [noteAddress, Piece.fixed, List.filterMap, setLoc3, sizeAfter, toBytes]
    | _ => simp only [noteAddress, Piece.fixed, List.filterMap]; cases v; rename_i a _ _; cases a <;> simp [setLoc3]

theorem foldl_noteAddress_eq (r : Range) (ps : List Piece) : ∀ v : LocalVariable, Addressed ps →
    setLoc3 (ps.foldl noteAddress v) ((ps.foldl noteAddress v).address, (ps.foldl noteAddress v).size,
      v.locations ++ ps.map fun p => (r, p)) = notePieces (ps.map fun p => (r, p)) v := by
  induction ps with
  | nil => intro v _; unfold notePieces; simp only [List.map_nil, note_nil]; cases v; simp [setLoc3, loc3]
  | cons p ps ih =>
    intro v hp
    have h1 := noteAddress_eq v r p (hp p List.mem_cons_self)
    have h2 := ih (noteAddress v p) (fun q hq => hp q (List.mem_cons_of_mem _ hq))
    have hl : (noteAddress v p).locations = v.locations := (foldl_noteAddress [p] v).1
    have hN : loc3 (notePieces [(r, p)] v) = note [(r, p)] (loc3 v) := rfl
    rw [List.foldl_cons]
    have e1 : notePieces ((p :: ps).map fun p => (r, p)) v = setLoc3 v (note (ps.map fun p => (r, p)) (note [(r, p)] (loc3 v))) := by
      unfold notePieces
      rw [show ((p :: ps).map fun p => (r, p)) = [(r, p)] ++ ps.map fun p => (r, p) from rfl, note_append]
    rw [e1, ← hN, ← h1]
    have e3 : (loc3 (setLoc3 (noteAddress v p) ((noteAddress v p).address, (noteAddress v p).size, v.locations ++ [(r, p)]))) =
      ((noteAddress v p).address, (noteAddress v p).size, v.locations ++ [(r, p)]) := rfl
    rw [e3]
    unfold notePieces at h2
    have key : ∀ t : Loc3, setLoc3 v t = setLoc3 (noteAddress v p) t := by
      intro t
      obtain ⟨-, -, -, hs, -⟩ := foldl_noteAddress [p] v
      unfold noteAddress
      split
      · rfl
      · split
        · split <;> rfl
        · rfl
    rw [key]
    have h3 : note (ps.map fun p => (r, p)) ((noteAddress v p).address, (noteAddress v p).size, v.locations ++ [(r, p)]) =
        ((note (ps.map fun p => (r, p)) (loc3 (noteAddress v p))).1, (note (ps.map fun p => (r, p)) (loc3 (noteAddress v p))).2.1,
          v.locations ++ (p :: ps).map fun p => (r, p)) := by
      unfold note loc3
      simp only [List.map_cons, List.append_assoc, List.singleton_append, List.cons_append, List.nil_append]
    rw [h3]
    have h4 := congrArg LocalVariable.address h2
    have h5 := congrArg LocalVariable.size h2
    have h6 := congrArg LocalVariable.offset h2
    have h7 := congrArg LocalVariable.name h2
    have h8 := congrArg LocalVariable.ty h2
    have h9 := congrArg LocalVariable.source h2
    simp only [setLoc3] at h4 h5 h6 h7 h8 h9 ⊢
    rw [h4, h5, h6, h7, h8, h9]

theorem localVariableLocation_eq (asz : Nat) (range : Range) (e : List Oper) (v : LocalVariable) :
    ((evaluateSimple asz e).isSome → localVariableLocation asz range e v = some (notePieces (entryPieces asz (range, e)) v)) ∧
    (¬ (evaluateSimple asz e).isSome → localVariableLocation asz range e v = none) := by
  unfold localVariableLocation entryPieces
  cases h : evaluateSimple asz e with
  | none => simp
  | some r =>
    cases r with
    | none =>
      simp only [Option.isSome_some, Option.map_some, Option.getD_some, Option.getD_none, List.map_nil, true_imp_iff, not_true,
        false_imp_iff, and_true, Option.some.injEq]
      unfold notePieces; rw [note_nil]; rfl
    | some ps =>
      simp only [Option.isSome_some, Option.map_some, Option.getD_some, true_imp_iff, not_true, false_imp_iff, and_true, Option.some.injEq]
      rw [← foldl_noteAddress_eq range ps v (addressed_eval asz e ps h)]
      have hl := (foldl_noteAddress ps v).1
      rw [← hl]; rfl

theorem notePieces_append (ps qs : List (Range × Piece)) (v : LocalVariable) : notePieces (ps ++ qs) v = notePieces qs (notePieces ps v) := by
  unfold notePieces
  rw [note_append]; rfl

theorem varLocation_eq (asz : Nat) (p : LocalVariable) (v : Val) :
    (v.LocOk asz → varLocation asz p v = some (notePieces (v.locEntries.flatMap (entryPieces asz)) p)) ∧
    (¬ v.LocOk asz → varLocation asz p v = none) := by
  have nil : notePieces [] p = p := by unfold notePieces; rw [note_nil]; rfl
  unfold Val.LocOk
  cases v with
  | exprloc ps e =>
    simp only [varLocation, Val.locEntries, List.mem_singleton, forall_eq, List.flatMap_cons, List.flatMap_nil, List.append_nil]
    exact localVariableLocation_eq asz Range.all e p
  | loclist o es =>
    simp only [varLocation, Val.locEntries]
    have := foldlM_guard (fun (p : LocalVariable) (re : Range × List Oper) => localVariableLocation asz re.1 re.2 p)
      (fun re => (evaluateSimple asz re.2).isSome) (fun p re => notePieces (entryPieces asz re) p)
      (fun p re h => (localVariableLocation_eq asz re.1 re.2 p).1 h) (fun p re h => (localVariableLocation_eq asz re.1 re.2 p).2 h) es p
    refine ⟨fun h => ?_, fun h => this.2 ?_⟩
    · rw [this.1 h]
      congr 1
      clear this h nil
      induction es generalizing p with
      | nil => unfold notePieces; rw [List.flatMap_nil, note_nil]; rfl
      | cons re es ih => rw [List.foldl_cons, ih, List.flatMap_cons, notePieces_append]
    · apply Classical.byContradiction
      intro hc
      apply h
      intro re hre
      apply Classical.byContradiction
      intro hn
      exact hc ⟨re, hre, hn⟩
  | _ => simp [varLocation, Val.locEntries, nil]

/-- The attribute loop without panics. -/
def varStep (asz : Nat) (s : LocalVariable × Option Nat) (av : At × Val) : LocalVariable × Option Nat :=
  match av with
  | (.location, v) => (notePieces (v.locEntries.flatMap (entryPieces asz)) s.1, s.2)
  | av => (detVarAttr asz s av).getD s

theorem detVarAttr_eq (asz : Nat) (s : LocalVariable × Option Nat) (av : At × Val) :
    (AttrOk asz av → detVarAttr asz s av = some (varStep asz s av)) ∧ (¬ AttrOk asz av → detVarAttr asz s av = none) := by
  obtain ⟨a, v⟩ := av
  by_cases ha : a = .location
  · subst ha
    have := varLocation_eq asz s.1 v
    unfold AttrOk
    simp only [true_imp_iff, detVarAttr, varStep]
    exact ⟨fun h => by rw [this.1 h]; rfl, fun h => by rw [this.2 h]; rfl⟩
  · have hok : AttrOk asz (a, v) := fun h => absurd h ha
    refine ⟨fun _ => ?_, fun h => absurd hok h⟩
    cases a <;> first | exact absurd rfl ha | (simp only [detVarAttr, varStep]; try cases v.offset <;> rfl)

theorem ownDetVar_eq (asz : Nat) (d : Die) :
    (d.Evaluates asz → ∃ v, ownDetVar asz d = some (v, d.lastOf .abstractOrigin Val.offset) ∧ NewVar asz d v) ∧
    (¬ d.Evaluates asz → ownDetVar asz d = none) := by
  have hg := foldlM_guard (detVarAttr asz) (AttrOk asz) (varStep asz) (fun s b => (detVarAttr_eq asz s b).1)
    (fun s b => (detVarAttr_eq asz s b).2) d.attrs ({ offset := some d.offset }, none)
  rw [evaluates_iff]
  refine ⟨fun h => ?_, fun h => hg.2 ?_⟩
  · refine ⟨(d.attrs.foldl (varStep asz) ({ offset := some d.offset }, none)).1, ?_, ?_⟩
    · unfold ownDetVar
      rw [hg.1 h]
      have : (d.attrs.foldl (varStep asz) ({ offset := some d.offset }, none)).2 = d.lastOf .abstractOrigin Val.offset := by
        refine foldl_lastSome (varStep asz) (·.2) .abstractOrigin Val.offset (fun s v => ?_) (fun s a v h => ?_) d _ rfl
        · simp only [varStep, detVarAttr]; cases v.offset <;> rfl
        · cases a <;> first | exact absurd rfl h | (simp only [varStep, detVarAttr, Option.getD_some]; try cases v.offset <;> rfl)
      rw [← this]
    · have hloc : loc3 (d.attrs.foldl (varStep asz) ({ offset := some d.offset }, none)).1 =
          note (d.pieces asz) (none, none, []) := by
        rw [pieces_eq, foldl_note (varStep asz) (fun s => loc3 s.1)
          (fun av => if av.1 = .location then av.2.locEntries.flatMap (entryPieces asz) else [])]
        · rfl
        · rintro s ⟨a, v⟩
          cases a <;> simp only [varStep, detVarAttr, Option.getD_some, reduceCtorEq, if_false, if_true, note_nil] <;>
            first | rfl | (cases v.offset <;> rfl)
      have e1 := congrArg Prod.fst hloc
      have e2 := congrArg (fun t => t.2.1) hloc
      have e3 := congrArg (fun t => t.2.2) hloc
      constructor
      · rw [foldl_lastBy (varStep asz) (·.1.offset) (fun _ => none)]
        · have : d.attrs.filterMap (fun _ => (none : Option (Option Nat))) = [] := by simp
          rw [this]; rfl
        · rintro s ⟨a, v⟩
          cases a <;> simp only [varStep, detVarAttr, Option.getD_some, Option.getD_none] <;> first | rfl | (cases v.offset <;> rfl)
      · refine foldl_last (varStep asz) (·.1.name) .name Val.str (fun s v => ?_) (fun s a v h => ?_) d _ rfl
        · simp only [varStep, detVarAttr, Option.getD_some]
        · cases a <;> first | exact absurd rfl h | (simp only [varStep, detVarAttr, Option.getD_some]; done) | (simp only [varStep, detVarAttr, Option.getD_some]; first | rfl | (cases v.offset <;> rfl))
      · refine foldl_lastSome (varStep asz) (·.1.ty) .type Val.offset (fun s v => ?_) (fun s a v h => ?_) d _ rfl
        · simp only [varStep, detVarAttr]; cases v.offset <;> rfl
        · cases a <;> first | exact absurd rfl h | (simp only [varStep, detVarAttr, Option.getD_some]; done) | (simp only [varStep, detVarAttr, Option.getD_some]; first | rfl | (cases v.offset <;> rfl))
      · refine foldl_source (varStep asz) (·.1.source) ?_ d _ rfl
        rintro s ⟨a, v⟩
        cases a <;> simp only [varStep, detVarAttr, sourceAttr, Option.getD_some] <;> first | rfl | (cases v.offset <;> rfl)
      · refine e1.trans ?_
        simp only [note, Option.none_or]; rfl
      · refine e2.trans ?_
        simp only [note, Option.isSome_none, Option.or_none]; rfl
      · refine e3.trans ?_
        simp only [note, List.nil_append]
  · apply Classical.byContradiction
    intro hc
    apply h
    intro av hav
    apply Classical.byContradiction
    intro hn
    exact hc ⟨av, hav, hn⟩

/-- **C56** (local variables). -/
theorem C56_variable (asz : Nat) (vs ws : List LocalVariable) (d : Die) (h : addDetVar asz vs d = some ws) : VarJoin asz d vs ws := by
  unfold addDetVar at h
  by_cases he : d.Evaluates asz
  · obtain ⟨p, hp, hn⟩ := (ownDetVar_eq asz d).1 he
    rw [hp] at h
    simp only [Option.map_some, Option.some.injEq] at h
    subst h
    refine updateFirst_joined LocalVariable.offset p (fun x => overrideDetVar x p) (d.lastOf .abstractOrigin Val.offset) vs
      (NewVar asz d) (VarUpdate asz d) hn (fun x => ?_)
    have hf := hn.source.file
    constructor
    · rfl
    · simp only [overrideDetVar]; rw [hn.name, override_or]
    · simp only [overrideDetVar]; rw [hn.ty, override_or]
    · intro h
      simp only [overrideDetVar]
      rw [if_pos]
      · exact hn.source
      · rw [hf]; cases h' : (d.lastOf At.declFile Val.fileName).getD none with
        | none => exact absurd h' h
        | some _ => rfl
    · intro h
      simp only [overrideDetVar]
      rw [if_neg]
      rw [hf, h]; simp
    · simp only [overrideDetVar]; rw [hn.address, override_or]
    · simp only [overrideDetVar]; rw [hn.size, override_or]
    · simp only [overrideDetVar]; rw [hn.locations]
  · rw [(ownDetVar_eq asz d).2 he] at h
    cases h


/-! ### The attributes of an inlined call -/

/-- The attribute that plays the part of a source attribute for a call. -/
def callAt : At → At
  | .callFile => .declFile
  | .callLine => .declLine
  | .callColumn => .declColumn
  | _ => .other

/-- An entry whose source attributes are the call attributes of the given one. -/
def callDie (d : Die) : Die := .node d.offset d.tag (d.attrs.map fun av => (callAt av.1, av.2)) d.children

theorem callDie_lastOf {α : Type} (d : Die) (a b : At) (f : Val → Option α) (h : ∀ c, callAt c = b ↔ c = a) :
    (callDie d).lastOf b f = d.lastOf a f := by
  unfold Die.lastOf Die.lastBy callDie Die.attrs
  rw [List.filterMap_map]
  congr 2
  funext av
  simp only [Function.comp]
  by_cases hc : av.1 = a
  · rw [if_pos hc, if_pos ((h _).2 hc)]
  · rw [if_neg hc, if_neg fun x => hc ((h _).1 x)]

theorem inlState_eq (d : Die) :
    let s := inlState d
    s.origin = d.lastOf .abstractOrigin Val.offset ∧ CallSays d s.callSource ∧
    s.ranges = (d.last .ranges).bind Val.rangesOf ∧ s.highPc = (d.lastOf .highPc Val.highAddr).getD none ∧
    s.size = d.lastOf .highPc Val.sizeOf ∧ s.lowPc = (d.last .lowPc).bind Val.addr := by
  simp only
  have tac : ∀ (a : At) (s : InlState) (v : Val) (P : Prop), P → P := fun _ _ _ _ h => h
  refine ⟨?_, ?_, ?_, ?_, ?_, ?_⟩
  · refine foldl_lastSome inlAttr (·.origin) .abstractOrigin Val.offset (fun s v => ?_) (fun s a v h => ?_) d _ rfl
    · simp only [inlAttr]; cases v.offset <;> rfl
    · cases a <;> first | exact absurd rfl h | rfl | (cases v <;> rfl)
  · have h1 : ∀ (l : List (At × Val)) (s : InlState), (l.foldl inlAttr s).callSource =
        (l.map fun av => (callAt av.1, av.2)).foldl (fun s av => sourceAttr s av.1 av.2) s.callSource := by
      intro l
      induction l with
      | nil => intro s; rfl
      | cons av l ih =>
        intro s
        rw [List.foldl_cons, ih, List.map_cons, List.foldl_cons]
        congr 1
        obtain ⟨a, v⟩ := av
        cases a <;> first | rfl | (cases v <;> rfl)
    have h2 := foldl_source (fun (s : Source) (av : At × Val) => sourceAttr s av.1 av.2) id (fun s av => rfl) (callDie d) {} rfl
    have h3 : (inlState d).callSource = id ((callDie d).attrs.foldl (fun (s : Source) (av : At × Val) => sourceAttr s av.1 av.2) {}) :=
      h1 d.attrs {}
    rw [h3]
    obtain ⟨a, b, c, e⟩ := h2
    rw [callDie_lastOf d .callFile .declFile _ (by intro c; cases c <;> simp [callAt])] at a b
    rw [callDie_lastOf d .callLine .declLine _ (by intro c; cases c <;> simp [callAt])] at c
    rw [callDie_lastOf d .callColumn .declColumn _ (by intro c; cases c <;> simp [callAt])] at e
    exact ⟨a, b, c, e⟩
  · refine foldl_last inlAttr (·.ranges) .ranges Val.rangesOf (fun s v => rfl) (fun s a v h => ?_) d _ rfl
    cases a <;> first | exact absurd rfl h | rfl | (cases v <;> rfl)
  · refine foldl_lastOf inlAttr (·.highPc) .highPc Val.highAddr (fun s v => ?_) (fun s a v h => ?_) d _
    · cases v <;> rfl
    · cases a <;> first | exact absurd rfl h | rfl | (cases v <;> rfl)
  · refine foldl_lastSome inlAttr (·.size) .highPc Val.sizeOf (fun s v => ?_) (fun s a v h => ?_) d _ rfl
    · cases v <;> rfl
    · cases a <;> first | exact absurd rfl h | rfl | (cases v <;> rfl)
  · refine foldl_last inlAttr (·.lowPc) .lowPc Val.addr (fun s v => rfl) (fun s a v h => ?_) d _ rfl
    cases a <;> first | exact absurd rfl h | rfl | (cases v <;> rfl)

/-- **C57** (inlined calls). The ranges of an inlined call are those its attributes describe; if
there are any, its size is the sum of their sizes; with a range list none of them is empty. -/
theorem C57_inlined (d : Die) (r : FunctionDetails) (h : InSpace d.inlinedRanges) :
    InlinedFunction.ranges' (inlRecord d r) = d.inlinedRanges ∧
    (d.inlinedRanges ≠ [] → InlinedFunction.size' (inlRecord d r) = some (totalSize d.inlinedRanges)) ∧
    (d.lastOf .highPc Val.sizeOf ≠ some 0 → ∀ x ∈ d.inlinedRanges, x.lo < x.hi) := by
  obtain ⟨-, -, h1, h2, h3, h4⟩ := inlState_eq d
  simp only [inlRecord, InlinedFunction.ranges', InlinedFunction.size']
  unfold inlRanges
  unfold Die.inlinedRanges at h ⊢
  rw [h1, h2, h3, h4]
  obtain ⟨hs, ht⟩ := h
  cases hr : (d.last .ranges).bind Val.rangesOf with
  | some rs =>
    rw [hr] at hs ht
    simp only at hs ht ⊢
    refine ⟨trivial, fun _ => ?_, fun _ x hx => by simpa using (List.mem_filter.1 hx).2⟩
    unfold totalSize at ht
    unfold totalSize optNew
    have e : (rs.filter fun r => decide (r.hi > r.lo)) = rs.filter fun r => decide (r.lo < r.hi) := rfl
    rw [e, Nat.mod_eq_of_lt (by omega), if_neg (by omega)]
  | none =>
    rw [hr] at hs ht
    simp only at hs ht ⊢
    cases h5 : d.lastOf .highPc Val.sizeOf with
    | some n =>
      rw [h5] at hs ht
      cases h6 : (d.last .lowPc).bind Val.addr with
      | some lo =>
        rw [h6] at hs ht
        simp only at hs ht ⊢
        have := hs ⟨lo, lo + n⟩ List.mem_cons_self
        simp only at this
        rw [Nat.mod_eq_of_lt this]
        refine ⟨rfl, fun _ => ?_, fun hn x hx => ?_⟩
        · simp only [totalSize, List.map_cons, List.map_nil, List.sum_cons, List.sum_nil, Nat.add_zero, Nat.add_sub_cancel_left] at ht ⊢
          exact optNew_of_lt ht
        · rw [List.mem_singleton] at hx; subst hx
          simp only
          have : n ≠ 0 := fun h => hn (by rw [h])
          omega
      | none => exact ⟨rfl, fun h => absurd rfl h, fun _ x hx => by simp at hx⟩
    | none =>
      rw [h5] at hs ht
      cases h6 : (d.last .lowPc).bind Val.addr with
      | some lo =>
        rw [h6] at hs ht
        cases h7 : (d.lastOf .highPc Val.highAddr).getD none with
        | some hi =>
          rw [h7] at hs ht
          simp only at hs ht ⊢
          by_cases hlt : lo < hi
          · simp only [hlt, if_true] at hs ht ⊢
            have := hs ⟨lo, hi⟩ List.mem_cons_self
            simp only at this
            refine ⟨trivial, fun _ => ?_, fun _ x hx => ?_⟩
            · simp only [totalSize, List.map_cons, List.map_nil, List.sum_cons, List.sum_nil, Nat.add_zero] at ht ⊢
              rw [show (hi + 2 ^ 64 - lo) % 2 ^ 64 = hi - lo by omega]
              exact optNew_of_lt ht
            · rw [List.mem_singleton] at hx; subst hx; exact hlt
          · simp only [hlt, if_false]
            exact ⟨trivial, fun h => absurd rfl h, fun _ x hx => by simp at hx⟩
        | none => exact ⟨rfl, fun h => absurd rfl h, fun _ x hx => by simp at hx⟩
      | none => exact ⟨rfl, fun h => absurd rfl h, fun _ x hx => by simp at hx⟩

/-! ### The walk over the children -/

theorem Steps.append {α σ : Type} {R : α → σ → σ → Prop} {ds es : List α} {s t u : σ} (h : Steps R ds s t) (h' : Steps R es t u) :
    Steps R (ds ++ es) s u := by
  induction h with
  | nil => exact h'
  | cons a _ ih => exact .cons a (ih h')

theorem Steps.one {α σ : Type} {R : α → σ → σ → Prop} {d : α} {s t : σ} (h : R d s t) : Steps R [d] s t := .cons h .nil

theorem tagged_append (t : Tag) (a b : List Die) : tagged t (a ++ b) = tagged t a ++ tagged t b := List.filter_append ..

theorem tagged_scope (o : Nat) (tag t : Tag) (attrs : List (At × Val)) (cs : List Die) (h : tag ≠ .lexicalBlock) :
    tagged t (scopeDies (.node o tag attrs cs)) = if tag = t then [.node o tag attrs cs] else [] := by
  unfold scopeDies
  rw [if_neg h]
  unfold tagged
  simp only [List.filter_cons, Die.tag, List.filter_nil]
  by_cases ht : tag = t <;> simp [ht]

/-- The parameters looked at: those at the top. -/
def topParams (top : Bool) (ds : List Die) : List Die := if top then tagged .formalParameter ds else []

theorem topParams_cons (top : Bool) (d : Die) (ds : List Die) : topParams top (d :: ds) = topParams top [d] ++ topParams top ds := by
  unfold topParams
  cases top
  · rfl
  · exact tagged_append .formalParameter [d] ds

theorem topParams_one (top : Bool) (o : Nat) (tag : Tag) (attrs : List (At × Val)) (cs : List Die) (h : tag ≠ .formalParameter ∨ top = false) :
    topParams top [.node o tag attrs cs] = [] := by
  unfold topParams tagged
  rcases h with h | h
  · cases top <;> simp [Die.tag, h]
  · simp [h]

mutual
theorem absWalk_spec (asz : Nat) (top : Bool) : ∀ (d : Die) (s t : List Parameter × List LocalVariable), absWalk asz top d s = some t →
    Steps (ParamJoin asz) (topParams top [d]) s.1 t.1 ∧ Steps (VarJoin asz) (tagged .variable (scopeDies d)) s.2 t.2
  | .node o tag attrs cs, s, t, h => by
    unfold absWalk at h
    split at h
    · rw [tagged_scope _ _ _ _ _ (by simp)]
      split at h
      · next ht =>
        obtain ⟨ps, hps, rfl⟩ := Option.map_eq_some_iff.1 h
        refine ⟨?_, .nil⟩
        have : topParams top [.node o .formalParameter attrs cs] = [.node o .formalParameter attrs cs] := by rw [ht]; rfl
        rw [this]
        exact .one (C56_parameter asz _ _ _ hps)
      · next ht =>
        cases h
        rw [topParams_one _ _ _ _ _ (.inr (by simpa using ht))]
        exact ⟨.nil, .nil⟩
    · obtain ⟨vs, hvs, rfl⟩ := Option.map_eq_some_iff.1 h
      rw [tagged_scope _ _ _ _ _ (by simp), topParams_one _ _ _ _ _ (.inl (by simp))]
      exact ⟨.nil, .one (C56_variable asz _ _ _ hvs)⟩
    · have := absWalkAll_spec asz false cs s t h
      rw [topParams_one _ _ _ _ _ (.inl (by simp))]
      unfold scopeDies
      rw [if_pos rfl]
      exact this
    · next h1 h2 h3 =>
      cases h
      rw [tagged_scope _ _ _ _ _ (fun h => h3 h), topParams_one _ _ _ _ _ (.inl fun h => h1 h), if_neg fun h => h2 h]
      exact ⟨.nil, .nil⟩
theorem absWalkAll_spec (asz : Nat) (top : Bool) : ∀ (ds : List Die) (s t : List Parameter × List LocalVariable), absWalkAll asz top ds s = some t →
    Steps (ParamJoin asz) (topParams top ds) s.1 t.1 ∧ Steps (VarJoin asz) (tagged .variable (scopeAll ds)) s.2 t.2
  | [], s, t, h => by
    unfold absWalkAll at h; cases h
    cases top <;> exact ⟨.nil, .nil⟩
  | d :: ds, s, t, h => by
    unfold absWalkAll at h
    obtain ⟨u, hu, ht⟩ := Option.bind_eq_some_iff.1 h
    have h1 := absWalk_spec asz top d s u hu
    have h2 := absWalkAll_spec asz top ds u t ht
    rw [topParams_cons]
    unfold scopeAll
    rw [tagged_append]
    exact ⟨h1.1.append h2.1, h1.2.append h2.2⟩
end

theorem abstractStart_spec (lk : Lookup) (origin : Option Nat) (a : List Parameter × List LocalVariable)
    (h : abstractStart lk origin = some a) : Inherits lk origin a.1 a.2 := by
  unfold abstractStart at h
  split at h
  · cases h; exact .inr ⟨fun o h => (by cases h), rfl, rfl⟩
  · next o =>
    split at h
    · next asz d hd =>
      have := absWalkAll_spec asz true d.children _ _ h
      exact .inl ⟨o, asz, d, rfl, hd, this.1, this.2⟩
    · next hn => cases h; exact .inr ⟨fun o' h => (by cases h; exact hn), rfl, rfl⟩

theorem All2.append' {α β : Type} {R : α → β → Prop} {as cs : List α} {bs ds : List β} (h : All2 R as bs) (h' : All2 R cs ds) :
    All2 R (as ++ cs) (bs ++ ds) := by
  induction h with
  | nil => exact h'
  | cons a _ ih => exact .cons a ih

theorem callSites_append (as bs : List Die) : callSites (as ++ bs) = callSites as ++ callSites bs := List.filter_append ..

theorem callSites_scope (o : Nat) (tag : Tag) (attrs : List (At × Val)) (cs : List Die) (h : tag ≠ .lexicalBlock) :
    callSites (scopeDies (.node o tag attrs cs)) = if tag = .callSite false ∨ tag = .callSite true then [.node o tag attrs cs] else [] := by
  unfold scopeDies callSites
  rw [if_neg h]
  by_cases h' : tag = .callSite false ∨ tag = .callSite true
  · rw [if_pos h']; simp [Die.tag, h']
  · rw [if_neg h']; simp only [not_or] at h'; simp [Die.tag, h'.1, h'.2]

mutual
theorem detWalk_spec (lk : Lookup) (asz : Nat) (top : Bool) : ∀ (d : Die) (s t : FunctionDetails), detWalk lk asz top d s = some t →
    Steps (ParamJoin asz) (topParams top [d]) s.parameters t.parameters ∧
    Steps (VarJoin asz) (tagged .variable (scopeDies d)) s.variables t.variables ∧
    (∃ is, t.inlined = s.inlined ++ is ∧ All2 (InlinedOf lk asz) (tagged .inlinedSubroutine (scopeDies d)) is) ∧
    ∃ ks, t.calls = s.calls ++ ks ∧ All2 (CallOf lk asz) (callSites (scopeDies d)) ks
  | .node o tag attrs cs, s, t, h => by
    unfold detWalk at h
    split at h
    · rw [tagged_scope _ _ _ _ _ (by simp), tagged_scope _ _ _ _ _ (by simp), callSites_scope _ _ _ _ (by simp)]
      split at h
      · next ht =>
        obtain ⟨ps, hps, rfl⟩ := Option.map_eq_some_iff.1 h
        refine ⟨?_, .nil, ⟨[], by simp, .nil⟩, [], by simp, .nil⟩
        have : topParams top [.node o .formalParameter attrs cs] = [.node o .formalParameter attrs cs] := by rw [ht]; rfl
        rw [this]
        exact .one (C56_parameter asz _ _ _ hps)
      · next ht =>
        cases h
        rw [topParams_one _ _ _ _ _ (.inr (by simpa using ht))]
        exact ⟨.nil, .nil, ⟨[], by simp, .nil⟩, [], by simp, .nil⟩
    · obtain ⟨vs, hvs, rfl⟩ := Option.map_eq_some_iff.1 h
      rw [tagged_scope _ _ _ _ _ (by simp), tagged_scope _ _ _ _ _ (by simp), topParams_one _ _ _ _ _ (.inl (by simp)),
        callSites_scope _ _ _ _ (by simp)]
      exact ⟨.nil, .one (C56_variable asz _ _ _ hvs), ⟨[], by simp, .nil⟩, [], by simp, .nil⟩
    · obtain ⟨a, ha, h⟩ := Option.bind_eq_some_iff.1 h
      obtain ⟨r, hr, rfl⟩ := Option.map_eq_some_iff.1 h
      have h1 := detWalkAll_spec lk asz true cs _ r hr
      have h2 := abstractStart_spec lk _ a ha
      obtain ⟨e1, e2, -⟩ := inlState_eq (.node o .inlinedSubroutine attrs cs)
      rw [e1] at h2
      rw [tagged_scope _ _ _ _ _ (by simp), tagged_scope _ _ _ _ _ (by simp), topParams_one _ _ _ _ _ (.inl (by simp)),
        callSites_scope _ _ _ _ (by simp)]
      obtain ⟨g1, g2, ⟨is, g3, g4⟩, ks, g5, g6⟩ := h1
      refine ⟨.nil, .nil, ⟨[inlRecord (.node o .inlinedSubroutine attrs cs) r], rfl, .cons ?_ .nil⟩, [], by simp, .nil⟩
      refine .mk e1 e2 h2 g1 g2 ?_ ?_
      · have : r.inlined = is := by rw [g3]; rfl
        show All2 _ _ r.inlined
        rw [this]; exact g4
      · have : r.calls = ks := by rw [g5]; rfl
        show All2 _ _ r.calls
        rw [this]; exact g6
    · have := detWalkAll_spec lk asz false cs s t h
      rw [topParams_one _ _ _ _ _ (.inl (by simp))]
      unfold scopeDies
      rw [if_pos rfl]
      exact this
    · next gnu =>
      obtain ⟨c, hc, rfl⟩ := Option.map_eq_some_iff.1 h
      rw [tagged_scope _ _ _ _ _ (by simp), tagged_scope _ _ _ _ _ (by simp), topParams_one _ _ _ _ _ (.inl (by simp)),
        if_neg (c := Tag.callSite gnu = .variable) (by simp), if_neg (c := Tag.callSite gnu = .inlinedSubroutine) (by simp),
        callSites_scope _ _ _ _ (by simp), if_pos (c := Tag.callSite gnu = .callSite false ∨ _) (by cases gnu <;> simp)]
      exact ⟨.nil, .nil, ⟨[], by simp, .nil⟩, [c], rfl, .cons (C79_call lk asz gnu _ c rfl hc) .nil⟩
    · next h1 h2 h3 h4 h5 =>
      cases h
      rw [tagged_scope _ _ _ _ _ (fun h => h4 h), tagged_scope _ _ _ _ _ (fun h => h4 h), topParams_one _ _ _ _ _ (.inl fun h => h1 h),
        if_neg fun h => h2 h, if_neg fun h => h3 h, callSites_scope _ _ _ _ (fun h => h4 h),
        if_neg fun h => h.elim (fun h => h5 _ h) (fun h => h5 _ h)]
      exact ⟨.nil, .nil, ⟨[], by simp, .nil⟩, [], by simp, .nil⟩
theorem detWalkAll_spec (lk : Lookup) (asz : Nat) (top : Bool) : ∀ (ds : List Die) (s t : FunctionDetails), detWalkAll lk asz top ds s = some t →
    Steps (ParamJoin asz) (topParams top ds) s.parameters t.parameters ∧
    Steps (VarJoin asz) (tagged .variable (scopeAll ds)) s.variables t.variables ∧
    (∃ is, t.inlined = s.inlined ++ is ∧ All2 (InlinedOf lk asz) (tagged .inlinedSubroutine (scopeAll ds)) is) ∧
    ∃ ks, t.calls = s.calls ++ ks ∧ All2 (CallOf lk asz) (callSites (scopeAll ds)) ks
  | [], s, t, h => by
    unfold detWalkAll at h; cases h
    cases top <;> exact ⟨.nil, .nil, ⟨[], by simp, .nil⟩, [], by simp, .nil⟩
  | d :: ds, s, t, h => by
    unfold detWalkAll at h
    obtain ⟨u, hu, ht⟩ := Option.bind_eq_some_iff.1 h
    obtain ⟨a1, a2, ⟨is, a3, a4⟩, ks, a5, a6⟩ := detWalk_spec lk asz top d s u hu
    obtain ⟨b1, b2, ⟨js, b3, b4⟩, ls, b5, b6⟩ := detWalkAll_spec lk asz top ds u t ht
    rw [topParams_cons]
    unfold scopeAll
    rw [tagged_append, tagged_append, callSites_append]
    exact ⟨a1.append b1, a2.append b2, ⟨is ++ js, by rw [b3, a3, List.append_assoc], All2.append' a4 b4⟩,
      ks ++ ls, by rw [b5, a5, List.append_assoc], All2.append' a6 b6⟩
end

theorem originAttr_eq (d : Die) : d.originAttr = d.lastOf .abstractOrigin Val.offset := by
  unfold Die.originAttr
  show id (List.foldl _ none d.attrs) = _
  exact foldl_lastSome _ id .abstractOrigin Val.offset (fun s v => by simp only [if_true, id_eq]; cases v.offset <;> rfl)
    (fun s a v h => by simp [h]) d none rfl

/-- **C56** (details). The details of a function start with the parameters and local variables of its
abstract origin, to which the function's own entries, in lexical blocks too, are joined in order;
every inlined call is listed, in order, and described in the same way, and so is every call site. -/
theorem C56_details (lk : Lookup) (asz : Nat) (d : Die) (r : FunctionDetails) (h : parseDetails lk asz d = some r) :
    DetailsOf lk asz d r := by
  unfold parseDetails at h
  obtain ⟨a, ha, h⟩ := Option.bind_eq_some_iff.1 h
  have h1 := abstractStart_spec lk _ a ha
  rw [originAttr_eq] at h1
  obtain ⟨g1, g2, ⟨is, g3, g4⟩, ks, g5, g6⟩ := detWalkAll_spec lk asz true d.children _ r h
  exact ⟨⟨a.1, a.2, h1, g1, g2⟩, by rw [g3]; exact g4, by rw [g5]; exact g6⟩

/-- **C56** (details, in a file). -/
theorem C56_file {units : List RawUnit} (hp : Placed units) (us : List CompUnit) :
    (∀ (k : Nat) u d r, units[k]? = some u → d ∈ dies u.root → getDetails units us (some d.offset) = some r →
      DetailsOf (fileLookup units us) u.addressSize d r) ∧
    (∀ (k : Nat) u d, units[k]? = some u → d ∈ dies u.root → fileLookup units us d.offset = some (u.addressSize, d)) ∧
    (∀ o, (∀ u ∈ units, ∀ d ∈ dies u.root, d.offset ≠ o) → fileLookup units us o = none) := by
  refine ⟨fun k u d r hk hd h => ?_, fun k u d hk hd => ?_, fun o ho => ?_⟩
  · unfold getDetails at h
    simp only [entryAt_eq hp hk hd] at h
    exact C56_details _ _ _ _ h
  · show (entryAt units d.offset).map _ = _
    rw [entryAt_eq hp hk hd]; rfl
  · show (entryAt units o).map _ = _
    rw [entryAt_none ho]; rfl

/-! ### The number and order of parameters -/

/-- If every parameter of an inlined call has its origin among the parameters it starts with, the
parameters stay as many, in the same order. -/
theorem C56_order (asz : Nat) (ds : List Die) (ps qs : List Parameter) (h : Steps (ParamJoin asz) ds ps qs)
    (ho : ∀ d ∈ ds, ∃ o, d.lastOf .abstractOrigin Val.offset = some o ∧ some o ∈ ps.map Parameter.offset) :
    qs.map Parameter.offset = ps.map Parameter.offset := by
  induction h with
  | nil => rfl
  | @cons d ds s t u h1 h2 ih =>
    have key : t.map Parameter.offset = s.map Parameter.offset := by
      rcases h1 with ⟨o, pre, x, y, post, e1, rfl, rfl, e2, e3, e4⟩ | ⟨h1, -⟩
      · simp [e4.offset]
      · obtain ⟨o, h3, h4⟩ := ho d List.mem_cons_self
        obtain ⟨z, hz, hzo⟩ := List.mem_map.1 h4
        exact absurd hzo (h1 o h3 z hz)
    rw [ih (fun d hd => by rw [key]; exact ho d (List.mem_cons_of_mem _ hd)), key]

/-- Parameters without an origin are listed in the order of their entries, after those inherited. -/
theorem C56_appended (asz : Nat) (ds : List Die) (ps qs : List Parameter) (h : Steps (ParamJoin asz) ds ps qs)
    (ho : ∀ d ∈ ds, d.lastOf .abstractOrigin Val.offset = none) :
    ∃ ns, qs = ps ++ ns ∧ All2 (NewParam asz) ds ns := by
  induction h with
  | nil => exact ⟨[], by simp, .nil⟩
  | @cons d ds s t u h1 h2 ih =>
    obtain ⟨ns, e, ha⟩ := ih (fun d hd => ho d (List.mem_cons_of_mem _ hd))
    rcases h1 with ⟨o, pre, x, y, post, e1, -⟩ | ⟨-, y, rfl, hy⟩
    · rw [ho d List.mem_cons_self] at e1; cases e1
    · exact ⟨y :: ns, by rw [e]; simp, .cons hy ha⟩

/-! ### Totality -/

mutual
theorem absWalk_total (asz : Nat) (top : Bool) : ∀ (d : Die), (∀ e ∈ dies d, e.Evaluates asz) → ∀ s, (absWalk asz top d s).isSome
  | .node o tag attrs cs, h, s => by
    have he : (Die.node o tag attrs cs).Evaluates asz := h _ (by unfold dies; exact List.mem_cons_self)
    have hc : ∀ e ∈ diesAll cs, e.Evaluates asz := fun e he => h e (by unfold dies; exact List.mem_cons_of_mem _ he)
    unfold absWalk
    split
    · split
      · obtain ⟨p, hp, -⟩ := (ownDetParam_eq asz _).1 he
        unfold addDetParam; rw [hp]; rfl
      · rfl
    · obtain ⟨p, hp, -⟩ := (ownDetVar_eq asz _).1 he
      unfold addDetVar; rw [hp]; rfl
    · exact absWalkAll_total asz false cs hc s
    · rfl
theorem absWalkAll_total (asz : Nat) (top : Bool) : ∀ (ds : List Die), (∀ e ∈ diesAll ds, e.Evaluates asz) → ∀ s, (absWalkAll asz top ds s).isSome
  | [], _, s => rfl
  | d :: ds, h, s => by
    unfold diesAll at h
    unfold absWalkAll
    obtain ⟨t, ht⟩ := Option.isSome_iff_exists.1 (absWalk_total asz top d (fun e he => h e (List.mem_append_left _ he)) s)
    rw [ht]
    exact absWalkAll_total asz top ds (fun e he => h e (List.mem_append_right _ he)) t
end

theorem abstractStart_total (lk : Lookup) (hl : ∀ o asz d, lk o = some (asz, d) → ∀ e ∈ dies d, e.Evaluates asz) (origin : Option Nat) :
    (abstractStart lk origin).isSome := by
  unfold abstractStart
  split
  · rfl
  · split
    · next asz d hd =>
      refine absWalkAll_total asz true d.children (fun e he => hl _ _ _ hd e ?_) _
      obtain ⟨o, t, a, cs⟩ := d
      unfold dies; exact List.mem_cons_of_mem _ he
    · rfl

/-- Call sites and their parameters are returned if their expressions evaluate. -/
theorem C79_total (lk : Lookup) (asz : Nat) (gnu : Bool) (d : Die) (h : ∀ e ∈ dies d, e.CallEvaluates asz) :
    (parseCall lk asz gnu d).isSome := by
  have expr : ∀ {σ : Type} (store : List Piece → σ) (old : σ) (v : Val),
      (∀ ps e, v = .exprloc ps e → (evaluateSimple asz e).isSome) → (callExpr asz store old v).isSome := by
    intro σ store old v hv
    cases v <;> try rfl
    next ps e => simp only [callExpr, Option.isSome_map]; exact hv ps e rfl
  have param : ∀ x : Die, x.CallEvaluates asz → (parseCallParam lk asz x).isSome := by
    intro x hx
    unfold parseCallParam
    rw [Option.isSome_map]
    refine foldlM_isSome _ _ ?_ _
    rintro s ⟨a, v⟩ hb
    have hx := hx _ hb
    cases a
    case call c =>
      cases c <;> simp only [callParamAttr] <;>
        first
          | rfl
          | exact expr _ _ _ (hx (by simp))
          | (cases v.offset <;> rfl)
    all_goals
      simp only [callParamAttr]
      first
        | rfl
        | exact expr _ _ _ (hx (by simp))
        | (cases v.offset <;> rfl)
  have self : d ∈ dies d := by obtain ⟨o, t, a, cs⟩ := d; unfold dies; exact List.mem_cons_self
  have kid : ∀ x ∈ d.children, x ∈ dies d := by
    obtain ⟨o, t, a, cs⟩ := d
    intro x hx
    unfold dies
    refine List.mem_cons_of_mem _ ?_
    simp only [Die.children] at hx
    clear self h
    induction cs with
    | nil => simp at hx
    | cons y ys ih =>
      unfold diesAll
      rcases List.mem_cons.1 hx with rfl | hx
      · refine List.mem_append_left _ ?_
        obtain ⟨o, t, a, cs⟩ := x; unfold dies; exact List.mem_cons_self
      · exact List.mem_append_right _ (ih hx)
  unfold parseCall
  have h1 : (d.attrs.foldlM (callAttr lk asz gnu) {}).isSome := by
    refine foldlM_isSome _ _ ?_ _
    rintro s ⟨a, v⟩ hb
    have hx := h d self _ hb
    cases a
    case call c =>
      cases c <;> simp only [callAttr] <;>
        first
          | rfl
          | (rw [Option.isSome_map]; exact expr _ _ _ (hx (by simp)))
          | (cases callOrigin lk v <;> rfl)
    case lowPc => simp only [callAttr]; cases gnu <;> first | rfl | (cases v.addr <;> rfl)
    all_goals
      simp only [callAttr]
      first
        | rfl
        | (cases callOrigin lk v <;> rfl)
        | (cases v.offset <;> rfl)
  obtain ⟨c, hc⟩ := Option.isSome_iff_exists.1 h1
  rw [hc]
  simp only [Option.bind_some, Option.isSome_map]
  have : ∀ l : List Die, (∀ x ∈ l, (parseCallParam lk asz x).isSome) → (l.mapM (parseCallParam lk asz)).isSome := by
    intro l hl
    induction l with
    | nil => rfl
    | cons x l ih =>
      obtain ⟨p, hp⟩ := Option.isSome_iff_exists.1 (hl x List.mem_cons_self)
      obtain ⟨ps, hps⟩ := Option.isSome_iff_exists.1 (ih fun y hy => hl y (List.mem_cons_of_mem _ hy))
      rw [List.mapM_cons, hp, hps]; rfl
  exact this _ fun x hx => param x (h x (kid x ((List.mem_filter.1 hx).1)))

mutual
theorem detWalk_total (lk : Lookup) (hl : ∀ o asz d, lk o = some (asz, d) → ∀ e ∈ dies d, e.Evaluates asz) (asz : Nat) (top : Bool) :
    ∀ (d : Die), (∀ e ∈ dies d, e.Evaluates asz ∧ e.CallEvaluates asz) → ∀ s, (detWalk lk asz top d s).isSome
  | .node o tag attrs cs, h, s => by
    have he : (Die.node o tag attrs cs).Evaluates asz := (h _ (by unfold dies; exact List.mem_cons_self)).1
    have hc : ∀ e ∈ diesAll cs, e.Evaluates asz ∧ e.CallEvaluates asz := fun e he => h e (by unfold dies; exact List.mem_cons_of_mem _ he)
    unfold detWalk
    split
    · split
      · obtain ⟨p, hp, -⟩ := (ownDetParam_eq asz _).1 he
        unfold addDetParam; rw [hp]; rfl
      · rfl
    · obtain ⟨p, hp, -⟩ := (ownDetVar_eq asz _).1 he
      unfold addDetVar; rw [hp]; rfl
    · obtain ⟨a, ha⟩ := Option.isSome_iff_exists.1 (abstractStart_total lk hl (inlState (.node o .inlinedSubroutine attrs cs)).origin)
      rw [ha]
      simp only [Option.bind_some, Option.isSome_map]
      exact detWalkAll_total lk hl asz true cs hc _
    · exact detWalkAll_total lk hl asz false cs hc s
    · rw [Option.isSome_map]
      exact C79_total lk asz _ _ fun e he => (h e he).2
    · rfl
theorem detWalkAll_total (lk : Lookup) (hl : ∀ o asz d, lk o = some (asz, d) → ∀ e ∈ dies d, e.Evaluates asz) (asz : Nat) (top : Bool) :
    ∀ (ds : List Die), (∀ e ∈ diesAll ds, e.Evaluates asz ∧ e.CallEvaluates asz) → ∀ s, (detWalkAll lk asz top ds s).isSome
  | [], _, s => rfl
  | d :: ds, h, s => by
    unfold diesAll at h
    unfold detWalkAll
    obtain ⟨t, ht⟩ := Option.isSome_iff_exists.1 (detWalk_total lk hl asz top d (fun e he => h e (List.mem_append_left _ he)) s)
    rw [ht]
    exact detWalkAll_total lk hl asz top ds (fun e he => h e (List.mem_append_right _ he)) t
end

/-- **C56** (totality). If no location expression makes the evaluation panic, the details of every
function are returned. -/
theorem C56_total (units : List RawUnit) (us : List CompUnit)
    (h : ∀ u ∈ units, ∀ d ∈ dies u.root, ∀ e ∈ dies d, e.Evaluates u.addressSize ∧ e.CallEvaluates u.addressSize)
    (offset : Option Nat) : ∃ r, getDetails units us offset = some r := by
  unfold getDetails
  have found : ∀ o u d, entryAt units o = some (u, d) → u ∈ units ∧ d ∈ dies u.root := by
    intro o u d ho
    unfold entryAt at ho
    obtain ⟨p, _, ho⟩ := Option.bind_eq_some_iff.1 ho
    obtain ⟨u', hu, ho⟩ := Option.bind_eq_some_iff.1 ho
    obtain ⟨d', hd, ho⟩ := Option.map_eq_some_iff.1 ho
    cases ho
    exact ⟨List.mem_of_getElem? hu, List.mem_of_find?_eq_some hd⟩
  have hl : ∀ o asz d, fileLookup units us o = some (asz, d) → ∀ e ∈ dies d, e.Evaluates asz := by
    intro o asz d ho
    change (entryAt units o).map _ = _ at ho
    obtain ⟨⟨u, d'⟩, hu, ho⟩ := Option.map_eq_some_iff.1 ho
    cases ho
    obtain ⟨a, b⟩ := found o u _ hu
    exact fun e he => (h u a _ b e he).1
  split
  · exact ⟨_, rfl⟩
  · split
    · next u d hd =>
      obtain ⟨a, b⟩ := found _ u d hd
      have hev := h u a d b
      unfold parseDetails
      obtain ⟨s, hs⟩ := Option.isSome_iff_exists.1 (abstractStart_total _ hl d.originAttr)
      rw [hs]
      refine Option.isSome_iff_exists.1 (detWalkAll_total _ hl _ true d.children (fun e he => hev e ?_) _)
      obtain ⟨o, t, at', cs⟩ := d
      unfold dies; exact List.mem_cons_of_mem _ he
    · exact ⟨_, rfl⟩

/-! ### Examples -/

/-- A file: an abstract function (5) with two parameters and a variable in a block; a function (10)
that inlines it (11), giving a location to the second parameter and to the variable, and in it a
nested call (14) whose origin is missing. -/
def fileC : List RawUnit :=
  [{ extent := ⟨0, 0, 100⟩
     root := .node 1 .other []
       [.node 5 .subprogram [(.inline, .inline true)]
          [.node 6 .formalParameter [(.name, .string (some (Str.ofString "a"))), (.type, .ref 2)] [],
           .node 7 .formalParameter [(.name, .string (some (Str.ofString "b")))] [],
           .node 8 .lexicalBlock [] [.node 9 .variable [(.name, .string (some (Str.ofString "v")))] []]],
        .node 10 .subprogram []
          [.node 11 .inlinedSubroutine [(.abstractOrigin, .ref 5), (.callLine, .udata 3), (.lowPc, .address 16), (.highPc, .udata 4)]
             [.node 12 .formalParameter [(.abstractOrigin, .ref 7), (.location, .exprloc [] [.register 3])] [],
              .node 13 .lexicalBlock []
                [.node 14 .inlinedSubroutine [(.abstractOrigin, .ref 99)] [],
                 .node 15 .variable [(.abstractOrigin, .ref 9), (.location, .exprloc [] [.address 64])] []]]]] }]

/-- The names of the parameters, and how many locations each has, of the inlined calls. -/
def inlinedNames (r : FunctionDetails) : List (List (Option Str)) := r.inlined.map fun f => f.parameters.map (·.name)
/-- How many locations each parameter has. -/
def inlinedLocs (r : FunctionDetails) : List (List Nat) := r.inlined.map fun f => f.parameters.map (·.locations.length)

example : ((getDetails fileC [] (some 10)).map inlinedNames).getD [] = [[some (Str.ofString "a"), some (Str.ofString "b")]] := by decide +kernel
example : (getDetails fileC [] (some 10)).map inlinedLocs = some [[0, 1]] := by decide +kernel
example : (getDetails fileC [] (some 10)).map (fun r => r.inlined.map fun f => f.variables.map (·.address)) = some [[some 64]] := by decide +kernel
example : (getDetails fileC [] (some 10)).map (fun r => r.inlined.map fun f => (f.inlined.map InlinedFunction.origin', InlinedFunction.size' f)) =
    some [([some 99], some 4)] := by decide +kernel

example : Placed fileC := by
  refine ⟨?_, ?_, ?_⟩
  · intro i j u v hi hj hij
    have : ∀ k w, fileC[k]? = some w → k = 0 := by
      intro k w h; cases k with
      | zero => rfl
      | succ k => simp [fileC] at h
    rw [this i u hi, this j v hj] at hij; exact absurd rfl hij
  · intro u hu d hd
    simp only [fileC, List.mem_singleton] at hu; subst hu
    simp only [dies, diesAll, List.mem_cons, List.mem_append, List.not_mem_nil, or_false] at hd
    rcases hd with rfl | h
    · exact ⟨by decide, by decide⟩
    · have : ∀ e ∈ [5, 6, 7, 8, 9, 10, 11, 12, 13, 14, 15], 0 ≤ e ∧ e < 100 := by decide
      refine this d.offset ?_
      simp only [or_assoc] at h
      rcases h with rfl | rfl | rfl | rfl | rfl | rfl | rfl | rfl | rfl | rfl | rfl <;> decide
  · intro u hu
    simp only [fileC, List.mem_singleton] at hu; subst hu
    decide +kernel

/-- A file: a function (5) with a parameter (6) and a local variable (7) that holds the address of a
function; in it a call of itself (8), with an argument in register 5 whose value is 16, a tail call
through the local variable (10) and an older call site (11). -/
def fileCalls : List RawUnit :=
  [{ extent := ⟨0, 0, 100⟩
     root := .node 1 .other []
       [.node 5 .subprogram []
          [.node 6 .formalParameter [(.name, .string (some (Str.ofString "a"))), (.type, .ref 2)] [],
           .node 7 .variable [] [],
           .node 8 (.callSite false) [(.call .returnPc, .address 20), (.call .origin, .ref 5), (.callLine, .udata 3)]
             [.node 9 .callSiteParameter [(.location, .exprloc [] [.register 5]), (.call .value, .exprloc [] [.address 16]),
               (.call .parameter, .ref 6)] []],
           .node 12 .lexicalBlock []
             [.node 10 (.callSite false) [(.call .origin, .ref 7), (.call .tail, .udata 1),
                (.call (.target true), .exprloc [] [.register 3])] [],
              .node 11 (.callSite true) [(.lowPc, .address 30), (.abstractOrigin, .ref 6)] []]]] }]

/-- The parsed functions of the file. -/
def unitsCalls : List CompUnit := [{ functions := [{ offset := some 5 }] }]

example : (getDetails fileCalls unitsCalls (some 5)).map (fun r => r.calls.map fun c => c.origin) =
    some [some (.direct { offset := some 5 }), some (.indirect (.localVariable (some 7))), some (.indirect (.parameter (some 6)))] := by
  decide +kernel
example : (getDetails fileCalls unitsCalls (some 5)).map (fun r => r.calls.map fun c => (c.kind, c.returnAddress, c.targetIsClobbered)) =
    some [(.normal, some 20, false), (.tail, none, true), (.normal, some 30, false)] := by decide +kernel
example : (getDetails fileCalls unitsCalls (some 5)).map (fun r => r.calls.map fun c => c.parameters.map fun p => (p.name, p.ty, p.location.length)) =
    some [[(some (Str.ofString "a"), some (some 2), 1)], [], []] := by rfl

end Verif.Dwarf
