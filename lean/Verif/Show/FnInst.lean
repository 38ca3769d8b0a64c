import Verif.Show.FnRel
/-!
# Two relations between a diff of functions and the listings
-/
namespace Verif.Show
open Verif.Print Verif.Item Verif.Namespace Verif.Types Verif.Path Verif.Opts Verif.Merge Verif.Range
  Verif.Frame

theorem bracketed_ne (n : Option Nat) : bracketed n ≠ [] := by
  cases n <;> simp [bracketed, k, Str.ofString]

theorem paramVal_ne (s : FnSide) (p : Parameter) : (paramVal s p).text' ≠ [] := by
  simp [paramVal, vals, Val.text', bracketed_ne]
theorem localVal_ne (s : FnSide) (v : LocalVariable) : (localVal s v).text' ≠ [] := by
  simp [localVal, vals, Val.text', bracketed_ne]
theorem inlinedVal_ne (s : FnSide) (f : InlinedFunction) : (inlinedVal s f).text' ≠ [] := by
  simp [inlinedVal, vals, Val.text', bracketed_ne]
theorem rangeSizeText_ne (r : Range) : rangeSizeText r ≠ [] := by
  unfold rangeSizeText; split <;> simp [k, Str.ofString]
theorem callHeader_ne (s : FnSide) (f : FunctionCall) : (callHeader s f).text' ≠ [] := by
  unfold callHeader
  cases f.kind <;> simp [vals, Val.text', k, Str.ofString]

theorem inlinedP_ls_ne {o : Options} {s : FnSide} {dir : Option Str} {n : Nat} {f : InlinedFunction} {p : P}
    (h : inlinedP o s dir n f = some p) (http : Bool) (i : Nat) (x : DiffPrefix) (d : Nat) : p.ls http i x d ≠ [] := by
  cases n with
  | zero => cases h
  | succ n =>
    simp only [inlinedP, Option.bind_eq_bind, Option.bind_eq_some_iff, Option.some.injEq] at h
    obtain ⟨_, _, _, _, rfl⟩ := h
    simp [P.ls, inlinedVal_ne]

/-- What is listed for at most one location. -/
theorem printLocs_short (l : List FrameLocation) (h : ¬ (sortDedup cmpLoc l).length > 1) (http : Bool) (i : Nat)
    (x : DiffPrefix) (d : Nat) :
    (P.line stackFrame (firstVal (sortDedup cmpLoc l).head?)).ls http i x d = (printLocs l).ls http i x d := by
  unfold printLocs
  match sortDedup cmpLoc l, h with
  | [], _ => simp [firstVal, P.ls, Val.text']
  | [a], _ => simp [firstVal]
  | a :: b :: l, h => simp at h

/-- What is listed for several locations, or none. -/
theorem printLocs_long (l : List FrameLocation) (h : (sortDedup cmpLoc l).length ≠ 1) (http : Bool) (i : Nat)
    (x : DiffPrefix) (d : Nat) :
    (P.field false stackFrame (.seqs ((sortDedup cmpLoc l).map fun l => .line [] (locVal l)))).ls http i x d =
      (printLocs l).ls http i x d := by
  unfold printLocs
  match sortDedup cmpLoc l, h with
  | [], _ => simp [P.ls, P.seqs]
  | [a], h => simp at h
  | a :: b :: l, h => rfl

theorem oneLoc_iff (l : List FrameLocation) : OneLoc l ↔ ¬ (sortDedup cmpLoc l).length > 1 := by
  rw [two_iff]
  unfold OneLoc
  constructor
  · rintro h ⟨x, hx, y, hy, hne⟩; exact hne (h x hx y hy)
  · intro h x hx y hy; exact Classical.byContradiction fun hne => h ⟨x, hx, y, hy, hne⟩

/-! ### Unreported means equal -/

/-- When the diff reports nothing (or writes nothing), the two listings are the same lines. -/
def Agree (po : Print.Opts) (e : D) (p q : P) : Prop :=
  ∀ i x d, ((e.den po i x d).1 = [] ∨ (e.den po i x d).2.1 = false) → ∀ y, p.ls po.http i y d = q.ls po.http i y d

theorem Agree.refl (po : Print.Opts) (e : D) (p : P) : Agree po e p p := fun _ _ _ _ _ => rfl

theorem Agree.line (po : Print.Opts) (l : Str) (a b : Val) : Agree po (.line l a b) (.line l a) (.line l b) := by
  intro i x d h y
  exact D.den_silent po (.line l a b) i x y d h

theorem agree_closed (po : Print.Opts) : Closed po.http (Agree po) where
  skip := Agree.refl _ _ _
  lineBreak := Agree.refl _ _ _
  line := Agree.line po
  seq := by
    intro e e' p p' q q' h h' i x d hs y
    simp only [D.den, List.append_eq_nil_iff, Bool.or_eq_false_iff] at hs
    simp only [P.ls]
    rw [h i x d (hs.imp (·.1) (·.1)), h' i (e.den po i x d).2.2 d (hs.imp (·.2) (·.2))]
  indent := by
    intro c e e' p p' q q' h h' i x d hs y
    simp only [D.den] at hs
    simp only [P.ls]
    split at hs
    · rename_i h0
      rw [h i x d hs, h' (i + 1) .equal d (.inl h0)]
    · rename_i h0
      simp only [List.append_eq_nil_iff, h0, and_false, false_or, Bool.or_eq_false_iff] at hs
      rw [h i _ d (.inr hs.2), h' (i + 1) .equal d (.inr hs.1)]
  field := by
    intro c l e p q h i x d hs y
    simp only [D.den] at hs
    simp only [P.ls]
    split at hs
    · rename_i h0
      rw [h (i + 1) .equal d (.inl h0)]
    · rename_i h0
      simp only [reduceCtorEq, false_or] at hs
      rw [h (i + 1) .equal d (.inr hs)]
  id := by
    intro n m k e e' p p' q q' h h' i x d hs y
    simp only [D.den, List.append_eq_nil_iff, Bool.or_eq_false_iff] at hs
    simp only [P.ls]
    rw [h i _ d (hs.imp (·.1) (·.2)), h' (i + 1) .equal d (hs.imp (·.2) (·.1))]
  inline := by
    intro e p q h i x d hs y
    simp only [D.den] at hs
    simp only [P.ls]
    split
    · rfl
    · rename_i h0
      simp only [h0, if_false] at hs
      exact h i x (d - 1) hs y
  del := by
    intro p i x d hs y
    exact D.den_silent po (.prefixDelete p) i x y d hs
  add := by
    intro p i x d hs y
    exact D.den_silent po (.prefixAdd p) i x y d hs
  congr := by
    intro e p q p' q' h hp hq i x d hs y
    rw [← hp, ← hq]
    exact h i x d hs y

theorem Agree.ignore {po : Print.Opts} (f : Bool) {e : D} {p q : P} (h : Agree po e p q) :
    Agree po (.ignoreDiff f e) (leftOut f p) (leftOut f q) := by
  cases f
  · intro i x d hs y
    simp only [D.den, Bool.false_eq_true, if_false] at hs
    exact h i x d hs y
  · exact Agree.refl _ _ _

theorem Agree.shown {po : Print.Opts} {p q : P} (b : Bool) (h : ∀ i x d, p.ls po.http i x d ≠ []) :
    (Agree po (.prefixDelete p) q .skip) ∧ (Agree po (.prefixAdd p) .skip q) := by
  constructor
  all_goals
    intro i x d hs y
    simp only [D.den, Bool.true_eq_false, or_false] at hs
    exact absurd hs (h _ _ _)

theorem diffLocs_visible (http : Bool) (a b : List FrameLocation) : (diffLocs a b).Visible http := by
  unfold diffLocs
  simp only
  split
  · refine D.visible_seqs fun e he => ?_
    simp only [List.mem_map] at he
    obtain ⟨it, -, rfl⟩ := he
    cases it with
    | both => trivial
    | left a => exact (Shown.line [] (locVal_ne a)).visible http
    | right a => exact (Shown.line [] (locVal_ne a)).visible http
  · trivial

theorem Agree.locs (po : Print.Opts) (a b : List FrameLocation) (hb : OneLoc b) :
    Agree po (diffLocs a b) (printLocs a) (printLocs b) := by
  intro i x d hs y
  have hf : (diffLocs a b).flag po i x d = false := by
    rw [D.flag_eq]
    rcases hs with hs | hs
    · cases hh : ((diffLocs a b).den po i x d).2.1 with
      | false => rfl
      | true =>
        obtain ⟨l, hl, -⟩ := D.den_flagged po _ (diffLocs_visible po.http a b) i x d hh
        rw [hs] at hl
        cases hl
    · exact hs
  by_cases h2 : (sortDedup cmpLoc a).length > 1
  · have := C54_many po a b ((two_iff a).1 h2) i x d
    rw [hf] at this
    have hall : ∀ l, l ∈ a ↔ l ∈ b := by
      intro l
      refine Classical.byContradiction fun hn => ?_
      exact absurd (this.2 ⟨l, hn⟩) (by simp)
    unfold printLocs
    rw [sortDedup_congr (cmp := cmpLoc) a b hall]
  · rw [← printLocs_short a h2, ← printLocs_short b ((oneLoc_iff b).1 hb)]
    have he : diffLocs a b = .line stackFrame (firstVal (sortDedup cmpLoc a).head?) (firstVal (sortDedup cmpLoc b).head?) := by
      unfold diffLocs
      simp only
      rw [if_neg (by simpa using h2)]
    rw [he] at hs
    exact Agree.line po _ _ _ i x d hs y

theorem Closed.rangeItems {http : Bool} {R : D → P → P → Prop} (hR : Closed http R) (ra rb : List Range) :
    R (D.ofItems (fun r => .line [] (.text (rangeSizeText r))) (fun r => .line [] (.text (rangeSizeText r)))
      (fun x y => .line [] (.text (rangeSizeText x)) (.text (rangeSizeText y)))
      (merged cmpRange ra rb (ra.length + rb.length)))
      (.seqs (ra.map fun r => .line [] (.text (rangeSizeText r)))) (.seqs (rb.map fun r => .line [] (.text (rangeSizeText r)))) := by
  have hc := C18_complete cmpRange ra rb (ra.length + rb.length) (Nat.le_refl _)
  generalize hit : merged cmpRange ra rb (ra.length + rb.length) = items at hc ⊢
  have hmap : items.mapM (itemD (fun r => some (.line [] (.text (rangeSizeText r)))) (fun r => some (.line [] (.text (rangeSizeText r))))
      (fun x y => some (D.line [] (.text (rangeSizeText x)) (.text (rangeSizeText y))))) =
      some (items.map (listItem (fun r => .line [] (.text (rangeSizeText r))) (fun r => .line [] (.text (rangeSizeText r)))
        (fun x y => .line [] (.text (rangeSizeText x)) (.text (rangeSizeText y))))) := by
    clear hc hit
    induction items with
    | nil => rfl
    | cons it items ih =>
      rw [List.mapM_cons, ih]
      cases it <;> rfl
  obtain ⟨p, q, hp, hq, h⟩ := hR.items (shown := fun r => some (.line [] (.text (rangeSizeText r))))
    (shown' := fun r => some (.line [] (.text (rangeSizeText r)))) items hmap
    (fun a _ p hp => ⟨p, hp, hR.del p⟩) (fun a _ p hp => ⟨p, hp, hR.add p⟩)
    (fun a b _ e he => by cases he; exact ⟨_, _, rfl, rfl, hR.line ..⟩)
  rw [hc.1, listP_map] at hp
  rw [hc.2, listP_map] at hq
  cases hp
  cases hq
  exact h

theorem rangeLines (http : Bool) (l : List Range) (i : Nat) (x : DiffPrefix) (d : Nat) :
    (P.seqs (l.map fun r => .line [] (.text (rangeSizeText r)))).ls http i x d =
      l.map fun r => .line x i [] (rangeSizeText r) := by
  rw [P.ls_seqs]
  induction l with
  | nil => rfl
  | cons a l ih => simp [P.ls, Val.text', rangeSizeText_ne]; simpa [P.ls, Val.text', rangeSizeText_ne] using ih

theorem rangesD_visible (http : Bool) (ra rb : List Range) : (rangesD ra rb).Visible http := by
  unfold rangesD
  split
  · refine D.visible_seqs fun e he => ?_
    simp only [List.mem_map] at he
    obtain ⟨it, -, rfl⟩ := he
    cases it with
    | both => trivial
    | left a => exact (Shown.line [] (by simpa [Val.text'] using rangeSizeText_ne a)).visible http
    | right a => exact (Shown.line [] (by simpa [Val.text'] using rangeSizeText_ne a)).visible http
  · trivial

theorem Agree.ranges (po : Print.Opts) (ra rb : List Range) : Agree po (rangesD ra rb) (rangesP ra) (rangesP rb) := by
  unfold rangesD
  split
  · rename_i hm
    have hR := agree_closed po
    have h0 := hR.rangeItems ra rb
    intro i x d hs y
    have hf := hR.field true (k "addresses") h0 i x d hs
    have hlen : ra.length = rb.length := by
      have := hf y
      simp only [P.ls, rangeLines, List.map_eq_nil_iff] at this
      by_cases h1 : ra = [] <;> by_cases h2 : rb = []
      · simp [h1, h2]
      · simp [h1, h2] at this
      · simp [h1, h2] at this
      · simp only [h1, h2, if_false, List.cons.injEq, true_and] at this
        have := congrArg List.length this
        simpa using this
    have ha : ra.length > 1 := by omega
    have hb : rb.length > 1 := by omega
    rw [rangesP, if_pos ha, rangesP, if_pos hb]
    exact hf y
  · rename_i hm
    rw [rangesP, if_neg (by omega), rangesP, if_neg (by omega)]
    exact Agree.line _ _ _ _

theorem agree_fn (po : Print.Opts) (o : Options) :
    FnClosed po.http o (ignoredBy o) (Agree po) (fun _ => True) OneLoc (fun _ => True) (fun _ => True) (fun _ _ => True) where
  toClosed := agree_closed po
  variableAddress := fun h => h.ignore _
  linkageName := fun h => h.ignore _
  symbolName := fun h => h.ignore _
  size := fun h => h.ignore _
  inlined := fun h => h.ignore _
  address := fun {ra rb} _ => (Agree.ranges po ra rb).ignore _
  locs := fun {la lb} _ hb => Agree.locs po la lb hb
  locals := fun _ _ h => h
  delLocal := fun s v => (Agree.shown true (by intro i x d; simp [localP, P.ls, localVal_ne])).1
  addLocal := fun s v => (Agree.shown true (by intro i x d; simp [localP, P.ls, localVal_ne])).2
  delInlined := fun s dir n f p p' hp _ => (Agree.shown true (fun i x d => inlinedP_ls_ne hp po.http i x d)).1
  addInlined := fun s dir n f p p' hp _ => (Agree.shown true (fun i x d => inlinedP_ls_ne hp po.http i x d)).2
  insns := fun _ _ _ _ _ _ _ => Agree.refl _ _ _

/-! ### Both listings are in the diff -/

/-- A way of comparing two texts line by line: equality, or equality up to order. -/
structure LinesRel (S : List Line → List Line → Prop) : Prop where
  refl : ∀ l, S l l
  append : ∀ {l l' m m'}, S l l' → S m m' → S (l ++ m) (l' ++ m')
  nil : ∀ {l l'}, S l l' → (l = [] ↔ l' = [])

theorem eq_linesRel : LinesRel (· = ·) := ⟨fun _ => rfl, fun h h' => by rw [h, h'], fun h => by rw [h]⟩
theorem perm_linesRel : LinesRel List.Perm :=
  ⟨List.Perm.refl, fun h h' => h.append h', fun h => ⟨fun e => List.nil_perm.1 (e ▸ h), fun e => List.perm_nil.1 (e ▸ h)⟩⟩

/-- The diff is made from the two listings: taking one side's values everywhere gives that side's
listing, compared with `S`. -/
structure Made (S : List Line → List Line → Prop) (http : Bool) (e : D) (p q : P) : Prop where
  old : ∀ i x d, S ((e.side false).ls http i x d) (p.ls http i x d)
  new : ∀ i x d, S ((e.side true).ls http i x d) (q.ls http i x d)
  hide : e.NoHide

theorem made_closed {S : List Line → List Line → Prop} (hS : LinesRel S) (http : Bool) : Closed http (Made S http) where
  skip := ⟨fun _ _ _ => hS.refl _, fun _ _ _ => hS.refl _, trivial⟩
  lineBreak := ⟨fun _ _ _ => hS.refl _, fun _ _ _ => hS.refl _, trivial⟩
  line := fun _ _ _ => ⟨fun _ _ _ => hS.refl _, fun _ _ _ => hS.refl _, trivial⟩
  seq := fun h h' => ⟨fun i x d => hS.append (h.old i x d) (h'.old i x d),
    fun i x d => hS.append (h.new i x d) (h'.new i x d), ⟨h.hide, h'.hide⟩⟩
  indent := fun _ _ _ _ _ _ _ h h' => ⟨fun i x d => hS.append (h.old i x d) (h'.old (i + 1) x d),
    fun i x d => hS.append (h.new i x d) (h'.new (i + 1) x d), ⟨h.hide, h'.hide⟩⟩
  id := fun _ _ _ _ _ _ _ _ _ h h' => ⟨fun i x d => hS.append (h.old i x d) (h'.old (i + 1) x d),
    fun i x d => hS.append (h.new i x d) (h'.new (i + 1) x d), ⟨h.hide, h'.hide⟩⟩
  field := by
    intro c l e p q h
    have key : ∀ {a b : List Line} (y : Line), S a b → S (if a = [] then [] else y :: a) (if b = [] then [] else y :: b) := by
      intro a b y hab
      by_cases ha : a = []
      · rw [if_pos ha, if_pos ((hS.nil hab).1 ha)]; exact hS.refl _
      · rw [if_neg ha, if_neg fun hb => ha ((hS.nil hab).2 hb)]
        exact hS.append (hS.refl [y]) hab
    exact ⟨fun i x d => key _ (h.old (i + 1) x d), fun i x d => key _ (h.new (i + 1) x d), h.hide⟩
  inline := by
    intro e p q h
    refine ⟨fun i x d => ?_, fun i x d => ?_, h.hide⟩
    · simp only [D.side, P.ls]
      split
      · exact hS.refl _
      · exact h.old ..
    · simp only [D.side, P.ls]
      split
      · exact hS.refl _
      · exact h.new ..
  del := fun _ => ⟨fun _ _ _ => hS.refl _, fun _ _ _ => hS.refl _, trivial⟩
  add := fun _ => ⟨fun _ _ _ => hS.refl _, fun _ _ _ => hS.refl _, trivial⟩
  congr := by
    intro e p q p' q' h hp hq
    exact ⟨fun i x d => hp i x d ▸ h.old i x d, fun i x d => hq i x d ▸ h.new i x d, h.hide⟩

theorem Made.ignore {S : List Line → List Line → Prop} {http : Bool} (f : Bool) {e : D} {p q : P} (h : Made S http e p q) :
    Made S http (.ignoreDiff f e) p q := ⟨h.old, h.new, h.hide⟩

theorem diffLocs_short (a b : List FrameLocation) (h : ¬ (sortDedup cmpLoc a).length > 1) :
    diffLocs a b = .line stackFrame (firstVal (sortDedup cmpLoc a).head?) (firstVal (sortDedup cmpLoc b).head?) := by
  unfold diffLocs
  simp only
  rw [if_neg (by simpa using h)]

theorem Made.ranges {S : List Line → List Line → Prop} (hS : LinesRel S) (http : Bool) (ra rb : List Range)
    (h : SameAddressForm ra rb) : Made S http (rangesD ra rb) (rangesP ra) (rangesP rb) := by
  have hR := made_closed hS http
  unfold rangesD
  split
  · rename_i hm
    have key : ∀ l : List Range, l.length ≠ 1 → ∀ i x d,
        (P.field true (k "addresses") (.seqs (l.map fun r => .line [] (.text (rangeSizeText r))))).ls http i x d =
          (rangesP l).ls http i x d := by
      intro l hl i x d
      unfold rangesP
      match l, hl with
      | [], _ => simp [P.ls, P.seqs, rangeVal, Val.text']
      | [a], h => simp at h
      | a :: b :: l, _ => rw [if_pos (by simp)]
    unfold SameAddressForm at h
    exact hR.congr (hR.field true (k "addresses") (hR.rangeItems ra rb)) (key ra (by omega)) (key rb (by omega))
  · rename_i hm
    rw [rangesP, if_neg (by omega), rangesP, if_neg (by omega)]
    exact hR.line ..

theorem localHiding_nothing (o : Options) (s : FnSide) (v : LocalVariable) : localHiding {} o s v = localP o s v := rfl
theorem localsHiding_nothing (o : Options) (s : FnSide) (vs : List LocalVariable) :
    localsHiding {} o s vs = localsP o s vs := rfl

theorem inlinedHiding_nothing (o : Options) (s : FnSide) (dir : Option Str) (n : Nat) :
    inlinedHiding {} o s dir n = inlinedP o s dir n := by
  induction n with
  | zero => funext f; rfl
  | succ n ih =>
    funext f
    simp only [inlinedHiding, inlinedP, ih]
    rfl

/-- Leaving nothing out gives the listing itself. -/
theorem functionHiding_nothing (o : Options) (s : FnSide) (dir : Option Str) (n : Nat) (f : Function) :
    functionHiding {} o s dir n f = functionP o s dir n f := by
  simp only [functionHiding, functionP, fnBodyHiding, fnBodyP, inlinedHiding_nothing]
  rfl

theorem made_fn {S : List Line → List Line → Prop} (hS : LinesRel S) (http : Bool) (o : Options)
    (hi : http = true → o.printFunctionInstructions = false) (V : List LocalVariable → Prop)
    (hV : ∀ vs, V vs → ∀ (f : LocalVariable → List Line), S ((sortLocals vs).flatMap f) (vs.flatMap f))
    (hT : ∀ l m n, S l m → S m n → S l n) :
    FnClosed http o {} (Made S http) OneLoc OneLoc V V SameAddressForm where
  toClosed := made_closed hS http
  variableAddress := fun h => h.ignore _
  linkageName := fun h => h.ignore _
  symbolName := fun h => h.ignore _
  size := fun h => h.ignore _
  inlined := fun h => h.ignore _
  address := fun {ra rb} hr => (Made.ranges hS http ra rb hr).ignore _
  locs := by
    intro la lb ha hb
    rw [oneLoc_iff] at ha hb
    rw [diffLocs_short la lb ha]
    exact (made_closed hS http).congr ((made_closed hS http).line ..)
      (fun i x d => printLocs_short la ha http i x d) (fun i x d => printLocs_short lb hb http i x d)
  locals := by
    intro e va vb fa fb ha hb h
    refine ⟨fun i x d => hT _ _ _ (h.old i x d) ?_, fun i x d => hT _ _ _ (h.new i x d) ?_, h.hide⟩
    · simp only [P.ls_seqs, List.flatMap_map]
      exact hV va ha _
    · simp only [P.ls_seqs, List.flatMap_map]
      exact hV vb hb _
  delLocal := fun s v => (made_closed hS http).del _
  addLocal := fun s v => (made_closed hS http).add _
  delInlined := by
    intro s dir n f p p' hp hp'
    rw [inlinedHiding_nothing, hp] at hp'
    cases hp'
    exact (made_closed hS http).del _
  addInlined := by
    intro s dir n f p p' hp hp'
    rw [inlinedHiding_nothing, hp] at hp'
    cases hp'
    exact (made_closed hS http).add _
  insns := by
    intro hins ra rb p q ha hb
    have hh : http = false := by
      cases http
      · rfl
      · simp [hi rfl] at hins
    subst hh
    have key : ∀ (r : List Range) (p : P), (r = [] → p = .skip) → ∀ i x d,
        (P.field true (k "instructions") p).ls false i x d =
        (leftOut false (if r ≠ [] then .fieldDetail (k "code") (k "instructions") p else .skip)).ls false i x d := by
      intro r p h i x d
      by_cases hr : r = []
      · subst hr; rw [h rfl]; simp [P.ls, leftOut]
      · simp [hr, leftOut, P.ls]
    exact ⟨fun i x d => key ra p ha i x d ▸ hS.refl _, fun i x d => key rb q hb i x d ▸ hS.refl _, trivial⟩

end Verif.Show
