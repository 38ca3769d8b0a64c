import Verif.Show.FnTexts
import Verif.Show.TypeFacts
/-! # What the rows of the listing of a function determine -/
namespace Verif.Show
open Verif.Print Verif.Item Verif.Namespace Verif.Types Verif.Opts Verif.Range Verif.Frame

theorem all2_left {α β : Type} {R : α → β → Prop} {l : List α} {m : List β} (h : All2 R l m) :
    ∀ a ∈ l, ∃ b ∈ m, R a b := by
  induction h with
  | nil => nofun
  | cons h _ ih =>
    intro a ha
    rcases List.mem_cons.1 ha with rfl | ha
    · exact ⟨_, List.mem_cons_self .., h⟩
    · obtain ⟨b, hb, h⟩ := ih a ha
      exact ⟨b, List.mem_cons_of_mem _ hb, h⟩

theorem all2_right {α β : Type} {R : α → β → Prop} {l : List α} {m : List β} (h : All2 R l m) :
    ∀ b ∈ m, ∃ a ∈ l, R a b := by
  induction h with
  | nil => nofun
  | cons h _ ih =>
    intro a ha
    rcases List.mem_cons.1 ha with rfl | ha
    · exact ⟨_, List.mem_cons_self .., h⟩
    · obtain ⟨b, hb, h⟩ := ih a ha
      exact ⟨b, List.mem_cons_of_mem _ hb, h⟩

theorem all2_of_map_eq {α β γ : Type} {f : α → γ} {g : β → γ} : ∀ {l : List α} {m : List β}, l.map f = m.map g →
    All2 (fun a b => a ∈ l ∧ b ∈ m ∧ f a = g b) l m
  | [], [], _ => .nil
  | [], _ :: _, h => by cases h
  | _ :: _, [], h => by cases h
  | a :: l, b :: m, h => by
    simp only [List.map_cons, List.cons.injEq] at h
    exact .cons ⟨List.mem_cons_self .., List.mem_cons_self .., h.1⟩
      (all2_imp (all2_of_map_eq h.2) fun a b ⟨h1, h2, h3⟩ => ⟨List.mem_cons_of_mem _ h1, List.mem_cons_of_mem _ h2, h3⟩)

theorem flatMap_oneRow {α : Type} (L : Str) (f : α → Str) (l : List α) :
    (l.flatMap fun a => oneRow L (f a)) = (l.map f).flatMap (oneRow L) := by
  induction l with
  | nil => rfl
  | cons a l ih => simp [ih]

/-! ## Where variables are -/

theorem regs_eq {s s' : FnSide} (hs : ReadableFn s) (hs' : ReadableFn s') {locs locs' : List (Range × Piece)}
    {rows : List Row} (h : RegisterRows s locs rows) (h' : RegisterRows s' locs' rows) :
    ∀ name, HeldIn s locs name ↔ HeldIn s' locs' name := by
  obtain ⟨rs, h1, -, h2⟩ := h
  obtain ⟨rs', h1', -, h2'⟩ := h'
  have e := under_eq (h2.symm.trans h2')
  rw [flatMap_oneRow [] (registerText s), flatMap_oneRow [] (registerText s')] at e
  have e := oneRows_eq
    (by intro t ht; obtain ⟨r, -, rfl⟩ := List.mem_map.1 ht; exact registerText_ne hs r)
    (by intro t ht; obtain ⟨r, -, rfl⟩ := List.mem_map.1 ht; exact registerText_ne hs' r) e
  have key : ∀ {s : FnSide} {locs : List (Range × Piece)} {rs : List Nat} (_ : ∀ r, r ∈ rs ↔ InRegister locs r) (name : Str),
      HeldIn s locs name ↔ name ∈ rs.map (registerText s) := by
    intro s locs rs h name
    simp only [HeldIn, List.mem_map, h]
  intro name
  rw [key h1, key h1', e]

theorem frameRows_texts {ts ts' : List Str} {rows : List Row} (hn : ∀ t ∈ ts, t ≠ []) (hn' : ∀ t ∈ ts', t ≠ [])
    (h : (ts.length ≤ 1 ∧ rows = ts.flatMap fun t => oneRow (k "stack frame") t) ∨
      (1 < ts.length ∧ rows = under (k "stack frame") (ts.flatMap fun t => oneRow [] t)))
    (h' : (ts'.length ≤ 1 ∧ rows = ts'.flatMap fun t => oneRow (k "stack frame") t) ∨
      (1 < ts'.length ∧ rows = under (k "stack frame") (ts'.flatMap fun t => oneRow [] t))) : ts = ts' := by
  have clash : ∀ {ts ts' : List Str}, (∀ t ∈ ts, t ≠ []) → (∀ t ∈ ts', t ≠ []) → 1 < ts'.length →
      (ts.flatMap fun t => oneRow (k "stack frame") t) ≠ under (k "stack frame") (ts'.flatMap fun t => oneRow [] t) := by
    intro ts ts' hn hn' hl e
    have hu : ∃ r rest, under (k "stack frame") (ts'.flatMap fun t => oneRow [] t) = r :: rest ∧ r.text = [] := by
      cases ts' with
      | nil => simp at hl
      | cons t ts' =>
        have := hn' t (List.mem_cons_self ..)
        exact ⟨_, _, by simp [under, oneRow, this]; exact ⟨rfl, rfl⟩, rfl⟩
    obtain ⟨r, rest, hu, hr⟩ := hu
    rw [hu] at e
    cases ts with
    | nil => simp at e
    | cons t ts =>
      have := hn t (List.mem_cons_self ..)
      simp only [List.flatMap_cons, oneRow, this, if_false, List.cons_append, List.nil_append, List.cons.injEq] at e
      rw [← e.1] at hr
      exact this hr
  rcases h with ⟨hl, h⟩ | ⟨hl, h⟩ <;> rcases h' with ⟨hl', h'⟩ | ⟨hl', h'⟩
  · exact oneRows_eq hn hn' (h.symm.trans h')
  · exact absurd (h.symm.trans h') (clash hn hn' hl')
  · exact absurd (h'.symm.trans h) (clash hn' hn hl)
  · exact oneRows_eq hn hn' (under_eq (h.symm.trans h'))

theorem frame_eq {locs locs' : List (Range × Piece)} {rows : List Row} (h : FrameRows locs rows) (h' : FrameRows locs' rows) :
    ∀ o n, StoredBytes locs o n ↔ StoredBytes locs' o n := by
  obtain ⟨ls, ts, h1, -, h2, h3⟩ := h
  obtain ⟨ls', ts', h1', -, h2', h3'⟩ := h'
  have hn : ∀ {ls : List FrameLocation} {ts : List Str}, All2 Written ls ts → ∀ t ∈ ts, t ≠ [] := by
    intro ls ts h t ht
    obtain ⟨l, -, h⟩ := all2_right h t ht
    exact written_ne h
  have e := frameRows_texts (hn h2) (hn h2') h3 h3'
  subst e
  have j := all2_join h2 h2'
  intro o n
  constructor
  · rintro ⟨bits, hb, rfl⟩
    obtain ⟨l', hl', -, -, t, w, w'⟩ := all2_left j ⟨o, bits⟩ ((h1 _).2 hb)
    obtain ⟨e1, e2⟩ := written_inj w w'
    refine ⟨l'.bitSize, ?_, e2⟩
    have := (h1' l').1 hl'
    rw [show o = l'.offset from e1]
    exact this
  · rintro ⟨bits, hb, rfl⟩
    obtain ⟨l', hl', -, -, t, w, w'⟩ := all2_right j ⟨o, bits⟩ ((h1' _).2 hb)
    obtain ⟨e1, e2⟩ := written_inj w w'
    refine ⟨l'.bitSize, ?_, e2.symm⟩
    have := (h1 l').1 hl'
    rw [show o = l'.offset from e1.symm]
    exact this

theorem block_regs {s : FnSide} {locs : List (Range × Piece)} {rows : List Row} (h : RegisterRows s locs rows) :
    Block (k "registers") rows := by
  obtain ⟨rs, -, -, rfl⟩ := h
  exact block_under _ _

theorem block_frame {locs : List (Range × Piece)} {rows : List Row} (h : FrameRows locs rows) :
    Block (k "stack frame") rows := by
  obtain ⟨ls, ts, -, -, -, ⟨-, rfl⟩ | ⟨-, rfl⟩⟩ := h
  · exact block_flatMap (fun t => block_oneRow _ t) ts
  · exact block_under _ _

/-! ## Parameters and variables -/

theorem parameter_group {o : Options} {s : FnSide} {p : Parameter} {rows : List Row} (h : ParameterRows o s p rows) :
    RowGroup rows := by
  obtain ⟨_, _, -, -, rfl⟩ := h
  exact group_entry (by simp [sizeBracket_ne]) _

theorem parameter_eq {o : Options} {s s' : FnSide} (hs : ReadableFn s) (hs' : ReadableFn s') {p p' : Parameter}
    (hn : Plain p.name) (hn' : Plain p'.name) {rows : List Row} (h : ParameterRows o s p rows)
    (h' : ParameterRows o s' p' rows) : SameParameter o s s' p p' := by
  obtain ⟨rg, fr, h1, h2, h3⟩ := h
  obtain ⟨rg', fr', h1', h2', h3'⟩ := h'
  obtain ⟨e1, e2⟩ := entry_eq (by simp [sizeBracket_ne]) (by simp [sizeBracket_ne]) (h3.symm.trans h3')
  simp only [List.append_assoc] at e1
  obtain ⟨z, e1⟩ := sizeBracket_cut (by simpa only [List.append_assoc] using e1)
  obtain ⟨e3, e4⟩ := param_decl hs hs' hn hn' e1
  refine ⟨e3, ⟨z, e4⟩, fun hv => ?_⟩
  have e := shownIf_eq e2 hv
  have := blocks_eq (Ls := [k "registers", k "stack frame"]) (Bs := [rg, fr]) (Bs' := [rg', fr']) (by decide)
    (.cons (block_regs h1) (.cons (block_frame h2) .nil)) (.cons (block_regs h1') (.cons (block_frame h2') .nil))
    (by simpa using e)
  simp only [List.cons.injEq, and_true] at this
  obtain ⟨rfl, rfl⟩ := this
  exact ⟨regs_eq hs hs' h1 h1', frame_eq h2 h2'⟩

theorem parameters_eq {o : Options} {s s' : FnSide} (hs : ReadableFn s) (hs' : ReadableFn s') {ps ps' : List Parameter}
    (hn : ∀ p ∈ ps, Plain p.name) (hn' : ∀ p ∈ ps', Plain p.name) {rows : List Row} (h : Each (ParameterRows o s) ps rows)
    (h' : Each (ParameterRows o s') ps' rows) : All2 (SameParameter o s s') ps ps' :=
  all2_imp (each_eq h h' (fun _ _ _ h => parameter_group h) (fun _ _ _ h => parameter_group h))
    fun p p' ⟨m, m', _, r, r'⟩ => parameter_eq hs hs' (hn p m) (hn' p' m') r r'

theorem local_group {m : Hidden} {o : Options} {s : FnSide} {v : LocalVariable} {rows : List Row} (h : LocalRows m o s v rows) :
    RowGroup rows := by
  obtain ⟨_, _, -, -, rfl⟩ := h
  exact group_entry (by simp [sizeBracket_ne]) _

theorem local_eq {o : Options} {s s' : FnSide} (hs : ReadableFn s) (hs' : ReadableFn s') {v v' : LocalVariable}
    (hn : Plain v.name) (hn' : Plain v'.name) {rows : List Row} (h : LocalRows (ignoredBy o) o s v rows)
    (h' : LocalRows (ignoredBy o) o s' v' rows) : SameLocal o s s' v v' := by
  obtain ⟨rg, fr, h1, h2, h3⟩ := h
  obtain ⟨rg', fr', h1', h2', h3'⟩ := h'
  obtain ⟨e1, e2⟩ := entry_eq (by simp [sizeBracket_ne]) (by simp [sizeBracket_ne]) (h3.symm.trans h3')
  obtain ⟨z, e1⟩ := sizeBracket_cut (by simpa only [List.append_assoc] using e1)
  obtain ⟨e3, e4⟩ := named_decl (r := (s.tref v.ty).text') (r' := (s'.tref v'.ty).text') hn hn'
    (by simpa only [List.append_assoc] using e1)
  have key : o.printVariableLocations = true →
      shownIf (!(ignoredBy o).variableAddress) (oneRow (k "address") ((v.address.map at0x).getD [])) =
      shownIf (!(ignoredBy o).variableAddress) (oneRow (k "address") ((v'.address.map at0x).getD [])) ∧ rg = rg' ∧ fr = fr' := by
    intro hv
    have e := shownIf_eq e2 hv
    have := blocks_eq (Ls := [k "address", k "registers", k "stack frame"]) (Bs := [_, rg, fr]) (Bs' := [_, rg', fr']) (by decide)
      (.cons (block_shownIf _ (block_oneRow _ _)) (.cons (block_regs h1) (.cons (block_frame h2) .nil)))
      (.cons (block_shownIf _ (block_oneRow _ _)) (.cons (block_regs h1') (.cons (block_frame h2') .nil)))
      (by simpa using e)
    simpa only [List.cons.injEq, and_true] using this
  refine ⟨e3, e4, z, fun hv hi => ?_, fun hv => ?_⟩
  · exact optAddress_eq (oneRow_eq (shownIf_eq (key hv).1 (by simp [ignoredBy, hi])))
  · obtain ⟨-, rfl, rfl⟩ := key hv
    exact ⟨regs_eq hs hs' h1 h1', frame_eq h2 h2'⟩

theorem locals_eq {o : Options} {s s' : FnSide} (hs : ReadableFn s) (hs' : ReadableFn s') {vs vs' : List LocalVariable}
    (hn : ∀ v ∈ vs, Plain v.name) (hn' : ∀ v ∈ vs', Plain v.name) {rows : List Row}
    (h : LocalsRows (ignoredBy o) o s vs rows) (h' : LocalsRows (ignoredBy o) o s' vs' rows) : SameLocals o s s' vs vs' := by
  obtain ⟨order, ⟨hp, -, -⟩, h⟩ := h
  obtain ⟨order', ⟨hp', -, -⟩, h'⟩ := h'
  refine ⟨order, order', hp, hp', ?_⟩
  exact all2_imp (each_eq h h' (fun _ _ _ h => local_group h) (fun _ _ _ h => local_group h))
    fun p p' ⟨m, m', _, r, r'⟩ => local_eq hs hs' (hn p (hp.mem_iff.1 m)) (hn' p' (hp'.mem_iff.1 m')) r r'

/-! ## Call sites -/

theorem places_eq {s s' : FnSide} (hs : ReadableFn s) (hs' : ReadableFn s') {l l' : List Piece} (h : NoEmptyPiece l)
    (h' : NoEmptyPiece l') (e : placeRows s l = placeRows s' l') : SamePieces s s' l l' := by
  unfold placeRows at e
  rw [flatMap_oneRow [] (fun p : Piece => placeText s p.location), flatMap_oneRow [] (fun p : Piece => placeText s' p.location)] at e
  exact oneRows_eq
    (by intro t ht; obtain ⟨p, hp, rfl⟩ := List.mem_map.1 ht; exact placeText_ne hs (h p hp))
    (by intro t ht; obtain ⟨p, hp, rfl⟩ := List.mem_map.1 ht; exact placeText_ne hs' (h' p hp)) e

theorem passedText_ne {s : FnSide} {p : CallParameter} (hn : Plain p.name) : passedText s p ≠ [] := by
  unfold passedText
  cases hp : p.name with
  | none => simp [k, Str.ofString]
  | some n => simp [(hn n hp).1]

theorem argument_eq {o : Options} {s s' : FnSide} (hs : ReadableFn s) (hs' : ReadableFn s') {p p' : CallParameter}
    (hn : Plain p.name) (hn' : Plain p'.name)
    (hp : NoEmptyPiece p.location ∧ NoEmptyPiece p.value ∧ NoEmptyPiece p.dataLocation ∧ NoEmptyPiece p.dataValue)
    (hp' : NoEmptyPiece p'.location ∧ NoEmptyPiece p'.value ∧ NoEmptyPiece p'.dataLocation ∧ NoEmptyPiece p'.dataValue)
    (e : passedRows o s p = passedRows o s' p') : SameArgument o s s' p p' := by
  obtain ⟨e1, e2⟩ := entry_eq (passedText_ne hn) (passedText_ne hn') e
  obtain ⟨n, t⟩ := passed_decl hn hn' e1
  have key : o.printVariableLocations = true → placeRows s p.location = placeRows s' p'.location ∧
      placeRows s p.value = placeRows s' p'.value ∧ placeRows s p.dataLocation = placeRows s' p'.dataLocation ∧
      placeRows s p.dataValue = placeRows s' p'.dataValue := by
    intro hv
    have e := shownIf_eq e2 hv
    have := blocks_eq (Ls := [k "location", k "value", k "data_location", k "data_value_location"]) (Bs := [_, _, _, _])
      (Bs' := [_, _, _, _]) (by decide)
      (.cons (block_under _ _) (.cons (block_under _ _) (.cons (block_under _ _) (.cons (block_under _ _) .nil))))
      (.cons (block_under _ _) (.cons (block_under _ _) (.cons (block_under _ _) (.cons (block_under _ _) .nil))))
      (by simpa using e)
    simp only [List.cons.injEq, and_true] at this
    obtain ⟨a, b, c, d⟩ := this
    exact ⟨under_eq a, under_eq b, under_eq c, under_eq d⟩
  exact ⟨n, t, fun hv => places_eq hs hs' hp.1 hp'.1 (key hv).1, fun hv => places_eq hs hs' hp.2.1 hp'.2.1 (key hv).2.1,
    fun hv => places_eq hs hs' hp.2.2.1 hp'.2.2.1 (key hv).2.2.1, fun hv => places_eq hs hs' hp.2.2.2 hp'.2.2.2 (key hv).2.2.2⟩

theorem siteText_ne (q : CallKind) (r : Str) : kindText q ++ r ≠ [] := by
  cases q <;> simp [kindText, k, Str.ofString]

theorem site_eq {o : Options} {s s' : FnSide} (hs : ReadableFn s) (hs' : ReadableFn s') {da db : Option Str}
    {c c' : FunctionCall} (hc : ReadableCall c) (hc' : ReadableCall c') (e : siteRows o s da c = siteRows o s' db c') :
    SameSite o s s' da db c c' := by
  obtain ⟨e1, e2⟩ := entry_eq (by simp only [List.append_assoc]; exact siteText_ne _ _)
    (by simp only [List.append_assoc]; exact siteText_ne _ _) e
  obtain ⟨h1, h2, h3⟩ := callHeader_eq e1
  have := blocks_eq (Ls := [k "return address", k "target", k "source", k "parameters"]) (Bs := [_, _, _, _])
      (Bs' := [_, _, _, _]) (by decide)
      (.cons (block_oneRow _ _) (.cons (block_shownIf _ (block_under _ _)) (.cons (block_shownIf _ (block_oneRow _ _))
        (.cons (block_under _ _) .nil))))
      (.cons (block_oneRow _ _) (.cons (block_shownIf _ (block_under _ _)) (.cons (block_shownIf _ (block_oneRow _ _))
        (.cons (block_under _ _) .nil))))
      (by simpa using e2)
  simp only [List.cons.injEq, and_true] at this
  obtain ⟨a, b, c0, d⟩ := this
  refine ⟨h1, h2, optAddress_eq (oneRow_eq a), h3, fun hv => places_eq hs hs' hc.target hc'.target (under_eq (shownIf_eq b hv)),
    fun hv => oneRow_eq (shownIf_eq c0 hv), ?_⟩
  have E : Each (fun p g => g = passedRows o s' p) c'.parameters (c.parameters.flatMap (passedRows o s)) := by
    rw [under_eq d]; exact each_flatMap _ _
  refine all2_imp (each_eq (each_flatMap (passedRows o s) c.parameters) E
      (fun p hp g hg => hg ▸ group_entry (passedText_ne (hc.names p hp)) _)
      (fun p hp g hg => hg ▸ group_entry (passedText_ne (hc'.names p hp)) _)) ?_
  rintro p p' ⟨m, m', g, r, r'⟩
  exact argument_eq hs hs' (hc.names p m) (hc'.names p' m') (hc.pieces p m) (hc'.pieces p' m') (r.symm.trans r')

theorem sites_eq {o : Options} {s s' : FnSide} (hs : ReadableFn s) (hs' : ReadableFn s') {da db : Option Str}
    {cs cs' : List FunctionCall} (hc : ∀ c ∈ cs, ReadableCall c) (hc' : ∀ c ∈ cs', ReadableCall c)
    (e : cs.flatMap (siteRows o s da) = cs'.flatMap (siteRows o s' db)) : All2 (SameSite o s s' da db) cs cs' := by
  have gr : ∀ (s : FnSide) (d : Option Str) (c : FunctionCall) (g : List Row), g = siteRows o s d c → RowGroup g := by
    rintro s d c g rfl
    exact group_entry (by simp only [List.append_assoc]; exact siteText_ne _ _) _
  have E : Each (fun c g => g = siteRows o s' db c) cs' (cs.flatMap (siteRows o s da)) := by
    rw [e]; exact each_flatMap _ _
  refine all2_imp (each_eq (each_flatMap (siteRows o s da) cs) E
      (fun c _ => gr s da c) (fun c _ => gr s' db c)) ?_
  rintro c c' ⟨m, m', g, r, r'⟩
  exact site_eq hs hs' (hc c m) (hc' c' m') (r.symm.trans r')

end Verif.Show
