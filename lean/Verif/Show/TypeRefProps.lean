import Verif.Show.TypeRef
import Verif.Show.TypeProps
import Verif.Show.TypeTotal
import Verif.Types.Props
/-! # C78: references to types -/
namespace Verif.Show
open Verif.Print Verif.Item Verif.Namespace Verif.Types Verif.Opts Verif.Path Verif.Sentinel

/-! ## Texts of values -/

theorem text_nsVal (ns : Namespace) : (nsVal ns).text' = scopeText (some ns) := by
  have part : ∀ n kd, (nsPart n kd).text' = n.getD (Str.ofString "<anon>") ++
      (if kd = .function then Str.ofString "()" else []) ++ Str.ofString "::" := by
    intro n kd
    unfold nsPart
    simp only [Val.text', List.append_assoc, anon]
    split <;> rfl
  unfold scopeText
  simp only
  induction ns with
  | root n kd => simp [nsVal, Namespace.scopes, part]
  | child p n kd ih => simp [nsVal, Namespace.scopes, part, Val.text', ih]

theorem text_nsOpt (ns : Option Namespace) : (nsOpt ns).text' = scopeText ns := by
  cases ns with
  | none => rfl
  | some ns => exact text_nsVal ns

theorem joined_cons (sep s : Str) (l : List Str) : joined sep (s :: l) = s ++ (l.map (sep ++ ·)).flatten := by
  induction l generalizing s with
  | nil => simp [joined]
  | cons a l ih =>
    show s ++ sep ++ joined sep (a :: l) = _
    rw [ih]; simp

theorem countsText_eq (count : Size) (counts : List Size) :
    countsText (countsAsSlice count counts) = k "; " ++ joined (k ", ") ((dims count counts).map dimText) := by
  have h1 : ∀ c : Size, countText c = dimText c.get := by
    intro c; unfold countText dimText; split <;> rfl
  have h2 : ∀ (c : Size) (cs : List Size), countsText (c :: cs) = k "; " ++ joined (k ", ") (((c :: cs).map Opt64.get).map dimText) := by
    intro c cs
    simp only [countsText, h1, List.map_cons, joined_cons, List.map_map, List.append_assoc]
    rfl
  unfold countsAsSlice dims
  cases counts with
  | nil => exact h2 _ _
  | cons c cs => exact h2 _ _

theorem withNames_text (ns : List (Option Str)) (vs : List Val) :
    (withNames ns vs).map (fun p => (paramRef p).text') = labelled ns (vs.map Val.text') := by
  induction vs generalizing ns with
  | nil => cases ns <;> rfl
  | cons v vs ih =>
    cases ns with
    | nil => exact congrArg (v.text' :: ·) (ih [])
    | cons n ns =>
      cases n with
      | none => exact congrArg (v.text' :: ·) (ih ns)
      | some nm =>
        show (paramRef (some nm, v)).text' :: _ = _
        rw [ih]
        simp [paramRef, labelled, vals, Val.text', k]

theorem paramRefs_text (ps : List (Option Str × Val)) :
    (paramRefs ps).text' = joined (k ", ") (ps.map fun p => (paramRef p).text') := by
  cases ps with
  | nil => rfl
  | cons p ps =>
    rw [List.map_cons, joined_cons]
    simp only [paramRefs, Val.text']
    congr 1
    induction ps with
    | nil => rfl
    | cons q ps ih => simp only [List.map_cons, vals, Val.text', ih, List.flatten_cons, List.append_assoc]

theorem modifierText_eq (kd : ModKind) : modifierText kd = prefixOf kd := by cases kd <;> rfl

theorem boundsText_eq (l u : Option Nat) : boundsText l u = between l u := by
  cases l <;> cases u <;> simp [boundsText, between, k, Str.ofString]

theorem text_namedRef (nm : Str) (i : Option Nat) : (namedRef nm i).text' = nm := by cases i <;> rfl

/-! ## Fuel -/

theorem refId_mono {h : Hash} {x : TypeOffset → Extra} {n : Nat} {o : TypeOffset} {r : Option Nat}
    (e : refId n h x o = some r) : refId (n + 1) h x o = some r := by
  induction n generalizing o with
  | zero => cases e
  | succ n ih =>
    unfold refId at e ⊢
    split at e
    · exact e
    · split at e <;> first | exact e | exact ih e

theorem mapM_mono {α β : Type} {f g : α → Option β} {l : List α} {r : List β}
    (hfg : ∀ a ∈ l, ∀ b, f a = some b → g a = some b) (h : l.mapM f = some r) : l.mapM g = some r := by
  induction l generalizing r with
  | nil => exact h
  | cons a l ih =>
    simp only [List.mapM_cons, Option.bind_eq_bind, Option.bind_eq_some_iff, Option.pure_def, Option.some.injEq] at h ⊢
    obtain ⟨b, hb, bs, hbs, rfl⟩ := h
    exact ⟨b, hfg a (by simp) b hb, bs, ih (fun a ha => hfg a (by simp [ha])) hbs, rfl⟩

theorem typeRef_mono {h : Hash} {x : TypeOffset → Extra} {n : Nat} {o : TypeOffset} {v : Val}
    (e : typeRef n h x o = some v) : typeRef (n + 1) h x o = some v := by
  induction n generalizing o v with
  | zero => cases e
  | succ n ih =>
    unfold typeRef at e ⊢
    cases hf : fromOffset h o with
    | none => rw [hf] at e; exact e
    | some t =>
      rw [hf] at e
      cases t with
      | array ty c cs s =>
        simp only [Option.bind_eq_bind, Option.bind_eq_some_iff] at e ⊢
        obtain ⟨a, ha, e⟩ := e
        exact ⟨a, ih ha, e⟩
      | function ps ret s =>
        simp only [Option.bind_eq_bind, Option.bind_eq_some_iff] at e ⊢
        obtain ⟨vs, hvs, e⟩ := e
        refine ⟨vs, mapM_mono (fun a _ b hb => ih hb) hvs, ?_⟩
        split at e
        · next hr =>
          rw [if_pos hr]
          simp only [Option.bind_eq_some_iff] at e ⊢
          obtain ⟨r, hr', e⟩ := e
          exact ⟨r, ih hr', e⟩
        · next hr => rw [if_neg hr]; exact e
      | pointerToMember ty c s a =>
        simp only [Option.bind_eq_bind, Option.bind_eq_some_iff] at e ⊢
        obtain ⟨a, ha, b, hb, e⟩ := e
        exact ⟨a, ih ha, b, ih hb, e⟩
      | modifier kd ty s a =>
        dsimp only at e ⊢
        cases hn : (x o).name with
        | some nm =>
          rw [hn] at e
          simp only [Option.map_eq_some_iff] at e ⊢
          obtain ⟨r, hr, e⟩ := e
          exact ⟨r, refId_mono hr, e⟩
        | none =>
          rw [hn] at e
          simp only [Option.bind_eq_bind, Option.bind_eq_some_iff] at e ⊢
          obtain ⟨a, ha, e⟩ := e
          exact ⟨a, ih ha, e⟩
      | subrange nm ty l u s =>
        cases nm with
        | some nm =>
          simp only [Option.bind_eq_bind, Option.bind_eq_some_iff, Option.map_eq_some_iff] at e ⊢
          obtain ⟨a, ⟨r, hr, e'⟩, e⟩ := e
          exact ⟨a, ⟨r, refId_mono hr, e'⟩, e⟩
        | none =>
          simp only [Option.bind_eq_bind, Option.bind_eq_some_iff] at e ⊢
          obtain ⟨a, ha, e⟩ := e
          exact ⟨a, ih ha, e⟩
      | _ => exact e

theorem refId_le {h : Hash} {x : TypeOffset → Extra} {n m : Nat} (hm : n ≤ m) {o : TypeOffset}
    {r : Option Nat} (e : refId n h x o = some r) : refId m h x o = some r := by
  induction hm with
  | refl => exact e
  | step _ ih => exact refId_mono ih

theorem typeRef_le {h : Hash} {x : TypeOffset → Extra} {n m : Nat} (hm : n ≤ m) {o : TypeOffset}
    {v : Val} (e : typeRef n h x o = some v) : typeRef m h x o = some v := by
  induction hm with
  | refl => exact e
  | step _ ih => exact typeRef_mono ih

/-! ## The text -/

theorem refId_ends {h : Hash} {x : TypeOffset → Extra} {n : Nat} {o : TypeOffset} {r : Option Nat}
    (e : refId n h x o = some r) : Ends h o := by
  induction n generalizing o with
  | zero => cases e
  | succ n ih =>
    unfold refId at e
    cases hf : fromOffset h o with
    | none => exact .missing hf
    | some t =>
      rw [hf] at e
      cases t with
      | array ty c cs s => exact .array hf (ih e)
      | modifier kd ty s a => exact .modifier hf (ih e)
      | subrange nm ty l u s => exact .subrange hf (ih e)
      | _ => exact .other hf (by intros; simp) (by intros; simp) (by intros; simp)

theorem ends_refId {h : Hash} (x : TypeOffset → Extra) {o : TypeOffset} (e : Ends h o) :
    ∃ n r, refId n h x o = some r := by
  induction e with
  | missing hf => exact ⟨1, none, by simp [refId, hf]⟩
  | array hf _ ih => obtain ⟨n, r, hr⟩ := ih; exact ⟨n + 1, r, by simp [refId, hf, hr]⟩
  | modifier hf _ ih => obtain ⟨n, r, hr⟩ := ih; exact ⟨n + 1, r, by simp [refId, hf, hr]⟩
  | subrange hf _ ih => obtain ⟨n, r, hr⟩ := ih; exact ⟨n + 1, r, by simp [refId, hf, hr]⟩
  | @other o t hf h1 h2 h3 =>
    cases t with
    | array ty c cs s => exact absurd rfl (h1 _ _ _ _)
    | modifier kd ty s a => exact absurd rfl (h2 _ _ _ _)
    | subrange nm ty l u s => exact absurd rfl (h3 _ _ _ _ _)
    | _ => exact ⟨1, _, by simp only [refId, hf]; rfl⟩

theorem mapM_get {α β : Type} {f : α → Option β} {l : List α} {r : List β} (h : l.mapM f = some r) :
    r.length = l.length ∧ ∀ i (h1 : i < l.length) (h2 : i < r.length), f l[i] = some r[i] := by
  induction l generalizing r with
  | nil => simp at h; subst h; simp
  | cons a l ih =>
    simp only [List.mapM_cons, Option.bind_eq_bind, Option.bind_eq_some_iff, Option.pure_def, Option.some.injEq] at h
    obtain ⟨b, hb, bs, hbs, rfl⟩ := h
    obtain ⟨h1, h2⟩ := ih hbs
    refine ⟨by simp [h1], fun i hi hi' => ?_⟩
    cases i with
    | zero => exact hb
    | succ i => exact h2 i (by simpa using hi) (by simpa using hi')

theorem mapM_of_get {α β : Type} {f : α → Option β} {l : List α} {r : List β} (hl : r.length = l.length)
    (h : ∀ i (h1 : i < l.length) (h2 : i < r.length), f l[i] = some r[i]) : l.mapM f = some r := by
  induction l generalizing r with
  | nil => cases r with
    | nil => rfl
    | cons => simp at hl
  | cons a l ih =>
    cases r with
    | nil => simp at hl
    | cons b r =>
      have h0 := h 0 (by simp) (by simp)
      simp only [List.getElem_cons_zero] at h0
      have := ih (r := r) (by simpa using hl) (fun i h1 h2 => by
        have := h (i + 1) (by simpa using h1) (by simpa using h2)
        simpa using this)
      simp [h0, this]

theorem returnShown_false {h : Hash} {o : TypeOffset} (e : returnShown h o = false) :
    fromOffset h o = none ∨ fromOffset h o = some .void := by
  unfold returnShown at e
  split at e
  · left; assumption
  · right; assumption
  · cases e

theorem returnShown_true {h : Hash} {o : TypeOffset} (e : returnShown h o = true) :
    ∃ t, fromOffset h o = some t ∧ t ≠ .void := by
  unfold returnShown at e
  split at e
  · cases e
  · cases e
  · next t hn hf => exact ⟨t, hf, fun h => hn (by rw [h])⟩

/-- **C78** (text). What is written for a reference to a type is what the declaration of the type
spells. -/
theorem C78_text (n : Nat) (h : Hash) (x : TypeOffset → Extra) (o : TypeOffset) (v : Val)
    (e : typeRef n h x o = some v) : Spelled h x o v.text' := by
  induction n generalizing o v with
  | zero => cases e
  | succ n ih =>
    unfold typeRef at e
    cases hf : fromOffset h o with
    | none => rw [hf] at e; cases e; exact .missing hf
    | some t =>
      rw [hf] at e
      cases t with
      | void => cases e; exact .void hf
      | base nm s => cases e; exact .base hf
      | def_ ns nm ty =>
        cases e
        have := Spelled.typedef (x := x) hf
        simpa [Val.text', defName, vals, text_nsOpt] using this
      | struct_ ns nm s ms vs is =>
        cases e
        have := Spelled.struct_ (x := x) hf
        simpa [Val.text', taggedName, vals, text_nsOpt, k, anon] using this
      | union_ ns nm s ms =>
        cases e
        have := Spelled.union_ (x := x) hf
        simpa [Val.text', taggedName, vals, text_nsOpt, k, anon] using this
      | enum_ ns nm ty s =>
        cases e
        have := Spelled.enum_ (x := x) hf
        simpa [Val.text', taggedName, vals, text_nsOpt, k, anon] using this
      | array ty c cs s =>
        simp only [Option.bind_eq_bind, Option.bind_eq_some_iff, Option.some.injEq] at e
        obtain ⟨a, ha, rfl⟩ := e
        have := Spelled.array hf (ih _ _ ha)
        simpa [Val.text', vals, countsText_eq, k] using this
      | function ps ret s =>
        simp only [Option.bind_eq_bind, Option.bind_eq_some_iff] at e
        obtain ⟨vs, hvs, e⟩ := e
        obtain ⟨hl, hg⟩ := mapM_get hvs
        have hps : ∀ i (hp : i < ps.length) (ht : i < (vs.map Val.text').length), Spelled h x ps[i] (vs.map Val.text')[i] := by
          intro i hp ht
          rw [List.getElem_map]
          exact ih _ _ (hg i hp (by simpa using ht))
        have hl' : (vs.map Val.text').length = ps.length := by simp [hl]
        cases hr : returnShown h ret with
        | true =>
          rw [if_pos hr] at e
          simp only [Option.bind_eq_some_iff, Option.some.injEq] at e
          obtain ⟨r, hr', rfl⟩ := e
          obtain ⟨t, ht, hv⟩ := returnShown_true hr
          have := Spelled.function hf hl' hps ht hv (ih _ _ hr')
          simpa [Val.text', vals, paramRefs_text, withNames_text, k, Str.ofString] using this
        | false =>
          rw [if_neg (by simp [hr])] at e
          cases e
          have := Spelled.procedure hf hl' hps (returnShown_false hr)
          simpa [Val.text', vals, paramRefs_text, withNames_text, k] using this
      | unspecified ns nm =>
        cases e
        have := Spelled.unspecified (x := x) hf
        simpa [Val.text', vals, text_nsOpt, k] using this
      | pointerToMember ty c s a =>
        simp only [Option.bind_eq_bind, Option.bind_eq_some_iff, Option.some.injEq] at e
        obtain ⟨a, ha, b, hb, rfl⟩ := e
        have := Spelled.pointerToMember hf (ih _ _ ha) (ih _ _ hb)
        simpa [Val.text', vals, k] using this
      | modifier kd ty s a =>
        dsimp only at e
        cases hn : (x o).name with
        | some nm =>
          rw [hn] at e
          simp only [Option.map_eq_some_iff] at e
          obtain ⟨r, hr, rfl⟩ := e
          rw [text_namedRef]
          exact .namedModifier hf hn (refId_ends hr)
        | none =>
          rw [hn] at e
          simp only [Option.bind_eq_bind, Option.bind_eq_some_iff, Option.some.injEq] at e
          obtain ⟨a, ha, rfl⟩ := e
          have := Spelled.modifier hf hn (ih _ _ ha)
          simpa [Val.text', vals, modifierText_eq] using this
      | subrange nm ty l u s =>
        cases nm with
        | some nm =>
          simp only [Option.bind_eq_bind, Option.bind_eq_some_iff, Option.map_eq_some_iff, Option.some.injEq] at e
          obtain ⟨a, ⟨r, hr, rfl⟩, rfl⟩ := e
          have := Spelled.namedSubrange (x := x) hf (refId_ends hr)
          simpa [Val.text', vals, text_namedRef, boundsText_eq] using this
        | none =>
          simp only [Option.bind_eq_bind, Option.bind_eq_some_iff, Option.some.injEq] at e
          obtain ⟨a, ha, rfl⟩ := e
          have := Spelled.subrange hf (ih _ _ ha)
          simpa [Val.text', vals, boundsText_eq] using this

/-- Choosing one value and one bound per element. -/
theorem choose_list {α β : Type} (P : Nat → α → β → Prop) (hmono : ∀ n m a b, n ≤ m → P n a b → P m a b)
    (l : List α) (h : ∀ i (hi : i < l.length), ∃ n b, P n l[i] b) :
    ∃ n, ∃ r : List β, r.length = l.length ∧ ∀ i (h1 : i < l.length) (h2 : i < r.length), P n l[i] r[i] := by
  induction l with
  | nil => exact ⟨0, [], rfl, by simp⟩
  | cons a l ih =>
    obtain ⟨n, b, hb⟩ := h 0 (by simp)
    obtain ⟨m, r, hl, hr⟩ := ih (fun i hi => by
      have := h (i + 1) (by simpa using hi)
      simpa using this)
    refine ⟨max n m, b :: r, by simp [hl], fun i h1 h2 => ?_⟩
    cases i with
    | zero => exact hmono _ _ _ _ (Nat.le_max_left _ _) hb
    | succ i => exact hmono _ _ _ _ (Nat.le_max_right _ _) (hr i (by simpa using h1) (by simpa using h2))

theorem typeRef_of_spelled {h : Hash} {x : TypeOffset → Extra} {o : TypeOffset} {s : Str}
    (hs : Spelled h x o s) : ∃ n v, typeRef n h x o = some v := by
  have params : ∀ (ps : List TypeOffset) (ts : List Str), ts.length = ps.length →
      (∀ i (_ : i < ps.length) (_ : i < ts.length), ∃ n v, typeRef n h x ps[i] = some v) →
      ∃ n vs, ps.mapM (typeRef n h x) = some vs := by
    intro ps ts hl ih
    obtain ⟨n, r, hr, hg⟩ := choose_list (fun n o v => typeRef n h x o = some v)
      (fun n m a b hm e => typeRef_le hm e) ps (fun i hi => ih i hi (by omega))
    exact ⟨n, r, mapM_of_get hr hg⟩
  induction hs with
  | missing hf => exact ⟨1, _, by simp only [typeRef, hf]; rfl⟩
  | void hf => exact ⟨1, _, by simp only [typeRef, hf]; rfl⟩
  | base hf => exact ⟨1, _, by simp only [typeRef, hf]; rfl⟩
  | typedef hf => exact ⟨1, _, by simp only [typeRef, hf]; rfl⟩
  | struct_ hf => exact ⟨1, _, by simp only [typeRef, hf]; rfl⟩
  | union_ hf => exact ⟨1, _, by simp only [typeRef, hf]; rfl⟩
  | enum_ hf => exact ⟨1, _, by simp only [typeRef, hf]; rfl⟩
  | unspecified hf => exact ⟨1, _, by simp only [typeRef, hf]; rfl⟩
  | array hf _ ih => obtain ⟨n, v, hv⟩ := ih; exact ⟨n + 1, _, by simp only [typeRef, hf, hv]; rfl⟩
  | modifier hf hn _ ih => obtain ⟨n, v, hv⟩ := ih; exact ⟨n + 1, _, by simp only [typeRef, hf, hn, hv]; rfl⟩
  | subrange hf _ ih => obtain ⟨n, v, hv⟩ := ih; exact ⟨n + 1, _, by simp only [typeRef, hf, hv]; rfl⟩
  | namedModifier hf hn he =>
    obtain ⟨n, r, hr⟩ := ends_refId x he
    exact ⟨n + 1, _, by simp only [typeRef, hf, hn, hr]; rfl⟩
  | namedSubrange hf he =>
    obtain ⟨n, r, hr⟩ := ends_refId x he
    exact ⟨n + 1, _, by simp only [typeRef, hf, hr]; rfl⟩
  | pointerToMember hf _ _ ih1 ih2 =>
    obtain ⟨n, v, hv⟩ := ih1
    obtain ⟨m, w, hw⟩ := ih2
    exact ⟨max n m + 1, _, by
      simp only [typeRef, hf, typeRef_le (Nat.le_max_left n m) hv, typeRef_le (Nat.le_max_right n m) hw]; rfl⟩
  | @procedure o ps ret s ts hf hl _ hr ih =>
    obtain ⟨n, vs, hvs⟩ := params _ _ hl ih
    have : returnShown h ret = false := by
      unfold returnShown
      rcases hr with hr | hr <;> rw [hr]
    exact ⟨n + 1, _, by simp only [typeRef, hf, hvs, this]; rfl⟩
  | @function o ps ret s r t ts hf hl _ hr hne _ ih1 ih2 =>
    obtain ⟨n, vs, hvs⟩ := params _ _ hl ih1
    obtain ⟨m, w, hw⟩ := ih2
    have : returnShown h ret = true := by
      unfold returnShown
      rw [hr]
      split
      · cases ‹_›
      · next h => cases h; exact absurd rfl hne
      · rfl
    have h1 := mapM_mono (fun a _ b hb => typeRef_le (Nat.le_max_left n m) hb) hvs
    have h2 := typeRef_le (Nat.le_max_right n m) hw
    exact ⟨max n m + 1, vals [vals [.text (k "("), paramRefs (withNames (x o).paramNames vs), .text (k ")")], .text (k " -> "), w],
      by simp [typeRef, hf, h1, h2, this]⟩

/-- There is only one way to spell a type. -/
theorem spelled_unique {h : Hash} {x : TypeOffset → Extra} {o : TypeOffset} {s s' : Str}
    (hs : Spelled h x o s) (hs' : Spelled h x o s') : s = s' := by
  have ext : ∀ {ps : List TypeOffset} {ts ts' : List Str}, ts.length = ps.length → ts'.length = ps.length →
      (∀ i (hp : i < ps.length) (ht : i < ts.length), ∀ {s'}, Spelled h x ps[i] s' → ts[i] = s') →
      (∀ i (hp : i < ps.length) (ht : i < ts'.length), Spelled h x ps[i] ts'[i]) → ts = ts' := by
    intro ps ts ts' h1 h2 h3 h4
    exact List.ext_getElem (by omega) fun i hi hi' => h3 i (by omega) hi (h4 i (by omega) hi')
  induction hs generalizing s' with
  | procedure hf hl hp hr ih => cases hs' <;> grind
  | function hf hl hp hr hn _ ih1 ih2 => cases hs' <;> grind
  | _ => cases hs' <;> grind

/-- **C78** (text, converse). A reference that can be spelled out is written, and written like that. -/
theorem C78_written (h : Hash) (x : TypeOffset → Extra) (o : TypeOffset) (s : Str)
    (hs : Spelled h x o s) : ∃ n v, (∀ m, n ≤ m → typeRef m h x o = some v) ∧ v.text' = s := by
  obtain ⟨n, v, hv⟩ := typeRef_of_spelled hs
  refine ⟨n, v, fun m hm => typeRef_le hm hv, ?_⟩
  exact spelled_unique (C78_text n h x o v hv) hs

/-! ## Termination -/

/-- `Mentions h o o'`: the reference at `o` is written with the help of the type at `o'`. -/
inductive Mentions (h : Hash) : TypeOffset → TypeOffset → Prop
  | array {o ty c cs s} : fromOffset h o = some (.array ty c cs s) → Mentions h o ty
  | param {o ps ret s p} : fromOffset h o = some (.function ps ret s) → p ∈ ps → Mentions h o p
  | return_ {o ps ret s} : fromOffset h o = some (.function ps ret s) → Mentions h o ret
  | member {o ty c s a} : fromOffset h o = some (.pointerToMember ty c s a) → Mentions h o ty
  | container {o ty c s a} : fromOffset h o = some (.pointerToMember ty c s a) → Mentions h o c
  | modifier {o kd ty s a} : fromOffset h o = some (.modifier kd ty s a) → Mentions h o ty
  | subrange {o nm ty l u s} : fromOffset h o = some (.subrange nm ty l u s) → Mentions h o ty

theorem ends_of_acc {h : Hash} {o : TypeOffset} (ha : Acc (fun b a => Mentions h a b) o) : Ends h o := by
  induction ha with
  | intro o _ ih =>
    cases hf : fromOffset h o with
    | none => exact .missing hf
    | some t =>
      cases t with
      | array ty c cs s => exact .array hf (ih _ (.array hf))
      | modifier kd ty s a => exact .modifier hf (ih _ (.modifier hf))
      | subrange nm ty l u s => exact .subrange hf (ih _ (.subrange hf))
      | _ => exact .other hf (by intros; simp) (by intros; simp) (by intros; simp)

theorem spelled_of_acc {h : Hash} (x : TypeOffset → Extra) {o : TypeOffset}
    (ha : Acc (fun b a => Mentions h a b) o) : ∃ s, Spelled h x o s := by
  induction ha with
  | intro o hacc ih =>
    cases hf : fromOffset h o with
    | none => exact ⟨_, .missing hf⟩
    | some t =>
      cases t with
      | void => exact ⟨_, .void hf⟩
      | base => exact ⟨_, .base hf⟩
      | def_ => exact ⟨_, .typedef hf⟩
      | struct_ => exact ⟨_, .struct_ hf⟩
      | union_ => exact ⟨_, .union_ hf⟩
      | enum_ => exact ⟨_, .enum_ hf⟩
      | unspecified => exact ⟨_, .unspecified hf⟩
      | array ty c cs s => obtain ⟨e, he⟩ := ih _ (.array hf); exact ⟨_, .array hf he⟩
      | function ps ret s =>
        obtain ⟨n, ts, hl, hts⟩ := choose_list (fun _ o s => Spelled h x o s) (fun _ _ _ _ _ h => h) ps
          (fun i hi => by obtain ⟨s, hs⟩ := ih _ (.param hf (List.getElem_mem hi)); exact ⟨0, s, hs⟩)
        cases hr : returnShown h ret with
        | true =>
          obtain ⟨t, ht, hne⟩ := returnShown_true hr
          obtain ⟨r, hr'⟩ := ih _ (.return_ hf)
          exact ⟨_, .function hf hl hts ht hne hr'⟩
        | false => exact ⟨_, .procedure hf hl hts (returnShown_false hr)⟩
      | pointerToMember ty c s a =>
        obtain ⟨e, he⟩ := ih _ (.member hf)
        obtain ⟨f, hf'⟩ := ih _ (.container hf)
        exact ⟨_, .pointerToMember hf hf' he⟩
      | modifier kd ty s a =>
        cases hn : (x o).name with
        | some nm => exact ⟨nm, .namedModifier hf hn (ends_of_acc (hacc _ (.modifier hf)))⟩
        | none => obtain ⟨e, he⟩ := ih _ (.modifier hf); exact ⟨_, .modifier hf hn he⟩
      | subrange nm ty l u s =>
        cases nm with
        | some nm => exact ⟨_, .namedSubrange hf (ends_of_acc (hacc _ (.subrange hf)))⟩
        | none => obtain ⟨e, he⟩ := ih _ (.subrange hf); exact ⟨_, .subrange hf he⟩

/-- **C78** (termination). Writing a reference comes to an end if the types it is made of do not
lead back to it. -/
theorem C78_returns (h : Hash) (x : TypeOffset → Extra) (o : TypeOffset)
    (ha : Acc (fun b a => Mentions h a b) o) : ∃ n v, ∀ m, n ≤ m → typeRef m h x o = some v := by
  obtain ⟨s, hs⟩ := spelled_of_acc x ha
  obtain ⟨n, v, hv, -⟩ := C78_written h x o s hs
  exact ⟨n, v, hv⟩

/-- Finding: a pointer type that refers to itself is never written to the end. -/
theorem C78_endless_witness :
    let h : Hash := { types := fun o => if o = 5 then some (.modifier .pointer (some 5) .none (some 8)) else none
                      fileTypes := fun _ => none }
    ∀ n, typeRef n h (fun _ => {}) (some 5) = none := by
  intro h n
  induction n with
  | zero => rfl
  | succ n ih =>
    have : fromOffset h (some 5) = some (.modifier .pointer (some 5) .none (some 8)) := rfl
    simp only [typeRef, this, ih]
    rfl

/-! ## Links -/

/-- The links in a value: their target and their text. -/
def _root_.Verif.Print.Val.links : Val → List (Nat × Str)
  | .link i v => (i, v.text') :: v.links
  | .seq v w => v.links ++ w.links
  | _ => []

/-- The type at an offset is one that a listing describes, so that there is something to link to. -/
def Described (h : Hash) (o : TypeOffset) : Prop :=
  (∃ nm s, fromOffset h o = some (.base nm s)) ∨ (∃ ns nm ty, fromOffset h o = some (.def_ ns nm ty)) ∨
  (∃ ns nm s ms vs is, fromOffset h o = some (.struct_ ns nm s ms vs is)) ∨
  (∃ ns nm s ms, fromOffset h o = some (.union_ ns nm s ms)) ∨
  (∃ ns nm ty s, fromOffset h o = some (.enum_ ns nm ty s))

/-- `Within h o o'`: following the parts a reference is made of leads from `o` to `o'`. -/
inductive Within (h : Hash) : TypeOffset → TypeOffset → Prop
  | here {o} : Within h o o
  | step {o p q} : Mentions h o p → Within h p q → Within h o q

/-- The own name of a modified type or of a subrange. -/
def AliasOf (h : Hash) (x : TypeOffset → Extra) (o : TypeOffset) (s : Str) : Prop :=
  (∃ kd ty z a, fromOffset h o = some (.modifier kd ty z a) ∧ (x o).name = some s) ∨
  (∃ ty l u z, fromOffset h o = some (.subrange (some s) ty l u z))

/-- What a link in a reference to the type at `o` may be: it leads to the description of a type that
is part of the reference, and reads like a reference to that type; or it is the name of a modified
type or subrange that is part of the reference, and leads to the type below it. -/
def GoodLink (h : Hash) (x : TypeOffset → Extra) (o : TypeOffset) (l : Nat × Str) : Prop :=
  ∃ p, Within h o p ∧
    ((Described h p ∧ l.1 = (x p).id ∧ Spelled h x p l.2) ∨
     (AliasOf h x p l.2 ∧ ∃ q, Within h p q ∧ Described h q ∧ l.1 = (x q).id))

theorem GoodLink.step {h : Hash} {x : TypeOffset → Extra} {o p : TypeOffset} {l : Nat × Str}
    (hm : Mentions h o p) (hg : GoodLink h x p l) : GoodLink h x o l := by
  obtain ⟨q, hq, hg⟩ := hg
  exact ⟨q, .step hm hq, hg⟩

theorem refId_target {h : Hash} {x : TypeOffset → Extra} {n : Nat} {o : TypeOffset} {i : Nat}
    (e : refId n h x o = some (some i)) : ∃ q, Within h o q ∧ Described h q ∧ i = (x q).id := by
  induction n generalizing o with
  | zero => cases e
  | succ n ih =>
    unfold refId at e
    cases hf : fromOffset h o with
    | none => rw [hf] at e; cases e
    | some t =>
      rw [hf] at e
      cases t with
      | void => cases e
      | function => cases e
      | unspecified => cases e
      | pointerToMember => cases e
      | array ty c cs s => obtain ⟨q, h1, h2⟩ := ih e; exact ⟨q, .step (.array hf) h1, h2⟩
      | modifier kd ty s a => obtain ⟨q, h1, h2⟩ := ih e; exact ⟨q, .step (.modifier hf) h1, h2⟩
      | subrange nm ty l u s => obtain ⟨q, h1, h2⟩ := ih e; exact ⟨q, .step (.subrange hf) h1, h2⟩
      | base nm s => cases e; exact ⟨o, .here, .inl ⟨_, _, hf⟩, rfl⟩
      | def_ => cases e; exact ⟨o, .here, .inr (.inl ⟨_, _, _, hf⟩), rfl⟩
      | struct_ => cases e; exact ⟨o, .here, .inr (.inr (.inl ⟨_, _, _, _, _, _, hf⟩)), rfl⟩
      | union_ => cases e; exact ⟨o, .here, .inr (.inr (.inr (.inl ⟨_, _, _, _, hf⟩))), rfl⟩
      | enum_ => cases e; exact ⟨o, .here, .inr (.inr (.inr (.inr ⟨_, _, _, _, hf⟩))), rfl⟩

theorem links_vals (vs : List Val) : (vals vs).links = vs.flatMap Val.links := by
  induction vs with
  | nil => rfl
  | cons v vs ih => simp [vals, Val.links, ih]

theorem links_nsOpt (ns : Option Namespace) : (nsOpt ns).links = [] := by
  have part : ∀ n kd, (nsPart n kd).links = [] := by
    intro n kd; unfold nsPart; split <;> rfl
  cases ns with
  | none => rfl
  | some ns =>
    show (nsVal ns).links = []
    induction ns with
    | root n kd => exact part n kd
    | child p n kd ih => simp [nsVal, Val.links, ih, part]

theorem links_defName (ns : Option Namespace) (nm : Option Str) : (defName ns nm).links = [] := by
  simp [defName, links_vals, links_nsOpt, Val.links]

theorem links_taggedName (t : Str) (ns : Option Namespace) (nm : Option Str) : (taggedName t ns nm).links = [] := by
  simp [taggedName, links_vals, links_nsOpt, Val.links]

theorem links_paramRef (p : Option Str × Val) : (paramRef p).links = p.2.links := by
  obtain ⟨n, v⟩ := p
  cases n <;> simp [paramRef, links_vals, Val.links]

theorem links_paramRefs (ps : List (Option Str × Val)) : (paramRefs ps).links = ps.flatMap (·.2.links) := by
  cases ps with
  | nil => rfl
  | cons p ps =>
    simp only [paramRefs, Val.links, links_paramRef, links_vals, List.flatMap_cons, List.append_cancel_left_eq]
    induction ps with
    | nil => rfl
    | cons q ps ih => simp [Val.links, links_paramRef, ih]

theorem withNames_snd (ns : List (Option Str)) (vs : List Val) : (withNames ns vs).map Prod.snd = vs := by
  induction vs generalizing ns with
  | nil => cases ns <;> rfl
  | cons v vs ih => cases ns <;> simp [withNames, ih]

theorem links_namedRef {h : Hash} {x : TypeOffset → Extra} {n : Nat} {o ty : TypeOffset} {nm : Str} {r : Option Nat}
    (hm : Mentions h o ty) (ha : AliasOf h x o nm) (hr : refId n h x ty = some r) :
    ∀ l ∈ (namedRef nm r).links, GoodLink h x o l := by
  intro l hl
  cases r with
  | none => simp [namedRef, Val.links] at hl
  | some i =>
    simp [namedRef, Val.links, Val.text'] at hl
    subst hl
    obtain ⟨q, h1, h2, h3⟩ := refId_target hr
    exact ⟨o, .here, .inr ⟨ha, q, .step hm h1, h2, h3⟩⟩

/-- **C78** (links). Every link in a reference leads to the type it names. -/
theorem C78_links (n : Nat) (h : Hash) (x : TypeOffset → Extra) (o : TypeOffset) (v : Val)
    (e : typeRef n h x o = some v) : ∀ l ∈ v.links, GoodLink h x o l := by
  have self : ∀ {w : Val}, v = .link (x o).id w → w.links = [] → Described h o →
      ∀ l ∈ v.links, GoodLink h x o l := by
    intro w hv hw hd l hl
    have ht := C78_text n h x o v e
    subst hv
    simp only [Val.links, hw, List.mem_singleton] at hl
    subst hl
    exact ⟨o, .here, .inl ⟨hd, rfl, ht⟩⟩
  induction n generalizing o v with
  | zero => cases e
  | succ n ih =>
    have ih' : ∀ o v, typeRef n h x o = some v → ∀ l ∈ v.links, GoodLink h x o l := by
      intro o v e
      refine ih o v e ?_
      intro w hv hw hd l hl
      have ht := C78_text n h x o v e
      subst hv
      simp only [Val.links, hw, List.mem_singleton] at hl
      subst hl
      exact ⟨o, .here, .inl ⟨hd, rfl, ht⟩⟩
    unfold typeRef at e
    cases hf : fromOffset h o with
    | none => rw [hf] at e; cases e; simp [Val.links]
    | some t =>
      rw [hf] at e
      cases t with
      | void => cases e; simp [Val.links]
      | base nm s => cases e; exact self rfl rfl (.inl ⟨_, _, hf⟩)
      | def_ ns nm ty => cases e; exact self rfl (links_defName _ _) (.inr (.inl ⟨_, _, _, hf⟩))
      | struct_ => cases e; exact self rfl (links_taggedName _ _ _) (.inr (.inr (.inl ⟨_, _, _, _, _, _, hf⟩)))
      | union_ => cases e; exact self rfl (links_taggedName _ _ _) (.inr (.inr (.inr (.inl ⟨_, _, _, _, hf⟩))))
      | enum_ => cases e; exact self rfl (links_taggedName _ _ _) (.inr (.inr (.inr (.inr ⟨_, _, _, _, hf⟩))))
      | unspecified ns nm => cases e; simp [links_vals, links_nsOpt, Val.links]
      | array ty c cs s =>
        simp only [Option.bind_eq_bind, Option.bind_eq_some_iff, Option.some.injEq] at e
        obtain ⟨a, ha, rfl⟩ := e
        intro l hl
        simp [links_vals, Val.links] at hl
        exact .step (.array hf) (ih' _ _ ha l hl)
      | function ps ret s =>
        simp only [Option.bind_eq_bind, Option.bind_eq_some_iff] at e
        obtain ⟨vs, hvs, e⟩ := e
        have hps : ∀ l ∈ (paramRefs (withNames (x o).paramNames vs)).links, GoodLink h x o l := by
          intro l hl
          rw [links_paramRefs] at hl
          have : (withNames (x o).paramNames vs).flatMap (·.2.links) = vs.flatMap Val.links := by
            rw [← withNames_snd (x o).paramNames vs, List.flatMap_map, withNames_snd]
          rw [this, List.mem_flatMap] at hl
          obtain ⟨v, hv, hl⟩ := hl
          obtain ⟨p, hp, hpv⟩ := mapM_mem hvs v hv
          exact .step (.param hf hp) (ih' _ _ hpv l hl)
        split at e
        · simp only [Option.bind_eq_some_iff, Option.some.injEq] at e
          obtain ⟨r, hr', rfl⟩ := e
          intro l hl
          simp [links_vals, Val.links] at hl
          rcases hl with hl | hl
          · exact hps l hl
          · exact .step (.return_ hf) (ih' _ _ hr' l hl)
        · cases e
          intro l hl
          simp [links_vals, Val.links] at hl
          exact hps l hl
      | pointerToMember ty c s a =>
        simp only [Option.bind_eq_bind, Option.bind_eq_some_iff, Option.some.injEq] at e
        obtain ⟨a, ha, b, hb, rfl⟩ := e
        intro l hl
        simp [links_vals, Val.links] at hl
        rcases hl with hl | hl
        · exact .step (.container hf) (ih' _ _ ha l hl)
        · exact .step (.member hf) (ih' _ _ hb l hl)
      | modifier kd ty s a =>
        dsimp only at e
        cases hn : (x o).name with
        | some nm =>
          rw [hn] at e
          simp only [Option.map_eq_some_iff] at e
          obtain ⟨r, hr, rfl⟩ := e
          exact links_namedRef (.modifier hf) (.inl ⟨_, _, _, _, hf, hn⟩) hr
        | none =>
          rw [hn] at e
          simp only [Option.bind_eq_bind, Option.bind_eq_some_iff, Option.some.injEq] at e
          obtain ⟨a, ha, rfl⟩ := e
          intro l hl
          simp [links_vals, Val.links] at hl
          exact .step (.modifier hf) (ih' _ _ ha l hl)
      | subrange nm ty l u s =>
        cases nm with
        | some nm =>
          simp only [Option.bind_eq_bind, Option.bind_eq_some_iff, Option.map_eq_some_iff, Option.some.injEq] at e
          obtain ⟨a, ⟨r, hr, rfl⟩, rfl⟩ := e
          intro l hl
          simp [links_vals, Val.links] at hl
          exact links_namedRef (.subrange hf) (.inr ⟨_, _, _, _, hf⟩) hr l hl
        | none =>
          simp only [Option.bind_eq_bind, Option.bind_eq_some_iff, Option.some.injEq] at e
          obtain ⟨a, ha, rfl⟩ := e
          intro l hl
          simp [links_vals, Val.links] at hl
          exact .step (.subrange hf) (ih' _ _ ha l hl)

/-- **C78** (link of a described type). A reference to a base type, typedef, struct, union or
enumeration is a link to its description. -/
theorem C78_described (n : Nat) (h : Hash) (x : TypeOffset → Extra) (o : TypeOffset) (v : Val)
    (hd : Described h o) (e : typeRef n h x o = some v) : v.links = [((x o).id, v.text')] := by
  cases n with
  | zero => cases e
  | succ n =>
    rcases hd with ⟨_, _, hf⟩ | ⟨_, _, _, hf⟩ | ⟨_, _, _, _, _, _, hf⟩ | ⟨_, _, _, _, hf⟩ | ⟨_, _, _, _, hf⟩ <;>
    · simp only [typeRef, hf, Option.some.injEq] at e
      subst e
      simp [Val.links, Val.text', links_defName, links_taggedName]

/-! ## A reference always says something -/

/-- No type has the empty string as its name. -/
def NoEmptyNames (h : Hash) (x : TypeOffset → Extra) : Prop :=
  (∀ o, (x o).name ≠ some []) ∧
  (∀ o s, fromOffset h o ≠ some (.base (some []) s)) ∧ (∀ o ns ty, fromOffset h o ≠ some (.def_ ns (some []) ty)) ∧
  (∀ o ns, fromOffset h o ≠ some (.unspecified ns (some []))) ∧
  (∀ o ty l u s, fromOffset h o ≠ some (.subrange (some []) ty l u s))

theorem getD_ne {nm : Option Str} {d : Str} (h : nm ≠ some []) (hd : d ≠ []) : nm.getD d ≠ [] := by
  cases nm with
  | none => exact hd
  | some s => exact fun h' => h (by rw [← h']; rfl)

/-- **C78** (never blank). If no type has an empty name, no reference is blank. -/
theorem C78_not_blank (h : Hash) (x : TypeOffset → Extra) (hn : NoEmptyNames h x) (o : TypeOffset)
    (s : Str) (hs : Spelled h x o s) : s ≠ [] := by
  obtain ⟨h1, h2, h3, h4, h5⟩ := hn
  induction hs with
  | missing => simp [Str.ofString]
  | void => simp [Str.ofString]
  | base hf => exact getD_ne (fun h => h2 _ _ (by rw [hf, h])) (by simp [Str.ofString])
  | @typedef _ _ nm _ hf =>
    have := getD_ne (nm := nm) (d := Str.ofString "<anon-typedef>") (fun h => h3 _ _ _ (by rw [hf, h])) (by simp [Str.ofString])
    simp [this]
  | @unspecified _ _ nm hf =>
    have := getD_ne (nm := nm) (d := Str.ofString "<void>") (fun h => h4 _ _ (by rw [hf, h])) (by simp [Str.ofString])
    simp [this]
  | namedModifier hf hn _ => exact fun h => h1 _ (by rw [hn, h])
  | modifier _ _ _ ih => simp [ih]
  | @namedSubrange _ nm _ _ _ _ hf _ =>
    have : nm ≠ [] := fun h => h5 _ _ _ _ _ (by rw [hf, h])
    simp [this]
  | subrange _ _ ih => simp [ih]
  | _ => simp [Str.ofString]

/-! ## Whole files -/

/-- What printing reads of a file with the given types: sizes as `Type::byte_size` computes them and
references as `print_ref` writes them, with a bound `n` on their depth. -/
def fileSide (n : Nat) (h : Hash) (x : TypeOffset → Extra) : Side where
  hash := h
  extra := x
  tsz o := (fromOffset h o).bind fun t => match byteSize n h t with | .ok s => s | _ => none
  tref o := (typeRef n h x o).getD .nil

/-- **C76/C78** (a file against itself). In a file whose type references do not run in circles, the
diff of a type with itself reports nothing, with the real comparison of types. -/
theorem C78_file_self (n : Nat) (h : Hash) (x : TypeOffset → Extra) (same : Ty → Ty → Bool)
    (hsame : ∀ a b, same a b = true ↔ ∃ m, cmpId false m h a h b = .ok .eq)
    (hacc : ∀ o t, fromOffset h o = some t → Acc (IdRef h) t)
    (o : Options) (heap : Heap) (dir : Option Str) (m : Nat) (t : TypeEntry) (e : D)
    (he : typeD o ⟨fileSide n h x, fileSide n h x, same, heap⟩ dir dir m t t = some e)
    (po : Print.Opts) (ho : po.html = false) (i : Nat) (y : DiffPrefix) (d : Nat) :
    e.flag po i y d = false ∧ (∀ l ∈ e.lines po i y d, l.marked = false) ∧
      (D.printIfDiff e).lines po i y d = [] := by
  refine C76_type_self o (fileSide n h x) same heap (fun q t ht => ?_) dir m t e he po ho i y d
  rw [hsame]
  obtain ⟨m, hm⟩ := (C13_cmpId_self_terminates_iff h t).2 (hacc q t ht)
  have h2 := cmpId_no_panic m h t h t
  have h3 := cmpId_self false m h t
  cases hc : cmpId false m h t h t with
  | ok r => exact ⟨m, by rw [hc, h3 r hc]⟩
  | _ => contradiction

/-- **C76/C78** (nothing reported). If the diff of two types of two files reports no difference, their
listings are the same lines. -/
theorem C78_file_unreported (n : Nat) (ha hb : Hash) (xa xb : TypeOffset → Extra) (same : Ty → Ty → Bool)
    (hna : NoEmptyNames ha xa) (hnb : NoEmptyNames hb xb)
    (hta : ∀ o, (typeRef n ha xa o).isSome) (htb : ∀ o, (typeRef n hb xb o).isSome)
    (o : Options) (heap : Heap) (da db : Option Str) (m : Nat) (a b : TypeEntry) (e : D)
    (he : typeD o ⟨fileSide n ha xa, fileSide n hb xb, same, heap⟩ da db m a b = some e)
    (po : Print.Opts) (i : Nat) (y : DiffPrefix) (d : Nat) (hf : e.flag po i y d = false) :
    ∃ p q, typeP o (fileSide n ha xa) da m a = some p ∧ typeP o (fileSide n hb xb) db m b = some q ∧
      p.lines po.http i .none d = q.lines po.http i .none d := by
  have key : ∀ (h : Hash) (x : TypeOffset → Extra), NoEmptyNames h x → (∀ o, (typeRef n h x o).isSome) →
      ∀ o, ((fileSide n h x).tref o).text' ≠ [] := by
    intro h x hn ht o
    obtain ⟨v, hv⟩ := Option.isSome_iff_exists.1 (ht o)
    simp only [fileSide, hv, Option.getD_some]
    exact C78_not_blank h x hn o _ (C78_text n h x o v hv)
  exact C76_type_unreported o ⟨fileSide n ha xa, fileSide n hb xb, same, heap⟩ da db m a b e he
    (key ha xa hna hta) (key hb xb hnb htb) po i y d hf

/-! ## Examples -/

/-- `const char *const`, `int [3, ??]`, a function taking it and a named pointer, `a::f()::S`. -/
def refHash : Hash where
  types := fun o => [
    (1, Ty.base (some (k "char")) ⟨1⟩), (2, .modifier .const_ (some 1) .none none), (3, .modifier .pointer (some 2) .none (some 8)),
    (4, .base (some (k "int")) ⟨4⟩), (5, .array (some 4) .none [⟨3⟩, .none] .none),
    (6, .struct_ (some (.child (.root (some (k "a")) .namespace_) (some (k "f")) .function)) (some (k "S")) ⟨8⟩ [] [] []),
    (7, .function [some 3, some 5] (some 6) .none), (8, .modifier .pointer (some 7) .none (some 8)),
    (9, .pointerToMember (some 4) (some 6) .none (some 8)), (10, .subrange none (some 4) (some 1) (some 10) .none),
    (11, .function [none] none .none), (12, .modifier .pointer (some 6) .none (some 8))].lookup o
  fileTypes := fun _ => none

/-- Ids, names of parameters and of the type at 12. -/
def refExtra : TypeOffset → Extra
  | some 7 => { paramNames := [some (k "fmt"), none] }
  | some 12 => { name := some (k "SPtr") }
  | some o => { id := o }
  | none => {}

/-- What is written in these examples. -/
def refText (o : TypeOffset) : Option Str := (typeRef 5 refHash refExtra o).map Val.text'

example : refText (some 3) = some (k "* const char") ∧ refText (some 5) = some (k "[int; 3, ??]") ∧
    refText (some 8) = some (k "* (fmt: * const char, [int; 3, ??]) -> struct a::f()::S") ∧
    refText (some 9) = some (k "struct a::f()::S::* int") ∧ refText (some 10) = some (k "int 1..10") ∧
    refText (some 11) = some (k "(void)") ∧ refText (some 12) = some (k "SPtr") ∧
    refText (some 99) = some (k "<invalid-type>") := by decide +kernel

example : (typeRef 5 refHash refExtra (some 12)).map Val.links = some [(6, k "SPtr")] ∧
    (typeRef 5 refHash refExtra (some 8)).map Val.links =
      some [(1, k "char"), (4, k "int"), (6, k "struct a::f()::S")] := by decide +kernel

end Verif.Show
