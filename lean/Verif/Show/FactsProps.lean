import Verif.Show.TypeFacts
/-!
# C83, C84: the facts behind a listing
-/
namespace Verif.Show
open Verif.Print Verif.Item Verif.Namespace Verif.Types Verif.Layout Verif.Path Verif.Opts Verif.Merge

/-! ## Sequences of labelled parts -/

theorem seqs_split {http : Bool} {i : Nat} {x : DiffPrefix} {d : Nat} {Ls : List Str} {ps qs : List P} (hn : Ls.Nodup)
    (hp : All2 (fun L p => Part i L (P.ls http p i x d)) Ls ps)
    (hq : All2 (fun L p => Part i L (P.ls http p i x d)) Ls qs)
    (e : (P.seqs ps).ls http i x d = (P.seqs qs).ls http i x d) :
    ps.map (fun p => p.ls http i x d) = qs.map (fun p => p.ls http i x d) := by
  have conv : ∀ {ps : List P}, All2 (fun L p => Part i L (P.ls http p i x d)) Ls ps →
      (Ls.zip (ps.map (fun p => p.ls http i x d))).map (·.1) = Ls ∧
      (Ls.zip (ps.map (fun p => p.ls http i x d))).map (·.2) = ps.map (fun p => p.ls http i x d) ∧
      ∀ z ∈ Ls.zip (ps.map (fun p => p.ls http i x d)), Part i z.1 z.2 := by
    intro ps h
    clear hn hp hq e qs
    induction h with
    | nil => simp
    | cons h _ ih =>
      refine ⟨by simp [ih.1], by simp [ih.2.1], ?_⟩
      intro z hz
      simp only [List.map_cons, List.zip_cons_cons, List.mem_cons] at hz
      rcases hz with rfl | hz
      · exact h
      · exact ih.2.2 z hz
  obtain ⟨a1, a2, a3⟩ := conv hp
  obtain ⟨b1, b2, b3⟩ := conv hq
  have := parts_eq (i := i) (ps := Ls.zip (ps.map (fun p => p.ls http i x d)))
    (qs := Ls.zip (qs.map (fun p => p.ls http i x d))) (by rw [a1, b1]) (by rw [a1]; exact hn) a3 b3 (by
      rw [a2, b2]
      rw [P.ls_seqs, P.ls_seqs, List.flatMap_def, List.flatMap_def] at e
      exact e)
  rw [← a2, ← b2, this]

/-! ## Texts of values -/

theorem sizeVal_eq {a b : Option Nat} (h : (sizeVal a).text' = (sizeVal b).text') : a = b := by
  cases a <;> cases b <;> simp [sizeVal, Val.text', dec_ne_nil, eq_comm (a := ([] : Str))] at h ⊢
  exact dec_inj h

theorem yesVal_eq {a b : Bool} (h : (yesVal a).text' = (yesVal b).text') : a = b := by
  revert h; cases a <;> cases b <;> decide

theorem encodingVal_eq {a b : Encoding} (h : (encodingVal a).text' = (encodingVal b).text') : a = b := by
  revert h; cases a <;> cases b <;> decide

theorem endianityVal_eq {a b : Endianity} (h : (endianityVal a).text' = (endianityVal b).text') : a = b := by
  revert h; cases a <;> cases b <;> decide

theorem sourceP_part (o : Options) (dir : Option Str) (s : Source) (http : Bool) (i : Nat) (x : DiffPrefix) (d : Nat) :
    Part i (k "source") ((sourceP o dir s).ls http i x d) := by
  unfold sourceP
  split
  · exact part_line ..
  · exact part_skip ..

theorem sourceP_eq {o : Options} {da db : Option Str} {s t : Source} {http : Bool} {i : Nat} {x : DiffPrefix} {d : Nat}
    (h : (sourceP o da s).ls http i x d = (sourceP o db t).ls http i x d) (ho : o.printSource = true) :
    s.print da = t.print db := by
  simp only [sourceP, ho, if_true] at h
  exact line_eq h

theorem inheritsP_part (s : Side) (l : List Inherit) (http : Bool) (i : Nat) (x : DiffPrefix) (d : Nat) :
    Part i (k "inherits") ((inheritsP s l).ls http i x d) := by
  unfold inheritsP
  split
  · exact part_skip ..
  · exact part_line ..
  · refine part_field _ _ _ _ _ _ (NoBlank.seqs fun p hp => ?_)
    obtain ⟨j, -, rfl⟩ := List.mem_map.1 hp
    exact NoBlank.line _ _

theorem inheritsP_eq {s s' : Side} (hs : ∀ o, (s.tref o).text' ≠ []) (hs' : ∀ o, (s'.tref o).text' ≠ [])
    {l l' : List Inherit} {http : Bool} {i : Nat} {x : DiffPrefix} {d : Nat}
    (h : (inheritsP s l).ls http i x d = (inheritsP s' l').ls http i x d) :
    l.map (fun i => (s.tref i.ty).text') = l'.map (fun i => (s'.tref i.ty).text') := by
  have one : ∀ (s : Side), (∀ o, (s.tref o).text' ≠ []) → ∀ a, (P.line (k "inherits") (inheritVal s a)).ls http i x d =
      [.line x i (k "inherits") (s.tref a.ty).text'] := by
    intro s hs a; simp [P.ls, inheritVal, hs]
  have many : ∀ (s : Side), (∀ o, (s.tref o).text' ≠ []) → ∀ (l : List Inherit),
      (P.seqs (l.map (inheritP s))).ls http (i + 1) x d = l.map fun a => .line x (i + 1) [] (s.tref a.ty).text' := by
    intro s hs l
    rw [P.ls_seqs, List.flatMap_map]
    induction l with
    | nil => rfl
    | cons a l ih => rw [List.flatMap_cons, ih]; simp [inheritP, P.ls, inheritVal, hs]
  have full : ∀ (s : Side), (∀ o, (s.tref o).text' ≠ []) → ∀ (a b : Inherit) (l : List Inherit),
      (inheritsP s (a :: b :: l)).ls http i x d = .line x i (k "inherits") [] ::
        (a :: b :: l).map fun a => .line x (i + 1) [] (s.tref a.ty).text' := by
    intro s hs a b l
    have : inheritsP s (a :: b :: l) = .field false (k "inherits") (.seqs ((a :: b :: l).map (inheritP s))) := rfl
    rw [this, P.ls, many s hs]
    simp
  match l, l' with
  | [], [] => rfl
  | [], [b] => rw [show inheritsP s' [b] = .line (k "inherits") (inheritVal s' b) from rfl, one s' hs'] at h; cases h
  | [], b :: c :: l' => rw [full s' hs'] at h; cases h
  | [a], [] => rw [show inheritsP s [a] = .line (k "inherits") (inheritVal s a) from rfl, one s hs] at h; cases h
  | [a], [b] =>
    rw [show inheritsP s [a] = .line (k "inherits") (inheritVal s a) from rfl, one s hs,
      show inheritsP s' [b] = .line (k "inherits") (inheritVal s' b) from rfl, one s' hs'] at h
    simpa using h
  | [a], b :: c :: l' =>
    rw [show inheritsP s [a] = .line (k "inherits") (inheritVal s a) from rfl, one s hs, full s' hs'] at h
    simp at h
  | a :: b :: l, [] => rw [full s hs] at h; cases h
  | a :: b :: l, [c] =>
    rw [show inheritsP s' [c] = .line (k "inherits") (inheritVal s' c) from rfl, one s' hs', full s hs] at h
    simp at h
  | a :: b :: l, a' :: b' :: l' =>
    rw [full s hs, full s' hs'] at h
    have h := (List.cons.inj h).2
    have := congrArg (List.map fun l => (match l with | Line.line _ _ _ b => b | _ => [] : Str)) h
    simpa [List.map_map, Function.comp_def] using this

theorem enumeratorsP_eq {l l' : List Enumerator} (hl : ∀ e ∈ l, Plain e.name) (hl' : ∀ e ∈ l', Plain e.name)
    {http : Bool} {i : Nat} {x : DiffPrefix} {d : Nat}
    (h : (P.seqs (l.map enumeratorP)).ls http i x d = (P.seqs (l'.map enumeratorP)).ls http i x d) :
    All2 (fun e e' : Enumerator => e.name = e'.name ∧ e.value.number = e'.value.number) l l' := by
  have ne : ∀ (e : Enumerator), Plain e.name → (enumeratorVal e).text' ≠ [] := by
    intro e he
    exact enumeratorVal_ne fun hn => (he [] hn).1 rfl
  refine all2_imp (listP_split (listP_map l enumeratorP) (listP_map l' enumeratorP) ?_ ?_ h) ?_
  · intro a ha p hp; cases hp; exact group_line (ne a (hl a ha)) ..
  · intro a ha p hp; cases hp; exact group_line (ne a (hl' a ha)) ..
  · rintro a b ⟨ha, hb, p, q, h1, h2, e⟩
    cases h1; cases h2
    have e := line_eq e
    have r1 := enumeratorReads_val a
    have r2 := enumeratorReads_val b
    rw [e] at r1
    exact r1.same r2 (hl a ha) (hl' b hb)

/-! ## Types -/

theorem defInline_from {s : Side} {o : TypeOffset} {t : Ty} (h : defInline s o = some t) : fromOffset s.hash o = some t := by
  unfold defInline at h
  split at h
  · rename_i t' ht
    split at h
    · cases h; exact ht
    · cases h
  · cases h

theorem def_body (o : Options) (s : Side) (dir : Option Str) (n : Nat) (x : Extra) (ns : Option Namespace)
    (nm : Option Str) (ty : TypeOffset) (p : P) (h : bodyP o s dir n x (.def_ ns nm ty) = some p) :
    ∃ ms, membersP s (n + 1) (defInline s ty) = some ms ∧ ∀ http i y d, p.ls http i y d =
      (P.seqs [sourceP o dir x.source, .line (k "size") (sizeVal (s.tsz ty)), .field false (k "members") ms]).ls http i y d := by
  simp only [bodyP] at h
  split at h
  · rename_i t ht
    simp only [Option.bind_eq_bind, Option.bind_eq_some_iff, Option.some.injEq] at h
    obtain ⟨ms, hms, rfl⟩ := h
    exact ⟨ms, by rw [ht]; exact membersP_mono s n _ _ hms, fun _ _ _ _ => rfl⟩
  · rename_i ht
    cases h
    refine ⟨.skip, by rw [ht]; rfl, fun http i y d => ?_⟩
    simp [P.seqs, P.ls]

theorem typeBody_same {o : Options} {s s' : Side} {da db : Option Str} {n : Nat} {x y : Extra} {t t' : Ty} {p q : P}
    {hd hd' : Val} (hh : headerVal s t = some hd) (hh' : headerVal s' t' = some hd') (ht : hd.text' = hd'.text')
    (hb : bodyP o s da n x t = some p) (hb' : bodyP o s' db n y t' = some q)
    (hs : ∀ o, (s.tref o).text' ≠ []) (hs' : ∀ o, (s'.tref o).text' ≠ [])
    (hf : PlainFile s) (hf' : PlainFile s') (hp : PlainTy t) (hp' : PlainTy t')
    (he : ∀ e ∈ x.enumerators, Plain e.name) (he' : ∀ e ∈ y.enumerators, Plain e.name)
    {http : Bool} {i : Nat} {w : DiffPrefix} {d : Nat} (e : p.ls http i w d = q.ls http i w d)
    (hk : ∃ c z, headerD c t t' = some z) : SameType o s s' da db x y t t' := by
  have e4 : k " = " = [32, 61, 32] := by decide
  have nd5 : [k "source", k "declaration", k "size", k "inherits", k "members"].Nodup := by decide
  have ndE : [k "source", k "declaration", k "size", k "enumerators"].Nodup := by decide
  have nd4 : [k "source", k "declaration", k "size", k "members"].Nodup := by decide
  have nd3 : [k "source", k "size", k "members"].Nodup := by decide
  have ndB : [k "size", k "encoding", k "endianity"].Nodup := by decide
  have title : ∀ (tag : Str) (ns : Option Namespace) (nm : Option Str) (ns' : Option Namespace) (nm' : Option Str),
      (taggedName tag ns nm).text' = (taggedName tag ns' nm').text' → titled ns nm = titled ns' nm' := by
    intro tag ns nm ns' nm' h
    simp only [taggedName, text_vals, List.flatMap_cons, List.flatMap_nil, List.append_nil, Val.text', text_nsOpt] at h
    exact List.append_cancel_left h
  obtain ⟨c, z, hk⟩ := hk
  unfold headerD at hk
  split at hk
  · rename_i n1 z1 n2 z2
    cases hh; cases hh'; cases hb; cases hb'
    have hs := seqs_split ndB (.cons (part_line ..) (.cons (part_line ..) (.cons (part_line ..) .nil)))
      (.cons (part_line ..) (.cons (part_line ..) (.cons (part_line ..) .nil))) e
    simp only [List.map_cons, List.map_nil, List.cons.injEq, and_true] at hs
    obtain ⟨h1, h2, h3⟩ := hs
    refine .base ?_ (sizeVal_eq (line_eq h1)) (encodingVal_eq (line_eq h2)) (endianityVal_eq (line_eq h3))
    exact List.append_cancel_left (as := k "base ") ht
  · rename_i ns1 n1 t1 ns2 n2 t2
    cases hh; cases hh'
    obtain ⟨ms, hms, e1⟩ := def_body o s da n x ns1 n1 t1 p hb
    obtain ⟨ms', hms', e2⟩ := def_body o s' db n y ns2 n2 t2 q hb'
    rw [e1, e2] at e
    have hs := seqs_split nd3 (.cons (sourceP_part ..) (.cons (part_line ..) (.cons (part_field _ _ _ _ _ _ (membersP_clean _ _ _ _ hms)) .nil)))
      (.cons (sourceP_part ..) (.cons (part_line ..) (.cons (part_field _ _ _ _ _ _ (membersP_clean _ _ _ _ hms')) .nil))) e
    simp only [List.map_cons, List.map_nil, List.cons.injEq, and_true] at hs
    obtain ⟨h1, h2, h3⟩ := hs
    simp only [defVal, defName, text_vals, List.flatMap_cons, List.flatMap_nil, List.append_nil, Val.text', text_nsOpt] at ht
    have ht := List.append_cancel_left ht
    rw [e4, List.cons_append, List.cons_append] at ht
    have ht : (scopeText ns1 ++ n1.getD (k "<anon-typedef>")) ++ [32] ++ 61 :: (32 :: (s.tref t1).text') =
        (scopeText ns2 ++ n2.getD (k "<anon-typedef>")) ++ [32] ++ 61 :: (32 :: (s'.tref t2).text') := by
      simpa using ht
    obtain ⟨h4, h5⟩ := cut_at (by simpa [PlainTy] using hp) (by simpa [PlainTy] using hp') ht
    refine .def_ (List.append_cancel_right h4) (List.cons.inj h5).2 (sizeVal_eq (line_eq h2)) (sourceP_eq h1) ?_
    exact membersP_same_all hf hf' hms hms' (fun t ht => hf _ _ (defInline_from ht)) (fun t ht => hf' _ _ (defInline_from ht))
      (field_eq h3)
  · rename_i ns1 n1 z1 ms1 vs1 is1 ns2 n2 z2 ms2 vs2 is2
    cases hh; cases hh'
    simp only [bodyP, Option.bind_eq_bind, Option.bind_eq_some_iff, Option.some.injEq] at hb hb'
    obtain ⟨ms, hms, rfl⟩ := hb
    obtain ⟨ms', hms', rfl⟩ := hb'
    have hs := seqs_split nd5
      (.cons (sourceP_part ..) (.cons (part_line ..) (.cons (part_line ..) (.cons (inheritsP_part ..)
        (.cons (part_field _ _ _ _ _ _ (membersP_clean _ _ _ _ hms)) .nil)))))
      (.cons (sourceP_part ..) (.cons (part_line ..) (.cons (part_line ..) (.cons (inheritsP_part ..)
        (.cons (part_field _ _ _ _ _ _ (membersP_clean _ _ _ _ hms')) .nil))))) e
    simp only [List.map_cons, List.map_nil, List.cons.injEq, and_true] at hs
    obtain ⟨h1, h2, h3, h4, h5⟩ := hs
    refine .struct_ (title _ _ _ _ _ ht) (sizeVal_eq (line_eq h3)) (yesVal_eq (line_eq h2)) (sourceP_eq h1) ?_ ?_
    · exact inheritsP_eq ‹_› ‹_› h4
    · exact membersP_same_all hf hf' hms hms' (fun t ht => by cases ht; exact hp) (fun t ht => by cases ht; exact hp') (field_eq h5)
  · cases hh; cases hh'
    simp only [bodyP, Option.bind_eq_bind, Option.bind_eq_some_iff, Option.some.injEq] at hb hb'
    obtain ⟨ms, hms, rfl⟩ := hb
    obtain ⟨ms', hms', rfl⟩ := hb'
    have hs := seqs_split nd4
      (.cons (sourceP_part ..) (.cons (part_line ..) (.cons (part_line ..)
        (.cons (part_field _ _ _ _ _ _ (membersP_clean _ _ _ _ hms)) .nil))))
      (.cons (sourceP_part ..) (.cons (part_line ..) (.cons (part_line ..)
        (.cons (part_field _ _ _ _ _ _ (membersP_clean _ _ _ _ hms')) .nil)))) e
    simp only [List.map_cons, List.map_nil, List.cons.injEq, and_true] at hs
    obtain ⟨h1, h2, h3, h5⟩ := hs
    refine .union_ (title _ _ _ _ _ ht) (sizeVal_eq (line_eq h3)) (yesVal_eq (line_eq h2)) (sourceP_eq h1) ?_
    exact membersP_same_all hf hf' hms hms' (fun t ht => by cases ht; exact hp) (fun t ht => by cases ht; exact hp') (field_eq h5)
  · cases hh; cases hh'; cases hb; cases hb'
    have nb : ∀ l : List Enumerator, NoBlank (.seqs (l.map enumeratorP)) := by
      intro l
      refine NoBlank.seqs fun p hp => ?_
      obtain ⟨j, -, rfl⟩ := List.mem_map.1 hp
      exact NoBlank.line _ _
    have hs := seqs_split ndE
      (.cons (sourceP_part ..) (.cons (part_line ..) (.cons (part_line ..) (.cons (part_field _ _ _ _ _ _ (nb _)) .nil))))
      (.cons (sourceP_part ..) (.cons (part_line ..) (.cons (part_line ..) (.cons (part_field _ _ _ _ _ _ (nb _)) .nil)))) e
    simp only [List.map_cons, List.map_nil, List.cons.injEq, and_true] at hs
    obtain ⟨h1, h2, h3, h5⟩ := hs
    exact .enum_ (title _ _ _ _ _ ht) (sizeVal_eq (line_eq h3)) (yesVal_eq (line_eq h2)) (sourceP_eq h1)
      (enumeratorsP_eq he he' (field_eq h5))
  · cases hk

/-! ## Theorems -/

/-- Numbers are written in decimal, and can be read back. -/
theorem C83_numbers (n : Nat) : Decimal (dec n) n ∧ ∀ m, Decimal (dec n) m → m = n :=
  ⟨decimal_dec n, fun _ h => h.unique (decimal_dec n)⟩

/-- Every line of the member list of a struct, at its own level, gives the offset and the size in
bytes (and bits) of the item it is for, and what the item is: a member with its name and type, a
base class, a variant part or a gap. The items are those of the layout (C14, C15), in order. -/
theorem C83_struct (s : Side) (n : Nat) (ns : Option Namespace) (name : Option Str) (size : Size) (ms : List Member)
    (vps : List VariantPart) (inh : List Inherit) (p : P)
    (h : membersP s n (some (.struct_ ns name size ms vps inh)) = some p) (http : Bool) (i : Nat) (x : DiffPrefix) (d : Nat) :
    ∃ texts, (p.lines http i x d).filter (fun l => l.indent == some i) = texts.map (.line x i []) ∧
      All2 (ItemReads s) (structLayout ms inh vps size s.tsz) texts := by
  refine ⟨(structLayout ms inh vps size s.tsz).map (itemLine s), ?_, ?_⟩
  · rw [List.map_map]
    exact (C77_struct_members s n ns name size ms vps inh p h http i x d).1
  · induction structLayout ms inh vps size s.tsz with
    | nil => exact .nil
    | cons l ls ih => exact .cons (itemReads_line s l) ih

/-- The line of an item determines its offset, size, name and the text of its type, if members have
names as in source code. -/
theorem C83_item_determined (s s' : Side) (l l' : Layout) (t : Str) (h : ItemReads s l t) (h' : ItemReads s' l' t)
    (hp : ∀ m, l.item = .member m → Plain m.name) (hp' : ∀ m, l'.item = .member m → Plain m.name) :
    SameItem s s' (fun _ _ => True) (fun _ _ _ _ => True) l l' := h.same h' hp hp'

/-- What the listing of an enumeration contains: for every enumerator, in order, a line with its
name and its value, from which both can be read back. -/
theorem C83_enumerators (l : List Enumerator) (hl : ∀ e ∈ l, Plain e.name) (http : Bool) (i : Nat) (x : DiffPrefix) (d : Nat) :
    (∃ texts, (P.seqs (l.map enumeratorP)).lines http i x d = texts.map (.line x i []) ∧ All2 EnumeratorReads l texts) ∧
    ∀ e e' t, Plain e.name → Plain e'.name → EnumeratorReads e t → EnumeratorReads e' t →
      e.name = e'.name ∧ e.value.number = e'.value.number := by
  refine ⟨⟨l.map fun e => (enumeratorVal e).text', ?_, ?_⟩, fun e e' t hp hp' h h' => h.same h' hp hp'⟩
  · rw [P.lines_eq, P.ls_seqs, List.flatMap_map, List.map_map]
    induction l with
    | nil => rfl
    | cons e l ih =>
      have ne : (enumeratorVal e).text' ≠ [] :=
        enumeratorVal_ne fun hn => (hl e (List.mem_cons_self ..) [] hn).1 rfl
      rw [List.flatMap_cons, ih fun e he => hl e (List.mem_cons_of_mem _ he)]
      simp [enumeratorP, P.ls, ne]
  · clear hl
    induction l with
    | nil => exact .nil
    | cons e l ih => exact .cons (enumeratorReads_val e) ih

/-- The headings of two types tell their kinds. -/
theorem header_kind {s s' : Side} {t t' : Ty} {v v' : Val} (h : headerVal s t = some v) (h' : headerVal s' t' = some v')
    (e : v.text' = v'.text') (c : Pair) : ∃ z, headerD c t t' = some z := by
  cases t <;> cases t' <;> cases h <;> cases h' <;>
    first
      | exact ⟨_, rfl⟩
      | (exfalso; simp [baseName, defVal, defName, taggedName, vals, Val.text', k, Str.ofString] at e)

/-- Two types whose listings are the same have the same facts. -/
theorem typeP_same {o : Options} {s s' : Side} {da db : Option Str} {n : Nat} {a b : TypeEntry} {p q : P}
    (hp : typeP o s da n a = some p) (hq : typeP o s' db n b = some q)
    (ha : ∀ o, (s.tref o).text' ≠ []) (hb : ∀ o, (s'.tref o).text' ≠ [])
    (hfa : PlainFile s) (hfb : PlainFile s') (hpa : PlainTy a.kind) (hpb : PlainTy b.kind)
    (hea : ∀ e ∈ (s.extra a.offset).enumerators, Plain e.name) (heb : ∀ e ∈ (s'.extra b.offset).enumerators, Plain e.name)
    {http : Bool} {i : Nat} {x : DiffPrefix} {d : Nat} (eq : p.lines http i x d = q.lines http i x d) :
    SameType o s s' da db (s.extra a.offset) (s'.extra b.offset) a.kind b.kind := by
  simp only [typeP, Option.bind_eq_bind, Option.bind_eq_some_iff, Option.some.injEq] at hp hq
  obtain ⟨h1, hh1, b1, hb1, rfl⟩ := hp
  obtain ⟨h2, hh2, b2, hb2, rfl⟩ := hq
  have ne : ∀ {s : Side} {t : Ty} {v : Val}, headerVal s t = some v → v.text' ≠ [] := by
    intro s t v h
    unfold headerVal at h
    split at h <;> cases h <;> simp [baseName, defVal, taggedName, vals, Val.text', k, Str.ofString]
  rw [P.lines_eq, P.lines_eq] at eq
  simp only [P.ls, ne hh1, ne hh2, if_false, List.cons_append, List.nil_append, List.cons.injEq, Line.line.injEq, true_and] at eq
  obtain ⟨z, hz⟩ := header_kind hh1 hh2 eq.1 ⟨s, s', fun _ _ => false, listHeap⟩
  exact typeBody_same hh1 hh2 eq.1 hb1 hb2 ha hb hfa hfb hpa hpb hea heb (List.append_cancel_right eq.2) ⟨_, z, hz⟩

/-- No change of a type goes unreported: if the diff of two types reports no difference, the two
types have the same name, size, declaration flag, encoding, endianity, base classes (as written),
enumerators (names and values), and, to any depth, the same members, gaps, base classes, variant
parts and variants: at the same offsets, with the same sizes, names and types (as written). -/
theorem C84_type (o : Options) (c : Pair) (da db : Option Str) (n : Nat) (a b : TypeEntry) (e : D)
    (he : typeD o c da db n a b = some e)
    (ha : ∀ o, (c.a.tref o).text' ≠ []) (hb : ∀ o, (c.b.tref o).text' ≠ [])
    (hfa : PlainFile c.a) (hfb : PlainFile c.b) (hpa : PlainTy a.kind) (hpb : PlainTy b.kind)
    (hea : ∀ e ∈ (c.a.extra a.offset).enumerators, Plain e.name) (heb : ∀ e ∈ (c.b.extra b.offset).enumerators, Plain e.name)
    (po : Print.Opts) (i : Nat) (x : DiffPrefix) (d : Nat) (hf : e.flag po i x d = false) :
    SameType o c.a c.b da db (c.a.extra a.offset) (c.b.extra b.offset) a.kind b.kind := by
  obtain ⟨p, q, hp, hq, eq⟩ := C76_type_unreported o c da db n a b e he ha hb po i x d hf
  exact typeP_same hp hq ha hb hfa hfb hpa hpb hea heb eq

end Verif.Show
