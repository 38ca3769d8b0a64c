import Verif.Show.FileRowsSpec
import Verif.Show.Rows
import Verif.Show.TypeFacts
import Verif.Show.FactsProps
/-! # Which rows the listings of types, variables, units and files consist of -/
namespace Verif.Show
open Verif.Print Verif.Item Verif.Namespace Verif.Types Verif.Layout Verif.Opts Verif.Range Verif.File

variable {http : Bool} {d : Nat}

/-! ## Types -/

theorem below_inline (s : Side) (m : Member) : Below s m (inlineTy s m) := by
  unfold inlineTy Filter.memberInline
  cases ht : fromOffset s.hash m.ty with
  | none => simp only [ite_self]; exact .unknown ht
  | some t =>
    cases hn : m.name with
    | none => simp only [if_true]; exact .listed ht (.inl hn)
    | some n =>
      simp only
      by_cases hp : (k "RUST$ENCODED$ENUM$").isPrefixOf n = true
      · simp only [hp, if_true]
        obtain ⟨r, rfl⟩ := List.isPrefixOf_iff_prefix.1 hp
        exact .listed ht (.inr (.inl ⟨r, hn⟩))
      · simp only [hp]
        cases ha : t.isAnon with
        | true => exact .listed ht (.inr (.inr ha))
        | false =>
          exact .named hn (fun r hr => hp (List.isPrefixOf_iff_prefix.2 ⟨r, hr.symm⟩)) ht ha

theorem itemReads_ne {s : Side} {l : Layout} {t : Str} (h : ItemReads s l t) : t ≠ [] := by
  cases h <;> simp [k, Str.ofString]

theorem variantReads_ne {v : Variant} {t : Str} (h : VariantReads v t) : t ≠ [] := by
  cases h <;> simp [k, Str.ofString]

theorem entry_ne {t : Str} (h : t ≠ []) (rows : List Row) : entry t rows = ⟨0, [], t⟩ :: rows.map Row.deeper := by
  simp [entry, oneRow, h]

/-- What is known of the printing of the items below a member. -/
abbrev ItemsOk (s : Side) (rec : Option Ty → Option P) : Prop :=
  ∀ (http : Bool) (d : Nat) t p, rec t = some p → ∃ rows, ItemsRows s (itemsOf s t) rows ∧ RowsOf http d p rows

theorem layoutItem_rows {s : Side} {rec : Option Ty → Option P} {vs : Layout → List Variant → Option P}
    (hr : ItemsOk s rec) (l : Layout)
    (hv : ∀ vp p, l.item = .variantPart vp → vs l vp.variants = some p →
      ∃ rows, VariantsRows s l vp.variants rows ∧ RowsOf http d p rows)
    {p : P} (h : layoutItemP s rec vs l = some p) : ∃ rows, ItemRows s l rows ∧ RowsOf http d p rows := by
  have hread := itemReads_line s l
  have hne := itemReads_ne hread
  unfold layoutItemP at h
  split at h
  · rename_i hi
    cases h
    refine ⟨_, .padding hi hread, ?_⟩
    have : (paddingVal l).text' = itemLine s l := by simp [itemLine, hi, paddingVal, extentStr, Val.text', k, Str.ofString]
    have := rowsOf_line' (http := http) (d := d) (L := []) this
    rwa [oneRow, if_neg hne] at this
  · rename_i m hi
    simp only [memberP, Option.bind_eq_bind, Option.bind_eq_some_iff, Option.some.injEq] at h
    obtain ⟨b, hb, rfl⟩ := h
    obtain ⟨rows, h1, h2⟩ := hr http d _ _ hb
    refine ⟨_, .member hi hread (below_inline s m) h1, ?_⟩
    rw [← entry_ne hne]
    refine rowsOf_indent false ?_ h2
    rw [itemLine, hi, memberVal_text]
  · rename_i vp hi
    simp only [Option.bind_eq_bind, Option.bind_eq_some_iff, Option.some.injEq] at h
    obtain ⟨b, hb, rfl⟩ := h
    obtain ⟨rows, h1, h2⟩ := hv vp b hi hb
    refine ⟨_, .variantPart hi hread h1, ?_⟩
    rw [← entry_ne hne]
    refine rowsOf_indent false ?_ h2
    simp [itemLine, hi, variantPartVal, extentStr, Val.text', k, Str.ofString]
  · rename_i i hi
    cases h
    refine ⟨_, .base hi hread, ?_⟩
    have : (layoutInheritVal s l i).text' = itemLine s l := by
      simp [itemLine, hi, layoutInheritVal, extentStr, vals, Val.text', k, Str.ofString]
    have := rowsOf_line' (http := http) (d := d) (L := []) this
    rwa [oneRow, if_neg hne] at this

theorem items_each {s : Side} {f : Layout → Option P} {l : List Layout}
    (h : ∀ a ∈ l, ∀ p, f a = some p → ∃ rows, ItemRows s a rows ∧ RowsOf http d p rows) {p : P} (hp : listP f l = some p) :
    ∃ rows, ItemsRows s l rows ∧ RowsOf http d p rows := by
  obtain ⟨rows, ⟨parts, h1, rfl⟩, h2⟩ := rowsOf_list (R := ItemRows s) hp h
  refine ⟨_, ?_, h2⟩
  clear h hp h2
  induction h1 with
  | nil => exact .nil
  | cons h _ ih => exact .cons h ih

theorem variants_rows {s : Side} {rec : Option Ty → Option P} (hr : ItemsOk s rec) (l : Layout) {vs : List Variant} {p : P}
    (h : listP (variantP s rec l) vs = some p) : ∃ rows, VariantsRows s l vs rows ∧ RowsOf http d p rows := by
  have none : ∀ (v : Variant), ∀ a ∈ Variant.layout v l.bitOffset l.bitSize.get s.tsz, ∀ vp, a.item ≠ .variantPart vp := by
    intro v a ha vp hi
    have := (mem_layout_part v.members [] [] l.bitOffset l.bitSize.get s.tsz vp).1 ⟨a, ha, hi⟩
    cases this
  obtain ⟨rows, ⟨parts, h1, rfl⟩, h2⟩ := rowsOf_list (http := http) (d := d)
    (R := fun v rows => ∃ r, ItemsRows s (Variant.layout v l.bitOffset l.bitSize.get s.tsz) r ∧
      rows = entry (variantVal v).text' r) h fun v _ q hq => by
    simp only [variantP, Option.bind_eq_bind, Option.bind_eq_some_iff, Option.some.injEq] at hq
    obtain ⟨b, hb, rfl⟩ := hq
    obtain ⟨r, h1, h2⟩ := items_each (http := http) (d := d)
      (fun a ha p hp => layoutItem_rows hr a (fun vp p hi _ => absurd hi (none v a ha vp)) hp) hb
    exact ⟨_, ⟨r, h1, rfl⟩, rowsOf_indent false rfl h2⟩
  refine ⟨_, ?_, h2⟩
  clear h h2
  induction h1 with
  | nil => exact .nil
  | @cons v rows _ _ h _ ih =>
    obtain ⟨r, hr, rfl⟩ := h
    rw [List.flatten_cons, entry_ne (variantReads_ne (variantReads_val v))]
    exact .cons (variantReads_val v) hr ih

theorem membersP_rows (s : Side) (n : Nat) : ItemsOk s (membersP s n) := by
  induction n with
  | zero => intro http d t p h; cases h
  | succ n ih =>
    intro http d t p h
    rw [membersP_items] at h
    exact items_each (fun a _ p hp => layoutItem_rows ih a (fun vp p _ hv => variants_rows ih a hv) hp) h

theorem belowDef_inline (s : Side) (t : TypeOffset) : BelowDef s t (defInline s t) := by
  unfold defInline
  cases h : fromOffset s.hash t with
  | none => exact .unknown h
  | some ty =>
    simp only
    split
    · exact .listed h ‹_›
    · rename_i ha; exact .named h (by simpa using ha)

theorem inheritsP_rows (s : Side) (l : List Inherit) : RowsOf http d (inheritsP s l) (inheritRows s l) := by
  match l with
  | [] => exact rowsOf_skip
  | [a] =>
    have := rowsOf_line (http := http) (d := d) (k "inherits") (inheritVal s a)
    simpa [inheritRows, inheritsP, inheritVal] using this
  | a :: b :: l =>
    have e : inheritRows s (a :: b :: l) = under (k "inherits") ((a :: b :: l).flatMap fun i => oneRow [] (s.tref i.ty).text') := by
      rw [inheritRows, if_pos]; simp
    rw [e]
    exact rowsOf_field _ _ (rowsOf_map _ _ _ fun i _ => rowsOf_line _ _)

theorem count_row (L : Str) (n : Option Nat) : RowsOf http d (.line L (sizeVal n)) (countRow L n) :=
  rowsOf_line' (by cases n <;> rfl)

theorem countU64_row (L : Str) (n : Nat) : RowsOf http d (P.fieldU64 L n) (countRow L (some n)) := rowsOf_line _ _

theorem source_rows (o : Options) (dir : Option Str) (x : Source) :
    RowsOf http d (sourceP o dir x) (sourceRows o dir x) := rowsOf_if _ fun _ => rowsOf_line _ _

theorem tagged_text (tag : Str) (ns : Option Namespace) (n : Option Str) :
    (taggedName tag ns n).text' = tag ++ titled ns n := by
  simp [taggedName, vals, Val.text', text_nsOpt, titled, anon, k]

theorem typeBody_rows {o : Options} {s : Side} {dir : Option Str} {n : Nat} {x : Extra} {t : Ty} {hd : Val} {b : P}
    (hh : headerVal s t = some hd) (h : bodyP o s dir n x t = some b) (id : Nat) :
    ∃ rows, TypeRows o s dir x t rows ∧ RowsOf http d (.id id (.line [] hd) b) rows := by
  cases t <;> simp only [headerVal, reduceCtorEq, Option.some.injEq] at hh <;> subst hh
  case base nm z =>
    cases h
    refine ⟨_, .base, rowsOf_id id rfl ?_⟩
    have := rowsOf_seqs (http := http) (d := d) (.cons (count_row (k "size") z.get)
      (.cons (rowsOf_line' (L := k "encoding") (v := encodingVal x.encoding) (t := encodingText x.encoding)
        (by cases x.encoding <;> rfl))
      (.cons (rowsOf_line' (L := k "endianity") (v := endianityVal x.endianity) (t := endianityText x.endianity)
        (by cases x.endianity <;> rfl)) .nil)))
    simpa using this
  case def_ ns nm ty =>
    obtain ⟨ms, hms, e⟩ := def_body o s dir n x ns nm ty b h
    obtain ⟨rows, h1, h2⟩ := membersP_rows s (n + 1) http d _ _ hms
    refine ⟨_, .def_ (belowDef_inline s ty) h1, rowsOf_id id ?_ ?_⟩
    · simp [defVal, defName, vals, Val.text', text_nsOpt]
    · intro i y
      rw [e]
      have := rowsOf_seqs (.cons (source_rows o dir x.source) (.cons (count_row (k "size") (s.tsz ty))
        (.cons (rowsOf_field false (k "members") h2) .nil))) i y
      rw [this]
      simp
  case struct_ ns nm z ms vs is =>
    simp only [bodyP, Option.bind_eq_bind, Option.bind_eq_some_iff, Option.some.injEq] at h
    obtain ⟨q, hq, rfl⟩ := h
    obtain ⟨rows, h1, h2⟩ := membersP_rows s n http d _ _ hq
    refine ⟨_, .struct_ h1, rowsOf_id id (tagged_text ..) ?_⟩
    have := rowsOf_seqs (.cons (source_rows o dir x.source) (.cons (yes_row (k "declaration") x.declaration)
      (.cons (count_row (k "size") z.get) (.cons (inheritsP_rows s is) (.cons (rowsOf_field false (k "members") h2) .nil)))))
    simpa using this
  case union_ ns nm z ms =>
    simp only [bodyP, Option.bind_eq_bind, Option.bind_eq_some_iff, Option.some.injEq] at h
    obtain ⟨q, hq, rfl⟩ := h
    obtain ⟨rows, h1, h2⟩ := membersP_rows s n http d _ _ hq
    refine ⟨_, .union_ h1, rowsOf_id id (tagged_text ..) ?_⟩
    have := rowsOf_seqs (.cons (source_rows o dir x.source) (.cons (yes_row (k "declaration") x.declaration)
      (.cons (count_row (k "size") z.get) (.cons (rowsOf_field false (k "members") h2) .nil))))
    simpa using this
  case enum_ ns nm t z =>
    cases h
    refine ⟨_, .enum_ (texts := x.enumerators.map fun e => (enumeratorVal e).text') (all2_map _ _ fun e _ => enumeratorReads_val e),
      rowsOf_id id (tagged_text ..) ?_⟩
    have := rowsOf_seqs (http := http) (d := d) (.cons (source_rows o dir x.source) (.cons (yes_row (k "declaration") x.declaration)
      (.cons (count_row (k "size") (enumSize s t z)) (.cons (rowsOf_field false (k "enumerators")
        (rowsOf_map enumeratorP (fun e => oneRow [] (enumeratorVal e).text') x.enumerators fun e _ => rowsOf_line _ _)) .nil))))
    simpa [List.flatMap_map, enumSize] using this

/-! ## Variables -/

theorem str_row (L : Str) (v : Option Str) : RowsOf http d (.line L (strVal v)) (oneRow L (v.getD [])) :=
  rowsOf_line' (by cases v <;> rfl)

theorem variable_text (s : Side) (v : Variable) :
    (variableName s v).text' = k "var " ++ titled v.ns v.name ++ k ": " ++ (s.tref v.ty).text' := by
  simp [variableName, vals, Val.text', text_nsOpt, titled, anon, k]

theorem byteSize_or (tsz : TypeOffset → Option Nat) (v : Variable) : v.byteSize tsz = v.size.or (tsz v.ty) := by
  unfold Variable.byteSize; cases v.size <;> rfl

theorem variableHiding_rows (o : Options) (s : Side) (dir : Option Str) (v : Variable) :
    ∀ i x, (variableHiding o s dir v).ls http i x d =
      (variableRows o.ignoreVariableLinkageName o.ignoreVariableSymbolName o.ignoreVariableAddress o s dir v).map
        (Row.line x i) ++ [.brk] := by
  intro i x
  have body := rowsOf_seqs (http := http) (d := d)
    (.cons (rowsOf_leftOut o.ignoreVariableLinkageName (str_row (k "linkage name") v.linkageName))
    (.cons (rowsOf_leftOut o.ignoreVariableSymbolName (str_row (k "symbol name") v.symbolName))
    (.cons (source_rows o dir v.source)
    (.cons (rowsOf_leftOut o.ignoreVariableAddress (rowsOf_line' (L := k "address") (addressVal_text v.address)))
    (.cons (count_row (k "size") (v.byteSize s.tsz)) (.cons (yes_row (k "declaration") v.declaration) .nil))))))
  have := rowsOf_indent true (variable_text s v) body i x
  rw [variableHiding, P.ls, this]
  simp [variableRows, P.ls, byteSize_or]

theorem variableP_rows (o : Options) (s : FileSide) (dir : Option Str) (v : Variable) :
    ∀ i x, (variableP o s dir v).ls http i x d =
      (variableRows false false false o s.toSide dir v).map (Row.line x i) ++ [.brk] := by
  intro i x
  have body := rowsOf_seqs (http := http) (d := d)
    (.cons (str_row (k "linkage name") v.linkageName) (.cons (str_row (k "symbol name") v.symbolName)
    (.cons (source_rows o dir v.source) (.cons (rowsOf_line' (L := k "address") (addressVal_text v.address))
    (.cons (count_row (k "size") (v.byteSize s.tsz)) (.cons (yes_row (k "declaration") v.declaration) .nil))))))
  have := rowsOf_id (s.varId v) (variable_text s.toSide v) body i x
  rw [variableP, P.ls, variableBodyP, this]
  simp [variableRows, P.ls, byteSize_or, shownIf]

/-! ## Sections, units and files -/

theorem sectionP_rows (x : Section) : RowsOf http d (sectionP x) (sectionRows x) := by
  refine rowsOf_indent true ?_ (rowsOf_seq (rowsOf_line' ?_) (countU64_row (k "size") x.size))
  · unfold sectionName
    cases x.segment <;> simp [vals, Val.text']
  · unfold Section.range
    cases x.address
    · rfl
    · exact rangeText_eq _

theorem rangeItems_rows (L : Str) (rs : List Range) : RowsOf http d (.field true L (rangeItemsP rs)) (spanRows L rs) :=
  rowsOf_field _ _ (rowsOf_map _ _ _ fun r _ => rowsOf_line' (rangeSizeText_eq r))

theorem sizeLine_row (L : Str) (n : Nat) : RowsOf http d (sizeLineP L n) (nonzeroRow L n) := by
  unfold sizeLineP nonzeroRow
  by_cases h : n = 0
  · simp only [h, ne_eq, not_true, if_false, if_true]; exact rowsOf_skip
  · simp only [h, ne_eq, not_false_eq_true, if_false, if_true]; exact countU64_row L n

theorem unitRanges_rows (s : Side) (u : CompUnit) : RowsOf http d (unitRangesP s u) (unitAddressRows s.tsz u) := by
  refine rowsOf_seq ?_ (rangeItems_rows _ _)
  by_cases h : 1 < (u.knownRanges s.tsz).length
  · rw [if_pos h, if_pos h]
    exact rangeItems_rows _ _
  · rw [if_neg h, if_neg h]
    match u.knownRanges s.tsz, h with
    | [], _ =>
      simp only [List.head?_nil, if_true]
      exact rowsOf_line' (addressVal_text u.lowPc)
    | [r], _ =>
      have := rowsOf_line' (http := http) (d := d) (L := k "address") (v := unitAddress u (some r)) (rangeText_eq r)
      simpa using this
    | _ :: _ :: _, h => simp at h

theorem unitPartP_rows {o : Options} {s : Side} {u : CompUnit} {p : P} (h : unitPartP o s u = some p) :
    ∃ rows, UnitRows o s.tsz u rows ∧ ∀ i x, p.ls http i x d = rows.map (Row.line x i) ++ [.brk] := by
  simp only [unitPartP, Option.bind_eq_bind, Option.bind_eq_some_iff, Option.some.injEq] at h
  obtain ⟨f, hf, v, hv, w, hw, rfl⟩ := h
  refine ⟨_, ⟨f, v, w, hf, hv, hw, rfl⟩, fun i x => ?_⟩
  have body := rowsOf_seqs (http := http) (d := d) (.cons (rowsOf_if o.printUnitAddress fun _ => unitRanges_rows s u)
    (.cons (sizeLine_row (k "fn size") f) (.cons (sizeLine_row (k "var size") v)
      (.cons (sizeLine_row (k "unknown size") w) .nil)))) i x
  simp only [P.ls_seqs, List.flatMap_cons, List.flatMap_nil, List.append_nil, P.ls] at body ⊢
  simp only [← List.append_assoc] at body ⊢
  rw [body]
  simp

theorem unit_text (u : CompUnit) : (unitName u).text' = unitText u := by
  unfold unitName unitText CompUnit.printRef
  simp only [Val.text', List.append_cancel_left_eq]
  generalize hn : u.name.getD (k "<anon>") = n
  generalize u.dir.getD [] = dir
  by_cases hd : dir = []
  · simp [hd]
  · by_cases h : n.head? = some 47
    · simp [h]
    · simp [hd, h, pushDir, join, endsWithSlash]
      split <;> simp_all

theorem filePartP_rows {o : Options} {s : FileSide} {p : P} (h : filePartP o s = some p) :
    ∃ rows, FileRows o s rows ∧ ∀ i x, p.ls http i x d = rows.map (Row.line x i) ++ [.brk] := by
  simp only [filePartP, Option.bind_eq_bind, Option.bind_eq_some_iff, Option.some.injEq] at h
  obtain ⟨m, hm, rfl⟩ := h
  obtain ⟨m', hm', h1, h2, h3, h4⟩ := C55_print s.tsz s.file
  rw [hm] at hm'
  cases hm'
  refine ⟨_, ⟨m.size, m.fnSize, m.varSize, h1, h2, h3, rfl⟩, fun i x => ?_⟩
  have ho : m.otherSize = m.size - (m.fnSize + m.varSize) := by omega
  have body := rowsOf_seqs (http := http) (d := d)
    (.cons (rowsOf_if o.printFileAddress fun _ => rangeItems_rows (k "addresses") (unitRanges s.tsz s.file.units))
    (.cons (countU64_row (k "size") m.size) (.cons (countU64_row (k "fn size") m.fnSize)
    (.cons (countU64_row (k "var size") m.varSize) (.cons (countU64_row (k "other size") m.otherSize)
    (.cons (rowsOf_field true (k "sections") (rowsOf_map sectionP sectionRows s.file.sections fun a _ => sectionP_rows a)) .nil))))))
  have := rowsOf_indent true (t := k "file " ++ s.path) (v := fileName s) rfl body i x
  rw [P.ls, this, ho]
  simp [P.ls]

end Verif.Show
