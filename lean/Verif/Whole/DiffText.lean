import Verif.Whole.Diff
import Verif.Show.Appears
/-!
# C93: every entry of the debug information is accounted for in the text of a diff
-/
namespace Verif.Whole
open Verif.Item Verif.Types Verif.Namespace Verif.Range Verif.Sentinel Verif.File Verif.Dwarf Verif.Show
  Verif.Filter Verif.Opts Verif.Code Verif.Order
open Verif.Print (P D Line DiffPrefix render)
open Verif.Path (Heap)

/-- Two units with the same name, up to the mapping of prefixes the user gave. -/
def SameUnitName (o : Options) (a b : CompUnit) : Prop := ∃ k, UnitName o a k ∧ UnitName o b k

/-- The text of the listing of a function at level `i`, every line with the mark `x`. -/
def FunctionText (o : Options) (s : FnSide) (dir : Option Str) (x : DiffPrefix) (i d : Nat) (g : Function) (t : Str) : Prop :=
  ∃ rows code, FunctionRows {} o s dir d g rows ∧ CodeLines o s g o.http (i + 1) x d code ∧
    t = render (rows.map (Row.line x i) ++ code ++ [.brk])

/-- The text of the listing of a type at level `i`, every line with the mark `x`. -/
def TypeText (o : Options) (s : Side) (dir : Option Str) (x : DiffPrefix) (i : Nat) (e : Extra) (t : Ty) (text : Str) : Prop :=
  ∃ rows, TypeRows o s dir e t rows ∧ text = render (rows.map (Row.line x i) ++ [.brk])

/-- The text of the listing of a variable at level `i`, every line with the mark `x`. -/
def variableText (o : Options) (s : Side) (dir : Option Str) (x : DiffPrefix) (i : Nat) (v : Variable) : Str :=
  render ((variableRows false false false o s dir v).map (Row.line x i) ++ [.brk])

/-- What a diff with text `text` does with a thing of one file: it has a counterpart `b`, in a unit with the same name, with
the same facts or with a comparison that is part of the text; or the listing of the thing is part of the text, marked,
unless the user ignores this. `units` are those of the other file. -/
def Accounted {β : Type} (units : List CompUnit) (unitOk : CompUnit → Prop) (items : CompUnit → List β)
    (same facts : CompUnit → β → Prop) (comparison : CompUnit → β → Str → Prop) (ignored : Prop) (listing : Str → Prop)
    (text : Str) : Prop :=
  (∃ cv ∈ units, unitOk cv ∧ ∃ b ∈ items cv, same cv b ∧ (facts cv b ∨ ∃ t, comparison cv b t ∧ t <:+: text)) ∨
  (ignored ∨ ∃ t, listing t ∧ t <:+: text)

section
variable {ra rb : RawObject} {fa fb : File} {sa sb : FileSide} {same : Ty → Ty → Bool} {heap : Heap} {o : Options} {m : Nat} {e : D}

/-- A part of the diff, in the text. -/
theorem carried {f : D} {i d : Nat} {x : DiffPrefix} (h : Carries (printOpts o) i d e f) (hf : f.flag (printOpts o) i .equal d = true) :
    render (f.lines (printOpts o) i .equal d) <:+: render (e.lines (printOpts o) i x d) := by
  rw [D.flag_eq] at hf
  rw [D.lines_eq, D.lines_eq, D.render_start (printOpts o) e i x .equal d]
  exact (h hf).2

theorem carried_delete {p q : P} {i d : Nat} {x : DiffPrefix} (h : Carries (printOpts o) i d e (.prefixDelete p))
    (hq : ∀ http i x d, render (q.ls http i x d) <:+: render (p.ls http i x d)) :
    render (q.lines o.http i .delete d) <:+: render (e.lines (printOpts o) i x d) := by
  have := (h rfl).2
  rw [D.lines_eq, D.render_start (printOpts o) e i x .equal d, P.lines_eq]
  exact (hq o.http i .delete d).trans this

theorem carried_add {p q : P} {i d : Nat} {x : DiffPrefix} (h : Carries (printOpts o) i d e (.prefixAdd p))
    (hq : ∀ http i x d, render (q.ls http i x d) <:+: render (p.ls http i x d)) :
    render (q.lines o.http i .add d) <:+: render (e.lines (printOpts o) i x d) := by
  have := (h rfl).2
  rw [D.lines_eq, D.render_start (printOpts o) e i x .equal d, P.lines_eq]
  exact (hq o.http i .add d).trans this

theorem functionText {s : FnSide} {dir : Option Str} {n : Nat} {g : Function} {q : P} (h : functionP o s dir n g = some q)
    (i d : Nat) (x : DiffPrefix) : FunctionText o s dir x i d g (render (q.lines o.http i x d)) := by
  obtain ⟨rows, code, h1, h2, h3⟩ := C85_function o s dir n g q h o.http i x d
  exact ⟨rows, code, h1, h2, by rw [h3]⟩

/-- **C93** (functions of the old file). Every function entry of a wanted unit of the old debug information that is wanted is
accounted for in the text of the diff: there is a function with the same qualified name in a unit with the same name in
the new file, and all facts are the same or the text contains their comparison; or the text contains the listing of the function,
all lines marked as deleted, unless the user ignores deletions. -/
theorem C93_old_functions (ho : o.html = false) (he : fileD o ⟨sa, sb, same, heap⟩ m = some e)
    (hsa : Reads ra fa sa) (hsb : Reads rb fb sb) (ha : ReadableFile sa) (hb : ReadableFile sb)
    (hloc : o.printVariableLocations = true → ∀ u ∈ fb.units, ∀ f ∈ u.functions, OneLocation (sb.details f))
    (hcat : o.categoryFunction = true) (i d : Nat) (x : DiffPrefix)
    {k : Nat} {u : RawUnit} {cu : CompUnit} (_hk : ra.units[k]? = some u) (hc : fa.units[k]? = some cu) (hw : WantedUnit o cu)
    {ns : Option Namespace} {die : Die} {g : Function} (hg : FnEntry u cu ns die g) (hwg : WantedFunction o g) :
    Accounted fb.units (fun cv => WantedUnit o cv ∧ SameUnitName o cu cv) (wantedFunctions o)
      (fun _ g' => qname g.ns g.name = qname g'.ns g'.name)
      (fun cv g' => SameFunction o sa.toFnSide sb.toFnSide cu.dir cv.dir d g g')
      (fun cv g' t => ∃ f, functionD o ⟨sa.toFnSide, sb.toFnSide, same, heap⟩ (sa.unitId cu) cu.dir cv.dir m g g' = some f ∧
        t = render (f.lines (printOpts o) i .equal d))
      (o.ignoreDeleted = true)
      (FunctionText o sa.toFnSide cu.dir .delete i d g)
      (render (e.lines (printOpts o) i x d)) := by
  have hfa : sa.file = fa := by obtain ⟨_, _, _, _, _, _, _, _, _, rfl⟩ := hsa; rfl
  have hfb : sb.file = fb := by obtain ⟨_, _, _, _, _, _, _, _, _, rfl⟩ := hsb; rfl
  have hcum : cu ∈ fa.units := List.mem_of_getElem? hc
  have hgm : g ∈ cu.functions := List.mem_of_find?_eq_some hg.2
  have hgw : g ∈ wantedFunctions o cu := mem_wanted.2 ⟨hgm, hwg⟩
  obtain ⟨mu, hpu, hcu⟩ := fileD_carries he
  rcases sortListD_old hpu (a := cu) (mem_wanted.2 ⟨hfa ▸ hcum, hw⟩) (fun it hit _ => hcu it hit) with
    ⟨cv, hcv, hn, eu, heu, hce⟩ | hi | ⟨p, hp, hce⟩
  · obtain ⟨hcv, hwv⟩ := mem_wanted.1 hcv
    replace hcv : cv ∈ sb.file.units := hcv
    obtain ⟨types, fns, vars, -, hfns, -, hcp⟩ := unitD_carries ho heu
    obtain ⟨mf, hpf, hcf⟩ := unitFnsD_carries hfns hcat
    rcases sortListD_old hpf hgw (fun it hit _ => hcf it hit) with ⟨g', hg', hq, f, hf, hcf⟩ | hi | ⟨q, hq, hcf⟩
    · refine .inl ⟨cv, hfb ▸ hcv, ⟨hwv, hn⟩, g', hg', hq, ?_⟩
      have hg'm := (mem_wanted.1 hg').1
      cases hfl : f.flag (printOpts o) i .equal d
      · exact .inl (C87_function o _ _ _ _ m g g' f hf ha.fns hb.fns (ha.functions cu (hfa ▸ hcum) g hgm)
          (hb.functions cv hcv g' hg'm) (fun h => hloc h cv (hfb ▸ hcv) g' hg'm) _ _ _ _ hfl)
      · exact .inr ⟨_, ⟨f, hf, rfl⟩, carried ((hce i d).trans ((hcp i d).2.1.trans (hcf i d))) hfl⟩
    · exact .inr (.inl hi)
    · exact .inr (.inr ⟨_, functionText hq i d .delete, carried_delete ((hce i d).trans ((hcp i d).2.1.trans (hcf i d)))
        fun _ _ _ _ => List.infix_refl _⟩)
  · exact .inr (.inl hi)
  · obtain ⟨q, hq, hcq⟩ := (unitP_carries ho hp).2.1 hcat g hgw
    exact .inr (.inr ⟨_, functionText hq i d .delete, carried_delete (hce i d) hcq⟩)

/-- **C93** (functions of the new file), as `C93_old_functions`, with additions. -/
theorem C93_new_functions (ho : o.html = false) (he : fileD o ⟨sa, sb, same, heap⟩ m = some e)
    (hsa : Reads ra fa sa) (hsb : Reads rb fb sb) (ha : ReadableFile sa) (hb : ReadableFile sb)
    (hloc : o.printVariableLocations = true → ∀ u ∈ fb.units, ∀ f ∈ u.functions, OneLocation (sb.details f))
    (hcat : o.categoryFunction = true) (i d : Nat) (x : DiffPrefix)
    {k : Nat} {v : RawUnit} {cv : CompUnit} (_hk : rb.units[k]? = some v) (hc : fb.units[k]? = some cv) (hw : WantedUnit o cv)
    {ns : Option Namespace} {die : Die} {g : Function} (hg : FnEntry v cv ns die g) (hwg : WantedFunction o g) :
    Accounted fa.units (fun cu => WantedUnit o cu ∧ SameUnitName o cu cv) (wantedFunctions o)
      (fun _ g' => qname g'.ns g'.name = qname g.ns g.name)
      (fun cu g' => SameFunction o sa.toFnSide sb.toFnSide cu.dir cv.dir d g' g)
      (fun cu g' t => ∃ f, functionD o ⟨sa.toFnSide, sb.toFnSide, same, heap⟩ (sa.unitId cu) cu.dir cv.dir m g' g = some f ∧
        t = render (f.lines (printOpts o) i .equal d))
      (o.ignoreAdded = true)
      (FunctionText o sb.toFnSide cv.dir .add i d g)
      (render (e.lines (printOpts o) i x d)) := by
  have hfa : sa.file = fa := by obtain ⟨_, _, _, _, _, _, _, _, _, rfl⟩ := hsa; rfl
  have hfb : sb.file = fb := by obtain ⟨_, _, _, _, _, _, _, _, _, rfl⟩ := hsb; rfl
  have hcum : cv ∈ fb.units := List.mem_of_getElem? hc
  have hgm : g ∈ cv.functions := List.mem_of_find?_eq_some hg.2
  have hgw : g ∈ wantedFunctions o cv := mem_wanted.2 ⟨hgm, hwg⟩
  obtain ⟨mu, hpu, hcu⟩ := fileD_carries he
  rcases sortListD_new hpu (b := cv) (mem_wanted.2 ⟨hfb ▸ hcum, hw⟩) (fun it hit _ => hcu it hit) with
    ⟨cu, hcv, hn, eu, heu, hce⟩ | hi | ⟨p, hp, hce⟩
  · obtain ⟨hcv, hwv⟩ := mem_wanted.1 hcv
    replace hcv : cu ∈ sa.file.units := hcv
    obtain ⟨types, fns, vars, -, hfns, -, hcp⟩ := unitD_carries ho heu
    obtain ⟨mf, hpf, hcf⟩ := unitFnsD_carries hfns hcat
    rcases sortListD_new hpf hgw (fun it hit _ => hcf it hit) with ⟨g', hg', hq, f, hf, hcf⟩ | hi | ⟨q, hq, hcf⟩
    · refine .inl ⟨cu, hfa ▸ hcv, ⟨hwv, hn⟩, g', hg', hq, ?_⟩
      have hg'm := (mem_wanted.1 hg').1
      cases hfl : f.flag (printOpts o) i .equal d
      · exact .inl (C87_function o _ _ _ _ m g' g f hf ha.fns hb.fns (ha.functions cu hcv g' hg'm)
          (hb.functions cv (hfb ▸ hcum) g hgm) (fun h => hloc h cv hcum g hgm) _ _ _ _ hfl)
      · exact .inr ⟨_, ⟨f, hf, rfl⟩, carried ((hce i d).trans ((hcp i d).2.1.trans (hcf i d))) hfl⟩
    · exact .inr (.inl hi)
    · exact .inr (.inr ⟨_, functionText hq i d .add, carried_add ((hce i d).trans ((hcp i d).2.1.trans (hcf i d)))
        fun _ _ _ _ => List.infix_refl _⟩)
  · exact .inr (.inl hi)
  · obtain ⟨q, hq, hcq⟩ := (unitP_carries ho hp).2.1 hcat g hgw
    exact .inr (.inr ⟨_, functionText hq i d .add, carried_add (hce i d) hcq⟩)

theorem typeText {s : Side} {dir : Option Str} {n : Nat} {t : TypeEntry} {q : P} (h : typeP o s dir n t = some q)
    (i d : Nat) (x : DiffPrefix) : TypeText o s dir x i (s.extra t.offset) t.kind (render (q.lines o.http i x d)) := by
  obtain ⟨rows, h1, h2⟩ := C85_type o s dir n t q h o.http i x d
  exact ⟨rows, h1, by rw [h2]⟩

theorem wanted_listed {h : Hash} {u : CompUnit} {t : TypeEntry} (ht : t ∈ wantedTypes o true h u) : t ∈ wantedTypes o false h u := by
  obtain ⟨h1, h2, -, h3⟩ := mem_wanted.1 ht
  exact mem_wanted.2 ⟨h1, h2, by simp, h3⟩

/-- No difference between variables unreported. -/
theorem variable_unreported {da db : Option Str} {v w : Variable} (hv : ReadableVariable v) (hw : ReadableVariable w)
    {po : Print.Opts} {i d : Nat} {x : DiffPrefix} (hf : (variableD o ⟨sa, sb, same, heap⟩ da db v w).flag po i x d = false) :
    SameVariable o sa.toSide sb.toSide da db v w := by
  rw [D.flag_eq] at hf
  have h := (Agree.variable po o ⟨sa, sb, same, heap⟩ da db v w).text (i := i) (x := x) (d := d) (.inr hf)
  exact variable_eq hv hw (rows_of_lines (variableHiding_rows o _ _ v) (variableHiding_rows o _ _ w) h)

/-- **C93** (types of the old file), as `C93_old_functions`. Types are identified as C11 says. -/
theorem C93_old_types (ho : o.html = false) (he : fileD o ⟨sa, sb, same, heap⟩ m = some e)
    (hsa : Reads ra fa sa) (hsb : Reads rb fb sb) (ha : ReadableFile sa) (hb : ReadableFile sb)
    {search : Search} {n : Nat} (hvs : ValidSearch search) (hparse : parseObject search n ra = some fa)
    (hpl : Placed ra.units) (hty : ∀ u ∈ fa.units, ∀ t ∈ u.types, Acc (IdRef sa.hash) t.kind)
    (hcat : o.categoryType = true) (i d : Nat) (x : DiffPrefix)
    {k : Nat} {u : RawUnit} {cu : CompUnit} (hk : ra.units[k]? = some u) (hc : fa.units[k]? = some cu) (hw : WantedUnit o cu)
    {ns : Option Namespace} {die : Die} {g : TypeEntry} (hg : NamedType u cu ns die) (hgt : typeAt ra u cu ns die = g) (hwg : WantedType sa.hash cu o true g) :
    Accounted fb.units (fun cv => WantedUnit o cv ∧ SameUnitName o cu cv) (wantedTypes o true sb.hash)
      (fun _ g' => SameTypeIdent sa.hash sb.hash g g')
      (fun cv g' => SameType o sa.toSide sb.toSide cu.dir cv.dir (sa.extra g.offset) (sb.extra g'.offset) g.kind g'.kind)
      (fun cv g' t => ∃ f, typeD o ⟨sa.toSide, sb.toSide, same, heap⟩ cu.dir cv.dir m g g' = some f ∧ t = render (f.lines (printOpts o) i .equal d))
      (o.ignoreDeleted = true)
      (TypeText o sa.toSide cu.dir .delete i (sa.extra g.offset) g.kind)
      (render (e.lines (printOpts o) i x d)) := by
  have hfa : sa.file = fa := by obtain ⟨_, _, _, _, _, _, _, _, _, rfl⟩ := hsa; rfl
  have hfb : sb.file = fb := by obtain ⟨_, _, _, _, _, _, _, _, _, rfl⟩ := hsb; rfl
  have hcum : cu ∈ fa.units := List.mem_of_getElem? hc
  have hgm : g ∈ cu.types := hgt ▸ (C91_type_records hvs hparse hpl hk hc).2.1 ns die hg
  have hgw : g ∈ wantedTypes o true sa.hash cu := mem_wanted.2 ⟨hgm, hwg⟩
  obtain ⟨mu, hpu, hcu⟩ := fileD_carries he
  rcases sortListD_old hpu (a := cu) (mem_wanted.2 ⟨hfa ▸ hcum, hw⟩) (fun it hit _ => hcu it hit) with
    ⟨cv, hcv, hn, eu, heu, hce⟩ | hi | ⟨p, hp, hce⟩
  · obtain ⟨hcv, hwv⟩ := mem_wanted.1 hcv
    replace hcv : cv ∈ sb.file.units := hcv
    obtain ⟨types, fns, vars, htypes, -, hvars, hcp⟩ := unitD_carries ho heu
    obtain ⟨mf, hpf, hcf⟩ := unitTypesD_carries htypes hcat (hty cu hcum)
    rcases sortListD_old hpf hgw (fun it hit _ => hcf it hit) with ⟨g', hg', hq, f, hf, hcf⟩ | hi | ⟨q, hq, hcf⟩
    · refine .inl ⟨cv, hfb ▸ hcv, ⟨hwv, hn⟩, g', hg', hq, ?_⟩
      have hg'm := (mem_wanted.1 hg').1
      have ra := ha.types cu (hfa ▸ hcum) g hgm
      have rb := hb.types cv hcv g' hg'm
      cases hfl : f.flag (printOpts o) i .equal d
      · exact .inl (C84_type o _ _ _ m g g' f hf ha.refs hb.refs ha.members hb.members ra.1 rb.1 ra.2 rb.2 _ _ _ _ hfl)
      · exact .inr ⟨_, ⟨f, hf, rfl⟩, carried ((hce i d).trans ((hcp i d).1.trans (hcf i d))) hfl⟩
    · exact .inr (.inl hi)
    · exact .inr (.inr ⟨_, typeText hq i d .delete, carried_delete ((hce i d).trans ((hcp i d).1.trans (hcf i d)))
        fun _ _ _ _ => List.infix_refl _⟩)
  · exact .inr (.inl hi)
  · obtain ⟨q, hq, hcq⟩ := (unitP_carries ho hp).1 hcat g (wanted_listed hgw)
    exact .inr (.inr ⟨_, typeText hq i d .delete, carried_delete (hce i d) hcq⟩)

/-- **C93** (types of the new file), as `C93_new_functions`. Types are identified as C11 says. -/
theorem C93_new_types (ho : o.html = false) (he : fileD o ⟨sa, sb, same, heap⟩ m = some e)
    (hsa : Reads ra fa sa) (hsb : Reads rb fb sb) (ha : ReadableFile sa) (hb : ReadableFile sb)
    {search : Search} {n : Nat} (hvs : ValidSearch search) (hparse : parseObject search n rb = some fb)
    (hpl : Placed rb.units) (hty : ∀ u ∈ fa.units, ∀ t ∈ u.types, Acc (IdRef sa.hash) t.kind)
    (hcat : o.categoryType = true) (i d : Nat) (x : DiffPrefix)
    {k : Nat} {v : RawUnit} {cv : CompUnit} (hk : rb.units[k]? = some v) (hc : fb.units[k]? = some cv) (hw : WantedUnit o cv)
    {ns : Option Namespace} {die : Die} {g : TypeEntry} (hg : NamedType v cv ns die) (hgt : typeAt rb v cv ns die = g) (hwg : WantedType sb.hash cv o true g) :
    Accounted fa.units (fun cu => WantedUnit o cu ∧ SameUnitName o cu cv) (wantedTypes o true sa.hash)
      (fun _ g' => SameTypeIdent sa.hash sb.hash g' g)
      (fun cu g' => SameType o sa.toSide sb.toSide cu.dir cv.dir (sa.extra g'.offset) (sb.extra g.offset) g'.kind g.kind)
      (fun cu g' t => ∃ f, typeD o ⟨sa.toSide, sb.toSide, same, heap⟩ cu.dir cv.dir m g' g = some f ∧ t = render (f.lines (printOpts o) i .equal d))
      (o.ignoreAdded = true)
      (TypeText o sb.toSide cv.dir .add i (sb.extra g.offset) g.kind)
      (render (e.lines (printOpts o) i x d)) := by
  have hfa : sa.file = fa := by obtain ⟨_, _, _, _, _, _, _, _, _, rfl⟩ := hsa; rfl
  have hfb : sb.file = fb := by obtain ⟨_, _, _, _, _, _, _, _, _, rfl⟩ := hsb; rfl
  have hcum : cv ∈ fb.units := List.mem_of_getElem? hc
  have hgm : g ∈ cv.types := hgt ▸ (C91_type_records hvs hparse hpl hk hc).2.1 ns die hg
  have hgw : g ∈ wantedTypes o true sb.hash cv := mem_wanted.2 ⟨hgm, hwg⟩
  obtain ⟨mu, hpu, hcu⟩ := fileD_carries he
  rcases sortListD_new hpu (b := cv) (mem_wanted.2 ⟨hfb ▸ hcum, hw⟩) (fun it hit _ => hcu it hit) with
    ⟨cu, hcv, hn, eu, heu, hce⟩ | hi | ⟨p, hp, hce⟩
  · obtain ⟨hcv, hwv⟩ := mem_wanted.1 hcv
    replace hcv : cu ∈ sa.file.units := hcv
    obtain ⟨types, fns, vars, htypes, -, hvars, hcp⟩ := unitD_carries ho heu
    obtain ⟨mf, hpf, hcf⟩ := unitTypesD_carries htypes hcat (hty cu (hfa ▸ hcv))
    rcases sortListD_new hpf hgw (fun it hit _ => hcf it hit) with ⟨g', hg', hq, f, hf, hcf⟩ | hi | ⟨q, hq, hcf⟩
    · refine .inl ⟨cu, hfa ▸ hcv, ⟨hwv, hn⟩, g', hg', hq, ?_⟩
      have hg'm := (mem_wanted.1 hg').1
      have ra := ha.types cu hcv g' hg'm
      have rb := hb.types cv (hfb ▸ hcum) g hgm
      cases hfl : f.flag (printOpts o) i .equal d
      · exact .inl (C84_type o _ _ _ m g' g f hf ha.refs hb.refs ha.members hb.members ra.1 rb.1 ra.2 rb.2 _ _ _ _ hfl)
      · exact .inr ⟨_, ⟨f, hf, rfl⟩, carried ((hce i d).trans ((hcp i d).1.trans (hcf i d))) hfl⟩
    · exact .inr (.inl hi)
    · exact .inr (.inr ⟨_, typeText hq i d .add, carried_add ((hce i d).trans ((hcp i d).1.trans (hcf i d)))
        fun _ _ _ _ => List.infix_refl _⟩)
  · exact .inr (.inl hi)
  · obtain ⟨q, hq, hcq⟩ := (unitP_carries ho hp).1 hcat g (wanted_listed hgw)
    exact .inr (.inr ⟨_, typeText hq i d .add, carried_add (hce i d) hcq⟩)

/-- **C93** (variables of the old file), as `C93_old_functions`. -/
theorem C93_old_variables (ho : o.html = false) (he : fileD o ⟨sa, sb, same, heap⟩ m = some e)
    (hsa : Reads ra fa sa) (hsb : Reads rb fb sb) (ha : ReadableFile sa) (hb : ReadableFile sb)
    (hcat : o.categoryVariable = true) (i d : Nat) (x : DiffPrefix)
    {k : Nat} {u : RawUnit} {cu : CompUnit} (_hk : ra.units[k]? = some u) (hc : fa.units[k]? = some cu) (hw : WantedUnit o cu)
    {ns : Option Namespace} {die : Die} {g : Variable} (hg : VarEntry u cu ns die g) (hwg : WantedVariable o g) :
    Accounted fb.units (fun cv => WantedUnit o cv ∧ SameUnitName o cu cv) (wantedVariables o)
      (fun _ g' => qname g.ns g.name = qname g'.ns g'.name)
      (fun cv g' => SameVariable o sa.toSide sb.toSide cu.dir cv.dir g g')
      (fun cv g' t => ∃ f, variableD o ⟨sa, sb, same, heap⟩ cu.dir cv.dir g g' = f ∧ t = render (f.lines (printOpts o) i .equal d))
      (o.ignoreDeleted = true)
      ((· = variableText o sa.toSide cu.dir .delete i g))
      (render (e.lines (printOpts o) i x d)) := by
  have hfa : sa.file = fa := by obtain ⟨_, _, _, _, _, _, _, _, _, rfl⟩ := hsa; rfl
  have hfb : sb.file = fb := by obtain ⟨_, _, _, _, _, _, _, _, _, rfl⟩ := hsb; rfl
  have hcum : cu ∈ fa.units := List.mem_of_getElem? hc
  have hgm : g ∈ cu.variables := List.mem_of_find?_eq_some hg.2
  have hgw : g ∈ wantedVariables o cu := mem_wanted.2 ⟨hgm, hwg⟩
  obtain ⟨mu, hpu, hcu⟩ := fileD_carries he
  rcases sortListD_old hpu (a := cu) (mem_wanted.2 ⟨hfa ▸ hcum, hw⟩) (fun it hit _ => hcu it hit) with
    ⟨cv, hcv, hn, eu, heu, hce⟩ | hi | ⟨p, hp, hce⟩
  · obtain ⟨hcv, hwv⟩ := mem_wanted.1 hcv
    replace hcv : cv ∈ sb.file.units := hcv
    obtain ⟨types, fns, vars, htypes, -, hvars, hcp⟩ := unitD_carries ho heu
    obtain ⟨mf, hpf, hcf⟩ := unitVariablesD_carries hvars hcat
    rcases sortListD_old hpf hgw (fun it hit _ => hcf it hit) with ⟨g', hg', hq, f, hf, hcf⟩ | hi | ⟨q, hq, hcf⟩
    · refine .inl ⟨cv, hfb ▸ hcv, ⟨hwv, hn⟩, g', hg', hq, ?_⟩
      have hg'm := (mem_wanted.1 hg').1
      have ra := ha.variables cu (hfa ▸ hcum) g hgm
      have rb := hb.variables cv hcv g' hg'm
      cases hf
      cases hfl : (variableD o ⟨sa, sb, same, heap⟩ cu.dir cv.dir g g').flag (printOpts o) i .equal d
      · exact .inl (variable_unreported ra rb hfl)
      · exact .inr ⟨_, ⟨_, rfl, rfl⟩, carried ((hce i d).trans ((hcp i d).2.2.trans (hcf i d))) hfl⟩
    · exact .inr (.inl hi)
    · cases hq
      refine .inr (.inr ⟨_, rfl, ?_⟩)
      rw [variableText, ← C85_variable o sa cu.dir g o.http i .delete d]
      exact carried_delete ((hce i d).trans ((hcp i d).2.2.trans (hcf i d))) fun _ _ _ _ => List.infix_refl _
  · exact .inr (.inl hi)
  · obtain ⟨q, rfl, hcq⟩ := (unitP_carries ho hp).2.2 hcat g hgw
    refine .inr (.inr ⟨_, rfl, ?_⟩)
    rw [variableText, ← C85_variable o sa cu.dir g o.http i .delete d]
    exact carried_delete (hce i d) hcq

/-- **C93** (variables of the new file), as `C93_new_functions`. -/
theorem C93_new_variables (ho : o.html = false) (he : fileD o ⟨sa, sb, same, heap⟩ m = some e)
    (hsa : Reads ra fa sa) (hsb : Reads rb fb sb) (ha : ReadableFile sa) (hb : ReadableFile sb)
    (hcat : o.categoryVariable = true) (i d : Nat) (x : DiffPrefix)
    {k : Nat} {v : RawUnit} {cv : CompUnit} (_hk : rb.units[k]? = some v) (hc : fb.units[k]? = some cv) (hw : WantedUnit o cv)
    {ns : Option Namespace} {die : Die} {g : Variable} (hg : VarEntry v cv ns die g) (hwg : WantedVariable o g) :
    Accounted fa.units (fun cu => WantedUnit o cu ∧ SameUnitName o cu cv) (wantedVariables o)
      (fun _ g' => qname g'.ns g'.name = qname g.ns g.name)
      (fun cu g' => SameVariable o sa.toSide sb.toSide cu.dir cv.dir g' g)
      (fun cu g' t => ∃ f, variableD o ⟨sa, sb, same, heap⟩ cu.dir cv.dir g' g = f ∧ t = render (f.lines (printOpts o) i .equal d))
      (o.ignoreAdded = true)
      ((· = variableText o sb.toSide cv.dir .add i g))
      (render (e.lines (printOpts o) i x d)) := by
  have hfa : sa.file = fa := by obtain ⟨_, _, _, _, _, _, _, _, _, rfl⟩ := hsa; rfl
  have hfb : sb.file = fb := by obtain ⟨_, _, _, _, _, _, _, _, _, rfl⟩ := hsb; rfl
  have hcum : cv ∈ fb.units := List.mem_of_getElem? hc
  have hgm : g ∈ cv.variables := List.mem_of_find?_eq_some hg.2
  have hgw : g ∈ wantedVariables o cv := mem_wanted.2 ⟨hgm, hwg⟩
  obtain ⟨mu, hpu, hcu⟩ := fileD_carries he
  rcases sortListD_new hpu (b := cv) (mem_wanted.2 ⟨hfb ▸ hcum, hw⟩) (fun it hit _ => hcu it hit) with
    ⟨cu, hcv, hn, eu, heu, hce⟩ | hi | ⟨p, hp, hce⟩
  · obtain ⟨hcv, hwv⟩ := mem_wanted.1 hcv
    replace hcv : cu ∈ sa.file.units := hcv
    obtain ⟨types, fns, vars, htypes, -, hvars, hcp⟩ := unitD_carries ho heu
    obtain ⟨mf, hpf, hcf⟩ := unitVariablesD_carries hvars hcat
    rcases sortListD_new hpf hgw (fun it hit _ => hcf it hit) with ⟨g', hg', hq, f, hf, hcf⟩ | hi | ⟨q, hq, hcf⟩
    · refine .inl ⟨cu, hfa ▸ hcv, ⟨hwv, hn⟩, g', hg', hq, ?_⟩
      have hg'm := (mem_wanted.1 hg').1
      have ra := ha.variables cu hcv g' hg'm
      have rb := hb.variables cv (hfb ▸ hcum) g hgm
      cases hf
      cases hfl : (variableD o ⟨sa, sb, same, heap⟩ cu.dir cv.dir g' g).flag (printOpts o) i .equal d
      · exact .inl (variable_unreported ra rb hfl)
      · exact .inr ⟨_, ⟨_, rfl, rfl⟩, carried ((hce i d).trans ((hcp i d).2.2.trans (hcf i d))) hfl⟩
    · exact .inr (.inl hi)
    · cases hq
      refine .inr (.inr ⟨_, rfl, ?_⟩)
      rw [variableText, ← C85_variable o sb cv.dir g o.http i .add d]
      exact carried_add ((hce i d).trans ((hcp i d).2.2.trans (hcf i d))) fun _ _ _ _ => List.infix_refl _
  · exact .inr (.inl hi)
  · obtain ⟨q, rfl, hcq⟩ := (unitP_carries ho hp).2.2 hcat g hgw
    refine .inr (.inr ⟨_, rfl, ?_⟩)
    rw [variableText, ← C85_variable o sb cv.dir g o.http i .add d]
    exact carried_add (hce i d) hcq

end

end Verif.Whole
