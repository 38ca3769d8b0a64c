import Verif.Whole.Lemmas
import Verif.Show.TypeRefProps
/-!
# C91: from the entries of the debug information to the text of the listing
-/
namespace Verif.Whole
open Verif.Item Verif.Types Verif.Namespace Verif.Range Verif.Sentinel Verif.File Verif.Dwarf Verif.Show
  Verif.Filter Verif.Opts Verif.Code
open Verif.Print (P Line render)

section
variable {search : Search} {n : Nat} {r : RawObject} {f : File} {k : Nat} {u : RawUnit} {cu : CompUnit}

/-- The items of a unit as first parsed. -/
theorem start (hv : ValidSearch search) (h : parseObject search n r = some f) (hp : Placed r.units)
    (hk : r.units[k]? = some u) (hc : f.units[k]? = some cu) :
    ∃ us cu0 items, parseUnits r.bigEndian n r.units = some us ∧ us[k]? = some cu0 ∧ UnitNamed f.symbols cu0 cu ∧
      parseUnit r.bigEndian u.version n u.line u.root = some cu0 ∧
      (itemsAll .unit u.root.children).Nodup ∧ parseItems (envOf r.bigEndian u cu0) n u.root.children = some items ∧
      cu0.types = items.types ∧ cu0.functions = items.functions ∧ cu0.variables = items.variables ∧
      fnOf cu0 = items.fn ∧ varOf cu0 = items.var ∧ fileHash r.units f.units = fileHash r.units us := by
  obtain ⟨us, named, symtab, unknown, hP⟩ := parsed hv h
  obtain ⟨cu0, h1, h2⟩ := hP.unit hk hc
  obtain ⟨-, hm⟩ := Dwarf.mapM_get hP.units
  obtain ⟨cu1, g1, g2⟩ := hm k u hk
  rw [h1] at g1; cases g1
  obtain ⟨items, hi, ht, hf, hvs, hfn⟩ := unit_items g2
  refine ⟨us, cu0, items, hP.units, h1, h2, g2, hp.nodup (List.mem_of_getElem? hk), hi, ht, hf, hvs, hfn, ?_, hP.hash⟩
  funext o
  simp only [varOf, UnitItems.var, hvs]

/-- **C91** (units). A file that can be parsed has one unit for each unit of the debug information, in
order, with the name and directory its root entry gives; then `<symtab>` and `<unknown>`. -/
theorem C91_units (hv : ValidSearch search) (h : parseObject search n r = some f) :
    f.units.length = r.units.length + 2 ∧
    (∀ (k : Nat) u, r.units[k]? = some u → ∃ cu, f.units[k]? = some cu ∧ cu.name = u.root.strAttr .name ∧
      cu.dir = u.root.strAttr .compDir) ∧
    (f.units[r.units.length]?.bind (·.name)) = some (Str.ofString "<symtab>") ∧
    (f.units[r.units.length + 1]?.bind (·.name)) = some (Str.ofString "<unknown>") := by
  obtain ⟨us, named, symtab, unknown, hP⟩ := parsed hv h
  obtain ⟨hl, hm⟩ := Dwarf.mapM_get hP.units
  have hl2 := EachRel.len hP.named
  refine ⟨by rw [hP.file, List.length_append, hl2, hl]; rfl, fun k u hk => ?_, ?_, ?_⟩
  · obtain ⟨cu, hcu⟩ := hP.unit_ex hk
    obtain ⟨cu0, g1, g2⟩ := hP.unit hk hcu
    obtain ⟨cu1, e1, e2⟩ := hm k u hk
    rw [g1] at e1; cases e1
    have := C47_names e2
    have hn := named_unit g2
    exact ⟨cu, hcu, hn.2.2.1.trans this.1, hn.2.2.2.1.trans this.2⟩
  · rw [hP.file, List.getElem?_append_right (by omega), hl2, hl, Nat.sub_self]
    exact hP.names.1
  · rw [hP.file, List.getElem?_append_right (by omega), hl2, hl, Nat.add_sub_cancel_left]
    exact hP.names.2

/-! ### Records -/

/-- **C91** (records of types). The types of a unit are those of its named type entries, each once. -/
theorem C91_type_records (hv : ValidSearch search) (h : parseObject search n r = some f) (hp : Placed r.units)
    (hk : r.units[k]? = some u) (hc : f.units[k]? = some cu) :
    (cu.types.map (·.offset)).Nodup ∧ (∀ ns d, NamedType u cu ns d → typeAt r u cu ns d ∈ cu.types) ∧
    (∀ t ∈ cu.types, ∃ ns d, NamedType u cu ns d ∧ typeAt r u cu ns d = t) ∧
    (∀ ns d ns' d', NamedType u cu ns d → NamedType u cu ns' d' → d.offset = d'.offset → ns = ns' ∧ d = d') := by
  obtain ⟨us, cu0, items, hus, h1, h2, h3, hn, hi, ht, hf, hvs, hfn, hvn, hh⟩ := start hv h hp hk hc
  obtain ⟨ht', -⟩ := named_unit h2
  have hty : ∀ ns d, NamedType u cu ns d ↔ NamedType u cu0 ns d := fun ns d => typeAt_iff h2
  have henv := env_named h2 r.bigEndian u
  refine ⟨?_, fun ns d hd => ?_, fun t htm => ?_, fun ns d ns' d' hd hd' ho => ?_⟩
  · rw [ht', ht]; exact (C71_listing hn hi).1
  · rw [ht', ht, typeAt, henv]
    exact C71_record hn hi (by rw [← hfn]; exact (hty ns d).1 hd)
  · obtain ⟨k', u', ns, d, g1, g2, g3, g4, g5⟩ := listed_type hp hus (List.mem_of_getElem? h1) (ht' ▸ htm)
    have : k' = k ∧ u' = u := by
      obtain ⟨s, P, _, h0, hs, hfs, htt, -⟩ := final hn hi
      obtain ⟨ns2, d2, hd2, e2⟩ := (h0.sound items.fn (h0.agree hfs)).2.types t (htt ▸ ht ▸ ht' ▸ htm)
      have hd2' : NamedType u cu0 ns2 d2 := by unfold NamedType; rw [hfn]; exact hd2
      have ho : d.offset = d2.offset := by
        have := congrArg TypeEntry.offset (g5.symm.trans e2)
        exact Option.some.inj this
      obtain ⟨rfl, -⟩ := hp.unique g1 hk g4 hd2'.mem ho
      rw [hk] at g1; cases g1; exact ⟨rfl, rfl⟩
    obtain ⟨rfl, rfl⟩ := this
    refine ⟨ns, d, (hty ns d).2 g3, ?_⟩
    rw [typeAt, henv]; exact g5.symm
  · obtain ⟨s, P, _, h0, hs, hfs, -⟩ := final hn hi
    have hd := (hty ns d).1 hd
    have hd' := (hty ns' d').1 hd'
    unfold NamedType at hd hd'
    rw [hfn] at hd hd'
    obtain ⟨_, _, a1, a2, a3⟩ := hd
    obtain ⟨_, _, b1, b2, b3⟩ := hd'
    exact scope_unique hn (h0.defined hs hfs) a1 a2 b1 b2 (ty_item a3) (by rw [ho]; exact ty_item b3)

/-- **C91** (records of functions). Every function entry has a record: what the attributes of the entry
say (`ownFunction`, C72, C57), completed from its specification; and the symbol name as the symbols of
the file say. -/
theorem C91_function_records (hv : ValidSearch search) (h : parseObject search n r = some f) (hp : Placed r.units)
    (hk : r.units[k]? = some u) (hc : f.units[k]? = some cu) :
    (cu.functions.map (·.offset)).Nodup ∧
    (∀ ns d, FnAt (fnOf cu) u.root.children ns d → ∃ g, fnOf cu d.offset = some g ∧ g ∈ cu.functions ∧ g.offset = some d.offset ∧
      Made (fnOf cu) u.root.children (ownFunction cu.lowPc ns d) d (noSymbol g) ∧
      FunctionNamed f.symbols (noSymbol g) g) ∧
    (∀ g ∈ cu.functions, ∃ ns d, FnEntry u cu ns d g) ∧
    (∀ ns d g ns' d' g', FnEntry u cu ns d g → FnEntry u cu ns' d' g' → d.offset = d'.offset → ns = ns' ∧ d = d' ∧ g = g') := by
  obtain ⟨us, cu0, items, hus, h1, h2, h3, hn, hi, ht, hf, hvs, hfn, hvn, hh⟩ := start hv h hp hk hc
  obtain ⟨offs, ho1, ho2, ho3⟩ := C44_listing hn hi
  have hoff := (named_offsets h2).1
  have hlow : (envOf r.bigEndian u cu0).lowPc = cu.lowPc := (named_unit h2).2.1.symm
  have hnd : (cu.functions.map (·.offset)).Nodup := by rw [hoff, hf]; exact nodup_offsets ho1 ho2
  refine ⟨hnd, fun ns d hd => ?_, fun g hg => ?_, ?_⟩
  · obtain ⟨g0, hg0, hoff0, hmade⟩ := C44_record hn hi (by rw [← hfn]; exact (fnAt_iff h2).1 hd)
    rw [hlow] at hmade
    have hsym : g0.symbolName = none := by
      have hown : (ownFunction cu.lowPc ns d).symbolName = none := (C72_function cu.lowPc ns d).2.2.2.2.2.2.2.2.2
      rcases hmade with ⟨-, hs⟩ | ⟨_, _, _, -, -, hs⟩ | ⟨-, -, hs⟩
      · have := congrArg Function.symbolName hs.rest; exact this.trans hown
      · exact hs.rest.2.2.2.2.2.2.trans hown
      · have := congrArg Function.symbolName hs.rest; exact this.trans hown
    rcases unit_fn h2 d.offset with ⟨e, -⟩ | ⟨g1, g, e1, e2, e3⟩
    · rw [hfn, hg0] at e; cases e
    rw [hfn, hg0] at e1
    cases e1
    have hgn : noSymbol g = g0 := by
      obtain ⟨x, rfl, -⟩ := e3
      unfold noSymbol
      rw [← hsym]
    refine ⟨g, e2, List.mem_of_find?_eq_some e2, ?_, ?_, by rw [hgn]; exact e3⟩
    · obtain ⟨x, rfl, -⟩ := e3; exact hoff0
    · rw [hgn]
      rcases hmade with a | ⟨s, a, g1, b1, b2, b3⟩ | c
      · exact .inl a
      · refine .inr (.inl ?_)
        rcases unit_fn h2 s with ⟨e, -⟩ | ⟨g2, g', e1, e2, e3⟩
        · rw [hfn, b2] at e; cases e
        rw [hfn, b2] at e1; cases e1
        refine ⟨s, a, g', b1, e2, ?_⟩
        obtain ⟨x, rfl, -⟩ := e3
        exact ⟨b3.ns, b3.name, b3.linkageName, b3.source, b3.returnType, b3.parameters, b3.rest⟩
      · exact .inr (.inr c)
  · have hgo : g.offset ∈ items.functions.map (·.offset) := by
      rw [← hf, ← hoff]; exact List.mem_map.2 ⟨g, hg, rfl⟩
    obtain ⟨g0, hg0, e⟩ := List.mem_map.1 hgo
    obtain ⟨ns, d, hd, hd2⟩ := C44_origin hn hi hg0
    have hdo : g0.offset = some d.offset := by
      have := List.find?_some hd2
      simpa using this
    refine ⟨ns, d, (fnAt_iff h2).2 (by rw [hfn]; exact hd), ?_⟩
    exact find_of_mem hnd hg (by rw [← e, hdo])
  · rintro ns d g ns' d' g' ⟨a1, a2⟩ ⟨b1, b2⟩ ho
    obtain ⟨s, P, _, h0, hs, hfs, -⟩ := final hn hi
    have a1 := (fnAt_iff h2).1 a1
    have b1 := (fnAt_iff h2).1 b1
    rw [hfn] at a1 b1
    obtain ⟨_, _, a3, a4, a5⟩ := a1
    obtain ⟨_, _, b3, b4, b5⟩ := b1
    obtain ⟨rfl, rfl⟩ := scope_unique hn (h0.defined hs hfs) a3 a4 b3 b4 (fn_item a5) (by rw [ho]; exact fn_item b5)
    rw [a2] at b2; cases b2
    exact ⟨rfl, rfl, rfl⟩

/-- **C91** (records of variables). The variables of a unit are those whose chain of specifications
ends; each has the record its attributes give (`ownVariable`, C72), completed from its specification;
and the symbol name as the symbols of the file say. -/
theorem C91_variable_records (hv : ValidSearch search) (h : parseObject search n r = some f) (hp : Placed r.units)
    (hk : r.units[k]? = some u) (hc : f.units[k]? = some cu) :
    (cu.variables.map (·.offset)).Nodup ∧
    (∀ ns d, VarAt (fnOf cu) u.root.children ns d → VarResolves (fnOf cu) u.root.children d →
      ∃ v, varOf cu d.offset = some v ∧ v ∈ cu.variables ∧ v.offset = some d.offset ∧
      VarMade (varOf cu) (ownVariable ns d).1 d (noSymbolVar v) ∧ VariableNamed f.symbols (noSymbolVar v) v) ∧
    (∀ v ∈ cu.variables, ∃ ns d, VarEntry u cu ns d v) ∧
    (∀ ns d v ns' d' v', VarEntry u cu ns d v → VarEntry u cu ns' d' v' → d.offset = d'.offset → ns = ns' ∧ d = d' ∧ v = v') := by
  obtain ⟨us, cu0, items, hus, h1, h2, h3, hn, hi, ht, hf, hvs, hfn, hvn, hh⟩ := start hv h hp hk hc
  obtain ⟨offs, ho1, ho2, ho3⟩ := C45_listing hn hi
  have hoff := (named_offsets h2).2
  have hnd : (cu.variables.map (·.offset)).Nodup := by rw [hoff, hvs]; exact nodup_offsets ho1 ho2
  refine ⟨hnd, fun ns d hd hr => ?_, fun v hvm => ?_, ?_⟩
  · obtain ⟨v0, hv0, hmade⟩ := C45_record hn hi (by rw [← hfn]; exact (varAt_iff h2).1 hd)
      (by rw [← hfn]; exact (varResolves_iff h2).1 hr)
    have hsym : v0.symbolName = none := by
      have hown : (ownVariable ns d).1.symbolName = none := (C72_variable ns d).2.2.2.2.2.2.2.2.2
      rcases hmade with ⟨-, hs⟩ | ⟨_, _, -, -, hs⟩
      · rw [hs]; exact hown
      · exact hs.rest.2.2.2.2.2.trans hown
    rcases unit_var h2 d.offset with ⟨e, -⟩ | ⟨v1, v, e1, e2, e3⟩
    · rw [hvn, hv0] at e; cases e
    rw [hvn, hv0] at e1
    cases e1
    have hgn : noSymbolVar v = v0 := by
      obtain ⟨x, rfl, -⟩ := e3
      unfold noSymbolVar
      rw [← hsym]
    refine ⟨v, e2, List.mem_of_find?_eq_some e2, ?_, ?_, by rw [hgn]; exact e3⟩
    · have := List.find?_some e2
      simpa using this
    · rw [hgn]
      rcases hmade with a | ⟨s, g1, b1, b2, b3⟩
      · exact .inl a
      · refine .inr ?_
        rcases unit_var h2 s with ⟨e, -⟩ | ⟨g2, g', e1, e2, e3⟩
        · rw [hvn, b2] at e; cases e
        rw [hvn, b2] at e1; cases e1
        refine ⟨s, g', b1, e2, ?_⟩
        obtain ⟨x, rfl, -⟩ := e3
        exact ⟨b3.ns, b3.name, b3.linkageName, b3.ty, b3.rest⟩
  · have hgo : v.offset ∈ offs.map some := by
      rw [← ho1, ← hvs, ← hoff]; exact List.mem_map.2 ⟨v, hvm, rfl⟩
    obtain ⟨o, ho, e⟩ := List.mem_map.1 hgo
    obtain ⟨d, hd, rfl⟩ := (ho3 o).1 ho
    obtain ⟨ns, hat⟩ := hd.at
    exact ⟨ns, d, (varAt_iff h2).2 (by rw [hfn]; exact hat), find_of_mem hnd hvm e.symm⟩
  · rintro ns d g ns' d' g' ⟨a1, a2⟩ ⟨b1, b2⟩ ho
    obtain ⟨s, P, _, h0, hs, hfs, -⟩ := final hn hi
    have a1 := (varAt_iff h2).1 a1
    have b1 := (varAt_iff h2).1 b1
    rw [hfn] at a1 b1
    obtain ⟨_, _, a3, a4, a5⟩ := a1
    obtain ⟨_, _, b3, b4, b5⟩ := b1
    obtain ⟨rfl, rfl⟩ := scope_unique hn (h0.defined hs hfs) a3 a4 b3 b4 (var_item a5) (by rw [ho]; exact var_item b5)
    rw [a2] at b2; cases b2
    exact ⟨rfl, rfl, rfl⟩

/-! ### The text -/

theorem TypeRows.id {o : Options} {s : Side} {dir : Option Str} {x : Extra} {j : Nat} {t : Ty} {rows : List Row}
    (h : TypeRows o s dir { x with id := j } t rows) : TypeRows o s dir x t rows := by
  cases h with
  | base => exact .base
  | def_ a b => exact .def_ a b
  | struct_ a => exact .struct_ a
  | union_ a => exact .union_ a
  | enum_ a => exact .enum_ a

variable {code : Option Code} {disasm : List Nat → Nat → Option (List Insn)} {regName : Nat → Option Str} {ids : Nat → Nat}
  {fnId : Function → Nat} {varId : Variable → Nat} {unitId : CompUnit → Nat} {insns : Function → Option P}

/-- **C91** (a unit). The listing of a unit of the debug information has one item for every wanted
entry of a type, function or variable, wherever in the unit it is, and no other item; and the item
says what the record of the entry says. -/
theorem C91_unit (hv : ValidSearch search) (h : parseObject search n r = some f) (hp : Placed r.units)
    (hk : r.units[k]? = some u) (hc : f.units[k]? = some cu) {o : Options} (ho : o.html = false) {s : FileSide} {b m : Nat}
    (hs : s = sideOf b r f code disasm regName ids fnId varId unitId insns) {p : P} (hu : unitP o s m cu = some p) (i d : Nat) :
    EntriesListed o r s u cu i d (render (p.lines o.http i .none d)) := by
  have hh : s.hash = fileHash r.units f.units := by rw [hs]; rfl
  have hx : ∀ t, s.extra t = extraAt r.units s.hash ids t := by intro t; rw [hs]; rfl
  obtain ⟨t1, t2, t3, t4⟩ := C91_type_records hv h hp hk hc
  obtain ⟨f1, f2, f3, f4⟩ := C91_function_records hv h hp hk hc
  obtain ⟨v1, v2, v3, v4⟩ := C91_variable_records hv h hp hk hc
  obtain ⟨part, types, fns, vars, e, p0, p1, ty0, ty1, fn0, fn1, va0, va1⟩ := (C82_unit_listing o ho s m cu p hu i d).parts
  refine ⟨part, types, fns, vars, e, p0, fun hw => ?_, ty0, fun hw => ?_, fn0, fun hw => ?_, va0, fun hw => ?_⟩
  · obtain ⟨q, hq, rfl⟩ := p1 hw
    obtain ⟨rows, g1, g2⟩ := C85_unit o s.toSide cu q hq o.http i .none d
    exact ⟨rows, g1, by rw [g2]⟩
  · refine consists (ty1 hw) (wanted_nodup (nodup_of_map t1)) (g := fun x => typeAt r u cu x.1 x.2) ?_ ?_ ?_ ?_
    · intro t ht
      obtain ⟨ht, hwt⟩ := mem_wanted.1 ht
      obtain ⟨ns, d', hd, rfl⟩ := t3 t ht
      exact ⟨(ns, d'), rfl, hd, hwt⟩
    · rintro ⟨ns, d'⟩ ⟨hd, hwt⟩
      exact mem_wanted.2 ⟨t2 ns d' hd, hwt⟩
    · rintro ⟨ns, d'⟩ ⟨ns', d''⟩ ⟨hd, -⟩ ⟨hd', -⟩ e
      obtain ⟨rfl, rfl⟩ := t4 ns d' ns' d'' hd hd' (Option.some.inj (congrArg TypeEntry.offset e))
      rfl
    · rintro ⟨ns, d'⟩ q ⟨hd, -⟩ hq
      obtain ⟨rows, g1, g2⟩ := C85_type o s.toSide cu.dir m _ q hq o.http i .none d
      refine ⟨rows, ?_, by rw [g2]; rfl⟩
      have hex : s.extra (some d'.offset) = { typeExtra r.units s.hash d' with id := ids d'.offset } := by
        rw [hx]
        have hm : d' ∈ dies u.root := NamedType.mem hd
        simp only [extraAt, entryAt_eq hp hk hm]
      have g1 : TypeRows o s.toSide cu.dir (s.extra (some d'.offset)) _ rows := g1
      rw [hex] at g1
      exact TypeRows.id g1
  · refine consists (fn1 hw) (wanted_nodup (nodup_of_map f1)) (g := fun x => x.2.2) ?_ ?_ ?_ ?_
    · intro g hg
      obtain ⟨hg, hwg⟩ := mem_wanted.1 hg
      obtain ⟨ns, d', hd⟩ := f3 g hg
      exact ⟨(ns, d', g), rfl, hd, hwg⟩
    · rintro ⟨ns, d', g⟩ ⟨hd, hwg⟩
      exact mem_wanted.2 ⟨List.mem_of_find?_eq_some hd.2, hwg⟩
    · rintro ⟨ns, d', g⟩ ⟨ns', d'', g'⟩ ⟨hd, -⟩ ⟨hd', -⟩ e
      simp only at e
      subst e
      have a1 := List.find?_some hd.2
      have a2 := List.find?_some hd'.2
      simp only [decide_eq_true_eq] at a1 a2
      obtain ⟨rfl, rfl, -⟩ := f4 ns d' g ns' d'' g hd hd' (Option.some.inj (a1.symm.trans a2))
      rfl
    · rintro ⟨ns, d', g⟩ q ⟨hd, -⟩ hq
      obtain ⟨rows, code, g1, g2, g3⟩ := C85_function o s.toFnSide cu.dir m g q hq o.http i .none d
      exact ⟨rows, code, g1, g2, by rw [g3]⟩
  · refine consists (va1 hw) (wanted_nodup (nodup_of_map v1)) (g := fun x => x.2.2) ?_ ?_ ?_ ?_
    · intro g hg
      obtain ⟨hg, hwg⟩ := mem_wanted.1 hg
      obtain ⟨ns, d', hd⟩ := v3 g hg
      exact ⟨(ns, d', g), rfl, hd, hwg⟩
    · rintro ⟨ns, d', g⟩ ⟨hd, hwg⟩
      exact mem_wanted.2 ⟨List.mem_of_find?_eq_some hd.2, hwg⟩
    · rintro ⟨ns, d', g⟩ ⟨ns', d'', g'⟩ ⟨hd, -⟩ ⟨hd', -⟩ e
      simp only at e
      subst e
      have a1 := List.find?_some hd.2
      have a2 := List.find?_some hd'.2
      simp only [decide_eq_true_eq] at a1 a2
      obtain ⟨rfl, rfl, -⟩ := v4 ns d' g ns' d'' g hd hd' (Option.some.inj (a1.symm.trans a2))
      rfl
    · rintro ⟨ns, d', g⟩ q ⟨hd, -⟩ hq
      cases hq
      show render ((variableP o s cu.dir g).lines o.http i .none d) = _
      rw [C85_variable]; rfl

theorem zip_parts {α : Type} {R : α → Str → Prop} {l : List α} {ts : List Str} (h : All2 R l ts) :
    ∃ parts : List (α × Str), ts.flatten = (parts.map (·.2)).flatten ∧ parts.map (·.1) = l ∧ ∀ a t, (a, t) ∈ parts → R a t := by
  induction h with
  | nil => exact ⟨[], rfl, rfl, by simp⟩
  | @cons a t as ts r _ ih =>
    obtain ⟨parts, h1, h2, h3⟩ := ih
    refine ⟨(a, t) :: parts, by simp [h1], by simp [h2], fun a' t' hm => ?_⟩
    rcases List.mem_cons.1 hm with e | hm
    · cases e; exact r
    · exact h3 a' t' hm

/-- **C91** (the file). The listing of an object file is its summary, if wanted, and then the listings
of the wanted units; the listing of a unit of the debug information is as `C91_unit` says. -/
theorem C91_listing (hv : ValidSearch search) (h : parseObject search n r = some f) (hp : Placed r.units)
    {o : Options} (ho : o.html = false) {s : FileSide} {b m : Nat}
    (hs : s = sideOf b r f code disasm regName ids fnId varId unitId insns) {p : P} (hu : fileP o s m = some p) (i d : Nat) :
    ∃ head units, render (p.lines o.http i .none d) = head ++ units ∧
      (o.categoryFile = false → head = []) ∧
      (o.categoryFile = true → ∃ rows, FileRows o s rows ∧ head = rowsText i rows) ∧
      UnitsListed o r f s m i d units := by
  obtain ⟨head, units, h1, h2, h3, order, texts, ha, hb, rfl⟩ := C82_listing o s m p hu i d
  refine ⟨head, _, h1, h2, fun hw => ?_, ?_⟩
  · obtain ⟨q, hq, rfl⟩ := h3 hw
    obtain ⟨rows, g1, g2⟩ := C85_file o s q hq o.http i .none d
    exact ⟨rows, g1, by rw [g2]; rfl⟩
  · obtain ⟨parts, g1, g2, g3⟩ := zip_parts hb
    have hf : s.file = f := by rw [hs]; rfl
    refine ⟨parts, g1, by rw [g2, ← hf]; exact ha.perm, fun cu t ht => ?_⟩
    obtain ⟨q, hq, rfl⟩ := g3 cu t ht
    exact ⟨C82_unit_listing o ho s m cu q hq i d, fun k u hk hc => C91_unit hv h hp hk hc ho hs hq i d⟩

end

end Verif.Whole
