import Verif.Whole.Props
import Verif.Dwarf.DetailProps
import Verif.Dwarf.BoundsProps
import Verif.Code.Props
import Verif.File.Props
/-!
# C91: what the listing reads of a file is what the entries say
-/
namespace Verif.Whole
open Verif.Item Verif.Types Verif.Namespace Verif.Range Verif.Sentinel Verif.File Verif.Dwarf Verif.Show
  Verif.Filter Verif.Opts Verif.Code
open Verif.Print (P Line render)

/-- The number of a `DW_ATE_*` constant. -/
def encodingNumber : Dwarf.Val → Option Nat
  | .encoding n => some n
  | _ => none

/-- The number of a `DW_END_*` constant. -/
def endianityNumber : Dwarf.Val → Option Nat
  | .endianity n => some n
  | _ => none

/-- The entry is a type with a source location. -/
def HasSource (d : Die) : Prop := d.tag = .typedef ∨ d.tag = .structure_ ∨ d.tag = .union_ ∨ d.tag = .enumeration

/-- The entry is a type that may be a mere declaration. -/
def MayDeclare (d : Die) : Prop := d.tag = .structure_ ∨ d.tag = .union_ ∨ d.tag = .enumeration

theorem baseExtra_eq (d : Die) :
    (baseExtra d).1 = ((d.lastOf .encoding encodingNumber).map encodingConst).getD .other ∧
    (baseExtra d).2 = ((d.lastOf .endianity endianityNumber).map endianityConst).getD .default_ := by
  have fix : ∀ {β : Type} (c : Nat → β) (g : Dwarf.Val → Option Nat) (a : At) (z : β),
      (d.lastOf a fun v => (g v).map c).getD z = ((d.lastOf a g).map c).getD z := by
    intro β c g a z
    unfold Die.lastOf Die.lastBy
    have : (fun av : At × Dwarf.Val => if av.1 = a then (g av.2).map c else none) =
        fun av => (if av.1 = a then g av.2 else none).map c := by
      funext av; split <;> rfl
    rw [this, ← List.map_filterMap, List.getLast?_map]
  constructor
  · rw [← fix]
    exact foldl_lastOf baseAttr (·.1) .encoding _ (fun s v => by cases v <;> rfl)
      (fun s a v h => by cases a <;> first | exact absurd rfl h | (cases v <;> rfl)) d _
  · rw [← fix]
    exact foldl_lastOf baseAttr (·.2) .endianity _ (fun s v => by cases v <;> rfl)
      (fun s a v h => by cases a <;> first | exact absurd rfl h | (cases v <;> rfl)) d _

/-- The encodings of the DWARF standard (table 7.11) that a listing distinguishes. -/
def dwAte : List (Nat × Show.Encoding) :=
  [(0x1, .address), (0x2, .boolean), (0x4, .float), (0x5, .signed), (0x6, .signedChar), (0x7, .unsigned), (0x8, .unsignedChar)]

/-- The byte orders of the DWARF standard (table 7.14, `DW_END_*`). -/
def dwEnd : List (Nat × Show.Endianity) := [(0, .default_), (1, .big), (2, .little)]

/-- **C91** (constants). Encodings and byte orders are read as the DWARF standard numbers them. -/
theorem C91_constants :
    (∀ n e, (n, e) ∈ dwAte → encodingConst n = e) ∧ (∀ n, n ∉ dwAte.map (·.1) → encodingConst n = .other) ∧
    (∀ n e, (n, e) ∈ dwEnd → endianityConst n = e) ∧ (∀ n, n ∉ dwEnd.map (·.1) → endianityConst n = .default_) := by
  refine ⟨fun n e h => ?_, fun n h => ?_, fun n e h => ?_, fun n h => ?_⟩
  · simp only [dwAte, List.mem_cons, Prod.mk.injEq, List.not_mem_nil, or_false] at h
    rcases h with ⟨rfl, rfl⟩ | ⟨rfl, rfl⟩ | ⟨rfl, rfl⟩ | ⟨rfl, rfl⟩ | ⟨rfl, rfl⟩ | ⟨rfl, rfl⟩ | ⟨rfl, rfl⟩ <;> rfl
  · unfold encodingConst
    split <;> first | rfl | exact absurd (by decide) h
  · simp only [dwEnd, List.mem_cons, Prod.mk.injEq, List.not_mem_nil, or_false] at h
    rcases h with ⟨rfl, rfl⟩ | ⟨rfl, rfl⟩ | ⟨rfl, rfl⟩ <;> rfl
  · unfold endianityConst
    split <;> first | rfl | exact absurd (by decide) h

/-- **C91** (function types and modifiers). The names of the parameters of a function type are those of its
parameter entries, where a parameter refers to an earlier one the two count as one (`C72_parameter`); the name of a
modifier is that of the entry. -/
theorem C91_names (units : List RawUnit) (h : Hash) (d : Die) :
    (d.tag = .subroutine → (∀ c ∈ d.children, c.tag = .formalParameter → (ownParam c).2 = none) →
      (typeExtra units h d).paramNames = (d.children.filter fun c => c.tag = .formalParameter).map fun c => c.strAttr .name) ∧
    (∀ m, d.tag = .modifier m → (typeExtra units h d).name = d.strAttr .name) := by
  refine ⟨fun ht hn => ?_, fun m ht => ?_⟩
  · unfold typeExtra
    rw [ht]
    show (addParams [] d.children).map (·.name) = _
    unfold addParams
    have key : ∀ (l : List Die) (ps : List ParameterType), (∀ c ∈ l, (ownParam c).2 = none) →
        (l.foldl addParam ps).map (·.name) = ps.map (·.name) ++ l.map fun c => c.strAttr .name := by
      intro l
      induction l with
      | nil => simp
      | cons c l ih =>
        intro ps hl
        rw [List.foldl_cons, ih _ fun x hx => hl x (List.mem_cons_of_mem _ hx)]
        have hc := hl c (by simp)
        have : addParam ps c = ps ++ [(ownParam c).1] := by
          unfold addParam
          cases hx : ownParam c with
          | mk p q => rw [hx] at hc; cases hc; rfl
        rw [this]
        simp [(C72_parameter c).2.1]
    rw [key _ _ fun c hc => hn c (List.mem_filter.1 hc).1 (by simpa using (List.mem_filter.1 hc).2)]
    rfl
  · unfold typeExtra
    rw [ht]
    exact nameAttr_eq d

/-- The value of the last `DW_AT_const_value`, as the encoding of the enumeration tells to read it. -/
def constShown (e : Show.Encoding) (c : Die) : Show.EnumValue :=
  if e ∈ [.unsigned, .unsignedChar, .boolean, .address] then
    ((c.lastOf .constValue Val.udataValue).map .unsigned).getD .other
  else ((c.lastOf .constValue Val.sdataValue).map .signed).getD .other

/-- **C91** (enumerators). The enumerators of an enumeration are the children of its entry that are enumerators, in
order, with the names and values their attributes say; values are read by the encoding `e`. -/
theorem C91_enumerator_values (e : Show.Encoding) (d : Die) :
    (enumerators (toDwarf e) d).map toShow =
      (d.children.filter fun c => c.tag = .enumerator).map fun c => ⟨c.strAttr .name, constShown e c⟩ := by
  rw [C50_enumerators, List.map_map]
  have fix : ∀ {α β : Type} (c : Die) (g : Dwarf.Val → Option α) (w : α → β),
      (c.lastOf .constValue fun v => (g v).map w) = (c.lastOf .constValue g).map w := by
    intro α β c g w
    unfold Die.lastOf Die.lastBy
    have : (fun av : At × Dwarf.Val => if av.1 = .constValue then (g av.2).map w else none) =
        fun av => (if av.1 = .constValue then g av.2 else none).map w := by
      funext av; split <;> rfl
    rw [this, ← List.map_filterMap, List.getLast?_map]
  apply List.map_congr_left
  intro c _
  have hu : ∀ x : Dwarf.Encoding, x.isUnsigned = true → (c.lastOf .constValue (enumValue x)) =
      (c.lastOf .constValue Val.udataValue).map .unsigned := by
    intro x hx
    rw [← fix]; congr 1; funext v; simp [enumValue, hx]
  have hs : ∀ x : Dwarf.Encoding, x.isUnsigned = false → (c.lastOf .constValue (enumValue x)) =
      (c.lastOf .constValue Val.sdataValue).map .signed := by
    intro x hx
    rw [← fix]; congr 1; funext v; simp [enumValue, hx]
  have hcu : ∀ e', toDwarf e = e' → e'.isUnsigned = true → e ∈ [Show.Encoding.unsigned, .unsignedChar, .boolean, .address] →
      (toShow ⟨c.strAttr .name, (c.lastOf .constValue (enumValue (toDwarf e))).getD .other⟩ : Show.Enumerator) =
        ⟨c.strAttr .name, constShown e c⟩ := by
    intro e' h1 h2 h3
    rw [h1, hu e' h2, constShown, if_pos h3]
    cases c.lastOf .constValue Val.udataValue <;> rfl
  have hcs : ∀ e', toDwarf e = e' → e'.isUnsigned = false → e ∉ [Show.Encoding.unsigned, .unsignedChar, .boolean, .address] →
      (toShow ⟨c.strAttr .name, (c.lastOf .constValue (enumValue (toDwarf e))).getD .other⟩ : Show.Enumerator) =
        ⟨c.strAttr .name, constShown e c⟩ := by
    intro e' h1 h2 h3
    rw [h1, hs e' h2, constShown, if_neg h3]
    cases c.lastOf .constValue Val.sdataValue <;> rfl
  cases e <;> first
    | exact hcu _ rfl rfl (by simp)
    | exact hcs _ rfl rfl (by simp)

/-- **C91** (what is printed beside the structure of a type). Encoding and byte order of a base type,
the source location and the declaration flag are what the attributes of the entry say, and nothing is
said of them for other types. -/
theorem C91_extra (units : List RawUnit) (h : Hash) (d : Die) :
    (d.tag = .baseType →
      (typeExtra units h d).encoding = ((d.lastOf .encoding encodingNumber).map encodingConst).getD .other ∧
      (typeExtra units h d).endianity = ((d.lastOf .endianity endianityNumber).map endianityConst).getD .default_) ∧
    (HasSource d → SourceSays d (typeExtra units h d).source) ∧
    (MayDeclare d → (typeExtra units h d).declaration = (d.lastOf .declaration Val.isFlag).getD false) ∧
    (d.tag ≠ .baseType → (typeExtra units h d).encoding = .other ∧ (typeExtra units h d).endianity = .default_) ∧
    (¬ HasSource d → (typeExtra units h d).source = {}) ∧
    (¬ MayDeclare d → (typeExtra units h d).declaration = false) := by
  have hs : SourceSays d (typeSource d) :=
    foldl_source (fun s av => sourceAttr s av.1 av.2) (fun s => s) (fun _ _ => rfl) d {} rfl
  have hd : typeDeclaration d = (d.lastOf .declaration Val.isFlag).getD false :=
    foldl_lastOf (fun (s : Bool) (av : At × Dwarf.Val) => match av with | (.declaration, .flag b) => b | _ => s) (fun s => s)
      .declaration Val.isFlag (fun s v => by cases v <;> rfl)
      (fun s a v h => by cases a <;> first | exact absurd rfl h | rfl) d false
  unfold typeExtra HasSource MayDeclare
  cases ht : d.tag <;> simp [hs, hd, baseExtra_eq]

/-- **C91** (enumerators). The enumerators shown for an enumeration are those of its entry, read as the
encoding of the underlying base type says; as signed numbers if there is none. -/
theorem C91_enumerators {units : List RawUnit} (hp : Placed units) (h : Hash) {k : Nat} {u : RawUnit} (hk : units[k]? = some u)
    {d : Die} (hd : d ∈ dies u.root) (ht : d.tag = .enumeration) :
    (∀ (k' : Nat) u' d' n s, units[k']? = some u' → d' ∈ dies u'.root → d.typeAttr = some d'.offset →
      fromOffset h d.typeAttr = some (.base n s) →
      (typeExtra units h d).enumerators =
        (enumerators (toDwarf (((d'.lastOf .encoding encodingNumber).map encodingConst).getD .other)) d).map toShow) ∧
    ((∀ n s, fromOffset h d.typeAttr ≠ some (.base n s)) →
      (typeExtra units h d).enumerators = (enumerators .signed d).map toShow) := by
  have hx : (typeExtra units h d).enumerators = (enumerators (toDwarf (enumEncoding units h d.typeAttr)) d).map toShow := by
    unfold typeExtra
    rw [ht]
    show enumeratorsOf units h d = _
    unfold enumeratorsOf
    rw [C74_enumerators hp (List.mem_of_getElem? hk) hd]
  refine ⟨fun k' u' d' n s hk' hd' ho hb => ?_, fun hb => ?_⟩
  · rw [hx, ← (baseExtra_eq d').1]
    have he : enumEncoding units h d.typeAttr = (baseExtra d').1 := by
      unfold enumEncoding
      rw [hb, ho]
      simp only [entryAt_eq hp hk' hd', Option.map_some, Option.getD_some]
    rw [he]
  · rw [hx]
    have he : enumEncoding units h d.typeAttr = .signed := by
      unfold enumEncoding
      split
      · next heq _ => exact absurd heq (hb _ _)
      · rfl
    rw [he]; rfl

section
variable {search : Search} {n : Nat} {r : RawObject} {f : File} {k : Nat} {u : RawUnit} {cu : CompUnit}
  {code : Option Code} {disasm : List Nat → Nat → Option (List Insn)} {regName : Nat → Option Str} {ids : Nat → Nat}
  {fnId : Function → Nat} {varId : Variable → Nat} {unitId : CompUnit → Nat} {insns : Function → Option P} {s : FileSide} {b : Nat}

/-- **C91** (references to types). The type that a listing finds at the offset of a named type entry,
or of an array, pointer, or another unnamed type, is what that entry says. -/
theorem C91_types (hv : ValidSearch search) (h : parseObject search n r = some f) (hp : Placed r.units)
    (hs : s = sideOf b r f code disasm regName ids fnId varId unitId insns) (hk : r.units[k]? = some u)
    (hc : f.units[k]? = some cu) :
    (∀ ns d, NamedType u cu ns d → fromOffset s.hash (some d.offset) = some (typeAt r u cu ns d).kind) ∧
    (∀ d t, d ∈ dies u.root → unnamedType u.addressSize d = some t → fromOffset s.hash (some d.offset) = some t) := by
  obtain ⟨us, cu0, items, hus, h1, h2, h3, hn, hi, ht, hf, hvs, hfn, hvn, hh⟩ := start hv h hp hk hc
  have he : s.hash = fileHash r.units us := by rw [hs, ← hh]; rfl
  rw [he]
  refine ⟨fun ns d hd => ?_, fun d t hd ht => ?_⟩
  · rw [typeAt, env_named h2 r.bigEndian u]
    exact C74_named hp hus hk h1 ((typeAt_iff h2).1 hd)
  · exact C74_unnamed hp hus (List.mem_of_getElem? hk) hd ht

/-- **C91** (sizes). A size that a listing shows for a type is that which the structure of the type
gives; and every size that the structure gives, without exceeding 64 bits, is shown if the recursion
is allowed to go deep enough. -/
theorem C91_sizes (h : Hash) (o : TypeOffset) :
    (∀ b z, sizeAt b h o = some z → ∃ t, fromOffset h o = some t ∧ SizeOf h t (some z)) ∧
    (∀ t z, fromOffset h o = some t → SizeOf h t z → ¬ Overflows h t → ∃ b, ∀ m, b ≤ m → sizeAt m h o = z) := by
  refine ⟨fun b z hz => ?_, fun t z ht hz ho => ?_⟩
  · unfold sizeAt at hz
    split at hz
    · next t ht =>
      split at hz
      · next x hx => subst hz; exact ⟨t, ht, C12_byteSize_sound b h t _ hx⟩
      · cases hz
    · cases hz
  · obtain ⟨b, hb⟩ := C12_byteSize_complete h t z hz ho
    exact ⟨b, fun m hm => by simp only [sizeAt, ht, hb m hm]⟩

/-- **C91** (calls). If there is code, the calls listed for a range are those of its instructions and a called stub
has the name `C90` says; without code there are none. A called function is the last one at the address. -/
theorem C91_calls (hs : s = sideOf b r f code disasm regName ids fnId varId unitId insns) (a : Nat) (x : Range) :
    (∀ c, code = some c → s.plt a = c.plt a ∧ ∀ out, s.callsOf x = some out →
      (∃ b is, codeRange c.regions x = some (some b) ∧ disasm b x.lo = some is ∧
        Selects (fun i y => callOf c.regions i = some (some y)) is out) ∨
      (out = [] ∧ ∀ b, codeRange c.regions x = some (some b) → disasm b x.lo = none)) ∧
    (code = none → s.plt a = none ∧ s.callsOf x = some []) ∧
    (∀ g, s.fnByAddress a = some g ↔ LastSuch (fun g : Function => g.address = some a) (allFunctions f.units) g) ∧
    (s.fnByAddress a = none ↔ ∀ g ∈ allFunctions f.units, g.address ≠ some a) := by
  subst hs
  refine ⟨?_, ?_, (C35_by_address f.units a).1, (C35_by_address f.units a).2.1⟩
  · rintro c rfl
    exact ⟨rfl, fun out ho => C51_calls c.regions disasm x out ho⟩
  · rintro rfl
    exact ⟨rfl, rfl⟩

/-- **C91** (names of types). Where a listing refers to a type it writes what the declaration of the
type spells, if the recursion is allowed to go deep enough. -/
theorem C91_spelled (o : TypeOffset) (text : Str)
    (ht : Spelled (fileHash r.units f.units) (extraAt r.units (fileHash r.units f.units) ids) o text) :
    ∃ b0, ∀ b, b0 ≤ b → ((sideOf b r f code disasm regName ids fnId varId unitId insns).tref o).text' = text := by
  obtain ⟨n0, v, hv, hvt⟩ := C78_written _ _ _ _ ht
  refine ⟨n0, fun b hb => ?_⟩
  show ((typeRef b _ _ o).getD .nil).text' = text
  rw [hv b hb]
  exact hvt

theorem selects_right {α β : Type} {R : α → β → Prop} {l : List α} {m : List β} (h : Selects R l m) : ∀ b ∈ m, ∃ a ∈ l, R a b := by
  induction h with
  | nil => simp
  | take r _ ih =>
    intro b hb
    rcases List.mem_cons.1 hb with rfl | hb
    · exact ⟨_, by simp, r⟩
    · obtain ⟨a, ha, hr⟩ := ih b hb; exact ⟨a, List.mem_cons_of_mem _ ha, hr⟩
  | skip _ _ ih => intro b hb; obtain ⟨a, ha, hr⟩ := ih b hb; exact ⟨a, List.mem_cons_of_mem _ ha, hr⟩

/-- Functions with an offset belong to units of the debug information. -/
theorem origin_unit (hv : ValidSearch search) (h : parseObject search n r = some f) {k' : Nat} {cu' : CompUnit}
    (hc : f.units[k']? = some cu') :
    (∃ u', r.units[k']? = some u') ∨ ((∀ g ∈ cu'.functions, g.offset = none) ∧ ∀ v ∈ cu'.variables, v.offset = none) := by
  obtain ⟨us, named, symtab, unknown, hP⟩ := parsed hv h
  have hl := (Dwarf.mapM_get hP.units).1
  have hl2 := EachRel.len hP.named
  by_cases hk : k' < r.units.length
  · exact .inl ⟨r.units[k'], by simp [hk]⟩
  · refine .inr ?_
    rw [hP.file, List.getElem?_append_right (by omega)] at hc
    rcases e : k' - named.length with _ | _ | j
    · rw [e] at hc; simp at hc; subst hc
      refine ⟨fun g hg => ?_, fun v hvm => ?_⟩
      · obtain ⟨_, _, _, _, e⟩ := selects_right hP.functions g hg; rw [e]
      · obtain ⟨_, _, _, _, e⟩ := selects_right hP.variables v hvm; rw [e]
    · rw [e] at hc; simp at hc; subst hc
      rw [hP.empty.1, hP.empty.2]; simp
    · rw [e] at hc; simp at hc

theorem FnEntry.mem {ns : Option Namespace} {d : Die} {g : Function} (h : FnEntry u cu ns d g) : d ∈ dies u.root := by
  obtain ⟨⟨_, _, a, b, -⟩, -⟩ := h
  rw [dies_eq]; exact List.mem_cons_of_mem _ (a.mem_dies d b)

theorem VarEntry.mem {ns : Option Namespace} {d : Die} {g : Variable} (h : VarEntry u cu ns d g) : d ∈ dies u.root := by
  obtain ⟨⟨_, _, a, b, -⟩, -⟩ := h
  rw [dies_eq]; exact List.mem_cons_of_mem _ (a.mem_dies d b)

/-- **C91** (functions). A reference to a function, of any unit, is resolved to the record that is
listed for it; and the parameters, variables, inlined functions and calls shown for a function are
those its entry describes. -/
theorem C91_functions (hv : ValidSearch search) (h : parseObject search n r = some f) (hp : Placed r.units)
    (hs : s = sideOf b r f code disasm regName ids fnId varId unitId insns) (hk : r.units[k]? = some u)
    (hc : f.units[k]? = some cu) {ns : Option Namespace} {d : Die} {g : Function} (hg : FnEntry u cu ns d g) :
    s.fnAt (some d.offset) = some g ∧
    (∀ x, getDetails r.units f.units (some d.offset) = some x →
      s.details g = x ∧ DetailsOf (fileLookup r.units f.units) u.addressSize d x) := by
  have hoff : g.offset = some d.offset := by
    have := List.find?_some hg.2
    simpa using this
  refine ⟨?_, fun x hx => ⟨?_, (C56_file hp f.units).1 k u d x hk hg.mem hx⟩⟩
  · rw [hs]
    show functionsByOffset f.units (some d.offset) = some g
    unfold functionsByOffset
    apply hash_unique
    · exact List.mem_flatMap.2 ⟨cu, List.mem_of_getElem? hc, List.mem_map.2 ⟨g, List.mem_of_find?_eq_some hg.2, by rw [hoff]⟩⟩
    · intro w hw
      obtain ⟨cu', hcu', hw⟩ := List.mem_flatMap.1 hw
      obtain ⟨g', hg', e⟩ := List.mem_map.1 hw
      obtain ⟨e1, rfl⟩ := Prod.mk.inj e
      obtain ⟨k', hk'⟩ := List.getElem?_of_mem hcu'
      rcases origin_unit hv h hk' with ⟨u', hu'⟩ | ⟨hno, -⟩
      · obtain ⟨ns', d', hd'⟩ := (C91_function_records hv h hp hu' hk').2.2.1 g' hg'
        have ho' : g'.offset = some d'.offset := by
          have := List.find?_some hd'.2
          simpa using this
        obtain ⟨rfl, rfl⟩ := hp.unique hu' hk hd'.mem hg.mem (Option.some.inj (ho'.symm.trans e1))
        rw [hk] at hu'; cases hu'
        rw [hc] at hk'; cases hk'
        exact Option.some.inj (hd'.2.symm.trans hg.2)
      · rw [hno g' hg'] at e1; cases e1
  · rw [hs]
    show (getDetails r.units f.units g.offset).getD {} = x
    rw [hoff, hx]; rfl

/-- **C91** (symbols). The functions and variables of `<symtab>` are the symbols whose addresses no
debug information claims. -/
theorem C91_symtab (hv : ValidSearch search) (h : parseObject search n r = some f) :
    ∃ us syms cu, parseUnits r.bigEndian n r.units = some us ∧ readSymbols r.symbols = some syms ∧
      f.units[r.units.length]? = some cu ∧ f.symbols.Perm syms ∧
      Selects (fun s fn => s.kind = .function ∧ ¬ Claimed us s.address ∧
        fn = { name := s.name, linkageName := s.name, address := some s.address, size := some s.size
               ranges := if s.size > 0 then [⟨s.address, s.address + s.size⟩] else [] }) f.symbols cu.functions ∧
      Selects (fun s v => s.kind = .variable ∧ ¬ Claimed us s.address ∧
        v = { name := s.name, linkageName := s.name, address := some s.address, size := some s.size }) f.symbols cu.variables := by
  obtain ⟨us, named, symtab, unknown, hP⟩ := parsed hv h
  have hl := (Dwarf.mapM_get hP.units).1
  have hl2 := EachRel.len hP.named
  obtain ⟨syms, hs, hperm, -⟩ := hP.symbols
  exact ⟨us, syms, symtab, hP.units, hs, by rw [hP.file, List.getElem?_append_right (by omega), hl2, hl, Nat.sub_self]; rfl,
    hperm, hP.functions, hP.variables⟩

end

end Verif.Whole
