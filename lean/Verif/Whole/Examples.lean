import Verif.Whole.Reads
/-!
# C91: entries without specification, and an example from entries to text
-/
namespace Verif.Whole
open Verif.Item Verif.Types Verif.Namespace Verif.Range Verif.Sentinel Verif.File Verif.Dwarf Verif.Show
  Verif.Filter Verif.Opts Verif.Code
open Verif.Print (P Line render)

section
variable {search : Search} {n : Nat} {r : RawObject} {f : File} {k : Nat} {u : RawUnit} {cu : CompUnit}

/-- **C91** (a function without specification). What is listed for it is what the attributes of its
entry say; the symbol name is that of the symbol at its address, if that is a different name. -/
theorem C91_plain_function (hv : ValidSearch search) (h : parseObject search n r = some f) (hp : Placed r.units)
    (hk : r.units[k]? = some u) (hc : f.units[k]? = some cu) {ns : Option Namespace} {d : Die} {g : Function}
    (hg : FnEntry u cu ns d g) (hd : d.spec = none) :
    g.ns = ns ∧ g.name = d.strAttr .name ∧ g.linkageName = d.strAttr .linkageName ∧ SourceSays d g.source ∧
    g.inline = (d.lastOf .inline Val.isInline).getD false ∧
    g.declaration = (d.lastOf .declaration Val.isFlag).getD false ∧ g.returnType = d.lastOf .type Val.offset ∧
    (InSpace (d.codeRanges cu.lowPc) → (∀ a, d.lastOf .lowPc (Val.codeAddr cu.lowPc) = some a → a < 2 ^ 64 - 1) →
      g.ranges = d.codeRanges cu.lowPc ∧
      (∀ x xs, g.ranges = x :: xs → g.address = some x.lo ∧ g.size = some (totalSize g.ranges))) ∧
    (∀ a, g.address = some a → SymbolNameFor f.symbols a (g.linkageName.or g.name) none g.symbolName) ∧
    (g.address = none → g.symbolName = none) := by
  obtain ⟨g', e1, -, -, e2, e3⟩ := (C91_function_records hv h hp hk hc).2.1 ns d hg.1
  rw [hg.2] at e1; cases e1
  have hst : Stands (ownFunction cu.lowPc ns d) (noSymbol g) d := by
    rcases e2 with a | ⟨s, a, g1, b1, -⟩ | ⟨c, -⟩
    · exact a.2
    · rw [hd] at b1; cases b1
    · exact absurd hd c
  have hr : { noSymbol g with parameters := [] } = { ownFunction cu.lowPc ns d with parameters := [] } := hst.rest
  obtain ⟨-, c2, c3, c4, c5, c6, c7, c8, -, -⟩ := C72_function cu.lowPc ns d
  have key : ∀ {β : Type} (q : Function → β), (∀ (x : Function) (y : Option Str) (z), q { x with symbolName := y, parameters := z } = q x) →
      q g = q (ownFunction cu.lowPc ns d) := by
    intro β q hq
    have h1 := congrArg q hr
    have h2 : q { noSymbol g with parameters := [] } = q g := hq g none []
    have h3 := hq (ownFunction cu.lowPc ns d) (ownFunction cu.lowPc ns d).symbolName []
    exact h2.symm.trans (h1.trans h3)
  obtain ⟨nm, s1, s2, s3⟩ := e3
  have hnm : nm = g.symbolName := by have := congrArg Function.symbolName s1; exact this.symm
  refine ⟨(key (·.ns) fun _ _ _ => rfl).trans c2, (key (·.name) fun _ _ _ => rfl).trans c3,
    (key (·.linkageName) fun _ _ _ => rfl).trans c4, ?_, (key (·.inline) fun _ _ _ => rfl).trans c6,
    (key (·.declaration) fun _ _ _ => rfl).trans c7, (key (·.returnType) fun _ _ _ => rfl).trans c8, ?_, ?_, ?_⟩
  · rw [key (·.source) fun _ _ _ => rfl]; exact c5
  · intro hin hlow
    obtain ⟨q1, -, q3⟩ := C57_function cu.lowPc ns d hin hlow
    have k1 := key (·.ranges) fun _ _ _ => rfl
    have k2 := key (·.address) fun _ _ _ => rfl
    have k3 := key (·.size) fun _ _ _ => rfl
    refine ⟨k1.trans q1, fun x xs hx => ?_⟩
    obtain ⟨y1, y2⟩ := q3 x xs (k1.symm.trans hx)
    exact ⟨k2.trans y1, by rw [k3, y2, ← k1]⟩
  · intro a ha
    rw [← hnm]
    exact s2 a ha
  · intro ha
    rw [← hnm]
    exact s3 ha

/-- **C91** (a variable without specification). -/
theorem C91_plain_variable (hv : ValidSearch search) (h : parseObject search n r = some f) (hp : Placed r.units)
    (hk : r.units[k]? = some u) (hc : f.units[k]? = some cu) {ns : Option Namespace} {d : Die}
    (hg : VarAt (fnOf cu) u.root.children ns d) (hd : d.varSpec = none) :
    ∃ v, VarEntry u cu ns d v ∧
      v.ns = ns ∧ v.name = d.strAttr .name ∧ v.linkageName = d.strAttr .linkageName ∧ SourceSays d v.source ∧
      v.declaration = (d.lastOf .declaration Val.isFlag).getD false ∧ v.ty = d.lastOf .type Val.offset ∧
      v.address = (d.lastOf .location Val.fixedAddress).getD none ∧ v.size = d.lastOf .location Val.fixedSize ∧
      (∀ a, v.address = some a → SymbolNameFor f.symbols a (v.linkageName.or v.name) none v.symbolName) ∧
      (v.address = none → v.symbolName = none) := by
  obtain ⟨v, e1, -, -, e2, e3⟩ := (C91_variable_records hv h hp hk hc).2.1 ns d hg (.plain hg hd)
  have hst : noSymbolVar v = (ownVariable ns d).1 := by
    rcases e2 with a | ⟨s, g1, b1, -⟩
    · exact a.2
    · rw [hd] at b1; cases b1
  obtain ⟨-, c2, c3, c4, c5, c6, c7, c8, c9, -⟩ := C72_variable ns d
  rw [← hst] at c2 c3 c4 c5 c6 c7 c8 c9
  obtain ⟨nm, s1, s2, s3⟩ := e3
  have hnm : nm = v.symbolName := by have := congrArg Variable.symbolName s1; exact this.symm
  refine ⟨v, ⟨hg, e1⟩, c2, c3, c4, c5, c6, c7, c8, c9, fun a ha => ?_, fun ha => ?_⟩
  · rw [← hnm]; exact s2 a ha
  · rw [← hnm]; exact s3 ha

end

/-! ### A concrete object file

Two units. The first has a base type; the second has a struct with a member of that type, a function in a namespace whose symbol
has another name, and a variable. A further function symbol belongs to no unit. -/

/-- A string attribute value. -/
def strVal (s : String) : Dwarf.Val := .string (some (Str.ofString s))

/-- The concrete object file. -/
def object1 : RawObject where
  path := k "a.out"
  symbols := [⟨some (k "_Zm"), .text, 0x1000, 16⟩, ⟨some (k "stub"), .text, 0x1010, 8⟩, ⟨some (k "v"), .data, 0x2000, 8⟩]
  sections := [⟨some (k ".text"), some none, 0x1000, 0x20⟩]
  units :=
    [{ extent := ⟨0, 11, 50⟩
       root := .node 11 .other [(.name, strVal "a.c")]
        [.node 20 .baseType [(.name, strVal "int"), (.byteSize, .udata 4), (.encoding, .encoding 5)] []] },
     { extent := ⟨50, 61, 100⟩
       root := .node 61 .other [(.name, strVal "b.c"), (.lowPc, .address 0x1000), (.highPc, .udata 16)]
        [.node 65 .structure_ [(.name, strVal "S"), (.byteSize, .udata 8)]
          [.node 70 .member [(.name, strVal "m"), (.type, .ref 20), (.dataMemberLocation, .udata 4)] []],
         .node 75 .namespace_ [(.name, strVal "n")]
          [.node 80 .subprogram [(.name, strVal "f"), (.lowPc, .address 0x1000), (.highPc, .udata 16), (.type, .ref 20)] []],
         .node 90 .variable [(.name, strVal "v"), (.type, .ref 65), (.location, .exprloc [(some 0x2000, none)])] []] }]

/-- A search that takes the first symbol. -/
def firstSearch : Search := fun l a => l.findIdx? (fun s => decide (s.address = a))

example : ValidSearch firstSearch := validSearch_linear

example : Placed object1.units := by
  constructor
  · intro i j u v hi hj hij
    rcases i with _ | _ | i <;> rcases j with _ | _ | j <;> simp [object1] at hi hj <;> first | omega | (subst hi hj; decide)
  · decide +kernel
  · decide +kernel

/-- What the listing reads of the file. -/
def side1 (f : File) : FileSide :=
  sideOf 5 object1 f none (fun _ _ => none) (fun _ => none) (fun _ => 0) (fun _ => 0) (fun _ => 0) (fun _ => 0) (fun _ => none)

/-- The text, for some options. -/
def text1 (o : Options) : Option Str := do
  let f ← parseObject firstSearch 10 object1
  let p ← fileP o (side1 f) 5
  some (render (p.lines o.http 0 .none 3))

/-- The categories. -/
def listOpts : Options := { categoryType := true, categoryFunction := true, categoryVariable := true }

/-- The hypotheses of C91 are met by this file. -/
example : ∃ f p, parseObject firstSearch 10 object1 = some f ∧ fileP listOpts (side1 f) 5 = some p := by
  have h1 : (parseObject firstSearch 10 object1).isSome = true := by decide +kernel
  obtain ⟨f, hf⟩ := Option.isSome_iff_exists.1 h1
  have h2 : ((parseObject firstSearch 10 object1).bind fun f => fileP listOpts (side1 f) 5).isSome = true := by decide +kernel
  rw [hf, Option.bind_some] at h2
  obtain ⟨p, hp⟩ := Option.isSome_iff_exists.1 h2
  exact ⟨f, p, hf, hp⟩

/-- From the entries to the text. -/
example : text1 listOpts = some ((["base int\n", "\tsize: 4\n", "\tencoding: signed\n", "\n", "struct S\n", "\tsize: 8\n", "\tmembers:\n", "\t\t0[4]\t<padding>\n", "\t\t4[4]\tm: int\n", "\n", "fn n::f\n", "\tsymbol name: _Zm\n", "\taddress: 0x1000-0x100f\n", "\tsize: 16\n", "\treturn type:\n", "\t\t[4]\tint\n", "\n", "var v: struct S\n", "\taddress: 0x2000\n", "\tsize: 8\n", "\n", "fn stub\n", "\tlinkage name: stub\n", "\taddress: 0x1010-0x1017\n", "\tsize: 8\n", "\n"].flatMap k)) := by decide +kernel

end Verif.Whole
