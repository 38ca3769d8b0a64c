import Verif.Whole.DiffText
import Verif.Whole.Examples
import Verif.Show.TypeRefProps
import Verif.Show.TotalExamples
/-!
# Concrete object files for C93
-/
namespace Verif.Whole
open Verif.Item Verif.Types Verif.Namespace Verif.Range Verif.Sentinel Verif.File Verif.Dwarf Verif.Show
  Verif.Filter Verif.Opts Verif.Code Verif.Order
open Verif.Print (P D Line DiffPrefix render)
open Verif.Path (Heap)

/-- One unit with two base types, a function `main`, a function and a variable. -/
def small (fn : String) (vt : Nat) : RawObject where
  path := k "a.out"
  sections := [⟨some (k ".text"), some none, 0x1000, 0x20⟩]
  units :=
    [{ extent := ⟨0, 11, 100⟩
       root := .node 11 .other [(.name, strVal "a.c")]
        [.node 20 .baseType [(.name, strVal "int"), (.byteSize, .udata 4), (.encoding, .encoding 5)] [],
         .node 22 .baseType [(.name, strVal "char"), (.byteSize, .udata 1), (.encoding, .encoding 6)] [],
         .node 30 .subprogram [(.name, strVal "main"), (.lowPc, .address 0x1000), (.highPc, .udata 16), (.type, .ref 20)] [],
         .node 40 .subprogram [(.name, strVal fn), (.lowPc, .address 0x1010), (.highPc, .udata 16)] [],
         .node 50 .variable [(.name, strVal "v"), (.type, .ref vt), (.location, .exprloc [(some 0x2000, none)])] []] }]

/-- The old file. -/
def objA : RawObject := small "old" 20
/-- The new file: one function has another name, and the variable another type. -/
def objB : RawObject := small "new" 22

/-- What the diff reads of a file. -/
def sideS (r : RawObject) (f : File) : FileSide :=
  sideOf 5 r f none (fun _ _ => none) (fun _ => none) (fun _ => 0) (fun _ => 0) (fun _ => 0) (fun _ => 0) (fun _ => none)

/-- The old file, parsed. -/
def fileA : File := (parseObject firstSearch 10 objA).get (by decide +kernel)
/-- The new file, parsed. -/
def fileB : File := (parseObject firstSearch 10 objB).get (by decide +kernel)

theorem parseA : parseObject firstSearch 10 objA = some fileA := by simp [fileA]
theorem parseB : parseObject firstSearch 10 objB = some fileB := by simp [fileB]

/-- Types are the same if they have the same offset here. -/
def sameEx (x y : Ty) : Bool := (cmpId false 5 (sideS objA fileA).hash x (sideS objB fileB).hash y) == .ok .eq

/-- The diff. -/
def diffAB (o : Options) : Option D := fileD o ⟨sideS objA fileA, sideS objB fileB, sameEx, Path.listHeap⟩ 5

/-- The text: `old` is listed as deleted, `new` as added, the variable is compared; `main` is the same on both sides. -/
example : (diffAB listOpts).map (fun e => render (e.lines (printOpts listOpts) 0 .equal 3)) = some ((["+ fn new\n", "+ \taddress: 0x1010-0x101f\n", "+ \tsize: 16\n", "\n", "- fn old\n", "- \taddress: 0x1010-0x101f\n", "- \tsize: 16\n", "\n", "- var v: int\n", "+ var v: char\n", "  \taddress: 0x2000\n", "- \tsize: 4\n", "+ \tsize: 1\n", "\n"].flatMap k)) := by
  decide +kernel

/-! ### The hypotheses of C93 -/

/-- Where there are types. -/
def offs (r : RawObject) (f : File) : List Nat :=
  (f.units.flatMap fun u => u.types.filterMap (·.offset)) ++ r.units.flatMap fun u => (dies u.root).map (·.offset)

theorem hash_offs {r : RawObject} {f : File} {o : Nat} {t : Ty} (h : fromOffset (fileHash r.units f.units) (some o) = some t) :
    o ∈ offs r f := by
  simp only [fromOffset, fileHash, Option.or_eq_some_iff, Option.map_eq_some_iff] at h
  rcases h with ⟨e, he, -⟩ | ⟨-, h⟩
  · obtain ⟨l1, l2, h1, -⟩ := ((hashOf_spec _ _).1 _).1 he
    have : (some o, e) ∈ f.units.flatMap fun u => u.types.map fun t => (t.offset, t) := by rw [h1]; simp
    obtain ⟨u, hu, hm⟩ := List.mem_flatMap.1 this
    obtain ⟨e', he', heq⟩ := List.mem_map.1 hm
    refine List.mem_append_left _ (List.mem_flatMap.2 ⟨u, hu, List.mem_filterMap.2 ⟨e', he', ?_⟩⟩)
    exact congrArg Prod.fst heq
  · simp only [getType, entryAt, Option.bind_eq_some_iff, Option.map_eq_some_iff] at h
    obtain ⟨⟨u, d⟩, ⟨p, -, u', hu, d', hd, e⟩, -⟩ := h
    cases e
    refine List.mem_append_right _ (List.mem_flatMap.2 ⟨u, List.mem_of_getElem? hu, List.mem_map.2 ⟨d, List.mem_of_find?_eq_some hd, ?_⟩⟩)
    have := List.find?_some hd
    simpa using this

/-- The file has only simple types and functions. -/
structure Simple (r : RawObject) (f : File) : Prop where
  types : ∀ o ∈ none :: (offs r f).map some,
    ((fromOffset (fileHash r.units f.units) o).all fun t => t.discr = 1 ∨ t.discr = 2) = true ∧
    58 ∉ ((sideS r f).tref o).text' ∧ ((sideS r f).tref o).text' ≠ []
  details : ∀ u ∈ f.units, ∀ g ∈ u.functions, let d := (sideS r f).details g
    (d.parameters.isEmpty && d.variables.isEmpty && d.inlined.isEmpty && d.calls.isEmpty && g.parameters.isEmpty) = true
  listed : ∀ u ∈ f.units, ∀ t ∈ u.types, t.kind.discr = 2 ∧ ((sideS r f).extra t.offset).enumerators = []
  names : ∀ u ∈ f.units, ∀ g ∈ u.functions, titled g.ns g.name ≠ []
  variables : ∀ u ∈ f.units, ∀ v ∈ u.variables, 58 ∉ titled v.ns v.name
  sections : ∀ x ∈ f.sections, (x.name = some (k ".text") ∨ x.name = some (k ".data")) ∧ x.segment = none

theorem Simple.ref {r : RawObject} {f : File} (h : Simple r f) (o : TypeOffset) :
    58 ∉ ((sideS r f).tref o).text' ∧ ((sideS r f).tref o).text' ≠ [] := by
  cases ho : fromOffset (fileHash r.units f.units) o with
  | some t =>
    cases o with
    | none => exact (h.types none (by simp)).2
    | some o => exact (h.types (some o) (List.mem_cons_of_mem _ (List.mem_map.2 ⟨o, hash_offs ho, rfl⟩))).2
  | none =>
    have : (sideS r f).tref o = .text (k "<invalid-type>") := by
      show (typeRef 5 (fileHash r.units f.units) _ o).getD .nil = _
      rw [typeRef, ho]
      rfl
    rw [this]
    decide

theorem Simple.discr {r : RawObject} {f : File} (h : Simple r f) {o : TypeOffset} {t : Ty}
    (ho : fromOffset (fileHash r.units f.units) o = some t) : t.discr = 1 ∨ t.discr = 2 := by
  have : ((fromOffset (fileHash r.units f.units) o).all fun t => t.discr = 1 ∨ t.discr = 2) = true := by
    cases o with
    | none => exact (h.types none (by simp)).1
    | some o => exact (h.types (some o) (List.mem_cons_of_mem _ (List.mem_map.2 ⟨o, hash_offs ho, rfl⟩))).1
  simpa [ho] using this

theorem plain_of_discr {t : Ty} (h : t.discr = 1 ∨ t.discr = 2) : PlainTy t := by
  cases t <;> simp [Ty.discr, PlainTy] at h ⊢

theorem none_within {i : InlinedFunction} (h : Frame.Within [] i) : False := by
  cases h with
  | here h => cases h
  | deeper h _ => cases h

theorem Simple.empty {r : RawObject} {f : File} (h : Simple r f) {u : CompUnit} (hu : u ∈ f.units) {g : Function} (hg : g ∈ u.functions) :
    ((sideS r f).details g).parameters = [] ∧ ((sideS r f).details g).variables = [] ∧ ((sideS r f).details g).inlined = [] ∧
    ((sideS r f).details g).calls = [] ∧ g.parameters = [] := by
  have := h.details u hu g hg
  simp only [Bool.and_eq_true, List.isEmpty_iff] at this
  exact ⟨this.1.1.1.1, this.1.1.1.2, this.1.1.2, this.1.2, this.2⟩

theorem Simple.readable {r : RawObject} {f : File} (h : Simple r f) : ReadableFile (sideS r f) where
  fns := {
    regs := fun _ => by simp [sideS, sideOf]
    plt := fun _ => by simp [sideS, sideOf]
    fns := fun a g hg => by
      obtain ⟨l1, l2, h1, -⟩ := ((hashOf_spec _ _).1 _).1 (show functionsByAddress f.units a = some g from hg)
      have : (a, g) ∈ f.units.flatMap fun u => u.functions.filterMap fun f => f.address.map fun a => (a, f) := by rw [h1]; simp
      obtain ⟨u, hu, hm⟩ := List.mem_flatMap.1 this
      obtain ⟨g', hg', e⟩ := List.mem_filterMap.1 hm
      simp only [Option.map_eq_some_iff, Prod.mk.injEq] at e
      obtain ⟨_, _, _, rfl⟩ := e
      exact h.names u hu g' hg'
    types := fun t n x _ e => (h.ref t).1 (by rw [e]; simp [k, Str.ofString]) }
  refs := fun o => (h.ref o).2
  members := fun o t ho => plain_of_discr (h.discr ho)
  types := fun u hu t ht => ⟨plain_of_discr (.inr (h.listed u hu t ht).1), by rw [(h.listed u hu t ht).2]; simp⟩
  functions := fun u hu g hg => by
    show ReadableDetails ((sideS r f).details g)
    obtain ⟨h1, h2, h3, h4, -⟩ := h.empty hu hg
    exact {
      parameters := fun p hp => by
        rcases hp with hp | ⟨i, hi, -⟩
        · rw [h1] at hp; cases hp
        · rw [h3] at hi; exact (none_within hi).elim
      variables := fun p hp => by
        rcases hp with hp | ⟨i, hi, -⟩
        · rw [h2] at hp; cases hp
        · rw [h3] at hi; exact (none_within hi).elim
      calls := fun p hp => by
        rcases hp with hp | ⟨i, hi, -⟩
        · rw [h4] at hp; cases hp
        · rw [h3] at hi; exact (none_within hi).elim }
  variables := fun u hu v hv hi => by
    obtain ⟨a, b, hab⟩ := hi
    exact h.variables u hu v hv (by rw [← hab]; simp)
  sections := fun x hx => by
    obtain ⟨h1, h2⟩ := h.sections x hx
    refine ⟨fun n hn => ?_, fun n hn => by rw [h2] at hn; cases hn⟩
    rcases h1 with h1 | h1 <;> rw [h1] at hn <;> cases hn <;> decide

theorem simpleA : Simple objA fileA := by
  constructor <;> decide +kernel

theorem simpleB : Simple objB fileB := by
  constructor <;> decide +kernel

theorem readsS (r : RawObject) (f : File) : Reads r f (sideS r f) := ⟨_, _, _, _, _, _, _, _, _, rfl⟩

theorem Simple.oneLocation {r : RawObject} {f : File} (h : Simple r f) : ∀ u ∈ f.units, ∀ g ∈ u.functions,
    OneLocation ((sideS r f).details g) := by
  intro u hu g hg
  obtain ⟨h1, h2, h3, h4, -⟩ := h.empty hu hg
  constructor
  · rintro p (hp | ⟨i, hi, -⟩)
    · rw [h1] at hp; cases hp
    · rw [h3] at hi; exact (none_within hi).elim
  · rintro p (hp | ⟨i, hi, -⟩)
    · rw [h2] at hp; cases hp
    · rw [h3] at hi; exact (none_within hi).elim

theorem placedA : Placed objA.units := by
  constructor
  · intro i j u v hi hj hij
    rcases i with _ | i <;> rcases j with _ | j <;> simp [objA, small] at hi hj <;> omega
  · decide +kernel
  · decide +kernel

theorem placedB : Placed objB.units := by
  constructor
  · intro i j u v hi hj hij
    rcases i with _ | i <;> rcases j with _ | j <;> simp [objB, small] at hi hj <;> omega
  · decide +kernel
  · decide +kernel

theorem acc_of_discr {h : Hash} {t : Ty} (ht : t.discr = 1 ∨ t.discr = 2) : Acc (IdRef h) t := by
  refine ⟨_, fun t' ⟨o, ho, _⟩ => ?_⟩
  cases t <;> simp [Ty.discr, Ty.idRefs] at ht ho

theorem Simple.noCycles {r : RawObject} {f : File} (h : Simple r f) : NoCycles (fileHash r.units f.units) :=
  fun _ _ ht => acc_of_discr (h.discr ht)

theorem good_of_discr {h : Hash} {t : Ty} (ht : t.discr = 1 ∨ t.discr = 2) : GoodType h t := by
  refine ⟨acc_of_discr ht, ?_⟩
  cases t <;> simp [Ty.discr] at ht
  · exact ⟨1, _, rfl⟩
  · exact ⟨1, _, rfl⟩

/-- The diff of simple files runs to the end. -/
theorem Simple.diffOk {r : RawObject} {f : File} (h : Simple r f) : DiffOk listOpts (sideS r f) where
  summary := by intro h; cases h
  units := fun u hu _ => ⟨{
    types := fun _ t ht _ => by
      have hd := (h.listed u hu t ht).1
      refine ⟨good_of_discr (.inr hd), ?_⟩
      cases hk : t.kind <;> simp [hk, Ty.discr, EndsBelow] at hd ⊢
    functions := fun _ g hg _ => by
      obtain ⟨h1, h2, h3, h4, h5⟩ := h.empty hu hg
      refine ⟨fun p hp => (by rw [h5] at hp; cases hp), ?_⟩
      constructor <;> intro hx <;> cases hx
    variables := fun _ v _ _ t ht => (good_of_discr (h.discr ht)).2 }, by intro h; cases h⟩
  types := fun _ => ⟨fun _ t ht => by
      have hd := h.discr ht
      cases t <;> simp [Ty.discr, TyShort] at hd ⊢,
    fun u hu t ht => by
      have hd := (h.listed u hu t ht)
      refine ⟨?_, by rw [hd.2]; simp [Short]⟩
      cases hk : t.kind <;> simp [hk, Ty.discr, TyShort] at hd ⊢⟩
  functions := fun _ u hu g hg => by
    obtain ⟨h1, h2, h3, h4, h5⟩ := h.empty hu hg
    constructor
    · rw [h1, h2, h3, h4]
      constructor <;> simp [Short]
    · intro i hi
      rw [h3] at hi
      exact (none_within hi).elim
    · intro l hl
      have : l = [] := by
        simp only [fnCalls, Option.map_eq_some_iff] at hl
        obtain ⟨ls, hls, rfl⟩ := hl
        have key : ∀ (rs : List Range) ls, rs.mapM (sideS r f).callsOf = some ls → ls.flatten = [] := by
          intro rs
          induction rs with
          | nil => intro ls h; simp at h; subst h; rfl
          | cons a rs ih =>
            intro ls h
            simp only [List.mapM_cons, Option.bind_eq_bind, Option.bind_eq_some_iff, Option.pure_def, Option.some.injEq] at h
            obtain ⟨x, hx, xs, hxs, rfl⟩ := h
            cases (show some [] = some x from hx)
            exact ih xs hxs
        exact key _ _ hls
      rw [this]
      simp [Short]

open Classical in
/-- Whether `cmp_id` calls two types equal. -/
noncomputable def decides (ha hb : Hash) (a b : Ty) : Bool := decide (∃ m, cmpId false m ha a hb b = .ok .eq)

theorem decides_is (ha hb : Hash) : SameIs (decides ha hb) ha hb := by
  intro a b
  simp [decides]

/-- The hypotheses of C93 for a file and itself. -/
example : ∃ N, ∀ n, N ≤ n → ∃ e, fileD listOpts ⟨sideS objA fileA, sideS objA fileA, decides (sideS objA fileA).hash (sideS objA fileA).hash, Path.listHeap⟩ n = some e ∧
    ∀ i x d, e.flag (printOpts listOpts) i x d = false := by
  obtain ⟨N, hN⟩ := C93_self (readsS objA fileA) simpleA.noCycles (decides_is _ _) Path.listHeap (o := listOpts) rfl simpleA.diffOk
  refine ⟨N, fun n hn => ?_⟩
  obtain ⟨e, he, h⟩ := hN n hn
  exact ⟨e, he, fun i x d => (h i x d).1⟩

/-- The hypotheses of `C93_no_entry_lost` and `C93_no_entry_gained`: a diff without differences. -/
example : ∃ e, fileD listOpts ⟨sideS objA fileA, sideS objA fileA, sameEx, Path.listHeap⟩ 5 = some e ∧
    e.flag (printOpts listOpts) 0 .equal 3 = false := by
  have h : ((fileD listOpts ⟨sideS objA fileA, sideS objA fileA, sameEx, Path.listHeap⟩ 5).any fun e =>
    !e.flag (printOpts listOpts) 0 .equal 3) = true := by decide +kernel
  obtain ⟨e, he, hf⟩ := (Option.any_eq_true _ _).1 h
  exact ⟨e, he, by simpa using hf⟩

/-- What C93 says of the function that is only in the old file: its listing is in the text. -/
example (cu : CompUnit) (hcu : fileA.units[0]? = some cu) (hw : WantedUnit listOpts cu) (ns : Option Namespace) (die : Die)
    (g : Function) (hg : FnEntry objA.units[0] cu ns die g) (hwg : WantedFunction listOpts g)
    (hnew : ∀ cv ∈ fileB.units, ∀ g' ∈ cv.functions, qname g.ns g.name ≠ qname g'.ns g'.name) :
    ∃ e t, diffAB listOpts = some e ∧ FunctionText listOpts (sideS objA fileA).toFnSide cu.dir .delete 0 3 g t ∧
      t <:+: render (e.lines (printOpts listOpts) 0 .equal 3) := by
  have h : (diffAB listOpts).isSome = true := by decide +kernel
  obtain ⟨e, he⟩ := Option.isSome_iff_exists.1 h
  have := C93_old_functions (o := listOpts) rfl he (readsS objA fileA) (readsS objB fileB) simpleA.readable simpleB.readable
    (fun _ => simpleB.oneLocation) rfl 0 3 .equal (k := 0) rfl hcu hw hg hwg
  rcases this with ⟨cv, hcv, -, g', hg', hq, -⟩ | hi | ⟨t, ht, hin⟩
  · exact absurd hq (hnew cv hcv g' (mem_wanted.1 hg').1)
  · cases hi
  · exact ⟨e, t, he, ht, hin⟩

end Verif.Whole
