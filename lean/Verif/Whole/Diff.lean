import Verif.Whole.DiffSpec
import Verif.Whole.Props
import Verif.Show.FileProps
import Verif.Show.FileFactsProps
import Verif.Show.FileDiffTotal
import Verif.Types.Props
/-!
# C93: the diff of two object files and the entries of their debug information
-/
namespace Verif.Whole
open Verif.Item Verif.Types Verif.Namespace Verif.Range Verif.Sentinel Verif.File Verif.Dwarf Verif.Show
  Verif.Filter Verif.Opts Verif.Code
open Verif.Print (P D Line DiffPrefix)
open Verif.Path (Heap)

/-- **C93** (the same file twice). The diff of an object file with itself runs to the end and reports no difference:
no line is marked, and what is written is the summary of the file, if it is wanted. -/
theorem C93_self {r : RawObject} {f : File} {s : FileSide} (hs : Reads r f s) (hc : NoCycles (fileHash r.units f.units))
    {same : Ty → Ty → Bool} (hsame : SameIs same s.hash s.hash) (heap : Heap) {o : Options} (ho : o.html = false)
    (hok : DiffOk o s) :
    ∃ N, ∀ n, N ≤ n → ∃ e, fileD o ⟨s, s, same, heap⟩ n = some e ∧ ∀ i x d,
      e.flag (printOpts o) i x d = false ∧ (∀ l ∈ e.lines (printOpts o) i x d, l.marked = false) ∧
      ∃ p, whenP o.categoryFile (filePartP o s) = some p ∧
        (e.lines (printOpts o) i x d).map Line.erase = (p.lines o.http i .none d).map Line.erase := by
  obtain ⟨N, hN⟩ := C92_diff o ⟨s, s, same, heap⟩ hok hok
  have hh : s.hash = fileHash r.units f.units := by obtain ⟨_, _, _, _, _, _, _, _, _, rfl⟩ := hs; rfl
  refine ⟨N, fun n hn => ?_⟩
  obtain ⟨e, he⟩ := hN n hn
  refine ⟨e, he, C82_self o ho s same heap (fun off t ht => ?_) n e he⟩
  exact (hsame t t).2 (C10_cmpId_total s.hash s.hash t (hh ▸ hc off t (hh ▸ ht))).2

theorem matched_left {α : Type} {o : Options} {R : α → α → Prop} {la lb : List α} (h : Matched o R la lb)
    (ho : o.ignoreDeleted = false) {a : α} (ha : a ∈ la) : ∃ b ∈ lb, R a b := by
  obtain ⟨pairs, gone, new, h1, h2, h3, h4, h5⟩ := h
  have hg : gone = [] := by
    apply Classical.byContradiction
    intro hg
    rw [h4 hg] at ho; cases ho
  subst hg
  rw [List.append_nil] at h1
  obtain ⟨p, hp, rfl⟩ := List.mem_map.1 (h1.mem_iff.2 ha)
  exact ⟨p.2, h2.mem_iff.1 (List.mem_append_left _ (List.mem_map.2 ⟨p, hp, rfl⟩)), h3 p hp⟩

theorem matched_right {α : Type} {o : Options} {R : α → α → Prop} {la lb : List α} (h : Matched o R la lb)
    (ho : o.ignoreAdded = false) {b : α} (hb : b ∈ lb) : ∃ a ∈ la, R a b := by
  obtain ⟨pairs, gone, new, h1, h2, h3, h4, h5⟩ := h
  have hg : new = [] := by
    apply Classical.byContradiction
    intro hg
    rw [h5 hg] at ho; cases ho
  subst hg
  rw [List.append_nil] at h2
  obtain ⟨p, hp, rfl⟩ := List.mem_map.1 (h2.mem_iff.2 hb)
  exact ⟨p.1, h1.mem_iff.1 (List.mem_append_left _ (List.mem_map.2 ⟨p, hp, rfl⟩)), h3 p hp⟩

section
variable {search search' : Search} {n n' : Nat} {ra rb : RawObject} {fa fb : File} {sa sb : FileSide}

/-- Where every wanted item has a counterpart, every entry has. -/
theorem counterparts (hv : ValidSearch search) (h : parseObject search n ra = some fa) (hp : Placed ra.units)
    (hv' : ValidSearch search') (h' : parseObject search' n' rb = some fb) (hp' : Placed rb.units)
    {o : Options} {k k' : Nat} {u : RawUnit} {cu cv : CompUnit} (hk : ra.units[k]? = some u) (hc : fa.units[k]? = some cu)
    (hc' : fb.units[k']? = some cv)
    {T : TypeEntry → TypeEntry → Prop} {F : Function → Function → Prop} {V : Variable → Variable → Prop}
    (ht : o.categoryType = true → ∀ t ∈ wantedTypes o true sa.hash cu, ∃ t' ∈ wantedTypes o true sb.hash cv, T t t')
    (hf : o.categoryFunction = true → ∀ t ∈ wantedFunctions o cu, ∃ t' ∈ wantedFunctions o cv, F t t')
    (hx : o.categoryVariable = true → ∀ t ∈ wantedVariables o cu, ∃ t' ∈ wantedVariables o cv, V t t') :
    HasCounterparts o ra sa sb u cu rb.units[k']? cv rb T F V := by
  obtain ⟨t1, t2, t3, t4⟩ := C91_type_records hv h hp hk hc
  constructor
  · intro hcat ns die hd hw
    obtain ⟨t, htm, hT⟩ := ht hcat _ (mem_wanted.2 ⟨t2 ns die hd, hw⟩)
    obtain ⟨htm, hwt⟩ := mem_wanted.1 htm
    refine ⟨t, htm, hwt, hT, fun w hw => ?_⟩
    exact (C91_type_records hv' h' hp' hw hc').2.2.1 t htm
  · intro hcat ns die g hd hw
    obtain ⟨t, htm, hT⟩ := hf hcat _ (mem_wanted.2 ⟨List.mem_of_find?_eq_some hd.2, hw⟩)
    obtain ⟨htm, hwt⟩ := mem_wanted.1 htm
    refine ⟨t, htm, hwt, hT, fun w hw => ?_⟩
    exact (C91_function_records hv' h' hp' hw hc').2.2.1 t htm
  · intro hcat ns die g hd hw
    obtain ⟨t, htm, hT⟩ := hx hcat _ (mem_wanted.2 ⟨List.mem_of_find?_eq_some hd.2, hw⟩)
    obtain ⟨htm, hwt⟩ := mem_wanted.1 htm
    refine ⟨t, htm, hwt, hT, fun w hw => ?_⟩
    exact (C91_variable_records hv' h' hp' hw hc').2.2.1 t htm

/-- **C93** (nothing is lost unseen). If the diff of two object files reports no difference, and the user does not
ignore deletions, then every unit of the old debug information that is wanted has a counterpart, in which every
entry of a type, function or variable that is wanted has a counterpart with the same facts. -/
theorem C93_no_entry_lost (hv : ValidSearch search) (h : parseObject search n ra = some fa) (hp : Placed ra.units)
    (hv' : ValidSearch search') (h' : parseObject search' n' rb = some fb) (hp' : Placed rb.units)
    (hsa : Reads ra fa sa) (hsb : Reads rb fb sb) {same : Ty → Ty → Bool} {heap : Heap} {o : Options} {m : Nat} {e : D}
    (he : fileD o ⟨sa, sb, same, heap⟩ m = some e) (ha : ReadableFile sa) (hb : ReadableFile sb)
    (hloc : o.printVariableLocations = true → ∀ u ∈ fb.units, ∀ f ∈ u.functions, OneLocation (sb.details f))
    {i : Nat} {x : DiffPrefix} {d : Nat} (hq : e.flag (printOpts o) i x d = false) (ho : o.ignoreDeleted = false)
    {k : Nat} {u : RawUnit} {cu : CompUnit} (hk : ra.units[k]? = some u) (hc : fa.units[k]? = some cu) (hw : WantedUnit o cu) :
    ∃ (k' : Nat) (cv : CompUnit), fb.units[k']? = some cv ∧ WantedUnit o cv ∧
      (o.categoryUnit = true → SameUnitSelf o sa.toSide sb.toSide cu cv) ∧
      HasCounterparts o ra sa sb u cu rb.units[k']? cv rb
        (fun s t => SameType o sa.toSide sb.toSide cu.dir cv.dir (sa.extra s.offset) (sb.extra t.offset) s.kind t.kind)
        (SameFunction o sa.toFnSide sb.toFnSide cu.dir cv.dir d)
        (SameVariable o sa.toSide sb.toSide cu.dir cv.dir) := by
  have hfa : sa.file = fa := by obtain ⟨_, _, _, _, _, _, _, _, _, rfl⟩ := hsa; rfl
  have hfb : sb.file = fb := by obtain ⟨_, _, _, _, _, _, _, _, _, rfl⟩ := hsb; rfl
  have hF := C87_file o ⟨sa, sb, same, heap⟩ m e he ha hb (by simpa only [hfb] using hloc) i x d hq
  have hcw : cu ∈ wantedUnits o sa.file := mem_wanted.2 ⟨hfa ▸ List.mem_of_getElem? hc, hw⟩
  obtain ⟨cv, hcv, hs⟩ := matched_left hF.units ho hcw
  obtain ⟨hcv, hwv⟩ := mem_wanted.1 hcv
  obtain ⟨k', hk'⟩ := List.mem_iff_getElem?.1 hcv
  rw [hfb] at hk'
  exact ⟨k', cv, hk', hwv, hs.itself, counterparts hv h hp hv' h' hp' hk hc hk'
    (fun hcat t ht => matched_left (hs.types hcat) ho ht) (fun hcat t ht => matched_left (hs.functions hcat) ho ht)
    (fun hcat t ht => matched_left (hs.variables hcat) ho ht)⟩

/-- **C93** (nothing is gained unseen). If the diff of two object files reports no difference, and the user does not
ignore additions, then every unit of the new debug information that is wanted has a counterpart in the old file, in
which every entry of a type, function or variable that is wanted has a counterpart with the same facts. -/
theorem C93_no_entry_gained (hv : ValidSearch search) (h : parseObject search n ra = some fa) (hp : Placed ra.units)
    (hv' : ValidSearch search') (h' : parseObject search' n' rb = some fb) (hp' : Placed rb.units)
    (hsa : Reads ra fa sa) (hsb : Reads rb fb sb) {same : Ty → Ty → Bool} {heap : Heap} {o : Options} {m : Nat} {e : D}
    (he : fileD o ⟨sa, sb, same, heap⟩ m = some e) (ha : ReadableFile sa) (hb : ReadableFile sb)
    (hloc : o.printVariableLocations = true → ∀ u ∈ fb.units, ∀ f ∈ u.functions, OneLocation (sb.details f))
    {i : Nat} {x : DiffPrefix} {d : Nat} (hq : e.flag (printOpts o) i x d = false) (ho : o.ignoreAdded = false)
    {k : Nat} {v : RawUnit} {cv : CompUnit} (hk : rb.units[k]? = some v) (hc : fb.units[k]? = some cv) (hw : WantedUnit o cv) :
    ∃ (k' : Nat) (cu : CompUnit), fa.units[k']? = some cu ∧ WantedUnit o cu ∧
      (o.categoryUnit = true → SameUnitSelf o sa.toSide sb.toSide cu cv) ∧
      HasCounterparts o rb sb sa v cv ra.units[k']? cu ra
        (fun t s => SameType o sa.toSide sb.toSide cu.dir cv.dir (sa.extra s.offset) (sb.extra t.offset) s.kind t.kind)
        (fun g f => SameFunction o sa.toFnSide sb.toFnSide cu.dir cv.dir d f g)
        (fun y x => SameVariable o sa.toSide sb.toSide cu.dir cv.dir x y) := by
  have hfa : sa.file = fa := by obtain ⟨_, _, _, _, _, _, _, _, _, rfl⟩ := hsa; rfl
  have hfb : sb.file = fb := by obtain ⟨_, _, _, _, _, _, _, _, _, rfl⟩ := hsb; rfl
  have hF := C87_file o ⟨sa, sb, same, heap⟩ m e he ha hb (by simpa only [hfb] using hloc) i x d hq
  have hcw : cv ∈ wantedUnits o sb.file := mem_wanted.2 ⟨hfb ▸ List.mem_of_getElem? hc, hw⟩
  obtain ⟨cu, hcv, hs⟩ := matched_right hF.units ho hcw
  obtain ⟨hcv, hwv⟩ := mem_wanted.1 hcv
  obtain ⟨k', hk'⟩ := List.mem_iff_getElem?.1 hcv
  rw [hfa] at hk'
  exact ⟨k', cu, hk', hwv, hs.itself, counterparts hv' h' hp' hv h hp hk hc hk'
    (fun hcat t ht => matched_right (hs.types hcat) ho ht) (fun hcat t ht => matched_right (hs.functions hcat) ho ht)
    (fun hcat t ht => matched_right (hs.variables hcat) ho ht)⟩

end

end Verif.Whole
