import Verif.Shuffle.Listing
import Verif.Show.FileExamples
/-!
# C102: the order of units and entries in a file does not matter
-/
namespace Verif.Shuffle
open Verif.Types Verif.Item Verif.Opts Verif.Order Verif.Show Verif.Merge Verif.Print Verif.Path

/-- **C102 (listing).** The listing of a file does not depend on the order of its units, nor on that of the types,
functions and variables of a unit, but for items that the sort order does not tell apart. (The summary of the
file, which adds up the ranges in the order of the file, is left out: see `C102_order_witness`.) -/
theorem C102_listing {o : Options} {n : Nat} {s s' : FileSide} (hf : o.categoryFile = false)
    (h : SameFile o [listingKeys o n s] s s') : fileP o s' n = fileP o s n := by
  unfold fileP
  rw [unitsP_same h, hf]
  rfl

/-- **C102 (diff).** A diff does not depend on the order of the units and entries of either file. -/
theorem C102_diff {o : Options} {n : Nat} {c c' : FilePair} (hf : o.categoryFile = false)
    (h : SamePair o n c c') : fileD o c' n = fileD o c n := by
  unfold fileD
  rw [unitsD_same h, hf]
  rfl

/-! ## Distinct items can be in any order -/

theorem perm_short {α : Type} {l l' : List α} (h : l.Perm l') (hl : l.length ≤ 1) : l = l' := by
  match l, hl with
  | [], _ => exact (List.nil_perm.1 h).symm
  | [x], _ => exact (List.perm_singleton.1 h.symm).symm

theorem pairwise_filter_short {α : Type} {r : α → α → Res Ordering} (hr : Laws r) {l : List α} (hd : l.Pairwise fun x y => r x y ≠ .ok .eq)
    (c : α) : (l.filter fun y => decide (r c y = .ok .eq)).length ≤ 1 := by
  have hp := hd.filter (fun y => decide (r c y = .ok .eq))
  match h : l.filter (fun y => decide (r c y = .ok .eq)) with
  | [] => simp
  | [x] => simp
  | x :: y :: t =>
    rw [h] at hp
    have hx : r c x = .ok .eq := by
      have : x ∈ l.filter (fun y => decide (r c y = .ok .eq)) := by rw [h]; simp
      simpa using (List.mem_filter.1 this).2
    have hy : r c y = .ok .eq := by
      have : y ∈ l.filter (fun y => decide (r c y = .ok .eq)) := by rw [h]; simp
      simpa using (List.mem_filter.1 this).2
    obtain ⟨o, ho, -, h3⟩ := hr.trans x c y _ _ (hr.swap hx) hy rfl rfl
    exact absurd (by rw [ho, h3.2 ⟨rfl, rfl⟩]) ((List.pairwise_cons.1 hp).1 y (by simp))

/-- If no two items are the same for a comparison, `Reordered` is any order. -/
theorem reordered_of_distinct {α : Type} {r : α → α → Res Ordering} (hr : Laws r) {l l' : List α} (hp : l.Perm l')
    (hd : l.Pairwise fun x y => r x y ≠ .ok .eq) : Reordered r l l' :=
  ⟨hp, fun c _ => perm_short (hp.filter _) (pairwise_filter_short hr hd c)⟩

theorem listingKeys_name {o : Options} (hs : o.sort = .name) (n : Nat) (s : FileSide) : listingKeys o n s = pairingKeys o n s := by
  unfold listingKeys pairingKeys unitCmpBy typeCmpBy functionCmpBy variableCmpBy
  simp only [hs]


theorem sameFile_of_anyOrder {o : Options} (hs : o.sort = .name) (hu : o.categoryUnit = false) (n : Nat) {s s' : FileSide}
    (hd : Distinct o s) (h : AnyOrder s s') : SameFile o [listingKeys o n s] s s' ∧
      SameFile o [pairingKeys o n s, listingKeys o n s] s s' := by
  have main : ∀ ks : List Keys, (∀ k ∈ ks, k = pairingKeys o n s) → SameFile o ks s s' := by
    intro ks hks
    obtain ⟨us, h1, h2⟩ := h.units
    have hl := pairingKeys_lawful o n s
    refine ⟨h.side, h.varId, us, ?_, fun k hk => ?_⟩
    · have gen : ∀ (l m : List CompUnit), (∀ u ∈ l, u ∈ s.file.units) → All2 (UnitAnyOrder s s') l m →
          All2 (fun u u' => ∀ k ∈ ks, SameUnit o k s s' u u') l m := by
        intro l m hl' ha
        induction ha with
        | nil => exact .nil
        | @cons a b _ _ hab _ ih =>
          refine .cons (fun k hk => ?_) (ih fun u hu => hl' u (by simp [hu]))
          rw [hks k hk]
          have hm := hl' a (by simp)
          refine ⟨hab.rest, hab.id, reordered_of_distinct hl.type hab.types ?_, reordered_of_distinct hl.function hab.functions ?_,
            reordered_of_distinct hl.var hab.variables ?_, fun h => ?_⟩
          · refine (hd.types a hm).imp fun {x y} hxy he => hxy ?_
            exact ((C53_type_key { o with sort := .name } n x s.hash y s.hash .eq he).2.2 rfl).1 rfl
          · refine (hd.functions a hm).imp fun {x y} hxy he => hxy ?_
            exact (((C53_function_key { o with sort := .name } n x s.hash y s.hash .eq he).2.2 rfl).2 rfl).1
          · refine (hd.variables a hm).imp fun {x y} hxy he => hxy ?_
            have := (C53_variable_key { o with sort := .name } n x s.hash y s.hash .eq he).2.2 rfl
            obtain ⟨e1, e2⟩ := Ordering.then_eq_eq.1 this.symm
            have e1 := Std.LawfulEqCmp.eq_of_compare e1
            have e2 := Std.LawfulEqCmp.eq_of_compare e2
            exact Prod.ext e1 e2
          · rw [hu, hs] at h
            simp at h
      exact gen _ _ (fun _ h => h) h1
    · rw [hks k hk]
      refine reordered_of_distinct hl.unit h2 ?_
      have : s.file.units.Pairwise fun a b => unitKey o a ≠ unitKey o b := by
        refine hd.units.imp fun {x y} hxy he => hxy _ (unitKey_spec o x) ?_
        rw [he]; exact unitKey_spec o y
      have gen : ∀ (l m : List CompUnit), l.Pairwise (fun a b => unitKey o a ≠ unitKey o b) → All2 (UnitAnyOrder s s') l m →
          m.Pairwise (fun a b => unitKey o a ≠ unitKey o b) := by
        intro l m hp ha
        have hk : ∀ u u', UnitAnyOrder s s' u u' → unitKey o u' = unitKey o u := by
          intro u u' hh
          have := hh.rest
          unfold unitKey
          rw [this]
        have hm : l.map (unitKey o) = m.map (unitKey o) := by
          clear hp
          induction ha with
          | nil => rfl
          | cons h1 _ ih => rw [List.map_cons, List.map_cons, hk _ _ h1, ih]
        rw [← List.pairwise_map (R := (· ≠ ·))] at hp ⊢
        rwa [← hm]
      refine (gen _ _ this h1).imp fun {x y} hxy he => hxy ?_
      have he : Res.ok (unitCmpId o x y) = .ok .eq := he
      cases he' : unitCmpId o x y <;> rw [he'] at he <;> cases he
      exact Std.LawfulEqCmp.eq_of_compare he'
  refine ⟨main _ ?_, main _ ?_⟩
  · intro k hk; simp only [List.mem_singleton] at hk; rw [hk, listingKeys_name hs]
  · intro k hk
    simp only [List.mem_cons, List.not_mem_nil, or_false, listingKeys_name hs, or_self] at hk
    exact hk

/-- **C102 (distinct names).** Sorted by name, with the summaries left out: if no two units of a file have the
same mapped name, and in a unit no two types are identical, no two functions and no two variables have the same
qualified name, then the units and their entries can be in any order: the listing of the file is the same, and so
is its diff to any other such file in any order. -/
theorem C102_distinct_names {o : Options} {n : Nat} (hs : o.sort = .name) (hf : o.categoryFile = false) (hu : o.categoryUnit = false) :
    (∀ s s', Distinct o s → AnyOrder s s' → fileP o s' n = fileP o s n) ∧
    (∀ c c' : FilePair, Distinct o c.a → Distinct o c.b → AnyOrder c.a c'.a → AnyOrder c.b c'.b → c'.same = c.same →
      c'.heap = c.heap → fileD o c' n = fileD o c n) :=
  ⟨fun _ _ hd h => C102_listing hf (sameFile_of_anyOrder hs hu n hd h).1,
   fun _ _ ha hb h g hc hp => C102_diff hf
    ⟨(sameFile_of_anyOrder hs hu n ha h).2, (sameFile_of_anyOrder hs hu n hb g).2, hc, hp⟩⟩

/-! ## Concrete cases -/

private def f (name : String) (address size : Nat) : Function := {
  name := some (k name), address := some address, size := some size, ranges := [⟨address, address + size⟩] }
private def v : Variable := { name := some (k "v"), ty := some 1, address := some 0x2000 }
private def w : Variable := { name := some (k "w"), ty := some 1, address := some 0x2004 }
private def int : TypeEntry := ⟨some 1, .base (some (k "int")) ⟨4⟩⟩
private def st : TypeEntry := ⟨some 9, .struct_ none (some (k "S")) ⟨4⟩ [⟨30, some (k "a"), some 1, 0, ⟨32⟩⟩] [] []⟩
private def ux : CompUnit := {
  name := some (k "x.c"), functions := [f "f" 0x1000 32, f "g" 0x1020 16], types := [int, st], variables := [v, w] }
private def ux' : CompUnit := { ux with functions := [f "g" 0x1020 16, f "f" 0x1000 32], types := [st, int], variables := [w, v] }
private def uy : CompUnit := { name := some (k "y.c"), functions := [f "h" 0x1030 8] }
private def opts : Options := { sort := .name, categoryType := true, categoryFunction := true, categoryVariable := true }

private theorem swap {α : Type} (a b : α) : [a, b].Perm [b, a] := .swap _ _ _

/-- A file with two units, and the same file in reverse. -/
example : AnyOrder (exFileSide 64 [ux, uy]) (exFileSide 64 [uy, ux']) :=
  ⟨rfl, rfl, [ux', uy], .cons ⟨rfl, rfl, swap _ _, swap _ _, swap _ _⟩
    (.cons ⟨rfl, rfl, .refl _, .refl _, .refl _⟩ .nil), swap _ _⟩

private theorem not_eq {u u' : CompUnit} (h : unitKey opts u ≠ unitKey opts u') : ∀ x, UnitName opts u x → ¬ UnitName opts u' x := by
  intro x h1 h2
  rw [unitName_iff] at h1 h2
  exact h (h1 ▸ h2)

/-- Its names are distinct. -/
example : Distinct opts (exFileSide 64 [ux, uy]) := by
  refine ⟨.cons ?_ (.cons (by simp) .nil), ?_, ?_, ?_⟩
  · intro b hb
    simp only [List.mem_singleton] at hb
    subst hb
    exact not_eq (by decide)
  all_goals
    intro u hu
    simp only [exFileSide, List.mem_cons, List.not_mem_nil, or_false] at hu
    rcases hu with rfl | rfl
  · refine .cons ?_ (.cons (by simp) .nil)
    intro b hb
    simp only [List.mem_singleton] at hb
    subst hb
    intro h
    have h1 : IdentOf (exFileSide 64 [ux, uy]).hash int.kind (.base (some (k "int"))) := .base
    cases (h _).1 h1
  · exact .nil
  · decide
  · decide
  · decide
  · decide

set_option maxRecDepth 4000 in
example : textP (fileP opts (exFileSide 64 [uy, ux']) 3) = textP (fileP opts (exFileSide 64 [ux, uy]) 3) ∧
    textP (fileP opts (exFileSide 64 [ux, uy]) 3) = (["base int\n", "\tsize: 4\n", "\n", "struct S\n", "\tsize: 4\n", "\tmembers:\n", "\t\t0[4]\ta: int\n", "\n", "fn f\n", "\taddress: 0x1000-0x101f\n", "\tsize: 32\n", "\n", "fn g\n", "\taddress: 0x1020-0x102f\n", "\tsize: 16\n", "\n", "var v: int\n", "\taddress: 0x2000\n", "\tsize: 4\n", "\n", "var w: int\n", "\taddress: 0x2004\n", "\tsize: 4\n", "\n", "fn h\n", "\taddress: 0x1030-0x1037\n", "\tsize: 8\n", "\n"].flatMap k) := by
  decide +kernel

/-- The functions of the witness below. -/
private def three (b : Bool) : CompUnit := { name := some (k "x.c"), functions :=
  [f "f" 0x1000 1] ++ if b then [f "h" 0x1010 1, f "g" 0x1005 1] else [f "g" 0x1005 1, f "h" 0x1010 1] }

/-- **C102 (summaries).** The sizes in the summary of a unit do depend on the order of its functions, even when
sorted by name: a gap up to the next 16-byte boundary counts when the functions at its ends follow each other (see
C05). -/
theorem C102_order_witness : ∃ (o : Options) (u u' : CompUnit), o.categoryFile = false ∧ o.sort = .name ∧
    UnitAnyOrder (exFileSide 64 [u]) (exFileSide 64 [u']) u u' ∧
    textP (fileP o (exFileSide 64 [u]) 3) = k "unit x.c\n\tfn size: 17\n\n" ∧
    textP (fileP o (exFileSide 64 [u']) 3) = k "unit x.c\n\tfn size: 13\n\n" := by
  refine ⟨{ sort := .name, categoryUnit := true }, three true, three false, rfl, rfl,
    ⟨rfl, rfl, .refl _, .cons _ (swap _ _), .refl _⟩, ?_, ?_⟩
  · decide +kernel
  · decide +kernel

end Verif.Shuffle
