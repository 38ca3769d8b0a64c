import Verif.Page.DiffProps
import Verif.Page.Agree
import Verif.Show.FileExamples
/-!
# A concrete page of a diff
-/
namespace Verif.Page
open Verif.Print Verif.Html Verif.Item Verif.Types Verif.Opts Verif.Show Verif.Order Verif.Filter Verif.Web Verif.Merge

private def fn (name : String) (size : Nat) : Function := {
  name := some (k name), address := some 0x1000, size := some size, ranges := [⟨0x1000, 0x1000 + size⟩] }
private def unitOld : CompUnit := {
  name := some (k "x.c"), types := [⟨some 1, .base (some (k "int")) ⟨4⟩⟩], functions := [fn "f" 8] }
private def unitNew : CompUnit := { name := some (k "x.c"), functions := [fn "f" 12] }
private def pair : FilePair := exFilePair 64 64 [unitOld] [unitNew]
private def opts : Options := {
  categoryUnit := true, categoryType := true, categoryFunction := true, html := true, inlineDepth := 1 }

private def frame : Frame := ⟨lit "<ul>", lit "</ul>"⟩

set_option maxRecDepth 4000 in
private theorem page_some : (diffPage stdTable asciiAlnum frame opts pair 2).isSome = true := by decide +kernel

private theorem types_acc : ∀ u ∈ pair.a.file.units, ∀ t ∈ u.types, Acc (IdRef pair.a.hash) t.kind := by
  intro u hu t ht
  rw [List.mem_singleton.1 (show u ∈ [unitOld] from hu)] at ht
  rw [List.mem_singleton.1 (show t ∈ [_] from ht)]
  exact ⟨_, fun y ⟨o, ho, _⟩ => by simp [Ty.idRefs] at ho⟩

/-- The hypotheses of `C106_diff` hold for a unit of which a type is gone and a function has grown. -/
example : ∃ page items ns, diffPage stdTable asciiAlnum frame opts pair 2 = some page ∧
    page = frame.header ++ items ++ frame.footer ∧ Html.Reads stdTable asciiAlnum items ns ∧
    DiffPage opts pair 2 ns := by
  obtain ⟨page, hp⟩ := Option.isSome_iff_exists.1 page_some
  obtain ⟨items, ns, h⟩ := C106_diff stdTable asciiAlnum frame opts pair 2 rfl rfl rfl types_acc page hp
  exact ⟨page, items, ns, hp, h⟩

set_option maxRecDepth 4000 in
/-- What the page shows: the size of the unit's code, the type that is gone, and the function with both sizes. -/
example : ∃ e, fileD opts pair 2 = some e ∧ flats 0 (pageD (fun a b => decide (a.text' = b.text')) false e 1) =
    [⟨0, .same, [], lit "unit x.c"⟩, ⟨1, .del, lit "fn size", lit "8"⟩, ⟨1, .add, lit "fn size", lit "12 (+4)"⟩,
      ⟨1, .same, lit "types", []⟩, ⟨2, .del, [], lit "base int"⟩, ⟨3, .del, lit "size", lit "4"⟩,
      ⟨1, .same, lit "functions", []⟩, ⟨2, .same, [], lit "fn f"⟩,
      ⟨3, .del, lit "address", lit "0x1000-0x1007"⟩, ⟨3, .add, lit "address", lit "0x1000-0x100b"⟩,
      ⟨3, .del, lit "size", lit "8"⟩, ⟨3, .add, lit "size", lit "12"⟩] := by
  refine ⟨(fileD opts pair 2).get (by decide +kernel), (Option.some_get _).symm, ?_⟩
  decide +kernel

/-- The hypotheses of `C106_self` hold for a unit with a type and a function; and something is on the page. -/
example : ∃ page items, diffPage stdTable asciiAlnum frame opts (exFilePair 64 64 [unitOld] [unitOld]) 2 = some page ∧
    page = frame.header ++ items ++ frame.footer ∧ ∀ m x, Sight.line m x ∈ look stdTable items → m = .same := by
  obtain ⟨page, hp⟩ := Option.isSome_iff_exists.1
    (show (diffPage stdTable asciiAlnum frame opts (exFilePair 64 64 [unitOld] [unitOld]) 2).isSome = true by decide +kernel)
  obtain ⟨items, h1, h2⟩ := C106_self stdTable asciiAlnum frame opts (exFilePair 64 64 [unitOld] [unitOld]).a
    (exFilePair 64 64 [unitOld] [unitOld]).same (exFilePair 64 64 [unitOld] [unitOld]).heap 2 rfl rfl rfl (by
      intro o t h; simp [exFilePair]) page hp
  exact ⟨page, items, hp, h1, h2⟩

/-- Both versions are shown; they are not if the marks are exchanged, a line of one version is missing or has no mark. -/
example :
    let old : List Row := [⟨0, [], lit "fn f"⟩, ⟨1, lit "size", lit "8"⟩]
    let new : List Row := [⟨0, [], lit "fn f"⟩, ⟨1, lit "size", lit "12"⟩]
    let line (m : Mark) (size : Str) : Node := .item [⟨m, lit "size", .text size⟩] none
    let item (lines : List Node) : List Node := [.item [⟨.same, [], .text (lit "fn f")⟩] (some lines)]
    Versions old new (item [line .del (lit "8"), line .add (lit "12")]) ∧
    ¬ Versions old new (item [line .add (lit "8"), line .del (lit "12")]) ∧
    ¬ Versions old new (item [line .del (lit "8")]) ∧
    ¬ Versions old new (item [line .same (lit "12")]) ∧
    ¬ Versions old new (item [line .del (lit "8"), line .same (lit "12")]) := by
  simp only [Versions]
  decide +kernel

/-- A type is gone, which the user ignores: a page without a mark. -/
private def ignoring : Options := { opts with ignoreDeleted := true }
private def unitLess : CompUnit := { name := some (k "x.c"), functions := [fn "f" 8] }

private theorem less_acc : ∀ u ∈ (exFilePair 64 64 [unitOld] [unitLess]).a.file.units, ∀ t ∈ u.types,
    Acc (IdRef (exFilePair 64 64 [unitOld] [unitLess]).a.hash) t.kind := by
  intro u hu t ht
  rw [List.mem_singleton.1 (show u ∈ [unitOld] from hu)] at ht
  rw [List.mem_singleton.1 (show t ∈ [_] from ht)]
  exact ⟨_, fun y ⟨o, ho, _⟩ => by simp [Ty.idRefs] at ho⟩

/-- The page, read back, has a line with a text and no marked line. -/
private def plain (page : Str) : Bool :=
  (look stdTable page).all (fun | .line m _ => m == .same | _ => true) && (look stdTable page).any fun | .line _ _ => true | _ => false

set_option maxRecDepth 8000 in
/-- The hypotheses of `C106_unmarked` hold for a unit of which a type is gone, if the user ignores what is deleted: no line is
marked, and the same is said of both files. -/
example : FilesSay ignoring (exFilePair 64 64 [unitOld] [unitLess]) := by
  obtain ⟨page, hp⟩ := Option.isSome_iff_exists.1
    (show (diffPage stdTable asciiAlnum frame ignoring (exFilePair 64 64 [unitOld] [unitLess]) 2).isSome = true by decide +kernel)
  have hplain : ((diffPage stdTable asciiAlnum ⟨[], []⟩ ignoring (exFilePair 64 64 [unitOld] [unitLess]) 2).map plain) = some true := by
    decide +kernel
  obtain ⟨items, h1, h2⟩ := C106_unmarked stdTable asciiAlnum frame ignoring _ 2 rfl rfl rfl less_acc page hp
  refine h2 fun m x hx => ?_
  simp only [diffPage, Option.map_map, Option.map_eq_some_iff] at hp hplain
  obtain ⟨e, he, rfl⟩ := hp
  obtain ⟨e', he', hall⟩ := hplain
  rw [he] at he'
  cases he'
  have := List.append_cancel_left ((List.append_cancel_right h1))
  subst this
  simp only [Function.comp, List.nil_append, List.append_nil, plain, Bool.and_eq_true, List.all_eq_true] at hall
  exact of_decide_eq_true (by simpa using hall.1 _ hx)

/-- The same is not said of files with a unit of which a function has grown. -/
example : ¬ FilesSay opts (exFilePair 64 64 [unitLess] [unitNew]) := by
  intro h
  obtain ⟨pairs, gone, new, h1, h2, h3, h4, h5⟩ := h.units
  have hg : gone = [] := Decidable.byContradiction fun h => by cases h4 h
  have hn : new = [] := Decidable.byContradiction fun h => by cases h5 h
  subst hg hn
  rw [List.append_nil] at h1 h2
  rw [show wantedUnits opts (exFilePair 64 64 [unitLess] [unitNew]).a.file = [unitLess] by rw [wantedUnits_eq]; rfl] at h1
  rw [show wantedUnits opts (exFilePair 64 64 [unitLess] [unitNew]).b.file = [unitNew] by rw [wantedUnits_eq]; rfl] at h2
  obtain ⟨p, rfl, hp⟩ := List.map_eq_singleton_iff.1 (List.perm_singleton.1 h1)
  have hp2 : p.2 = unitNew := by simpa using List.perm_singleton.1 h2
  have := h3 p (List.mem_singleton_self p)
  rw [hp, hp2] at this
  have := (this.itself rfl (fun h => by cases h)).1
  exact absurd this (by decide +kernel)

end Verif.Page
