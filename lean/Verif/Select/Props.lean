import Verif.Select.Listing
import Verif.Select.Args
import Verif.Show.FileExamples
/-!
# Property theorems: C100 (options that ask for less only leave lines out)
-/
namespace Verif.Select
open Verif.Print Verif.Item Verif.Namespace Verif.Types Verif.Opts Verif.Merge Verif.Order Verif.Show
  Verif.Range Verif.Frame Verif.File

/-- **C100 (less is a part of more).** If the options `o` ask for no more than `o'`, and the
listing of a file under `o'` is made, then so is the one under `o`, and it is the one under `o'`
with some lines left out: no line is changed, moved or added, at any indentation. -/
theorem C100_part {o o' : Options} (h : Narrower o o') (s : FileSide) (n : Nat) (q : P)
    (hq : fileP o' s n = some q) (i : Nat) (x : DiffPrefix) :
    ∃ p, fileP o s n = some p ∧
      (p.lines o.http i x o.inlineDepth).Sublist (q.lines o'.http i x o'.inlineDepth) := by
  obtain ⟨p, hp, hs⟩ := fileP_sub h s n q hq
  refine ⟨p, hp, ?_⟩
  rw [P.lines_eq, P.lines_eq, h.http]
  exact hs _ i x _ _ h.depth

/-- **C100 (command line).** A command line that asks for less, in what is written on it, gives
such options. So adding a `--print` value or raising `--inline-depth` only adds lines, and adding
filters to a command line without any, or restricting the categories, only removes lines. -/
theorem C100_arguments {a a' : Args} {o o' : Options} (h : AsksLess a a') (hp : parseOptions a = some o)
    (hp' : parseOptions a' = some o') : Narrower o o' := (args_narrower h hp hp').toNarrower

/-- **C100 (diff options).** Options that only matter for diffs (which differences to ignore, other
than function addresses, which the list of calls shows) change nothing in a listing. -/
theorem C100_diff_options (o : Options) (added deleted size inline linkage symbol address vlinkage vsymbol : Bool)
    (s : FileSide) (n : Nat) (i : Nat) (x : DiffPrefix) :
    let o' := { o with
      ignoreAdded := added, ignoreDeleted := deleted, ignoreFunctionSize := size
      ignoreFunctionInline := inline, ignoreFunctionLinkageName := linkage
      ignoreFunctionSymbolName := symbol, ignoreVariableAddress := address
      ignoreVariableLinkageName := vlinkage, ignoreVariableSymbolName := vsymbol }
    (fileP o' s n).map (fun p => p.lines o'.http i x o'.inlineDepth) =
      (fileP o s n).map (fun p => p.lines o.http i x o.inlineDepth) := by
  intro o'
  have h : Narrower o' o := by
    have := Narrower.refl o
    exact { this with }
  have h' : Narrower o o' := by
    have := Narrower.refl o
    exact { this with }
  cases hq : fileP o s n with
  | some q =>
    obtain ⟨p, hp, hs⟩ := C100_part h s n q hq i x
    obtain ⟨q', hq', hs'⟩ := C100_part h' s n p hp i x
    rw [hq] at hq'
    cases hq'
    rw [hp]
    exact congrArg some (hs.eq_of_length_le hs'.length_le)
  | none =>
    cases hp : fileP o' s n with
    | none => rfl
    | some p =>
      obtain ⟨q, hq', _⟩ := C100_part h' s n p hp i x
      rw [hq] at hq'; cases hq'

/-! ## Concrete cases -/

private def fn (name : String) (a size : Nat) : Function := {
  name := some (k name), address := some a, size := some size, ranges := [⟨a, a + size⟩]
  source := { file := some (k "x.c"), line := 3 } }
private def unit1 : CompUnit := {
  name := some (k "x.c"), functions := [fn "f" 0x1010 4, fn "g" 0x1000 2]
  types := [⟨some 1, .base (some (k "int")) ⟨4⟩⟩] }
private def few : Options := {
  categoryUnit := true, categoryFunction := true, filterName := some (k "f") }
private def many : Options := {
  categoryUnit := true, categoryType := true, categoryFunction := true, printSource := true
  printUnitAddress := true, inlineDepth := 2 }

example : Narrower few many := by constructor <;> simp [few, many]

set_option maxRecDepth 4000 in
example : textP (fileP many (exFileSide 64 [unit1]) 3) = (["unit x.c\n", "\taddress: 0x1000-0x1013\n", "\tfn size: 20\n", "\n", "base int\n", "\tsize: 4\n", "\n", "fn g\n", "\tsource: x.c:3\n", "\taddress: 0x1000-0x1001\n", "\tsize: 2\n", "\n", "fn f\n", "\tsource: x.c:3\n", "\taddress: 0x1010-0x1013\n", "\tsize: 4\n", "\n"].flatMap k) := by
  decide +kernel

set_option maxRecDepth 4000 in
example : textP (fileP few (exFileSide 64 [unit1]) 3) = (["unit x.c\n", "\tfn size: 20\n", "\n", "fn f\n", "\taddress: 0x1010-0x1013\n", "\tsize: 4\n", "\n"].flatMap k) := by
  decide +kernel

/-- A command line that asks for less: one category instead of all, a filter, one kind of detail. -/
example : AsksLess
    { category := some [k "function"], print := some [k "source"], filter := some [k "name=f"], inlineDepth := some (k "1") }
    { print := some [k "source", k "address"], inlineDepth := some (k "5") } where
  output := rfl
  sort := rfl
  ignore := rfl
  prefixMap := rfl
  category := .inl rfl
  print := by decide
  filter := .inl rfl
  depth := .inr ⟨k "1", k "5", 1, 5, rfl, rfl, by decide, by decide, by decide⟩

/-- Filters are not independent of their order: a second filter of the same kind replaces the
first, so adding a filter can add lines. -/
theorem C100_replaced_filter_witness :
    (parseOptions { filter := some [k "name=f"] }).map (fun o => textP (fileP o (exFileSide 64 [unit1]) 3)) ≠
      (parseOptions { filter := some [k "name=f", k "name=g"] }).map (fun o => textP (fileP o (exFileSide 64 [unit1]) 3)) ∧
    (parseOptions { filter := some [k "name=f", k "name=g"] }).map (·.filterName) = some (some (k "g")) := by
  decide +kernel

end Verif.Select
