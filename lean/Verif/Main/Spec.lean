import Verif.Main.Model
/-!
# What a run of the program should show

Stated without the buffer: the complete output of a mode, and what part of it was received.
-/
namespace Verif.Main
open Verif.Opts

/-- The complete output: the text, or the page around the body. -/
def complete {F : Type} (w : World F) (o : Options) (m : Mode F) : Str :=
  if o.html then w.head ++ (w.pieces m o).flatten ++ w.foot else (w.pieces m o).flatten

/-- No write on standard output fails. -/
def Healthy (k : Sink) : Prop := ∀ i, k i = none

/-- Once a write on standard output fails, all later ones fail and take nothing (a closed pipe). -/
def Broken (k : Sink) : Prop := ∀ i j, i < j → k i ≠ none → ∃ e, k j = some (0, e)

/-- The paths named by a mode, in the order given. -/
def Mode.paths {α : Type} : Mode α → List α
  | .diff a b => [a, b]
  | .bloat f => [f]
  | .print f => [f]

/-- The mode with every path replaced by the file read from it. -/
inductive Read {F : Type} (w : World F) : Mode Str → Mode F → Prop
  | diff {a b fa fb} : w.parse a = .ok fa → w.parse b = .ok fb → Read w (.diff a b) (.diff fa fb)
  | bloat {p f} : w.parse p = .ok f → Read w (.bloat p) (.bloat f)
  | print {p f} : w.parse p = .ok f → Read w (.print p) (.print f)

/-- `p` is the first path of the mode that cannot be read. -/
def FirstBad {F : Type} (w : World F) (m : Mode Str) (before : List Str) (p e : Str) : Prop :=
  (∃ after, m.paths = before ++ p :: after) ∧ w.parse p = .error e ∧
    ∀ q ∈ before, ∃ f, w.parse q = .ok f

/-- The paths given on the command line name exactly this mode. -/
def Names (p : Paths) (m : Mode Str) : Prop :=
  (∃ a b, p = { diff := some (a, b) } ∧ m = .diff a b) ∨
  (∃ f, p = { bloat := some f } ∧ m = .bloat f) ∨
  (∃ f, p = { file := some f } ∧ m = .print f)

end Verif.Main
