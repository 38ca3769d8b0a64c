import Verif.Bloat.Model
/-! # Specification vocabulary for the bloat report -/
namespace Verif.Bloat
open Verif.Item Verif.Print Verif.Show Verif.Range

/-- Position `pos` holds a function of known size `n` that is printed with name and source `k`. -/
def SizedAt (us : List CompUnit) (pos : Nat × Nat) (k : FunctionId) (n : Nat) : Prop :=
  ∃ u f, us[pos.1]? = some u ∧ u.functions[pos.2]? = some f ∧ f.size = some n ∧
    k.name = (qualified f.ns f.name).text' ∧ k.source = f.source.print u.dir

/-- File order. -/
def Before (p q : Nat × Nat) : Prop := p.1 < q.1 ∨ p.1 = q.1 ∧ p.2 < q.2

/-- The sizes of the listed functions. -/
def sizesAt (us : List CompUnit) (ps : List (Nat × Nat)) : List Nat :=
  ps.map fun p => (((us[p.1]?).bind (·.functions[p.2]?)).bind (·.size)).getD 0

/-- The call sites, in file order, of calls to `a` from functions of known size. -/
def callsTo (calls : Range → List Call) (us : List CompUnit) (a : Nat) : List Caller :=
  us.zipIdx.flatMap fun (u, i) => u.functions.zipIdx.flatMap fun (f, j) =>
    if f.size.isSome then
      ((f.ranges.flatMap calls).filter (fun c => c.to = a)).map fun c => ⟨i, j, c.frm⟩
    else []

/-- One line of text without label, unless it would be empty. -/
def textLine (pfx : DiffPrefix) (indent : Nat) (s : Str) : List Line :=
  if s = [] then [] else [.line pfx indent [] s]

/-- `name`, or `name source` when the source is known. -/
def withSource (name source : Str) : Str := if source = [] then name else name ++ [32] ++ source

/-- The callers of an address; none without code. -/
def callersOf (calls : Option (Range → List Call)) (us : List CompUnit) (a : Nat) : List Caller :=
  match calls with
  | some calls => callsTo calls us a
  | none => []

/-- The line for a caller: its name and source. -/
def callerText (us : List CompUnit) (pfx : DiffPrefix) (indent : Nat) (c : Caller) : List Line :=
  match at? us (c.unitIndex, c.functionIndex) with
  | some (u, f) => textLine pfx indent (withSource (qualified f.ns f.name).text' (f.source.print u.dir))
  | none => []

/-- The lines for one function: its size and unit, then the callers of its address. -/
def functionLines (calls : Option (Range → List Call)) (us : List CompUnit) (pfx : DiffPrefix)
    (pos : Nat × Nat) : List Line :=
  match at? us pos with
  | some (u, f) =>
    .line pfx 1 [] (dec (f.size.getD 0) ++ [32] ++ u.printRef) ::
      (match f.address with
        | some a => (callersOf calls us a).flatMap (callerText us pfx 2)
        | none => [])
  | none => []

end Verif.Bloat
