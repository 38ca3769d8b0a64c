import Verif.Move.Spec
/-!
# C103: the same program at other addresses

A linker places functions and variables; a change in one function moves the code after it. This
module says what is left of the items of a file when the addresses in memory are left out, and what
it is for two files to be the same but for the addresses of their functions and variables (and the
offsets of their debug information entries, see `Verif.Move.Spec`). It is specification, not a model
of code of the program.
-/
namespace Verif.Rebase
open Verif.Item Verif.Namespace Verif.Types Verif.Range Verif.File Verif.Show

/-- Of an address is left whether there is one. -/
def addr (a : Option Nat) : Option Nat := a.map fun _ => 0

/-- Of a place in memory is left that it is one. -/
def place : Location → Location
  | .address _ => .address none
  | l => l

/-- A piece of a variable. -/
def piece (p : Piece) : Piece := { p with location := place p.location }

/-- Where a variable is: not for which instructions. -/
def locs (l : List (Range × Piece)) : List (Range × Piece) := l.map fun x => (⟨0, 0⟩, piece x.2)

/-- A parameter. -/
def param (p : Parameter) : Parameter := { p with locations := locs p.locations }

/-- A local variable. -/
def localVar (v : LocalVariable) : LocalVariable :=
  { v with address := addr v.address, locations := locs v.locations }

mutual
/-- An inlined function: without its call sites, which are named by their addresses. -/
def inlined : InlinedFunction → InlinedFunction
  | .mk o size _ ps vs is _ src => .mk o size [] (ps.map param) (vs.map localVar) (inlinedAll is) [] src
/-- The inlined functions of one. -/
def inlinedAll : List InlinedFunction → List InlinedFunction
  | [] => []
  | i :: is => inlined i :: inlinedAll is
end

/-- What is read on demand of a function: without its call sites. -/
def details (d : FunctionDetails) : FunctionDetails :=
  { parameters := d.parameters.map param
    variables := d.variables.map localVar
    inlined := inlinedAll d.inlined
    calls := [] }

/-- A function. -/
def function (f : Function) : Function := { f with address := addr f.address, ranges := [] }

/-- A global variable. -/
def var (v : Variable) : Variable := { v with address := addr v.address }

/-- A unit. -/
def unit (u : CompUnit) : CompUnit :=
  { u with
    lowPc := none
    ranges := []
    functions := u.functions.map function
    variables := u.variables.map var }

/-- What the two files say about functions is the same but for addresses; `ρ` gives the new offset
of an entry of the debug information. -/
structure Fns (ρ : Nat → Nat) (a b : FnSide) : Prop extends Move.Types ρ a.toSide b.toSide where
  regs : b.regName = a.regName
  fnAt : ∀ o, (b.fnAt (Move.off ρ o)).map function = (a.fnAt o).map fun f => function (Move.function ρ f)
  details : ∀ f g, function g = function (Move.function ρ f) →
    Rebase.details (b.details g) = Rebase.details (Move.details ρ (a.details f))

/-- The second file is the first one at other addresses: nothing is said about paths, sections, and
the code. -/
structure Rebased (ρ : Nat → Nat) (a b : FileSide) : Prop extends Fns ρ a.toFnSide b.toFnSide where
  units : b.file.units.map unit = a.file.units.map fun u => unit (Move.unit ρ u)

/-- The two units are as large, and so are the parts of their ranges that no function or variable
covers. -/
def SameSizes (a b : Side) (u v : CompUnit) : Prop :=
  v.functionSize = u.functionSize ∧ v.variableSize b.tsz = u.variableSize a.tsz ∧
    size? (v.unknownRanges b.tsz) = size? (u.unknownRanges a.tsz)

end Verif.Rebase
