import Verif.Print.Model
import Verif.Item.Model
/-!
# References: how functions, units and sources are written

`Val` is what a closure writes through a `ValuePrinter`; `Val.text'` is what a plain byte buffer
(`impl ValuePrinter for Vec<u8>`, main/src/print/mod.rs:128-141) or the text printer keeps of it.
-/
namespace Verif.Show
open Verif.Print Verif.Item Verif.Namespace

/-- `"<anon>"`. -/
def anon : Str := Str.ofString "<anon>"

/-- The part of `print::namespace::print` after the parent (main/src/print/namespace.rs:10-14). -/
def nsPart (name : Option Str) (kind : NamespaceKind) : Val :=
  .seq (.name (name.getD anon))
    (.seq (if kind = .function then .text (Str.ofString "()") else .nil) (.text (Str.ofString "::")))

/-- `print::namespace::print` (main/src/print/namespace.rs:6-16). -/
def nsVal : Namespace → Val
  | .root n k => nsPart n k
  | .child p n k => .seq (nsVal p) (nsPart n k)

/-- The optional namespace and the name (main/src/print/function.rs:16-19, 26-29,
main/src/print/variable.rs:16-21). -/
def qualified (ns : Option Namespace) (name : Option Str) : Val :=
  .seq (match ns with | some ns => nsVal ns | none => .nil) (.name (name.getD anon))

/-- `print::function::print_ref` (main/src/print/function.rs:14-22); `id` is `f.id()`. -/
def fnRef (id : Nat) (f : Function) : Val := .link id (qualified f.ns f.name)

end Verif.Show
