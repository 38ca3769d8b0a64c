import Verif.Arena.Model

/-!
# What is expected of the arena
-/

namespace Verif.Arena

/-- What a caller should read through the reference it gets: its own data; for a text, the text with
what is not UTF-8 replaced. -/
def Call.wanted (lossy : Bytes → Option Bytes) : Call → Data
  | .buffer b => .bytes b
  | .string b => .bytes ((lossy b).getD b)
  | .relocations r => .relocs r

def Ev.thread : Ev → Tid
  | .call t _ => t
  | .ret t _ => t

/-- Thread `t` called with `c`, and the call returned `r`: between the two events there is none of
the same thread (but any number of other threads). -/
def Answered (es : List Ev) (c : Call) (r : Ref) : Prop :=
  ∃ t e₁ e₂ e₃, es = e₁ ++ .call t c :: e₂ ++ .ret t r :: e₃ ∧ ∀ e ∈ e₂, e.thread ≠ t

end Verif.Arena
