import Verif.Reloc.Model
/-!
# Specification vocabulary for relocations
-/
namespace Verif.Reloc

/-- The relocation entry `e` says what is stored at offset `o` of the section: it is for that offset,
is of a known kind, and its target exists, at address `s`. -/
def AppliesAt (file : ObjFile) (o s : Nat) (e : Nat × Relocation) : Prop :=
  e.1 = o ∧ (e.2.kind = .absolute ∨ e.2.kind = .relative) ∧
    ((∃ i, e.2.target = .symbol i ∧ file.symbolAddress i = some s) ∨
     (∃ i, e.2.target = .section i ∧ file.sectionAddress i = some s))

/-- The object format's rule: `S + A`, plus the stored value if the addend is stored in place,
less the place `P` for a relative relocation; all before reduction to 64 bits. -/
def formula (s place stored : Nat) (r : Relocation) : Int :=
  s + r.addend + (if r.implicitAddend then (stored : Int) else 0) - (if r.kind = .relative then (place : Int) else 0)

/-- How a reader can come about from the reader of the section: by skipping, truncating, splitting
and reading. -/
inductive Derived (r₀ : Reader) : Reader → Prop
  | start : Derived r₀ r₀
  | skip {r r' n} : Derived r₀ r → r.skip n = some r' → Derived r₀ r'
  | truncate {r r' n} : Derived r₀ r → r.truncate n = some r' → Derived r₀ r'
  | splitHead {r a b n} : Derived r₀ r → r.split n = some (a, b) → Derived r₀ a
  | splitRest {r a b n} : Derived r₀ r → r.split n = some (a, b) → Derived r₀ b
  | read {r r' n v} : Derived r₀ r → r.read n = some (v, r') → Derived r₀ r'

end Verif.Reloc
