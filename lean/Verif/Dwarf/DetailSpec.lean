import Verif.Dwarf.DetailModel
import Verif.Dwarf.AttrSpec
import Verif.Dwarf.CallSpec
import Verif.Types.Spec
/-!
# Specification vocabulary: what the entry of a function says about its parameters, local variables
and inlined calls
-/
namespace Verif.Dwarf
open Verif.Item Verif.Types Verif.Namespace Verif.Range Verif.Sentinel Verif.File

/-! ### Locations -/

/-- Every 64-bit address but the last. -/
def everywhere : Range := ⟨0, 0xffffffffffffffff⟩

/-- The entries of a location attribute: an expression is valid everywhere, a list has a range for
each. -/
def Val.locEntries : Val → List (Range × List Oper)
  | .exprloc _ e => [(everywhere, e)]
  | .loclist _ es => es
  | _ => []

/-- The entries of all location attributes of an entry, in order. -/
def Die.locEntries (d : Die) : List (Range × List Oper) :=
  d.attrs.flatMap fun av => if av.1 = .location then av.2.locEntries else []

/-- The pieces an expression describes (C42, C43), each with the range; none if the expression cannot
be evaluated. -/
def entryPieces (asz : Nat) (re : Range × List Oper) : List (Range × Piece) :=
  (((evaluateSimple asz re.2).getD none).getD []).map fun p => (re.1, p)

/-- The pieces all locations of an entry describe. -/
def Die.pieces (asz : Nat) (d : Die) : List (Range × Piece) := d.locEntries.flatMap (entryPieces asz)

/-- No location expression of the entry makes the evaluation panic (see C42 for which do). -/
def Die.Evaluates (asz : Nat) (d : Die) : Prop := ∀ re ∈ d.locEntries, (evaluateSimple asz re.2).isSome

/-- A piece in memory (not a value) at a fixed address: the address, and the size in bits. -/
def Piece.fixed (p : Piece) : Option (Nat × Option Nat) :=
  match p.isValue, p.location with
  | false, .address (some a) => some (a, p.bitSize)
  | _, _ => none

/-- The first of the pieces that is in memory at a fixed address. -/
def Die.firstFixed (asz : Nat) (d : Die) : Option (Nat × Option Nat) := ((d.pieces asz).filterMap fun p => Piece.fixed p.2).head?

/-- Its address. -/
def Die.fixedAddr (asz : Nat) (d : Die) : Option Nat := (d.firstFixed asz).map fun p => p.1

/-- Its size, in whole bytes, if it is given. -/
def Die.fixedBytes (asz : Nat) (d : Die) : Option Nat := (d.firstFixed asz).bind fun p => p.2.map fun bits => (bits + 7) / 8

/-! ### Entries that add to an inherited list -/

/-- `ys` is `xs` with one entry taken into account: the first element that is at the entry's origin is
changed in place; if there is no such element, or no origin, an element is added at the end. -/
def Joined {α : Type} (off : α → Option Nat) (origin : Option Nat) (New : α → Prop) (Upd : α → α → Prop) (xs ys : List α) : Prop :=
  (∃ o pre x y post, origin = some o ∧ xs = pre ++ x :: post ∧ ys = pre ++ y :: post ∧ off x = some o ∧
      (∀ z ∈ pre, off z ≠ some o) ∧ Upd x y) ∨
  ((∀ o, origin = some o → ∀ z ∈ xs, off z ≠ some o) ∧ ∃ y, ys = xs ++ [y] ∧ New y)

/-- The parameter is just what the entry says. -/
structure NewParam (asz : Nat) (d : Die) (p : Parameter) : Prop where
  offset : p.offset = some d.offset
  name : p.name = d.strAttr .name
  ty : p.ty = d.lastOf .type Val.offset
  locations : p.locations = d.pieces asz

/-- The parameter `q` is `p`, except for what the entry states; locations are added. -/
structure ParamUpdate (asz : Nat) (d : Die) (p q : Parameter) : Prop where
  offset : q.offset = p.offset
  name : q.name = (d.strAttr .name).or p.name
  ty : q.ty = (d.lastOf .type Val.offset).or p.ty
  locations : q.locations = p.locations ++ d.pieces asz

/-- An entry for a parameter is taken into account. -/
def ParamJoin (asz : Nat) (d : Die) : List Parameter → List Parameter → Prop :=
  Joined Parameter.offset (d.lastOf .abstractOrigin Val.offset) (NewParam asz d) (ParamUpdate asz d)

/-- The parameter of a function type or signature (no locations) is just what the entry says. -/
structure NewParamType (d : Die) (p : ParameterType) : Prop where
  offset : p.offset = some d.offset
  name : p.name = d.strAttr .name
  ty : p.ty = d.lastOf .type Val.offset

/-- The parameter `q` is `p`, except for what the entry states. -/
structure ParamTypeUpdate (d : Die) (p q : ParameterType) : Prop where
  offset : q.offset = p.offset
  name : q.name = (d.strAttr .name).or p.name
  ty : q.ty = (d.lastOf .type Val.offset).or p.ty

/-- The local variable is just what the entry says. -/
structure NewVar (asz : Nat) (d : Die) (v : LocalVariable) : Prop where
  offset : v.offset = some d.offset
  name : v.name = d.strAttr .name
  ty : v.ty = d.lastOf .type Val.offset
  source : SourceSays d v.source
  address : v.address = d.fixedAddr asz
  size : v.size = d.fixedBytes asz
  locations : v.locations = d.pieces asz

/-- The local variable `w` is `v`, except for what the entry states; locations are added. The source
is taken as a whole, from the entry if it names a file. -/
structure VarUpdate (asz : Nat) (d : Die) (v w : LocalVariable) : Prop where
  offset : w.offset = v.offset
  name : w.name = (d.strAttr .name).or v.name
  ty : w.ty = (d.lastOf .type Val.offset).or v.ty
  sourceOwn : (d.lastOf .declFile Val.fileName).getD none ≠ none → SourceSays d w.source
  sourceOld : (d.lastOf .declFile Val.fileName).getD none = none → w.source = v.source
  address : w.address = (d.fixedAddr asz).or v.address
  size : w.size = (d.fixedBytes asz).or v.size
  locations : w.locations = v.locations ++ d.pieces asz

/-- An entry for a local variable is taken into account. -/
def VarJoin (asz : Nat) (d : Die) : List LocalVariable → List LocalVariable → Prop :=
  Joined LocalVariable.offset (d.lastOf .abstractOrigin Val.offset) (NewVar asz d) (VarUpdate asz d)

/-- The entries are taken into account one after the other. -/
inductive Steps {α σ : Type} (R : α → σ → σ → Prop) : List α → σ → σ → Prop
  | nil {s} : Steps R [] s s
  | cons {d ds s t u} : R d s t → Steps R ds t u → Steps R (d :: ds) s u

/-! ### Scopes -/

mutual
/-- The entries in the scope of a function: an entry itself, or the entries in a lexical block. -/
def scopeDies : Die → List Die
  | .node o tag attrs cs => if tag = .lexicalBlock then scopeAll cs else [.node o tag attrs cs]
/-- Of a list of entries. -/
def scopeAll : List Die → List Die
  | [] => []
  | d :: ds => scopeDies d ++ scopeAll ds
end

/-- The entries with a tag. -/
def tagged (t : Tag) (ds : List Die) : List Die := ds.filter fun d => d.tag = t

/-- The call sites. -/
def callSites (ds : List Die) : List Die := ds.filter fun d => d.tag = .callSite false ∨ d.tag = .callSite true

/-- What a function starts with: the parameters and variables of its abstract origin, if that can be
found; nothing otherwise. -/
def Inherits (lk : Lookup) (origin : Option Nat) (ps : List Parameter) (vs : List LocalVariable) : Prop :=
  (∃ o asz d, origin = some o ∧ lk o = some (asz, d) ∧
      Steps (ParamJoin asz) (tagged .formalParameter d.children) [] ps ∧
      Steps (VarJoin asz) (tagged .variable (scopeAll d.children)) [] vs) ∨
  ((∀ o, origin = some o → lk o = none) ∧ ps = [] ∧ vs = [])

/-! ### Inlined calls -/

/-- `DW_AT_high_pc` of an inlined call given as a size. -/
def Val.sizeOf : Val → Option Nat
  | .udata n => some n
  | _ => none

/-- The code of an inlined call, according to the attributes of its entry. -/
def Die.inlinedRanges (d : Die) : List Range :=
  match (d.last .ranges).bind Val.rangesOf with
  | some rs => rs.filter fun r => r.lo < r.hi
  | none =>
    match d.lastOf .highPc Val.sizeOf, (d.last .lowPc).bind Val.addr, (d.lastOf .highPc Val.highAddr).getD none with
    | some n, some lo, _ => [⟨lo, lo + n⟩]
    | none, some lo, some hi => if lo < hi then [⟨lo, hi⟩] else []
    | _, _, _ => []

/-- The origin of an inlined function. -/
def InlinedFunction.origin' : InlinedFunction → Option Nat | .mk o _ _ _ _ _ _ _ => o
/-- Its size. -/
def InlinedFunction.size' : InlinedFunction → Option Nat | .mk _ s _ _ _ _ _ _ => s
/-- Its code. -/
def InlinedFunction.ranges' : InlinedFunction → List Range | .mk _ _ r _ _ _ _ _ => r
/-- Where it was called. -/
def InlinedFunction.callSource' : InlinedFunction → Source | .mk _ _ _ _ _ _ _ s => s

/-- The record describes the inlined call of an entry: the origin and place of the call, the
parameters and variables of the origin with what the entry adds, and, in turn, every call inlined in
it and every other call it makes, in order. -/
inductive InlinedOf (lk : Lookup) (asz : Nat) : Die → InlinedFunction → Prop
  | mk {d f ps vs} : InlinedFunction.origin' f = d.lastOf .abstractOrigin Val.offset →
      CallSays d (InlinedFunction.callSource' f) →
      Inherits lk (d.lastOf .abstractOrigin Val.offset) ps vs →
      Steps (ParamJoin asz) (tagged .formalParameter d.children) ps f.parameters →
      Steps (VarJoin asz) (tagged .variable (scopeAll d.children)) vs f.variables →
      All2 (InlinedOf lk asz) (tagged .inlinedSubroutine (scopeAll d.children)) f.inlined →
      All2 (CallOf lk asz) (callSites (scopeAll d.children)) f.calls →
      InlinedOf lk asz d f

/-- The details describe the function of an entry. -/
structure DetailsOf (lk : Lookup) (asz : Nat) (d : Die) (r : FunctionDetails) : Prop where
  own : ∃ ps vs, Inherits lk (d.lastOf .abstractOrigin Val.offset) ps vs ∧
      Steps (ParamJoin asz) (tagged .formalParameter d.children) ps r.parameters ∧
      Steps (VarJoin asz) (tagged .variable (scopeAll d.children)) vs r.variables
  inlined : All2 (InlinedOf lk asz) (tagged .inlinedSubroutine (scopeAll d.children)) r.inlined
  calls : All2 (CallOf lk asz) (callSites (scopeAll d.children)) r.calls

end Verif.Dwarf
