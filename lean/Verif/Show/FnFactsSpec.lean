import Verif.Show.RowsSpec
/-!
# The same facts about two functions

`SameFunction` compares the data of two functions of two files; it does not use the printing
functions. What is said about a type is its size and the text written for it.
-/
namespace Verif.Show
open Verif.Print Verif.Item Verif.Namespace Verif.Types Verif.Opts Verif.Range Verif.Frame

/-- Some register with this name or number holds the variable. -/
def HeldIn (s : FnSide) (locs : List (Range × Piece)) (name : Str) : Prop :=
  ∃ r, InRegister locs r ∧ registerText s r = name

/-- The variable, or a part of it of so many bytes (rounded up), is stored at this offset in the frame. -/
def StoredBytes (locs : List (Range × Piece)) (o : Int) (bytes : Option Nat) : Prop :=
  ∃ bits, StoredAt locs o bits ∧ bytes = bits.map fun b => (b + 7) / 8

/-- The same registers and the same places in the stack frame. -/
structure SamePlaces (s s' : FnSide) (locs locs' : List (Range × Piece)) : Prop where
  registers : ∀ name, HeldIn s locs name ↔ HeldIn s' locs' name
  frame : ∀ o n, StoredBytes locs o n ↔ StoredBytes locs' o n

/-- The same type, as far as its size and what is written for it tell. -/
def SameWritten (s s' : FnSide) (t t' : TypeOffset) : Prop :=
  s.tsz t = s'.tsz t' ∧ (s.tref t).text' = (s'.tref t').text'

/-- The same facts about two parameters. -/
structure SameParameter (o : Options) (s s' : FnSide) (p p' : Parameter) : Prop where
  name : p.name = p'.name
  type : SameWritten s s' p.ty p'.ty
  places : o.printVariableLocations = true → SamePlaces s s' p.locations p'.locations

/-- The same facts about two local variables. -/
structure SameLocal (o : Options) (s s' : FnSide) (v v' : LocalVariable) : Prop where
  name : v.name = v'.name
  type : (s.tref v.ty).text' = (s'.tref v'.ty).text'
  size : v.size.or (s.tsz v.ty) = v'.size.or (s'.tsz v'.ty)
  address : o.printVariableLocations = true → o.ignoreVariableAddress = false → v.address = v'.address
  places : o.printVariableLocations = true → SamePlaces s s' v.locations v'.locations

/-- The same local variables, up to their order. -/
def SameLocals (o : Options) (s s' : FnSide) (vs vs' : List LocalVariable) : Prop :=
  ∃ order order', order.Perm vs ∧ order'.Perm vs' ∧ All2 (SameLocal o s s') order order'

/-- The same places, one after the other. -/
def SamePieces (s s' : FnSide) (l l' : List Piece) : Prop :=
  l.map (fun p => placeText s p.location) = l'.map (fun p => placeText s' p.location)

/-- What is written for the type of an argument, if it is known. -/
def argumentType (s : FnSide) (t : Option TypeOffset) : Option Str :=
  match t with
  | some t => if fromOffset s.hash t = none then none else some (s.tref t).text'
  | none => none

/-- The same facts about two arguments of a call. -/
structure SameArgument (o : Options) (s s' : FnSide) (p p' : CallParameter) : Prop where
  name : p.name = p'.name
  type : argumentType s p.ty = argumentType s' p'.ty
  location : o.printVariableLocations = true → SamePieces s s' p.location p'.location
  value : o.printVariableLocations = true → SamePieces s s' p.value p'.value
  dataLocation : o.printVariableLocations = true → SamePieces s s' p.dataLocation p'.dataLocation
  dataValue : o.printVariableLocations = true → SamePieces s s' p.dataValue p'.dataValue

/-- The same facts about two call sites. -/
structure SameSite (o : Options) (s s' : FnSide) (da db : Option Str) (c c' : FunctionCall) : Prop where
  kind : c.kind = c'.kind
  callAddress : c.callAddress = c'.callAddress
  returnAddress : c.returnAddress = c'.returnAddress
  called : targetText c.origin = targetText c'.origin
  target : o.printVariableLocations = true → SamePieces s s' c.target c'.target
  source : o.printSource = true → c.source.print da = c'.source.print db
  arguments : All2 (SameArgument o s s') c.parameters c'.parameters

/-- The name of the function an inlined call is of. -/
def originText (s : FnSide) (f : InlinedFunction) : Str := ((s.fnAt f.origin).map calledText).getD (k "<anon>")

/-- The same facts about two inlined functions, apart from what is inlined into them. -/
structure SameInlinedHere (o : Options) (s s' : FnSide) (da db : Option Str) (f f' : InlinedFunction) : Prop where
  size : f.size = f'.size
  called : originText s f = originText s' f'
  source : o.printSource = true → f.callSource.print da = f'.callSource.print db
  parameters : o.printInlinedFunctionParameters = true → All2 (SameParameter o s s') f.parameters f'.parameters
  variables : o.printFunctionVariables = true → SameLocals o s s' f.variables f'.variables
  sites : o.printFunctionCalls = true → All2 (SameSite o s s' da db) f.calls f'.calls

/-- The same facts about two inlined functions, and about what is inlined into them up to `d` levels. -/
def SameInlined (o : Options) (s s' : FnSide) (da db : Option Str) : Nat → InlinedFunction → InlinedFunction → Prop
  | 0, f, f' => SameInlinedHere o s s' da db f f'
  | d + 1, f, f' => SameInlinedHere o s s' da db f f' ∧ All2 (SameInlined o s s' da db d) f.inlined f'.inlined

/-- The same facts about two entries of stack frames. -/
structure SameEntry (s s' : FnSide) (e e' : Entry) : Prop where
  offset : e.offset = e'.offset
  size : e.size = e'.size
  name : e.name = e'.name
  type : (s.tref e.ty).text' = (s'.tref e'.ty).text'

/-- The same stack frame: what is in the one corresponds to what is in the other. -/
def SameFrame (s s' : FnSide) (d d' : FunctionDetails) : Prop :=
  ∃ l l' : List Entry, (∀ e, e ∈ l ↔ FrameEntry s.tsz d e) ∧ (∀ e, e ∈ l' ↔ FrameEntry s'.tsz d' e) ∧
    l.Nodup ∧ l'.Nodup ∧ All2 (SameEntry s s') l l'

/-- The same addresses: the same first one, and, unless both are empty, the same end. -/
def SameSpan (r r' : Range) : Prop := r.lo = r'.lo ∧ (r.lo < r.hi ∨ r'.lo < r'.hi → r.hi = r'.hi)

/-- The same return type. -/
def SameReturn (s s' : FnSide) (t t' : TypeOffset) : Prop :=
  (fromOffset s.hash t = some .void ↔ fromOffset s'.hash t' = some .void) ∧
    (fromOffset s.hash t ≠ some .void → SameWritten s s' t t')

/-- The same facts about two functions, as far as the options have them shown and compared; what is
inlined into them up to `d` levels. -/
structure SameFunction (o : Options) (s s' : FnSide) (da db : Option Str) (d : Nat) (f g : Function) : Prop where
  name : titled f.ns f.name = titled g.ns g.name
  linkageName : o.ignoreFunctionLinkageName = false → f.linkageName.getD [] = g.linkageName.getD []
  symbolName : o.ignoreFunctionSymbolName = false → f.symbolName.getD [] = g.symbolName.getD []
  source : o.printSource = true → f.source.print da = g.source.print db
  ranges : o.ignoreFunctionAddress = false → All2 SameSpan f.ranges g.ranges
  size : o.ignoreFunctionSize = false → f.size = g.size
  inline : o.ignoreFunctionInline = false → f.inline = g.inline
  declaration : f.declaration = g.declaration
  returnType : SameReturn s s' f.returnType g.returnType
  parameters : All2 (SameParameter o s s') (s.details f).parameters (s'.details g).parameters
  variables : o.printFunctionVariables = true → SameLocals o s s' (s.details f).variables (s'.details g).variables
  frame : o.printFunctionStackFrame = true → SameFrame s s' (s.details f) (s'.details g)
  inlined : d ≠ 0 → All2 (SameInlined o s s' da db (d - 1)) (s.details f).inlined (s'.details g).inlined
  sites : o.printFunctionCalls = true → All2 (SameSite o s s' da db) (s.details f).calls (s'.details g).calls
  calls : o.printFunctionCalls = true → ∃ la lb : List (List (Nat × Nat)),
    All2 (fun r l => s.callsOf r = some l) f.ranges la ∧ All2 (fun r l => s'.callsOf r = some l) g.ranges lb ∧
    All2 (fun c c' => foundText o s c = foundText o s' c' ∧ (o.ignoreFunctionAddress = false → c = c'))
      la.flatten lb.flatten

/-! ## When a listing can be read -/

/-- Registers, PLT entries and called functions have names, and what is written for a type does not
begin with a name and a colon. -/
structure ReadableFn (s : FnSide) : Prop where
  regs : ∀ r, s.regName r ≠ some []
  plt : ∀ a, s.plt a ≠ some []
  fns : ∀ a f, s.fnByAddress a = some f → titled f.ns f.name ≠ []
  types : ∀ t n r, Plain (some n) → (s.tref t).text' ≠ n ++ k ": " ++ r

/-- The names in call sites are names as in source code, and no location is empty. -/
structure ReadableCall (c : FunctionCall) : Prop where
  target : NoEmptyPiece c.target
  names : ∀ p ∈ c.parameters, Plain p.name
  pieces : ∀ p ∈ c.parameters, NoEmptyPiece p.location ∧ NoEmptyPiece p.value ∧ NoEmptyPiece p.dataLocation ∧
    NoEmptyPiece p.dataValue

/-- The names in a function and in everything inlined into it are names as in source code. -/
structure ReadableDetails (d : FunctionDetails) : Prop where
  parameters : ∀ p, ParamOf d p → Plain p.name
  variables : ∀ v, VarOf d v → Plain v.name
  calls : ∀ c, CallOf d c → ReadableCall c

end Verif.Show
