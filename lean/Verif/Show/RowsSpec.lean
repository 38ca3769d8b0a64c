import Verif.Show.FnSpec
import Verif.Show.FactsSpec
/-!
# What the listing of a function should say

A listing is a sequence of rows; a row has a depth, a label (or none) and a text. The definitions
here say which rows the listing of a function consists of, and what they read. They do not use the
printing functions of the model. Numbers are written by `dec` and `hex`; `C83_numbers` and `C83_hex`
say that these are the decimal and hexadecimal notation.
-/
namespace Verif.Show
open Verif.Print Verif.Item Verif.Namespace Verif.Types Verif.Opts Verif.Range Verif.Frame

/-! ## Rows -/

/-- A row of a listing. -/
structure Row where
  depth : Nat
  label : Str
  text : Str
deriving DecidableEq, Repr

/-- The row one level further down. -/
def Row.deeper (r : Row) : Row := { r with depth := r.depth + 1 }

/-- The line for a row in a listing that starts at level `i`. -/
def Row.line (x : DiffPrefix) (i : Nat) (r : Row) : Line := .line x (i + r.depth) r.label r.text

/-- A labelled text; nothing if there is no text. -/
def oneRow (label text : Str) : List Row := if text = [] then [] else [⟨0, label, text⟩]

/-- A section: a heading with rows below it; nothing if there are no rows. -/
def under (label : Str) (rows : List Row) : List Row :=
  if rows = [] then [] else ⟨0, label, []⟩ :: rows.map Row.deeper

/-- An entry of a list: a text with rows below it. -/
def entry (text : Str) (rows : List Row) : List Row := oneRow [] text ++ rows.map Row.deeper

/-- Rows that are only there under a condition. -/
def shownIf (b : Bool) (rows : List Row) : List Row := if b then rows else []

/-- The rows are those of the elements of the list, one after the other. -/
def Each {α : Type} (R : α → List Row → Prop) (l : List α) (rows : List Row) : Prop :=
  ∃ parts, All2 R l parts ∧ rows = parts.flatten

/-- The number written with these hexadecimal digits. -/
def hexValue (s : Str) : Nat := s.foldl (fun n c => 16 * n + (if c ≤ 57 then c - 48 else c - 87)) 0

/-- `s` is the number `n` in hexadecimal, with small letters. -/
structure Hexadecimal (s : Str) (n : Nat) : Prop where
  nonempty : s ≠ []
  digits : ∀ c ∈ s, (48 ≤ c ∧ c ≤ 57) ∨ (97 ≤ c ∧ c ≤ 102)
  value : hexValue s = n

/-! ## Texts -/

/-- An address. -/
def at0x (a : Nat) : Str := k "0x" ++ hex a

/-- The size in brackets. -/
def sizeBracket : Option Nat → Str
  | some n => k "[" ++ dec n ++ k "]"
  | none => k "[??]"

/-- First and last address of a range. -/
def spanText (r : Range) : Str := if r.lo < r.hi then at0x r.lo ++ k "-" ++ at0x (r.hi - 1) else at0x r.lo

/-- First and last address and the number of bytes. -/
def spanSizeText (r : Range) : Str :=
  if r.lo < r.hi then spanText r ++ k " (" ++ dec (r.hi - r.lo) ++ k ")" else at0x r.lo

/-- The name of a register, or its number. -/
def registerText (s : FnSide) (r : Nat) : Str := (s.regName r).getD (k "r" ++ dec r)

/-- A signed offset; nothing for 0. -/
def signedHex (o : Int) : Str :=
  if o = 0 then [] else if o < 0 then k "-0x" ++ hex o.natAbs else k "+0x" ++ hex o.natAbs

/-- A place where a value is. -/
def placeText (s : FnSide) : Location → Str
  | .empty => []
  | .literal v => at0x v
  | .register r => registerText s r
  | .registerOffset r o => registerText s r ++ signedHex o
  | .frameOffset o => k "frame" ++ signedHex o
  | .cfaOffset o => k "cfa" ++ signedHex o
  | .address (some a) => at0x a
  | .address none => at0x 0
  | .tlsOffset o => k "tls+" ++ at0x o
  | .other => k "<other>"

/-- The qualified name of a function. -/
def calledText (f : Function) : Str := titled f.ns f.name

/-- What a call calls. -/
def targetText : Option CallOrigin → Str
  | none => []
  | some (.direct f) => k " -> " ++ calledText f
  | some (.indirect (.variable_ v)) => k " -> indirect(global:" ++ v.name.getD (k "<unknown>") ++ k ")"
  | some (.indirect (.localVariable _)) => k " -> indirect(local variable)"
  | some (.indirect (.parameter _)) => k " -> indirect(parameter)"
  | some (.indirect (.member _)) => k " -> indirect(member)"

/-- Where a call is: at its address, or before the address it returns to. -/
def callPlace : Option Nat → Option Nat → Str
  | some a, _ => at0x a
  | none, some _ => k "<before return>"
  | none, none => k "<unknown>"

/-- The kind of a call. -/
def kindText : CallKind → Str
  | .normal => k "call"
  | .tail => k "tail call"

/-- A parameter passed by a call: name and, if known, type. -/
def passedText (s : FnSide) (p : CallParameter) : Str :=
  p.name.getD (k "<unnamed>") ++
    (match p.ty with
      | some t => if fromOffset s.hash t = none then [] else k ": " ++ (s.tref t).text'
      | none => [])

/-- A call found in the code: the two addresses, unless addresses are ignored, and the function
called, else the name of the PLT entry, else (if addresses are ignored) the address. -/
def foundText (o : Options) (s : FnSide) (c : Nat × Nat) : Str :=
  (if o.ignoreFunctionAddress then [] else at0x c.1 ++ k " -> " ++ at0x c.2 ++ k " ") ++
    (match s.fnByAddress c.2, s.plt c.2 with
      | some f, _ => calledText f
      | none, some p => p
      | none, none => if o.ignoreFunctionAddress then at0x c.2 else [])

/-! ## Parameters and variables -/

/-- Some piece, not merely a value, is in register `r`. -/
def InRegister (locs : List (Range × Piece)) (r : Nat) : Prop :=
  ∃ range p, (range, p) ∈ locs ∧ p.isValue = false ∧ p.location = .register r

/-- The registers that hold it, each once, in the order of their numbers. -/
def RegisterRows (s : FnSide) (locs : List (Range × Piece)) (rows : List Row) : Prop :=
  ∃ rs : List Nat, (∀ r, r ∈ rs ↔ InRegister locs r) ∧ rs.Pairwise (· < ·) ∧
    rows = under (k "registers") (rs.flatMap fun r => oneRow [] (registerText s r))

/-- The places in the stack frame, each once, ordered by offset: one on the line of the label,
several in a section. -/
def FrameRows (locs : List (Range × Piece)) (rows : List Row) : Prop :=
  ∃ (ls : List FrameLocation) (ts : List Str), (∀ l, l ∈ ls ↔ StoredAt locs l.offset l.bitSize) ∧ ls.Pairwise Before ∧
    All2 Written ls ts ∧
    ((ts.length ≤ 1 ∧ rows = ts.flatMap fun t => oneRow (k "stack frame") t) ∨
      (1 < ts.length ∧ rows = under (k "stack frame") (ts.flatMap fun t => oneRow [] t)))

/-- A parameter: size, name, type and locations. -/
def ParameterRows (o : Options) (s : FnSide) (p : Parameter) (rows : List Row) : Prop :=
  ∃ regs frame, RegisterRows s p.locations regs ∧ FrameRows p.locations frame ∧
    rows = entry (sizeBracket (s.tsz p.ty) ++ k "\t" ++ (p.name.map (· ++ k ": ")).getD [] ++ (s.tref p.ty).text')
      (shownIf o.printVariableLocations (regs ++ frame))

/-- A local variable: size (its own, else that of its type), name, type, address and locations. -/
def LocalRows (m : Hidden) (o : Options) (s : FnSide) (v : LocalVariable) (rows : List Row) : Prop :=
  ∃ regs frame, RegisterRows s v.locations regs ∧ FrameRows v.locations frame ∧
    rows = entry (sizeBracket (v.size.or (s.tsz v.ty)) ++ k "\t" ++ v.name.getD (k "<anon>") ++ k ": " ++ (s.tref v.ty).text')
      (shownIf o.printVariableLocations
        (shownIf (!m.variableAddress) (oneRow (k "address") ((v.address.map at0x).getD [])) ++ regs ++ frame))

/-- The order in which local variables are listed. -/
def ListedAs (m : Hidden) (vs order : List LocalVariable) : Prop :=
  order.Perm vs ∧ (m.byName = false → order = vs) ∧
    (m.byName = true → order.Pairwise fun a b => compare a.name b.name ≠ .gt)

/-- Local variables. -/
def LocalsRows (m : Hidden) (o : Options) (s : FnSide) (vs : List LocalVariable) (rows : List Row) : Prop :=
  ∃ order, ListedAs m vs order ∧ Each (LocalRows m o s) order rows

/-! ## Calls -/

/-- The places of some pieces. -/
def placeRows (s : FnSide) (ps : List Piece) : List Row := ps.flatMap fun p => oneRow [] (placeText s p.location)

/-- A parameter passed by a call. -/
def passedRows (o : Options) (s : FnSide) (p : CallParameter) : List Row :=
  entry (passedText s p) (shownIf o.printVariableLocations
    (under (k "location") (placeRows s p.location) ++ under (k "value") (placeRows s p.value) ++
      under (k "data_location") (placeRows s p.dataLocation) ++
      under (k "data_value_location") (placeRows s p.dataValue)))

/-- A call site. -/
def siteRows (o : Options) (s : FnSide) (dir : Option Str) (c : FunctionCall) : List Row :=
  entry (kindText c.kind ++ k " at " ++ callPlace c.callAddress c.returnAddress ++ targetText c.origin)
    (oneRow (k "return address") ((c.returnAddress.map at0x).getD []) ++
      shownIf o.printVariableLocations (under (k "target") (placeRows s c.target)) ++
      shownIf o.printSource (oneRow (k "source") (c.source.print dir)) ++
      under (k "parameters") (c.parameters.flatMap (passedRows o s)))

/-! ## The stack frame -/

/-- What is written for an entry. -/
def frameEntryText (s : FnSide) (e : Entry) : Str :=
  decInt e.offset ++ sizeBracket e.size ++ k "\t" ++ e.name.getD (k "<anon>") ++ k ": " ++ (s.tref e.ty).text'

/-- The entries of the stack frame, each once, ordered by offset, and between two entries, where the
end of the first is known to be before the next, how many bytes are unknown. -/
def StackRows (s : FnSide) (d : FunctionDetails) (rows : List Row) : Prop :=
  ∃ l : List (Option Int × Entry), (∀ e, e ∈ l.map Prod.snd ↔ FrameEntry s.tsz d e) ∧ (l.map Prod.snd).Nodup ∧
    (l.map Prod.snd).Pairwise (fun a b => a.offset ≤ b.offset) ∧
    (∀ x, l[0]? = some x → x.1 = none) ∧
    (∀ (j : Nat) x y, l[j]? = some x → l[j + 1]? = some y → (∀ n, x.2.size = some n → n < 2 ^ 63) →
      y.1 = x.2.size.map fun n => x.2.offset + (n : Int)) ∧
    rows = l.flatMap fun v =>
      (match v.1 with
        | some e => if e < v.2.offset then
            oneRow [] (decInt e ++ k "[" ++ decInt (v.2.offset - e) ++ k "]\t<unknown>") else []
        | none => []) ++ oneRow [] (frameEntryText s v.2)

/-! ## Inlined functions -/

/-- An inlined function, with `d` levels of functions inlined into it: size, name, the source of the
call, parameters, variables, call sites and inlined functions. -/
def InlinedRows (m : Hidden) (o : Options) (s : FnSide) (dir : Option Str) : Nat → InlinedFunction → List Row → Prop
  | 0, f, rows => ∃ ps vs, Each (ParameterRows o s) f.parameters ps ∧ LocalsRows m o s f.variables vs ∧
      rows = entry (sizeBracket f.size ++ k "\t" ++ ((s.fnAt f.origin).map calledText).getD (k "<anon>"))
        (shownIf o.printSource (oneRow (k "call source") (f.callSource.print dir)) ++
          shownIf o.printInlinedFunctionParameters (under (k "parameters") ps) ++
          shownIf o.printFunctionVariables (under (k "variables") vs) ++
          shownIf o.printFunctionCalls (under (k "call sites") (f.calls.flatMap (siteRows o s dir))))
  | d + 1, f, rows => ∃ ps vs inl, Each (ParameterRows o s) f.parameters ps ∧ LocalsRows m o s f.variables vs ∧
      Each (InlinedRows m o s dir d) f.inlined inl ∧
      rows = entry (sizeBracket f.size ++ k "\t" ++ ((s.fnAt f.origin).map calledText).getD (k "<anon>"))
        (shownIf o.printSource (oneRow (k "call source") (f.callSource.print dir)) ++
          shownIf o.printInlinedFunctionParameters (under (k "parameters") ps) ++
          shownIf o.printFunctionVariables (under (k "variables") vs) ++
          shownIf o.printFunctionCalls (under (k "call sites") (f.calls.flatMap (siteRows o s dir))) ++ inl)

/-! ## Functions -/

/-- The address range of a function, or several. -/
def addressRows (rs : List Range) : List Row :=
  if 1 < rs.length then under (k "addresses") (rs.flatMap fun r => oneRow [] (spanSizeText r))
  else rs.flatMap fun r => oneRow (k "address") (spanText r)

/-- The return type, unless it is void: size and type. -/
def returnText (s : FnSide) (t : TypeOffset) : Str :=
  if fromOffset s.hash t = some .void then [] else sizeBracket (s.tsz t) ++ k "\t" ++ (s.tref t).text'

/-- The rows of a function, without instructions and without what `m` leaves out; `d` levels of
inlined functions are listed. -/
def FunctionRows (m : Hidden) (o : Options) (s : FnSide) (dir : Option Str) (d : Nat) (f : Function)
    (rows : List Row) : Prop :=
  ∃ ps vs frame inl calls,
    Each (ParameterRows o s) (s.details f).parameters ps ∧
    LocalsRows m o s (s.details f).variables vs ∧
    (o.printFunctionStackFrame = true → StackRows s (s.details f) frame) ∧
    (d ≠ 0 → Each (InlinedRows m o s dir (d - 1)) (s.details f).inlined inl) ∧
    (o.printFunctionCalls = true → All2 (fun r l => s.callsOf r = some l) f.ranges calls) ∧
    rows = entry (k "fn " ++ titled f.ns f.name)
      (shownIf (!m.linkageName) (oneRow (k "linkage name") (f.linkageName.getD [])) ++
        shownIf (!m.symbolName) (oneRow (k "symbol name") (f.symbolName.getD [])) ++
        shownIf o.printSource (oneRow (k "source") (f.source.print dir)) ++
        shownIf (!m.address) (addressRows f.ranges) ++
        shownIf (!m.size) (oneRow (k "size") ((f.size.map dec).getD [])) ++
        shownIf (!m.inline && f.inline) (oneRow (k "inline") (k "yes")) ++
        shownIf f.declaration (oneRow (k "declaration") (k "yes")) ++
        under (k "return type") (oneRow [] (returnText s f.returnType)) ++
        under (k "parameters") ps ++
        shownIf o.printFunctionVariables (under (k "variables") vs) ++
        shownIf o.printFunctionStackFrame (under (k "stack frame") frame) ++
        shownIf (d != 0) (under (k "inlined functions") inl) ++
        shownIf o.printFunctionCalls (under (k "call sites") ((s.details f).calls.flatMap (siteRows o s dir))) ++
        shownIf o.printFunctionCalls
          (under (k "calls") (calls.flatten.flatMap fun c => oneRow [] (foundText o s c))))

end Verif.Show
