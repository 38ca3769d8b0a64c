import Verif.Item.Model
import Verif.Base
/-!
# Model of `parser/src/file/mod.rs`: symbols, `<symtab>` and `<unknown>` units, lookups, segments

The `object` crate is not modelled: `RawSymbol` and `RawSection` are what its iterators yield.
Sums of an address and a size (`symbol.address + symbol.size`, `address + self.size`,
`segment.address + len`) are on `Nat`: no overflow.
-/
namespace Verif.File
open Verif.Item Verif.Types Verif.Range

/-- `Segment` (parser/src/file/mod.rs:696-701). -/
structure Segment where
  address : Nat
  bytes : List Nat
deriving DecidableEq, Repr

/-- `Section` (parser/src/file/mod.rs:705-710). -/
structure Section where
  name : Option Str := none
  segment : Option Str := none
  address : Option Nat := none
  size : Nat := 0
deriving DecidableEq, Repr

/-- `SymbolKind` (parser/src/file/mod.rs:740-745). -/
inductive SymbolKind
  | variable
  | function
deriving DecidableEq, Repr

/-- `Symbol` (parser/src/file/mod.rs:749-754). -/
structure Symbol where
  name : Option Str
  kind : SymbolKind
  address : Nat
  size : Nat
deriving DecidableEq, Repr

/-- `Relocation` (parser/src/file/mod.rs:787-791). -/
structure Relocation where
  address : Nat
  size : Nat
  symbol : Str
deriving DecidableEq, Repr

/-- `File` (parser/src/file/mod.rs:160-170), without `path`, `machine` and the reader of further
debuginfo `debug_info`. -/
structure File where
  segments : List Segment := []
  sections : List Section := []
  symbols : List Symbol := []
  relocations : List Relocation := []
  units : List CompUnit := []
deriving DecidableEq, Repr

/-- `object::SymbolKind` as far as parser/src/file/mod.rs:299-303 distinguishes it. -/
inductive RawKind
  | text | data | unknown | other
deriving DecidableEq, Repr

/-- A symbol as the `object` crate yields it (parser/src/file/mod.rs:286-305); `name = none` is
an error from `symbol.name()`. -/
structure RawSymbol where
  name : Option Str
  kind : RawKind
  address : Nat
  size : Nat
deriving DecidableEq, Repr

/-- One iteration of parser/src/file/mod.rs:286-313: `none` is an error, `some none` a skipped
symbol. -/
def readSymbol (s : RawSymbol) : Option (Option Symbol) :=
  if s.address = 0 then some none
  else if s.size = 0 then some none
  else
    let withKind (kind : SymbolKind) : Option (Option Symbol) :=
      s.name.map fun name => some ⟨some name, kind, s.address, s.size⟩
    match s.kind with
    | .text => withKind .function
    | .data | .unknown => withKind .variable
    | .other => some none

/-- parser/src/file/mod.rs:285-313. -/
def readSymbols (l : List RawSymbol) : Option (List Symbol) :=
  (l.mapM readSymbol).map fun l => l.filterMap id

/-- A section as the `object` crate yields it (parser/src/file/mod.rs:265-273). -/
structure RawSection where
  name : Option Str
  segment : Option (Option Str)
  address : Nat
  size : Nat
deriving DecidableEq, Repr

/-- One iteration of parser/src/file/mod.rs:265-282. -/
def readSection (s : RawSection) : Option (Option Section) := do
  let name ← s.name
  let segment ← s.segment
  let address := if s.address ≠ 0 then some s.address else none
  if s.size ≠ 0 then some (some ⟨some name, segment, address, s.size⟩) else some none

/-- parser/src/file/mod.rs:264-282. -/
def readSections (l : List RawSection) : Option (List Section) :=
  (l.mapM readSection).map fun l => l.filterMap id

/-- `symbols.binary_search_by(|x| x.address.cmp(&address))` (parser/src/file/mod.rs:459) as an
arbitrary function: its documented contract is `ValidSearch` in `Spec.lean`, and every theorem
holds for whichever matching index it returns. -/
abbrev Search := List Symbol → Nat → Option Nat

/-- The `while` of `get_symbol` (parser/src/file/mod.rs:460-462). -/
def walkBack (symbols : List Symbol) (address : Nat) : Nat → Nat
  | 0 => 0
  | i + 1 =>
    match symbols[i]? with
    | some s => if s.address = address then walkBack symbols address i else i + 1
    | none => i + 1

/-- The `for` of `get_symbol` (parser/src/file/mod.rs:463-475): the updated flags and `found`. -/
def markLoop (address : Nat) (name : Option Str) : List Symbol → List Bool → List Bool × Bool
  | s :: ss, u :: us =>
    if s.address ≠ address then (u :: us, false)
    else
      let (us', found) := markLoop address name ss us
      (true :: us', (s.name == name) || found)
  | _, us => (us, false)

/-- `File::get_symbol` (parser/src/file/mod.rs:453-480): the updated `used_symbols` and the
result. -/
def getSymbol (search : Search) (symbols : List Symbol) (used : List Bool) (address : Nat)
    (name : Option Str) : List Bool × Option Symbol :=
  match search symbols address with
  | some i =>
    let index := walkBack symbols address i
    let (us, found) := markLoop address name (symbols.drop index) (used.drop index)
    (used.take index ++ us, if found then none else symbols[index]?)
  | none => (used, none)

/-- The loop over further ranges (parser/src/file/mod.rs:376-378). -/
def markRanges (search : Search) (symbols : List Symbol) (used : List Bool) :
    List Range → List Bool
  | [] => used
  | r :: rs => markRanges search symbols (getSymbol search symbols used r.lo none).1 rs

/-- The body of the loop over functions (parser/src/file/mod.rs:363-380). -/
def normFunction (search : Search) (symbols : List Symbol) (used : List Bool) (f : Function) :
    List Bool × Function :=
  match f.address with
  | some a =>
    let (used, sym) := getSymbol search symbols used a (f.linkageName.or f.name)
    let f' := match sym with
      | some s => { f with symbolName := s.name }
      | none => f
    (markRanges search symbols used (f.ranges.drop 1), f')
  | none => (used, f)

/-- The body of the loop over variables (parser/src/file/mod.rs:382-393). -/
def normVariable (search : Search) (symbols : List Symbol) (used : List Bool) (v : Variable) :
    List Bool × Variable :=
  match v.address with
  | some a =>
    let (used, sym) := getSymbol search symbols used a (v.linkageName.or v.name)
    (used, match sym with
      | some s => { v with symbolName := s.name }
      | none => v)
  | none => (used, v)

/-- A `for x in &mut list` loop that threads `used_symbols`
(parser/src/file/mod.rs:362, 363, 382). -/
def mapUsed {α : Type} (f : List Bool → α → List Bool × α) : List Bool → List α → List Bool × List α
  | used, [] => (used, [])
  | used, x :: xs =>
    let (used, x) := f used x
    let (used, xs) := mapUsed f used xs
    (used, x :: xs)

/-- The body of the loop over units (parser/src/file/mod.rs:362-394). -/
def normUnit (search : Search) (symbols : List Symbol) (used : List Bool) (u : CompUnit) :
    List Bool × CompUnit :=
  let (used, fs) := mapUsed (normFunction search symbols) used u.functions
  let (used, vs) := mapUsed (normVariable search symbols) used u.variables
  (used, { u with functions := fs, variables := vs })

/-- The variable pushed for an unused symbol (parser/src/file/mod.rs:411-417). -/
def symVariable (s : Symbol) : Variable :=
  { name := s.name, linkageName := s.name, address := some s.address, size := some s.size }

/-- The function pushed for an unused symbol (parser/src/file/mod.rs:420-434). -/
def symFunction (s : Symbol) : Function :=
  { name := s.name, linkageName := s.name, address := some s.address, size := some s.size
    ranges := if s.size > 0 then [⟨s.address, s.address + s.size⟩] else [] }

/-- One iteration of parser/src/file/mod.rs:401-437. -/
def symtabStep (u : CompUnit) (su : Symbol × Bool) : CompUnit :=
  if su.2 then u
  else
    let u := { u with ranges := push u.ranges ⟨su.1.address, su.1.address + su.1.size⟩ }
    match su.1.kind with
    | .variable => { u with variables := u.variables ++ [symVariable su.1] }
    | .function => { u with functions := u.functions ++ [symFunction su.1] }

/-- parser/src/file/mod.rs:396-438. -/
def symtabUnit (symbols : List Symbol) (used : List Bool) : CompUnit :=
  let u := (symbols.zip used).foldl symtabStep { name := some (Str.ofString "<symtab>") }
  { u with ranges := sort u.ranges }

/-- `Section::address` (parser/src/file/mod.rs:724-729). -/
def Section.range (s : Section) : Option Range := s.address.map fun a => ⟨a, a + s.size⟩

/-- `File::ranges` (parser/src/file/mod.rs:541-553). -/
def unitRanges (tsz : TypeOffset → Option Nat) (us : List CompUnit) : RangeList :=
  sort (us.foldl (fun acc u => pushAll (pushAll acc (u.knownRanges tsz)) (u.unknownRanges tsz)) [])

/-- `File::unknown_ranges` (parser/src/file/mod.rs:557-570). -/
def unknownRanges (tsz : TypeOffset → Option Nat) (sections : List Section) (us : List CompUnit) :
    RangeList :=
  subtract (sort (pushAll [] (sections.filterMap (·.range)))) (unitRanges tsz us)

/-- `File::normalize` (parser/src/file/mod.rs:357-448). `tsz` is fixed throughout: normalising
changes no type. -/
def normalize (search : Search) (tsz : TypeOffset → Option Nat) (f : File) : File :=
  let symbols := stableSort (fun a b => decide (a.address ≤ b.address)) f.symbols
  let (used, units) := mapUsed (normUnit search symbols) (symbols.map fun _ => false) f.units
  let units := units ++ [symtabUnit symbols used]
  let unknown : CompUnit := { name := some (Str.ofString "<unknown>")
                              ranges := unknownRanges tsz f.sections units }
  { f with symbols := symbols, units := units ++ [unknown] }

/-- `File::function_size` (parser/src/file/mod.rs:573-579). -/
def File.functionSize (f : File) : Option Nat :=
  f.units.foldlM (fun s u => (u.functionSize).map (s + ·)) 0

/-- `File::variable_size` (parser/src/file/mod.rs:582-588). -/
def File.variableSize (tsz : TypeOffset → Option Nat) (f : File) : Option Nat :=
  f.units.foldlM (fun s u => (u.variableSize tsz).map (s + ·)) 0

/-- Outcome of a slice access. -/
inductive Slice
  | bytes (b : List Nat)
  | absent
  | panic
deriving DecidableEq, Repr

/-- `File::segment_bytes` (parser/src/file/mod.rs:495-506). `panic` is the underflow of
`range.end - range.begin` (debug) or the failing slice (release) for an inverted range. -/
def segmentBytes : List Segment → Range → Slice
  | [], _ => .absent
  | s :: ss, r =>
    if s.address ≤ r.lo && r.hi ≤ s.address + s.bytes.length then
      if r.lo ≤ r.hi then .bytes ((s.bytes.drop (r.lo - s.address)).take (r.hi - r.lo))
      else .panic
    else segmentBytes ss r

/-- `HashMap::insert` in a loop, followed by `get` (parser/src/file/mod.rs:629-691,
parser/src/function.rs:637-655): a later entry replaces an earlier one with the same key. -/
def hashOf {κ α : Type} [DecidableEq κ] (entries : List (κ × α)) : κ → Option α :=
  entries.foldl (fun m e => fun key => if key = e.1 then some e.2 else m key) (fun _ => none)

/-- `FileHash::functions_by_address` (parser/src/file/mod.rs:629-640). -/
def functionsByAddress (us : List CompUnit) : Nat → Option Function :=
  hashOf (us.flatMap fun u => u.functions.filterMap fun f => f.address.map fun a => (a, f))

/-- `FileHash::functions_by_offset` (parser/src/file/mod.rs:643-653). -/
def functionsByOffset (us : List CompUnit) : Option Nat → Option Function :=
  hashOf (us.flatMap fun u => u.functions.map fun f => (f.offset, f))

/-- `FileHash::variables_by_address` (parser/src/file/mod.rs:656-667). -/
def variablesByAddress (us : List CompUnit) : Nat → Option Variable :=
  hashOf (us.flatMap fun u => u.variables.filterMap fun v => v.address.map fun a => (a, v))

/-- `FileHash::variables_by_offset` (parser/src/file/mod.rs:670-680). -/
def variablesByOffset (us : List CompUnit) : Option Nat → Option Variable :=
  hashOf (us.flatMap fun u => u.variables.map fun v => (v.offset, v))

/-- `FileHash::types` (parser/src/file/mod.rs:683-691). -/
def typesByOffset (us : List CompUnit) : TypeOffset → Option TypeEntry :=
  hashOf (us.flatMap fun u => u.types.map fun t => (t.offset, t))

/-- `Function::from_offset` (parser/src/function.rs:88-96). -/
def functionFromOffset (us : List CompUnit) : Option Nat → Option Function
  | none => none
  | some o => functionsByOffset us (some o)

/-- `Variable::from_offset` (parser/src/variable.rs:61-69). -/
def variableFromOffset (us : List CompUnit) : Option Nat → Option Variable
  | none => none
  | some o => variablesByOffset us (some o)

end Verif.File
