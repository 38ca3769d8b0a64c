import Verif.Show.Refs
import Verif.Ids.Model
/-!
# Model of the bloat report of `main/src/print/file.rs`

The disassembler is not modelled: `calls` is what `Code::calls` returns for a range. A `HashMap`
is modelled as a list of entries with distinct keys; its iteration order is a parameter `iter`
that may permute the entries in any way.
-/
namespace Verif.Bloat
open Verif.Item Verif.Print Verif.Show Verif.Ids Verif.Range

/-- `Call` (main/src/code.rs:26-30). -/
structure Call where
  frm : Nat
  to : Nat
deriving DecidableEq, Repr

/-- `FunctionId` (main/src/print/file.rs:750-756). -/
structure FunctionId where
  name : Str
  source : Str
deriving DecidableEq, Repr

/-- `FunctionTotal` (main/src/print/file.rs:758-762) with its `Default`. -/
structure FunctionTotal where
  size : Nat := 0
  functions : List (Nat × Nat) := []
deriving DecidableEq, Repr

/-- `Caller` (main/src/print/file.rs:764-768). -/
structure Caller where
  unitIndex : Nat
  functionIndex : Nat
  address : Nat
deriving DecidableEq, Repr

/-- `map.entry(key).or_insert(init)` followed by an update of the entry
(main/src/print/file.rs:786-790, 795-800). -/
def upsert {κ α : Type} [DecidableEq κ] (key : κ) (init : α) (f : α → α) :
    List (κ × α) → List (κ × α)
  | [] => [(key, f init)]
  | (k, v) :: m => if k = key then (k, f v) :: m else (k, v) :: upsert key init f m

/-- `map.get(key)` (main/src/print/file.rs:872). -/
def lookup {κ α : Type} [DecidableEq κ] (m : List (κ × α)) (key : κ) : Option α :=
  (m.find? (fun e => e.1 = key)).map (·.2)

/-- The two enumerating loops (main/src/print/file.rs:778-779): every function with its position. -/
def positions (us : List CompUnit) : List ((Nat × Nat) × CompUnit × Function) :=
  us.zipIdx.flatMap fun (u, ui) => u.functions.zipIdx.map fun (f, fi) => ((ui, fi), u, f)

/-- The key of a function (main/src/print/file.rs:781-785): its name and source, printed to byte
buffers. -/
def functionId (u : CompUnit) (f : Function) : FunctionId :=
  ⟨(fnRef 0 f).text', f.source.print u.dir⟩

/-- The two maps that `bloat_index` builds. -/
structure Maps where
  totals : List (FunctionId × FunctionTotal) := []
  callers : List (Nat × List Caller) := []

/-- Adding one call (main/src/print/file.rs:795-800). -/
def addCall (pos : Nat × Nat) (m : List (Nat × List Caller)) (c : Call) : List (Nat × List Caller) :=
  upsert c.to [] (· ++ [⟨pos.1, pos.2, c.frm⟩]) m

/-- The body of the loops of `bloat_index` (main/src/print/file.rs:780-804). `calls = none` is a
file without code. The addition of sizes is on `Nat`. -/
def step (calls : Option (Range → List Call)) (m : Maps) (x : (Nat × Nat) × CompUnit × Function) :
    Maps :=
  match x.2.2.size with
  | some size =>
    { totals := upsert (functionId x.2.1 x.2.2) {}
        (fun t => ⟨t.size + size, t.functions ++ [x.1]⟩) m.totals
      callers := match calls with
        | some calls => (x.2.2.ranges.flatMap calls).foldl (addCall x.1) m.callers
        | none => m.callers }
  | none => m

/-- The maps built by `bloat_index` (main/src/print/file.rs:774-806). -/
def maps (calls : Option (Range → List Call)) (us : List CompUnit) : Maps :=
  (positions us).foldl (step calls) {}

/-- `BloatIndex` (main/src/print/file.rs:744-748). -/
structure Index where
  ids : List Id
  totals : List (FunctionId × FunctionTotal)
  callers : List (Nat × List Caller)

/-- `bloat_index` (main/src/print/file.rs:770-816): the totals in hash order, stably sorted by
decreasing size. -/
def bloatIndex (iter : List (FunctionId × FunctionTotal) → List (FunctionId × FunctionTotal))
    (calls : Option (Range → List Call)) (us : List CompUnit) : Index where
  ids := (assignIds us).ids
  totals := stableSort (fun a b => decide (b.2.size ≤ a.2.size)) (iter (maps calls us).totals)
  callers := (maps calls us).callers

/-- A function of the file by position (`&file.units()[i].functions()[j]`,
main/src/print/file.rs:842-843, 876-877); `none` is an index out of bounds panic. -/
def at? (us : List CompUnit) (pos : Nat × Nat) : Option (CompUnit × Function) := do
  let u ← us[pos.1]?
  let f ← u.functions[pos.2]?
  pure (u, f)

/-- A source after a name (main/src/print/file.rs:833-836, 880-885). -/
def spaced (source : Str) : Val :=
  if source ≠ [] then .seq (.text [32]) (.text source) else .nil

/-- One line of `bloat_callers` (main/src/print/file.rs:874-887); `store` holds the ids of the
items. -/
def callerLine (us : List CompUnit) (store : Id → Nat) (c : Caller) : Option P := do
  let (u, f) ← at? us (c.unitIndex, c.functionIndex)
  pure (.line [] (.seq (fnRef (store (.function c.unitIndex c.functionIndex)) f)
    (spaced (f.source.print u.dir))))

/-- `bloat_callers` (main/src/print/file.rs:866-891). -/
def bloatCallers (us : List CompUnit) (store : Id → Nat) (idx : Index) (address : Nat) : Option P :=
  match lookup idx.callers address with
  | some calls => (calls.mapM (callerLine us store)).map P.seqs
  | none => some .skip

/-- The body of the inner loop of `bloat` (main/src/print/file.rs:842-856); `none` is a panic, in
particular of `address().unwrap()` or `size().unwrap()`. -/
def bloatFunction (us : List CompUnit) (store : Id → Nat) (idx : Index) (pos : Nat × Nat) : Option P := do
  let (u, f) ← at? us pos
  let address ← f.address
  let size ← f.size
  let callers ← bloatCallers us store idx address
  pure (.id (store (.function pos.1 pos.2))
    (.line [] (.seq (.text (dec size ++ [32])) (.text u.printRef))) callers)

/-- The body of the outer loop of `bloat` (main/src/print/file.rs:828-860). -/
def bloatGroup (us : List CompUnit) (store : Id → Nat) (idx : Index) (e : FunctionId × FunctionTotal) :
    Option P := do
  let fs ← e.2.functions.mapM (bloatFunction us store idx)
  pure (.indent true
    (.line [] (.seq (.text (dec e.2.size ++ [32])) (.seq (.text e.1.name) (spaced e.1.source))))
    (P.seqs fs))

/-- `bloat` (main/src/print/file.rs:818-864). -/
def bloat (us : List CompUnit) (store : Id → Nat) (idx : Index) : Option P :=
  (idx.totals.mapM (bloatGroup us store idx)).map P.seqs

/-- What `bloat_id` does: a panic, nothing, or output. -/
inductive IdResult
  | panic
  | nothing
  | shown (p : P)
deriving DecidableEq, Repr

/-- `bloat_id` (main/src/print/file.rs:893-915). -/
def bloatId (us : List CompUnit) (store : Id → Nat) (idx : Index) (n : Nat) : IdResult :=
  match idx.ids[n]? with
  | some (.function u f) =>
    match at? us (u, f) with
    | some (_, fn) =>
      match fn.address with
      | some a =>
        match bloatCallers us store idx a with
        | some p => .shown p
        | none => .panic
      | none => .panic
    | none => .nothing
  | _ => .nothing

end Verif.Bloat
