import Verif.Show.FnModel
import Verif.File.Summary
import Verif.Order.Model
/-!
# Model of the listing and the diff of a file

`main/src/print/file.rs` (`print`, `diff`), `unit.rs`, `variable.rs` and `section.rs`. As in
`Verif.Show.TypeModel`, `none` stands for: the code does not return, panics or returns an error. The
argument `n` bounds the depth of the recursion through types and inlined functions.
-/
namespace Verif.Show
open Verif.Print Verif.Item Verif.Namespace Verif.Types Verif.Path Verif.Opts Verif.Merge Verif.Range
  Verif.File Verif.Order

/-- What printing reads of one file: `File::path` (parser/src/file/mod.rs:484-486), sections and
units, the ids of variables and units, and what types and functions need. Simplification: an id is a
function of the contents of the item. -/
structure FileSide extends FnSide where
  path : Str
  file : File
  varId : Variable → Nat
  unitId : CompUnit → Nat

/-- What a diff reads of its two files; `same` and `heap` as in `Pair`. -/
structure FilePair where
  a : FileSide
  b : FileSide
  same : Ty → Ty → Bool
  heap : Heap

/-- The part needed for functions. -/
def FilePair.toFnPair (c : FilePair) : FnPair := ⟨c.a.toFnSide, c.b.toFnSide, c.same, c.heap⟩

/-! ### Lists of items -/

/-- `PrintState::sort_list` (main/src/print/mod.rs:365-371). -/
def sortListP (cmpBy : α → γ → α → γ → Res Ordering) (h : γ) (print : α → Option P) (l : List α) :
    Option P := do
  let l ← printOrder cmpBy h l
  listP print l

/-- The body of the loop of `DiffState::sort_list` (main/src/print/mod.rs:833-849). -/
def sortItemD (o : Options) (print print' : α → Option P) (diff : α → α → Option D) :
    MergeResult α α → Option D
  | .both a b => (diff a b).map .printIfDiff
  | .left a => if o.ignoreDeleted then some .skip else (print a).map .prefixDelete
  | .right b => if o.ignoreAdded then some .skip else (print' b).map .prefixAdd

/-- `DiffState::sort_list` (main/src/print/mod.rs:818-851). -/
def sortListD (o : Options) (cmpBy : α → γ → α → γ → Res Ordering) (ha hb : γ)
    (print print' : α → Option P) (diff : α → α → Option D) (items : List (MergeResult α α)) : Option D := do
  let items ← diffOrder cmpBy ha hb items
  (items.mapM (sortItemD o print print' diff)).map D.seqs

/-! ### Variables -/

/-- `print_name` (main/src/print/variable.rs:97-106). -/
def variableName (s : Side) (v : Variable) : Val :=
  vals [.text (k "var "), nsOpt v.ns, .name (v.name.getD anon), .text (k ": "), s.tref v.ty]

/-- `Variable::print_body` (main/src/print/variable.rs:23-33) with 108-148. -/
def variableBodyP (o : Options) (s : Side) (dir : Option Str) (v : Variable) : P :=
  .seqs [.line (k "linkage name") (strVal v.linkageName), .line (k "symbol name") (strVal v.symbolName),
    sourceP o dir v.source, .line (k "address") (addressVal v.address),
    .line (k "size") (sizeVal (v.byteSize s.tsz)), .line (k "declaration") (yesVal v.declaration)]

/-- `Variable::diff_body` (main/src/print/variable.rs:39-70). -/
def variableBodyD (o : Options) (a b : Side) (da db : Option Str) (v w : Variable) : D :=
  .seqs [
    .ignoreDiff o.ignoreVariableLinkageName (.line (k "linkage name") (strVal v.linkageName) (strVal w.linkageName)),
    .ignoreDiff o.ignoreVariableSymbolName (.line (k "symbol name") (strVal v.symbolName) (strVal w.symbolName)),
    sourceD o da v.source db w.source,
    .ignoreDiff o.ignoreVariableAddress (.line (k "address") (addressVal v.address) (addressVal w.address)),
    .line (k "size") (sizeVal (v.byteSize a.tsz)) (sizeVal (w.byteSize b.tsz)),
    .line (k "declaration") (yesVal v.declaration) (yesVal w.declaration)]

/-- `variable::print` (main/src/print/variable.rs:73-81) with `print_header` (19-21). -/
def variableP (o : Options) (s : FileSide) (dir : Option Str) (v : Variable) : P :=
  .seq (.id (s.varId v) (.line [] (variableName s.toSide v)) (variableBodyP o s.toSide dir v)) .lineBreak

/-- `variable::diff` (main/src/print/variable.rs:83-95) with `diff_header` (35-37). -/
def variableD (o : Options) (c : FilePair) (da db : Option Str) (v w : Variable) : D :=
  .seq (.indent true (.line [] (variableName c.a.toSide v) (variableName c.b.toSide w))
    (variableBodyD o c.a.toSide c.b.toSide da db v w)) .lineBreak

/-! ### Sections and ranges -/

/-- `print_name` (main/src/print/section.rs:8-17). -/
def sectionName (x : Section) : Val :=
  vals [match x.segment with
      | some s => .text (s ++ k ",")
      | none => .nil,
    .text (x.name.getD (k "<anon-section>"))]

/-- `impl Print for Section`, `print` (main/src/print/section.rs:29-37) with `print_address` (19-24). -/
def sectionP (x : Section) : P :=
  .indent true (.line [] (sectionName x))
    (.seq (.line (k "address") (rangeVal x.range)) (P.fieldU64 (k "size") x.size))

/-- `Section::diff` (main/src/print/section.rs:39-47). -/
def sectionD (x y : Section) : Option D := do
  let size ← D.fieldU64 (k "size") x.size y.size
  some (.indent true (.line [] (sectionName x) (sectionName y))
    (.seq (.line (k "address") (rangeVal x.range) (rangeVal y.range)) size))

/-- `Section::diff_cost` (main/src/print/section.rs:55-63). -/
def sectionCost (x y : Section) : Nat := if x.name = y.name ∧ x.segment = y.segment then 0 else 2

/-- `state.list(&(), ranges)` (main/src/print/unit.rs:110, 117, file.rs:355); the element is
main/src/print/range.rs:33-35. -/
def rangeItemsP (rs : List Range) : P := .seqs (rs.map fun r => .line [] (.text (rangeSizeText r)))

/-- `state.ord_list` of ranges (main/src/print/unit.rs:221, 235, file.rs:496); the element is
main/src/print/range.rs:37-39. -/
def rangeItemsD (ra rb : List Range) : D :=
  D.ofItems (fun r => .line [] (.text (rangeSizeText r))) (fun r => .line [] (.text (rangeSizeText r)))
    (fun x y => .line [] (.text (rangeSizeText x)) (.text (rangeSizeText y)))
    (merged cmpRange ra rb (ra.length + rb.length))

/-! ### Units -/

/-- The value of the header (main/src/print/unit.rs:94-99, 202-207). -/
def unitName (u : CompUnit) : Val := .text (k "unit " ++ u.printRef)

/-- `print_address` (main/src/print/unit.rs:323-330). -/
def unitAddress (u : CompUnit) : Option Range → Val
  | some r => .text (rangeText r)
  | none => addressVal u.lowPc

/-- A size that is only shown when it is not 0 (main/src/print/unit.rs:121-134). -/
def sizeLineP (l : Str) (n : Nat) : P := if n ≠ 0 then P.fieldU64 l n else .skip

/-- A pair of sizes that is only shown when one is not 0 (main/src/print/unit.rs:239-255). -/
def sizeLineD (l : Str) (a b : Nat) : Option D := if a ≠ 0 ∨ b ≠ 0 then D.fieldU64 l a b else some .skip

/-- The addresses of a unit (main/src/print/unit.rs:107-119). -/
def unitRangesP (s : Side) (u : CompUnit) : P :=
  let rs := u.knownRanges s.tsz
  .seq (if rs.length > 1 then .field true (k "addresses") (rangeItemsP rs)
    else .line (k "address") (unitAddress u rs.head?))
    (.field true (k "unknown addresses") (rangeItemsP (u.unknownRanges s.tsz)))

/-- The diff of the addresses of a unit (main/src/print/unit.rs:216-237). -/
def unitRangesD (a b : Side) (u v : CompUnit) : D :=
  let ra := u.knownRanges a.tsz
  let rb := v.knownRanges b.tsz
  .seq (if ra.length > 1 ∨ rb.length > 1 then .field true (k "addresses") (rangeItemsD ra rb)
    else .line (k "address") (unitAddress u ra.head?) (unitAddress v rb.head?))
    (.field true (k "unknown addresses") (rangeItemsD (u.unknownRanges a.tsz) (v.unknownRanges b.tsz)))

/-- `print_unit` (main/src/print/unit.rs:104-138). -/
def unitPartP (o : Options) (s : Side) (u : CompUnit) : Option P := do
  let f ← u.functionSize
  let v ← u.variableSize s.tsz
  let w ← size? (u.unknownRanges s.tsz)
  some (.seqs [if o.printUnitAddress then unitRangesP s u else .skip, sizeLineP (k "fn size") f,
    sizeLineP (k "var size") v, sizeLineP (k "unknown size") w, .lineBreak])

/-- `diff_unit` (main/src/print/unit.rs:212-259). -/
def unitPartD (o : Options) (a b : Side) (u v : CompUnit) : Option D := do
  let fa ← u.functionSize
  let fb ← v.functionSize
  let va ← u.variableSize a.tsz
  let vb ← v.variableSize b.tsz
  let wa ← size? (u.unknownRanges a.tsz)
  let wb ← size? (v.unknownRanges b.tsz)
  let f ← sizeLineD (k "fn size") fa fb
  let x ← sizeLineD (k "var size") va vb
  let w ← sizeLineD (k "unknown size") wa wb
  some (.seqs [if o.printUnitAddress then unitRangesD a b u v else .skip, f, x, w, .lineBreak])

/-- `print_types` (main/src/print/unit.rs:140-146). -/
def unitTypesP (o : Options) (s : Side) (n : Nat) (u : CompUnit) : Option P :=
  whenP o.categoryType
    (sortListP (typeCmpBy o n) s.hash (typeP o s u.dir n) (Filter.filterTypes s.hash u o false))

/-- `state.sort_list(unit, &mut functions)` (main/src/print/unit.rs:147-153, 167-175). -/
def fnListP (o : Options) (s : FnSide) (n : Nat) (u : CompUnit) (fs : List Function) : Option P :=
  sortListP (functionCmpBy o n) s.hash (functionP o s u.dir n) fs

/-- `print_variables` (main/src/print/unit.rs:154-160). -/
def unitVariablesP (o : Options) (s : FileSide) (n : Nat) (u : CompUnit) : Option P :=
  whenP o.categoryVariable
    (sortListP (variableCmpBy o n) s.hash (fun v => some (variableP o s u.dir v)) (Filter.filterVariables u o))

/-- `print_body` (main/src/print/unit.rs:101-187). -/
def unitBodyP (o : Options) (s : FileSide) (n : Nat) (u : CompUnit) : Option P :=
  let fs := Filter.filterFunctions u o
  if o.html then do
    let part ← whenP o.categoryUnit (unitPartP o s.toSide u)
    let types ← unitTypesP o s.toSide n u
    let f ← whenP o.categoryFunction (fnListP o s.toFnSide n u (fs.filter (·.size.isSome)))
    let i ← whenP o.categoryFunction (fnListP o s.toFnSide n u (fs.filter (!·.size.isSome)))
    let vars ← unitVariablesP o s n u
    some (.seqs [part, .field true (k "types") types,
      if o.categoryFunction then .seq (.field true (k "functions") f) (.field true (k "inlined functions") i)
        else .skip,
      .field true (k "variables") vars])
  else do
    let part ← whenP o.categoryUnit ((unitPartP o s.toSide u).map (.indent false (.line [] (unitName u))))
    let types ← unitTypesP o s.toSide n u
    let f ← whenP o.categoryFunction (fnListP o s.toFnSide n u fs)
    let vars ← unitVariablesP o s n u
    some (.seqs [part, types, f, vars])

/-- `print::unit::print` (main/src/print/unit.rs:189-200). -/
def unitP (o : Options) (s : FileSide) (n : Nat) (u : CompUnit) : Option P := do
  let body ← unitBodyP o s n u
  some (if o.html then .id (s.unitId u) (.line [] (unitName u)) body else body)

/-- `diff_types` (main/src/print/unit.rs:261-267). -/
def unitTypesD (o : Options) (c : Pair) (n : Nat) (u v : CompUnit) : Option D :=
  whenD o.categoryType (do
    let m ← mergedTypes n c.a.hash (Filter.filterTypes c.a.hash u o true) c.b.hash (Filter.filterTypes c.b.hash v o true)
    sortListD o (typeCmpBy o n) c.a.hash c.b.hash (typeP o c.a u.dir n) (typeP o c.b v.dir n)
      (typeD o c u.dir v.dir n) m)

/-- `state.sort_list(unit_a, unit_b, &mut functions)` (main/src/print/unit.rs:287-292, 302-303). -/
def fnListD (o : Options) (c : FilePair) (n : Nat) (u v : CompUnit) (m : List (MergeResult Function Function)) :
    Option D :=
  sortListD o (functionCmpBy o n) c.a.hash c.b.hash (functionP o c.a.toFnSide u.dir n)
    (functionP o c.b.toFnSide v.dir n) (functionD o c.toFnPair (c.a.unitId u) u.dir v.dir n) m

/-- `merged_functions` (main/src/print/unit.rs:28-59, 268-270). -/
def unitMergedFns (o : Options) (c : FilePair) (n : Nat) (u v : CompUnit) :
    Option (List (MergeResult Function Function) × List (MergeResult Function Function)) :=
  mergedFunctions n c.a.hash (Filter.filterFunctions u o) c.b.hash (Filter.filterFunctions v o)

/-- The diff of the functions (main/src/print/unit.rs:285-293, 300-304); `wrap` puts a list
in a section of its own, or not. -/
def unitFnsD (o : Options) (c : FilePair) (n : Nat) (u v : CompUnit) (wrap : Str → D → D) : Option D :=
  whenD o.categoryFunction (do
    let m ← unitMergedFns o c n u v
    let f ← fnListD o c n u v m.1
    let i ← fnListD o c n u v m.2
    some (.seq (wrap (k "functions") f) (wrap (k "inlined functions") i)))

/-- `diff_variables` (main/src/print/unit.rs:271-278). -/
def unitVariablesD (o : Options) (c : FilePair) (n : Nat) (u v : CompUnit) : Option D :=
  whenD o.categoryVariable (do
    let m ← mergedVariables (Filter.filterVariables u o) (Filter.filterVariables v o)
    sortListD o (variableCmpBy o n) c.a.hash c.b.hash (fun x => some (variableP o c.a u.dir x))
      (fun x => some (variableP o c.b v.dir x)) (fun x y => some (variableD o c u.dir v.dir x y)) m)

/-- `diff_body` (main/src/print/unit.rs:209-308). -/
def unitBodyD (o : Options) (c : FilePair) (n : Nat) (u v : CompUnit) : Option D :=
  if o.html then do
    let part ← whenD o.categoryUnit (unitPartD o c.a.toSide c.b.toSide u v)
    let types ← unitTypesD o c.toFnPair.toPair n u v
    let fns ← unitFnsD o c n u v (fun l => .field true l)
    let vars ← unitVariablesD o c n u v
    some (.seqs [part, .field true (k "types") types, fns, .field true (k "variables") vars])
  else do
    let part ← whenD o.categoryUnit
      ((unitPartD o c.a.toSide c.b.toSide u v).map (.indent true (.line [] (unitName u) (unitName v))))
    let types ← unitTypesD o c.toFnPair.toPair n u v
    let fns ← unitFnsD o c n u v (fun _ e => e)
    let vars ← unitVariablesD o c n u v
    some (.seqs [part, types, fns, vars])

/-- `print::unit::diff` (main/src/print/unit.rs:310-321). -/
def unitD (o : Options) (c : FilePair) (n : Nat) (u v : CompUnit) : Option D := do
  let body ← unitBodyD o c n u v
  some (if o.html then .id (c.a.unitId u) (.line [] (unitName u) (unitName v)) body else body)

/-! ### Files -/

/-- The value of the header (main/src/print/file.rs:338-343, 477-482). -/
def fileName (s : FileSide) : Val := .text (k "file " ++ s.path)

/-- The summary of a file (main/src/print/file.rs:336-366). -/
def filePartP (o : Options) (s : FileSide) : Option P := do
  let m ← s.file.printSummary s.tsz
  some (.seq (.indent true (.line [] (fileName s))
    (.seqs [if o.printFileAddress then .field true (k "addresses") (rangeItemsP (unitRanges s.tsz s.file.units))
        else .skip,
      P.fieldU64 (k "size") m.size, P.fieldU64 (k "fn size") m.fnSize, P.fieldU64 (k "var size") m.varSize,
      P.fieldU64 (k "other size") m.otherSize, .field true (k "sections") (.seqs (s.file.sections.map sectionP))]))
    .lineBreak)

/-- The diff of the summaries (main/src/print/file.rs:475-511). -/
def filePartD (o : Options) (c : FilePair) : Option D := do
  let m ← diffSummaries c.a.tsz c.b.tsz c.a.file c.b.file
  let size ← D.fieldU64 (k "size") m.1.size m.2.size
  let fn ← D.fieldU64 (k "fn size") m.1.fnSize m.2.fnSize
  let var ← D.fieldU64 (k "var size") m.1.varSize m.2.varSize
  let other ← D.fieldU64 (k "other size") m.1.otherSize m.2.otherSize
  let sections ← listD c.heap (fun x => some (sectionP x)) (fun x => some (sectionP x)) sectionD
    (fun _ => 1) (fun _ => 1) sectionCost c.a.file.sections c.b.file.sections
  some (.seq (.indent true (.line [] (fileName c.a) (fileName c.b))
    (.seqs [if o.printFileAddress then .field true (k "addresses")
          (rangeItemsD (unitRanges c.a.tsz c.a.file.units) (unitRanges c.b.tsz c.b.file.units)) else .skip,
      size, fn, var, other, .field true (k "sections") sections]))
    .lineBreak)

/-- The units of a file (main/src/print/file.rs:368). -/
def unitsP (o : Options) (s : FileSide) (n : Nat) : Option P :=
  sortListP (unitCmpBy o n) s.tsz (unitP o s n) (Filter.filterUnits s.file.units o)

/-- The diff of the units (main/src/print/file.rs:513-517). -/
def unitsD (o : Options) (c : FilePair) (n : Nat) : Option D := do
  let m ← mergedUnits o (Filter.filterUnits c.a.file.units o) (Filter.filterUnits c.b.file.units o)
  sortListD o (unitCmpBy o n) c.a.tsz c.b.tsz (unitP o c.a n) (unitP o c.b n) (unitD o c n) m

/-- `print` (main/src/print/file.rs:331-369). -/
def fileP (o : Options) (s : FileSide) (n : Nat) : Option P := do
  let head ← whenP o.categoryFile (filePartP o s)
  let units ← unitsP o s n
  some (.seq head units)

/-- `diff` (main/src/print/file.rs:455-518). -/
def fileD (o : Options) (c : FilePair) (n : Nat) : Option D := do
  let head ← whenD o.categoryFile (filePartD o c)
  let units ← unitsD o c n
  some (.seq head units)

/-- The options the printing layer reads (main/src/lib.rs). -/
def printOpts (o : Options) : Print.Opts := ⟨o.html, o.http, o.ignoreDeleted, o.ignoreAdded⟩

end Verif.Show
