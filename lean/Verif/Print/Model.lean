import Verif.Merge.Model
import Verif.Str
/-!
# Model of the printing layer: `main/src/print/mod.rs` and `main/src/print/text.rs`

The closures passed to `PrintState`/`DiffState` methods are modelled as programs (`P` and `D`):
trees of calls of those methods. The interpreters `P.run` and `D.run` follow the bodies of the
methods and are generic over a `Printer`, as the code is generic over `dyn Printer`.

Simplifications: writing never fails (`io::Error` is not modelled); the file hashes, code and
options a closure reads are constant during a run, so the values printed are part of the program.
-/
namespace Verif.Print
open Verif.Merge

/-- `DiffPrefix` (main/src/print/mod.rs:41-48). -/
inductive DiffPrefix
  | none | equal | delete | add | modify
deriving DecidableEq, Repr

/-- What a closure writes through a `ValuePrinter` (main/src/print/mod.rs:118-126): plain text
(`write!`), a name, or a link around further output. -/
inductive Val
  | nil
  | text (s : Str)
  | name (s : Str)
  | link (id : Nat) (v : Val)
  | seq (v w : Val)
deriving DecidableEq, Repr

/-- `trait Printer` (main/src/print/mod.rs:70-116). `S` is the state of a printer (including
the output written so far), `W` a unit of output. A method that takes closures threads the
closure's result `β` through (the code uses captured variables for that). -/
structure Printer where
  S : Type
  W : Type
  value : Val → Str
  buffer : {β : Type} → (S → S × β) → S → List W × β
  writeBuf : List W → S → S
  lineBreak : S → S
  line : Str → Str → S → S
  lineDiff : Str → Str → Str → S → S
  indentBody : {β : Type} → (S → S × β) → S → List W × β
  indentHeader : {β : Type} → Bool → List W → (S → S × β) → S → S × β
  indentId : {β : Type} → Nat → (S → S × β) → (S → S) → S → S × β
  indentDetail : Str → Str → S → S
  setPrefix : DiffPrefix → S → S
  getPrefix : S → DiffPrefix
  /-- `inline_begin`: `none` when it returns `false`. -/
  inlineBegin : S → Option S
  inlineEnd : S → S
  instruction : Option Nat → Str → Str → S → S

/-- A closure over `PrintState`: a tree of calls of its methods
(main/src/print/mod.rs:178-371). `seq`/`skip` are statement sequencing. -/
inductive P
  | skip
  | seq (p q : P)
  | lineBreak
  | label (l : Str)
  | line (label : Str) (v : Val)
  | instruction (address : Option Nat) (mnemonic : Str) (v : Val)
  | indent (collapsed : Bool) (header body : P)
  | field (collapsed : Bool) (label : Str) (body : P)
  | id (n : Nat) (header body : P)
  | fieldDetail (id label : Str) (body : P)
  | inline (p : P)
deriving DecidableEq, Repr

/-- `PrintState::indent_impl` (main/src/print/mod.rs:219-250). -/
def printIndent (pr : Printer) (optional collapsed : Bool) (header body : pr.S → pr.S)
    (s : pr.S) : pr.S :=
  let (buf, ()) := pr.indentBody (fun s => (body s, ())) s
  if !buf.isEmpty then
    (pr.indentHeader collapsed buf (fun s => (header s, ())) s).1
  else if !optional then
    header s
  else s

/-- Running a `PrintState` closure. Each case is the body of the method of that name:
`line_break` (main/src/print/mod.rs:304-306), `label` (308-310), `line`/`field` through
`line_impl` (312-338), `instruction` (347-356), `indent_impl` through its callers `collapsed`,
`expanded` (constructor `indent`) and `field_collapsed`, `field_expanded` (constructor `field`)
(219-280), `id` (178-204), `field_detail`
(206-215), `inline` (282-293). -/
def P.run (pr : Printer) (http : Bool) : P → pr.S → pr.S
  | .skip, s => s
  | .seq p q, s => q.run pr http (p.run pr http s)
  | .lineBreak, s => pr.lineBreak s
  | .label l, s => pr.line l [] s
  | .line lbl v, s =>
    let buf := pr.value v
    if !buf.isEmpty then pr.line lbl buf s else s
  | .instruction address mnemonic v, s => pr.instruction address mnemonic (pr.value v) s
  | .indent collapsed header body, s =>
    printIndent pr false collapsed (header.run pr http) (body.run pr http) s
  | .field collapsed lbl body, s =>
    printIndent pr true collapsed (pr.line lbl []) (body.run pr http) s
  | .id n header body, s =>
    (pr.indentId n (fun s => (header.run pr http s, ())) (body.run pr http) s).1
  | .fieldDetail ident lbl body, s =>
    if http then pr.indentDetail ident lbl s
    else printIndent pr true true (pr.line lbl []) (body.run pr http) s
  | .inline p, s =>
    match pr.inlineBegin s with
    | some s => pr.inlineEnd (p.run pr http s)
    | none => s

/-- A closure over `DiffState`: a tree of calls of its methods
(main/src/print/mod.rs:433-743). -/
inductive D
  | skip
  | seq (p q : D)
  | lineBreak
  | label (l : Str)
  | line (label : Str) (a b : Val)
  | indent (collapsed : Bool) (header body : D)
  | field (collapsed : Bool) (label : Str) (body : D)
  | id (n : Nat) (header body : D)
  | inline (d : D)
  | prefixDelete (p : P)
  | prefixAdd (p : P)
  | block (a b : P)
  | printIfDiff (d : D)
  | ignoreDiff (flag : Bool) (d : D)
deriving DecidableEq, Repr

/-- The options the printing layer itself reads (`Options`, main/src/lib.rs). -/
structure Opts where
  html : Bool
  http : Bool
  ignoreDeleted : Bool
  ignoreAdded : Bool
deriving DecidableEq, Repr

/-- `DiffState::line_impl` (main/src/print/mod.rs:681-716). -/
def diffLine (pr : Printer) (label : Str) (va vb : Val) (s : pr.S) (diff : Bool) :
    pr.S × Bool :=
  let a := pr.value va
  let b := pr.value vb
  if a = b then
    if !a.isEmpty then
      let s := if pr.getPrefix s ≠ .modify then pr.setPrefix .equal s else s
      (pr.line label a s, diff)
    else (s, diff)
  else
    if a.isEmpty then
      (pr.line label b (pr.setPrefix .add s), true)
    else if b.isEmpty then
      (pr.line label a (pr.setPrefix .delete s), true)
    else
      (pr.lineDiff label a b s, true)

/-- `DiffState::label` (main/src/print/mod.rs:674-679). -/
def diffLabel (pr : Printer) (l : Str) (s : pr.S) (diff : Bool) : pr.S × Bool :=
  let s := if pr.getPrefix s ≠ .modify then pr.setPrefix .equal s else s
  (pr.line l [] s, diff)

/-- `DiffState::indent_impl` (main/src/print/mod.rs:524-576). `header`/`body` take and return
the printer and the `diff` flag; `DiffState::new` starts with the flag false (414-431). -/
def diffIndent (pr : Printer) (optional collapsed : Bool)
    (header body : pr.S → Bool → pr.S × Bool) (s : pr.S) (diff : Bool) : pr.S × Bool :=
  let (buf, d) := pr.indentBody (fun s => body (pr.setPrefix .equal s) false) s
  if !buf.isEmpty then
    let (s, d') := pr.indentHeader collapsed buf
      (fun s => header (pr.setPrefix (if d then .modify else .equal) s) false) s
    (s, diff || (d || d'))
  else if !optional then
    header s diff
  else (s, diff)

/-- `DiffState::block` (main/src/print/mod.rs:642-668). -/
def diffBlock (pr : Printer) (fa fb : pr.S → pr.S) (s : pr.S) (diff : Bool) : pr.S × Bool :=
  let (buf, ()) := pr.buffer
    (fun s => (fb (pr.setPrefix .add (fa (pr.setPrefix .delete s))), ())) s
  if !buf.isEmpty then (pr.writeBuf buf s, true) else (s, diff)

/-- Running a `DiffState` closure on a printer and the flag `self.diff`. Each case is the body
of the method of that name: `line_break` (main/src/print/mod.rs:670-672), `label` (674-679),
`line`/`field` (681-732, constructor `line`), `indent_impl` through
`collapsed`/`expanded` (`indent`) and `field_collapsed`/`field_expanded` (`field`) (524-606), `id` (472-520), `inline`
(608-619), `prefix_delete` (621-629), `prefix_add` (631-639), `block` (642-668),
`print_if_diff` (435-457), `ignore_diff` (460-470). -/
def D.run (pr : Printer) (o : Opts) : D → pr.S → Bool → pr.S × Bool
  | .skip, s, diff => (s, diff)
  | .seq p q, s, diff =>
    let (s, diff) := p.run pr o s diff
    q.run pr o s diff
  | .lineBreak, s, diff => (pr.lineBreak s, diff)
  | .label l, s, diff => diffLabel pr l s diff
  | .line lbl a b, s, diff => diffLine pr lbl a b s diff
  | .indent collapsed header body, s, diff =>
    diffIndent pr false collapsed (header.run pr o) (body.run pr o) s diff
  | .field collapsed lbl body, s, diff =>
    diffIndent pr true collapsed (diffLabel pr lbl) (body.run pr o) s diff
  | .id n header body, s, diff =>
    let (buf, d) := pr.indentBody (fun s => body.run pr o (pr.setPrefix .equal s) false) s
    let (s, d') := pr.indentId n
      (fun s => header.run pr o (pr.setPrefix (if d then .modify else .equal) s) false)
      (pr.writeBuf buf) s
    (s, diff || (d || d'))
  | .inline p, s, diff =>
    match pr.inlineBegin s with
    | some s =>
      let (s, diff) := p.run pr o s diff
      (pr.inlineEnd s, diff)
    | none => (s, diff)
  | .prefixDelete p, s, _ => (p.run pr o.http (pr.setPrefix .delete s), true)
  | .prefixAdd p, s, _ => (p.run pr o.http (pr.setPrefix .add s), true)
  | .block a b, s, diff => diffBlock pr (a.run pr o.http) (b.run pr o.http) s diff
  | .printIfDiff p, s, diff =>
    let (buf, d) := pr.buffer (fun s => p.run pr o s false) s
    (if d || o.html then pr.writeBuf buf s else s, diff || d)
  | .ignoreDiff flag p, s, diff =>
    let (s, d) := p.run pr o s diff
    (s, if flag then diff else d)

/-- `x as i64` for a `u64` (main/src/print/mod.rs:739). -/
def asI64 (n : Nat) : Int := if n < 2 ^ 63 then (n : Int) else (n : Int) - 2 ^ 64

/-- `arg as i64 - base as i64` (main/src/print/mod.rs:739); `none` when the subtraction
overflows, which panics when overflow checks are on. -/
def fieldDelta (base arg : Nat) : Option Int :=
  let d := asI64 arg - asI64 base
  if -(2 ^ 63 : Int) ≤ d ∧ d < 2 ^ 63 then some d else none

/-- Decimal digits (`{}`). -/
def dec (n : Nat) : Str := (Nat.toDigits 10 n).map Char.toNat

/-- `{:+}` formatting of an `i64`. -/
def signedDec (z : Int) : Str :=
  if 0 ≤ z then Str.ofString "+" ++ dec z.toNat else Str.ofString "-" ++ dec (-z).toNat

/-- What the closure of `DiffState::field_u64` writes for `arg`
(main/src/print/mod.rs:736-742). -/
def fieldU64Val (base arg : Nat) : Option Val :=
  if arg ≠ base then
    (fieldDelta base arg).map fun d =>
      .seq (.text (dec arg)) (.text (Str.ofString " (" ++ signedDec d ++ Str.ofString ")"))
  else some (.text (dec arg))

/-- `DiffState::field_u64` (main/src/print/mod.rs:734-743); `none` when it panics. -/
def D.fieldU64 (label : Str) (a b : Nat) : Option D :=
  match fieldU64Val a a, fieldU64Val a b with
  | some va, some vb => some (.line label va vb)
  | _, _ => none

/-- `PrintState::field_u64` (main/src/print/mod.rs:340-345). -/
def P.fieldU64 (label : Str) (a : Nat) : P := .line label (.text (dec a))

/-- Statement sequence. -/
def D.seqs : List D → D
  | [] => .skip
  | d :: ds => .seq d (D.seqs ds)

/-- Statement sequence. -/
def P.seqs : List P → P
  | [] => .skip
  | p :: ps => .seq p (P.seqs ps)

/-- The loop body shared by `DiffState::list` (main/src/print/mod.rs:761-780) and `ord_list`
(795-807): a pair is diffed, an old item printed as deleted, a new one as added. -/
def listItem (print : α → P) (print' : α → P) (diff : α → α → D) : MergeResult α α → D
  | .both a b => diff a b
  | .left a => .prefixDelete (print a)
  | .right b => .prefixAdd (print' b)

/-- `DiffState::ord_list` (main/src/print/mod.rs:788-809) for the merged items. -/
def D.ofItems (print print' : α → P) (diff : α → α → D) (items : List (MergeResult α α)) : D :=
  .seqs (items.map (listItem print print' diff))

/-- The loop body of `DiffState::sort_list` (main/src/print/mod.rs:833-849). -/
def sortListItem (o : Opts) (print print' : α → P) (diff : α → α → D) : MergeResult α α → D
  | .both a b => .printIfDiff (diff a b)
  | .left a => if o.ignoreDeleted then .skip else .prefixDelete (print a)
  | .right b => if o.ignoreAdded then .skip else .prefixAdd (print' b)

/-- `DiffState::sort_list` (main/src/print/mod.rs:818-851); `cmpBy` is `T::cmp_by` on
(item, is-new-side). -/
def D.sortList (o : Opts) (cmpBy : α → Bool → α → Bool → Ordering) (print print' : α → P)
    (diff : α → α → D) (items : List (MergeResult α α)) : D :=
  .seqs ((sortMerged cmpBy false true items).map (sortListItem o print print' diff))

/-- `PrintState::list` and `sort_list` (main/src/print/mod.rs:358-371). -/
def P.sortList (cmpBy : α → α → Ordering) (print : α → P) (items : List α) : P :=
  .seqs ((stableSort (fun a b => cmpBy a b != .gt) items).map print)

/-! ## The text printer (`main/src/print/text.rs`) -/

/-- One line of text output. `TextPrinter` always writes whole lines; the bytes of a line are
`Line.render`. -/
inductive Line
  | brk
  | line (pfx : DiffPrefix) (indent : Nat) (label buf : Str)
  | instr (pfx : DiffPrefix) (indent : Nat) (address : Option Nat) (mnemonic buf : Str)
deriving DecidableEq, Repr

/-- `TextPrinter` (main/src/print/text.rs:6-11); `w` is what was written to it. -/
structure Text where
  w : List Line
  indent : Nat
  pfx : DiffPrefix
  inlineDepth : Nat
deriving DecidableEq, Repr

/-- `TextPrinter::new` (main/src/print/text.rs:14-21). -/
def Text.new (inlineDepth : Nat) : Text :=
  { w := [], indent := 0, pfx := .none, inlineDepth := inlineDepth }

/-- `TextValuePrinter` (main/src/print/text.rs:185-212). -/
def Val.text' : Val → Str
  | .nil => []
  | .text s => s
  | .name s => s
  | .link _ v => v.text'
  | .seq v w => v.text' ++ w.text'

/-- `Printer::line` (main/src/print/text.rs:75-86). -/
def Text.line (label buf : Str) (s : Text) : Text :=
  { s with w := s.w ++ [.line s.pfx s.indent label buf] }

/-- `impl Printer for TextPrinter` (main/src/print/text.rs:41-183): `buffer` 52-64, `write_buf`
66-69, `line_break` 71-73, `line_diff` 88-93, `indent_body` 95-107, `indent_header` 109-118,
`indent_id` 120-134, `prefix` 140-146, `inline_begin`/`inline_end` 148-159, `instruction`
161-182. `indent_detail` (136-138) is `unreachable!()`: it is only called with `http` set, which
goes with the HTML printer; the model leaves the state unchanged. -/
@[reducible] def textPrinter : Printer where
  S := Text
  W := Line
  value := Val.text'
  buffer f s :=
    let (p, b) := f { s with w := [] }
    (p.w, b)
  writeBuf buf s := { s with w := s.w ++ buf }
  lineBreak s := { s with w := s.w ++ [.brk] }
  line := Text.line
  lineDiff label a b s :=
    let s := Text.line label a { s with pfx := .delete }
    Text.line label b { s with pfx := .add }
  indentBody f s :=
    let (p, b) := f { s with w := [], indent := s.indent + 1 }
    (p.w, b)
  indentHeader _ body header s :=
    let (s, b) := header s
    ({ s with w := s.w ++ body }, b)
  indentId _ header body s :=
    let (s, b) := header s
    let p := body { s with indent := s.indent + 1 }
    ({ s with w := p.w }, b)
  indentDetail _ _ s := s
  setPrefix p s := { s with pfx := p }
  getPrefix s := s.pfx
  inlineBegin s :=
    if s.inlineDepth = 0 then none else some { s with inlineDepth := s.inlineDepth - 1 }
  inlineEnd s := { s with inlineDepth := s.inlineDepth + 1 }
  instruction address mnemonic buf s :=
    { s with w := s.w ++ [.instr s.pfx s.indent address mnemonic buf] }

/-- The diff marker and indentation at the start of a line (`write_indent`,
main/src/print/text.rs:23-38). -/
def writeIndent (pfx : DiffPrefix) (indent : Nat) : Str :=
  (match pfx with
    | .none => []
    | .equal | .modify => Str.ofString "  "
    | .delete => Str.ofString "- "
    | .add => Str.ofString "+ ") ++ List.replicate indent 9

/-- Hexadecimal digits, lower case (`{:x}`). -/
def hex (n : Nat) : Str := (Nat.toDigits 16 n).map Char.toNat

/-- `{:>w}` padding of numbers. -/
def padLeft (w : Nat) (s : Str) : Str := List.replicate (w - s.length) 32 ++ s

/-- `{:<w}` padding of strings. Simplification: the width counts bytes, Rust counts chars. -/
def padRight (w : Nat) (s : Str) : Str := s ++ List.replicate (w - s.length) 32

/-- The bytes of a line: `line_break` (main/src/print/text.rs:71-73), `line` (75-86),
`instruction` (161-182). -/
def Line.render : Line → Str
  | .brk => [10]
  | .line pfx indent label buf =>
    writeIndent pfx indent ++
      (if !label.isEmpty then
        label ++ Str.ofString ":" ++ (if !buf.isEmpty then Str.ofString " " else [])
      else []) ++ buf ++ [10]
  | .instr pfx indent address mnemonic buf =>
    writeIndent pfx indent ++
      (match address with
        | some a => padLeft 3 (hex a) ++ Str.ofString ":  "
        | none => padLeft 3 [] ++ Str.ofString "   ") ++
      (if mnemonic.isEmpty then padRight 6 [] ++ Str.ofString " " else padRight 6 mnemonic) ++
      (if !buf.isEmpty then Str.ofString " " ++ buf else []) ++ [10]

/-- The bytes written for a list of lines. -/
def render (l : List Line) : Str := l.flatMap Line.render

end Verif.Print
