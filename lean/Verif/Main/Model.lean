import Verif.Opts.Model
/-!
# Model of the rest of `main` (main/src/main.rs:456-563): which mode runs, and how the output gets
to standard output

* `std::io::BufWriter` is library code; its documented behaviour is modelled (`Out.write`,
  `Out.flush`, `Out.drop`), for every buffer size. Repeated `write` calls of its loops are one step
  here: the standard output takes all the bytes, or some first part of them and then fails.
  Interrupted calls are retried and change nothing, so they are left out.
* `File::parse` and the printers are parameters (`World`): other parts of the model are about what
  they return. A printer writes a list of pieces in order, and stops at the first write that
  fails (every write in main/src/print is followed by `?`).
* Not modelled: the process's exit status (0 in every case below), the network side of `serve`
  (it binds, prints where it listens and does not return, main/src/main.rs:702-771), and the stages
  of standard output behind the handle `stdout().lock()`.
-/
namespace Verif.Main
open Verif.Opts

/-- What happens to write number `i` (from 0) on standard output: `none`: all the bytes are taken;
`some (n, e)`: at most the first `n` are, then the call fails with error `e` (main/src/main.rs:553;
the outside world). -/
abbrev Sink := Nat → Option (Nat × Str)

/-- The state of `BufWriter::new(stdout.lock())` (main/src/main.rs:554): what standard output has
taken, what is in the buffer, and the number of writes made on standard output. -/
structure Out where
  got : Str := []
  buf : Str := []
  calls : Nat := 0
deriving DecidableEq, Repr

/-- `BufWriter::flush_buf` (library; used by writes and by the drop at main/src/main.rs:563): the
buffer is written to standard output; what was not taken stays in the buffer. -/
def Out.flush (k : Sink) (o : Out) : Out × Option Str :=
  if o.buf = [] then (o, none)
  else
    match k o.calls with
    | none => ({ got := o.got ++ o.buf, buf := [], calls := o.calls + 1 }, none)
    | some (n, e) =>
      ({ got := o.got ++ o.buf.take n, buf := o.buf.drop n, calls := o.calls + 1 }, some e)

/-- The direct write of a long piece in `BufWriter::write_all` (library). -/
def Out.direct (k : Sink) (o : Out) (b : Str) : Out × Option Str :=
  match k o.calls with
  | none => ({ o with got := o.got ++ b, calls := o.calls + 1 }, none)
  | some (n, e) => ({ o with got := o.got ++ b.take n, calls := o.calls + 1 }, some e)

/-- The end of `BufWriter::write_all`, when there is room or the buffer is empty (library). -/
def Out.place (cap : Nat) (k : Sink) (o : Out) (b : Str) : Out × Option Str :=
  if cap ≤ b.length then o.direct k b else ({ o with buf := o.buf ++ b }, none)

/-- `BufWriter::write_all` with a buffer of `cap` bytes (library; every write of the printers, e.g.
main/src/print/text.rs:176-182, goes through it). -/
def Out.write (cap : Nat) (k : Sink) (o : Out) (b : Str) : Out × Option Str :=
  if b.length < cap - o.buf.length then ({ o with buf := o.buf ++ b }, none)
  else if cap - o.buf.length < b.length then
    match o.flush k with
    | (o, some e) => (o, some e)
    | (o, none) => o.place cap k b
  else o.place cap k b

/-- `Drop for BufWriter` (library; the end of `format`, main/src/main.rs:563): the error of the
last flush is ignored. -/
def Out.drop (k : Sink) (o : Out) : Out := (o.flush k).1

/-- A printing function: pieces in order, `?` after each (main/src/print/*). -/
def writeAll (cap : Nat) (k : Sink) : Out → List Str → Out × Option Str
  | o, [] => (o, none)
  | o, b :: bs =>
    match o.write cap k b with
    | (o, some e) => (o, some e)
    | (o, none) => writeAll cap k o bs

/-- The mode on the command line (main/src/main.rs:456-513), with paths or with files. -/
inductive Mode (α : Type)
  | diff (a b : α)
  | bloat (f : α)
  | print (f : α)
deriving DecidableEq, Repr

/-- What the rest of the program and the outside world do. -/
structure World (F : Type) where
  /-- `ddbug::File::parse` (main/src/main.rs:460, 463, 487, 503). -/
  parse : Str → Except Str F
  /-- The pieces `ddbug::diff`, `ddbug::bloat` and `ddbug::print` write, with a text or an HTML
  printer according to the options (main/src/main.rs:521, 535, 542). -/
  pieces : Mode F → Options → List Str
  /-- `HEADER`, `FOOTER` (main/src/print/html.rs:9-226). -/
  head : Str
  /-- See `head`. -/
  foot : Str
  /-- The buffer size of a `BufWriter` (8192). -/
  cap : Nat
  /-- Standard output. -/
  sink : Sink

/-- `diff_file`'s closure (main/src/main.rs:520-525), which reports an error and goes on, or the
closures of `bloat_file` and `print_file` (534-536, 541). Returns the state, the messages logged
inside, and the error returned. -/
def body {F : Type} (w : World F) (o : Options) (m : Mode F) (s : Out) : Out × List Str × Option Str :=
  let (s, e) := writeAll w.cap w.sink s (w.pieces m o)
  match m with
  | .diff _ _ => (s, e.toList, none)
  | _ => (s, [], e)

/-- `format` up to the drop of the writer (main/src/main.rs:545-562). -/
def formatOpen {F : Type} (w : World F) (o : Options) (m : Mode F) : Out × List Str × Option Str :=
  if o.html then
    match Out.write w.cap w.sink {} w.head with
    | (s, some e) => (s, [], some e)
    | (s, none) =>
      match body w o m s with
      | (s, l, some e) => (s, l, some e)
      | (s, l, none) =>
        let (s, e) := s.write w.cap w.sink w.foot
        (s, l, e)
  else body w o m {}

/-- `format` (main/src/main.rs:545-563). -/
def format {F : Type} (w : World F) (o : Options) (m : Mode F) : Str × List Str × Option Str :=
  let (s, l, e) := formatOpen w o m
  ((s.drop w.sink).got, l, e)

/-- What a run shows: the files read (in order), what standard output got from the printers, the
messages logged at level error, and the server started with its files and options. -/
structure Shown (F : Type) where
  opened : List Str
  stdout : Str := []
  errors : List Str := []
  served : Option (Mode F × Options) := none

/-- `format!("{}: {}", path, e)` (main/src/main.rs:461, 464, 497, 511). -/
def withPath (path e : Str) : Str := path ++ [58, 32] ++ e

/-- main/src/main.rs:469-480, 489-496, 505-512: serve, or print to standard output. `report` is how
an error of the printing function is logged (481, 499, 513). -/
def show' {F : Type} (w : World F) (o : Options) (m : Mode F) (opened : List Str) (report : Str → Str) :
    Shown F :=
  if o.http then { opened, served := some (m, o) }
  else
    let (out, l, e) := format w o m
    { opened, stdout := out, errors := l ++ (e.map report).toList }

/-- The last part of `main` (main/src/main.rs:456-515). -/
def runMode {F : Type} (w : World F) (o : Options) : Mode Str → Shown F
  | .diff a b =>
    match w.parse a with
    | .error e => { opened := [a], errors := [withPath a e] }
    | .ok fa =>
      match w.parse b with
      | .error e => { opened := [a, b], errors := [withPath b e] }
      | .ok fb => show' w o (.diff fa fb) [a, b] id
  | .bloat p =>
    match w.parse p with
    | .error e => { opened := [p], errors := [withPath p e] }
    | .ok f => show' w o (.bloat f) [p] (withPath p)
  | .print p =>
    match w.parse p with
    | .error e => { opened := [p], errors := [withPath p e] }
    | .ok f => show' w o (.print f) [p] (withPath p)

/-- The paths on the command line: `matches.get_many(OPT_DIFF)`, `get_one(OPT_BLOAT)`,
`get_one(OPT_FILE)` (main/src/main.rs:456, 485, 501). -/
structure Paths where
  diff : Option (Str × Str) := none
  bloat : Option Str := none
  file : Option Str := none
deriving DecidableEq, Repr

/-- The choice of the mode (main/src/main.rs:456-502); `none` is the `unwrap` of 502, which the
rules of `cli` exclude. -/
def choose (p : Paths) : Option (Mode Str) :=
  match p.diff with
  | some (a, b) => some (.diff a b)
  | none =>
    match p.bloat with
    | some f => some (.bloat f)
    | none => p.file.map .print

/-- clap's check of the rules in `cli` for the paths, and for `--ignore` and `--prefix-map`
(main/src/main.rs:104-105, 113, 121, 200, 228): `FILE` is required unless there is `--diff` or
`--bloat`, and conflicts with both; these two conflict; `--ignore` and `--prefix-map` require
`--diff`. -/
def accepted (p : Paths) (a : Args) : Bool :=
  (p.file.isSome || p.diff.isSome || p.bloat.isSome) &&
  !(p.file.isSome && (p.diff.isSome || p.bloat.isSome)) &&
  !(p.diff.isSome && p.bloat.isSome) &&
  (a.ignore.isNone || p.diff.isSome) && (a.prefixMap.isNone || p.diff.isSome)

/-- `main` (main/src/main.rs:245-515); `none` is an exit with a usage error. -/
def run {F : Type} (w : World F) (p : Paths) (a : Args) : Option (Shown F) :=
  if accepted p a then
    match parseOptions a with
    | none => none
    | some o => (choose p).map (runMode w o)
  else none

end Verif.Main
