import Verif.Whole.Model
import Verif.Web.DiffModel
import Verif.Bloat.Model
import Verif.Cli.Model
/-!
# Model of the whole program: from the arguments to standard output

The parts of the other models put together as `main` puts them together. Left open (parameters): the operating
system and the `object` crate (`disk`), clap's and the disassembler's and the container library's freedom
(`search`, `heap`, `iter`, the parts of `side`), the tables of the HTML printer, and how the printers cut their output into
pieces (`cut`; C97 is about what becomes of the pieces). A run in which a printer panics, does not return or ends with an error of its
own has `written = none`; the theorems do not speak of these, except that C92 says when it does not happen.
-/
namespace Verif.Prog
open Verif.Item Verif.Types Verif.Range Verif.File Verif.Show Verif.Opts Verif.Main Verif.Whole Verif.Web Verif.Bloat Verif.Ids
open Verif.Print (P D Text textPrinter render)
open Verif.Html (EntityTable)

/-- An object file that was read (`FileContext`, parser/src/file/mod.rs:127-165): the raw contents and what
`parse_object` made of them. -/
structure Loaded where
  raw : RawObject
  file : File

/-- What is left open. -/
structure Parts where
  /-- `fs::File::open`, `Mmap::map`, `object::File::parse` (parser/src/file/mod.rs:212-231). -/
  disk : Str → Except Str RawObject
  /-- See `parseObject`. -/
  search : File.Search
  /-- The bound of the loops of `parseObject`. -/
  bound : Nat
  /-- The message of an error in `parse_object` (parser/src/file/mod.rs:241-355). -/
  badObject : Str
  /-- What printing reads of a file (`FileHash::new`, `Code::new`; main/src/print/file.rs:332-333). -/
  side : Loaded → FileSide
  /-- `Type::cmp_id` for two files (parser/src/types.rs:228-262). -/
  same : Loaded → Loaded → Ty → Ty → Bool
  /-- The heap of the alignment of lists. -/
  heap : Path.Heap
  /-- The calls of the functions of a file, with code (main/src/print/file.rs:770-803). -/
  calls : Loaded → Option (Range → List Call)
  /-- The order of iteration of the hash map of functions (main/src/print/file.rs:808-809). -/
  iter : List (FunctionId × FunctionTotal) → List (FunctionId × FunctionTotal)
  /-- The entities of the HTML printer. -/
  table : EntityTable
  /-- The characters of identifiers of the HTML printer. -/
  alnum : Nat → Bool
  /-- `HEADER`, `FOOTER` (main/src/print/html.rs:9-226). -/
  frame : Web.Frame
  /-- The pieces in which a printer writes a text. -/
  cut : Str → List Str
  /-- The size of the buffer in front of standard output. -/
  cap : Nat
  /-- Standard output. -/
  sink : Sink

/-- `File::parse` (parser/src/file/mod.rs:212-233). -/
def load (c : Parts) (path : Str) : Except Str Loaded :=
  match c.disk path with
  | .error e => .error e
  | .ok r =>
    match parseObject c.search c.bound { r with path := path } with
    | none => .error c.badObject
    | some f => .ok ⟨{ r with path := path }, f⟩

/-- What a new printer writes for a program: `TextPrinter::new` or `HtmlPrinter::new` (main/src/main.rs:555-562,
main/src/print/text.rs:14-21). -/
def printedP (c : Parts) (o : Options) (p : P) : Str :=
  if o.html then fresh c.table c.alnum o p else render (p.run textPrinter o.http (Text.new o.inlineDepth)).w

/-- As `printedP`, for a diff (main/src/main.rs:555-562). -/
def printedD (c : Parts) (o : Options) (e : D) : Str :=
  if o.html then freshD c.table c.alnum o e
  else render (e.run textPrinter (printOpts o) (Text.new o.inlineDepth) false).1.w

/-- What `ddbug::diff`, `ddbug::bloat` and `ddbug::print` write (main/src/main.rs:516-543, main/src/print/file.rs:331-369,
455-518, 818-864). `n` bounds the recursions. -/
def written (c : Parts) (n : Nat) (o : Options) : Mode Loaded → Option Str
  | .print f => (fileP o (c.side f) n).map (printedP c o)
  | .diff f g => (fileD o ⟨c.side f, c.side g, c.same f g, c.heap⟩ n).map (printedD c o)
  | .bloat f => (bloat f.file.units (assignIds f.file.units).store (bloatIndex c.iter (c.calls f) f.file.units)).map (printedP c o)

/-- The program, as a world for `Verif.Main` (main/src/main.rs:456-563). -/
def world (c : Parts) (n : Nat) : World Loaded where
  parse := load c
  pieces m o := c.cut ((written c n o m).getD [])
  head := c.frame.header
  foot := c.frame.footer
  cap := c.cap
  sink := c.sink

/-- `ddbug` with some arguments (main/src/main.rs:245-515). -/
def ddbug (c : Parts) (n : Nat) (argv : List Str) : Option (Main.Shown Loaded) := Cli.program (world c n) argv

end Verif.Prog
