# ddbug formal model: design

## Trusted base

* Lean 4.33.0 kernel. No axioms are added; every property theorem depends on at most
  `propext`, `Classical.choice`, `Quot.sound` (checked with `#print axioms`). No Mathlib.
* The reading of the Rust source: the code is not run here. Every definition in
  `lean/Verif/**/…Model.lean` (and the few model definitions elsewhere) carries a comment citing
  the file and lines of `/repo` it models and its simplifications.
* Modelled library behaviour, never as axioms, always as definitions or as parameters that the
  theorems quantify over:
  * `slice::sort_by*` is a stable sort; with a comparison that does not return, the sort does not
    return (`Order`).
  * `BTreeMap`/`HashMap` are maps where the last insert wins.
  * `BinaryHeap::pop` returns *some* maximal element (`Path.Heap`: all tie-breaks).
  * `binary_search*` returns *some* matching index when there is one (`Search` with `ValidSearch`).
  * `object`, `gimli`, capstone and the id cells supply values: see "Not modelled".

## Conventions

* `u64`/`usize` values are `Nat`/`Int` with explicit bounds where the property is about
  arithmetic. An operation that can overflow is a panic (`none`/`panic`), as with overflow checks
  on; in the DWARF walk (`DieModel`, `WalkModel`, `UnitModel`, `BoundsModel`, `DetailModel`) it
  wraps, as in a release build. The definition says which.
* `&mut` becomes returning the new value. Loops become structural recursion or take fuel, with a
  theorem that fuel is irrelevant or sufficient.
* Each area has `Model` (code), `Spec` (independent statement vocabulary), `Lemmas` and `Props`
  (the theorems `Cnn_…`, with an `example` beside each that meets the hypotheses non-trivially).
* `…_partial` is a proved part of a property that does not hold, or is not proved, in full; the
  full statement stays in `properties.jsonl`; `…_witness` theorems show a concrete input on which
  the code does not do what one would expect. They are listed under Findings.
* Printing code is a program `P` (listing) or `D` (diff) in a small syntax of the combinators of
  `PrintState`/`DiffState` (`Print.Model`), interpreted by the text printer (`Print`) and the HTML
  printer (`Html`). The printing code of types, functions, units and files is modelled as functions
  producing such programs (`Show`); `none` stands for panic, error or divergence.

## What is modelled

| code | modules |
|------|---------|
| parser/src/range.rs | `Range` |
| parser/src/{address,size}.rs | `Sentinel` |
| parser/src/namespace.rs | `Namespace` |
| parser/src/types.rs | `Types` (size, identity), `Layout` (members, variants) |
| parser/src/{function,variable,unit,location,source,section,symbol}.rs | `Item`, `Frame`, `Order` |
| parser/src/file/mod.rs | `File` |
| parser/src/file/dwarf.rs | `Dwarf` (`DieModel` attributes and entries, `WalkModel` tree walk and fix-ups, `UnitModel` ranges, `BoundsModel` array bounds, `DetailModel` function details, `CallModel` call sites, `EvalModel` location expressions), `Cfi`, `Reloc` |
| main/src/print/mod.rs, text.rs | `Print`, `Merge`, `Path` (`shortest_path`, `DiffState::list`) |
| main/src/print/html.rs | `Html` |
| main/src/print/{types,base_type,type_def,struct_type,union_type,enumeration,member,inherit,...}.rs | `Show.TypeModel`, `Show.TypeRef` |
| main/src/print/{function,parameter,local_variable,frame_*,register,range,...}.rs | `Show.FnModel`, `Frame` |
| main/src/print/{file,unit,variable,section}.rs | `Show.FileModel`, `File.Summary`, `Ids` |
| main/src/lib.rs (options), filter.rs | `Opts`, `Filter` |
| main/src/main.rs (modes, output) | `Main` |
| main/src/main.rs (`cli`, with clap's reading of the arguments) | `Cli` |
| the whole program (main/src/main.rs `main` down to the printers) | `Whole` (object file to listing), `Web` (pages), `Prog` (command line to output) |
| main/src/print/function.rs (instructions) with code.rs and cfi | `Asm` |
| main/src/main.rs (web server), print/file.rs (`bloat`), code.rs | `Serve`, `Bloat`, `Code` |

## Not modelled

* Byte-level parsing inside `object`, `gimli` and `pdb`: symbols, sections and relocations
  (`RawSymbol`, `RawSection`), debugging entries, attributes, line rows, operations and call frame
  instructions are given as values. A reference to an offset that is not the start of an entry is
  an error.
* The PDB reader (parser/src/file/pdb.rs), which is dead code: no module includes it.
* main/src/print/symbol.rs, which nothing calls: symbols are printed as functions and variables.
* Capstone: decoded instructions are `Insn` values; the rest of code.rs is modelled.
* clap is not modelled from its code: `Cli` models its documented reading of a command line for the
  table in `cli()`, `Main` its rules between arguments; texts of help and errors are not modelled.
* HTTP transport and the async runtime: a request is its path.
* `marksman_escape` is modelled by its table of entities; the printer's `debug_assert` on `<` in
  labels is modelled as the release build (the character is written).
* I/O errors while writing (other than through `none`), except in `Main` (C97): there a printer is
  the list of pieces it writes.
* Threads, except in the storage of a file (C94): nothing else is shared between threads.

## Per property plan

| id | model | proof |
|----|-------|-------|
| C01-C05, C61 | `RangeList.push/sort/subtract/size` over `Nat` addresses | invariants by induction on push lists; coverage as a predicate on addresses; exactness of the two-pointer loop before re-merging; negations by witness |
| C06 | sentinel types | case analysis |
| C07-C09, C62 | namespace chains as inductive lists of optional names | refinement to lexicographic order on paths |
| C10-C13, C63, C64 | type graph as finite map, `cmpId`, `byteSize` with fuel | fuel-independence on acyclic graphs; preorder laws by induction on fuel; identity trees as specification; divergence iff a cycle is reachable |
| C14-C16, C65 | `layout` over items | induction over the sorted list, tiling invariant |
| C17 | bit-field formula mod 2^64 | arithmetic against a bit position specification |
| C18 | `MergeIterator` as recursive function | induction; counting per equivalence class |
| C19-C21 | `shortest_path` with a nondeterministic heap (any maximal element may be popped) | Dijkstra invariant over all executions; refinement to minimal alignment cost |
| C22-C24, C75 | diff programs `D` on an abstract printer | structural induction over programs; denotation as marked lines |
| C25-C26, C66 | text printer as a state machine with buffers | structural induction; reading lines back |
| C27-C29, C67 | HTML printer and escaping | induction over strings / call trees; negations by witness |
| C80 | what it is for a page to show some items (`Html.Read`), and a reader that goes through a page tag by tag (`Html.Look`) | induction over programs, both printers read to the same tree; the reader sees exactly the items, and what it sees determines them |
| C30-C32 | option record, filters, prefix map | case analysis, induction |
| C33-C36, C55 | `File::normalize`, `get_symbol`, hashes, `segment_bytes`, summary | induction over symbol/unit lists |
| C37-C39 | id assignment, lookup, bloat, routing | induction, positions |
| C40, C54, C58 | frame variable listing and diff, location queries | induction; gaps characterised by uncovered offsets |
| C41, C48, C49, C68 | instruction/CFI interleave, FDE table, CFI texts | induction; injectivity of texts |
| C42-C43 | stack machine over decoded operations | simulation against a DWARF semantics of locations; negations by witness |
| C44-C45, C71, C74 | worklist over the tree of entries | termination measure, permutation/keys invariants, relational specification of records |
| C46 | relocation map and reader | induction over relocations, arithmetic |
| C47, C50, C57, C73 | unit ranges, bounds, function sizes, unit lookup | induction/arithmetic against attribute-level specifications |
| C51, C69, C70 | code bytes, calls, annotations, registers | induction / case analysis |
| C52, C59, C60 | source, delta, unit sizes | case analysis, arithmetic |
| C53 | comparison functions and sorted listing (`Order`) | laws of each comparator under its preconditions; stable sort |
| C56, C79 | details of a function and its inlined copies, call sites | relational specification `DetailsOf`, induction on trees |
| C72 | one record per entry kind, "last attribute of a name wins" | induction over attribute lists |
| C76-C78 | listing and diff of types; references | relation between the diff program and the two listing programs, C75; independent inductive spelling of references |
| C81 | listing and diff of functions | as C76, generic congruence closed under the combinators (`Show.FnRel`) |
| C82 | listing and diff of units and files, as text and as HTML page | merge/sort specification + C76/C81 + permutation of wanted items; pages: `pageP`/`pageD` of the programs, and C80 for the bytes |
| C83, C84 | the facts behind the lines: numbers, sizes, members, enumerators | texts are readable (injective on facts); C76 lifted from texts to facts |
| C85 | rows of a listing as data (`RowsSpec`, `FileRowsSpec`), independent of the printing functions | printing combinators commute with row combinators; induction over nesting |
| C86 | price lists per kind of item (`AlignSpec`), independent of the cost functions; parts of a diff | C19/C20 with the price list; counting argument for removals and additions |
| C87 | the facts of two functions / files compared as data (`FnFactsSpec`, `FileFactsSpec`) | C81/C82 give equal listings, C85 their rows; the rows are split into labelled blocks and every text is read back (injectivity of each notation) |
| C88 | the answers of the web server as bytes (`Web/Model`); what the page's script does as a relation `Opens` (`Web/Spec`) | bytes of an HTML printer as a function of the program (`Web/Out`), walk over all listing programs, C38/C39 for the requests |
| C89 | the answers of the server of a diff as bytes (`Web/DiffModel`), its index (`Ids`); `Opens` and `Unmarks` (`Web/DiffSpec`) | bytes of a diff as a function of the program (`Web/DOut`), the pairs on the page are the pairs of the index (`Web/Pairs`), walk over all diff programs (`Web/DSite`); partial, the rest is refuted |
| C90 | `Code::new`, `find_plts`, reading of segments and dynamic relocations; disassembly as an arbitrary function | inductions over sections, instructions and operands; last-wins maps as `LastWith` |
| C91 | `File::parse_object` put together from its parts, and what printing reads of a file (`Whole/Model`): type extras, sizes, references, functions, details, calls; names of registers, ids and the listing of instructions are arbitrary functions | composition of C43–C48, C56, C71–C74 (entries to records), C26–C28 (symbols), C78–C85 (records to text); one concrete file from entries to text |
| C92 | nothing new: the listings and diffs of `Show/*` with their failures (`none` is a panic or recursion past the bound) | totality of each part by recursion on the data, sorted lists by C53, pairing by C18, alignment by C19, members by C77; a file with everything in it meets the conditions |
| C93 | the diff of what `sideOf` (C91) reads of two object files, types being the same when `Type::cmp_id` says so | composition of C10, C82, C84, C87, C91 and C92; a part of a diff that reports a difference has its text in the text of the whole (`Carries`) |
| C94 | `Arena` and `FileContext` over a memory of owned blocks (`Arena/Model`): every line of `add_*` is a step, threads interleave, the allocator and the rest of the program are arbitrary; `String::from_utf8_lossy` is an arbitrary function | invariant over all executions: ownership, contents and disjointness of blocks, the mutexes, and the calls under way; dropping by the disjointness |
| C95 | a renumbering of all entries of a file (`Move/Spec`), over the models of `Show/*` and `Types/*` | congruence through every cost function, list alignment, merge, sort, size and reference (`Move/{Types,Fns,Files,Hash}`); the exception by a witness |
| C96 | `print_instructions` with the code, disassembler and frame information of the file (`Asm/Model`), on top of `Code/*`, `Cfi/*`, `Whole/*` | the lines of each range, instruction and note from C41, C51, C69, C90 and the maps of C35 (`Asm/Props`); composed with C91 |
| C97 | `format` with std's `BufWriter` over a standard output that answers each write arbitrarily (`Main/Model`) | an invariant of every step: taken plus buffered is a beginning of what was written, and equal to it while no error is reported (`Main/Lemmas`, `Main/Props`) |
| C98 | `main` after option parsing, clap's rules on the modes; reading and printing a file are parameters | case analysis, and C97 for the output |
| C99 | the table of `cli` and clap's loop over the arguments (`Cli/Model`) | both directions of a correspondence between argument lists and the items they say (`Cli/Lemmas`), then what each option collects (`Cli/Collect`) |
| C100 | nothing new: the whole listing (`Show`), filters, orders and option processing | a relation between print programs (lines are a sublist) that every printing construct and every printed item respects (`Select/Lemmas`, `Select/Listing`); sorting commutes with selecting; every step of option processing keeps one option set narrower (`Select/Args`) |
| C101 | nothing new: the whole diff (`Show`), filters, orders and option processing | a relation between diff programs (lines a sublist, the difference flag implied) respected by every construct and item (`Select/DiffLemmas`, `Select/DiffListing`); the alignment does not read the options that may differ; filtering by name, namespace or unit commutes with sorting and merging by the identity of items (`Select/MergeFilter`) |
| C102 | nothing new: the whole listing and diff (`Show`) | sorting by a lawful comparison is the same for all orders that agree on ties (`Shuffle/Lemmas`); sort, merge and print of related lists are related (`Shuffle/Listing`); distinct names by the keys of C53 |
| C103 | nothing new: the whole diff (`Show`) | what is left of a file without addresses is a specification (`Rebase/Spec`); lists that agree without addresses are lists of pairs, and alignment, sorting and merging keep the pairs (`Rebase/Fns`, `Rebase/Files`); ignored parts drop out of the difference flag |
| C104 | nothing new: the whole diff (`Show`) | merging is symmetric because the comparisons are (`Turn/Merges`); a diff and its mirror image are related by printing something together and reporting together (`Turn/Twin`), which sequencing, indentation and sorted lists keep; for aligned lists both directions have the same least cost (`C86`), and if items that read alike are alike, no difference is reported exactly if that cost is zero (`Turn/Lists`) |
| C105 | the whole program (`Prog/Model`): `File::parse`, the choice of printer, what `print`, `diff` and `bloat` write, as a world for `main` (C98) behind the command line (C99) | composition of C31, C38, C82, C88, C91, C92, C93, C97, C98, C99; the operating system, `object`, the disassembler, the order of hash maps and of ties are parameters |
| C106 | `Page/Spec`: which items, nested how, with which rows, as a reader of the HTML sees them; no new model | induction over the printing program relates the page to the lines of the listing (`tree_shows`), then C85 gives the rows and C82 the items; for diffs the two sides of the page |

## Findings

Behaviour of the code that a user may not expect, each with a theorem.

| # | finding | theorem |
|---|---------|---------|
| 1 | `RangeList::subtract` re-merges through the 16-byte padding rule: it keeps subtracted addresses and can add addresses of neither list; coverage depends on push order; `prev.end + 15` overflows at the top of the address space | C03_subtract_not_exact, C03_subtract_can_add, C05_order_dependent, C61_push_overflows |
| 2 | `frame_location::diff_list` tests `frame_locations_a.len() > 1` twice, so several new locations are missed; overlapped stack areas are shown as unknown | C54_missed_witness, C40_overlap_witness |
| 3 | the diff of the file summary computes `size - fn - var` unchecked | C55_diff_panics |
| 4 | `Function::diff` uses the id of the unit for its section | C81 model (FnModel citation) |
| 5 | bloat report unwraps a missing address; `diff_id` indexes out of range | C38_report, C38_bloat_id, C39_diff |
| 6 | comparing `void` with `void` trips a debug assertion | C63_void_pointer_trips_assertion |
| 7 | the identity of multi-dimensional arrays ignores the dimensions | C11_multi_dim_arrays_confused |
| 8 | cyclic type references recurse without bound (size, identity, printing) | C13_cycles_diverge, C78_endless_witness |
| 9 | items that are not listed keep id 0, which is the id of the first unit | C37_* |
| 10 | HTML: labels of deleted/added sections are unmarked; equal text with different links is a change only in HTML | C80_label_witness, C80_link_witness |
| 11 | a changed header without body is dropped; `Modify` marking leaks into later lines; headers of changed sections are unmarked | C22_*, C67_modify_leaks, C66_header_unmarked |
| 12 | DWARF: unresolved variables are dropped; DWARF 5 static members are ignored; forced subprograms do not inherit; results of `DW_OP_plus`/`minus` are dropped; `plus_uconst` is masked; overflow panics | C45_dropped_witness, C45_dwarf5_witness, C44_nested_witness, C43_plus_witness, C43_mask_witness, C42_panic_witness, C59_overflow_witness |
| 13 | an empty variant moves its variant part to offset 0; a struct without items has an empty layout whatever its size | C65_empty_variant_moves_start, C14_empty_struct |
| 14 | HTML names: braces are reordered; instruction rows are put inside a list | C29_brace_reordered, C28_rows_in_list |
| 15 | absolute file names are joined to the directory; unit sizes count twice | C52_absolute_file_not_special, C60_size_double_counts |
| 16 | `segment_bytes` panics on inverted ranges | C36_inverted_panics |
| 17 | `print_cfi` underflows when a function starts inside an FDE | C41_mismatch_witness |
| 18 | FDE lookup misses under nested or empty entries; negative offsets printed as huge hex; CFI offsets overflow | C48_overlap_witness, C48_empty_witness, C49_negative_offset_witness, C49_panics_iff |
| 19 | PLT entries in one 16-byte block collide; i386 registers get x86-64 numbers | C51_plt_collision_witness, C70_i386_witness |
| 20 | a function with an empty range list is put at address 0; `low_pc + size` wraps | C57_empty_ranges_witness, C57_wrap_witness |
| 21 | a little-endian bit field without byte size is put at the start of its unit | C17_missing_size_witness |
| 22 | a line table without usable sequences hides the ranges of the unit | C47_line_table_hides_witness |
| 23 | the upper bound of a subrange from a count is off by one; negative lower bounds are read as 0 | C50_subrange_witness, C50_negative_lower_witness |
| 24 | abstract origins of origins are not followed; an unreadable origin name erases a call parameter's own name | C56 `Inherits`, C79 `withOrigin` |
| 25 | display forms of listing and diff disagree (one against several base classes or addresses); instructions are never compared but always marked | C76_bases_witness, C81_addresses_witness, C81_instructions_witness |
| 26 | a struct with an unnamed member of its own type is listed forever | C77_endless_witness |
| 27 | inside a variant, gap offsets are relative but member offsets absolute | C77_variant_gap_witness |
| 28 | the diff of stack frames compares type offsets of different files | C81_frame_witness |
| 29 | an added unit with an empty listing is reported without output | C82_empty_unit_witness |
| 30 | in the web view of a diff, a function that both files have carries the id of its unit (function.rs:279): opening it loads the unit | C89_function, C89_function_witness |
| 31 | in the web view of a diff, the contents of deleted and added items are not marked | C89_marks_witness |
| 32 | in the web view of a diff, instructions of deleted and added functions and links to items not loaded do nothing: `/id/N/code` and `/id/N/parent` are not served (main.rs:572-607) | C89_detail |
| 33 | the members of a Rust variant are those of the struct it consists of, and the position of that struct in the enumeration is dropped (dwarf.rs:1515-1531); rustc puts it at offset 0 | C72_variant_offset_witness |
| 34 | stubs are recognised by an operand relative to the instruction pointer only, so that no stub of a 32-bit x86 file has a name (code.rs:480-498) | C90_absolute |
| 35 | a location at the smallest 64-bit offset from a register, the frame or the frame address makes printing a call site panic: the offset is negated (print/location.rs, `print_location`) | C92_offset_witness |
| 36 | when standard output fails only at the final flush, the error is ignored: an output of less than 8192 bytes to a full disk is lost entirely with no message (main.rs, `format`: the `BufWriter` is dropped, not flushed) | C97_short_output_lost |
| 37 | an HTML diff goes on with the footer after a failed write, so a page that ends properly can lack a part in the middle (main.rs, `diff_file` returns `Ok`) | C97_html_diff_can_lack_the_middle |
| 38 | `--filter` values are cut at commas, with no escape: no command line can filter by a name such as `f<int, char>`; the attempt is an error (main.rs, `value_delimiter(',')`) | C99_comma_filter_is_rejected, C99_comma_names_are_not_found |
| 39 | a second `--filter` of the same kind silently replaces the first: `-f name=f -f name=g` lists `g`, so adding a filter can add lines (main.rs, `main`) | C100_replaced_filter_witness |
| 40 | with `-p calls`, `--ignore address` does not hide address changes but rewrites the lines of the calls (`0x1000 -> 0x2000` becomes `0x2000`), so it changes lines instead of leaving them out (print/function.rs, `print_call`) | C101_calls_witness |
| 41 | the sizes in the summary of a unit depend on the order of its functions in the file, with the same functions and `--sort name` (unit.rs `function_size`, range.rs `push`) | C102_order_witness |
| 42 | `--filter unit=NAME` in a diff splits pairs of Rust codegen units: units are paired by the name before `@` but filtered by the whole name, so a unit that is compared with its new version is shown as deleted under the filter (filter.rs `filter_unit`, print/unit.rs `cmp_id`) | C101_unit_filter_witness |
| 43 | `--filter inline=y` in a diff shows a function that is inline in the old file only as deleted, though it is in both files (filter.rs `filter_function`) | C101_inline_filter_witness |
| 44 | `--ignore function-address` does not cover call sites: with `--print function-calls` every function that moved and has a call site with an address is reported (function_call.rs `print_header`, `return address`) | C103_call_witness |
| 45 | `frame_location::diff_list` tests `a.len() > 1 \|\| a.len() > 1` (line 33): one stack location against several that start with it is not reported, the other way round it is | C104_locations_witness |
| 46 | the difference of two sizes is computed as `i64`: 0 against 2^63 bytes prints, 2^63 against 0 overflows | C104_overflow_witness |

## Mutation testing

`seeded/LOG.jsonl` has one line per edited definition: the edit, the claim it breaks, the theorems
that failed and those that were tightened because an edit survived.
