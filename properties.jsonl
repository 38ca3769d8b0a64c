{"id": "C01", "title": "Range lists are canonical after sorting", "statement": "After any number of RangeList::push calls followed by sort(), list() contains only non-empty ranges, in strictly increasing address order, pairwise disjoint and non-adjacent, and sorting again changes nothing.", "quantifier": "every sequence of pushed ranges (any begin/end, including inverted and overlapping ones)", "why_tests_cant": "overlap, adjacency and alignment padding interact over sequences of any length; a test samples a few lists", "anchors": ["parser/src/range.rs:RangeList::push", "parser/src/range.rs:RangeList::sort"]}
{"id": "C02", "title": "Range lists lose no address and only invent alignment padding", "statement": "Every address inside a pushed non-empty range is covered by the list after any pushes and sort(); and every address the list covers is either inside some pushed range or lies fewer than 16 bytes below the 16-byte-aligned begin of a pushed range, in the gap after a previous one.", "quantifier": "every push sequence and every address", "why_tests_cant": "quantifies over all 2^64 addresses and all push sequences", "anchors": ["parser/src/range.rs:RangeList::push", "parser/src/range.rs:RangeList::sort"]}
{"id": "C03", "title": "Range subtraction keeps exactly the difference", "statement": "For sorted lists a and b, a.subtract(b) covers every address in a and not in b, and no address of b or outside a. (The code satisfies the first half; the second half fails because the result is re-merged across alignment padding: proved exact up to padding, with a witness for the failure.)", "quantifier": "every pair of sorted range lists and every address", "why_tests_cant": "two-pointer loop over lists of any length with all overlap shapes", "anchors": ["parser/src/range.rs:RangeList::subtract"]}
{"id": "C04", "title": "The size of a range list is the number of addresses it covers", "statement": "For a sorted list, size() equals the number of distinct addresses covered; it never underflows; and it is bounded by one past the largest end.", "quantifier": "every push sequence", "why_tests_cant": "a counting statement over arbitrary address sets", "anchors": ["parser/src/range.rs:RangeList::size", "parser/src/range.rs:Range::size"]}
{"id": "C05", "title": "Coverage does not depend on push order", "statement": "Pushing the same ranges in any order and then sorting covers the same addresses. (True when no pushed range begins on a 16-byte boundary; false in general: padding merges depend on push order, witness proved.)", "quantifier": "every permutation of every push sequence", "why_tests_cant": "order-independence over all permutations", "anchors": ["parser/src/range.rs:RangeList::push", "parser/src/range.rs:RangeList::sort", "parser/src/unit.rs:Unit::ranges"]}
{"id": "C06", "title": "Optional address and size sentinels round-trip", "statement": "Address/Size built from a known value return that value from get(), none() returns None, is_some/is_none agree with get(), and the derived order places unknown after every known value; only u64::MAX is unrepresentable. The same holds for the usize-based offset types.", "quantifier": "every 64-bit value", "why_tests_cant": "2^64 values; the collision at the sentinel is a single point", "anchors": ["parser/src/lib.rs:Address", "parser/src/lib.rs:Size", "parser/src/types.rs:TypeOffset", "parser/src/function.rs:FunctionOffset"]}
{"id": "C07", "title": "Namespace comparison is a total order on qualified paths", "statement": "Comparing two namespaces is the lexicographic comparison of their full name paths from the outermost scope: reflexive, antisymmetric, transitive and total, equal exactly when the two paths are equal name by name.", "quantifier": "every pair/triple of namespace chains of any depth", "why_tests_cant": "recursion over chains of different depth; the code walks up the longer one first", "anchors": ["parser/src/namespace.rs:Namespace::cmp", "parser/src/namespace.rs:Namespace::_cmp", "parser/src/namespace.rs:Namespace::len"]}
{"id": "C08", "title": "Namespace filter matches exactly the prefix of the path", "statement": "is_within(filter) is true exactly when the filter's names are a prefix of the namespace's path of names, an unnamed component never matching.", "quantifier": "every namespace chain and every filter list", "why_tests_cant": "unbounded depth of both", "anchors": ["parser/src/namespace.rs:Namespace::is_within", "main/src/lib.rs:Options::filter_namespace"]}
{"id": "C09", "title": "Qualified-name comparison is a total preorder", "statement": "cmp_ns_and_name compares by namespace path first (absent before present) then by name, and is reflexive, antisymmetric up to equality, transitive and total.", "quantifier": "every triple of optionally-namespaced names", "why_tests_cant": "all triples, unbounded depth", "anchors": ["parser/src/namespace.rs:Namespace::cmp_ns_and_name"]}
{"id": "C10", "title": "Type identity comparison is a total preorder", "statement": "On types whose references do not form a cycle, Type::cmp_id is reflexive (across two files with equal content), antisymmetric under swapping the arguments, and transitive, so sorting and merging by it is well defined.", "quantifier": "every triple of types in any acyclic type graphs, of any nesting depth", "why_tests_cant": "transitivity over mutually recursive type structure cannot be sampled", "anchors": ["parser/src/types.rs:Type::cmp_id", "parser/src/types.rs:TypeKind::cmp_id", "parser/src/types.rs:TypeModifier::cmp_id", "parser/src/types.rs:FunctionType::cmp_id"]}
{"id": "C11", "title": "Equal type identity means same kind and same name or structure", "statement": "If cmp_id says two types are equal then they have the same kind and equal names (named kinds) or equal component structure (modifiers, arrays, functions, pointers to members). (False for multi-dimensional arrays, whose dimensions are not compared: witness proved.)", "quantifier": "every pair of types", "why_tests_cant": "quantifies over all type graphs", "anchors": ["parser/src/types.rs:ArrayType::cmp_id", "parser/src/types.rs:TypeKind::cmp_id"]}
{"id": "C12", "title": "Byte size of a type is determined by its structure", "statement": "byte_size is the declared size when present; typedefs and modifiers other than pointers take their target's size, pointers and references the address size, arrays the product of element size and all dimensions, and is unknown exactly when some needed component is unknown.", "quantifier": "every acyclic type graph", "why_tests_cant": "recursion to any depth through references", "anchors": ["parser/src/types.rs:Type::byte_size", "parser/src/types.rs:ArrayType::byte_size", "parser/src/types.rs:TypeModifier::byte_size", "parser/src/types.rs:TypeDef::byte_size"]}
{"id": "C13", "title": "Type queries terminate exactly on acyclic references", "statement": "byte_size and cmp_id terminate whenever the chain of references reachable from the type is acyclic; on a cyclic typedef/modifier chain they never return.", "quantifier": "every type graph", "why_tests_cant": "non-termination cannot be observed by a finite test", "anchors": ["parser/src/types.rs:Type::byte_size", "parser/src/types.rs:Type::cmp_id"]}
{"id": "C14", "title": "Struct layout is a gap-free tiling", "statement": "For a struct whose members, inherited bases and variant parts have known sizes, do not overlap and fit the struct, layout() lists items in increasing offset order, each starting where the previous one ends, from offset 0 to the struct's size, inserting a padding item exactly in the gaps.", "quantifier": "every list of members/bases/variant parts in any order", "why_tests_cant": "all arrangements of members of any count", "anchors": ["parser/src/types.rs:layout", "parser/src/types.rs:StructType::layout", "parser/src/types.rs:Layout"]}
{"id": "C15", "title": "Struct layout contains every item exactly once", "statement": "layout() contains each member, base and variant part exactly once, in a stable order by (offset, size); a padding item is never empty, starts where the item before it ends (or at 0) and ends where the item after it starts (or at the struct's size), even for overlapping or unsized members.", "quantifier": "every list of members, including overlapping and unsized ones", "why_tests_cant": "all inputs including malformed ones", "anchors": ["parser/src/types.rs:layout"]}
{"id": "C16", "title": "Variant extents bound their members", "statement": "A variant's or variant part's bit_offset is the least member offset (0 when empty) and bit_size the distance to the furthest member end, unknown when any member size is unknown.", "quantifier": "every list of variants and members", "why_tests_cant": "min/max over arbitrary lists", "anchors": ["parser/src/types.rs:Variant::bit_offset", "parser/src/types.rs:Variant::bit_size", "parser/src/types.rs:VariantPart::bit_offset", "parser/src/types.rs:VariantPart::bit_size"]}
{"id": "C17", "title": "Bit-field offsets are normalised to the DWARF 4 form", "statement": "A member described with DW_AT_bit_offset (from the most significant bit) inside a storage unit gets the bit offset of its least significant bit on little-endian targets and of its most significant bit on big-endian ones; the field lies inside its storage unit whenever bit_offset+bit_size fits it.", "quantifier": "every storage unit, field width and position, both byte orders", "why_tests_cant": "all widths/positions, wrap-around at 2^64", "anchors": ["parser/src/file/dwarf.rs:parse_member", "parser/src/file/dwarf.rs:parse_data_member_location"]}
{"id": "C18", "title": "Merging two sorted lists loses and invents nothing", "statement": "MergeIterator yields every left item and every right item exactly once and in order; Both is yielded only for items that compare equal; for lists strictly sorted by the same order an item is reported as one-sided exactly when the other list has no equal item; the output is sorted.", "quantifier": "all pairs of lists and all total comparison functions", "why_tests_cant": "unbounded lists, all interleavings", "anchors": ["main/src/print/mod.rs:MergeIterator::next"]}
{"id": "C19", "title": "The edit path is a complete alignment of the two lists", "statement": "shortest_path always returns (never reaches its panic, never indexes out of bounds), and the path consumes every item of both lists exactly once, in order, using a pairing only for items whose difference cost is below the cost of delete plus add.", "quantifier": "all list lengths, all cost functions, all tie-breaking orders of the priority queue", "why_tests_cant": "correctness for every input and every heap tie-break", "anchors": ["main/src/print/mod.rs:shortest_path", "main/src/print/mod.rs:DiffState::list"]}
{"id": "C20", "title": "The edit path has minimal cost", "statement": "No other alignment that pairs only allowed items has a smaller total cost than the one returned by shortest_path.", "quantifier": "all lists, costs and alternative alignments", "why_tests_cant": "optimality quantifies over exponentially many alternatives", "anchors": ["main/src/print/mod.rs:shortest_path"]}
{"id": "C21", "title": "Diffing a list with itself shows no insertions or deletions", "statement": "When equal items cost 0 to pair and a positive amount to add or delete, the diff of a list against an equal list pairs every item with its counterpart.", "quantifier": "every list and every such cost function", "why_tests_cant": "all lists; ties could misalign", "anchors": ["main/src/print/mod.rs:shortest_path", "main/src/print/mod.rs:DiffState::list"]}
{"id": "C22", "title": "Differences are flagged exactly when a changed line was produced", "statement": "Running any diff body, the difference flag ends true if and only if some delete/add/modify line, added block or removed block was produced outside ignored sections; and the text output of a section wrapped in print_if_diff is empty exactly when the flag stayed false.", "quantifier": "every composition of diff combinators, any nesting", "why_tests_cant": "all printing programs of any shape", "anchors": ["main/src/print/mod.rs:DiffState::print_if_diff", "main/src/print/mod.rs:DiffState::ignore_diff", "main/src/print/mod.rs:DiffState::indent_impl", "main/src/print/mod.rs:DiffState::line_impl"]}
{"id": "C23", "title": "Identical inputs produce an empty text diff", "statement": "If both sides supply the same values to every field and equal lists to every list, no text is printed inside print_if_diff sections and the diff flag is false.", "quantifier": "every composition of diff combinators", "why_tests_cant": "all printing programs", "anchors": ["main/src/print/mod.rs:DiffState::line_impl", "main/src/print/mod.rs:DiffState::sort_list", "main/src/print/mod.rs:DiffState::list"]}
{"id": "C24", "title": "Deleted and added items are hidden only on request", "statement": "sort_list prints every left-only item unless ignore_deleted and every right-only item unless ignore_added; paired items appear exactly when they differ; nothing is printed twice.", "quantifier": "all merged lists and option settings", "why_tests_cant": "all lists and combinations", "anchors": ["main/src/print/mod.rs:DiffState::sort_list", "main/src/print/mod.rs:MergeResult::cmp"]}
{"id": "C25", "title": "Text output lines carry the right prefix and indentation", "statement": "Each line printed by the text printer is the diff marker of its section, one tab/indent per enclosing level, the label and value, and a newline; a body's lines are each indented one deeper than its header; changed values print a '-' line with the old value then a '+' line with the new one.", "quantifier": "every nesting of headers and bodies", "why_tests_cant": "unbounded nesting", "anchors": ["main/src/print/text.rs:TextPrinter"]}
{"id": "C26", "title": "Inline depth limits nested expansion exactly", "statement": "With inline_depth d, inlined bodies are expanded for nesting levels up to d and never beyond, and the depth counter returns to its value after each inline call.", "quantifier": "every nesting structure and every d", "why_tests_cant": "unbounded nesting", "anchors": ["main/src/print/text.rs:TextPrinter::inline_begin", "main/src/print/mod.rs:PrintState::inline"]}
{"id": "C27", "title": "Values in HTML output are escaped", "statement": "Text written through the HTML value printer contains none of <, >, &, quotes raw; unescaping gives the original text back; and escaping is compositional over writes.", "quantifier": "every byte string and every split into writes", "why_tests_cant": "all strings", "anchors": ["main/src/print/html.rs"]}
{"id": "C28", "title": "HTML output is well nested", "statement": "For every tree of sections, fields, lists and inlined parts, printed or diffed, the HTML printer's output is a sequence of balanced, properly nested list items, and the printer is left as it was; a listing of instructions is a sequence of complete table rows. (Rows inside a collapsible field end up in a list instead of a table: witness proved.)", "quantifier": "every nesting of calls", "why_tests_cant": "unbounded nesting", "anchors": ["main/src/print/html.rs:HtmlPrinter"]}
{"id": "C29", "title": "HTML abbreviation of names never loses the name", "statement": "A name printed in HTML is either shown in full or shown abbreviated inside an element whose title attribute is the full escaped name; names without generics or braces are shown in full; and what is shown of a name without braces is, apart from dots, characters of the name in order. (A brace outside generics, e.g. a::{closure}::b, is shown out of order: witness proved.)", "quantifier": "every string", "why_tests_cant": "a character state machine over unbounded strings", "anchors": ["main/src/print/html.rs:HtmlValuePrinter::name"]}
{"id": "C30", "title": "Filters select exactly the items satisfying all given criteria", "statement": "An item is listed iff it satisfies every filter option supplied: name, namespace, unit and inline status; functions that are neither inline nor placed are omitted; types and variables per their documented rule.", "quantifier": "every item and every combination of options", "why_tests_cant": "combinatorial option space", "anchors": ["main/src/filter.rs:filter_function", "main/src/filter.rs:filter_variable", "main/src/filter.rs:filter_type", "main/src/filter.rs:filter_unit", "main/src/lib.rs:Options"]}
{"id": "C31", "title": "Command-line options have their documented effect", "statement": "Each -p/-i/-f/--sort value sets exactly the options documented; specifying no category enables all; unknown keys are rejected; later values do not disturb unrelated ones.", "quantifier": "every sequence of command-line values", "why_tests_cant": "all sequences", "anchors": ["main/src/main.rs:main"]}
{"id": "C32", "title": "Prefix maps apply the longest matching prefix", "statement": "After command-line processing, a path is rewritten by the mapping with the longest matching old prefix (the first given among equals), and left unchanged when none match; paths mapped equal compare equal.", "quantifier": "every set of mappings and every path", "why_tests_cant": "all strings", "anchors": ["main/src/lib.rs:Options::prefix_map", "main/src/main.rs:main"]}
{"id": "C33", "title": "Every symbol is accounted for", "statement": "After parsing, each function/variable symbol of the object file is either attached to a debug-info entry at its address or appears exactly once in the <symtab> unit; none is dropped or duplicated.", "quantifier": "every symbol table and every set of debug-info entries", "why_tests_cant": "all overlaps of addresses", "anchors": ["parser/src/file/mod.rs:File::normalize", "parser/src/file/mod.rs:File::get_symbol"]}
{"id": "C34", "title": "Unknown ranges complete the file's address space", "statement": "After parsing, the <unknown> unit covers exactly the section addresses no other unit covers (up to alignment padding), so known and unknown ranges together cover every section byte. The sections considered are exactly the object's non-empty ones, in order, those at address 0 counting as not loaded; a section whose name or segment cannot be read makes the file unreadable.", "quantifier": "every section/unit layout", "why_tests_cant": "all range layouts", "anchors": ["parser/src/file/mod.rs:File::normalize", "parser/src/file/mod.rs:File::ranges"]}
{"id": "C35", "title": "Lookups by offset and address return an entry with that key", "statement": "FileHash and FunctionHash lookups return an entry iff one with that key exists in the file, and the entry returned has the requested key (the last one on duplicates).", "quantifier": "every file content", "why_tests_cant": "all duplicate patterns", "anchors": ["parser/src/file/mod.rs:FileHash", "parser/src/function.rs:FunctionHash"]}
{"id": "C36", "title": "Segment bytes are the bytes of that range", "statement": "File::segment_bytes(range) returns a slice iff some segment contains the whole range, and the slice is exactly the bytes of that range.", "quantifier": "every set of segments and every range", "why_tests_cant": "address arithmetic over all ranges", "anchors": ["parser/src/file/mod.rs:File::segment_bytes"]}
{"id": "C37", "title": "Ids identify items uniquely and resolve back", "statement": "Ids assigned to units and their items are distinct consecutive positions, looking an id up yields the item it was assigned to, and an out-of-range id yields no output in print mode. (Diff mode panics instead: witness proved.)", "quantifier": "every file content and option setting", "why_tests_cant": "all file shapes", "anchors": ["main/src/print/file.rs:assign_ids", "main/src/print/file.rs:print_id", "main/src/print/file.rs:diff_id", "main/src/print/file.rs:assign_merged_ids"]}
{"id": "C38", "title": "Bloat totals add up", "statement": "The bloat report groups functions by printed name and source: every function of known size is in exactly one group, once, in file order; a group's total is the sum of its functions' sizes; groups are listed by non-increasing total, whatever order the hash table yields; the callers shown below a function are exactly the calls to its address from functions of known size. The report succeeds iff every function of known size has an address (it panics otherwise), and asking for a single function without an address panics.", "quantifier": "every call-site structure", "why_tests_cant": "unbounded inline trees", "anchors": ["main/src/print/file.rs:bloat", "main/src/print/file.rs:bloat_index"]}
{"id": "C39", "title": "HTTP paths are routed totally", "statement": "Every request path is answered: the root with the whole page, /id/N (with the further segments each mode accepts) with that item, and every other path with an empty page; N is accepted iff it is a decimal number in range for a machine word.", "quantifier": "every URL path", "why_tests_cant": "all strings", "anchors": ["main/src/main.rs:serve_print", "main/src/main.rs:serve_diff"]}
{"id": "C40", "title": "The stack-frame listing is sorted and marks every gap", "statement": "The stack layout of a function lists exactly the parameters and local variables, of the function and of everything inlined into it at any depth, that are stored in the frame; each once, by increasing offset (then size, name, type), determined by the contents alone. An unknown line is shown exactly where the previous entry's known end lies before the next entry; for entries that do not overlap the unknown parts are exactly the unoccupied ones. (With overlapping entries an occupied offset can be shown as unknown: witness proved.) Building the layout panics exactly if an entry's end is not a 64-bit signed number.", "quantifier": "every set of local variables, parameters and locations", "why_tests_cant": "all location sets", "anchors": ["main/src/print/function.rs:FrameVariable"]}
{"id": "C41", "title": "Instructions and CFI directives are interleaved in address order", "statement": "The disassembly listing prints, range by range, an .org line and then every instruction and every CFI directive of the range exactly once, each in its original order; with instructions in address order and directives in order of effect, the directives printed before an instruction are exactly those taking effect at or before its address. The listing stops after the .org line of the first range that cannot be disassembled. Printing panics exactly if an instruction's printing does, a directive is located before the start of the range (witness: a function starting inside a frame entry), or its offset is the least 64-bit number.", "quantifier": "every instruction list and CFI list", "why_tests_cant": "unbounded lists", "anchors": ["main/src/print/function.rs:print_instructions"]}
{"id": "C42", "title": "Location expressions evaluate safely and pieces tile", "statement": "Evaluating any sequence of DWARF operations (without DW_OP_minus, the reserved address 2^64-1, or a total piece size of 2^64 or more) returns pieces or an error without panicking; an error is returned only if DWARF gives the expression no meaning, or it uses jumps, calls, or has undecodable operations; each piece starts at the bit where the sizes of the previous ones end, and only a sole piece may have no size. The pieces are appended to the locations recorded for the parameter or variable, whose address becomes that of the first piece in memory at a fixed address. (Panics with DW_OP_minus or huge sizes: witness proved.)", "quantifier": "every operation sequence of any length, every address size, every previous record", "why_tests_cant": "all programs of any length", "anchors": ["parser/src/file/dwarf.rs:evaluate_simple_internal", "parser/src/file/dwarf.rs:evaluate_local_variable_location", "parser/src/file/dwarf.rs:evaluate_parameter_location"]}
{"id": "C43", "title": "A reported location is where DWARF says the object is", "statement": "Against DWARF's own stack-machine semantics, for every machine state: if an expression without DW_OP_plus, DW_OP_minus, jumps and calls has a meaning, the reported pieces have the extents DWARF gives them, and each is in the register, at the address (modulo the address size), or has the value that DWARF gives, unless it is reported as too complex. With 8-byte addresses adding a constant moves a register-, frame- or CFA-relative offset exactly. (With 4-byte addresses negative offsets turn into large ones, and results of DW_OP_plus and DW_OP_minus are dropped so that a wrong location is reported: witnesses proved.)", "quantifier": "every operation sequence, machine state and address size", "why_tests_cant": "all programs, all register contents, wrap-around arithmetic", "anchors": ["parser/src/file/dwarf.rs:evaluate_simple_internal"]}
{"id": "C44", "title": "Specification resolution keeps every function and terminates", "statement": "For every tree of entries with any specification / abstract-origin references (forward, cyclic, missing, into nested functions) parsing a unit ends, lists every subprogram entry of the tree exactly once by increasing offset, and completes each one whose chain of references ends (outside functions whose own chain does not) with the scope, missing name, linkage name, source, return type, and for abstract origins the parameters, of the function it refers to; all others keep their own record.", "quantifier": "every reference graph", "why_tests_cant": "fixpoint over arbitrary graphs", "anchors": ["parser/src/file/dwarf.rs:fixup_subprogram_specifications", "parser/src/file/dwarf.rs:inherit_subprogram"]}
{"id": "C45", "title": "Specification resolution keeps every variable", "statement": "The variables listed for a unit are exactly the namespace-level variables and declared static members of the tree whose chain of DW_AT_specification references ends, each once by increasing offset, completed with the scope, missing name, linkage name and type of the variable it refers to. (Variables whose chain does not end are silently dropped, against the evident intent of the code: witnesses proved.)", "quantifier": "every reference graph", "why_tests_cant": "fixpoint over arbitrary graphs", "anchors": ["parser/src/file/dwarf.rs:fixup_variable_specifications"]}
{"id": "C46", "title": "Relocations are applied as the object format defines", "statement": "Reading an address or offset at a relocated position yields symbol+addend (absolute) or symbol+addend-place (relative), plus the stored value when the addend is implicit; elsewhere the stored value is returned unchanged.", "quantifier": "every relocation list and every offset", "why_tests_cant": "64-bit wrap-around, duplicates", "anchors": ["parser/src/file/dwarf.rs:add_relocations", "parser/src/file/dwarf.rs:Relocate::relocate"]}
{"id": "C47", "title": "Unit ranges come from the best available source", "statement": "A unit's ranges are those of its non-zero line sequences if it has a line program, else its range list, else low/high pc; low_pc is the smallest covered address.", "quantifier": "every line program and attribute combination", "why_tests_cant": "all row sequences", "anchors": ["parser/src/file/dwarf.rs:parse_unit"]}
{"id": "C48", "title": "FDE lookup finds the covering entry", "statement": "The frame entry found for an address always covers it; for non-empty, non-overlapping entries the covering entry is always found; .eh_frame is preferred and .debug_frame used only if the former has no readable covering entry. (Nested or empty entries can hide a covering entry: witnesses proved.)", "quantifier": "every table and every address", "why_tests_cant": "binary search over any table", "anchors": ["parser/src/file/dwarf.rs:FdeOffsetTable::find", "parser/src/file/dwarf.rs:FdeOffsetTable::new"]}
{"id": "C49", "title": "CFI listings are bracketed and in address order", "statement": "The CFI of an entry starts with StartProc (then personality, LSDA and signal-frame directives exactly if they apply), ends with EndProc at the end address, and between them has exactly one directive per non-location instruction, in order, with its DWARF meaning and the address the preceding instructions reach; addresses never decrease unless the program sets the location backwards. It fails (panics) exactly if a scaled offset, a location or the end address overflows.", "quantifier": "every CFI program", "why_tests_cant": "all programs", "anchors": ["parser/src/file/dwarf.rs:get_cfi", "parser/src/file/dwarf.rs:convert_cfi"]}
{"id": "C50", "title": "Array and subrange bounds", "statement": "An array dimension's count is the declared count, else upper-lower+1 (lower defaulting to 0), unknown on overflow or if no bound is given; a subrange's bounds are the declared ones, and its upper bound is lower+count if a lower bound and a count are given (one more than the last index: witness proved; a negative lower bound is read as 0: witness proved). The enumerators of an enumeration are its enumerator entries in order, each with its name and with its value read as unsigned if the underlying type is unsigned, else sign-extended from its stored width.", "quantifier": "every combination of attributes", "why_tests_cant": "64-bit arithmetic boundaries", "anchors": ["parser/src/file/dwarf.rs:parse_array_type", "parser/src/file/dwarf.rs:parse_subrange_type"]}
{"id": "C51", "title": "Code bytes and indirect targets are read from the right place", "statement": "Looking up code for an address range returns exactly that range's bytes from the first region wholly containing it, and nothing if none does; 4- and 8-byte reads return the little-endian value stored there. An instruction is reported as a call exactly if it is a call one of whose operands names an address (an immediate, or a pointer stored relative to the next instruction), from its own address to the first one named; PLT symbols are recorded for the 16-byte block of the instruction using the relocated slot (two symbols in one block collide: witness proved).", "quantifier": "every region list and range", "why_tests_cant": "address arithmetic", "anchors": ["main/src/code.rs:Code::range", "main/src/code.rs:read_mem", "main/src/code.rs:call_x86", "main/src/code.rs:plt"]}
{"id": "C52", "title": "Source positions print without loss", "statement": "The printed path is the file, after its directory if it has one, after the unit's directory if that directory is relative; each join adds a slash only if missing; line/column are appended exactly when known; column never without line. An absolute file name is not special (witness proved). A unit is referred to by its name, below its directory unless the name is absolute.", "quantifier": "every source record", "why_tests_cant": "all strings and numbers", "anchors": ["parser/src/source.rs:Source::path", "main/src/print/source.rs:print", "main/src/print/unit.rs:print_ref"]}
{"id": "C53", "title": "Listing order is a stable permutation determined by the sort option", "statement": "sort_list prints a permutation of the selected items, ordered by the chosen key, items with equal keys keeping their input order; name/size order relations are total preorders.", "quantifier": "every item list and sort option", "why_tests_cant": "all lists", "anchors": ["main/src/print/mod.rs:PrintState::sort_list", "main/src/print/function.rs:Function::cmp_by"]}
{"id": "C54", "title": "Frame location changes are reported", "statement": "When the old side has several frame locations, a difference is reported iff the two sets differ. When it has at most one, only the first location of each side is compared, by offset and size in bytes, so that added locations can go unreported (witness proved).", "quantifier": "every pair of location lists", "why_tests_cant": "all lists", "anchors": ["main/src/print/frame_location.rs:diff_list"]}
{"id": "C55", "title": "File summary sizes are consistent", "statement": "Whenever function and variable sizes do not exceed the total, the file summary's function, variable and other parts add up to the total exactly; they never exceed it if no address is counted twice. Printing never fails on the summary; diffing fails exactly when on some side the function and variable sizes exceed the total (its subtraction is unchecked).", "quantifier": "every file", "why_tests_cant": "unbounded unit lists", "anchors": ["main/src/print/file.rs:print", "main/src/print/file.rs:diff", "parser/src/file/mod.rs:File::function_size"]}
{"id": "C56", "title": "Abstract-origin children override only what they state", "statement": "The details of a function are the parameters and local variables of its abstract origin, to which its own entries (variables in nested blocks too) are joined in order: a parameter or local variable with an abstract origin updates the inherited entry in place, changing only what it states and extending its locations; without a matching origin it is appended; so order and count of inherited parameters are preserved. Every inlined call is listed, in order, and described in the same way at every depth. Details are returned for every function unless evaluating a location panics.", "quantifier": "every function entry, abstract origin, parameter list, nesting of blocks and inlined calls", "why_tests_cant": "all lists", "anchors": ["parser/src/file/dwarf.rs:parse_parameter_type", "parser/src/file/dwarf.rs:parse_parameter", "parser/src/file/dwarf.rs:parse_local_variable"]}
{"id": "C57", "title": "Function and inlined-function sizes match their ranges", "statement": "A function's ranges are those its attributes state (empty ones dropped); if there are any, its size is the sum of their sizes and its address is the begin of the first; the same for an inlined function, whose ranges are non-empty unless its high_pc states size 0. (Ranges beyond the end of the 64-bit address space are inverted, and a range list of empty ranges gives address 0: witnesses proved.)", "quantifier": "every attribute combination whose ranges lie in the 64-bit address space", "why_tests_cant": "64-bit arithmetic, all lists", "anchors": ["parser/src/file/dwarf.rs:parse_subprogram", "parser/src/file/dwarf.rs:parse_inlined_subroutine_details"]}
{"id": "C58", "title": "Location queries report exactly the non-value pieces of that kind", "statement": "registers(), frame_locations() and register_offsets() return the register/frame/register-relative pieces of a variable that are not values, in order, and nothing else.", "quantifier": "every location list", "why_tests_cant": "all lists", "anchors": ["parser/src/location.rs", "parser/src/variable.rs:LocalVariable", "parser/src/function.rs:Parameter"]}
{"id": "C59", "title": "Numeric field differences show the right delta", "statement": "A changed numeric field prints the old value, the new value and new-old with sign, whenever both values are below 2^63 or both are at least 2^63; unchanged fields print once without a delta. (Across 2^63 the difference overflows or has the wrong sign: exact condition and witness proved.)", "quantifier": "every pair of 64-bit values", "why_tests_cant": "64-bit signed overflow boundaries", "anchors": ["main/src/print/mod.rs:DiffState::field_u64"]}
{"id": "C60", "title": "Unit sizes decompose into functions, variables and unknown", "statement": "A unit's known ranges cover every address of its functions and variables and nothing else but padding; its unknown ranges are its ranges minus those, up to padding; function_size and variable_size count the covered addresses once each, and size is their sum (which counts an address in both twice: witness proved).", "quantifier": "every unit", "why_tests_cant": "unbounded lists", "anchors": ["parser/src/unit.rs:Unit"]}
{"id": "C61", "title": "Pushing a range overflows only near the top of the address space", "statement": "RangeList::push never overflows its alignment arithmetic when every range ends at or below 2^64-16; above that a push can overflow (witness proved).", "quantifier": "every push sequence of 64-bit ranges", "why_tests_cant": "a boundary at the top of the address space, reached only through accumulated state", "anchors": ["parser/src/range.rs:RangeList::push"]}
{"id": "C62", "title": "Anonymous type namespaces are recognised exactly", "statement": "is_anon_type is true exactly when, going outwards from the innermost scope, an unnamed type scope is reached through type scopes only.", "quantifier": "every namespace chain", "why_tests_cant": "unbounded depth", "anchors": ["parser/src/namespace.rs:Namespace::is_anon_type"]}
{"id": "C63", "title": "Type comparison never panics", "statement": "Type::cmp_id returns without panicking for every pair of types. (In builds with debug assertions it panics on any pair that reaches void on both sides, e.g. void* against void*: witness proved; release builds never panic.)", "quantifier": "every pair of types", "why_tests_cant": "an internal assertion reached only through nested references", "anchors": ["parser/src/types.rs:Type::cmp_id"]}
{"id": "C64", "title": "Anonymous types are recognised exactly", "statement": "is_anon is true exactly for structs and unions without a name or defined within an unnamed type.", "quantifier": "every type and enclosing scope chain", "why_tests_cant": "unbounded scope depth", "anchors": ["parser/src/types.rs:Type::is_anon", "parser/src/types.rs:StructType::is_anon", "parser/src/types.rs:UnionType::is_anon"]}
{"id": "C65", "title": "Variant layouts stay inside their variant part", "statement": "For every member of every variant of a variant part, the variant part's bit_offset is at most the member's offset, so laying the variant out never underflows; and the variant's members end within the variant part's extent. (A variant without members makes the part start at bit 0 even when all data lies later: witness proved.)", "quantifier": "every variant part", "why_tests_cant": "min/max over arbitrary nested lists", "anchors": ["parser/src/types.rs:Variant::layout", "parser/src/types.rs:VariantPart::bit_offset"]}
{"id": "C66", "title": "Both listings can be read off a diff", "statement": "In a text diff without hidden (print_if_diff) parts, the '-' lines are, in order, lines of the listing of the old file, and the listing of the old file is found in order among the lines not marked '+'; likewise for the new file with '+' and '-' exchanged. (The header of an optional section is unmarked even when only one file has it: witness proved.)", "quantifier": "every composition of diff combinators", "why_tests_cant": "an induction over arbitrary nesting", "anchors": ["main/src/print/mod.rs:DiffState", "main/src/print/mod.rs:PrintState"]}
{"id": "C67", "title": "HTML highlights exactly the changed lines", "statement": "A line is highlighted as modified only when its own section differs. (Refuted by witness: after a modified section, the following unchanged lines of the same body are highlighted as modified.)", "quantifier": "every composition of diff combinators", "why_tests_cant": "state leaking between siblings", "anchors": ["main/src/print/mod.rs:DiffState::indent_impl", "main/src/print/mod.rs:DiffState::line_impl"]}
{"id": "C68", "title": "The text of a CFI directive identifies it", "statement": "Two CFI directives printed with the same text are the same directive (up to an unknown personality or LSDA address, shown as 0), provided register names are distinct and contain no comma.", "quantifier": "every pair of directives and every register naming", "why_tests_cant": "unbounded operands", "anchors": ["main/src/print/function.rs:print_cfi"]}
{"id": "C69", "title": "Instruction annotations name exactly the variables held there", "statement": "Below each disassembled instruction the listing names exactly the parameters and local variables that the debug information places in a register used by one of the operands, or in the memory its displacement reaches, at the address where that operand is read (after the instruction for the first operand); immediates and instruction-pointer-relative operands are explained by function, then variable or PLT symbol, then relocation, then stored pointer. Operand text is the disassembler's, except that jump targets inside the function are shown as +offset.", "quantifier": "every instruction, operand list, set of variables with location lists and symbol environment", "why_tests_cant": "unbounded location lists and operands", "anchors": ["main/src/code.rs:Instruction::print", "parser/src/location.rs:registers", "parser/src/location.rs:register_offsets"]}
{"id": "C70", "title": "Register operands are mapped to their DWARF numbers", "statement": "Every general-purpose and vector register operand, of any width, is looked up under the DWARF number of the x86-64 register it is part of, and no other register is given a number. (The same numbers are used for 32-bit x86, where six of the eight general registers are numbered differently: witness proved.)", "quantifier": "every register of the instruction set", "why_tests_cant": "one wrong entry in the table goes unnoticed", "anchors": ["main/src/code.rs:convert_reg"]}
{"id": "C71", "title": "Every named type is listed once, in its scope", "statement": "The types listed for a unit are exactly its base types, typedefs, structs, unions, enumerations and unspecified types, wherever they are nested (namespaces, types, functions, lexical blocks; also in functions whose specification is resolved late or never), each once, with the record and the qualified scope that its place in the tree gives.", "quantifier": "every tree of debugging information entries with distinct offsets", "why_tests_cant": "recursion over arbitrarily nested scopes and deferred functions", "anchors": ["parser/src/file/dwarf.rs:parse_type", "parser/src/file/dwarf.rs:parse_namespace_children", "parser/src/file/dwarf.rs:parse_subprogram_children", "parser/src/file/dwarf.rs:parse_structure_type"]}
{"id": "C72", "title": "Records carry exactly what the attributes say", "statement": "Name, type, size, source position, flags, addresses, ranges, linkage name and reference offsets in the record of a function, variable, parameter, member or type are those the entry's attributes state, whatever their order (the last one wins if one is repeated); a member, base class or variant is listed exactly if it is a child of the entry of the right kind; a variant of a Rust enumeration whose only member is a struct of the same unit has that struct's name and members.", "quantifier": "every attribute list and every list of children", "why_tests_cant": "unbounded attribute lists, all value forms", "anchors": ["parser/src/file/dwarf.rs:parse_subprogram", "parser/src/file/dwarf.rs:parse_variable", "parser/src/file/dwarf.rs:parse_member", "parser/src/file/dwarf.rs:parse_parameter_type", "parser/src/file/dwarf.rs:parse_structure_type"]}
{"id": "C73", "title": "Section offsets are resolved to the right unit", "statement": "An offset into the debug information is resolved to the first unit whose entries include it, relative to that unit's header; if units do not overlap every entry is found in its own unit, and an offset in no unit is an error.", "quantifier": "every list of units and every offset", "why_tests_cant": "unbounded lists, boundaries", "anchors": ["parser/src/file/dwarf.rs:DwarfDebugInfo::unit"]}
{"id": "C74", "title": "References are resolved to the record of the entry they point to", "statement": "Following a type reference gives the record of the named type, array, subrange, pointer or other type entry at that offset, whichever unit it is in; following a function or variable reference gives the record its unit lists for that entry; a reference to anything else is unresolved, and no type reference means void.", "quantifier": "every file of non-overlapping units with distinct entry offsets, every reference", "why_tests_cant": "cross-unit references, arbitrary nesting", "anchors": ["parser/src/types.rs:Type::from_offset", "parser/src/function.rs:Function::from_offset", "parser/src/variable.rs:Variable::from_offset", "parser/src/file/dwarf.rs:get_type"]}
{"id": "C75", "title": "A diff that reports nothing means equal listings", "statement": "Whenever a diff reports no difference (or prints nothing), the listing of the old file and the listing of the new file are the same lines, apart from sections that are never compared or that the user asked to ignore: nothing that is listed can change unreported.", "quantifier": "every diff closure (any tree of calls of the printing methods with any values), indentation, marker and inline depth", "why_tests_cant": "must hold for every combination of values and nesting; a missed comparison shows only on the input that hits it", "anchors": ["main/src/print/mod.rs:DiffState", "main/src/print/mod.rs:ignore_diff", "main/src/print/mod.rs:print_if_diff"]}
{"id": "C76", "title": "The diff of a type shows what changed in its listing, and only that", "statement": "A type compared with itself shows no difference. If the diff of two types reports none, their listings are identical. Otherwise lines marked - are lines of the old listing, lines marked + of the new, and both whole listings are contained in the diff in order; a difference is reported exactly if some line is marked.", "quantifier": "every pair of base types, typedefs, structs, unions and enumerations, with members nested to any depth, variants and base classes, and every tie-breaking of the alignment", "why_tests_cant": "unbounded nesting and list lengths, all alignments", "anchors": ["main/src/print/types.rs:diff", "main/src/print/struct_type.rs", "main/src/print/union_type.rs", "main/src/print/enumeration.rs", "main/src/print/member.rs", "main/src/print/inherit.rs"]}
{"id": "C77", "title": "The member list of a type is complete, and finite unless a type contains itself", "statement": "The member list of a struct has exactly one line at its own level for each data member, base class, variant part and gap, in layout order, with offset, size, name and type; a union one line for each member; a member of unnamed type is followed by that type's members one level deeper. Listing terminates exactly if no type is, through such members, inside itself.", "quantifier": "every struct and union, every file (including cyclic type references), every nesting depth", "why_tests_cant": "unbounded recursion and list lengths; non-termination cannot be tested", "anchors": ["main/src/print/member.rs", "main/src/print/struct_type.rs:print_members", "main/src/print/union_type.rs:print_members", "main/src/print/types.rs:print_members"]}
{"id": "C78", "title": "A reference to a type reads like its declaration and links to it", "statement": "Whatever a listing, diff or HTML page writes for a reference to a type is determined by the types of the file: scopes joined with ::, struct/union/enum tags, array dimensions, parameters and return type, pointer, reference, const, volatile and restrict prefixes, subrange bounds, <invalid-type> for a type that does not exist; it is never blank unless a name is empty; every link in it leads to the description of the type it names; writing it ends unless the types it is made of lead back to it. With these references and the real comparison of types, a type of a file diffed with itself reports nothing.", "quantifier": "all type graphs, all names, ids and namespaces", "why_tests_cant": "type graphs of any depth, including cycles; the text is assembled by mutual recursion over twelve kinds of type", "anchors": ["main/src/print/types.rs:print_ref", "main/src/print/types.rs:ref_id", "main/src/print/types.rs:print_ref_function", "main/src/print/types.rs:print_ref_modifier", "main/src/print/namespace.rs:print"]}
{"id": "C79", "title": "The calls listed for a function are the call sites of its entry", "statement": "The details of a function, and of every call inlined in it, list one call for each call site in their scope, in order, whether old (GNU) or standard. Each has the kind, call and return address, target, source position and parameters its entry states; its origin is the function, global variable, local variable, parameter or member referred to; name and type of a parameter come from the parameter of the called function where that is given. The list is returned whenever no location expression makes the evaluation panic.", "quantifier": "every file of non-overlapping units, every function entry, any nesting of blocks and inlined calls, any attributes in any order", "why_tests_cant": "unbounded trees and attribute lists", "anchors": ["parser/src/file/dwarf.rs:parse_call_site", "parser/src/file/dwarf.rs:parse_call_site_parameter", "parser/src/file/dwarf.rs:parse_function_call_origin_offset", "parser/src/function.rs:FunctionCall"]}
{"id": "C80", "title": "An HTML page shows the same tree of lines as the text listing", "statement": "The HTML written for any listing or diff reads as exactly one item per line or section: each section is an item holding the items of its body, each value is written once, and a diff marks exactly the values only the old file has as deleted and those only the new file has as added. Read in order, these are the lines of the text listing, at the same depths and with the same marks (labels of deleted or added sections are not marked in HTML). Two values written in the same HTML are the same text, so a page never hides a change. A reader who goes through a page once, tag by tag, sees exactly these items, so a page can be read in one way only.", "quantifier": "every tree of print or diff calls, value, name and inline depth", "why_tests_cant": "needs induction over all trees of printer calls", "anchors": ["main/src/print/html.rs:HtmlPrinter", "main/src/print/text.rs:TextPrinter", "main/src/print/mod.rs:DiffState"]}
{"id": "C81", "title": "The diff of a function shows what changed in its listing, and only that", "statement": "A function compared with itself reports no difference and prints nothing when unchanged functions are hidden. If the diff of two functions reports no difference, their listings agree in everything but what the user asked to ignore, the instructions, and the order of local variables: names, source, addresses, size, return type, parameters, variables and their locations (given that no variable has several places on the stack), stack frame, inlined functions to any depth, call sites and calls. Lines marked - are lines of the old listing, lines marked + of the new one, and both whole listings are contained in the diff (in order, if local variables are in the order of their names). Whenever a difference is reported some line is marked.", "quantifier": "every pair of functions, all details (any nesting of inlined functions, any lists of parameters, variables, call sites and locations), all options, every tie-breaking of the alignment", "why_tests_cant": "unbounded nesting and list lengths, all alignments, all combinations of options", "anchors": ["main/src/print/function.rs", "main/src/print/parameter.rs", "main/src/print/local_variable.rs", "main/src/print/inlined_function.rs", "main/src/print/function_call.rs", "main/src/print/register.rs", "main/src/print/location.rs", "main/src/print/range.rs"]}
{"id": "C82", "title": "The listing and the diff of a file consist of exactly the wanted items", "statement": "The listing of a file is the summary (if wanted) followed by every unit the filters select, once each, in the chosen order; each unit lists its own lines, and every selected type, function and variable, once each, in the chosen order. The diff pairs units by mapped name, types by identity, functions and variables by qualified name; every selected item of both files is in exactly one pair, or deleted, or added, and no deleted item has a counterpart among the added ones; a pair is shown exactly if its own diff reports a difference, as that diff; deleted items are shown as their old listing marked -, added ones as their new listing marked +, unless ignored. If the diff of two files reports no difference, everything listed is the same up to what the user ignores (where locations are listed: given that no variable has several places on the stack). A file compared with itself reports no difference, marks no line and shows only the summary. With HTML output the page has the same contents: each unit is an item with the unit's lines and a section each for types, functions, only-inlined functions and variables; in a diff every pair is on the page, and deleted and added items are marked.", "quantifier": "every pair of files with any units, types, functions, variables and sections, all options, every tie-breaking of the alignment", "why_tests_cant": "unbounded numbers of items and nesting, all combinations of options", "anchors": ["main/src/print/file.rs:print", "main/src/print/file.rs:diff", "main/src/print/unit.rs", "main/src/print/variable.rs", "main/src/print/section.rs", "main/src/print/mod.rs:sort_list"]}
{"id": "C83", "title": "Numbers, offsets, sizes and values can be read off a listing", "statement": "Every number is written in decimal so that exactly one number reads that way. Each line of the member list of a struct gives offset and size in bytes (and bits, where it is not whole bytes) and says what is there; for names as in source code the line determines offset, size, name and type text of the item. Each enumerator line gives its name and its value, including sign, and determines both.", "quantifier": "every number, offset, size, member, variant part, base class and enumerator of any struct or enumeration", "why_tests_cant": "unbounded integers; injectivity is a statement about all pairs of inputs", "anchors": ["main/src/print/mod.rs:format_bit", "main/src/print/member.rs", "main/src/print/enumeration.rs", "main/src/print/struct_type.rs"]}
{"id": "C84", "title": "No change of a fact about a type goes unreported", "statement": "If the diff of two types reports no difference then the types have the same qualified name, size, declaration flag, encoding, endianity, source position (if shown), base classes, enumerator names and values, and, to any depth, the same members, gaps, base classes, variant parts and variants at the same offsets with the same sizes, names and written types.", "quantifier": "every pair of types with names as in source code, nested to any depth, and every tie-breaking of the alignment", "why_tests_cant": "unbounded nesting and list lengths, all values; a field that is shown ambiguously or skipped by the comparison is found only by the input that hits it", "anchors": ["main/src/print/types.rs:diff", "main/src/print/struct_type.rs", "main/src/print/union_type.rs", "main/src/print/enumeration.rs", "main/src/print/member.rs", "main/src/print/base_type.rs", "main/src/print/type_def.rs"]}
{"id": "C85", "title": "A listing says what is known, and nothing else", "statement": "Printing a function, type, variable, unit or file writes exactly the rows that follow from the data: name, linkage and symbol name, source, addresses, size, flags, return type, parameters (size, name, type, registers, stack places), local variables, stack frame, inlined functions to the given depth, call sites and calls for a function; kind, name, size, flags, base classes, members and enumerators for a type; name, type, address, size for a variable; addresses and sizes for units and files. Each row has the right label, depth and text, nothing is missing, nothing is repeated, and addresses can be read back from the hexadecimal.", "quantifier": "every function, type, variable, unit and file, all options, nesting to any depth", "why_tests_cant": "tests compare the output for a few binaries; a wrong text, label, order or condition for a combination of options and data that no test file has goes unnoticed", "anchors": ["main/src/print/function.rs", "main/src/print/parameter.rs", "main/src/print/local_variable.rs", "main/src/print/inlined_function.rs", "main/src/print/function_call.rs", "main/src/print/location.rs", "main/src/print/types.rs", "main/src/print/variable.rs", "main/src/print/unit.rs:print_unit", "main/src/print/file.rs:print", "main/src/print/section.rs"]}
{"id": "C86", "title": "A diff pairs list items at the least cost", "statement": "Parameters, local variables, members, variants, base classes, enumerators, registers, locations, call sites, calls, inlined functions and sections are shown so that the two lists are complete and in order and no other way to pair items has a lower cost, where the costs are: for parameters, variables and members 1 for another name and 1 for another type against 1 for an item alone; for enumerators 4 for another name and 2 for another value against 3; for call sites 1 per difference against 1; and so on. So two items shown as one always have something in common (name or type, name or value, function or place), padding is never shown as a member, sections are paired by segment and name; and if items were only removed (or only added) nothing is shown as added (deleted) and what remains is shown as unchanged.", "quantifier": "every pair of lists of any length, all items, every tie-breaking of the search", "why_tests_cant": "a minimum over all alignments, and costs that depend on every combination of attributes", "anchors": ["main/src/print/mod.rs:list", "main/src/print/parameter.rs:DiffList", "main/src/print/local_variable.rs:DiffList", "main/src/print/member.rs:DiffList", "main/src/print/enumeration.rs:DiffList", "main/src/print/inherit.rs:DiffList", "main/src/print/function_call.rs:DiffList", "main/src/print/inlined_function.rs:DiffList", "main/src/print/section.rs:DiffList", "main/src/diffutil.rs"]}
{"id": "C87", "title": "No change of a fact about a function, variable, unit or file goes unreported", "statement": "If the diff of two functions reports no difference then everything the options have shown and compared is the same data: qualified name, linkage and symbol names, source, address ranges, size, inline and declaration flags, return type, parameters and local variables with name, type, size, address, registers and places in the stack frame, the stack frame layout, everything inlined to the listed depth, call sites with addresses, targets, source and arguments, and the calls found in the code. If the diff of two files reports no difference then units, types, functions and variables pair up so that each pair has the same facts, the sections, sizes and addresses of files and units agree, and anything without a partner is something the user ignores.", "quantifier": "every pair of functions and every pair of files whose names are names as in source code, inlining to any depth, all options, every tie-breaking of the alignment", "why_tests_cant": "a field that the comparison skips, or shows so that two values look alike, is found only by the inputs that hit it; the claim is about all pairs of inputs", "anchors": ["main/src/print/function.rs:diff", "main/src/print/parameter.rs", "main/src/print/local_variable.rs", "main/src/print/inlined_function.rs", "main/src/print/function_call.rs", "main/src/print/location.rs", "main/src/print/variable.rs:diff", "main/src/print/unit.rs:diff_unit", "main/src/print/file.rs:diff", "main/src/print/section.rs"]}
{"id": "C88", "title": "The web view shows what the printed page shows", "statement": "The page the web server sends for a file, with every item opened by the requests its script makes (/id/N for an item, /id/N/code for the instructions of a function) and the answers put in their places, to any depth, is byte for byte the page that printing with HTML output writes; the server fails on the root page exactly if printing fails. A link to an item not yet loaded works: /id/N/parent answers with the id of an item on the root page whose answer contains the item with id N. Every answer is well-formed HTML whose text reads as the listing of the item.", "quantifier": "every file, every item, every combination of options, every nesting", "why_tests_cant": "all items of all files and all options; the equality of the page put together from many answers and the page printed at once ranges over unbounded inputs", "anchors": ["main/src/main.rs:serve", "main/src/main.rs:serve_print_file", "main/src/print/file.rs:print_id", "main/src/print/file.rs:print_parent", "main/src/print/file.rs:print", "main/src/print/html.rs"]}
{"id": "C89", "title": "The web view of a diff shows what the printed diff shows", "statement": "With --http the page of a diff, after every item on it is opened (each by the request the page's script sends), consists of the same bytes as the page that --diff with HTML output writes; items that only one of the files has are shown on both; the server fails to answer exactly when the printing fails.", "quantifier": "all pairs of files, all options with http, all orders of opening items, all root paths", "why_tests_cant": "the page depends on which items are paired, on the numbers given to them and on the requests of the script; tests see single pages", "anchors": ["main/src/main.rs: serve_diff_file, serve", "main/src/print/file.rs: diff_index, diff_id, diff", "main/src/print/html.rs: HEADER (script), id", "main/src/print/function.rs: diff", "main/src/print/mod.rs: DiffState::id, DiffState::indent_impl"]}
{"id": "C90", "title": "Stubs and relocated slots are named by the symbols of their relocations", "statement": "In the disassembly of an x86 file, a memory slot has the name of the symbol of the last dynamic relocation at its address, and a 16-byte stub of a procedure linkage table has a name only if one of its instructions refers to a slot with that symbol; if the table can be disassembled and the stub refers to slots of one symbol only it has that name, and a call to it is followed by a line with the address and the name.", "quantifier": "every file: sections, segments, relocations, and every result of disassembling the tables", "why_tests_cant": "unbounded lists of sections, relocations and instructions, collisions in maps, early exit on errors", "anchors": ["main/src/code.rs:Code::new", "main/src/code.rs:find_plts", "main/src/code.rs:Instruction::print", "parser/src/file/mod.rs:File::parse_object"]}
{"id": "C91", "title": "The listing says what the debug information entries say", "statement": "A text listing of an object file consists of the rows of the file and the listings of its wanted units; the listing of a unit consists of its own rows and, for each kind the user wants, exactly one item for every wanted type, function and variable entry of the unit's debug information, and nothing else. Each item says what the attributes of its entry say (name, scope, source, sizes, ranges, declared types, members, parameters, enumerators) after resolution of specifications and symbol names. A unit <symtab> lists the function and variable symbols no entry claims, and a unit <unknown> the rest.", "quantifier": "all object files: trees of entries of any depth and order, all attributes, symbols, sections, all options of text output", "why_tests_cant": "the property composes reading, naming, filtering, ordering and printing over unbounded trees of entries", "anchors": ["parser/src/file/mod.rs: File::parse_object", "parser/src/file/dwarf.rs: parse", "main/src/print/mod.rs: print, PrintState", "main/src/print/file.rs: print", "main/src/print/unit.rs: print"]}
{"id": "C92", "title": "Printing and diffing run to the end", "statement": "Printing a file never panics and never loops, whatever the options, if for every unit that is listed: no type that is listed contains itself in place, no names refer to each other in a circle, sizes of arrays and stack offsets stay within 64 bits, and the code of the listed functions can be read. A diff of two such files also runs to the end if the sizes that are subtracted fit in 63 bits, the file summaries add up and no list has more than 2^60 items. What the options leave out does not matter.", "quantifier": "all files, all options, all nesting depths, all orders of items, every tie-breaking of the alignment", "why_tests_cant": "a panic or an endless loop on one combination of data and options is not seen by tests on a few binaries", "anchors": ["main/src/print/file.rs: print, diff", "main/src/print/unit.rs", "main/src/print/types.rs", "main/src/print/function.rs", "main/src/print/location.rs", "main/src/print/mod.rs: list, sort_list, field_u64", "main/src/diffutil.rs"]}
{"id": "C93", "title": "The diff of two object files accounts for every entry of their debug information", "statement": "Comparing an object file with itself reports nothing and marks no line. For two object files: every wanted type, function and variable entry of the debug information of either file is accounted for in the text of the diff: either there is an item with the same identity in a unit of the same name in the other file, and all facts shown about the two are the same or their comparison is part of the text; or its own listing is part of the text with every line marked as deleted (added), unless the user ignores deletions (additions). If nothing is reported, every wanted entry has a counterpart with the same facts, in both directions.", "quantifier": "all pairs of object files: trees of entries of any depth, all attributes and symbols, all options of text output", "why_tests_cant": "the property composes reading, naming, pairing, sorting, alignment and printing over unbounded trees; a lost entry leaves no trace in the output", "anchors": ["main/src/main.rs: diff_file", "main/src/print/file.rs: diff", "main/src/print/unit.rs: diff", "main/src/print/mod.rs: DiffState", "main/src/filter.rs", "parser/src/file/dwarf.rs: parse", "parser/src/file/mod.rs: File::parse_object"]}
{"id": "C94", "title": "References into the storage of a parsed file stay valid", "statement": "Every reference that the storage of a parsed file hands out (decompressed sections, converted names, relocation tables) leads to the data of the call that returned it, and keeps doing so, unchanged, until the file is dropped: whatever is added later, however the lists of the storage are moved when they grow, however several threads interleave, and whatever the rest of the program allocates, frees or moves. A name that is UTF-8 is returned as it is. No call waits for ever. When the file is dropped, everything it refers to can still be read, nothing is freed twice and nothing is leaked.", "quantifier": "all schedules of any number of threads, all choices of addresses by the allocator, all sequences of additions of any length and size, mapped files and files in memory", "why_tests_cant": "the lifetime of the references is extended with transmute, so the compiler does not check them; a dangling reference shows only under some schedules, growth points and allocator decisions", "anchors": ["parser/src/file/mod.rs: Arena::add_buffer, Arena::add_string, Arena::add_relocations, FileContext::new_map, FileContext::new_vec", "parser/src/file/dwarf.rs: parse, DebugInfo::string"]}
{"id": "C95", "title": "Moving debug-info offsets is not a difference", "statement": "If the second file is the first one with every entry of its debug information at another offset, and all references following (as when an unrelated entry is added in front, or units are linked in another order of sections), then no difference is reported, no line is marked, nothing is written for any unit, and the file summary is that of the listing. Exception, which is part of the claim: with stack frames listed, the stack frames compare the offsets of the types of their variables.", "quantifier": "all files, all injective renumberings of entries, all nesting of types, inlined functions and calls, all options of text output, every tie-breaking of the alignment", "why_tests_cant": "which comparisons read raw offsets can only be excluded by looking at all of them; a test compares files whose offsets are alike or which differ elsewhere too", "anchors": ["main/src/print/file.rs: diff", "main/src/print/unit.rs: diff", "main/src/print/types.rs", "main/src/print/function.rs: diff", "main/src/print/member.rs: diff_cost", "main/src/print/frame_location.rs", "parser/src/types.rs: Type::cmp_id"]}
{"id": "C96", "title": "The listing of a function's instructions shows the bytes, frame directives and operands of the file", "statement": "With instructions wanted, the item of a function with code has a section that starts each range of the function with a line with its address, and lists there every instruction the disassembler finds in the bytes that the segments of the file have at that range, and every directive of the call frame information, each directive before the first instruction it has to precede. An instruction is shown with its offset in the range, mnemonic and operands, the target of a jump inside the range relative to it; and below it, for each operand that uses the register or stack slot of a parameter or variable of the function at that point, or the address of a function, variable, stub or relocated slot of the file, a note that says so, and no other note. The listing ends after the first range whose bytes are not in the file or cannot be disassembled. Without a disassembler or for an unknown architecture there is no such section.", "quantifier": "all object files, functions with any number of ranges, all results of the disassembler, all call frame information, all options of text output", "why_tests_cant": "composes segments, relocations, locations of variables, frame tables and the order of two lists; one wrong lookup shows only for particular addresses", "anchors": ["main/src/print/function.rs: print_instructions", "main/src/code.rs: Disassembler::instructions, Instruction::print, Code::range, Code::read_mem, Code::relocation, Code::plt", "parser/src/file/mod.rs: FileHash::new, File::cfi"]}
{"id": "C97", "title": "What standard output receives when writing to it can fail at any point", "statement": "Whatever standard output does at each write (takes all of it, a part of it, or fails; fails for good or recovers), and however the printers cut their output into pieces: what it has received when the program ends is a beginning of the complete output; for an HTML diff when a failure goes away again, a beginning of the header and body followed by the footer or a beginning of it. If no write fails, the complete output is received and nothing is reported. If nothing is reported, at most the last buffer full (8192 bytes) of the output is missing. Every error reported is that of a write that failed.", "quantifier": "all sequences of results of writes on standard output, all buffer sizes, all outputs and ways to cut them into pieces, text and HTML, the three modes", "why_tests_cant": "the failure can be at any byte of any output, and the buffer moves the point where it shows", "anchors": ["main/src/main.rs: format, diff_file, bloat_file, print_file", "main/src/print/html.rs: HtmlPrinter::begin, HtmlPrinter::end", "main/src/print/text.rs: TextPrinter"]}
{"id": "C98", "title": "The command line selects one mode, and a run does that and nothing else", "statement": "A command line is accepted iff it names exactly one of a file, --bloat and --diff, has --ignore and --prefix-map only with --diff, and its other options are valid. If a file it names cannot be read, the run reports exactly one message, with the first such path, reads no later file, prints nothing and starts no server. Otherwise, with format http it starts the server with the files and options and prints nothing; with the other formats it starts no server and prints exactly the complete output of the mode for these files, in the chosen format, reporting nothing unless a write fails.", "quantifier": "all command lines (as split by clap), all contents of the file system and results of reading a file", "why_tests_cant": "ranges over every combination of modes, options and unreadable files, and over every file", "anchors": ["main/src/main.rs: main, cli, format, diff_file, bloat_file, print_file, serve"]}
{"id": "C99", "title": "The command line means what it says", "statement": "Every option has its documented letter and long name, takes its value in any of the usual spellings (--name value, --name=value, -x value, -x=value, -xvalue), and can stand anywhere before --; after -- the arguments are paths. List options can be repeated and their values are cut at commas, the values of all occurrences being taken in order; the others can occur once; a value that is not among the documented choices, a missing or extra value, an unknown option and a second file are errors, and nothing else in the reading of a command line is. The result depends only on what is said of each option and on the file, not on spelling or order, and a command line has one meaning. The choices accepted for format, category, print, sort and ignore are exactly those the program knows. Limit found: as values are cut at commas with no way to write one, no command line can filter by a name that contains a comma.", "quantifier": "all lists of arguments, of any length and content, and all files of the later run", "why_tests_cant": "ranges over every command line: any number of options, in every order and spelling, with arbitrary values", "anchors": ["main/src/main.rs: cli, main"]}
{"id": "C100", "title": "Options that ask for less only leave lines out of a listing", "statement": "If one set of options asks for no more than another (no further kind of detail, category or inline depth, at least the same filters, the same order, format and prefix mappings), then whenever the listing of a file under the larger set is made, so is the one under the smaller set, and its lines are lines of the larger listing, unchanged and in the same order, at the same indentation. So on the command line, adding a --print value or raising --inline-depth only adds lines; restricting the categories or adding filters to a command line without any only removes lines. Options about which differences to ignore change nothing in a listing (other than that the list of calls shows addresses). Limit found: a second filter of the same kind replaces the first, so adding a filter can add lines.", "quantifier": "all files, all pairs of sets of options of which one asks for no more than the other, all command lines giving them, all sort orders", "why_tests_cant": "relates two runs for every pair of option sets and every file; sorting and optional headings could depend on the items left out", "anchors": ["main/src/filter.rs", "main/src/lib.rs: Options", "main/src/print/file.rs: print", "main/src/print/unit.rs: print", "main/src/print/function.rs: print", "main/src/print/mod.rs: PrintState", "main/src/main.rs: main"]}
{"id": "C101", "title": "Asking for less or ignoring more only leaves lines out of a diff", "statement": "If one set of options asks for no more than another (so it may have further filters by name, namespace and unit) and ignores at least the same differences (--ignore), then whenever the diff of two files under the larger set is made, so is the one under the smaller set; its lines are lines of the larger diff, with the same markers and in the same order; and if it reports a difference, so does the larger one. So adding --ignore values to a command line, or --filter values to one without any, only removes lines. Exceptions, which are part of the claim: where calls are listed, function addresses must be ignored in both or neither, as ignoring them rewrites the lines of the calls; the filter for inline functions must be the same, as a function can be inline in one file only; and if the filters by unit differ, no unit has an @ in its name, as units are paired by the name before the @ but filtered by the whole name.", "quantifier": "all pairs of files, all pairs of sets of options of which one asks for no more than the other, all command lines giving them, every tie-breaking of the alignment", "why_tests_cant": "relates two runs for every pair of option sets and files; the pairing of the items, their order and their headings could depend on what is ignored", "anchors": ["main/src/filter.rs", "main/src/print/file.rs: diff", "main/src/print/unit.rs: diff", "main/src/print/function.rs: diff", "main/src/print/mod.rs: DiffState", "main/src/main.rs: main"]}
{"id": "C102", "title": "The order of units and entries in a file does not matter", "statement": "If the units of a file, and the types, functions and variables of its units, are put in another order in which items that the sort order does not tell apart still follow each other as before, the listing of the file without its summary is the same, and so is its diff to another file, whichever of the two is reordered, or both. In particular, sorted by name and without the unit summaries, a file with distinct unit names, in whose units no two types are identical and no two functions or variables have the same qualified name, can be in any order at all. The summaries do depend on the order, because ranges are joined across padding in the order they are added.", "quantifier": "all files, all permutations of their units and of the entries of each unit that keep indistinguishable items in order, all options, every tie-breaking of the alignment", "why_tests_cant": "relates runs on every permutation of every file; a merge or sort that relied on the order of its input would differ on some of them only", "anchors": ["main/src/print/mod.rs: SortList", "main/src/print/file.rs: print, diff", "main/src/print/unit.rs: print, diff, merged_types, merged_functions, merged_variables", "main/src/filter.rs"]}
{"id": "C103", "title": "Moving functions and variables in memory is not a difference when addresses are ignored", "statement": "If two files differ only in where their functions, variables and units are in memory (addresses, address ranges, the instructions for which a variable is in a place), and possibly in the offsets of their debug information entries, then with --ignore function-address and --ignore variable-address, and without calls asked for, the text diff writes nothing for the units and reports no difference in them, whatever other details are asked for and in whatever order items are sorted. If unit summaries are asked for, this holds if they do not list addresses and the units are as large as before; if stack frames are asked for, the types of the variables in them must be at the same offsets. Limit found: call sites are named by their addresses, which --ignore function-address does not cover, so with calls asked for every moved function with a call site is reported.", "quantifier": "all pairs of files that agree once addresses are left out, every renumbering of the entries, all options with the two ignore flags, every tie-breaking of the alignment", "why_tests_cant": "ranges over every program and every placement of it, including ones that change the order of functions in memory", "anchors": ["main/src/print/function.rs: diff, diff_body", "main/src/print/local_variable.rs: diff", "main/src/print/variable.rs: diff_body", "main/src/print/inlined_function.rs: diff", "main/src/print/unit.rs: diff", "main/src/print/mod.rs: DiffState::ignore_diff"]}
{"id": "C104", "title": "Exchanging the two files exchanges old and new", "statement": "The units, types, functions and variables of two files are paired the same way whichever file is given first: the pairing of the exchanged files is the same list of pairs with old and new exchanged, and what is only in one file stays so. If what reads the same is the same (members, enumerators, variants, parameters, local variables, inlined functions, calls and locations with equal lines have the same name and identity) and, where locations are asked for, no variable is in two places on the stack, then for each pair, each unit and the whole file the text diff writes something, and reports a difference, exactly if it does with the files (and --ignore added / --ignore deleted) exchanged. So `ddbug a b` is empty exactly if `ddbug b a` is. Limits found: the locations of a variable on the stack are compared with a condition that looks at the old file twice, so one location against two is silent one way only; a size difference of exactly 2^63 bytes overflows one way only.", "quantifier": "all pairs of files and of their items in which what reads the same is the same, all options (text form), every tie-breaking of the alignment", "why_tests_cant": "relates two runs for every pair of files; pairing, alignment and the difference flag could each favour one side on some inputs only, and for stack locations do", "anchors": ["main/src/print/unit.rs: merged_types, merged_functions, merged_variables, diff", "main/src/print/file.rs: merged_units, diff", "main/src/print/mod.rs: MergeIterator, DiffState", "main/src/print/frame_location.rs: diff_list"]}
{"id": "C105", "title": "From the command line to standard output", "statement": "For every command line: either it is not a valid one, or it asks for exactly one run (print, diff or bloat, with one set of options), and that run is what happens. The first file named that cannot be read is reported with its path, and nothing is printed. Otherwise, if no write fails, nothing is reported and standard output gets exactly: for a file to print, its summary if wanted and the listings of the wanted units, in which every wanted type, function and variable of the debug information has its item with the values from the debug information; for a diff, a text in which every wanted entry of both files is accounted for (a counterpart of the same name with the same facts or a comparison with it, or a listing marked as deleted or added); for bloat, the groups of functions by total size. Two files with the same contents give an empty diff when summaries are not asked for, and the HTML page of a file compared with itself has no mark. If the HTML page of a diff has no mark, the same is said of both files, but for changes the user ignores. HTML output is the header, well-formed items with the same contents, and the footer; with http nothing is printed, and the page served is the same one once its items are opened. If writes fail, what was received is a beginning of that text.", "quantifier": "all command lines, all contents of the disk, all debug information in which entries lie in their units and types do not contain themselves, all options, every tie-breaking and iteration order, every behaviour of standard output", "why_tests_cant": "the composition of argument parsing, reading, filtering, sorting, alignment, printing and buffered writing over all inputs", "anchors": ["main/src/main.rs: main, cli, diff_file, bloat_file, print_file, format", "parser/src/file/mod.rs: File::parse, parse_object", "main/src/print/file.rs: print, diff, bloat, bloat_index", "main/src/print/text.rs: TextPrinter", "main/src/print/html.rs: HtmlPrinter"]}
{"id": "C106", "title": "What an HTML page says about every item", "statement": "The HTML page of a file, as a reader sees it, shows the summary if it is wanted, then one item for every wanted unit in the order asked for. The item of a unit has the unit's name and in it the unit's own rows and, under the headings types, functions, inlined functions and variables, one item for each wanted one, in order (for a unit of the debug information: for each wanted entry, wherever in the unit it is); no heading without items. Each item shows exactly the labelled values that the facts about its type, function, variable, unit or file call for, at the depth they belong to, nothing missing and no other text. In the page of a diff, a pair is one item, which shows the facts of the old version in the lines not marked as added, and those of the new version in the lines not marked as deleted (local variables in the order of their names; sizes with their difference; not for one base class or address against several, or several stack-frame locations); an item of one file shows its facts, all marked, unless the user ignores these. The page of a file compared with itself has no line marked as deleted or added. Conversely, if no line of a page is marked, the same is said of both files: every item to list has a counterpart with the same values and sizes (with the same exceptions), or is of a kind of change the user ignores.", "quantifier": "all files and pairs of files, all options (HTML without instructions), all names, every entity table and every abbreviation of names", "why_tests_cant": "that no fact is lost, moved to another item or invented on the way to HTML must hold for every nesting of every kind of item", "anchors": ["main/src/print/html.rs: HtmlPrinter", "main/src/print/file.rs: print, diff", "main/src/print/unit.rs: print, print_body, diff_body", "main/src/print/types.rs: print", "main/src/print/function.rs: print", "main/src/print/variable.rs: print"]}
