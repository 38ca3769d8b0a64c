import Verif.Base

/-!
# The arena of a parsed file (`parser/src/file/mod.rs`)

`Arena` hands out references whose lifetime is extended with `mem::transmute`: the compiler does not
check that they stay valid. Memory is modelled as blocks at addresses, each with an owner; the
allocator may choose any unused address. Several threads may be inside `add_buffer`, `add_string`
and `add_relocations` at once; a thread makes one step at a time and threads interleave in any
order. The rest of the program may at any time allocate, overwrite and free blocks of its own, and
this includes moving the `FileContext` itself.

Simplifications: an empty buffer or string has a block too (of length 0); running out of memory and
the poisoning of a mutex by a panic are not modelled; the number of bytes allocated for a buffer is
the number of bytes in it.
-/

namespace Verif.Arena

/-- Addresses and threads are numbers. -/
scoped notation "Addr" => Nat
scoped notation "Tid" => Nat
/-- A text or a buffer as bytes. -/
abbrev Bytes := List Nat
/-- A `RelocationMap` (parser/src/file/dwarf.rs:30), as its entries. -/
abbrev RelocMap := List (Nat × Nat)

/-- The three lists of an arena (parser/src/file/mod.rs:73-79). -/
inductive Kind where
  | buffers | strings | relocations
  deriving DecidableEq

/-- What a `Vec<u8>`, a `String` or a `Box<RelocationMap>` is: a pointer and (for the first two) a
length (parser/src/file/mod.rs:75-78). -/
structure Handle where
  ptr : Addr
  len : Nat
  deriving DecidableEq

/-- A `Vec` of handles: where its elements are, how many there are and how many fit. Nothing is
allocated while the capacity is zero (parser/src/file/mod.rs:75-78). -/
structure Hdr where
  ptr : Addr
  len : Nat
  cap : Nat
  deriving DecidableEq

/-- The contents of a block of memory. -/
inductive Block where
  /-- the bytes of a `Vec<u8>` or a `String`, or a mapped file -/
  | bytes (b : Bytes)
  /-- what a `Box<RelocationMap>` points to -/
  | relocs (r : RelocMap)
  /-- the elements of a `Vec` of handles -/
  | slots (hs : List Handle)
  /-- the `Arena` in its `Box` (parser/src/file/mod.rs:131, 139, 154) -/
  | arena (hs : Kind → Hdr)

/-- Who has to free a block. -/
inductive Owner where
  /-- the arena -/
  | arena
  /-- a value a thread has passed to the arena, until it is stored there -/
  | thread (t : Tid)
  /-- the mapped file (parser/src/file/mod.rs:130) -/
  | map
  /-- the rest of the program -/
  | other
  deriving DecidableEq

abbrev Mem := Addr → Option (Owner × Block)

/-- Memory with one block replaced. -/
def Mem.set (m : Mem) (p : Addr) (v : Option (Owner × Block)) : Mem :=
  fun q => if q = p then v else m q

/-- A reference: part of a buffer (`&[u8]`, `&str`) or a whole `RelocationMap`
(parser/src/file/mod.rs:87, 95, 110-113). -/
inductive Ref where
  | slice (ptr off len : Nat)
  | box (ptr : Addr)
  deriving DecidableEq

/-- What is read through a reference. -/
inductive Data where
  | bytes (b : Bytes)
  | relocs (r : RelocMap)
  deriving DecidableEq

/-- Reading through a reference; `none` is undefined behaviour: there is no such block (any more),
or it is too short, or holds something else. -/
def read (m : Mem) : Ref → Option Data
  | .slice p o n =>
    match m p with
    | some (_, .bytes b) => if o + n ≤ b.length then some (.bytes ((b.drop o).take n)) else none
    | _ => none
  | .box p =>
    match m p with
    | some (_, .relocs r) => some (.relocs r)
    | _ => none

/-- A part of a slice, as in `&bytes[i..i + n]`. -/
def Ref.sub : Ref → Nat → Nat → Option Ref
  | .slice p o n, i, j => if i + j ≤ n then some (.slice p (o + i) j) else none
  | .box _, _, _ => none

/-- `&buffers[i]` as a slice, `&strings[i]` as a text, `&relocations[i]` as what the box points to
(parser/src/file/mod.rs:91-92, 104-105, 117-118). -/
def refOf : Kind → Handle → Ref
  | .buffers, h => .slice h.ptr 0 h.len
  | .strings, h => .slice h.ptr 0 h.len
  | .relocations, h => .box h.ptr

/-- Where a thread is inside a call. -/
inductive Pc where
  | idle
  /-- at `lock()` -/
  | wants (k : Kind) (h : Handle)
  /-- the guard is held -/
  | locked (k : Kind) (h : Handle)
  /-- `i` is known -/
  | counted (k : Kind) (h : Handle) (i : Nat)
  /-- `push` has returned -/
  | pushed (k : Kind) (i : Nat)
  /-- the reference is known, the guard is still held -/
  | got (k : Kind) (r : Ref)
  /-- about to return -/
  | ready (r : Ref)
  deriving DecidableEq

/-- What a caller asks for. -/
inductive Call where
  | buffer (b : Bytes)
  | string (b : Bytes)
  | relocations (r : RelocMap)

/-- Calls and returns of the threads. -/
inductive Ev where
  | call (t : Tid) (c : Call)
  | ret (t : Tid) (r : Ref)

structure St where
  mem : Mem
  /-- the three mutexes -/
  lock : Kind → Option Tid
  pc : Tid → Pc
  /-- the references of lifetime `'input` that the program holds -/
  held : List Ref

def St.setPc (s : St) (t : Tid) (p : Pc) : St := { s with pc := fun u => if u = t then p else s.pc u }
def St.setLock (s : St) (k : Kind) (o : Option Tid) : St :=
  { s with lock := fun j => if j = k then o else s.lock j }
def St.setMem (s : St) (p : Addr) (v : Option (Owner × Block)) : St := { s with mem := s.mem.set p v }

/-- The headers with one replaced. -/
def setHdr (hs : Kind → Hdr) (k : Kind) (h : Hdr) : Kind → Hdr := fun j => if j = k then h else hs j

/-- One step. `A` is the address of the arena; `lossy` is `String::from_utf8_lossy`: `none` when the
bytes are already UTF-8 (`Cow::Borrowed`), otherwise the converted text (`Cow::Owned`). -/
inductive Step (A : Addr) (lossy : Bytes → Option Bytes) : St → Option Ev → St → Prop where
  /-- `add_buffer` is called with a `Vec` (parser/src/file/mod.rs:87) -/
  | addBuffer {s : St} (t : Tid) (b : Bytes) (p : Addr) (hp : s.pc t = .idle) (hm : s.mem p = none) :
      Step A lossy s (some (.call t (.buffer b)))
        ((s.setMem p (some (.thread t, .bytes b))).setPc t (.wants .buffers ⟨p, b.length⟩))
  /-- `add_relocations` is called with a `Box` (parser/src/file/mod.rs:110-113) -/
  | addRelocations {s : St} (t : Tid) (r : RelocMap) (p : Addr) (hp : s.pc t = .idle)
      (hm : s.mem p = none) :
      Step A lossy s (some (.call t (.relocations r)))
        ((s.setMem p (some (.thread t, .relocs r))).setPc t (.wants .relocations ⟨p, 0⟩))
  /-- `add_string` is called with bytes that are UTF-8 (parser/src/file/mod.rs:95-99) -/
  | addStringBorrowed {s : St} (t : Tid) (src : Ref) (b : Bytes) (hp : s.pc t = .idle)
      (hs : src ∈ s.held) (hr : read s.mem src = some (.bytes b)) (hl : lossy b = none) :
      Step A lossy s (some (.call t (.string b))) (s.setPc t (.ready src))
  /-- `add_string` is called with bytes that are not (parser/src/file/mod.rs:95-100) -/
  | addStringOwned {s : St} (t : Tid) (src : Ref) (b b' : Bytes) (p : Addr) (hp : s.pc t = .idle)
      (hs : src ∈ s.held) (hr : read s.mem src = some (.bytes b)) (hl : lossy b = some b')
      (hm : s.mem p = none) :
      Step A lossy s (some (.call t (.string b)))
        ((s.setMem p (some (.thread t, .bytes b'))).setPc t (.wants .strings ⟨p, b'.length⟩))
  /-- `lock().unwrap()` (parser/src/file/mod.rs:88, 101, 114) -/
  | lock {s : St} (t : Tid) (k : Kind) (h : Handle) (hp : s.pc t = .wants k h)
      (hl : s.lock k = none) :
      Step A lossy s none ((s.setLock k (some t)).setPc t (.locked k h))
  /-- `let i = v.len()` (parser/src/file/mod.rs:89, 102, 115) -/
  | count {s : St} (t : Tid) (k : Kind) (h : Handle) (o : Owner) (hs : Kind → Hdr)
      (hp : s.pc t = .locked k h) (ha : s.mem A = some (o, .arena hs)) :
      Step A lossy s none (s.setPc t (.counted k h (hs k).len))
  /-- `v.push(x)` when there is room (parser/src/file/mod.rs:90, 103, 116) -/
  | push {s : St} (t : Tid) (k : Kind) (h : Handle) (i : Nat) (o o' o'' : Owner) (hs : Kind → Hdr)
      (l : List Handle) (d : Block) (hp : s.pc t = .counted k h i)
      (ha : s.mem A = some (o, .arena hs)) (hc : (hs k).len < (hs k).cap)
      (hl : s.mem (hs k).ptr = some (o', .slots l)) (hd : s.mem h.ptr = some (o'', d)) :
      Step A lossy s none
        ((((s.setMem h.ptr (some (.arena, d))).setMem (hs k).ptr (some (.arena, .slots (l ++ [h])))).setMem
          A (some (.arena, .arena (setHdr hs k { hs k with len := (hs k).len + 1 })))).setPc t
            (.pushed k i))
  /-- `v.push(x)` on a list that has no block yet (parser/src/file/mod.rs:90, 103, 116) -/
  | pushFirst {s : St} (t : Tid) (k : Kind) (h : Handle) (i : Nat) (o o'' : Owner) (hs : Kind → Hdr)
      (d : Block) (q : Addr) (cap : Nat) (hp : s.pc t = .counted k h i)
      (ha : s.mem A = some (o, .arena hs)) (h0 : (hs k).cap = 0) (hcap : 0 < cap)
      (hq : s.mem q = none) (hd : s.mem h.ptr = some (o'', d)) :
      Step A lossy s none
        ((((s.setMem h.ptr (some (.arena, d))).setMem q (some (.arena, .slots [h]))).setMem
          A (some (.arena, .arena (setHdr hs k ⟨q, 1, cap⟩)))).setPc t (.pushed k i))
  /-- `v.push(x)` when there is no room: the elements are copied to another block, and the old block
  is freed; the allocator may also extend the block where it is
  (parser/src/file/mod.rs:90, 103, 116) -/
  | pushGrow {s : St} (t : Tid) (k : Kind) (h : Handle) (i : Nat) (o o' o'' : Owner) (hs : Kind → Hdr)
      (l : List Handle) (d : Block) (q : Addr) (cap : Nat) (hp : s.pc t = .counted k h i)
      (ha : s.mem A = some (o, .arena hs)) (h0 : (hs k).cap ≠ 0) (hc : (hs k).len = (hs k).cap)
      (hcap : (hs k).cap < cap) (hl : s.mem (hs k).ptr = some (o', .slots l))
      (hq : s.mem q = none ∨ q = (hs k).ptr) (hd : s.mem h.ptr = some (o'', d)) :
      Step A lossy s none
        (((((s.setMem h.ptr (some (.arena, d))).setMem (hs k).ptr none).setMem
          q (some (.arena, .slots (l ++ [h])))).setMem
            A (some (.arena, .arena (setHdr hs k ⟨q, (hs k).len + 1, cap⟩)))).setPc t (.pushed k i))
  /-- `&v[i]` (parser/src/file/mod.rs:91-92, 104-105, 117-118) -/
  | index {s : St} (t : Tid) (k : Kind) (i : Nat) (o o' : Owner) (hs : Kind → Hdr) (l : List Handle)
      (h : Handle) (hp : s.pc t = .pushed k i) (ha : s.mem A = some (o, .arena hs))
      (hl : s.mem (hs k).ptr = some (o', .slots l)) (hi : l[i]? = some h) :
      Step A lossy s none (s.setPc t (.got k (refOf k h)))
  /-- The guard is dropped at the end of the scope (parser/src/file/mod.rs:93, 106, 119) -/
  | unlock {s : St} (t : Tid) (k : Kind) (r : Ref) (hp : s.pc t = .got k r) :
      Step A lossy s none ((s.setLock k none).setPc t (.ready r))
  /-- The reference is returned (parser/src/file/mod.rs:92, 98, 105, 118) -/
  | ret {s : St} (t : Tid) (r : Ref) (hp : s.pc t = .ready r) :
      Step A lossy s (some (.ret t r)) { s.setPc t .idle with held := r :: s.held }
  /-- A reader takes a part of a slice that it holds (parser/src/file/dwarf.rs:275, 428) -/
  | sub {s : St} (r r' : Ref) (i n : Nat) (h : r ∈ s.held) (hr : r.sub i n = some r') :
      Step A lossy s none { s with held := r' :: s.held }
  /-- The rest of the program allocates a block -/
  | alloc {s : St} (p : Addr) (b : Block) (h : s.mem p = none) :
      Step A lossy s none (s.setMem p (some (.other, b)))
  /-- The rest of the program overwrites a block of its own -/
  | write {s : St} (p : Addr) (b b' : Block) (h : s.mem p = some (.other, b)) :
      Step A lossy s none (s.setMem p (some (.other, b')))
  /-- The rest of the program frees a block of its own -/
  | free {s : St} (p : Addr) (b : Block) (h : s.mem p = some (.other, b)) :
      Step A lossy s none (s.setMem p none)

/-- Any number of steps, with the calls and returns on the way. -/
inductive Exec (A : Addr) (lossy : Bytes → Option Bytes) : St → List Ev → St → Prop where
  | nil (s : St) : Exec A lossy s [] s
  | quiet {s s' s'' : St} {es : List Ev} : Exec A lossy s es s' → Step A lossy s' none s'' →
      Exec A lossy s es s''
  | event {s s' s'' : St} {es : List Ev} {e : Ev} : Exec A lossy s es s' →
      Step A lossy s' (some e) s'' → Exec A lossy s (es ++ [e]) s''

/-- `Arena::new` (parser/src/file/mod.rs:83-85): all three lists are empty. -/
def emptyHdrs : Kind → Hdr := fun _ => ⟨0, 0, 0⟩

/-- `FileContext::new_map` and `new_vec` before `f` is called (parser/src/file/mod.rs:135-140,
150-156): a new arena at `A`; with `new_map` also the mapped file, which is what the program holds a
reference to. The rest of memory is arbitrary, but it is finite and belongs to the rest of the
program. (`new_vec` continues with a call of `add_buffer`.) -/
structure Start (A : Addr) (file : Option (Addr × Bytes)) (s : St) : Prop where
  arena : s.mem A = some (.arena, .arena emptyHdrs)
  mapped : ∀ p b, file = some (p, b) → s.mem p = some (.map, .bytes b) ∧ s.held = [.slice p 0 b.length]
  noFile : file = none → s.held = []
  rest : ∀ p o b, s.mem p = some (o, b) → p = A ∨ (∃ x, file = some (p, x)) ∨ o = .other
  finite : ∃ n, ∀ p, n ≤ p → s.mem p = none
  locks : ∀ k, s.lock k = none
  idle : ∀ t, s.pc t = .idle

/-! ## Dropping -/

/-- Freeing a block; `none` is undefined behaviour: there is no such block. -/
def dealloc (m : Mem) (p : Addr) : Option Mem :=
  match m p with
  | some _ => some (m.set p none)
  | none => none

/-- Freeing the elements of a list one after the other. -/
def deallocAll : Mem → List Handle → Option Mem
  | m, [] => some m
  | m, h :: hs =>
    match dealloc m h.ptr with
    | some m' => deallocAll m' hs
    | none => none

/-- Dropping a `Vec` of buffers, strings or boxes: its elements, then the block they are in
(parser/src/file/mod.rs:75-78). -/
def dropVec (m : Mem) (h : Hdr) : Option Mem :=
  if h.cap = 0 then some m else
    match m h.ptr with
    | some (_, .slots l) =>
      match deallocAll m l with
      | some m' => dealloc m' h.ptr
      | none => none
    | _ => none

/-- Dropping `Box<Arena>`: the fields in the order of their declaration, then the box
(parser/src/file/mod.rs:73-79, 131). -/
def dropArena (m : Mem) (A : Addr) : Option Mem :=
  match m A with
  | some (_, .arena hs) =>
    match dropVec m (hs .buffers) with
    | some m₁ =>
      match dropVec m₁ (hs .strings) with
      | some m₂ =>
        match dropVec m₂ (hs .relocations) with
        | some m₃ => dealloc m₃ A
        | none => none
      | none => none
    | none => none
  | _ => none

/-- `FileContext` (parser/src/file/mod.rs:127-132): the references the parsed file holds, the mapping
and the arena. -/
structure Context where
  file : List Ref
  map : Option Addr
  arena : Addr

/-- Reading through each of the references in turn. -/
def readAll : Mem → List Ref → Option (List Data)
  | _, [] => some []
  | m, r :: rs =>
    match read m r, readAll m rs with
    | some d, some ds => some (d :: ds)
    | _, _ => none

/-- Dropping a `FileContext`: the fields in the order of their declaration
(parser/src/file/mod.rs:127-132). While the file is dropped it may still read through its
references. -/
def Context.drop (c : Context) (m : Mem) : Option Mem :=
  match readAll m c.file with
  | some _ =>
    match c.map with
    | none => dropArena m c.arena
    | some p =>
      match dealloc m p with
      | some m' => dropArena m' c.arena
      | none => none
  | none => none

end Verif.Arena
