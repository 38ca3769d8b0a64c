import Verif.Types.Lemmas2
/-!
# Property theorems C10-C13, C63 (types)
-/
namespace Verif.Types
open Verif.Sentinel Verif.Namespace

/-- **C10 (antisymmetry).** Swapping the arguments of `cmp_id` reverses the answer, for all types
in all files, in debug and release builds (and divergence or a panic are symmetric). -/
theorem C10_cmpId_swap (dbg : Bool) (n : Nat) (ha hb : Hash) (a b : Ty) :
    cmpId dbg n hb b ha a = (match cmpId dbg n ha a hb b with
      | .ok o => .ok o.swap
      | .diverge => .diverge
      | .panic => .panic) := by
  rw [cmpId_swap]
  cases cmpId dbg n ha a hb b <;> rfl

/-- **C10 (transitivity).** If `a ≤ b` and `b ≤ c` then `a ≤ c`, and `a = c` only if both were
equalities; the three types may live in three different files; nothing is assumed about cycles. -/
theorem C10_cmpId_trans (dbg : Bool) (n : Nat) (ha hb hc : Hash) (a b c : Ty) (o1 o2 : Ordering)
    (h1 : cmpId dbg n ha a hb b = .ok o1) (h2 : cmpId dbg n hb b hc c = .ok o2)
    (l1 : o1.isLE) (l2 : o2.isLE) :
    ∃ o, cmpId dbg n ha a hc c = .ok o ∧ o.isLE ∧ (o = .eq ↔ o1 = .eq ∧ o2 = .eq) :=
  cmpId_T3 dbg n ha hb hc a b c o1 o2 h1 h2 l1 l2

/-- **C10 (total and reflexive).** In a release build, on a type without reference cycles `cmp_id`
answers for every other type, and compares the type equal to itself. -/
theorem C10_cmpId_total (ha hb : Hash) (a : Ty) (hacc : Acc (IdRef ha) a) :
    (∃ n, ∀ b, ∃ o, cmpId false n ha a hb b = .ok o) ∧
    (∃ n, cmpId false n ha a ha a = .ok .eq) := by
  constructor
  · obtain ⟨n, hn⟩ := cmpId_term false hacc hb
    refine ⟨n, fun b => ?_⟩
    have := hn b
    have := cmpId_no_panic n ha a hb b
    cases h : cmpId false n ha a hb b with
    | ok o => exact ⟨o, rfl⟩
    | _ => contradiction
  · obtain ⟨n, hn⟩ := cmpId_term false hacc ha
    refine ⟨n, ?_⟩
    have h1 := hn a
    have h2 := cmpId_no_panic n ha a ha a
    have h3 := cmpId_self false n ha a
    cases h : cmpId false n ha a ha a with
    | ok o => rw [h3 o h]
    | _ => contradiction

/-- The answer does not depend on the fuel used to compute it. -/
theorem C10_fuel_irrelevant (dbg : Bool) (n m : Nat) (ha hb : Hash) (a b : Ty) (o p : Ordering)
    (h1 : cmpId dbg n ha a hb b = .ok o) (h2 : cmpId dbg m ha a hb b = .ok p) : o = p := by
  rcases Nat.le_total n m with h | h
  · have := cmpId_mono h (by rw [h1]; simp); rw [h1, h2] at this; cases this; rfl
  · have := cmpId_mono h (by rw [h2]; simp); rw [h1, h2] at this; cases this; rfl

/-- A small file: offset 1 is `int`, 2 is `int *`, 3 is `int [4]`, 4 is `int (int *)`,
5 a pointer to itself, 6 `int [2][3]`, 7 `int [4][5]`, 8 `void *`, 9 an alias of itself. -/
def exHash : Hash where
  types := fun
    | 1 => some (.base (some [105]) ⟨4⟩)
    | 2 => some (.modifier .pointer (some 1) .none (some 8))
    | 3 => some (.array (some 1) ⟨4⟩ [] .none)
    | 4 => some (.function [some 2] (some 1) .none)
    | 5 => some (.modifier .pointer (some 5) .none (some 8))
    | 6 => some (.array (some 1) .none [⟨2⟩, ⟨3⟩] .none)
    | 7 => some (.array (some 1) .none [⟨4⟩, ⟨5⟩] .none)
    | 8 => some (.modifier .pointer none .none (some 8))
    | 9 => some (.def_ none (some [97]) (some 9))
    | _ => none
  fileTypes := fun _ => none

/-- Non-vacuity of C10: `int * ` is after `int (int *)` which is after `int [4]`. -/
example : cmpId true 5 exHash (.array (some 1) ⟨4⟩ [] .none) exHash (.function [some 2] (some 1) .none)
      = .ok .lt ∧
    cmpId true 5 exHash (.function [some 2] (some 1) .none) exHash
      (.modifier .pointer (some 1) .none (some 8)) = .ok .lt := by decide

/-- Non-vacuity of the acyclicity hypothesis. -/
example : Acc (IdRef exHash) (.function [some 2] (some 1) .none) := by
  have h : cmpId false 5 exHash (.function [some 2] (some 1) .none) exHash
      (.function [some 2] (some 1) .none) = .ok .eq := by decide
  exact acc_of_self h

/-- **C11.** `cmp_id` says "equal" exactly for types identified by the same tree: same kind and,
for named kinds, same qualified name; for modifiers, arrays, functions, pointers to members and
subranges, equal components (recursively). The tree of an array records its single-dimension
count only: see `C11_multi_dim_arrays_confused`. -/
theorem C11_eq_iff_same_identity_partial (dbg : Bool) (n : Nat) (ha hb : Hash) (a b : Ty)
    (o : Ordering) (h : cmpId dbg n ha a hb b = .ok o) :
    (o = .eq → ∀ i, IdentOf ha a i ↔ IdentOf hb b i) ∧
    (∀ i, IdentOf ha a i → IdentOf hb b i → o = .eq) := by
  constructor
  · rintro rfl i
    have hs : cmpId dbg n hb b ha a = .ok .eq := by rw [cmpId_swap, h]; rfl
    exact ⟨cmpId_ident h, cmpId_ident hs⟩
  · intro i h1 h2
    exact cmpId_same h1 h2 o h

/-- Every type without reference cycles has an identity tree, so C11 is not vacuous for it. -/
theorem C11_identity_exists (h : Hash) (a : Ty) (hacc : Acc (IdRef h) a) :
    ∃ i, IdentOf h a i := ident_exists hacc

/-- **C11 fails for multi-dimensional arrays.** `int [2][3]` and `int [4][5]` have different
dimensions and sizes but compare equal. -/
theorem C11_multi_dim_arrays_confused :
    ∃ (h : Hash) (a b : Ty), cmpId true 5 h a h b = .ok .eq ∧ a.discr = 7 ∧
      byteSize 5 h a = .ok (some 24) ∧ byteSize 5 h b = .ok (some 80) :=
  ⟨exHash, .array (some 1) .none [⟨2⟩, ⟨3⟩] .none, .array (some 1) .none [⟨4⟩, ⟨5⟩] .none,
    by decide⟩

/-- **C12.** What `byte_size` returns is the size of the type according to its structure
(`SizeOf`), over unbounded numbers. -/
theorem C12_byteSize_sound (n : Nat) (h : Hash) (t : Ty) (s : Option Nat)
    (he : byteSize n h t = .ok s) : SizeOf h t s := byteSize_spec he

/-- **C12 (converse).** If the structure determines a size then `byte_size` returns it, unless a
multiplication it needs exceeds 64 bits. -/
theorem C12_byteSize_complete (h : Hash) (t : Ty) (s : Option Nat) (hs : SizeOf h t s)
    (hno : ¬ Overflows h t) :
    ∃ n, ∀ m, n ≤ m → byteSize m h t = .ok s := by
  obtain ⟨n, hn | hn⟩ := byteSize_complete hs
  · exact ⟨n, fun m hm => by rw [byteSize_mono hm (by rw [hn]; simp), hn]⟩
  · exact absurd (byteSize_panic hn) hno

/-- **C12 (overflow).** `byte_size` panics only on an arithmetic overflow in an array product or a
doubled pointer size. -/
theorem C12_byteSize_panics_only_on_overflow (n : Nat) (h : Hash) (t : Ty)
    (he : byteSize n h t = .panic) : Overflows h t := byteSize_panic he

/-- Non-vacuity of C12: sizes through an array and an overflow. -/
example : byteSize 5 exHash (.array (some 3) ⟨5⟩ [] .none) = .ok (some 80) ∧
    byteSize 5 exHash (.array (some 3) ⟨2 ^ 62⟩ [] .none) = .panic ∧
    byteSize 5 exHash (.pointerToMember (some 4) none .none (some 8)) = .ok (some 16) := by decide

/-- **C13.** `byte_size` fails to return exactly when the chain of types it has to ask is
infinite (in a file: cyclic). -/
theorem C13_byteSize_diverges_iff (h : Hash) (t : Ty) :
    (∀ n, byteSize n h t = .diverge) ↔ ∀ n, chain h n (.size t) ≠ none := by
  simp only [byteSize_diverge]

/-- **C13.** Comparing a type with itself fails to return exactly when references that take part
in identity form an infinite (in a file: cyclic) chain. -/
theorem C13_cmpId_self_terminates_iff (h : Hash) (t : Ty) :
    (∃ n, cmpId false n h t h t ≠ .diverge) ↔ Acc (IdRef h) t := by
  constructor
  · rintro ⟨n, hn⟩
    have h2 := cmpId_no_panic n h t h t
    have h3 := cmpId_self false n h t
    cases he : cmpId false n h t h t with
    | ok o => rw [h3 o he] at he; exact acc_of_self he
    | _ => contradiction
  · intro hacc
    obtain ⟨n, hn⟩ := cmpId_term false hacc h
    exact ⟨n, hn t⟩

/-- **C13.** One acyclic side is enough for a comparison to return. -/
theorem C13_cmpId_terminates (dbg : Bool) (ha hb : Hash) (a b : Ty)
    (hacc : Acc (IdRef ha) a ∨ Acc (IdRef hb) b) :
    ∃ n, cmpId dbg n ha a hb b ≠ .diverge := by
  rcases hacc with hacc | hacc
  · obtain ⟨n, hn⟩ := cmpId_term dbg hacc hb
    exact ⟨n, hn b⟩
  · obtain ⟨n, hn⟩ := cmpId_term dbg hacc ha
    refine ⟨n, ?_⟩
    rw [cmpId_swap]
    have := hn a
    cases h : cmpId dbg n hb b ha a <;> simp_all [Res.swap]

/-- **C13 (witnesses).** A pointer to itself and an alias of itself are valid inputs on which the
queries never return. -/
theorem C13_cycles_diverge :
    (∃ (h : Hash) (t : Ty), fromOffset h (some 5) = some t ∧
      ∀ n dbg, cmpId dbg n h t h t = .diverge) ∧
    (∃ (h : Hash) (t : Ty), fromOffset h (some 9) = some t ∧ ∀ n, byteSize n h t = .diverge) := by
  refine ⟨⟨exHash, .modifier .pointer (some 5) .none (some 8), rfl, ?_⟩,
    ⟨exHash, .def_ none (some [97]) (some 9), rfl, ?_⟩⟩
  · intro n dbg
    induction n with
    | zero => rfl
    | succ n ih =>
      have hf : fromOffset exHash (some 5) = some (.modifier .pointer (some 5) .none (some 8)) := rfl
      simp only [cmpId, cmpStep, hf, cmpOptTy, ih, lexR]
  · intro n
    induction n with
    | zero => rfl
    | succ n ih =>
      have hf : fromOffset exHash (some 9) = some (.def_ none (some [97]) (some 9)) := rfl
      simp only [byteSize, hf, ih]

/-- **C63 (release).** Without debug assertions `cmp_id` never panics. -/
theorem C63_cmpId_release_no_panic_partial (n : Nat) (ha hb : Hash) (a b : Ty) :
    cmpId false n ha a hb b ≠ .panic := cmpId_no_panic n ha a hb b

/-- **C63 fails with debug assertions.** Comparing `void *` with `void *` trips
`debug_assert_ne!` although the types are equal. -/
theorem C63_void_pointer_trips_assertion :
    ∃ (h : Hash) (t : Ty), fromOffset h (some 8) = some t ∧ cmpId true 5 h t h t = .panic ∧
      cmpId false 5 h t h t = .ok .eq :=
  ⟨exHash, .modifier .pointer none .none (some 8), by decide⟩

/-- The enclosing scopes contain an unnamed type reached through type scopes only. -/
def InAnonType (ns : Option Namespace) : Prop :=
  ∃ n, ns = some n ∧ ∃ outer inner : List (Option Str × NamespaceKind),
    n.scopes = outer ++ (none, .type) :: inner ∧ ∀ s ∈ inner, s.2 = .type

/-- **C64.** `is_anon` is true exactly for structs and unions that have no name or are defined
within an unnamed type. -/
theorem C64_isAnon_iff (t : Ty) :
    t.isAnon = true ↔ ∃ ns name,
      ((∃ s ms vs is, t = .struct_ ns name s ms vs is) ∨ ∃ s ms, t = .union_ ns name s ms) ∧
      (name = none ∨ InAnonType ns) := by
  have key : ∀ ns, InAnonType ns ↔ Namespace.isAnonType ns = true :=
    fun ns => (Namespace.C62_isAnonType_iff ns).symm
  simp only [key]
  cases t <;> simp [Ty.isAnon]
  · constructor
    · intro h; exact ⟨_, _, ⟨rfl, rfl⟩, h⟩
    · rintro ⟨_, _, ⟨rfl, rfl⟩, h⟩; exact h
  · constructor
    · intro h; exact ⟨_, _, ⟨rfl, rfl⟩, h⟩
    · rintro ⟨_, _, ⟨rfl, rfl⟩, h⟩; exact h

example : Ty.isAnon (.struct_ none none .none [] [] []) = true := rfl

end Verif.Types
