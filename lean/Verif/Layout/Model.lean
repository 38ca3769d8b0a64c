import Verif.Types.Model
import Verif.Base
/-!
# Model of struct layout and variant extents (`parser/src/types.rs`)

Sizes of referenced types come from a parameter `sz`, standing for
`ty(hash).and_then(|v| v.byte_size(hash))` (modelled in `Verif.Types`). Numbers are unbounded:
the code's `u64` additions and `* 8` panic (debug) or wrap (release) past 2^64.
-/
namespace Verif.Layout
open Verif.Sentinel Verif.Types

/-- `u64::MAX` (parser/src/types.rs:761, 835). -/
abbrev max64 : Nat := top

/-- `Member::bit_size` (parser/src/types.rs:972-978). -/
def memberBitSize (sz : TypeOffset → Option Nat) (m : Member) : Option Nat :=
  if m.bitSize.isSome then m.bitSize.get else (sz m.ty).map (· * 8)

/-- `Inherit::bit_size` (parser/src/types.rs:1025-1027). -/
def inheritBitSize (sz : TypeOffset → Option Nat) (i : Inherit) : Option Nat :=
  (sz i.ty).map (· * 8)

/-- The loop shared by `Variant::bit_offset` (parser/src/types.rs:835-841) and
`VariantPart::bit_offset` (761-767): a running minimum. -/
def minLoop : Nat → List Nat → Nat
  | acc, [] => acc
  | acc, o :: os => minLoop (if acc > o then o else acc) os

/-- `if bit_offset < u64::MAX { bit_offset } else { 0 }` (parser/src/types.rs:768, 842). -/
def orZero (n : Nat) : Nat := if n < max64 then n else 0

/-- `Variant::bit_offset` (parser/src/types.rs:834-843). -/
def Variant.bitOffset (v : Variant) : Nat := orZero (minLoop max64 (v.members.map (·.bitOffset)))

/-- The loop shared by `Variant::bit_size` (parser/src/types.rs:848-859) and
`VariantPart::bit_size` (775-786) over (offset, size) pairs. -/
def endLoop : Nat → List (Nat × Option Nat) → Option Nat
  | acc, [] => some acc
  | acc, (o, some size) :: xs => endLoop (if acc < o + size then o + size else acc) xs
  | _, (_, none) :: _ => none

/-- `Variant::bit_size` (parser/src/types.rs:846-860). -/
def Variant.bitSize (sz : TypeOffset → Option Nat) (v : Variant) : Option Nat :=
  let start := Variant.bitOffset v
  (endLoop start (v.members.map (fun m => (m.bitOffset, memberBitSize sz m)))).map (· - start)

/-- `VariantPart::bit_offset` (parser/src/types.rs:760-769). -/
def VariantPart.bitOffset (vp : VariantPart) : Nat :=
  orZero (minLoop max64 (vp.variants.map Variant.bitOffset))

/-- `VariantPart::bit_size` (parser/src/types.rs:773-787). -/
def VariantPart.bitSize (sz : TypeOffset → Option Nat) (vp : VariantPart) : Option Nat :=
  let start := VariantPart.bitOffset vp
  (endLoop start (vp.variants.map (fun v => (Variant.bitOffset v, Variant.bitSize sz v)))).map
    (· - start)

/-- `LayoutItem` (parser/src/types.rs:1045-1055). -/
inductive LayoutItem
  | padding
  | member (m : Member)
  | variantPart (vp : VariantPart)
  | inherit (i : Inherit)
deriving DecidableEq, Repr

/-- `Layout` (parser/src/types.rs:1031-1042). -/
structure Layout where
  bitOffset : Nat
  bitSize : Size
  item : LayoutItem
deriving DecidableEq, Repr

/-- The unsorted items of `layout` (parser/src/types.rs:1065-1082). -/
def inputs (members : List Member) (inherits : List Inherit) (variantParts : List VariantPart)
    (base : Nat) (sz : TypeOffset → Option Nat) : List Layout :=
  members.map (fun m => ⟨m.bitOffset - base, .ofOption (memberBitSize sz m), .member m⟩) ++
  inherits.map (fun i => ⟨i.bitOffset - base, .ofOption (inheritBitSize sz i), .inherit i⟩) ++
  variantParts.map (fun v => ⟨VariantPart.bitOffset v - base,
    .ofOption (VariantPart.bitSize sz v), .variantPart v⟩)

/-- The sort key comparison (parser/src/types.rs:1083-1087), as `≤`. -/
def itemLe (a b : Layout) : Bool :=
  ((compare a.bitOffset b.bitOffset).then (a.bitSize.cmp b.bitSize)).isLE

/-- The `if let (Some(bit_size), Some(next_bit_offset))` block (parser/src/types.rs:1092-1102):
the padding pushed before `member` in the reversed list. -/
def gapAfter (member : Layout) (next : Option Nat) : List Layout :=
  match member.bitSize.get, next with
  | some bitSize, some next =>
    if next > member.bitOffset + bitSize then
      [⟨member.bitOffset + bitSize, .new (next - (member.bitOffset + bitSize)), .padding⟩]
    else []
  | _, _ => []

/-- The loop of `layout` (parser/src/types.rs:1091-1105); `acc` is the vector being pushed to. -/
def layoutLoop : List Layout → Option Nat → List Layout → List Layout
  | [], _, acc => acc
  | member :: rest, next, acc =>
    layoutLoop rest (some member.bitOffset) (acc ++ gapAfter member next ++ [member])

/-- The final leading padding (parser/src/types.rs:1106-1114). -/
def leading (acc : List Layout) : List Layout :=
  match acc.getLast? with
  | some x => if x.bitOffset > 0 then acc ++ [⟨0, .new x.bitOffset, .padding⟩] else acc
  | none => acc

/-- `layout` after the items have been collected (parser/src/types.rs:1083-1116). -/
def layoutItems (items : List Layout) (bitSize : Option Nat) : List Layout :=
  (leading (layoutLoop (stableSort itemLe items).reverse bitSize [])).reverse

/-- `layout` (parser/src/types.rs:1057-1117). -/
def layout (members : List Member) (inherits : List Inherit) (variantParts : List VariantPart)
    (base : Nat) (bitSize : Option Nat) (sz : TypeOffset → Option Nat) : List Layout :=
  layoutItems (inputs members inherits variantParts base sz) bitSize

/-- `StructType::layout` and `StructType::bit_size` (parser/src/types.rs:609-611, 649-658). -/
def structLayout (members : List Member) (inherits : List Inherit)
    (variantParts : List VariantPart) (byteSize : Size) (sz : TypeOffset → Option Nat) :
    List Layout :=
  layout members inherits variantParts 0 (byteSize.get.map (· * 8)) sz

/-- `Variant::layout` (parser/src/types.rs:865-872). -/
def Variant.layout (v : Variant) (bitOffset : Nat) (bitSize : Option Nat)
    (sz : TypeOffset → Option Nat) : List Layout :=
  Layout.layout v.members [] [] bitOffset bitSize sz

end Verif.Layout
