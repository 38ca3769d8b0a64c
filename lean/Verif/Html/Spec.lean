import Verif.Html.Model
/-!
# What well-formed HTML output is, and the text it shows
-/
namespace Verif.Html
open Verif.Print

/-- `Decodes t h s`: the character data `h` (no markup, `&name;` for special bytes) stands for the
text `s`. -/
inductive Decodes (t : EntityTable) : Str → Str → Prop
  | nil : Decodes t [] []
  | plain (c : Nat) (h s : Str) : special c = false → Decodes t h s → Decodes t (c :: h) (c :: s)
  | entity (c : Nat) (h s : Str) : special c = true → Decodes t h s →
      Decodes t (38 :: (t.name c ++ 59 :: h)) (c :: s)

/-- Attribute text: no markup characters. -/
def AttrText (s : Str) : Prop := ∀ c ∈ s, c ≠ 60 ∧ c ≠ 62

/-- Label text: no special bytes at all. -/
def Plain (s : Str) : Prop := ∀ c ∈ s, special c = false

instance (s : Str) : Decidable (AttrText s) := by unfold AttrText; infer_instance
instance (s : Str) : Decidable (Plain s) := by unfold Plain; infer_instance

/-- `Shows t h s`: `h` is well-formed inline content (character data, `<span>`, `<a>`, `<br>`,
properly nested) and its text content is `s`. -/
inductive Shows (t : EntityTable) : Str → Str → Prop
  | text (h s : Str) : Decodes t h s → Shows t h s
  | span (attrs h s : Str) : AttrText attrs → Shows t h s →
      Shows t (lit "<span" ++ attrs ++ lit ">" ++ h ++ lit "</span>") s
  | anchor (attrs h s : Str) : AttrText attrs → Shows t h s →
      Shows t (lit "<a" ++ attrs ++ lit ">" ++ h ++ lit "</a>") s
  | br : Shows t (lit "<br>\n") [10]
  | append (h k s r : Str) : Shows t h s → Shows t k r → Shows t (h ++ k) (s ++ r)

/-- Well-formed inline content. -/
def Inline (t : EntityTable) (h : Str) : Prop := ∃ s, Shows t h s

/-- `Items t h`: `h` is a sequence of list items, each `<li>` holding inline content and possibly
one nested `<ul>` of items. -/
inductive Items (t : EntityTable) : Str → Prop
  | nil : Items t []
  | leaf (attrs h : Str) : AttrText attrs → Inline t h →
      Items t (lit "<li" ++ attrs ++ lit ">" ++ h ++ lit "</li>\n")
  | branch (attrs h uattrs l : Str) : AttrText attrs → Inline t h → AttrText uattrs → Items t l →
      Items t (lit "<li" ++ attrs ++ lit ">" ++ h ++ lit "<ul" ++ uattrs ++ lit ">\n" ++ l ++
        lit "</ul></li>\n")
  | append (h k : Str) : Items t h → Items t k → Items t (h ++ k)

/-- `Rows t h`: `h` is a sequence of three-column table rows. -/
inductive Rows (t : EntityTable) : Str → Prop
  | nil : Rows t []
  | row (a m v : Str) : Inline t a → Inline t m → Inline t v →
      Rows t (lit "<tr><td>" ++ a ++ lit "</td><td>" ++ m ++ lit "</td><td>" ++ v ++
        lit "</td></tr>")
  | append (h k : Str) : Rows t h → Rows t k → Rows t (h ++ k)

/-- A print closure usable as a section header: it writes lines only. -/
def FlatP : P → Prop
  | .skip => True
  | .seq p q => FlatP p ∧ FlatP q
  | .lineBreak => True
  | .label l => Plain l
  | .line l _ => Plain l
  | _ => False

/-- A print closure whose headers are flat, whose labels are plain text, and which does not print
machine instructions. -/
def TreeP : P → Prop
  | .skip => True
  | .seq p q => TreeP p ∧ TreeP q
  | .lineBreak => True
  | .label l => Plain l
  | .line l _ => Plain l
  | .instruction _ _ _ => False
  | .indent _ h b => FlatP h ∧ TreeP b
  | .field _ l b => Plain l ∧ TreeP b
  | .id _ h b => FlatP h ∧ TreeP b
  | .fieldDetail i l b => Plain i ∧ Plain l ∧ TreeP b
  | .inline p => TreeP p

/-- A print closure that only prints machine instructions (the detail page of a function). -/
def CodeP : P → Prop
  | .skip => True
  | .seq p q => CodeP p ∧ CodeP q
  | .instruction _ m _ => Plain m
  | _ => False

/-- Header closures of diffs. -/
def FlatD : D → Prop
  | .skip => True
  | .seq p q => FlatD p ∧ FlatD q
  | .lineBreak => True
  | .label l => Plain l
  | .line l _ _ => Plain l
  | .ignoreDiff _ d => FlatD d
  | .printIfDiff d => FlatD d
  | _ => False

/-- Diff closures with flat headers, plain labels and no machine instructions. -/
def TreeD : D → Prop
  | .skip => True
  | .seq p q => TreeD p ∧ TreeD q
  | .lineBreak => True
  | .label l => Plain l
  | .line l _ _ => Plain l
  | .indent _ h b => FlatD h ∧ TreeD b
  | .field _ l b => Plain l ∧ TreeD b
  | .id _ h b => FlatD h ∧ TreeD b
  | .inline d => TreeD d
  | .prefixDelete p => TreeP p
  | .prefixAdd p => TreeP p
  | .block a b => TreeP a ∧ TreeP b
  | .printIfDiff d => TreeD d
  | .ignoreDiff _ d => TreeD d

/-- The text a value shows: names abbreviated, links as their content. -/
def shownText (alnum : Nat → Bool) : Val → Str
  | .nil => []
  | .text s => s
  | .name s => abbreviate alnum s
  | .link _ v => shownText alnum v
  | .seq v w => shownText alnum v ++ shownText alnum w

end Verif.Html
