import Verif.Html.Spec
/-!
# How an HTML page reads: a tree of lines, each old, new or in both files
-/
namespace Verif.Html
open Verif.Print

/-- What a line is marked as. -/
inductive Mark
  | same | del | add
deriving DecidableEq, Repr

/-- A line as a reader sees it: its mark, label and value. -/
structure Shown where
  mark : Mark
  label : Str
  val : Val
deriving DecidableEq, Repr

/-- An item of the page: its lines and, if it can be opened, the items in it. -/
inductive Node
  | item (lines : List Shown) (kids : Option (List Node))
deriving Repr

/-- The label in front of a value. -/
def labelPart (l : Str) : Str :=
  if l.isEmpty then [] else lit "<span class=\"field\">" ++ l ++ lit ":</span> "

/-- The style classes of a mark; `mod` is a highlight of its own. -/
def Mark.HasClass : Mark → Str → Prop
  | .same, c => c = lit "field" ∨ c = lit "field mod"
  | .del, c => c = lit "field del"
  | .add, c => c = lit "field add"

/-- `h` is the content of a value, character data, `<span title>` and `<a>`, and its text is `s`. -/
inductive Content (t : EntityTable) : Str → Str → Prop
  | text (h s : Str) : Decodes t h s → Content t h s
  | span (title h s : Str) : AttrText title → Content t h s →
      Content t (lit "<span title=" ++ title ++ lit ">" ++ h ++ lit "</span>") s
  | anchor (attrs h s : Str) : AttrText attrs → Content t h s →
      Content t (lit "<a" ++ attrs ++ lit ">" ++ h ++ lit "</a>") s
  | append (h k s r : Str) : Content t h s → Content t k r → Content t (h ++ k) (s ++ r)

/-- `h` reads as the given lines: a label, a value with or without a label, or an old and a new
value. -/
inductive LineReads (t : EntityTable) (alnum : Nat → Bool) : Str → List Shown → Prop
  | label (l : Str) : Plain l → LineReads t alnum (lit "<span>" ++ l ++ lit ":</span>") [⟨.same, l, .nil⟩]
  | labelMod (l : Str) : Plain l → LineReads t alnum (lit "<span class=\"field mod\">" ++ l ++ lit ":</span>") [⟨.same, l, .nil⟩]
  | value (m : Mark) (l c h : Str) (v : Val) : Plain l → v ≠ .nil → m.HasClass c → Content t h (shownText alnum v) →
      LineReads t alnum (labelPart l ++ lit "<span class=\"" ++ c ++ lit "\">" ++ h ++ lit "</span>") [⟨m, l, v⟩]
  | changed (l h k : Str) (a b : Val) : Plain l → a ≠ .nil → b ≠ .nil →
      Content t h (shownText alnum a) → Content t k (shownText alnum b) →
      LineReads t alnum (labelPart l ++ lit "<span class=\"field\"><span class=\"del\">" ++ h ++
        lit "</span><br>\n<span class=\"add\">" ++ k ++ lit "</span></span>") [⟨.del, l, a⟩, ⟨.add, l, b⟩]

/-- Lines one after the other. -/
inductive HeadReads (t : EntityTable) (alnum : Nat → Bool) : Str → List Shown → Prop
  | nil : HeadReads t alnum [] []
  | line {h ls} : LineReads t alnum h ls → HeadReads t alnum h ls
  | append {h k ls ms} : HeadReads t alnum h ls → HeadReads t alnum k ms → HeadReads t alnum (h ++ k) (ls ++ ms)

/-- `h` reads as the given items. -/
inductive Reads (t : EntityTable) (alnum : Nat → Bool) : Str → List Node → Prop
  | nil : Reads t alnum [] []
  | leaf {attrs h ls} : AttrText attrs → HeadReads t alnum h ls →
      Reads t alnum (lit "<li" ++ attrs ++ lit ">" ++ h ++ lit "</li>\n") [.item ls none]
  | branch {attrs h uattrs l ls kids} : AttrText attrs → HeadReads t alnum h ls → AttrText uattrs → Reads t alnum l kids →
      Reads t alnum (lit "<li" ++ attrs ++ lit ">" ++ h ++ lit "<ul" ++ uattrs ++ lit ">\n" ++ l ++ lit "</ul></li>\n")
        [.item ls (some kids)]
  | append {h k ns ms} : Reads t alnum h ns → Reads t alnum k ms → Reads t alnum (h ++ k) (ns ++ ms)

/-- Nothing is written for the value: no text, and no link (a link is written even around nothing). -/
def blank : Val → Bool
  | .nil => true
  | .text s => s.isEmpty
  | .name s => s.isEmpty
  | .link id v => id == 0 && blank v
  | .seq v w => blank v && blank w

/-! ### What a page should show -/

/-- The lines of a closure that only writes lines, one group per call. -/
def headsP (m : Mark) : P → List (List Shown)
  | .seq p q => headsP m p ++ headsP m q
  | .label l => [[⟨.same, l, .nil⟩]]
  | .line l v => if blank v then [] else [[⟨m, l, v⟩]]
  | _ => []

/-- Items without further items in them. -/
def leaves (gs : List (List Shown)) : List Node := gs.map fun g => .item g none

/-- A section that is shown even if nothing is in it. -/
def section_ (heads : List (List Shown)) (kids : List Node) : List Node :=
  if kids.isEmpty then leaves heads else [.item heads.flatten (some kids)]

/-- A section that is shown only if something is in it. -/
def optSection (l : Str) (kids : List Node) : List Node :=
  if kids.isEmpty then [] else [.item [⟨.same, l, .nil⟩] (some kids)]

/-- The items of a listing: every section is an item with the items of its body in it. The bodies of
entities with an id are left out by the server, which sends them when they are opened. -/
def pageP (http : Bool) (m : Mark) : P → Nat → List Node
  | .seq p q, d => pageP http m p d ++ pageP http m q d
  | .label l, _ => leaves [[⟨.same, l, .nil⟩]]
  | .line l v, _ => if blank v then [] else leaves [[⟨m, l, v⟩]]
  | .indent _ h b, d => section_ (headsP m h) (pageP http m b d)
  | .field _ l b, d => optSection l (pageP http m b d)
  | .id _ h b, d => [.item (headsP m h).flatten (some (if http then [] else pageP http m b d))]
  | .fieldDetail _ l b, d => if http then leaves [[⟨.same, l, .nil⟩]] else optSection l (pageP http m b d)
  | .inline p, d => if d = 0 then [] else pageP http m p (d - 1)
  | _, _ => []

/-- The lines for an old and a new value; `same` tells whether they look the same. -/
def lineGroup (same : Val → Val → Bool) (l : Str) (a b : Val) : List (List Shown) :=
  if same a b then (if blank a then [] else [[⟨.same, l, a⟩]])
  else if blank a then [[⟨.add, l, b⟩]]
  else if blank b then [[⟨.del, l, a⟩]]
  else [[⟨.del, l, a⟩, ⟨.add, l, b⟩]]

/-- The lines of a diff closure that only writes lines. -/
def headsD (same : Val → Val → Bool) : D → List (List Shown)
  | .seq p q => headsD same p ++ headsD same q
  | .label l => [[⟨.same, l, .nil⟩]]
  | .line l a b => lineGroup same l a b
  | .printIfDiff e => headsD same e
  | .ignoreDiff _ e => headsD same e
  | _ => []

/-- The items of a diff: what only one file has is marked as deleted or added, values that differ are
shown twice. -/
def pageD (same : Val → Val → Bool) (http : Bool) : D → Nat → List Node
  | .seq p q, d => pageD same http p d ++ pageD same http q d
  | .label l, _ => leaves [[⟨.same, l, .nil⟩]]
  | .line l a b, _ => leaves (lineGroup same l a b)
  | .indent _ h b, d => section_ (headsD same h) (pageD same http b d)
  | .field _ l b, d => optSection l (pageD same http b d)
  | .id _ h b, d => [.item (headsD same h).flatten (some (if http then [] else pageD same http b d))]
  | .inline e, d => if d = 0 then [] else pageD same http e (d - 1)
  | .prefixDelete p, d => pageP http .del p d
  | .prefixAdd p, d => pageP http .add p d
  | .block a b, d => pageP http .del a d ++ pageP http .add b d
  | .printIfDiff e, d => pageD same http e d
  | .ignoreDiff _ e, d => pageD same http e d
  | _, _ => []

end Verif.Html
