import Verif.Html.Read
/-!
# Reading an HTML page, character by character

A reader that goes through the text of a page once and notes what is there: items, lists, and lines with their marks. It knows
nothing of how the page was made.
-/
namespace Verif.Html
open Verif.Print

/-- A piece of HTML: a tag, an entity or a character. -/
inductive Tok
  | tag (s : Str) | entity (s : Str) | ch (c : Nat)
deriving DecidableEq, Repr

/-- The pieces of a text; `within` says what has been read of a tag (`true`) or an entity. -/
def toks (within : Option (Bool × Str)) : Str → List Tok
  | [] => []
  | c :: h =>
    match within with
    | none => if c = 60 then toks (some (true, [])) h else if c = 38 then toks (some (false, [])) h else .ch c :: toks none h
    | some (true, a) => if c = 62 then .tag a :: toks none h else toks (some (true, a ++ [c])) h
    | some (false, a) => if c = 59 then .entity a :: toks none h else toks (some (false, a ++ [c])) h

/-- What is on a page. -/
inductive Sight
  | openItem | closeItem | openList | closeList
  | line (m : Mark) (text : Str)
deriving DecidableEq, Repr

/-- A reader on the way: the open `<span>`s, those that hold a line being `true`; the line that is being read; the label in
front of it; and what has been seen, latest first. -/
structure Reader where
  spans : List Bool := []
  line : Option (Mark × Str) := none
  label : Str := []
  seen : List Sight := []
deriving DecidableEq, Repr

/-- The mark that a tag gives to a line; `none` for tags that open no line. -/
def tagMark (s : Str) : Option Mark :=
  if s = lit "span" ∨ s = lit "span class=\"field\"" ∨ s = lit "span class=\"field mod\"" then some .same
  else if s = lit "span class=\"field del\"" ∨ s = lit "span class=\"del\"" then some .del
  else if s = lit "span class=\"field add\"" ∨ s = lit "span class=\"add\"" then some .add
  else none

/-- Reads a tag. A space after a label is part of the label (`Reader.char`). -/
def Reader.tag (r : Reader) (s : Str) : Reader :=
  if s = lit "/span" then
    match r.spans, r.line with
    | true :: open_, some (m, x) =>
      { r with spans := open_, line := none, label := if open_ = [] then [] else r.label, seen := .line m (r.label ++ x) :: r.seen }
    | _ :: open_, none => { r with spans := open_, label := if open_ = [] then [] else r.label }
    | _, _ => { r with spans := r.spans.drop 1 }
  else match tagMark s with
    | some m => { r with spans := true :: r.spans, line := some (m, []) }
    | none =>
      if s.take 11 = lit "span title=" then { r with spans := false :: r.spans }
      else if s.take 2 = lit "li" then { r with seen := .openItem :: r.seen }
      else if s.take 2 = lit "ul" then { r with seen := .openList :: r.seen }
      else if s = lit "/ul" then { r with seen := .closeList :: r.seen }
      else if s = lit "/li" then { r with seen := .closeItem :: r.seen }
      else r

/-- Reads a character: in a line; as the space between a label and a value; or between items. -/
def Reader.char (r : Reader) (c : Nat) : Reader :=
  match r.line with
  | some (m, x) => { r with line := some (m, x ++ [c]) }
  | none =>
    if c = 32 ∧ r.spans = [] then
      match r.seen with
      | .line _ x :: seen => { r with label := x ++ [32], seen := seen }
      | _ => r
    else r

/-- The byte an entity stands for. -/
def named (t : EntityTable) (s : Str) : Nat := ([34, 38, 39, 60, 62].find? fun c => t.name c = s).getD 0

/-- Reads a piece. -/
def Reader.step (t : EntityTable) (r : Reader) : Tok → Reader
  | .tag s => r.tag s
  | .entity s => r.char (named t s)
  | .ch c => r.char c

/-- What a reader sees on a page, in order. -/
def look (t : EntityTable) (h : Str) : List Sight := ((toks none h).foldl (Reader.step t) {}).seen.reverse

/-- The text of a line: `label:`, `label: value` or `value`. -/
def lineText (alnum : Nat → Bool) (x : Shown) : Str :=
  if x.val = .nil then x.label ++ lit ":"
  else (if x.label = [] then [] else x.label ++ lit ": ") ++ shownText alnum x.val

mutual
/-- What is to be seen of an item. -/
def Node.sights (alnum : Nat → Bool) : Node → List Sight
  | .item lines kids => .openItem :: lines.map (fun x => .line x.mark (lineText alnum x)) ++ kidsSights alnum kids ++ [.closeItem]
/-- What is to be seen of the items in an item. -/
def kidsSights (alnum : Nat → Bool) : Option (List Node) → List Sight
  | none => []
  | some ns => .openList :: sights alnum ns ++ [.closeList]
/-- What is to be seen of some items. -/
def sights (alnum : Nat → Bool) : List Node → List Sight
  | [] => []
  | n :: ns => n.sights alnum ++ sights alnum ns
end

end Verif.Html
