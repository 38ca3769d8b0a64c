import Verif.Html.Read
/-!
# Opening the items of a served page

The page a web server sends for a listing leaves out the bodies of the items that have an id. The
script of the page asks for `/id/N` when such an item is opened and puts the answer between the
`<ul>` tags (main/src/print/html.rs:101-127); for an item that stands for a detail it asks for
`/id/N/D`, where `N` is the id of the item it is in (129-142).
-/
namespace Verif.Web
open Verif.Print Verif.Html

/-- A section with a name, around the rows of a detail; nothing if there are none. -/
def detailSection (label rows : Str) : Str :=
  if rows = [] then []
  else lit "<li class=\"treebranch\"><span>" ++ label ++ lit ":</span><ul style=\"display:none\">\n" ++ rows ++
    lit "</ul></li>\n"

/-- `Opens load own sent full`: the text `full` is the text `sent`, which is within the item
`own`, with every unopened item opened and every detail put in its place. `load n d` is the answer
for the item `n` and the detail `d`. -/
inductive Opens (t : EntityTable) (alnum : Nat → Bool) (load : Nat → Option Str → Str) : Option Nat → Str → Str → Prop
  | same (own : Option Nat) (s : Str) : Opens t alnum load own s s
  | append {own a a' b b'} : Opens t alnum load own a a' → Opens t alnum load own b b' →
      Opens t alnum load own (a ++ b) (a' ++ b')
  | item (own : Option Nat) (n : Nat) {h : Str} {ls : List Shown} {body : Str} : HeadReads t alnum h ls →
      Opens t alnum load (some n) (load n none) body →
      Opens t alnum load own
        (lit "<li class=\"treebranch lazy\" id=\"" ++ dec n ++ lit "\">" ++ h ++
          lit "<ul style=\"display:none\">\n" ++ lit "</ul></li>\n")
        (lit "<li class=\"treebranch\" id=\"" ++ dec n ++ lit "\">" ++ h ++
          lit "<ul style=\"display:none\">\n" ++ body ++ lit "</ul></li>\n")
  | detail (n : Nat) (d label : Str) :
      Opens t alnum load (some n)
        (lit "<li class=\"detail\" data-detail=\"" ++ d ++ lit "\"><span>" ++ label ++ lit ":</span></li>\n")
        (detailSection label (load n (some d)))

/-- Programs that write rows of instructions only. -/
def OnlyRows : P → Prop
  | .skip => True
  | .seq p q => OnlyRows p ∧ OnlyRows q
  | .instruction .. => True
  | _ => False

/-- An unopened item with the id `i` and the header `ls` is in the text. -/
def HasItem (t : EntityTable) (alnum : Nat → Bool) (text : Str) (i : Nat) (ls : List Shown) : Prop :=
  ∃ a h b, HeadReads t alnum h ls ∧
    text = a ++ (lit "<li class=\"treebranch lazy\" id=\"" ++ dec i ++ lit "\">" ++ h ++
      lit "<ul style=\"display:none\">\n" ++ lit "</ul></li>\n") ++ b

end Verif.Web
