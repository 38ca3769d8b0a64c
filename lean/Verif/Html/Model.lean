import Verif.Print.Model
/-!
# Model of the HTML printer (`main/src/print/html.rs`)

Output is the list of bytes written. A failed `debug_assert!` is modelled as writing a lone `<`,
which no well-formed output contains, so the well-formedness theorem also shows that no assertion
fails.
-/
namespace Verif.Html
open Verif.Print

/-- Bytes of a literal. -/
abbrev lit (s : String) : Str := Str.ofString s

/-- The character references of the crate `marksman_escape` (its source is not part of the
repository): the five special bytes `"`, `&`, `'`, `<`, `>` are written as `&name;` with names
that contain none of the special bytes and no `;`, and that differ from each other. Everything is
proved for every such table. -/
structure EntityTable where
  name : Nat → Str
  plain : ∀ c, c ∈ [34, 38, 39, 60, 62] → ∀ b ∈ name c, b ∉ [34, 38, 39, 60, 62] ∧ b ≠ 59
  inj : ∀ c ∈ [34, 38, 39, 60, 62], ∀ c' ∈ [34, 38, 39, 60, 62], name c = name c' → c = c'

/-- The bytes HTML treats specially. -/
def special (c : Nat) : Bool := [34, 38, 39, 60, 62].contains c

/-- `escaped` and `escaped_str` (main/src/print/html.rs:463-469): `Escape` applied to the bytes. -/
def escape (t : EntityTable) : Str → Str
  | [] => []
  | c :: s => (if special c then [38] ++ t.name c ++ [59] else [c]) ++ escape t s

/-- The local variables of `HtmlValuePrinter::name` (main/src/print/html.rs:507-511). -/
structure NameState where
  generic : Nat
  colon : Nat
  brace : Nat
  result : Str
  s : Str
deriving DecidableEq, Repr

/-- The loop body of `HtmlValuePrinter::name` (main/src/print/html.rs:513-574). `alnum` is
`char::is_alphanumeric`; characters are code points. -/
def nameStep (alnum : Nat → Bool) (st : NameState) (c : Nat) : NameState :=
  if c = 123 then { st with brace := st.brace + 1, s := st.s ++ [c] }
  else if c = 125 then
    { st with brace := if st.brace > 0 then st.brace - 1 else st.brace, s := st.s ++ [c] }
  else if st.brace > 0 then { st with s := st.s ++ [c] }
  else if c = 60 then
    let st := { st with result := st.result ++ st.s, s := [], generic := st.generic + 1 }
    let st := if st.generic ≤ 2 then { st with result := st.result ++ [c] } else st
    if st.generic = 2 then { st with result := st.result ++ lit "..." } else st
  else if c = 62 then
    let st := if st.generic ≤ 2 then
      { st with result := st.result ++ st.s ++ [c], s := [] } else st
    if st.generic > 0 then { st with generic := st.generic - 1 } else st
  else if st.generic = 0 then { st with result := st.result ++ [c] }
  else if st.generic ≥ 2 then st
  else if c = 58 then
    if st.colon = 0 then { st with colon := 1, s := st.s ++ [c] }
    else { st with colon := 0, s := [] }
  else if c = 95 ∨ alnum c then { st with s := st.s ++ [c] }
  else { st with result := st.result ++ st.s ++ [c], s := [] }

/-- The abbreviated name computed by `HtmlValuePrinter::name`
(main/src/print/html.rs:507-575). -/
def abbreviate (alnum : Nat → Bool) (name : Str) : Str :=
  let st := name.foldl (nameStep alnum) ⟨0, 0, 0, [], []⟩
  st.result ++ st.s

/-- `HtmlValuePrinter::name` (main/src/print/html.rs:506-587). -/
def nameHtml (t : EntityTable) (alnum : Nat → Bool) (name : Str) : Str :=
  let result := abbreviate alnum name
  if name ≠ result then
    lit "<span title=\"" ++ escape t name ++ lit "\">" ++ escape t result ++ lit "</span>"
  else escape t name

/-- `HtmlValuePrinter` (main/src/print/html.rs:471-588): `write` 475-484, `link` 487-504,
`name` 506-587. -/
def valueHtml (t : EntityTable) (alnum : Nat → Bool) : Val → Str
  | .nil => []
  | .text s => escape t s
  | .name s => nameHtml t alnum s
  | .link id v =>
    if id = 0 then valueHtml t alnum v
    else lit "<a class=\"link\" data-link=\"" ++ dec id ++ lit "\" href=\"#" ++ dec id ++
      lit "\">" ++ valueHtml t alnum v ++ lit "</a>"
  | .seq v w => valueHtml t alnum v ++ valueHtml t alnum w

/-- `HtmlPrinter` (main/src/print/html.rs:230-238). -/
structure Html where
  w : Str
  indent : Nat
  pfx : DiffPrefix
  inlineDepth : Nat
  lineStarted : Bool
  http : Bool
deriving DecidableEq, Repr

/-- `write!` to the output. -/
def Html.put (x : Str) (s : Html) : Html := { s with w := s.w ++ x }

/-- `debug_assert!`: writes a lone `<` when it fails (see the module comment). -/
def Html.assert (b : Bool) (s : Html) : Html := if b then s else s.put [60]

/-- The class attribute of a value (main/src/print/html.rs:316-327). -/
def classOf : DiffPrefix → Str
  | .none | .equal => lit " class=\"field\""
  | .modify => lit " class=\"field mod\""
  | .delete => lit " class=\"field del\""
  | .add => lit " class=\"field add\""

/-- `line` (main/src/print/html.rs:301-336). -/
def Html.line (label buf : Str) (s : Html) : Html :=
  let s := if !s.lineStarted then s.put (lit "<li>") else s
  let s :=
    if buf.isEmpty then
      let s := s.put (lit "<span")
      let s := if s.pfx = .modify then s.put (lit " class=\"field mod\"") else s
      s.put (lit ">" ++ label ++ lit ":</span>")
    else
      let s := if !label.isEmpty then
        s.put (lit "<span class=\"field\">" ++ label ++ lit ":</span> ") else s
      let s := s.put (lit "<span")
      let s := s.put (classOf s.pfx)
      let s := s.put (lit ">")
      let s := s.put buf
      s.put (lit "</span>")
  if !s.lineStarted then s.put (lit "</li>\n") else s

/-- `line_diff` (main/src/print/html.rs:338-354). -/
def Html.lineDiff (label a b : Str) (s : Html) : Html :=
  let s := if !s.lineStarted then s.put (lit "<li>") else s
  let s := if !label.isEmpty then
    s.put (lit "<span class=\"field\">" ++ label ++ lit ":</span> ") else s
  let s := s.put (lit "<span class=\"field\"><span class=\"del\">")
  let s := s.put a
  let s := s.put (lit "</span><br>\n<span class=\"add\">")
  let s := s.put b
  let s := s.put (lit "</span></span>")
  if !s.lineStarted then s.put (lit "</li>\n") else s

/-- `instruction` (main/src/print/html.rs:451-460). -/
def Html.instruction (address : Option Nat) (mnemonic buf : Str) (s : Html) : Html :=
  let s := s.put (lit "<tr><td>")
  let s := match address with
    | some a => s.put (hex a)
    | none => s
  let s := s.put (lit "</td><td>" ++ mnemonic ++ lit "</td><td>")
  let s := s.put buf
  s.put (lit "</td></tr>")

/-- `impl Printer for HtmlPrinter` (main/src/print/html.rs:263-461): `buffer` 273-290,
`write_buf` 292-295, `line_break` 297-299, `indent_body` 356-372, `indent_header` 374-393,
`indent_id` 395-417, `indent_detail` 419-428, `prefix` 430-436, `inline_begin`/`inline_end`
438-449. -/
@[reducible] def htmlPrinter (t : EntityTable) (alnum : Nat → Bool) : Printer where
  S := Html
  W := Nat
  value := valueHtml t alnum
  buffer f s :=
    let (p, b) := f { s with w := [] }
    (p.w, b)
  writeBuf buf s := s.put buf
  lineBreak s := s
  line := Html.line
  lineDiff := Html.lineDiff
  indentBody f s :=
    let (p, b) := f { s with w := [], indent := s.indent + 1, lineStarted := false }
    (p.w, b)
  indentHeader collapsed body header s :=
    let s := s.assert (!s.lineStarted)
    let s := s.put (lit "<li class=\"treebranch\">")
    let s := { s with lineStarted := true }
    let (s, b) := header s
    let s := if collapsed then s.put (lit "<ul style=\"display:none\">\n") else s.put (lit "<ul>\n")
    let s := s.put body
    let s := s.put (lit "</ul></li>\n")
    ({ s with lineStarted := false }, b)
  indentId id header body s :=
    let s := s.assert (!s.lineStarted)
    let s := s.put (lit "<li class=\"treebranch" ++ (if s.http then lit " lazy" else []) ++
      lit "\" id=\"" ++ dec id ++ lit "\">")
    let s := { s with lineStarted := true }
    let (s, b) := header s
    let s := s.put (lit "<ul style=\"display:none\">\n")
    let s := { s with lineStarted := false }
    let s := if !s.http then body s else s
    (s.put (lit "</ul></li>\n"), b)
  indentDetail id label s :=
    let s := s.assert s.http
    let s := s.assert (!s.lineStarted)
    let s := s.put (lit "<li class=\"detail\" data-detail=\"" ++ id ++ lit "\">")
    let s := { s with lineStarted := true }
    let s := s.line label []
    let s := s.put (lit "</li>\n")
    { s with lineStarted := false }
  setPrefix p s := { s with pfx := p }
  getPrefix s := s.pfx
  inlineBegin s :=
    if s.inlineDepth = 0 then none else some { s with inlineDepth := s.inlineDepth - 1 }
  inlineEnd s := { s with inlineDepth := s.inlineDepth + 1 }
  instruction := Html.instruction

/-- `HtmlPrinter::new` (main/src/print/html.rs:241-250). -/
def Html.new (inlineDepth : Nat) (http : Bool) : Html :=
  { w := [], indent := 0, pfx := .none, inlineDepth := inlineDepth, lineStarted := false,
    http := http }

end Verif.Html
