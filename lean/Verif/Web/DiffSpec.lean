import Verif.Html.Read
/-!
# Text that is the same up to the marks of deleted and added lines
-/
namespace Verif.Web
open Verif.Html

/-- `Unmarks s s'`: `s'` is `s` with some of the marks of deleted and added lines taken away. -/
inductive Unmarks : Str → Str → Prop
  | same (s : Str) : Unmarks s s
  | append {a a' b b'} : Unmarks a a' → Unmarks b b' → Unmarks (a ++ b) (a' ++ b')
  | del : Unmarks (lit "<span class=\"field del\">") (lit "<span class=\"field\">")
  | add : Unmarks (lit "<span class=\"field add\">") (lit "<span class=\"field\">")

end Verif.Web
