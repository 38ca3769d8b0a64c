import Verif.Namespace.Model
/-! # Specification vocabulary for namespaces -/
namespace Verif.Namespace.Namespace

/-- The qualified path of a namespace: names from the outermost scope inwards. -/
def path : Namespace → List (Option Str)
  | root n _ => [n]
  | child p n _ => p.path ++ [n]

/-- The scopes of a namespace from the outermost inwards, with kinds. -/
def scopes : Namespace → List (Option Str × NamespaceKind)
  | root n k => [(n, k)]
  | child p n k => p.scopes ++ [(n, k)]

end Verif.Namespace.Namespace
