import Verif.Opts.Model
/-! # Specification vocabulary for options, independent of how they are processed -/
namespace Verif.Opts

/-- One of `names` occurs among the values given for an option. -/
def Given (vals : Option (List Str)) (names : List String) : Prop :=
  ∃ vs, vals = some vs ∧ ∃ n ∈ names, k n ∈ vs

/-- Every value given for an option is one of `names`. -/
def OnlyFrom (vals : Option (List Str)) (names : List String) : Prop :=
  ∀ vs, vals = some vs → ∀ v ∈ vs, ∃ n ∈ names, v = k n

/-- The documented values of `--category`, `--print` and `--ignore` (main/src/main.rs:44-64,
83-94 and the help texts). -/
def categoryNames : List String := ["file", "unit", "type", "function", "variable"]
/-- See `categoryNames`. -/
def printNames : List String :=
  ["all", "address", "source", "file-address", "unit-address", "function-calls",
   "function-instructions", "function-variables", "function-stack-frame",
   "inlined-function-parameters", "variable-locations"]
/-- See `categoryNames`. -/
def ignoreNames : List String :=
  ["added", "deleted", "address", "linkage-name", "symbol-name", "function-address",
   "function-size", "function-inline", "function-symbol-name", "variable-address",
   "variable-symbol-name"]

/-- `v` is `key=value`, with the key free of `=`. -/
def IsPair (v key value : Str) : Prop := v = key ++ 61 :: value ∧ 61 ∉ key

/-- The setting for `key` is the last one among the values given, `dflt` if there is none. `R key
value` relates a value to the setting it makes. -/
inductive LastSetting {β : Type} (R : Str → β → Prop) (dflt : β) : List Str → β → Prop
  | none {vs} : (∀ v ∈ vs, ∀ b, ¬ R v b) → LastSetting R dflt vs dflt
  | last {pre v post b} : R v b → (∀ w ∈ post, ∀ b, ¬ R w b) →
      LastSetting R dflt (pre ++ v :: post) b

/-- `name=<string>` and `unit=<string>`. -/
def SetsTo (key : String) : Str → Option Str → Prop :=
  fun v b => ∃ value, IsPair v (k key) value ∧ b = some value

/-- `function-inline=<yes|no>` (and its short forms). -/
def SetsInline : Str → Option Bool → Prop :=
  fun v b => ∃ key value, IsPair v key value ∧ (key = k "inline" ∨ key = k "function-inline") ∧
    ((value = k "y" ∨ value = k "yes") ∧ b = some true ∨
     (value = k "n" ∨ value = k "no") ∧ b = some false)

/-- Parts joined with `::`. -/
def joinColons : List Str → Str
  | [] => []
  | [p] => p
  | p :: q :: ps => p ++ 58 :: 58 :: joinColons (q :: ps)

/-- `parts` is the way to cut `s` at every `::`: joining gives `s` back, and no part but the last
contains or (with the following separator) completes an earlier `::`. -/
def CutAtColons (s : Str) (parts : List Str) : Prop :=
  parts ≠ [] ∧ joinColons parts = s ∧ (∀ p ∈ parts, ¬ [58, 58] <:+: p) ∧
    (∀ p ∈ parts.dropLast, p.getLast? ≠ some 58)

/-- `namespace=<string>`. -/
def SetsNamespace : Str → List Str → Prop :=
  fun v b => ∃ value, IsPair v (k "namespace") value ∧ CutAtColons value b

/-- Every filter value is one of the documented forms. -/
def FilterOk (v : Str) : Prop :=
  (∃ b, SetsTo "name" v b) ∨ (∃ b, SetsTo "unit" v b) ∨ (∃ b, SetsInline v b) ∨
    (∃ b, SetsNamespace v b)

end Verif.Opts
