import Verif.Opts.Model
import Verif.Print.Spec
/-!
# What it means for one set of options to ask for less than another
-/
namespace Verif.Select
open Verif.Opts

/-- `o` asks for no more than `o'`, in the same form: every kind of detail and every category of
`o` is also one of `o'`, `o` shows no deeper inlining, every filter of `o'` is also a filter of `o`
(a namespace filter may go further down the same path), and both agree on the order, the prefix
mappings, the format, and, if calls are listed, whether that is with addresses. -/
structure Narrower (o o' : Options) : Prop where
  source : o.printSource = true → o'.printSource = true
  fileAddress : o.printFileAddress = true → o'.printFileAddress = true
  unitAddress : o.printUnitAddress = true → o'.printUnitAddress = true
  calls : o.printFunctionCalls = true → o'.printFunctionCalls = true
  instructions : o.printFunctionInstructions = true → o'.printFunctionInstructions = true
  variables : o.printFunctionVariables = true → o'.printFunctionVariables = true
  stackFrame : o.printFunctionStackFrame = true → o'.printFunctionStackFrame = true
  inlinedParameters : o.printInlinedFunctionParameters = true → o'.printInlinedFunctionParameters = true
  locations : o.printVariableLocations = true → o'.printVariableLocations = true
  categoryFile : o.categoryFile = true → o'.categoryFile = true
  categoryUnit : o.categoryUnit = true → o'.categoryUnit = true
  categoryType : o.categoryType = true → o'.categoryType = true
  categoryFunction : o.categoryFunction = true → o'.categoryFunction = true
  categoryVariable : o.categoryVariable = true → o'.categoryVariable = true
  depth : o.inlineDepth ≤ o'.inlineDepth
  inlineFilter : o'.filterFunctionInline = none ∨ o'.filterFunctionInline = o.filterFunctionInline
  nameFilter : o'.filterName = none ∨ o'.filterName = o.filterName
  unitFilter : o'.filterUnit = none ∨ o'.filterUnit = o.filterUnit
  namespaceFilter : o'.filterNamespace <+: o.filterNamespace
  sort : o.sort = o'.sort
  prefixMap : o.prefixMap = o'.prefixMap
  html : o.html = o'.html
  http : o.http = o'.http
  callAddresses : o.printFunctionCalls = true → o.ignoreFunctionAddress = o'.ignoreFunctionAddress

/-- For diffs: `o` asks for no more than `o'`, filters functions the same way by whether they are
inline, and ignores at least the differences that `o'` ignores. -/
structure DiffNarrower (o o' : Options) : Prop extends Narrower o o' where
  sameInline : o.filterFunctionInline = o'.filterFunctionInline
  added : o'.ignoreAdded = true → o.ignoreAdded = true
  deleted : o'.ignoreDeleted = true → o.ignoreDeleted = true
  functionAddress : o'.ignoreFunctionAddress = true → o.ignoreFunctionAddress = true
  functionSize : o'.ignoreFunctionSize = true → o.ignoreFunctionSize = true
  functionInline : o'.ignoreFunctionInline = true → o.ignoreFunctionInline = true
  functionLinkageName : o'.ignoreFunctionLinkageName = true → o.ignoreFunctionLinkageName = true
  functionSymbolName : o'.ignoreFunctionSymbolName = true → o.ignoreFunctionSymbolName = true
  variableAddress : o'.ignoreVariableAddress = true → o.ignoreVariableAddress = true
  variableLinkageName : o'.ignoreVariableLinkageName = true → o.ignoreVariableLinkageName = true
  variableSymbolName : o'.ignoreVariableSymbolName = true → o.ignoreVariableSymbolName = true

/-- The values given for a repeatable option. -/
def given : Option (List Str) → List Str
  | some vs => vs
  | none => []

/-- The command line `a` asks for no more than `a'`, in terms of what is written on it: it has the
same output format, order, ignored differences and prefix mappings; `a'` has no category option or
has at least the categories of `a`, which has some; `a'` has at least the `--print` values of `a`;
`a'` has no filter or the same filters; and the inline depth is the same, or given on both and not
larger on `a`. -/
structure AsksLess (a a' : Args) : Prop where
  output : a.output = a'.output
  sort : a.sort = a'.sort
  ignore : a.ignore = a'.ignore
  prefixMap : a.prefixMap = a'.prefixMap
  category : a'.category = none ∨
    ∃ cs cs', a.category = some cs ∧ a'.category = some cs' ∧ ∀ c ∈ cs, c ∈ cs'
  print : ∀ v ∈ given a.print, v ∈ given a'.print
  filter : a'.filter = none ∨ a'.filter = a.filter
  depth : a.inlineDepth = a'.inlineDepth ∨
    ∃ v w d e, a.inlineDepth = some v ∧ a'.inlineDepth = some w ∧ parseUsize v = some d ∧
      parseUsize w = some e ∧ d ≤ e

end Verif.Select
