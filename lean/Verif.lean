import Verif.Arena.Examples
import Verif.Arena.Inv
import Verif.Arena.Lemmas
import Verif.Arena.Model
import Verif.Arena.Props
import Verif.Arena.Spec
import Verif.Asm.Examples
import Verif.Asm.Model
import Verif.Asm.Props
import Verif.Asm.Spec
import Verif.Base
import Verif.Bloat.Lemmas
import Verif.Bloat.Model
import Verif.Bloat.Props
import Verif.Bloat.Spec
import Verif.Cfi.Interleave
import Verif.Cfi.Listing
import Verif.Cfi.Model
import Verif.Cfi.Props
import Verif.Cfi.Spec
import Verif.Cfi.Text
import Verif.Cli.Collect
import Verif.Cli.Lemmas
import Verif.Cli.Model
import Verif.Cli.Props
import Verif.Cli.Spec
import Verif.Code.Annot
import Verif.Code.Model
import Verif.Code.Plt
import Verif.Code.PltModel
import Verif.Code.Props
import Verif.Code.Spec
import Verif.Dwarf.AttrLemmas
import Verif.Dwarf.AttrProps
import Verif.Dwarf.AttrSpec
import Verif.Dwarf.BoundsModel
import Verif.Dwarf.BoundsProps
import Verif.Dwarf.CallModel
import Verif.Dwarf.CallProps
import Verif.Dwarf.CallSpec
import Verif.Dwarf.DetailModel
import Verif.Dwarf.DetailProps
import Verif.Dwarf.DetailSpec
import Verif.Dwarf.DieModel
import Verif.Dwarf.EvalModel
import Verif.Dwarf.EvalProps
import Verif.Dwarf.EvalSpec
import Verif.Dwarf.EvalTotal
import Verif.Dwarf.LookupProps
import Verif.Dwarf.UnitModel
import Verif.Dwarf.UnitProps
import Verif.Dwarf.UnitSpec
import Verif.Dwarf.WalkFix
import Verif.Dwarf.WalkLemmas
import Verif.Dwarf.WalkModel
import Verif.Dwarf.WalkOk
import Verif.Dwarf.WalkProps
import Verif.Dwarf.WalkSpec
import Verif.Dwarf.WalkVars
import Verif.File.Lemmas
import Verif.File.Model
import Verif.File.Props
import Verif.File.Spec
import Verif.File.Summary
import Verif.File.Unknown
import Verif.Filter.Model
import Verif.Filter.Props
import Verif.Filter.Spec
import Verif.Frame.Lemmas
import Verif.Frame.Model
import Verif.Frame.Props
import Verif.Frame.Spec
import Verif.Html.Lemmas
import Verif.Html.Lemmas2
import Verif.Html.Lemmas3
import Verif.Html.Look
import Verif.Html.LookProps
import Verif.Html.LookTree
import Verif.Html.Model
import Verif.Html.Props
import Verif.Html.Read
import Verif.Html.ReadLemmas
import Verif.Html.ReadProps
import Verif.Html.ReadText
import Verif.Html.Spec
import Verif.Ids.Lemmas
import Verif.Ids.Model
import Verif.Ids.Props
import Verif.Ids.Spec
import Verif.Item.Details
import Verif.Item.Model
import Verif.Item.Props
import Verif.Item.Spec
import Verif.Layout.Lemmas
import Verif.Layout.Model
import Verif.Layout.Props
import Verif.Layout.Spec
import Verif.Main.Lemmas
import Verif.Main.Model
import Verif.Main.Props
import Verif.Main.Spec
import Verif.Merge.Lemmas
import Verif.Merge.Model
import Verif.Merge.Props
import Verif.Merge.Spec
import Verif.Move.Files
import Verif.Move.Fns
import Verif.Move.Hash
import Verif.Move.Props
import Verif.Move.Spec
import Verif.Move.Types
import Verif.Namespace.Model
import Verif.Namespace.Props
import Verif.Namespace.Spec
import Verif.Num
import Verif.Opts.Lemmas
import Verif.Opts.Lemmas2
import Verif.Opts.Model
import Verif.Opts.Props
import Verif.Opts.Spec
import Verif.Order.Lemmas
import Verif.Order.Model
import Verif.Order.Props
import Verif.Order.Spec
import Verif.Page.Agree
import Verif.Page.AgreeSpec
import Verif.Page.DiffExamples
import Verif.Page.DiffLemmas
import Verif.Page.DiffProps
import Verif.Page.DiffSpec
import Verif.Page.EntryProps
import Verif.Page.EntrySpec
import Verif.Page.Examples
import Verif.Page.Lemmas
import Verif.Page.Props
import Verif.Page.Spec
import Verif.Page.Unmarked
import Verif.Path.Lemmas
import Verif.Path.Lemmas2
import Verif.Path.Lemmas3
import Verif.Path.Model
import Verif.Path.Props
import Verif.Path.Spec
import Verif.Print.Lemmas
import Verif.Print.Lemmas2
import Verif.Print.Lemmas3
import Verif.Print.Model
import Verif.Print.Props
import Verif.Print.Spec
import Verif.Print.Unreported
import Verif.Prog.Examples
import Verif.Prog.Model
import Verif.Prog.PageExamples
import Verif.Prog.Pages
import Verif.Prog.PlainPage
import Verif.Prog.Props
import Verif.Prog.SelfPage
import Verif.Prog.Spec
import Verif.Range.Exact
import Verif.Range.Lemmas
import Verif.Range.Model
import Verif.Range.Props
import Verif.Range.Spec
import Verif.Rebase.Files
import Verif.Rebase.Fns
import Verif.Rebase.Props
import Verif.Rebase.Spec
import Verif.Reloc.Model
import Verif.Reloc.Props
import Verif.Reloc.Spec
import Verif.Select.Args
import Verif.Select.DiffLemmas
import Verif.Select.DiffListing
import Verif.Select.DiffProps
import Verif.Select.Lemmas
import Verif.Select.Listing
import Verif.Select.MergeFilter
import Verif.Select.Props
import Verif.Select.Spec
import Verif.Sentinel.Model
import Verif.Sentinel.Props
import Verif.Serve.Model
import Verif.Serve.Props
import Verif.Serve.Spec
import Verif.Show.Align
import Verif.Show.AlignProps
import Verif.Show.AlignSpec
import Verif.Show.Alike
import Verif.Show.Appears
import Verif.Show.DiffTotal
import Verif.Show.Facts
import Verif.Show.FactsExamples
import Verif.Show.FactsProps
import Verif.Show.FactsSpec
import Verif.Show.FileDiffTotal
import Verif.Show.FileExamples
import Verif.Show.FileFacts
import Verif.Show.FileFactsProps
import Verif.Show.FileFactsSpec
import Verif.Show.FileItems
import Verif.Show.FileLemmas
import Verif.Show.FileModel
import Verif.Show.FileProps
import Verif.Show.FileRows
import Verif.Show.FileRowsSpec
import Verif.Show.FileSpec
import Verif.Show.FnExamples
import Verif.Show.FnFacts
import Verif.Show.FnFacts2
import Verif.Show.FnFactsSpec
import Verif.Show.FnInst
import Verif.Show.FnModel
import Verif.Show.FnProps
import Verif.Show.FnRel
import Verif.Show.FnSelf
import Verif.Show.FnSpec
import Verif.Show.FnTexts
import Verif.Show.RangePairs
import Verif.Show.Refs
import Verif.Show.RowSplit
import Verif.Show.Rows
import Verif.Show.RowsProps
import Verif.Show.RowsSpec
import Verif.Show.Sides
import Verif.Show.Split
import Verif.Show.Total
import Verif.Show.TotalExamples
import Verif.Show.TotalSpec
import Verif.Show.TypeFacts
import Verif.Show.TypeLemmas
import Verif.Show.TypeModel
import Verif.Show.TypeProps
import Verif.Show.TypeRef
import Verif.Show.TypeRefProps
import Verif.Show.TypeTotal
import Verif.Shuffle.Lemmas
import Verif.Shuffle.Listing
import Verif.Shuffle.Props
import Verif.Shuffle.Spec
import Verif.Sort
import Verif.Str
import Verif.Turn.Files
import Verif.Turn.Fns
import Verif.Turn.Lists
import Verif.Turn.Merges
import Verif.Turn.Props
import Verif.Turn.Spec
import Verif.Turn.Twin
import Verif.Turn.Types
import Verif.Types.Lemmas
import Verif.Types.Lemmas2
import Verif.Types.Model
import Verif.Types.Props
import Verif.Types.Spec
import Verif.Web.DLemmas
import Verif.Web.DOpens
import Verif.Web.DOut
import Verif.Web.DProps
import Verif.Web.DSite
import Verif.Web.DWalk
import Verif.Web.DiffExamples
import Verif.Web.DiffModel
import Verif.Web.DiffPage
import Verif.Web.DiffSpec
import Verif.Web.Examples
import Verif.Web.Form
import Verif.Web.Lemmas
import Verif.Web.Model
import Verif.Web.Opens
import Verif.Web.Out
import Verif.Web.Page
import Verif.Web.PageSpec
import Verif.Web.Pairs
import Verif.Web.Props
import Verif.Web.Spec
import Verif.Web.Walk
import Verif.Whole.Diff
import Verif.Whole.DiffExamples
import Verif.Whole.DiffSpec
import Verif.Whole.DiffText
import Verif.Whole.Examples
import Verif.Whole.Lemmas
import Verif.Whole.Model
import Verif.Whole.Props
import Verif.Whole.Reads
import Verif.Whole.Spec
