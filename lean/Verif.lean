import Verif.Model.Args
import Verif.Model.ChipText
import Verif.Model.Chips
import Verif.Model.Cli
import Verif.Model.Csv
import Verif.Model.Deps
import Verif.Model.DescJson
import Verif.Model.Die
import Verif.Model.Diff
import Verif.Model.Dump
import Verif.Model.DumpDwarf
import Verif.Model.Dwarf
import Verif.Model.DwarfMsg
import Verif.Model.Elf
import Verif.Model.ElfMsg
import Verif.Model.ElfNames
import Verif.Model.ElfObj
import Verif.Model.ElfView
import Verif.Model.ErrMsg
import Verif.Model.Expand
import Verif.Model.Files
import Verif.Model.Frame
import Verif.Model.Get
import Verif.Model.GetMsg
import Verif.Model.Json
import Verif.Model.KeptDies
import Verif.Model.Lazy
import Verif.Model.MapFile
import Verif.Model.MapMsg
import Verif.Model.MemTypes
import Verif.Model.OpNames
import Verif.Model.Ops
import Verif.Model.Output
import Verif.Model.Phdrs
import Verif.Model.Prepare
import Verif.Model.Regions
import Verif.Model.Reuse
import Verif.Model.Run
import Verif.Model.RunAt
import Verif.Model.RunFiles
import Verif.Model.RunMsg
import Verif.Model.Sections
import Verif.Model.Summary
import Verif.Model.SummaryTable
import Verif.Model.SymMsg
import Verif.Model.Table
import Verif.Model.Tree
import Verif.Model.TreeFmt
import Verif.Model.TreeShow
import Verif.Model.Unify
import Verif.Model.WarnText
import Verif.Model.Warnings
import Verif.Proofs.Agree
import Verif.Proofs.At
import Verif.Proofs.Bytes
import Verif.Proofs.Cells
import Verif.Proofs.Deps
import Verif.Proofs.Dict
import Verif.Proofs.Diff
import Verif.Proofs.ElfObj
import Verif.Proofs.ElfObjNames
import Verif.Proofs.Escape
import Verif.Proofs.Files
import Verif.Proofs.Fmt
import Verif.Proofs.Group
import Verif.Proofs.Json
import Verif.Proofs.JsonDump
import Verif.Proofs.JsonLoad
import Verif.Proofs.JsonSound
import Verif.Proofs.KeptDies
import Verif.Proofs.Linear
import Verif.Proofs.LinearSyms
import Verif.Proofs.List
import Verif.Proofs.Lto
import Verif.Proofs.MapRun
import Verif.Proofs.MapText
import Verif.Proofs.Markup
import Verif.Proofs.MemTypes
import Verif.Proofs.Parts
import Verif.Proofs.Path
import Verif.Proofs.PrepCells
import Verif.Proofs.ProjectCells
import Verif.Proofs.PurePath
import Verif.Proofs.Regions
import Verif.Proofs.Round
import Verif.Proofs.Sort
import Verif.Proofs.Split
import Verif.Proofs.Summary
import Verif.Proofs.Summary2
import Verif.Proofs.Symbols
import Verif.Proofs.Unify
import Verif.Proofs.UnifyDiff
import Verif.Props.Abspath
import Verif.Props.Agree
import Verif.Props.Archives
import Verif.Props.AttrText
import Verif.Props.Cells
import Verif.Props.CellsRun
import Verif.Props.ChipText
import Verif.Props.Chips
import Verif.Props.Cli
import Verif.Props.Compare
import Verif.Props.Csv
import Verif.Props.CsvRun
import Verif.Props.CsvShown
import Verif.Props.CsvSummary
import Verif.Props.Deps
import Verif.Props.DepsRun
import Verif.Props.DepsShown
import Verif.Props.DepsTable
import Verif.Props.DescComps
import Verif.Props.DescJson
import Verif.Props.Die
import Verif.Props.Diff
import Verif.Props.DiffRun
import Verif.Props.DiffTotals
import Verif.Props.Dot
import Verif.Props.DotText
import Verif.Props.Dump
import Verif.Props.DumpDwarf
import Verif.Props.DwarfDies
import Verif.Props.DwarfErrors
import Verif.Props.DwarfEval
import Verif.Props.DwarfForms
import Verif.Props.DwarfMsg
import Verif.Props.DwarfNames
import Verif.Props.DwarfUnits
import Verif.Props.ElfFile
import Verif.Props.ElfLeft
import Verif.Props.ElfMsg
import Verif.Props.ElfNames
import Verif.Props.ElfObj
import Verif.Props.ElfView
import Verif.Props.EndToEnd
import Verif.Props.ErrMsg
import Verif.Props.ErrRun
import Verif.Props.Expand
import Verif.Props.Fields
import Verif.Props.Files
import Verif.Props.FilesEnd
import Verif.Props.Filter
import Verif.Props.Fnmatch
import Verif.Props.Frame
import Verif.Props.Get
import Verif.Props.GetInputs
import Verif.Props.GetMsg
import Verif.Props.GetTotals
import Verif.Props.Growth
import Verif.Props.Influence
import Verif.Props.Json
import Verif.Props.KeptDies
import Verif.Props.Lazy
import Verif.Props.LazyRead
import Verif.Props.Lost
import Verif.Props.Lto
import Verif.Props.MapErrors
import Verif.Props.MapMsg
import Verif.Props.MapPrint
import Verif.Props.MapRegions
import Verif.Props.MapRun
import Verif.Props.MapSections
import Verif.Props.MarkupExact
import Verif.Props.MemTypes
import Verif.Props.MsgExact
import Verif.Props.MsgShown
import Verif.Props.Nested
import Verif.Props.OpNames
import Verif.Props.Ops
import Verif.Props.Options
import Verif.Props.Output
import Verif.Props.Percent
import Verif.Props.Phdrs
import Verif.Props.Pieces
import Verif.Props.Refused
import Verif.Props.Regions
import Verif.Props.Reuse
import Verif.Props.Run
import Verif.Props.RunEnds
import Verif.Props.RunErrors
import Verif.Props.RunFiles
import Verif.Props.RunMsg
import Verif.Props.RunTotals
import Verif.Props.SelfRun
import Verif.Props.Sort
import Verif.Props.Split
import Verif.Props.Summary
import Verif.Props.SummaryCells
import Verif.Props.SummaryTable
import Verif.Props.SymFit
import Verif.Props.SymMsg
import Verif.Props.SymOrigin
import Verif.Props.SymRun
import Verif.Props.SymSummary
import Verif.Props.Symbols
import Verif.Props.Table
import Verif.Props.TableRun
import Verif.Props.TreeFmt
import Verif.Props.TreeShow
import Verif.Props.Unify
import Verif.Props.UnifyDiff
import Verif.Props.Validate
import Verif.Props.Walk
import Verif.Props.WarnRun
import Verif.Props.WarnText
import Verif.Props.Warnings
import Verif.Py.Abspath
import Verif.Py.Basic
import Verif.Py.Bytes
import Verif.Py.Dict
import Verif.Py.Float
import Verif.Py.Fmt
import Verif.Py.Fnmatch
import Verif.Py.Json
import Verif.Py.JsonLoad
import Verif.Py.Markup
import Verif.Py.MarkupErr
import Verif.Py.Path
import Verif.Py.PurePath
import Verif.Py.Sort
import Verif.Py.Split
import Verif.Py.Style
import Verif.Spec.Abspath
import Verif.Spec.Agree
import Verif.Spec.AttrText
import Verif.Spec.Cells
import Verif.Spec.ChipText
import Verif.Spec.Cli
import Verif.Spec.Compare
import Verif.Spec.Csv
import Verif.Spec.CsvRun
import Verif.Spec.Deps
import Verif.Spec.DepsRun
import Verif.Spec.DescJson
import Verif.Spec.Die
import Verif.Spec.Diff
import Verif.Spec.DiffRun
import Verif.Spec.Dot
import Verif.Spec.DotText
import Verif.Spec.Dump
import Verif.Spec.DumpDwarf
import Verif.Spec.Dwarf
import Verif.Spec.DwarfMsg
import Verif.Spec.DwarfNames
import Verif.Spec.Elf
import Verif.Spec.ElfMsg
import Verif.Spec.ElfNames
import Verif.Spec.ElfObj
import Verif.Spec.ElfView
import Verif.Spec.ErrMsg
import Verif.Spec.Fields
import Verif.Spec.Files
import Verif.Spec.FilesEnd
import Verif.Spec.Fnmatch
import Verif.Spec.Frame
import Verif.Spec.Get
import Verif.Spec.GetMsg
import Verif.Spec.Growth
import Verif.Spec.Influence
import Verif.Spec.Json
import Verif.Spec.JsonDump
import Verif.Spec.JsonText
import Verif.Spec.KeptDies
import Verif.Spec.Lazy
import Verif.Spec.Lost
import Verif.Spec.Lto
import Verif.Spec.MapFileText
import Verif.Spec.MapMsg
import Verif.Spec.MapPrint
import Verif.Spec.MapRun
import Verif.Spec.MapText
import Verif.Spec.Markup
import Verif.Spec.MemTypes
import Verif.Spec.Ops
import Verif.Spec.Options
import Verif.Spec.Output
import Verif.Spec.Percent
import Verif.Spec.Phdrs
import Verif.Spec.Pieces
import Verif.Spec.PurePath
import Verif.Spec.Refused
import Verif.Spec.Regions
import Verif.Spec.Reuse
import Verif.Spec.RunEnds
import Verif.Spec.RunFiles
import Verif.Spec.RunTotals
import Verif.Spec.Sections
import Verif.Spec.SelfRun
import Verif.Spec.Sort
import Verif.Spec.SummaryCells
import Verif.Spec.SummaryTable
import Verif.Spec.SymFit
import Verif.Spec.SymMsg
import Verif.Spec.SymOrigin
import Verif.Spec.Symbols
import Verif.Spec.Table
import Verif.Spec.TableRun
import Verif.Spec.Text
import Verif.Spec.Tree
import Verif.Spec.TreeFmt
import Verif.Spec.Unify
import Verif.Spec.WarnText
import Verif.Spec.Warnings
