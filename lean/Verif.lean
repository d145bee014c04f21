import Verif.Model.Basic
import Verif.Model.Term
import Verif.Lemmas.Sorted
import Verif.Lemmas.Eval
import Verif.Props.Eval
import Verif.Props.Cyclic
import Verif.Props.Chromatic
import Verif.Props.Print
import Verif.Model.F64
import Verif.Lemmas.F64
import Verif.Model.Format
import Verif.Model.Compare
import Verif.Props.Percent
import Verif.Props.Format
import Verif.Props.Sanity
import Verif.Props.Corners
import Verif.Props.CompareExtrinsics
import Verif.Props.WorstCase
import Verif.Props.CompareFiles
import Verif.Model.Sort
import Verif.Props.Sort
import Verif.Model.Syntax
import Verif.Model.Path
import Verif.Model.ParsePallet
import Verif.Spec.Runtime
import Verif.Props.Parse
import Verif.Spec.PalletFile
import Verif.Props.ParseFile
import Verif.Props.ParseStorage
import Verif.Props.Git
import Verif.Props.Path
import Verif.Lemmas.Halts
import Verif.Lemmas.Lex
import Verif.Lemmas.ReadExpr
import Verif.Lemmas.ReadItems
import Verif.Lemmas.LayoutCheck
import Verif.Model.Branches
import Verif.Props.Web
import Verif.Props.Deadlock
import Verif.Props.WebRun
import Verif.Props.Branches
import Verif.Props.BranchText
import Verif.Props.Startup
import Verif.Props.Options
import Verif.Props.HtmlOut
import Verif.Props.CliOut
import Verif.Spec.Source
import Verif.Props.EndToEnd
import Verif.Model.Query
import Verif.Spec.Query
import Verif.Props.Query
import Verif.Model.Page
import Verif.Model.RustText
import Verif.Spec.Html
import Verif.Props.Page
import Verif.Props.PageTable
import Verif.Props.PageOther
import Verif.Spec.Commands
import Verif.Spec.RustGrammar
import Verif.Spec.Language
import Verif.Spec.WeightFile
import Verif.Spec.ConstText
import Verif.Props.Commands
import Verif.Props.Relocate
import Verif.Props.WeightText
import Verif.Props.WeightTextReport
import Verif.Props.ConstText
import Verif.Props.RequestPage
import Verif.Props.StartPage
import Verif.Props.BranchList
import Verif.Props.MergeRequests
import Verif.Model.CommandLine
import Verif.Spec.CommandLine
import Verif.Lemmas.Scan
import Verif.Lemmas.Values
import Verif.Props.CommandLine
import Verif.Spec.Messages
import Verif.Props.Messages
import Verif.Spec.Report
import Verif.Props.Report
import Verif.Props.ReportPage
import Verif.Model.Site
import Verif.Spec.Site
import Verif.Props.Site
import Verif.Checks.RepoTests
import Verif.Spec.Alive
import Verif.Props.Alive
import Verif.Spec.Click
import Verif.Props.Click
import Verif.Spec.Equation
import Verif.Spec.Printed
import Verif.Props.Printed
import Verif.Spec.Crowd
import Verif.Props.Crowd
import Verif.Props.Witness
import Verif.Model.ResultPage
import Verif.Spec.ResultPage
import Verif.Props.ResultPage
import Verif.Model.Theme
import Verif.Spec.Theme
import Verif.Props.Theme
import Verif.Model.Scripts
import Verif.Spec.Scripts
import Verif.Props.Scripts
import Verif.Model.Steps
import Verif.Spec.Steps
import Verif.Props.Steps
import Verif.Model.Glob
import Verif.Spec.Glob
import Verif.Props.Glob
import Verif.Props.GlobOnce
import Verif.Spec.Clone
import Verif.Props.Clone
import Verif.Props.CloneFalse
import Verif.Props.CloneExample
import Verif.Model.Debug
import Verif.Spec.Failure
import Verif.Props.Failure
import Verif.Props.FailurePage
import Verif.Spec.Outside
import Verif.Props.Outside
import Verif.Props.Methods
import Verif.Props.Readme
import Verif.Props.Names
import Verif.Props.Narrow
import Verif.Props.Language
import Verif.Props.Ending
import Verif.Props.Work
import Verif.Props.Constants
import Verif.Props.Crash
import Verif.Props.Deaths
import Verif.Props.Fair
import Verif.Props.Workers
import Verif.Props.Table
import Verif.Props.Cost
import Verif.Props.CostText
import Verif.Props.Deployment
import Verif.Props.MrTable
import Verif.Props.Silence
import Verif.Props.HttpCache
import Verif.Props.Version
import Verif.Props.EquationText
import Verif.Props.Parts
import Verif.Props.Slower
import Verif.Props.Units
import Verif.Props.Common
