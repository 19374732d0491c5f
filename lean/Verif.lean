import Verif.Model.BuckyData
import Verif.Props.Element
import Verif.Props.Cell
import Verif.Props.Symmetry
import Verif.Props.Enumerate
import Verif.Props.Dedup
import Verif.Props.Levels
import Verif.Props.Hnf
import Verif.Props.SuperEq
import Verif.Props.Super
import Verif.Props.Derivative
import Verif.Props.Lazy
import Verif.Props.Restriction
import Verif.Props.Modified
import Verif.Props.Clarifier
import Verif.Props.Io
import Verif.Props.Mlearn
import Verif.Props.Mcts
import Verif.Props.ModifiedMore
import Verif.Props.Bucky
import Verif.Props.Scaffold
import Verif.Props.ScaffoldArr
import Verif.Props.GridSym
import Verif.Props.GridLimit
import Verif.Props.Disjunct
import Verif.Props.Apps
import Verif.Props.AppsTernary
import Verif.Props.AppsMore
import Verif.Props.Commands
import Verif.Props.Arrange
import Verif.Props.Count
import Verif.Props.Polya
import Verif.Props.HnfCount
import Verif.Props.ScaffoldMore
import Verif.Props.Binary64
import Verif.Props.Binary64Super
import Verif.Props.AppFiles
import Verif.Props.Filters
import Verif.Props.MctsExplore
import Verif.Props.Binary64Dist
import Verif.Props.Binary64Io
import Verif.Props.CellArrays
import Verif.Props.SuperCount
import Verif.Props.AppAborts
import Verif.Props.PoscarAccept
import Verif.Props.Numerals
import Verif.Props.TerAborts
import Verif.Props.Derivative2D
import Verif.Props.SupAborts
import Verif.Props.Unimodal
import Verif.Spec.Crystal
import Verif.Props.Crystals
import Verif.Spec.Motion
import Verif.Lemmas.Motion
import Verif.Props.DerivativeOnce
import Verif.Spec.Growth
import Verif.Props.ArrangeAll
import Verif.Spec.Twin
import Verif.Props.Rounded
import Verif.Spec.FirstKept
import Verif.Props.HashWidth
import Verif.Model.Writers
import Verif.Props.Writers
import Verif.Props.Equality
import Verif.Model.Session
import Verif.Props.Session
import Verif.Conformance.Common
import Verif.Conformance.Sogen
import Verif.Conformance.Grid
import Verif.Conformance.Cells
import Verif.Conformance.Files
import Verif.Model.Cli
import Verif.Spec.Cli
import Verif.Lemmas.Cli
import Verif.Props.Cli
import Verif.Props.CliValues
import Verif.Props.SuperGeneral
import Verif.Model.Shell
import Verif.Props.Shell
import Verif.Props.Workflow
import Verif.Props.GridAgree
import Verif.Spec.Alloy
import Verif.Props.Alloys
import Verif.Props.Canonical
import Verif.Spec.Steps
import Verif.Props.TwoStep
import Verif.Spec.GameTree
import Verif.Props.GameTree
import Verif.Spec.Relabel
import Verif.Props.Relabel
import Verif.Model.Mcts64
import Verif.Spec.Mcts64
import Verif.Props.Mcts64
import Verif.Model.Binary64Sphere
import Verif.Props.Binary64Sphere
import Verif.Spec.Coarse
import Verif.Props.Missing
import Verif.Spec.Firsts
import Verif.Props.Firsts
import Verif.Model.Consumer
import Verif.Props.Consumer
import Verif.Model.Binary64Factors
import Verif.Spec.Root64
import Verif.Props.Binary64Factors
import Verif.Model.Dtype
import Verif.Spec.Dtype
import Verif.Props.Dtype
import Verif.Props.SuperEqMore
import Verif.Props.LostFiles
import Verif.Model.Binary64Apps
import Verif.Spec.Doubled
import Verif.Props.Binary64Apps
import Verif.Model.Binary64Grid
import Verif.Spec.Binary64Grid
import Verif.Props.Binary64Grid
import Verif.Props.Binary64GridFail
import Verif.Props.Binary64GridEqual
import Verif.Model.Binary64Ter
import Verif.Spec.DoubledTer
import Verif.Props.Binary64Ter
import Verif.Spec.SpaceGroups
import Verif.Props.SpaceGroups
import Verif.Spec.GridEnds
import Verif.Model.NumpyStr
import Verif.Props.NumpyStr
