import Verif.Base.Panic
import Verif.Num.Scalar
import Verif.Num.XReal
import Verif.Num.F32
import Verif.GA.Model
import Verif.Blade.Model
import Verif.Geom.PolygonModel
import Verif.Geom.UtilsModel
import Verif.Graph.Model
import Verif.GA.Clifford
import Verif.GA.Algebra
import Verif.GA.Rotations
import Verif.GA.Metric
import Verif.Num.F32Laws
import Verif.Num.Approx
import Verif.GA.Ops
import Verif.Blade.Theorems
import Verif.Geom.LineModel
import Verif.Geom.LineTheorems
import Verif.Geom.Predicates
import Verif.Geom.PolygonBasics
import Verif.Geom.Regular
import Verif.Geom.Triangulate
import Verif.Geom.Diagonal
import Verif.Geom.TriArea
import Verif.Geom.Rounds
import Verif.Geom.Simple.Angle
import Verif.Geom.Simple.Winding
import Verif.Geom.Simple.Ring
import Verif.Geom.Simple.Split
import Verif.Geom.Simple.Ear
import Verif.Geom.Simple.Clip
import Verif.Geom.Simple.Terminate
import Verif.Geom.Simple.Loop
import Verif.Geom.Simple.Tiling
import Verif.Geom.Simple.DiagSpec
import Verif.Num.F32Int
import Verif.Geom.Transfer
import Verif.Geom.Simple.GridF32
import Verif.Num.Lawful
import Verif.Geom.UtilsExact
import Verif.Geom.UtilsExact2
import Verif.Geom.UtilsLists
import Verif.Graph.Basic
import Verif.Graph.RemoveBasic
import Verif.Graph.Remove
import Verif.Graph.Add
import Verif.Graph.Histories
import Verif.Graph.Imperative
import Verif.Graph.Caught
import Verif.Graph.Queries
import Verif.Graph.Planar
import Verif.Graph.PlanarExact
import Verif.Graph.DrawingExact
import Verif.Graph.Exact
import Verif.Graph.Undo
import Verif.Graph.PlanarHistory
import Verif.Graph.Arrangement
import Verif.Graph.Count
import Verif.Fold.Model
import Verif.Fold.Theorems
import Verif.Fold.Arrays
import Verif.Fold.Meaning
import Verif.Fold.Text
import Verif.Fold.Grammar
import Verif.Fold.Reader
import Verif.Fold.Writer
import Verif.Fold.Files
import Verif.Num.F64
import Verif.Fold.Numbers
import Verif.Fold.Bases
import Verif.Fold.EightCheck
import Verif.Fold.EightDigits
import Verif.Fold.EightNearest
import Verif.Fold.NumValue
import Verif.Fold.FloatText
import Verif.Fold.FloatRoundtrip
import Verif.Fold.NumError
import Verif.Fold.NumRead
import Verif.Fold.Bytes
import Verif.Examples.Svg
import Verif.Num.F32Real
import Verif.Num.F32Error
import Verif.Geom.Simple.FilterF32
import Verif.Geom.Simple.AreaF32
import Verif.Geom.DistF32
import Verif.Graph.F32
import Verif.Geom.Simple.Transform
import Verif.Geom.Simple.Affine
import Verif.Geom.Simple.Check
import Verif.Examples.Draw
import Verif.Examples.DrawGraph
import Verif.Examples.DrawPolygons
import Verif.Examples.DemoPolygon
import Verif.Geom.Simple.Convex
import Verif.Geom.Simple.ConvexMore
import Verif.Num.F32Same
import Verif.Num.F32Box
import Verif.Num.F32Near
import Verif.GA.Rounded
import Verif.GA.Accuracy
import Verif.Geom.UtilsF32
import Verif.Geom.InradiusF32
import Verif.Geom.ParallelF32
import Verif.Geom.BisectorF32
import Verif.Graph.Walks
import Verif.Graph.WalksLength
import Verif.Graph.WalksF32
import Verif.Graph.Provenance
import Verif.Graph.ProvenanceF32
import Verif.Num.F32Scale
import Verif.Geom.Simple.ScaleF32
import Verif.Geom.CenterF32
import Verif.UnitTests
import Verif.Geom.MarginReal
import Verif.Geom.MarginF32
import Verif.Geom.MarginCross
import Verif.Geom.MarginOn
import Verif.Graph.MarginStep
import Verif.Graph.MarginEdge
import Verif.Graph.MarginF32
import Verif.Graph.MarginPlanar
import Verif.Graph.MarginOrder
import Verif.GA.Accuracy2
import Verif.Geom.TrigF32
import Verif.Graph.MarginErase
import Verif.Num.F32Round
import Verif.Geom.SpacingF32
import Verif.Graph.SpacingF32
import Verif.Geom.GridCross
import Verif.Graph.GridCross
import Verif.Geom.PlaneGrid
import Verif.Graph.PlaneGrid
import Verif.Geom.StreetGrid
import Verif.Graph.StreetGrid
import Verif.Num.Display
import Verif.Examples.SvgF32
import Verif.Examples.PageModel
import Verif.Examples.Page
import Verif.Examples.PagePolygons
import Verif.GA.FromVectors
import Verif.Geom.IntersectExact
import Verif.Graph.ExactCases
import Verif.Graph.Editor
import Verif.Graph.FiniteF32
import Verif.Graph.Relate
import Verif.Graph.Isometry
import Verif.Graph.SymmetryF32
import Verif.Geom.SymmetryF32
import Verif.Graph.Sizes
import Verif.Graph.SizesExact
import Verif.Graph.Reported
import Verif.GA.Axes
import Verif.GA.AxesF32
import Verif.Graph.LoopExact
import Verif.Graph.ReportedAdd
import Verif.Graph.ReportedEdge
import Verif.Blade.Exact
import Verif.Geom.ExactMore
import Verif.Graph.ValidExact
import Verif.Graph.PanicExact
import Verif.Graph.ParallelExact
import Verif.Graph.EraseOrder
import Verif.Graph.Clear
import Verif.Graph.Degenerate
import Verif.Graph.PlanarSession
import Verif.Graph.Divided
import Verif.Graph.Whole
import Verif.Graph.Degrees
import Verif.Graph.Recipe
import Verif.Graph.Drawable
import Verif.Graph.StreetPlan
