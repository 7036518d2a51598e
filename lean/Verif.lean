import Verif.Props.Paths
import Verif.Props.Termination
import Verif.Props.Safety
import Verif.Props.Small
import Verif.Props.Location
import Verif.Props.Islands
import Verif.Props.AsyncAgree
import Verif.Props.BakedLayers
import Verif.Props.Sorted
import Verif.Props.Geometry
import Verif.Props.Length
import Verif.Props.Finder
import Verif.Props.UnionFind
import Verif.Props.Merging
import Verif.Props.MergingExamples
import Verif.Props.CleanupExamples
import Verif.Props.StitchPoints
import Verif.Props.StitchingExamples
import Verif.Props.FileExamples
import Verif.Props.TrimeshExamples
import Verif.Model.Triangulation
import Verif.Spec.Triangulation
import Verif.Props.TriangulationLayer
import Verif.Props.Triangulation
import Verif.Props.Rounding
import Verif.Props.OuterEdge
import Verif.Props.TriangulationExamples
import Verif.Props.Inside
import Verif.Props.WalkableExample
import Verif.Spec.Shortest
import Verif.Proofs.Shorten
import Verif.Proofs.Route
import Verif.Proofs.Coverage
import Verif.Proofs.Lengths
import Verif.Proofs.Shortcut
import Verif.Proofs.Children
import Verif.Proofs.Cover
import Verif.Proofs.Final
import Verif.Proofs.Optimal
import Verif.Props.Shortest
import Verif.Proofs.Checks
import Verif.Proofs.CastMesh
import Verif.Proofs.NavCheck
import Verif.Props.Circle
import Verif.Props.Stacked
import Verif.Props.ShortestExample
import Verif.Spec.Turning
import Verif.Proofs.SameRoot
import Verif.Proofs.Ends
import Verif.Proofs.Around
import Verif.Proofs.AsyncLocate
import Verif.Proofs.EndsCheck
import Verif.Props.Ends
import Verif.Props.EndsExample
import Verif.Proofs.IslandWalk
import Verif.Props.LengthExact
import Verif.Spec.Blocked
import Verif.Proofs.CutOff
import Verif.Props.Blocked
import Verif.Props.BlockedExample
import Verif.Proofs.Spin
import Verif.Proofs.Bend
import Verif.Proofs.StraightOn
import Verif.Proofs.CalmRoute
import Verif.Proofs.SurroundCheck
import Verif.Props.PatchExample
import Verif.Props.LayerClosest
import Verif.Spec.Metric
import Verif.Props.Metric
import Verif.Props.MetricExample
import Verif.Spec.Alike
import Verif.Proofs.Alike
import Verif.Proofs.AlikeLoc
import Verif.Props.Alike
import Verif.Spec.Region
import Verif.Proofs.MergeRegion
import Verif.Props.MergeRegion
import Verif.Props.MergeRegionExample
import Verif.Proofs.Tiling
import Verif.Props.MergeLoop
import Verif.Spec.SameWalks
import Verif.Proofs.MergeWalk
import Verif.Props.MergeWalk
import Verif.Proofs.CastMerge
import Verif.Props.MergeWalkExample
import Verif.Spec.Moved
import Verif.Proofs.Moved
import Verif.Proofs.MovedLoc
import Verif.Props.Moved
import Verif.Spec.Reframed
import Verif.Proofs.Reframed
import Verif.Props.Reframed
import Verif.Spec.Tour
import Verif.Proofs.Tour
import Verif.Proofs.TourGen
import Verif.Props.TourOf
import Verif.Props.TourExample
import Verif.Props.RestitchPoints
import Verif.Props.FileMesh
import Verif.Spec.Inflate
import Verif.Props.Inflate
import Verif.Props.BaseLayer
import Verif.Props.TrimeshOrder
import Verif.Spec.Renumbered
import Verif.Proofs.Renumbered
import Verif.Props.Renumbered
import Verif.Spec.Binary32
import Verif.Proofs.Binary32
import Verif.Spec.Sane
import Verif.Props.Sane
import Verif.Props.Binary32
import Verif.Proofs.Exact32
import Verif.Spec.Grid32
import Verif.Proofs.Locate32
import Verif.Props.Locate32
import Verif.Spec.Format
import Verif.Proofs.Format
import Verif.Props.Format
import Verif.Spec.Decimal32
import Verif.Props.Decimal32
import Verif.Props.Decimal32Example
import Verif.Spec.Narrower
import Verif.Props.Narrower
import Verif.Props.NarrowerExample
import Verif.Spec.Accuracy32
import Verif.Proofs.Accuracy32
import Verif.Props.Accuracy32
import Verif.Spec.Unscaled
import Verif.Spec.Spaced
import Verif.Proofs.Unscaled
import Verif.Proofs.Traced
import Verif.Proofs.Detailed
import Verif.Proofs.GridSpaced
import Verif.Props.Detailed
import Verif.Props.DetailedExample
import Verif.Props.Probes
import Verif.Props.ProbesExample
import Verif.Conformance.Helpers
import Verif.Conformance.Lib
import Verif.Conformance.Stitching
import Verif.Conformance.Layers
import Verif.Conformance.Merger
import Verif.Conformance.Arena
import Verif.Props.DetailedF32
import Verif.Spec.History
import Verif.Proofs.History
import Verif.Props.History
import Verif.Props.HistoryExample
import Verif.Spec.Unordered
import Verif.Props.Unordered
import Verif.Props.UnorderedExample
import Verif.Props.Fork
import Verif.Spec.Ieee
import Verif.Proofs.Ieee
import Verif.Props.Arith32
import Verif.Props.Again
import Verif.Props.Circles
import Verif.Props.Lookups
import Verif.Props.Simplify
import Verif.Props.BakedRenumbered
import Verif.Props.Reach
import Verif.Props.Turned
import Verif.Props.Unbaked
import Verif.Spec.Part
import Verif.Props.Part
import Verif.Props.Budget
import Verif.Spec.Unit
import Verif.Proofs.Unit
import Verif.Props.Unit
import Verif.Props.UnitExample
