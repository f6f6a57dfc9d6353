import Verif.Model.PosT
import Verif.Props.BoundedInt
import Verif.Props.Pos
import Verif.Props.PosIter
import Verif.Props.Dir
import Verif.Props.Gridbool
import Verif.Props.Grid
import Verif.Props.SetMap
import Verif.Props.Bf
import Verif.Props.Astar
import Verif.Props.Ucs
import Verif.Props.Display
import Verif.Props.Conv
import Verif.Props.Cells
import Verif.Props.BfOrder
import Verif.Props.OpenGrid
import Verif.Props.SearchLaws
import Verif.Props.AstarDirect
import Verif.Props.Base
import Verif.Props.Closure
import Verif.Props.ClosureSteps
import Verif.Props.Safety
import Verif.Props.Release
import Verif.Props.AnyType
import Verif.Props.Hash
import Verif.Props.Queue
import Verif.Props.Collections
import Verif.Props.GridAny
import Verif.Props.PathBound
import Verif.Proofs.BestFirstSource
import Verif.Props.PathSource
import Verif.Props.Shift
import Verif.Props.Debug
import Verif.Props.Work
import Verif.Props.Scale
import Verif.Props.Mirror
import Verif.Props.GridOps
import Verif.Props.ShiftIter
import Verif.Props.Detour
import Verif.Props.Adapters
import Verif.Spec.Cheaper
import Verif.Props.RoundTrip
import Verif.Props.Cheaper
import Verif.Proofs.BestFirstBound
import Verif.Props.Quadratic
import Verif.Props.Exhausted
import Verif.Model.Forward
import Verif.Spec.Forward
import Verif.Props.Forward
import Verif.Spec.Symmetry
import Verif.Props.Symmetry
import Verif.Props.Near
import Verif.Props.Memory
import Verif.Spec.Descent
import Verif.Props.PathMonotone
import Verif.Proofs.HeapTop
import Verif.Props.Ties
import Verif.Props.Comb
import Verif.Props.Tower
import Verif.Proofs.Greedy
import Verif.Proofs.BestFirstFresh
import Verif.Props.Avoid
import Verif.Props.Greedy
import Verif.Props.Stairs
import Verif.Props.Tight
import Verif.Props.Backwards
import Verif.Props.StraightWay
import Verif.Props.BfFirst
import Verif.Props.BfStraight
import Verif.Props.BfSpread
import Verif.Props.UcsSpread
import Verif.Spec.Replan
import Verif.Props.Replan
import Verif.Props.ReplanAstar
import Verif.Props.Areas
import Verif.Props.AllPaths
import Verif.Props.Goals
import Verif.Props.Field
import Verif.Props.Around
import Verif.Props.ReplanUcs
import Verif.Props.Box
import Verif.Props.Life
import Verif.Tests.Unit
import Verif.Tests.Search
import Verif.Tests.Docs
import Verif.Spec.PathText
import Verif.Props.PathText
import Verif.Spec.MapText
import Verif.Props.MapText
import Verif.Spec.Exact
import Verif.Props.Exact
import Verif.Spec.Bisect
import Verif.Props.Bisect
import Verif.Spec.Tour
import Verif.Props.Tour
import Verif.Spec.Count
import Verif.Props.Count
import Verif.Spec.Seats
import Verif.Props.Seats
import Verif.Spec.Cuts
import Verif.Props.Cuts
import Verif.Spec.Sums
import Verif.Props.Sums
import Verif.Spec.Ray
import Verif.Props.Ray
import Verif.Spec.Patrol
import Verif.Props.Patrol
import Verif.Spec.Torus
import Verif.Props.Torus
import Verif.Props.DirAll
import Verif.Props.Pad
