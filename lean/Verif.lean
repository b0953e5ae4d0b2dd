import Verif.Model.Tilemap
import Verif.Model.Col3d
import Verif.Spec.Sets
import Verif.Spec.Similarity
import Verif.Props.Transforms
import Verif.Props.Shapes
import Verif.Props.Utils
import Verif.Props.Approx
import Verif.Props.Tilemap
import Verif.Props.Persist
import Verif.Props.Direct
import Verif.Props.Family
import Verif.Props.Tier0
import Verif.Props.Gjk
import Verif.Props.Epa
import Verif.Props.Distance
import Verif.Props.DistanceSafe
import Verif.Props.BoxRot
import Verif.Props.BoxBox
import Verif.Props.BoxPen
import Verif.Props.Resolve
import Verif.Props.Col3d
import Verif.Props.Direct2
import Verif.Ieee.Props
import Verif.Ieee.GjkProps
import Verif.Ieee.GjkDist
import Verif.Ieee.DistProps
import Verif.Ieee.CornerProps
import Verif.Model.Dormant
import Verif.Props.Dormant
import Verif.Ieee.Rounding
import Verif.Ieee.BallProps
import Verif.Ieee.BoxProps
import Verif.Ieee.RoundedProps
import Verif.Ieee.Nearest
import Verif.Ieee.ColliderProps
import Verif.Model.Int32
import Verif.Props.Int32
import Verif.Model.Defaults
import Verif.Props.Defaults
import Verif.Ieee.TilemapProps
import Verif.Ieee.Signed
import Verif.Ieee.RectGjk
import Verif.Ieee.RectEpa
import Verif.Ieee.RectPush
import Verif.Ieee.RectStep
import Verif.Ieee.RectAnswer
import Verif.Ieee.BoxBox
import Verif.Ieee.BoxBoxProps
import Verif.Ieee.RectApart
import Verif.Ieee.BoxApartProps
import Verif.Ieee.BoxColliderProps
import Verif.Ieee.Special
import Verif.Props.Bevy2d
import Verif.Ieee.Eval
import Verif.Ieee.EvalGjk
import Verif.Ieee.EvalFindings
import Verif.Ieee.Noisy
import Verif.Ieee.NoisyBall
import Verif.Ieee.NoisyGjk
import Verif.Ieee.NoisyEpa
import Verif.Ieee.NoisyDist
import Verif.Ieee.NoisyProps
import Verif.Ieee.NoisyExamples
import Verif.Ieee.PosGeom
import Verif.Ieee.PosStep
import Verif.Ieee.PosProps
import Verif.Ieee.PosExamples
import Verif.Ieee.Turn
import Verif.Ieee.TurnPair
import Verif.Ieee.TurnProps
import Verif.Ieee.TurnDelta
import Verif.Ieee.TurnColliders
import Verif.Ieee.TurnExamples
import Verif.Props.Scaling
import Verif.Ieee.TransformProps
import Verif.Ieee.TransformExamples
import Verif.Ieee.ExtremeProps
import Verif.Ieee.ExtremeExamples
import Verif.Lib.GjkRate
import Verif.Props.Rate
import Verif.Ieee.DeepFinding
import Verif.Props.World
import Verif.Props.WorldBevy
import Verif.Props.More
import Verif.Ieee.ApproxProps
import Verif.Ieee.Col3dProps
import Verif.Lib.GjkLattice
import Verif.Props.Lattice
import Verif.Ieee.LatticeProps
import Verif.Lib.GjkNoisy
import Verif.Ieee.NoisyRate
import Verif.Ieee.DeepProps
import Verif.Ieee.DeepExamples
import Verif.Lib.Winding
import Verif.Lib.EpaStart
import Verif.Ieee.EdgeDist
import Verif.Ieee.EpaDeep
import Verif.Ieee.EpaRing
import Verif.Ieee.LeastProps
import Verif.Ieee.LeastExamples
import Verif.Conformance.Replay
import Verif.Conformance.Machine
import Verif.Conformance.Claims
import Verif.Model.Col3dPairs
import Verif.Props.Col3dPairs
import Verif.Props.Swap
import Verif.Ieee.SwapProps
import Verif.Ieee.ResolveProps
import Verif.Ieee.ResolveBall
import Verif.Ieee.ResolveBallPush
import Verif.Props.Corners
import Verif.Model.PartialEq
import Verif.Ieee.SignedZero
import Verif.Ieee.ZeroGjk
import Verif.Ieee.EqProps
import Verif.Ieee.EqSwapProps
import Verif.Ieee.EqFindings
import Verif.Ieee.CornerColliders
import Verif.Ieee.SignAlg
import Verif.Ieee.QuarterGjk
import Verif.Ieee.QuarterProps
import Verif.Ieee.QuarterTurns
import Verif.Ieee.MirrorProps
import Verif.Ieee.BoxFlip
import Verif.Ieee.BoxTurnFinding
import Verif.Ieee.Flip3dProps
import Verif.Ieee.WorldTurn
import Verif.Ieee.WorldTurns
