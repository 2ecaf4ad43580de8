import Verif.Model.Py
import Verif.Lemmas.Py
import Verif.Model.Bound
import Verif.Model.Tails
import Verif.Spec.Bound
import Verif.Lemmas.SauerShelah
import Verif.Lemmas.Search
import Verif.Lemmas.NumericalBound
import Verif.Lemmas.SearchHang
import Verif.Props.BoundSearch
import Verif.Props.BoundFormulas
import Verif.Props.BoundTails
import Verif.Model.Util
import Verif.Spec.Geometry
import Verif.Props.Intersect
import Verif.Model.Envs
import Verif.Spec.Envs
import Verif.Props.StraightLine
import Verif.Props.NarrowPassage
import Verif.Model.Gray
import Verif.Spec.Gray
import Verif.Lemmas.Gray
import Verif.Lemmas.GrayDist
import Verif.Props.GrayCorridor
import Verif.Lemmas.GrayEnds
import Verif.Lemmas.GrayMotion
import Verif.Props.GrayCurve
import Verif.Props.GrayMotion
import Verif.Model.Graph
import Verif.Model.Prm
import Verif.Model.NkArrays
import Verif.Spec.Prm
import Verif.Lemmas.Prm
import Verif.Lemmas.PrmQuery
import Verif.Lemmas.PrmFull
import Verif.Lemmas.Dijkstra
import Verif.Lemmas.PrmExample
import Verif.Lemmas.PrmKnn
import Verif.Props.PrmFull
import Verif.Props.PrmKnn
import Verif.Lemmas.PrmRad
import Verif.Props.PrmRad
import Verif.Model.PrmTables
import Verif.Props.PrmTables
import Verif.Model.Ann
import Verif.Spec.Ann
import Verif.Props.Ann
import Verif.Model.Sampler
import Verif.Props.Sampler
import Verif.Model.ExpTasks
import Verif.Model.ExpTrials
import Verif.Props.ExpTasks
import Verif.Props.ExpTrials
import Verif.Model.Sat2D
import Verif.Spec.Sat2D
import Verif.Lemmas.Sat2D
import Verif.Props.Sat2D
import Verif.Model.Turtlebot
import Verif.Spec.Path
import Verif.Props.Turtlebot
import Verif.Model.Anytime
import Verif.Props.Anytime
import Verif.Model.Sat3D
import Verif.Spec.Sat3D
import Verif.Lemmas.Sat3D
import Verif.Props.Sat3D
import Verif.Model.Strips
import Verif.Spec.Worlds
import Verif.Lemmas.Strips
import Verif.Props.RoverDomain
import Verif.Props.KukaDomain
import Verif.Props.KukaPlans
import Verif.Model.Commands
import Verif.Spec.Commands
import Verif.Props.RoverCommands
import Verif.Props.KukaCommands
import Verif.Model.Bin
import Verif.Spec.Bin
import Verif.Props.Bin
import Verif.Lemmas.Traces
import Verif.Lemmas.Swaps
import Verif.Lemmas.Counts
import Verif.Lemmas.NetTheorem
import Verif.Spec.Sampling
import Verif.Lemmas.ClearPath
import Verif.Lemmas.NetSampling
import Verif.Props.NetGuarantee
import Verif.Lemmas.NeighborTails
import Verif.Lemmas.KnnRadius
import Verif.Props.NeighborTails
import Verif.Props.KnnGuarantee
import Verif.Spec.Draws
import Verif.Lemmas.Uniform
import Verif.Lemmas.Triangle
import Verif.Lemmas.Draws
import Verif.Lemmas.GrayUniform
import Verif.Props.UniformEnvs
import Verif.Props.UniformPolygon
import Verif.Lemmas.GenericPosition
import Verif.Lemmas.PathOps
import Verif.Model.ExpQueries
import Verif.Props.EnvGuarantee
import Verif.Model.Hallway
import Verif.Spec.Hallway
import Verif.Lemmas.Hallway
import Verif.Props.Hallway
import Verif.Props.AnytimeGuarantee
import Verif.Props.HallwaySampling
import Verif.Model.Placement
import Verif.Spec.Placement
import Verif.Props.Placement
import Verif.Props.TargetPlacement
import Verif.Props.Corner
import Verif.Model.Holes
import Verif.Spec.Holes
import Verif.Props.Holes
import Verif.Model.KukaWorld
import Verif.Spec.KukaWorld
import Verif.Props.KukaWorld
import Verif.Model.Grasps
import Verif.Props.Grasps
import Verif.Model.Jobs
import Verif.Spec.Jobs
import Verif.Props.Jobs
import Verif.Model.RoverExec
import Verif.Spec.RoverExec
import Verif.Props.RoverExec
import Verif.Model.KukaExec
import Verif.Spec.KukaExec
import Verif.Props.KukaExec
import Verif.Model.NarrowTrial
import Verif.Spec.NarrowTrial
import Verif.Lemmas.NarrowTrial
import Verif.Props.NarrowTrial
import Verif.Props.NarrowTrialKnn
import Verif.Model.Plots
import Verif.Spec.Plots
import Verif.Props.Plots
import Verif.Props.Seeds
import Verif.Model.LineTrial
import Verif.Spec.LineTrial
import Verif.Props.LineTrial
import Verif.Model.BinBody
import Verif.Props.BinBody
import Verif.Model.Animation
import Verif.Props.Animation
import Verif.Model.Save
import Verif.Props.Save
import Verif.Model.KukaSetup
import Verif.Props.KukaSetup
import Verif.Model.RunLog
import Verif.Props.RunLog
import Verif.Model.LineTolerance
import Verif.Conformance.Gray
import Verif.Conformance.Passage
import Verif.Model.CollisionTest
import Verif.Props.CollisionTest
import Verif.Spec.PlaneDraws
import Verif.Props.PlacementEnds
import Verif.Model.RandomWorld
import Verif.Props.RandomWorld
import Verif.Props.TargetPlacementEnds
import Verif.Lemmas.HopLengths
import Verif.Props.ExperimentGuarantee
import Verif.Lemmas.KnnFew
import Verif.Props.KnnEnvGuarantee
import Verif.Lemmas.GrayComplete
import Verif.Lemmas.GrayDirect
import Verif.Props.GrayComplete
import Verif.Spec.HallwayExec
import Verif.Props.HallwayExec
import Verif.Spec.Ferry
import Verif.Lemmas.KnnComplete
import Verif.Lemmas.HitRegion
import Verif.Props.Ferry
import Verif.Props.KnnVoid
import Verif.Spec.Stopping
import Verif.Lemmas.Stopping
import Verif.Model.Float64
import Verif.Model.FloatSearch
import Verif.Spec.Float64
import Verif.Lemmas.Float64
import Verif.Props.FloatSearch
import Verif.Model.FloatIntersect
import Verif.Lemmas.FloatSigned
import Verif.Lemmas.FloatWall
import Verif.Lemmas.FloatWitness
import Verif.Props.FloatNarrow
import Verif.Lemmas.FloatClear
import Verif.Props.FloatClear
import Verif.Lemmas.FloatChain
import Verif.Lemmas.FloatGeneral
import Verif.Lemmas.FloatSample
import Verif.Spec.FloatWorld
import Verif.Props.FloatGuarantee
import Verif.Lemmas.FloatUniform
import Verif.Props.FloatStraight
import Verif.Props.FloatAnytime
import Verif.Model.Batch
import Verif.Spec.Batch
import Verif.Lemmas.Batch
import Verif.Props.Batch
import Verif.Props.BatchHallway
import Verif.Props.BatchKuka
import Verif.Model.BoundingBoxes
import Verif.Spec.BoundingBoxes
import Verif.Lemmas.BoundingBoxes
import Verif.Props.BoundingBoxes
import Verif.Model.FloatBound
import Verif.Spec.FloatBound
import Verif.Lemmas.FloatBound
import Verif.Lemmas.FloatRho
import Verif.Lemmas.FloatRadius
import Verif.Props.FloatBound
import Verif.Props.FloatLength
import Verif.Props.Blumer
import Verif.Props.FloatSat
import Verif.Props.FloatMotion
import Verif.Props.FloatHallway
import Verif.Model.FloatBatch
import Verif.Lemmas.BatchCongr
import Verif.Props.FloatPlan
import Verif.Model.Float32
import Verif.Lemmas.Float32
import Verif.Model.FloatAnn
import Verif.Spec.FloatAnn
import Verif.Lemmas.FloatAnn
import Verif.Props.FloatAnn
import Verif.Model.PlotErrors
import Verif.Props.PlotErrors
import Verif.Model.BatchExec
import Verif.Lemmas.BatchSound
import Verif.Props.BatchExec
import Verif.Spec.TableDist
import Verif.Lemmas.Tagged
import Verif.Props.TableDist
import Verif.Lemmas.KnnRoute
import Verif.Spec.NearWorld
import Verif.Lemmas.NearKnn
import Verif.Props.NearGuarantee
import Verif.Spec.FloatKnnWorld
import Verif.Props.NearFloat
import Verif.Spec.Generator
import Verif.Props.Skipping
