import Verif.Props.Part
import Verif.Props.Axis
import Verif.Props.Span
import Verif.Props.BSpline
import Verif.Props.BSplineReal
import Verif.Props.Lagrange
import Verif.Props.Rule
import Verif.Props.Quad
import Verif.Props.Layout
import Verif.Props.Elem
import Verif.Props.Grid
import Verif.Props.GridSetup
import Verif.Props.Form
import Verif.Props.Fix
import Verif.Props.FixSystem
import Verif.Props.Dirichlet
import Verif.Props.FixColloc
import Verif.Props.FixCollocNewton
import Verif.Props.Pool
import Verif.Props.SetUp
import Verif.Props.Clone
import Verif.Props.Colloc
import Verif.Props.Ref
import Verif.Props.Mat
import Verif.Props.Rational
import Verif.Props.Det
import Verif.Props.Mapped
import Verif.Props.MappedEx
import Verif.Props.Tensor
import Verif.Props.Normal
import Verif.Props.Point
import Verif.Props.PointEx
import Verif.Props.FDJac
import Verif.Props.Assemble
import Verif.Props.Driver
import Verif.Props.GlobalDriver
import Verif.Props.ErrorNorm
import Verif.Props.IO
import Verif.Props.IOLoad
import Verif.Props.PCMG
import Verif.Props.BDDC
import Verif.Props.BDDCSetup
import Verif.Props.FieldIS
import Verif.Props.Block
import Verif.Props.BlockElem
import Verif.Props.BSplineOrder
import Verif.Props.Probe
import Verif.Props.ProbeEval
import Verif.Props.Coords
import Verif.Props.AreaLoad
import Verif.Props.BoundaryValue
import Verif.Model.DM
import Verif.Props.DM
import Verif.Props.Draw
import Verif.Spec.Schwarz
import Verif.Model.PCApply
import Verif.Props.PCApply
import Verif.Props.PCApplyEBE
import Verif.Props.PCApplyBBB
import Verif.Spec.Integral
import Verif.Model.Integrate
import Verif.Props.Integrate
import Verif.Props.SetUpSucceeds
import Verif.Props.IntegrateTables
import Verif.Lemmas.LinIndep
import Verif.Model.Tabulate
import Verif.Props.GlobalForm
import Verif.Props.Tabulate
import Verif.Props.Independent
import Verif.Props.Gram
import Verif.Props.Mass
import Verif.Props.MassEx
import Verif.Props.Laplace
import Verif.Props.LaplaceEx
import Verif.Model.RigidBody
import Verif.Props.RigidBody
import Verif.Props.RigidBodyEx
import Verif.Props.RigidBodyPeriodic
import Verif.Props.RigidBodyPeriodicEx
import Verif.Props.RigidBodyNull
import Verif.Props.RigidBodyNullEx
import Verif.Model.Solver
import Verif.Props.Solver
import Verif.Model.Options
import Verif.Props.Options
import Verif.Model.FAD
import Verif.Props.FAD
import Verif.Model.Interface
import Verif.Props.Interface
import Verif.Lemmas.Continuity
import Verif.Props.Continuity
import Verif.Lemmas.Marsden
import Verif.Props.Reproduce
import Verif.Props.ReproduceProbe
import Verif.Props.Project
import Verif.Props.ProjectEx
import Verif.Lemmas.ByParts
import Verif.Props.Poisson
import Verif.Props.PoissonEx
import Verif.Model.MatIO
import Verif.Props.MatIO
import Verif.Model.DMIGA
import Verif.Lemmas.DMIGA
import Verif.Props.DMIGA
import Verif.Model.Demo
import Verif.Props.Demo
import Verif.Props.DemoEx
import Verif.Props.Processors
import Verif.Model.Opts
import Verif.Props.Opts
import Verif.Model.DemoForms
import Verif.Props.DemoForms
import Verif.Model.HyperElastic
import Verif.Props.HyperElastic
import Verif.Props.Energy
import Verif.Props.HyperElasticDemo
import Verif.Props.ShapeSums
import Verif.Props.Conserve
import Verif.Props.ConserveEx
import Verif.Model.VecIO
import Verif.Props.VecIO
import Verif.Props.VecIOEx
import Verif.Model.Plot
import Verif.Props.Plot
import Verif.Props.FloatValues
import Verif.Props.FloatKnots
import Verif.Props.Overflow
import Verif.Model.View
import Verif.Props.View
import Verif.Model.Wire
import Verif.Props.Wire
import Verif.Model.Spmd
import Verif.Props.Spmd
import Verif.Model.Primal
import Verif.Props.Primal
import Verif.Props.Hull
import Verif.Model.Minimal
import Verif.Props.Minimal
import Verif.Model.Face
import Verif.Props.Face
import Verif.Props.FaceEx
import Verif.Props.SideValue
import Verif.Props.Green
import Verif.Props.GreenField
import Verif.Props.Symmetric
import Verif.Model.DemoNitsche
import Verif.Props.DemoNitsche
import Verif.Props.NitscheEnergy
import Verif.Props.NitscheDefinite
import Verif.Model.DemoBoundary
import Verif.Props.DemoBoundary
import Verif.Model.DemoNeumann
import Verif.Props.DemoNeumann
import Verif.Props.NeumannRhs
import Verif.Model.DemoAdvection
import Verif.Props.DemoAdvection
import Verif.Model.DemoElastic
import Verif.Props.DemoElastic
import Verif.Model.DemoLogg
import Verif.Props.DemoLogg
import Verif.Model.DemoPoissonDims
import Verif.Props.DemoPoissonDims
