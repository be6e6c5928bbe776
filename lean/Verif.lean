import Verif.Props.Boost
import Verif.Props.Boundary
import Verif.Props.CalmFlow
import Verif.Props.Casts
import Verif.Props.ClosedBox
import Verif.Props.ClosedBoxFails
import Verif.Props.Config
import Verif.Props.Conservation
import Verif.Props.Constants
import Verif.Props.Convergence
import Verif.Props.Curvature
import Verif.Props.Distributed
import Verif.Props.DualView
import Verif.Props.Equilibria
import Verif.Props.Euler
import Verif.Props.Explosion
import Verif.Props.FileNames
import Verif.Props.Files
import Verif.Props.Fractions
import Verif.Props.FractionsLost
import Verif.Props.FreeFall
import Verif.Props.FreeFallEnd
import Verif.Props.FreeFallProgram
import Verif.Props.FreeFallRun
import Verif.Props.Geometry
import Verif.Props.Ghost
import Verif.Props.Gravity
import Verif.Props.Gresho
import Verif.Props.Heated
import Verif.Props.HeatedFile
import Verif.Props.InitBits
import Verif.Props.Initial
import Verif.Props.Inputs
import Verif.Props.KelvinHelmholtz
import Verif.Props.KernelRun
import Verif.Props.Launch
import Verif.Props.Ledger
import Verif.Props.Limiter
import Verif.Props.Locality
import Verif.Props.LocalityBits
import Verif.Props.Loop
import Verif.Props.MaxPrinciple
import Verif.Props.MaxPrincipleLost
import Verif.Props.MaxPrincipleRun
import Verif.Props.Mesh
import Verif.Props.MeshBits
import Verif.Props.Messages
import Verif.Props.MirrorBits
import Verif.Props.MirrorLost
import Verif.Props.Moving
import Verif.Props.MovingProgram
import Verif.Props.NanRun
import Verif.Props.Order
import Verif.Props.Ordered
import Verif.Props.Param
import Verif.Props.ParamRuns
import Verif.Props.Passive
import Verif.Props.Physical
import Verif.Props.Positivity
import Verif.Props.PositivityFails
import Verif.Props.PressureFix
import Verif.Props.Program
import Verif.Props.Ramp
import Verif.Props.RayleighTaylor
import Verif.Props.Reduce
import Verif.Props.Restart
import Verif.Props.RestartBits
import Verif.Props.Riemann
import Verif.Props.RoundedGravity
import Verif.Props.RoundedLoop
import Verif.Props.Runs
import Verif.Props.Setup
import Verif.Props.ShiftCriterion
import Verif.Props.Slab
import Verif.Props.SlabLost
import Verif.Props.Slide
import Verif.Props.SquareFiles
import Verif.Props.Start
import Verif.Props.StartFiles
import Verif.Props.Stencil
import Verif.Props.Symmetry
import Verif.Props.SymmetryRuns
import Verif.Props.Tabulated
import Verif.Props.Thermo
import Verif.Props.TotalVariation
import Verif.Props.TotalVariationLost
import Verif.Props.Translate
import Verif.Props.Transport
import Verif.Props.Uniform
import Verif.Props.Units
import Verif.Props.UserBoundary
import Verif.Props.Vortex
import Verif.Props.WindError
import Verif.Props.WindRange
import Verif.Props.WindRun
import Verif.Props.Xdmf
