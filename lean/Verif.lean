import Verif.Analysis
import Verif.App
import Verif.Arith
import Verif.Arrays
import Verif.Buffers
import Verif.Construct
import Verif.CoordSys
import Verif.Drawing
import Verif.DualView
import Verif.Fan
import Verif.Grids
import Verif.Kernels
import Verif.Lifetime
import Verif.Medium
import Verif.Numpy
import Verif.Objects
import Verif.Obscuration
import Verif.Ops
import Verif.Optic
import Verif.OpticHeap
import Verif.Outline
import Verif.Parse
import Verif.Pickle
import Verif.Printed
import Verif.Projection
import Verif.Props.Analysis
import Verif.Props.Arrays
import Verif.Props.Bicubic
import Verif.Props.Buffers
import Verif.Props.Cartesian
import Verif.Props.Clear
import Verif.Props.Coatings
import Verif.Props.Convergence
import Verif.Props.Derivatives
import Verif.Props.DoubleZernike
import Verif.Props.Drawing
import Verif.Props.DualView
import Verif.Props.Edits
import Verif.Props.Energy
import Verif.Props.Etendue
import Verif.Props.EtendueScreen
import Verif.Props.FFT
import Verif.Props.Fan
import Verif.Props.Fermat
import Verif.Props.Fits
import Verif.Props.Frames
import Verif.Props.Ghosts
import Verif.Props.Gradient
import Verif.Props.Gradients
import Verif.Props.GridRays
import Verif.Props.Grids
import Verif.Props.Histories
import Verif.Props.Imaging
import Verif.Props.Intersect
import Verif.Props.Kernels
import Verif.Props.Launch
import Verif.Props.LeastSquares
import Verif.Props.Lifetime
import Verif.Props.Malus
import Verif.Props.MalusChief
import Verif.Props.MalusTable
import Verif.Props.Media
import Verif.Props.Names
import Verif.Props.Newtonian
import Verif.Props.Normals
import Verif.Props.Objects
import Verif.Props.Obscurations
import Verif.Props.OpticHeap
import Verif.Props.Optics
import Verif.Props.Outline
import Verif.Props.Panel
import Verif.Props.Paraxial
import Verif.Props.Parse
import Verif.Props.Path
import Verif.Props.Perturb
import Verif.Props.Pickle
import Verif.Props.PlaneWave
import Verif.Props.Pointing
import Verif.Props.Polygon
import Verif.Props.PolygonGrid
import Verif.Props.Polynomial
import Verif.Props.Printed
import Verif.Props.Projections
import Verif.Props.Psf
import Verif.Props.Pyramid
import Verif.Props.Quadrature
import Verif.Props.Rays
import Verif.Props.Reversal
import Verif.Props.Rigid
import Verif.Props.RoundCalc
import Verif.Props.RoundClock
import Verif.Props.RoundField
import Verif.Props.RoundFocus
import Verif.Props.RoundFrames
import Verif.Props.RoundGrid
import Verif.Props.RoundLanding
import Verif.Props.RoundLaunch
import Verif.Props.RoundLens
import Verif.Props.RoundMedium
import Verif.Props.RoundNewton
import Verif.Props.RoundNormals
import Verif.Props.RoundObsc
import Verif.Props.RoundPhase
import Verif.Props.RoundPolar
import Verif.Props.RoundPoly
import Verif.Props.RoundRays
import Verif.Props.RoundSag
import Verif.Props.RoundSnell
import Verif.Props.RoundTable
import Verif.Props.Routes
import Verif.Props.RoutesTrace
import Verif.Props.Schedule
import Verif.Props.Screen
import Verif.Props.Select
import Verif.Props.Skew
import Verif.Props.Sky
import Verif.Props.Split
import Verif.Props.SplitEnds
import Verif.Props.Stigmatic
import Verif.Props.Straight
import Verif.Props.Symmetry
import Verif.Props.SymmetryPoly
import Verif.Props.Telescopes
import Verif.Props.Trace
import Verif.Props.Units
import Verif.Props.Unwind
import Verif.Props.Wavefront
import Verif.Props.Zernike
import Verif.Py
import Verif.Pyramid
import Verif.Ray
import Verif.RayVector
import Verif.Reduction
import Verif.Roots
import Verif.Rounding
import Verif.Schedule
import Verif.Sky
import Verif.Surface
import Verif.Telescopes
import Verif.Unwind
import Verif.Vec
import Verif.Zernike
