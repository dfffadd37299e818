import Verif.Arr
import Verif.Model.AdWrapper
import Verif.Model.Adjoint
import Verif.Model.Amgx
import Verif.Model.ArcDemo
import Verif.Model.ArcLength
import Verif.Model.Assembly
import Verif.Model.BC
import Verif.Model.Beams
import Verif.Model.Benchmarks
import Verif.Model.Boundary
import Verif.Model.BoundaryIndex
import Verif.Model.Cache
import Verif.Model.CoDesign
import Verif.Model.Contact
import Verif.Model.Control
import Verif.Model.ConvergenceStudy
import Verif.Model.Coupled
import Verif.Model.Crystal
import Verif.Model.DebugInfo
import Verif.Model.Dendrite
import Verif.Model.DendriteFD
import Verif.Model.Dofs
import Verif.Model.DynRelax
import Verif.Model.Eigen
import Verif.Model.Elastic
import Verif.Model.ElasticBench
import Verif.Model.Elements
import Verif.Model.Explicit
import Verif.Model.Files
import Verif.Model.Filter
import Verif.Model.FinitePlasticity
import Verif.Model.Flt
import Verif.Model.ForwardMode
import Verif.Model.Fracture
import Verif.Model.Gradients
import Verif.Model.Homogenize
import Verif.Model.Hyper
import Verif.Model.HyperBench
import Verif.Model.Inverse
import Verif.Model.Jit
import Verif.Model.Kernel
import Verif.Model.MMA
import Verif.Model.MeshCheck
import Verif.Model.MeshTools
import Verif.Model.Modal
import Verif.Model.Mpc
import Verif.Model.Mpi
import Verif.Model.Multiplier
import Verif.Model.Newton
import Verif.Model.NodalGrad
import Verif.Model.Options
import Verif.Model.Parallel
import Verif.Model.Periodic
import Verif.Model.PlasticDrivers
import Verif.Model.Plasticity
import Verif.Model.PoissonBench
import Verif.Model.Quadrature
import Verif.Model.Quiet
import Verif.Model.Refresh
import Verif.Model.Robin
import Verif.Model.Scalability
import Verif.Model.Sensitivity
import Verif.Model.Shape
import Verif.Model.SplitVars
import Verif.Model.StructMesh
import Verif.Model.Surrogate
import Verif.Model.Tabulate
import Verif.Model.Timing
import Verif.Model.TopOpt
import Verif.Model.Traction
import Verif.Model.UpdatedLagrangian
import Verif.Model.UserBC
import Verif.Spec.ArcDemo
import Verif.Spec.ArcLength
import Verif.Spec.Assembly
import Verif.Spec.BC
import Verif.Spec.Beams
import Verif.Spec.Benchmarks
import Verif.Spec.Boundary
import Verif.Spec.BoundaryIndex
import Verif.Spec.Cache
import Verif.Spec.CoDesign
import Verif.Spec.Conforming
import Verif.Spec.Contact
import Verif.Spec.Control
import Verif.Spec.ConvergenceStudy
import Verif.Spec.Coupled
import Verif.Spec.Crystal
import Verif.Spec.DebugInfo
import Verif.Spec.Dendrite
import Verif.Spec.DendriteFD
import Verif.Spec.Deriv
import Verif.Spec.Dofs
import Verif.Spec.DynRelax
import Verif.Spec.Elastic
import Verif.Spec.ElasticBench
import Verif.Spec.Elements
import Verif.Spec.Filter
import Verif.Spec.ForwardMode
import Verif.Spec.Fracture
import Verif.Spec.Gradients
import Verif.Spec.GridPoisson
import Verif.Spec.Homogenize
import Verif.Spec.Hyper
import Verif.Spec.HyperBench
import Verif.Spec.Inverse
import Verif.Spec.Jit
import Verif.Spec.Layout
import Verif.Spec.Measure
import Verif.Spec.Mesh
import Verif.Spec.MeshCheck
import Verif.Spec.MeshGradient
import Verif.Spec.Modal
import Verif.Spec.Mpi
import Verif.Spec.Multiplier
import Verif.Spec.NaturalSides
import Verif.Spec.Newton
import Verif.Spec.NewtonLocal
import Verif.Spec.NodalGrad
import Verif.Spec.Options
import Verif.Spec.Parallel
import Verif.Spec.PlasticDrivers
import Verif.Spec.Plasticity
import Verif.Spec.PoissonBench
import Verif.Spec.Poly
import Verif.Spec.Quadrature
import Verif.Spec.Quiet
import Verif.Spec.RefShapes
import Verif.Spec.Refresh
import Verif.Spec.Robin
import Verif.Spec.Scalability
import Verif.Spec.Sensitivity
import Verif.Spec.Shape
import Verif.Spec.SplitVars
import Verif.Spec.StrongMonotone
import Verif.Spec.Surrogate
import Verif.Spec.Timing
import Verif.Spec.TopOpt
import Verif.Spec.Trace
import Verif.Spec.Traction
import Verif.Spec.UpdatedLagrangian
import Verif.Spec.UserBC
import Verif.Spec.Variational
import Verif.Spec.WeakForm
import Verif.Thm.Assembly
import Verif.Thm.BC
import Verif.Thm.C01_Dofs
import Verif.Thm.C02_Batch
import Verif.Thm.C03_Residual
import Verif.Thm.C04_Coo
import Verif.Thm.C05_Tangent
import Verif.Thm.C06_Order
import Verif.Thm.C07_Sparsity
import Verif.Thm.C08_Balance
import Verif.Thm.C09_Translation
import Verif.Thm.C100_Forms
import Verif.Thm.C100_Identify
import Verif.Thm.C100_Linear
import Verif.Thm.C100_Rectangle
import Verif.Thm.C100_Source
import Verif.Thm.C101_Control
import Verif.Thm.C101_Flat
import Verif.Thm.C101_Forms
import Verif.Thm.C101_Triangles
import Verif.Thm.C101_Values
import Verif.Thm.C102_ForwardMode
import Verif.Thm.C102_Scripts
import Verif.Thm.C103_CoDesign
import Verif.Thm.C103_Example
import Verif.Thm.C103_Material
import Verif.Thm.C103_Sequence
import Verif.Thm.C103_Structure
import Verif.Thm.C104_Example
import Verif.Thm.C104_Geometry
import Verif.Thm.C104_Gradient
import Verif.Thm.C104_Pores
import Verif.Thm.C104_Shape
import Verif.Thm.C105_Example
import Verif.Thm.C105_Identify
import Verif.Thm.C105_Load
import Verif.Thm.C105_Traction
import Verif.Thm.C106_Example
import Verif.Thm.C106_Gradients
import Verif.Thm.C106_Problem
import Verif.Thm.C106_Vjp
import Verif.Thm.C107_Rows
import Verif.Thm.C107_UserBC
import Verif.Thm.C108_Load
import Verif.Thm.C108_Mesh
import Verif.Thm.C108_Path
import Verif.Thm.C108_Run
import Verif.Thm.C109_ElasticVolume
import Verif.Thm.C10_Patch
import Verif.Thm.C110_Clock
import Verif.Thm.C110_Timing
import Verif.Thm.C111_Conditions
import Verif.Thm.C111_Drivers
import Verif.Thm.C111_Example
import Verif.Thm.C111_Programs
import Verif.Thm.C111_Reevaluate
import Verif.Thm.C111_Steps
import Verif.Thm.C112_Balance
import Verif.Thm.C112_Example
import Verif.Thm.C112_Local
import Verif.Thm.C112_Reverse
import Verif.Thm.C112_Rotation
import Verif.Thm.C112_Schedule
import Verif.Thm.C112_Scripts
import Verif.Thm.C112_Smooth
import Verif.Thm.C112_Stale
import Verif.Thm.C113_Exact
import Verif.Thm.C113_Quadrature
import Verif.Thm.C113_Reduced
import Verif.Thm.C113_Shapes
import Verif.Thm.C114_Exact
import Verif.Thm.C114_Script
import Verif.Thm.C114_Study
import Verif.Thm.C115_Matrix
import Verif.Thm.C115_Report
import Verif.Thm.C116_Cells
import Verif.Thm.C116_Elements
import Verif.Thm.C116_Grid
import Verif.Thm.C116_Hex
import Verif.Thm.C116_Patch
import Verif.Thm.C116_Sides
import Verif.Thm.C117_Converge
import Verif.Thm.C117_Demo
import Verif.Thm.C117_Pass
import Verif.Thm.C118_Average
import Verif.Thm.C118_Example
import Verif.Thm.C118_Steps
import Verif.Thm.C118_Surface
import Verif.Thm.C118_Virial
import Verif.Thm.C119_Box
import Verif.Thm.C119_Grid
import Verif.Thm.C119_Natural
import Verif.Thm.C119_Poisson
import Verif.Thm.C120_Gradient
import Verif.Thm.C120_Monotone
import Verif.Thm.C120_Problem
import Verif.Thm.C120_Select
import Verif.Thm.C120_Square
import Verif.Thm.C121_Box
import Verif.Thm.C121_Elastic
import Verif.Thm.C122_Box
import Verif.Thm.C122_Scalability
import Verif.Thm.C123_HyperBench
import Verif.Thm.C124_BoundaryIndex
import Verif.Thm.C125_Robin
import Verif.Thm.C12_Nanson
import Verif.Thm.C13_Measure
import Verif.Thm.C14_Boundary
import Verif.Thm.C16_BC
import Verif.Thm.C17_Tangent
import Verif.Thm.C18_Newton
import Verif.Thm.C20_NewtonLoop
import Verif.Thm.C23_Cache
import Verif.Thm.C24_Options
import Verif.Thm.C29_ArcLength
import Verif.Thm.C32_Continuation
import Verif.Thm.C33_DynRelax
import Verif.Thm.C36_Mpc
import Verif.Thm.C36_Start
import Verif.Thm.C37_Periodic
import Verif.Thm.C38_Adjoint
import Verif.Thm.C38_Branch
import Verif.Thm.C39_History
import Verif.Thm.C40_Elements
import Verif.Thm.C41_Rectangle
import Verif.Thm.C42_Box
import Verif.Thm.C43_MeshTools
import Verif.Thm.C45_Asymptotes
import Verif.Thm.C46_Subsolv
import Verif.Thm.C47_Optimize
import Verif.Thm.C48_Centroid
import Verif.Thm.C48_Filter
import Verif.Thm.C50_Files
import Verif.Thm.C51_SaveSol
import Verif.Thm.C52_Quiet
import Verif.Thm.C54_Plasticity
import Verif.Thm.C55_FinitePlasticity
import Verif.Thm.C56_Explicit
import Verif.Thm.C57_Parallel
import Verif.Thm.C58_Amgx
import Verif.Thm.C60_Jit
import Verif.Thm.C64_Kkt
import Verif.Thm.C68_Trace
import Verif.Thm.C69_Complete
import Verif.Thm.C70_Equilibrium
import Verif.Thm.C71_Square
import Verif.Thm.C72_WeakForm
import Verif.Thm.C73_WellPosed
import Verif.Thm.C74_LinearSolve
import Verif.Thm.C75_Packing
import Verif.Thm.C76_Stokes
import Verif.Thm.C77_Wave
import Verif.Thm.C78_Thermoelastic
import Verif.Thm.C79_Dendrite
import Verif.Thm.C79_Explicit
import Verif.Thm.C80_PhaseEnergy
import Verif.Thm.C81_DendriteFD
import Verif.Thm.C81_Flux
import Verif.Thm.C82_Elasticity
import Verif.Thm.C83_UpdatedLagrangian
import Verif.Thm.C84_MeshGradient
import Verif.Thm.C84_Refresh
import Verif.Thm.C84_Residual
import Verif.Thm.C85_SplitVars
import Verif.Thm.C85_Supports
import Verif.Thm.C86_Eigen
import Verif.Thm.C87_Example
import Verif.Thm.C87_Solution
import Verif.Thm.C87_Staggered
import Verif.Thm.C87_Start
import Verif.Thm.C87_Stress
import Verif.Thm.C88_Material
import Verif.Thm.C88_Problem
import Verif.Thm.C89_Converge
import Verif.Thm.C89_Deriv
import Verif.Thm.C89_History
import Verif.Thm.C89_Lattice
import Verif.Thm.C89_Newton
import Verif.Thm.C89_Orientation
import Verif.Thm.C89_Step
import Verif.Thm.C89_Stress
import Verif.Thm.C90_Local
import Verif.Thm.C90_Rate
import Verif.Thm.C90_Solid
import Verif.Thm.C91_Converge
import Verif.Thm.C91_Maximum
import Verif.Thm.C91_Solver
import Verif.Thm.C91_Stencil
import Verif.Thm.C91_Taylor
import Verif.Thm.C92_Cantilever
import Verif.Thm.C92_Design
import Verif.Thm.C92_Gradient
import Verif.Thm.C92_Material
import Verif.Thm.C92_Simp
import Verif.Thm.C92_TopOpt
import Verif.Thm.C93_NodalGrad
import Verif.Thm.C94_Contact
import Verif.Thm.C94_Polar
import Verif.Thm.C94_Problem
import Verif.Thm.C95_Assembly
import Verif.Thm.C95_Example
import Verif.Thm.C95_Kernel
import Verif.Thm.C95_LocalMesh
import Verif.Thm.C95_Newton
import Verif.Thm.C95_Run
import Verif.Thm.C95_Scatter
import Verif.Thm.C95_System
import Verif.Thm.C95_Unique
import Verif.Thm.C96_Law
import Verif.Thm.C96_Multi
import Verif.Thm.C96_Network
import Verif.Thm.C97_Constrained
import Verif.Thm.C97_Rows
import Verif.Thm.C97_Saddle
import Verif.Thm.C97_Solver
import Verif.Thm.C98_Data
import Verif.Thm.C98_Energy
import Verif.Thm.C98_Example
import Verif.Thm.C98_Macro
import Verif.Thm.C98_Solver
import Verif.Thm.C98_Stress
import Verif.Thm.C99_Example
import Verif.Thm.C99_Forms
import Verif.Thm.C99_Matrices
import Verif.Thm.C99_Modal
import Verif.Thm.C99_Pencil
import Verif.Thm.C99_Rectangle
import Verif.Thm.C99_Solver
import Verif.Thm.C99_Spectrum
import Verif.Thm.Coupled
import Verif.Thm.CoupledFields
import Verif.Thm.Dendrite
import Verif.Thm.FlatAssembly
import Verif.Thm.Flt
import Verif.Thm.Grid
import Verif.Thm.Kernel
import Verif.Thm.Lists
import Verif.Thm.LumpedMass
