# Formal model of jax-fem: design

Source under study: `/repo` (deepmodeling/jax-fem, pinned commit), read as text only.
Deliverable: Lean 4 model and theorems in `lean/Verif`, property list in `properties.jsonl`,
status in `MANIFEST.json`, log of seeded edits in `seeded/LOG.jsonl`.

## 1. Layout

* `Verif/Arr.lean` – NumPy/JAX array primitives used by the model (row-major flattening,
  `argwhere`, slicing, `.at[].set`, `.at[].add`, COO matrices) and the Python exceptions.
* `Verif/Model/*.lean` – the code, function by function. Every definition cites file and lines.
* `Verif/Spec/*.lean` – small independent specifications (no reference to the model's helpers).
* `Verif/Thm/*.lean` – helper lemmas, then the property theorems (named `Cxx_*`), then `example`s that
  show the hypotheses are satisfiable on a non-trivial instance. A name with suffix `_partial` marks a theorem
  which covers only part of its property; names with `violated`, `counterexample`, `gap`, `stale`, `leak`,
  `unchecked` are proved negative results with concrete witnesses.

## 2. Modelling conventions

* **Numbers.** Floating point is replaced by exact arithmetic over a field `K` (ordered where an
  order is needed, `ℝ` where calculus or square roots are needed). Theorems that talk about
  NaN/Inf (loop guards, asserts) use a small type `Flt` with IEEE comparison semantics
  (every comparison with NaN is false). Rounding is not modelled.
* **Arrays.** Index bookkeeping (flattening, offsets, connectivity, `argwhere`, batches) is
  modelled on `List`s of naturals, executable. Dense tensor contractions in the kernels are
  modelled as functions on `Fin n` with finite sums. Python exceptions are values
  (`Except Err α`), never silently totalised when the property is about them.
* **Loops.** `while` loops are modelled as relations or fuelled recursion; theorems hold for
  every number of iterations.
* **JAX.** `jax.vmap` is `List.map`/pointwise function application, `jax.jit` is the identity
  (except for C60, where a compilation cache is modelled), `jax.jvp/vjp/jacfwd` is the Fréchet
  derivative. `ravel_pytree` on a list of 2-D arrays is row-major concatenation.
* **External libraries** (basix, PETSc, SciPy, gmsh, meshio, JAX) are not verified. Their
  operations used here are given the documented mathematical meaning: `setValuesCOO` sums
  duplicates, `zeroRows` zeroes a row and puts 1 on the diagonal, an "exact" linear solver
  returns `x` with `A x = b`; or they are adversarial (arbitrary results) where stated.

## 3. What is modelled where

| model | code | claims | theorem files |
|-------|------|--------|---------------|
| `Dofs` | `problem.py:66-121` offsets, `find_ind`, `I`, `J`; Dirichlet row numbers `solver.py:508-517` | C01, C04 | C01, C04 |
| `Assembly` | `problem.py:358-491` batches, gather, kernels, scatter, `V` | C02–C07 | C02–C07, Assembly, FlatAssembly |
| `Kernel` | `fe.py:112-218,324-382`, `problem.py:130-296` geometry and legacy kernels | C08–C13, C72–C74 | C08–C13, C72–C74, Kernel |
| `Boundary` | `fe.py:220-322`, `generate_mesh.py:30-55` selection of nodes and faces | C14, C15 | C14 |
| `BC` | `solver.py:287-363,508-553` Dirichlet conditions | C16, C17, C19 | C16, C17, BC |
| `Newton` | `solver.py:390-463,1284-1356` Newton, line search | C18, C20–C22 | C18, C20 |
| `Cache` | `solver.py:469-553` cached tangent | C23 | C23 |
| `Options` | `solver.py:63-134,261-284,1079-1106` options, choice of solver, checks | C24–C28 | C24 |
| `ArcLength` | `solver.py:559-852` arc length | C29–C32, C70 | C29, C32, C70 |
| `DynRelax` | `solver.py:858-1049` dynamic relaxation | C33–C35, C59 | C33 |
| `Mpc` | `solver.py:401-421,540-553,1289-1342` constraints `P_mat` | C36 | C36 |
| `Periodic` | `applications/periodic_bc/example.py:51-117` | C37 | C37 |
| `Adjoint`, `AdWrapper` | `solver.py:1362-1455` | C38, C39 | C38, C39 |
| `Elements`, `Tabulate` | `basis.py:19-250` tables, reordering, element functions, facets | C40, C68, C69 | C40, C68, C69 |
| `StructMesh` | `generate_mesh.py:120-189` | C41, C42, C13 | C41, C42, C13, Grid |
| `MeshTools` | `generate_mesh.py:58-80,352-361`, `applications/stokes/example.py:110-167` | C43, C44, C53 | C43 |
| `MMA`, `Filter` | `mma.py` | C45–C49, C62–C64 | C45–C48, C64 |
| `Files` | `utils.py:13-80` | C50, C51 | C50, C51 |
| `Quiet` | `applications/quiet_element/example.py:95-345` | C52 | C52 |
| `Plasticity` | `tests/benchmarks/plasticity/test_plasticity.py:16-78`, `applications/thermal_mechanical/example.py:89-174` | C54, C65 | C54 |
| `FinitePlasticity` | `applications/finite_plasticity/model.py` | C55, C66 | C55 |
| `Explicit` | `applications/explicit_dynamics/example.py:75-112` | C56, C67 | C56 |
| `Parallel` | `applications/parallel/example.py:88-339` | C57, C71 | C57, C71 |
| `Amgx` | `solver.py:136-226` | C58 | C58 |
| `Jit` | `problem.py:261-424` compilation cache, surface definitions | C60, C61 | C60 |
| `Coupled` | `problem.py:56-79,121,130-182` arguments per variable, packed geometry; kernels of `applications/{stokes,wave,thermal_mechanical_full}/example.py` | C75–C78 | C75–C78, Coupled, CoupledFields |
| `Dendrite` | kernels, lumped mass and explicit step of `applications/dendrite/{implicit_fem,explicit_fem}/example.py`; noise as an argument | C79, C80 | C79_Dendrite, C79_Explicit, C80_PhaseEnergy, Dendrite, LumpedMass |
| `DendriteFD` | `applications/dendrite/explicit_fd/example.py`, the loop with the constants captured by the jitted function; no plots | C81 | C81_DendriteFD, C81_Flux |
| `Elastic` | the stress function of `tests/benchmarks/linear_elasticity_cube/test_linear_elasticity_cube.py:17-24` (same text in other benchmarks and applications), any dimension | C82 | C82_Elasticity |
| `UpdatedLagrangian` | `applications/updated_lagrangian/example.py:16-227`: tags, targets, Dirichlet entries, Kirchhoff stress, universal kernel, `push_F_prev`, `set_params`, the load loop; mesh arbitrary, solver a parameter | C83 | C83_UpdatedLagrangian |
| `Refresh` | `jax_fem/problem.py:56-182` as a state machine: construction, `initialize_geometric_quantities` with and without points, `fe.update_Dirichlet_boundary_conditions`, assignment to `fe.points`; the arrays are those of `Coupled` | C84 | C84_Refresh, C84_MeshGradient |
| `SplitVars` | `applications/stokes/example_1var.py`, `example_2vars.py`: the two universal kernels, residuals, Dirichlet lists | C85 | C85_SplitVars |
| `Eigen` | `applications/phase_field_fracture/eigen.py:10-76`; `eigh` by its documented properties (`IsEigh`), eigenvectors arbitrary | C86 | C86_Eigen |
| `Fracture` | `applications/phase_field_fracture/example.py:40-136,180-284`: both problems, history, staggered loop; `eigh` by its documented properties, the two `solver` calls in the loop adversarial; mesh, `VTK` and plots omitted | C87 | C87_Stress, C87_Solution, C87_Staggered, C87_Example |
| `Hyper` | the neo-Hookean energies of `test_hyper_elasticity.py:15-34`, `hyperelastic_models.py`, `hyperelastic3d_common.py:45-70`, `beam2d/beam3d/cellular_displacement.py`; loading programmes and meshes of the scripts omitted | C88 | C88_Material, C88_Problem |
| `Crystal` | `applications/crystal_plasticity/models.py` and the time loop of `polycrystal_neper.py:142-156` at a quadrature point; files of neper, meshes, boundary conditions and output omitted; `compute_avg_stress` per cell | C89 | C89_Lattice, C89_Newton, C89_Step, C89_Stress, C89_Orientation, C89_Deriv, C89_History |
| `Newton`, `BC`, `Kernel`, `Hyper` (existing) | see C18-C22, C72, C88 | C90 | C90_Local, C90_Rate, C90_Solid |
| `Mesh`, `Kernel`, `Assembly`, `BC`, `Newton` (existing) | see C41, C72-C74 | C91 | C91_Stencil, C91_Maximum, C91_Taylor, C91_Converge, C91_Solver |
| `TopOpt` | docs/source/learn/topology_optimization/example.ipynb, applications/outdated/top_opt/fem_model.py:29-104 | C92 | C92_Design, C92_Material, C92_TopOpt, C92_Gradient, C92_Simp, C92_Cantilever |
| `NodalGrad` | applications/nodal_stress/example.py:40-86,141-146 | C93 | C93_NodalGrad |
| `Contact` | applications/third_medium_contact/example.py:28-179 except the region `thetas` (157-165) | C94 | C94_Polar, C94_Contact, C94_Problem |
| `Mpi` | applications/parallel/poisson_gold.py:84-167, poisson_mpi.py:85-211, 256-369 | C95 | C95_LocalMesh, C95_Scatter, C95_Kernel, C95_Assembly, C95_System, C95_Newton, C95_Unique, C95_Run, C95_Example |
| `Surrogate` | applications/surrogate_model/train.py:31-87, example.py:28-44,94-97; applications/outdated/multi_scale/fem_model.py:104-118, trainer.py:23-28,131-158, utils.py | C96 | C96_Network, C96_Law, C96_Multi |
| `Multiplier` | experimental/lm_solver.py | C97 | C97_Rows, C97_Saddle, C97_Constrained, C97_Solver |
| `Homogenize` | applications/outdated/multi_scale/fem_model.py, rve.py:21-81,137-202; trainer.py:31-45,82-91 | C98 | C98_Energy, C98_Stress, C98_Macro, C98_Data, C98_Solver, C98_Example |
| `Modal` | applications/outdated/top_opt/eigen.py:28-62,100-195,239-265 | C99 | C99_Pencil, C99_Forms, C99_Matrices, C99_Spectrum, C99_Modal, C99_Solver, C99_Rectangle, C99_Example |
| `Inverse` | docs/source/learn/source_field_identification/example.ipynb cells 2, 8, 9; jax_fem/solver.py:1362-1455 | C100 | C100_Linear, C100_Forms, C100_Source, C100_Identify, C100_Rectangle |
| `Control` | docs/source/learn/thermal_mechanical_control/example.ipynb cells 2-6, 11, 12 | C101 | C101_Forms, C101_Values, C101_Flat, C101_Control, C101_Triangles |
| `ForwardMode` | experimental/autodiff_utils.py:38-185, custom_jvp.py, adjoint_save_to_local.py, jit_global.py, safe_grad.py (JAX transformations are Fréchet derivatives, operator solvers arbitrary functions; imports and former argument lists of autodiff_utils.py not modelled) | C102 | C102_ForwardMode, C102_Scripts |
| `CoDesign` | docs/source/learn/structure_material_co_design/example.ipynb cells 2-9, 14, 15, 18 (`theta1**3.` is a natural power; reverse mode is the chain rule through the loop with `implicit_vjp` at every step; files, plots and the MMA driver not modelled here) | C103 | C103_Sequence, C103_CoDesign, C103_Structure, C103_Material, C103_Example |
| `Shape` | docs/source/learn/shape_optimization/example.ipynb cells 2-6, 8-10 (`np.arctan2` is the complex argument; `beta` not empty; meshing, boundary conditions as lists, files and the optimiser driver not modelled here) | C104 | C104_Geometry, C104_Pores, C104_Gradient, C104_Shape, C104_Example |
| `Traction` | docs/source/learn/traction_force_identification/example.ipynb cells 2, 7, 9 (cells 8 and 9 otherwise as in `Inverse`; mesh, selected faces and boundary conditions enter as data; files not modelled) | C105 | C105_Load, C105_Traction, C105_Identify, C105_Example |
| `Gradients` | docs/source/learn/compute_gradients/example.ipynb cells 2, 4-8 (mesh and selected faces enter as data; no line search; the value of `self.E` in each compiled kernel is a component of its internal variables) | C106 | C106_Problem, C106_Vjp, C106_Gradients, C106_Example |
| `UserBC` | problem.py:57-75, fe.py:57-69, 100 (meshes as point lists; components as natural numbers) | C107 | C107_UserBC, C107_Rows |
| `Beams` | applications/arc_length beam2d_force.py, beam2d_displacement.py, hyperelastic_models.py (np.isclose with absolute and relative tolerance, exact arithmetic; output omitted) | C108 | C108_Mesh, C108_Load, C108_Path, C108_Run |
| `FinitePlasticity` | applications/finite_plasticity/model.py (see C55) | C109 | C109_ElasticVolume |
| `Timing` | solver.py:22-57,411-414,1280-1350, logger_setup.py, utils.py:141-206 (clock as parameter, log lines as data) | C110 | C110_Timing, C110_Clock |
| `PlasticDrivers` | finite_plasticity/model.py:101-118, single_cell.py, thin_plate.py (mesh generator, tangent and linear solver as parameters; printing and files left out) | C111 | C111_Reevaluate, C111_Steps, C111_Drivers, C111_Programs, C111_Conditions, C111_Example |
| `Sensitivity` | crystal_plasticity/volume_sensitivity.py, stress_sensitivity.py, models.py:235-291 (mesh generator, local root finder, tangent and linear solvers as parameters; printing and files left out) | C112 | C112_Reverse, C112_Rotation, C112_Scripts, C112_Stale, C112_Smooth, C112_Example |
| `Quadrature` | basis.py:127-138, 162-171, 203-210 (basix.make_quadrature by its documentation: product Gauss rules, the low-order rules on simplices spelled out, the others as parameters) | C113 | C113_Exact, C113_Shapes, C113_Quadrature, C113_Reduced |
| `ConvergenceStudy` | applications/convergence_rate/example.py (maps, error measures, boundary information, printed orders) | C114 | C114_Study, C114_Script, C114_Exact |
| `DebugInfo` | jax_fem/problem.py:558-612 (print_BC_info), jax_fem/solver.py:379-384 (operator_to_matrix) | C115 | C115_Report, C115_Matrix |
| `Model/ArcDemo` | `applications/arc_length/demo_analytical.py` | C117 | C117_Pass, C117_Converge, C117_Demo |
| `Model/Benchmarks` | `tests/benchmarks/plasticity`, `hyperelasticity`, `linear_elasticity_cylinder` (post-processing) | C118 | C118_Virial, C118_Steps, C118_Average, C118_Surface, C118_Example |
| `Model/PoissonBench` | `tests/benchmarks/linear_poisson/test_linear_poisson.py` | C119 | C119_Natural, C119_Grid, C119_Poisson, C119_Box |
| `Model/MeshCheck` | `applications/differentiable_mesh/example.py`, `finite_difference.py` | C120 | C120_Select, C120_Monotone, C120_Gradient, C120_Problem, C120_Square |
| `Model/ElasticBench` | `tests/benchmarks/linear_elasticity_cube`, `linear_elasticity_cylinder` | C121 | C121_Elastic, C121_Box |
| `Model/Scalability` | `applications/scalability/hyperelastic3d_common.py`, `example_forward.py`, `example_inverse_timing.py` | C122 | C122_Scalability, C122_Box |
| `Model/HyperBench` | `tests/benchmarks/hyperelasticity/test_hyper_elasticity.py` | C123 | C123_HyperBench |
| `Model/BoundaryIndex` | `applications/boundary_index/example.py` | C124 | C124_BoundaryIndex |
| `Model/Robin` | `applications/robin_bc/example.py` | C125 | C125_Robin |
| (no new model) | kernels of C05/C10, meshes of C41/C42, rules of C113 | C116 | C116_Sides, C116_Cells, C116_Hex, C116_Patch, C116_Elements, C116_Grid |
| `Flt` | IEEE comparisons | C20, C22, C26, C33–C35 | Flt |

## 3b. Plan per property

| id | model | proof |
|----|-------|-------|
| C01 | `Dofs` | induction over variables, div/mod bijection |
| C02 | `Assembly` | induction on the number of batches, list algebra |
| C03 | `Assembly` | scatter-add is a filtered sum; induction over the operations |
| C04 | `Assembly`, `Dofs` | flattening index lemma, filtered sums |
| C05 | `Assembly` over `ℝ`, kernels with a derivative | chain rule through gather and scatter |
| C06 | `Assembly` | permutation invariance of sums, renumbering |
| C07 | `Assembly` | support of filtered sums |
| C08–C11 | `Kernel` | partition of unity, `J J⁻¹ = 1`, affine completeness |
| C12 | `Kernel` | cofactor identity, square roots |
| C13 | `StructMesh`, `Kernel` | Jacobian of a grid cell, sum over the grid |
| C14, C15 | `Boundary` | characterisation of filters and face flags; error branches |
| C16, C19 | `BC` | fold induction against "last matching entry" |
| C17 | `BC` | rows; derivative of the eliminated residual |
| C18 | `Newton` | algebra on constrained rows, induction on steps |
| C20 | `Newton` over `Flt` | loop invariant, case analysis on NaN/Inf |
| C21 | `Newton`, affine residual | algebra |
| C22 | `Newton` line search | three halvings for an arbitrary norm function; NaN counterexample |
| C23 | `Cache`: heap of arrays, identity keyed cache | invariant over histories; counterexamples for in-place changes |
| C24–C27 | `Options`: dictionaries, explicit mutation, adversarial backend | case analysis; counterexamples for C25, C27 |
| C28 | `Options` | case analysis over key sets |
| C29–C31 | `ArcLength` | quadratic formula, induction over corrector iterations |
| C32 | `ArcLength` outer loop, adversarial corrector | induction over steps |
| C33–C35 | `DynRelax` | loop invariants; NaN counterexamples |
| C36 | `Mpc` | linear algebra; counterexample when the BC set is not closed |
| C37 | `Periodic` | list induction; chained and repeated masters |
| C38 | `Adjoint` over `ℝ` | chain rule, transposed solve |
| C39 | `AdWrapper` state machine | induction over histories |
| C40 | `Elements` | permutation lemma plus complete finite tables |
| C41, C42 | `StructMesh` | index arithmetic, geometry of cells |
| C43, C44, C53 | `MeshTools` | index arithmetic, determinant identities |
| C45–C47, C62–C64 | `MMA` | ordered-field arithmetic, derivatives, invariants of the three nested loops |
| C48, C49 | `Filter` | finite sums, adjointness |
| C50, C51 | `Files`: file system as a map | string induction; aliasing |
| C52 | `Quiet` | invariant over activation histories |
| C54, C65 | `Plasticity` | real inequalities, uniqueness of the return mapping, invariants |
| C55, C66 | `FinitePlasticity` | determinants, rotation equivariance, invariants |
| C56, C67 | `Explicit` | induction over steps; summation by parts in time |
| C57 | `Parallel` | partition of sums over ranks |
| C58 | `Amgx` try/finally, adversarial failure point | case analysis over failure points |
| C59 | `DynRelax` CSR shape | counterexample and one-variable case |
| C60, C61 | `Jit` compilation cache, surface definitions | invariant; counterexamples for captured attributes |
| C68, C69 | `Elements`, `Tabulate` | polynomial identities per element, facet parametrisations |
| C70 | `ArcLength` | loop analysis; counterexample for the returned state |
| C71 | `Parallel` mesh | index arithmetic, barycentric inequalities, edge counting |
| C72 | `Kernel`, `Assembly` | weighted sums of element vectors, chain of kernel identities |
| C73 | `Kernel`, `StructMesh` | monotonicity argument; telescoping sums on the grid |
| C74 | `Kernel`, `BC`, `Newton` | affine residual as a matrix, C73 gives regularity, C21 gives the loop |
| C75 | `Coupled` | characterisation of success; blocks of concatenated lists |
| C76–C78 | `Coupled` kernels | general weak form of kernels in divergence form, then testing with the increments |
| C79 | `Dendrite` | testing with constants; lumped mass: the matrix is the derivative of the residual (C05), applied to constants |
| C80 | `Dendrite` | derivative of the angle relative to a fixed direction (no branch cut), periodicity of `ε` |
| C81 | `DendriteFD` | entries of the shifted arrays, summation by parts, convex combination; induction over passes for the captured constants |
| C82 | `Elastic`, `Kernel`, `StructMesh`, `BC`, `Newton` | energy identity and Cauchy–Schwarz; zero strain on the reference cell by hand, affine change of coordinates; induction over held nodes; then as C74 |
| C83 | `UpdatedLagrangian`, `Kernel`, `Assembly`, `Boundary` | moved-mesh Jacobian = F·J₀, so deformation gradients compose and the pull-back cancels; loop invariant; entries through C14 |
| C84 | `Refresh`, `Coupled`, `Adjoint`, `Kernel` | invariant over histories between object and bookkeeping; joint smoothness of the virtual work in coordinates and solution (determinant, inverse, Nanson scale), implicit function theorem + C38 |
| C85 | `SplitVars`, `Coupled`, `Boundary` | coupled weak form for both kernels with the joined field; indicator test fields; induction over the list of conditions with the later-wins rule |
| C86 | `Eigen` | expansion of f(B) - f(A) in the two eigenbases with divided differences (Daleckii-Krein); eigenvectors of distant eigenvalues are nearly orthogonal |
| C87 | `Fracture` | the split as projection on the cone of semidefinite matrices (Moreau); quadratic upper and lower bounds give the derivative; convex energy for the minimisers; loop invariant for the history |
| C88 | `Hyper` | derivative of the determinant along lines; AM-GM on the eigenvalues of FᵀF for the energy; weak form C72 for potential, moments and rotations; symmetry of second derivatives |
| C89 | `Crystal` | quaternion algebra; finite check of the slip table; loop invariant; bijection between solutions of a separate list of equations and zeros of the residual; simulation relations on histories for objectivity and symmetry; implicit function theorem |
| C90 | `Newton`, `BC`, `Hyper` | strict derivative and bounded inverse give a contraction towards every nearby solution, uniformly in the load; open mapping for existence; mean value inequality for the rate; linearisation of the assembled residual at rest is the elastic problem of C82 |
| C91 | existing | virtual work of the unit field of a node gives the stencil; walk along the diagonal for the maximum principle; Taylor expansions along the four stencil directions; quadratic barrier functions are reproduced exactly |
| C92 | `TopOpt` | sums of scaled semidefinite forms: expansion of the compliance with a remainder between zero and a sum of squares, hence the derivative without differentiating the solution; uniqueness of derivatives identifies the result of the backward pass (C38_branch) |
| C93 | `NodalGrad`, `Tabulate`, `Kernel` | element functions are smooth with the tabulated partial derivatives (C69); inverse function theorem for the map of the cell; chain rule |
| C94 | `Contact`, `Hyper`, `Eigen`, `Boundary`, `StructMesh` | uniqueness of the square root from well-definedness of eigen calculus (C86); explicit plane polar factor; derivative of the closed form; C88_potential |
| C95 | `Mpi`, `Parallel`, `Newton`, `Kernel`, `BC`, `Tabulate`, `Dendrite` | local mesh as bijection; kernel and `jacfwd` in closed form; C90/C91 for the local assembly; sums over ranks; Poincaré argument by links for definiteness and monotonicity of `u³` for uniqueness |
| C96 | `Surrogate`, `Hyper` | chain rule through the layers; Cholesky factor turns energies of F into functions of E; mean value theorem on slices of the convex set of strains; polar decomposition (C94) |
| C97 | `Multiplier`, `BC`, `Mpc`, `Periodic` | splitting by cumulative sums as a recursion; triplet loops by an invariant; range of B^T is the annihilator of the kernel of B; comparison with C18 and C36/C37 |
| C98 | `Homogenize`, `Hyper`, `Surrogate`, `Multiplier` | derivative of the energy through the weak form; variations of the fluctuation drop out at an equilibrium; touching from above for the least energy; polar decomposition for the surrogate; loop invariant for the folder |
| C99 | `Modal`, `TopOpt` | forms of the quadrature points; implicit function theorem for the bordered system; dimension count on the kernel for the kept modes; compactness of the sphere for the separation of the spectrum |
| C100 | `Inverse`, `Adjoint`, `Newton` | the elimination system does not depend on the parameters; bilinear forms of the quadrature points; the source-to-state map is the transpose of the evaluation map up to the regular stiffness |
| C101 | `Control`, `Inverse`, `SplitVars` | boundary values are affine in the parameters; the coupled form is block triangular, both blocks are definite; adjoint by the transposed form; rigid motions of triangles with two held nodes |
| C102 | `ForwardMode`, `Adjoint` | C102_jvp from the branch theorem of C38 and the tangent of C17; the scripts by computation |
| C103 | `CoDesign`, `Inverse`, `Plasticity` | chain rule by induction over the steps with the branch theorem of C38 at every step; smoothness of the return mapping away from the yield surface; history by C54 |
| C104 | `Shape`, `Inverse`, `Hyper` | polar coordinates removed by the addition theorems; scatter loop by disjoint cells; implicit function theorem at a regular equilibrium (`Inverse.Setup.grad_exact`) and adjoint formula |
| C105 | `Traction`, `Inverse`, `Hyper` | surface work of the internal variables of the faces; `Inverse.Setup.grad_exact` and `grad_formula`; rank-nullity for the nodal loads; little-o of the derivative for the difference quotient |
| C106 | `Gradients`, `Inverse`, `Hyper`, `Boundary` | vector-Jacobian product with boundary values that depend on the parameters; implicit function theorem; product rule for E*rho; first trace of a kernel fixes `self.E` |
| C107 | `UserBC`, `Boundary`, `BC` | every entry fits its condition (C14), last entry = last condition, then the row specifications of C16, C17, C19; updates beyond the row length change nothing |
| C108 | `Beams`, `ArcLength`, `UserBC` | explicit mesh points and cells; virtual work identity (C74) with the face lists; rows from C107; test functions at free degrees of freedom; identity rows in every corrector; arc length constraint bounds the increment of lambda |
| C109 | `FinitePlasticity` | principal values of the trial state; moving towards the mean value increases the product of positive numbers; induction over the history |
| C110 | `Timing`, `Newton` | induction over the loop: log is a journal of rounds; recorded times bounded by the last reading of a monotone clock; induction over set-up calls |
| C111 | `PlasticDrivers`, `FinitePlasticity`, `UserBC`, `Newton` | relative deformation 1 gives trial = stored; on the yield surface the plastic branch has zero multiplier; residual via the weak form (C72), conditions via C107, induction over the steps |
| C112 | `Sensitivity`, `Crystal`, `Adjoint`, `Inverse`, `UserBC` | induction over the steps: chain rule along the family, each step removed by the transposed system of the constraint function; objectivity of the law through the weak form (C72); derivative of the rotated residual at angle 0 is a null vector |
| C113 | `Quadrature`, `Tabulate`, `Elements` | element functions and gradients lie in spans of monomials (tables checked once); exactness is linear and is checked on monomials; the mode without strain is a polynomial whose strain has the factor 3(2x-1)^2-1, zero at the two-point rule; singular mass by dimension |
| C114 | `ConvergenceStudy`, `Kernel`, `UserBC` | weighted gradients at the quadrature points as vectors of a Euclidean space; Galerkin equation (C72) as an inner product; lemma of Strang there; exact reproduction by Pythagoras and uniqueness (C73); derivatives of the manufactured solution by hand |
| C115 | `DebugInfo`, `UserBC`, `Boundary` | induction over parts and variables; tables related to the user's conditions by C107; last row by splitting the concatenated tables; derivative of the residual with boundary conditions row by row |
| C116 | `Kernel`, `StructMesh`, `Quadrature` | cell integral of a gradient as a sum over oriented sides (cofactors; table of 512 determinants for HEX8 compared by the kernel); opposite orientations cancel (involution on the multiset of cyclic lists); generated meshes by telescoping |
| C117 | `ArcDemo` | quadratic of the code = distance equation on the tangent; the tangent lies above the parabola by a square, hence monotone iterates bounded by the meeting point and quadratic error bound; reflection symmetry |
| C118 | `Benchmarks` | residual rows = work of the stresses on a unit move; coordinates reproduce the identity gradient, hence the virial identity; convexity of the yield condition; C15, C12 for the faces |
| C119 | `PoissonBench` | divergence identity of C116 with the sides at a node kept: shared sides cancel, tangent sides have zero flux; uniqueness from C73; the zero start has residual -1 at a node of the right end, so one linear step is taken (C21, C74) |
| C120 | `MeshCheck` | scan invariant of argmin; selection only reads tolerances; strong monotonicity makes the reduced residual a strongly monotone map with regular derivative, hence bijective (open and closed range); implicit function theorem of C84 gives the branch, uniqueness identifies it with what the solver returns |
| C121 | `ElasticBench` | residual is affine and strain-monotone, so C74 gives one Newton step and C82 uniqueness; rows without supports are the balance of virtual powers; a rigid field does no stress power, hence reactions; on the generated mesh faces 0,1,2,4,5 contain a vertex with the smaller x index |
| C122 | `Scalability` | C54's Piola stress by the chain rule through the floor (locally constant below it); C72 turns the free rows into the balance of powers; a constant test field does no stress power, so the end forces are minus the load; face selection on the box by the positions of the four vertices |
| C123 | `HyperBench` | The loop of C20 returns only with a residual norm below `tol` or below `rel_tol` times the initial norm, which is the square root of the number of top nodes; constrained rows are displacement errors, free rows are the powers in the nodal motions (C54's Piola stress), Cauchy's inequality for a general motion; a constant motion does no power |
| C124 | `BoundaryIndex` | C14/C15 give increasing lists with exactly the selected members; grid coordinates (C41) decide the tolerance tests; the faces of QUAD4 (C40's tables) as sides of a grid cell; increasing lists with equal members are equal |
| C125 | `Robin` | The kernels agree entry by entry; C72 turns the free rows into the weak form; for non-negative side values `5 u²` equals the monotone flux `5 max(u,0)²`, for which C73's uniqueness applies |

## 4. Trusted base

* The Lean 4 kernel and the statement of the theorems as read by a human.
* Axioms: only `propext`, `Classical.choice`, `Quot.sound` (the list per theorem is in appendix A, produced with
  `#print axioms`). No own axioms, no `sorry`, no `native_decide`, no `bv_decide`.
* The correspondence between the Python text and the model, by reading (each definition cites its lines).
* The documented meaning of the external libraries listed in section 2.

## 5. Simplifications and what is not modelled

* Floating-point rounding; internals of basix, PETSc, SciPy, gmsh, meshio, pyamgx, JAX; formatting and debug messages of the log;
  of `jax_fem/experimental/` the timing and memory scripts (`memory.py`, `sparse.py`, `when_to_jit.py`) and
  `petsc_solver.py`; `box_mesh_gmsh`, the
  geometry script of `cylinder_mesh_gmsh`, `make_video`, `json_parse`, `read_abaqus_and_write_vtk`,
  `print_BC_info`.
* The element functions of basix are given by formulas (Lagrange of degree 1 and 2; serendipity of degree 2 with its
  documented degrees of freedom: vertex values and edge mean values). Quadrature rules are arbitrary points and
  weights; where a theorem needs the sum of the weights it is a hypothesis.
* Kernels: the legacy kernels for one variable, and the universal kernels of the Stokes, wave, thermoelastic and dendrite
  examples. The assembly theorems hold for arbitrary kernels and any number of variables.
* Options: sub-dictionaries must be dictionaries.
* `DMPlex.distribute` (C57): what a rank receives is described by `IsDistribution`.
* `KDTree.query` (C48): documented meaning, ties resolved arbitrarily.

## 6. Findings

Places where the code does not do what its documentation, comments or the obvious intention say. The ones with a
theorem name are proved.

Solver
* An empty nested `'linear'` block, and the adjoint options including the shared default dictionary, are mutated by a
  solve (`C25_violated`, `C25_violated_adjoint`).
* `jax_solve` with `precond=False` multiplies by a preconditioner that is not defined as the identity
  (`C27_violated`).
* The line search compares norms with NaN as not worse and accepts a NaN half step (`C22_nan_counterexample`).
* Line search with `P_mat` mixes full and reduced vectors (`C36_line_search`); an initial guess with `P_mat` must have
  reduced size; a constrained set not closed under the pairing violates the Dirichlet values
  (C36 counterexample).
* `jax_fem/solver.py:400` says of the start vector of the linear solver that "x0 will always be correct at boundary locations". With
  `P_mat` it is the class size times the deviation on constrained classes, hence wrong wherever two constrained degrees of
  freedom are identified (C36_start, C36_start_wrong). The result of an exact linear solve does not depend on it.
* A zero initial residual gives the relative norm NaN and the initial guess is returned.
* The cached tangent is keyed on object identity: changing an index array in place or moving it to another variable
  gives stale rows (`C23_inplace_stale`, `C23_moved_stale`); `get_A` returns the same mutable matrix object.
* Arc length: the loop tests the residual of the state *before* the last correction; the returned state is never
  checked (`C70_unchecked`). Inner solves ignore the option `'linear'`.
* Dynamic relaxation: a NaN residual norm ends the loop as if converged (`C35_violated`); an undefined damping estimate
  destroys prescribed values (`C33_nan_violated`); several variables raise (`C59_violated`); `calC` does not catch
  NaN.
* Results of `spsolve`, AMGX and custom solvers are not checked (only the iterative solvers are).
* A flat option key `'linear'` is dropped silently.
* AMGX: if a destroy call raises, the remaining objects leak (`C58_destroy_fails_leak`).
* After differentiation the problem object holds tracers (`C39_tracers_left`).

Problem and elements
* QUAD8/HEX20: the edge degrees of freedom are mean values; Dirichlet values at mid-edge nodes prescribe means, and
  nodal interpolation of quadratics is not reproduced (`C69_serendipity_counterexample`).
* Legacy kernels work for one variable only; if no kernel is defined the residual of a cell is the scalar 0.
* Kernels compiled separately for residual and Jacobian freeze attributes at different times (C60).
* Only one of the two kinds of surface definitions is checked at construction (`C61_gap`, `C61_both`).
* `count_selected_faces` with a two-argument location function raises `TypeError`, unlike the boundary conditions.
* A list of meshes with flat `dirichlet_bc_info` is interpreted per variable.

Meshes and utilities
* `rectangle_mesh`/`box_mesh`: the docstring says "number of nodes", the arguments are numbers of cells.
* Cylinder clean-up: cells referring to a dropped point silently refer to another point afterwards (`C43_dropped`).
* The density filter raises for fewer than 20 design cells (C48).
* `modify_vtu_file` normalises line ends and empties the file when input and output are the same file (C50).
* `save_sol`: documentation and assertion on the cell data shape disagree; a bare file name raises; a point field named
  `'sol'` overwrites the solution; output is single precision.
* MMA: in exact arithmetic the last barrier parameter is 1e-6, not 1e-7; `subsolv` silently accepts after 200 iterations
  or 50 halvings (C64); a non-positive move limit breaks `alfa < beta`.

Applications
* Periodic matrix: chained masters raise, duplicate slaves raise or are merged (C37).
* Quiet elements: tables are unbound if the first laser step activates no cell; the assertion of `update_hash_map` checks
  counts only (`C52_exchange_undetected`).
* Finite plasticity loses `det be_bar = 1` in plastic steps (C55).
* Parallel example: CG on a nonsymmetric matrix; `zeroRows` is collective but called only by ranks which own a boundary
  vertex (`C57_collective`).
* One `[locations, components, values]` triple for a list of meshes is a list and gets indexed per variable; the
  constructor then raises, also for a list of one mesh (`C75_rejected`). `ele_type` as a plain string with a list of meshes
  is indexed character by character and raises too. Surplus entries of the lists are ignored silently (`C75_list`).
* Explicit dendrite example: the latent heat `K dp/dt` in the temperature equation is formed without the noise term, so the
  enthalpy is not conserved (`C79_explicit_defect`); the semi-implicit example conserves it. Both draw `chi` with
  `PRNGKey(0)` in every step: the "noise" is a fixed field.
* `applications/dendrite/explicit_fd/example.py:93-97`: the jitted `phase_field` reads `eps2_x, eps2_y` from the enclosing
  function. They are constants of the first trace, so every later pass uses the gradient of `eps²` of the initial phase
  (`C81_stale` and the example after it).
* Same file, lines 141-143: `meshgrid` with its default indexing gives a mask of shape `(ny, nx)`, applied to an array of
  shape `(nx, ny)`; it raises for `nx ≠ ny`. (Not modelled: the initial phase is an argument.)
* Same file, line 158: the edges of `T` are overwritten after `T_field`, so the sum in `C81_enthalpy` is not conserved by a
  whole pass.
* Finite-difference dendrite example: `eps` uses `cos(J θ)` without the offset `θ₀ = π/2` of the finite-element examples, so
  for `J = 6` the preferred directions differ by a sign of `δ` (`C81_eps`).
* Wave example: the prescribed value jumps from 0 to 1 in the first step; the energy bound of C77 starts after it.
* updated_lagrangian: the floors `jnp.maximum(J, 1e-14)` replace the determinant of an inverted cell by a tiny positive number instead of reporting it, so a step may converge to an inverted state without any message; C83 therefore assumes determinants above the floor. `isclose(x, 1.0, atol=1e-7)` keeps NumPy's default relative tolerance, so the driven end is selected within 1.01e-5, not 1e-7 as the argument suggests (`OnRight` in Spec/UpdatedLagrangian).
* initialize_geometric_quantities(points): `fe.points`, the Dirichlet nodes and values, the selected boundary faces and `fe.get_physical_quad_points()` without argument stay at the old points (C84_history). A later call without points silently goes back to `fe.points`. A points list shorter than the number of variables raises IndexError after the arrays of the first variables have been replaced, leaving element arrays and packed arrays inconsistent (C84_short).
* applications/differentiable_mesh: the gradient written as `dJ_dxy` holds the Dirichlet values fixed. For nodes on the top edge the prescribed value 2 sin(pi x) depends on the coordinate, and a rebuilt problem (what the finite-difference script does) would include that dependence; the script compares only a node on the bottom edge, where the two agree.
* `phase_field_fracture/example.py:93-99`: the noise on the diagonal (at most 1e-8) enters the stress but not `psi_plus_fn`, so the history belongs to a slightly different strain; at zero displacement gradient the stress is not zero.
* `phase_field_fracture/example.py:90`: no residual stiffness, so where d = 1 the stress loses strict monotonicity and the displacement need not be unique (C87_displacement therefore excludes these points).
* `phase_field_fracture/example.py:271-275`: if one of the fields is zero in two successive passes its relative change is 0/0 = NaN, `err` may be NaN and the loop ends whatever the other field did (third alternative of C87_accept).
* `arc_length/hyperelastic_models.py:36-44`, `beam2d_displacement.py`: the two-dimensional energies use the three-dimensional bulk modulus `E/(3(1-2nu))`; the small-strain limit is not plane strain with the given E and nu, the first Lame parameter is `lambda - mu/3` (C88_linear).
* The volumetric energy `kappa/2 (J-1)^2` is finite at J = 0: shrinking a cell to a point costs `kappa/2` per volume (C88_energy); with exponent `-2/2` the energy is unbounded below for negative determinants, so inverted cells are attractive.
* `crystal_plasticity/models.py:37-44` `get_rot_mat` does not normalise its quaternion: for other than unit quaternions the matrices are rotations times the squared norm, which enter the elastic tensor to the fourth power (C89_rotation).
* `crystal_plasticity/models.py:164`: `Fp_inv_new = Fp_inv_old (I - L)` preserves plastic volume for single slip only; in uniaxial tension along a cube axis the determinant drops in every step (C89_volume, C89_volume_fails).
* `crystal_plasticity/models.py:177-221`: the local Newton loop has no limit on its steps and a NaN residual ends it as if converged (C89_newton_failures).
* `crystal_plasticity/models.py`, `polycrystal_neper.py`: `self.dt` is a constant of the element kernel compiled at the first call, while `update_int_vars_gp` and `compute_avg_stress` are jitted anew and use the current value: with changing increments equilibrium and state update belong to different increments (C89_time_step).
* `crystal_plasticity/models.py` `compute_avg_stress`: the volume-averaged first Piola stress is computed and then ignored.
* `crystal_plasticity/models.py:154-155`: an explicit step may carry the resistance beyond `t_sat`; the sign factor then lowers it again (C89_slip).
* `solver.py:1326-1333`: the Newton loop has no maximum number of iterations; with `x^3 - 2x + 2` it alternates between 0 and 1 forever although a regular solution exists (C90_cycle).
* QUAD4 on stretched cells (aspect ratio above sqrt 2) violates the discrete maximum principle: nonnegative boundary values of the Laplace equation with a negative interior nodal value (C91_stretched). A property of the method rather than a bug, but `rectangle_mesh` does not warn about the aspect ratio.
* learn/topology_optimization/example.ipynb, learn/*: cell 1 uses `__file__`, which is not defined in a notebook kernel, so the notebook runs only when exported as a script.
* applications/outdated/top_opt/fem_model.py: `get_von_mises_stress_fn` evaluates the three-dimensional law (penalty 0.5) also for the plate, whose equilibrium uses the plane-stress law (penalty 3 or 5); the reported stresses are not those of the equilibrium.
* applications/nodal_stress/example.py: `element.points` is in the order of basix while the functions are reordered, so row `p` of `u_grads` is not the gradient at node `p` of the cell (HEX8: rows 2/3 and 6/7 are exchanged); scattering the rows with `cells` would give wrong nodal stresses (C93_hex8_counterexample).
* applications/third_medium_contact/example.py:112: the mean of rotations is not a rotation, so the regularisation energy of the medium is bounded below by `k_R (1-r)² > 0` in cells with varying rotation (C94_mean, C94_energy).
* applications/third_medium_contact/example.py:49-52,98: the noise is added to the displacement gradient of every evaluation, also of the solid, so the undeformed body is not stress free (C94_reference).
* applications/third_medium_contact/example.py:61-69: one eigenvalue of `C` is always 1; whenever an in-plane stretch is 1 or the in-plane stretches coincide, eigenvalues coincide and the derivative JAX computes through `eigh` is NaN although the rotation is smooth there (C94_stress: the energy is differentiable at every positive determinant). The noise avoids this only in the undeformed state.
* applications/parallel/poisson_mpi.py:323-333: `zeroRows` is collective but called only by ranks which own a boundary vertex; unless all or none do, the program hangs or fails (C95_collective). With enough ranks some own only interior vertices.
* applications/parallel/poisson_mpi.py:135-184: `scatter_global_coo` returns before adding anything if the rank owns no rows, so the contributions of its cells to rows of other ranks are lost (C95_scatter_lost).
* applications/parallel/poisson_gold.py:125-154: `uq[:, 0]` has a trailing axis, so `nl[:, None, None]` has four axes; the kernel's output has `num_quads * num_nodes` entries and is right only for one quadrature point (C95_one_point). With TRI3 of order 0 there is one.
* The kernel uses the signed determinant of fe.py: for a rank whose cell closures are clockwise, residual and tangent of the cell change sign (C95_clockwise).
* applications/parallel/poisson_gold.py:161-166 and poisson_mpi.py:258-271 use different tolerances: `isclose` adds the relative tolerance 1e-5 at the side 1. From 10^5 cells per side on, vertices next to the side are Dirichlet nodes of the local residual but not of the global matrix (C95_tolerance; C95_square shows agreement up to 99990).
* applications/parallel/poisson_mpi.py: CG is used with a matrix whose rows at the sides are replaced but whose columns are not, so it is not symmetric. All residuals and directions vanish at the sides, where the matrix is symmetric positive definite (C95_definite).
* applications/surrogate_model/train.py:62,83-86 and example.py:30-34: the derivative of the network energy with respect to the single input `E01` is trained to be `S01` and deployed in both shear components; for a strain energy it is `2 S01`. The README's claim that the network is the effective strain energy density whose gradient is the stress is wrong: the deployed law is hyperelastic only for separable networks (C96_hyperelastic, C96_cases), the stress of a material with coupling of shear and normal strains cannot be fitted (C96_fit, C96_unfit, C96_area).
* applications/surrogate_model/train.py:34: `elu` is not twice differentiable at 0, so the tangent used by the Newton method is discontinuous; with zero biases this happens in the undeformed state (C96_kink).
* applications/outdated/multi_scale/fem_model.py:104-118: unlike the surrogate model the initial stress of the network is not subtracted (C96_initial).
* applications/outdated/multi_scale/trainer.py:153-154: the volumetric terms of `poly_psi` are powers of `sqrt(I3) - 3` instead of `sqrt(I3) - 1` (C96_poly).
* jax_fem/experimental/lm_solver.py: the module contains no import, so every function raises NameError; it calls `problem.node_inds_list`, `problem.body_force`, `problem.neumann`, `problem.newton_update(sol)` returning one array, and `jax_solve` with five arguments, none of which exists any more (C97 is about the code with its old environment).
* jax_fem/experimental/lm_solver.py:150-167: with `use_petsc=True` (the default) the matrix is assigned to `A` but `A_aug` is returned: UnboundLocalError on every call (C97_petsc).
* jax_fem/experimental/lm_solver.py:104-132: constraints are not checked for redundancy; pairing opposite sides in two directions including corners makes the matrix singular for every problem (C97_singular, C97_corners).
* applications/outdated/multi_scale/rve.py:143-149: the load steps after a NaN call `solver(problem)` without the previous solution as initial guess and end with ratio 1, so that they repeat the failed call (C98_fallback).
* applications/outdated/multi_scale/rve.py:183-198: a failed sample is written to a .txt file, which is not counted as done; the loop of `collect_data` then never ends (C98_collect).
* applications/outdated/multi_scale/rve.py:31-77: whole opposite faces are paired in three directions, so edges and corners are tied several times; the matrix of the multiplier solver is singular (C98_singular).
* applications/outdated/multi_scale/trainer.py:39 reads the folder 09052022 while rve.py:169 writes to 11012022.
* applications/outdated/multi_scale/rve.py:107: `aug_solve` is not imported.
* applications/outdated/multi_scale/fem_model.py:164-171: the traction of the composite always takes the moduli of the matrix; right on the top face for ratio <= 1/2 only (C98_traction).
* applications/outdated/top_opt/eigen.py:181: the pairs 0-2 are skipped as the rigid modes. The pairs are ordered by the distance from the target 10, so that elastic eigenvalues below 20 come first and rigid modes are kept instead; the constraint is then violated as it should be (C99_feasible), but the gradient is that of a triple eigenvalue.
* applications/outdated/top_opt/eigen.py:167: the loop runs over n_requested pairs and not over the nconv converged ones; with fewer than ten converged pairs getEigenpair raises, with none np.stack raises (C99_errors).
* applications/outdated/top_opt/eigen.py imports jax_fem.core.FEM and calls get_A_fn(problem, use_petsc=True), which the present library does not have.
* learn/source_field_identification/example.ipynb cell 2: mass_map returns +theta and the residual is (grad u, grad v) + (theta, v), so the identified field is minus the source b of the text (-Laplace u = b).
* learn/source_field_identification/example.ipynb: the data are predicted by infinitely many sources (C100_rectangle), so agreement of the reference and the predicted temperature does not show that the source was found; no regularisation is used.
* learn/source_field_identification/example.ipynb cell 9: the index [10, 3] of the difference check is hard-wired; on a mesh with fewer than eleven cells or four points the check returns 0 without an error (C100_index).
* learn/thermal_mechanical_control/example.ipynb cell 12: the objective is quadratic in the temperatures, so the central difference is exact for every h (C101_difference); the printed values 6.960274e-09 and 6.960013e-09 differ by 4e-5 relative, which is the error of the solver tolerances and not of the step.
* learn/thermal_mechanical_control/example.ipynb cells 11, 12: node 3456 and index 10 are hard-wired for one mesh file; on another mesh both are clamped or dropped without an error (C101_corner, C101_index).
* learn/thermal_mechanical_control/example.ipynb: with more than two nodes at the hole the temperatures are not determined by the displacement of one corner (C101_blind); no regularisation is used.
* `experimental/autodiff_utils.py:32-34` imports `get_jacobi_precond` and `jacobi_preconditioner`, which `solver.py` does not define, so importing the module raises; `solver(problem, linear=, use_petsc=)` (`:63`) and `jax_solve(problem, matvec, ...)` (`:128`) use former argument lists, and `problem.vec`, `sol.reshape` (`:73, 121`) assume one array instead of a list. With the former meaning of these calls the rule is exact (C102_jvp).
* `experimental/adjoint_save_to_local.py` keeps one file for the residuals of all evaluations: with two forward passes before the backward passes the gradient is wrong (C102_nested: the wrong sign at x = pi).
* `experimental/custom_jvp.py`: for |x| <= 1e-8 the solver returns the initial guess, a constant, while the JVP returns A^-1 v (C102_newton_jvp): the rule differentiates the implicit function, not the program.
* `experimental/jit_global.py`: after the first call `test_fn_a` returns the first value for ever and its gradient is zero (C102_jit).
* `structure_material_co_design/example.ipynb`: `inspect` reads `internal_vars[2]`, which `set_params` filled before the last solve; the comment "f_yield > 0 indicate plastic deformation has occurred" therefore holds for the step before the last (C103_inspect, C103_inspect_lag: zero although the body yields).
* `shape_optimization/example.ipynb`: `porosity = 0.5` in `pore_fn` is never used; the hole has the fixed area 2*0.45^2 = 0.405 of the cell (C104_hole). The density has kinks in the angle where a quadrature point meets a diagonal of the turned square (C104_sensitivity); there automatic differentiation uses `sign(0) = 0`. Points outside `[0, nx*L0) x [0, ny*L0)` keep density 1 (C104_cells), so the pores fill the height only if `Ly = ny*Lx/nx`.
* `traction_force_identification/example.ipynb`: the traction is given at 20*4 = 80 quadrature points but acts through the 42 nodes of the top faces only, so it cannot be identified from displacements without regularisation (C105_ambiguous). `surface_map` returns `-load_value`, and the kernel adds surface maps to the residual, so that a positive `load_value` pulls upwards (C105_load).
* `compute_gradients/example.ipynb`: the notebook calls dE = 4.06e-07 and dE_fd = 0.0 together "WRONG results". The difference quotient is 0 for every step because the tangent kernel keeps the first `self.E` (C106_stale, C106_script); the value of automatic differentiation is the exact derivative there, since the residual kernel is first traced in the backward pass with E as a tracer (C106_gradient, C106_check). It is wrong only if that kernel was compiled before, and then the derivatives for rho change too (C106_mismatch). The text of the notebook gives the traction as (0, 0, -1000); `surface_map` returns +1000, and the kernel adds it to the residual, so both agree (C106_balance).
* `fe.py:63-65` demands components between 0 and vec - 1, but nothing checks it. For a larger component `apply_bc_vec` drops the condition silently, while the row elimination takes the row of another node out of the tangent (C107_wrong_component); Newton's method then need not converge even for linear equations (C107_wrong_component_stalls).
* The examples call the end load a traction in +x, but surface maps are added to the residual, so the traction on the body is in -x (compression, as the example needs): C108_load.
* `location_midspan_bottom` selects a window of width 4, but its ends are excluded and a face counts only if both of its nodes are inside; the imperfection acts on the sides from x = 24 to x = 26 only: C108_faces.
* `applications/finite_plasticity/model.py:58-61` relies on `be_bar_old` being isochoric. The plastic branch keeps the trace of the trial state instead of its determinant (line 80), so the determinant of `be_bar` grows with every plastic step and never returns to one: C109_step, C109_history, C109_shear.
* `jax_fem/logger_setup.py:21-28`: a logger that already had a handler keeps propagating, so its messages can still appear twice (C110_foreign_handler).
* `jax_fem/utils.py:195-202`: the default file of `walltime` does not depend on the function and is opened with 'w', so the record of the previous function in the same directory is lost (C110_decorators and the example beside it).
* `applications/finite_plasticity/thin_plate.py:57-62,67-70`: on the rim of the top face the conditions `walls` (0) and `top` (-scale*Lx*1e-10) contradict each other; the later one wins (C111_plate_conflict, C111_plate). The nested reciprocal `1/(1 + (1/(x + EPS) - 1))` is just `x + EPS`.
* `applications/crystal_plasticity/volume_sensitivity.py:70-80`, `stress_sensitivity.py:55-65` (`polycrystal_neper.py:122` has a second corner): the cube is held sideways at one corner only, so that rotation about the vertical axis is free; all turned configurations are equilibria and the linear systems of Newton's method and of the adjoint are singular at every equilibrium and in the first iteration (C112_rotation, C112_tangent, C112_first). The adjoint system is still solvable where the objective is indifferent to the rotation, and an exact solution gives the right gradient (C112_volume_gradient, concrete case in C112_Example).
* `jax_fem/solver.py:1425-1453`, `stress_sensitivity.py:80-83`: `f_bwd` calls `problem.set_params(params)` but everything set on the object outside `set_params` (`dt`, `fe.vals_list`) has its last value when the backward passes of earlier steps run. Boundary values do not matter; a time increment that changes between the steps would make the gradient wrong without notice (C112_stale).
* `jax_fem/basis.py:71` says "6x6x6, full integration" for HEX20, but the order is 2, i.e. 2x2x2 points; the same order is used for QUAD8 (`basis.py:97`). This is reduced integration: stiffness matrices are not exact (C113_serendipity) and every affine cell has a deformation without strain at the points (C113_spurious). `applications/serendipity/example.py` uses these elements with the default order.
* `jax_fem/basis.py:56` asks whether 2x2x2 is full integration for HEX8: yes, for affine cells and constant coefficients (C113_default). The comments "full integration" of TET4, TET10, TRI3 and TRI6 hold for stiffness matrices, not for mass matrices, which are singular with the default order (C113_singular, C113_mass_reduced).
* `applications/convergence_rate/example.py:48` adds the L2 error and the gradient error instead of taking the root of the sum of squares; the result is an equivalent norm, so the printed order is not affected (C114_errors, C114_order).
* `applications/convergence_rate/example.py:24-32` evaluates the L2 error of TET4 with the default one-point rule: it only sees the mean of the four nodal values of each cell and can vanish for wrong nodal values (C114_blind).
* `Problem.print_BC_info` (`problem.py:586-601`) prints the rows of all Dirichlet conditions; where conditions overlap only the last row is enforced, which the report does not say (C115_reading, C115_solver).
* `operator_to_matrix` (`solver.py:379-384`) linearises at zero: for a nonlinear operator the matrix and its condition number are those of the first Newton step from zero, not of the current state (C115_nonlinear).
* The patch test needs conforming meshes: `Mesh` (`generate_mesh.py:13-60`) accepts cells with hanging nodes without a warning, and affine fields then have a residual at the hanging node (C116_hanging).
* `demo_analytical.py:53` always takes the larger of the two load increments. Behind the limit point of its curve (u > 1/2) this leads back towards the limit point instead of along the curve (C117_back); the two steps the script takes stay before it (C117_demo).
* `test_hyper_elasticity.py:63-65` fixes the normal to e_z (a TODO in the code). For the bottom of the body compute_traction therefore returns minus the force on it (C118_traction holds with the same sign on every face).
* `test_plasticity.py:136` starts every load step from zero displacement instead of the previous solution; the relative criterion of the solver is then relative to the misfit of the undisplaced bar (C118_step).
* `test_linear_poisson.py:40-41`: `np.isclose(x, L, atol=1e-5)` adds the default rtol, so the right end catches nodes within 2e-5; with 50000 or more cells along x a second layer of nodes would be prescribed (bound in C119_box).
* `applications/differentiable_mesh/example.py:72-81`: if no node satisfies the mask all distances are inf and argmin returns 0, a corner of the mesh that is fixed by the left condition; the check would then move a Dirichlet node without any message (C120_pick).
* C122: `example_inverse_timing.py:74` prints the Neumann condition as `t=[0, T_LATERAL, 0]` on y=Ly; `surface_map` returns `+T_LATERAL` and the residual *adds* its integral, so the traction is `-T_LATERAL`: the face is pressed, not pulled (the ends carry +0.001 in y, `C122_cube`).
* C122: the floor `max(det F, 1e-14)` in the inverse problem removes the volumetric resistance of inverted cells: below it the stress is proportional to F (`C122_density`), whereas the forward problem (no floor) has no finite real energy there.
* C123: with many nodes at the top (more than 10000) the relative criterion `rel_tol = 1e-8` dominates `tol = 1e-6`: the tolerance of the benchmark grows with the square root of the number of prescribed non-zero values, since the initial residual consists of the prescribed values too (`C123_returned`).
* C124: a node number in `ind_set_right`/`ind_set_top` that does not exist in the mesh is ignored silently: the selection may be empty, and the boundary condition then has no effect (`C124_nodes` and its example).
* C125: the flux `5 u²` of the Robin example does not increase with `u` where `u < 0` (the outward flux stays positive and grows as `u` decreases, so heat is drawn out of the colder side); uniqueness is proved for solutions that are not negative at the sides only (`C125_unique`). The comments of the kernel give `cell_shape_grads` a leading axis `num_vars` that it does not have.

## 7. Seeded edits

Each line of `seeded/LOG.jsonl` is one edit of a model definition (made in a scratch copy), followed by a build.
`failed_directly` lists the declarations with an error; this is what the build reported. `failed` lists the property
theorems that depend on one of them. It is inferred from names occurring in the source text (same last name component,
in a module that imports the failing one), not from the kernel's terms, so it can list a theorem too many. `tightened` is
what was changed because the edit was not noticed by the theorem that should have noticed it.

How far this is evidence (1725 lines): in 844 a property theorem itself has an error; in 836 only helper lemmas have
one and the property theorems follow by the inference above; in 39 everything still proved (see `note`); in 6
no property theorem was reached, neither directly nor by inference (first attempts, repeated after tightening). An error means that the proof as written no longer goes through.
It does not show that the statement became false, and for the 836 lines with helpers only it was not tested whether
the property theorem could be proved in another way. In 6 lines the edit was noticed by another property than the one
predicted in `claim`; for those the predicted claim is not shown to notice it.

## Appendix A: axioms per theorem

<!-- axioms:begin -->
* **propext, Classical.choice, Quot.sound** (698 theorems): `C01_cell_index`, `C01_flatten_position`, `C01_in_range`, `C01_injective`, `C01_row_number`, `C01_surjective`, `C02_batching`, `C02_batching_per_cell`, `C02_empty_mesh_raises`, `C03_local_exists`, `C03_residual_sum`, `C03_untouched_node`, `C04_numbering_exists`, `C04_triplets`, `C05_tangent_is_derivative`, `C06_cell_permutation`, `C06_matrix_order`, `C06_renumber_matrix`, `C06_renumber_residual`, `C06_residual_order`, `C07_locality`, `C07_sparsity`, `C07_symmetry`, `C08_force_balance`, `C09_translation`, `C100_ambiguous`, `C100_difference`, `C100_index`, `C100_linear`, `C100_reachable`, `C100_rectangle`, `C100_source`, `C100_stationary`, `C101_blind`, `C101_control`, `C101_corner`, `C101_difference`, `C101_index`, `C101_minimum`, `C101_set_params`, `C101_triangles`, `C101_weak_form`, `C102_duality`, `C102_file`, `C102_jit`, `C102_jvp`, `C102_nested`, `C102_newton`, `C102_newton_jvp`, `C102_safe_sqrt`, `C102_stack`, `C103_compliance`, `C103_constraints`, `C103_family`, `C103_forward`, `C103_gradient`, `C103_history`, `C103_inspect`, `C103_inspect_lag`, `C103_loads`, `C103_material`, `C103_step`, `C103_structure`, `C103_value`, `C104_angle`, `C104_cells`, `C104_density`, `C104_energy`, `C104_formula`, `C104_gradient`, `C104_hole`, `C104_inside`, `C104_material`, `C104_sensitivity`, `C105_ambiguous`, `C105_difference`, `C105_formula`, `C105_gradient`, `C105_load`, `C105_misfit`, `C105_reference`, `C105_stationary`, `C106_balance`, `C106_boundary`, `C106_check`, `C106_formula`, `C106_gradient`, `C106_mismatch`, `C106_raises`, `C106_script`, `C106_stale`, `C106_wrong_check`, `C107_builds`, `C107_conditions`, `C107_order`, `C107_rows`, `C107_solution`, `C107_wrong_component`, `C107_wrong_component_stalls`, `C108_assertion`, `C108_boundary`, `C108_faces`, `C108_increments_disp`, `C108_increments_force`, `C108_load`, `C108_nodes`, `C108_path_disp`, `C108_path_force`, `C108_result`, `C108_resultant`, `C108_states_disp`, `C108_states_force`, `C108_steps`, `C109_history`, `C109_shear`, `C109_step`, `C10_affine_face_value`, `C10_affine_gradient`, `C10_affine_value`, `C10_coordinates`, `C10_first_order_unity`, `C110_journal`, `C110_times`, `C111_history`, `C111_iterations`, `C111_plate`, `C111_plate_conflict`, `C111_reevaluate`, `C111_repeat`, `C111_scales`, `C111_single_cell`, `C111_start`, `C111_step`, `C111_supports`, `C111_thin_plate`, `C112_balance`, `C112_conditions`, `C112_differentiable`, `C112_first`, `C112_gradient`, `C112_law`, `C112_local`, `C112_rotation`, `C112_schedule`, `C112_singular`, `C112_smooth`, `C112_stale`, `C112_stress_gradient`, `C112_stress_outcome`, `C112_tangent`, `C112_turned`, `C112_value`, `C112_volume`, `C112_volume_gradient`, `C112_volume_outcome`, `C113_arrays`, `C113_default`, `C113_load`, `C113_mass`, `C113_mass_reduced`, `C113_points`, `C113_rule`, `C113_serendipity`, `C113_singular`, `C113_spurious`, `C113_stiffness`, `C114_affine`, `C114_best`, `C114_blind`, `C114_errors`, `C114_exact`, `C114_order`, `C114_script`, `C114_source`, `C114_strang`, `C114_supports`, `C114_zero`, `C115_constrained`, `C115_matrix`, `C115_nonlinear`, `C115_origin`, `C115_raises`, `C115_reading`, `C115_report`, `C115_solver`, `C115_tangent`, `C116_elements`, `C116_generated`, `C116_gradient`, `C116_hanging`, `C116_patch`, `C116_solution`, `C116_study`, `C117_back`, `C117_converges`, `C117_demo`, `C117_mirror`, `C117_pass`, `C117_residual`, `C117_target`, `C118_area`, `C118_average`, `C118_refuses`, `C118_resultant`, `C118_run`, `C118_step`, `C118_surface`, `C118_symmetric`, `C118_traction`, `C118_virial`, `C118_yield`, `C119_benchmark`, `C119_box`, `C119_equilibrium`, `C119_generated`, `C119_solution`, `C11_moment_balance`, `C120_conditions`, `C120_gradient`, `C120_guard`, `C120_manufactured`, `C120_pick`, `C120_poisson`, `C120_refuses`, `C120_regular`, `C120_selection`, `C120_square`, `C120_wellposed`, `C121_box`, `C121_cube`, `C121_cylinder`, `C121_reactions`, `C121_resultant`, `C122_classic`, `C122_cube`, `C122_density`, `C122_forces`, `C122_half`, `C122_inverse`, `C122_moments`, `C123_forces`, `C123_plates`, `C123_returned`, `C124_faces`, `C124_nodes`, `C124_right`, `C124_script`, `C124_top`, `C125_kernels`, `C125_rows`, `C125_sides`, `C125_unique`, `C125_weak`, `C12_edge`, `C12_face`, `C12_quad4_edge_length`, `C12_tet4_face_area`, `C12_tri3_edge_length`, `C13_box`, `C13_rectangle`, `C14_errors`, `C14_selection`, `C14_unique`, `C15_count`, `C15_errors`, `C15_faces`, `C16_assign`, `C16_assign_constants`, `C16_copy`, `C16_prescribed_unique`, `C16_residual`, `C17_derivative`, `C17_rows`, `C17_tangent`, `C18_damped`, `C18_full_steps`, `C18_initial_guess`, `C18_kept`, `C19_compose`, `C19_frame`, `C19_idempotent`, `C20_converged`, `C21_independent`, `C21_linear`, `C22_line_search`, `C22_may_increase`, `C22_nan_counterexample`, `C22_not_worse_partial`, `C22_steps`, `C23_api_never_stale`, `C23_never_stale`, `C24_bad_block`, `C24_documented`, `C24_stable`, `C25_flat_partial`, `C25_unchanged_partial`, `C25_violated_adjoint`, `C26_amgx`, `C28_flat`, `C28_legacy`, `C29_constraint_disp`, `C29_constraint_force`, `C29_corrector`, `C29_failure`, `C30_bc_disp`, `C30_bc_force`, `C31_first_step`, `C31_root_selection`, `C32_displacement`, `C32_force`, `C33_estimate_defined`, `C33_fixed_partial`, `C33_nan_violated`, `C33_result_partial`, `C34_decay`, `C34_exact`, `C34_range`, `C35_converged_partial`, `C35_invalid_start`, `C35_violated`, `C36_converged`, `C36_derivative`, `C36_dirichlet`, `C36_line_search`, `C36_not_closed`, `C36_range`, `C36_solution`, `C36_start`, `C36_start_wrong`, `C37_inds`, `C37_matrix`, `C37_pairing`, `C37_run`, `C38_adjoint`, `C38_adjoint_mpc`, `C38_branch`, `C39_history`, `C39_needs_overwrite`, `C39_two_histories`, `C40_nodal`, `C40_reorder`, `C40_tables`, `C41_cells`, `C41_conforming`, `C41_counterclockwise`, `C41_indices`, `C41_points`, `C41_points_distinct`, `C42_cells`, `C42_conforming`, `C42_indices`, `C42_jacobian`, `C42_points`, `C42_points_distinct`, `C43_cells`, `C44_rejects`, `C44_symmetry`, `C44_values`, `C45_bounds`, `C45_factor`, `C45_start`, `C46_inner`, `C46_line_search`, `C46_start`, `C46_subsolv`, `C46_terminates`, `C47_optimize`, `C47_returns`, `C48_average`, `C48_centroid`, `C48_radius`, `C48_similar`, `C48_too_few`, `C48_units`, `C48_weights`, `C49_adjoint`, `C49_gradient`, `C49_small`, `C50_convert`, `C50_in_place`, `C50_missing`, `C50_newlines`, `C50_no_old_header`, `C51_save`, `C51_succeeds`, `C52_face_table`, `C52_history`, `C52_update`, `C53_degenerate`, `C53_repair`, `C54_admissible`, `C54_elastic`, `C54_elastic_history`, `C54_history`, `C54_moduli`, `C54_plastic`, `C54_projection`, `C54_step`, `C54_symmetric`, `C54_volumetric`, `C55_cauchy`, `C55_history`, `C55_isochoric`, `C55_step`, `C56_row_sum`, `C56_scheme`, `C56_total_mass`, `C57_assembly`, `C57_collective`, `C57_element`, `C57_shape_exists`, `C57_system`, `C58_balanced_partial`, `C58_released_partial`, `C59_single_partial`, `C59_violated`, `C60_frozen`, `C60_newton`, `C60_residual`, `C61_kernels_partial`, `C62_first_order`, `C63_elimination`, `C64_descent`, `C64_kkt`, `C64_lagrangian`, `C64_line_search`, `C64_residual`, `C65_admissible`, `C65_phase`, `C65_response`, `C66_history`, `C66_step`, `C67_energy`, `C68_conforming`, `C68_facet`, `C68_interpolation`, `C68_nodal`, `C68_symmetric`, `C69_derivative`, `C69_face`, `C69_grads`, `C69_serendipity_counterexample`, `C69_tables`, `C69_unity`, `C69_values`, `C70_disp_partial`, `C70_force_partial`, `C70_linear`, `C70_unchecked`, `C71_boundary`, `C71_cells`, `C71_conforming`, `C71_cover`, `C71_disjoint`, `C71_orientation`, `C71_points`, `C72_galerkin`, `C72_weak_form`, `C73_determines`, `C73_hourglass`, `C73_patch`, `C73_patch_solution`, `C73_unique`, `C74_affine`, `C74_patch`, `C74_regular`, `C74_solver`, `C75_cells`, `C75_faces`, `C75_list`, `C75_pack_iff`, `C75_rejected`, `C75_single`, `C75_slice`, `C76_incompressible`, `C76_velocity_unique`, `C76_weak_form`, `C77_energy_step`, `C77_stable`, `C77_weak_form`, `C78_energy`, `C78_stable`, `C78_weak_form`, `C79_enthalpy_run`, `C79_enthalpy_step`, `C79_explicit_defect`, `C79_explicit_step`, `C79_lumped_mass`, `C80_flux_gradient`, `C80_implicit_variation`, `C80_phase_variation`, `C80_reaction_derivative`, `C81_enthalpy`, `C81_eps`, `C81_flux`, `C81_frozen_arrays`, `C81_laplace`, `C81_max_principle`, `C81_stale`, `C81_theta`, `C81_update`, `C81_zero_flux`, `C82_box`, `C82_hourglass`, `C82_monotone`, `C82_rigid`, `C82_solver`, `C82_supports`, `C82_unique`, `C82_unsupported`, `C83_end_to_end`, `C83_loop`, `C83_material`, `C83_residual`, `C84_gradient`, `C84_history`, `C84_mesh_gradient`, `C84_rebuilt`, `C84_residual`, `C84_short`, `C84_smooth`, `C85_dirichlet`, `C85_residual`, `C85_scripts`, `C85_solutions`, `C85_supports`, `C85_weak_form`, `C86_calculus`, `C86_isotropic`, `C86_jvp`, `C86_symmetric`, `C86_well_defined`, `C87_accept`, `C87_constants`, `C87_displacement`, `C87_from_rest`, `C87_history`, `C87_monotone`, `C87_phase_field`, `C87_split`, `C87_stops`, `C87_stress`, `C88_balance`, `C88_energy`, `C88_linear`, `C88_potential`, `C88_smooth`, `C88_stress`, `C88_variants`, `C89_affine`, `C89_average`, `C89_descent`, `C89_elastic`, `C89_equations`, `C89_hardening`, `C89_history`, `C89_jvp`, `C89_newton`, `C89_newton_failures`, `C89_objective`, `C89_reference`, `C89_rotation`, `C89_slip`, `C89_slip_systems`, `C89_smooth`, `C89_stress`, `C89_symmetry`, `C89_time_step`, `C89_trial`, `C89_volume`, `C89_volume_fails`, `C90_box`, `C90_cycle`, `C90_quadratic`, `C90_small_loads`, `C90_solid`, `C91_comparison`, `C91_converges`, `C91_maximum`, `C91_solver`, `C91_stencil`, `C91_stretched`, `C92_bounds`, `C92_cantilever`, `C92_compliance`, `C92_densities`, `C92_expansion`, `C92_filtered`, `C92_gradient`, `C92_load`, `C92_materials`, `C92_monotone`, `C92_objective`, `C92_plane_stress`, `C92_sensitivity`, `C92_set_params`, `C92_solver`, `C92_volume`, `C93_affine`, `C93_gradient`, `C93_hex8_counterexample`, `C93_nodes`, `C93_order`, `C94_discrete`, `C94_energy`, `C94_frame`, `C94_mean`, `C94_plane`, `C94_polar`, `C94_reference`, `C94_sequence`, `C94_stress`, `C94_supports`, `C95_clockwise`, `C95_collective`, `C95_definite`, `C95_discrete_unique`, `C95_gather`, `C95_independent`, `C95_kernel`, `C95_local_mesh`, `C95_newton`, `C95_newton_unique`, `C95_one_point`, `C95_rms`, `C95_run`, `C95_scatter`, `C95_scatter_lost`, `C95_source`, `C95_square`, `C95_system`, `C95_tolerance`, `C96_area`, `C96_batch`, `C96_cases`, `C96_energy`, `C96_fit`, `C96_flat`, `C96_frame`, `C96_hyperelastic`, `C96_initial`, `C96_invariant`, `C96_kink`, `C96_loss`, `C96_moment`, `C96_network`, `C96_poly`, `C96_reference`, `C96_samples`, `C96_svk`, `C96_unfit`, `C97_bar`, `C97_blocks`, `C97_conflict`, `C97_corners`, `C97_dirichlet`, `C97_equilibrium`, `C97_lagrangian`, `C97_linear`, `C97_newton`, `C97_periodic`, `C97_petsc`, `C97_regular`, `C97_residual`, `C97_result`, `C97_singular`, `C97_step`, `C97_symmetric`, `C97_tangent`, `C97_unique`, `C98_collect`, `C98_displacement`, `C98_energy`, `C98_fallback`, `C98_gradient`, `C98_hill`, `C98_internal`, `C98_minimum`, `C98_moduli`, `C98_objective`, `C98_samples`, `C98_singular`, `C98_solver`, `C98_split`, `C98_surrogate`, `C98_traction`, `C99_definite`, `C99_errors`, `C99_feasible`, `C99_forms`, `C99_gradient`, `C99_modes`, `C99_rectangle`, `C99_sensitivity`, `C99_single_cell`, `C99_softmin`, `C99_solver`, `C99_uniform`
* **propext, Quot.sound** (29 theorems): `C01_flatten_unflatten`, `C02_batch_size_pos`, `C02_batches_nonempty`, `C110_decorators`, `C110_failures`, `C110_levels`, `C110_logger`, `C110_result`, `C20_inf_raises`, `C20_nan_raises`, `C20_zero_start`, `C23_inplace_stale`, `C23_moved_stale`, `C28_one`, `C28_several`, `C34_nan`, `C39_tracers_left`, `C40_faces`, `C40_supported`, `C43_dropped`, `C51_dirname`, `C52_exchange_undetected`, `C52_quiet_points`, `C53_empty`, `C56_fixed`, `C56_mask`, `C56_reversible`, `C57_global_dof`, `C61_both`
* **propext** (14 theorems): `C01_unflatten_flatten`, `C110_foreign_handler`, `C24_defaults`, `C25_violated`, `C26_checked`, `C26_nan`, `C28_empty`, `C28_flat_linear_ignored`, `C37_chain`, `C37_repeated`, `C37_row`, `C58_destroy_fails_leak`, `C61_detected`, `C61_gap`
* **none** (6 theorems): `C26_unchecked`, `C27_precond_true_partial`, `C27_violated`, `C32_errors`, `C51_clash`, `C60_inconsistent`
<!-- axioms:end -->
