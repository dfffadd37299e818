{"id": "C01", "title": "DOF numbering is a bijection that agrees with the flattening of the solution list", "statement": "For a problem with any number of variables, each with any number of nodes and components, the global equation number used for (variable, node, component) in the matrix index arrays and in the Dirichlet row list is exactly the position of that component in the flattened solution vector; the map (variable, node, component) -> number is injective and onto [0, num_total_dofs_all_vars); unflattening a flattened solution list returns it unchanged.", "quantifier": "for every list of variables (num_total_nodes, vec), every node, every component, every solution list", "why_tests_cant": "The layout is a function of unboundedly many sizes; tests exercise a handful of meshes with one or two variables and compare solutions, not numbering.", "anchors": ["jax_fem/problem.py:Problem.__post_init__ (offset, find_ind, unflatten_fn_sol_list)", "jax_fem/solver.py:_PetscTangentCache._refresh_bc_rows_if_needed"]}
{"id": "C02", "title": "Batched evaluation of cells equals the unbatched per-cell evaluation", "statement": "Evaluating all cells in at most 20 consecutive batches and stacking the results gives, in order, exactly one result per cell, equal to evaluating the kernel on each cell separately, for values as well as for value/Jacobian pairs. A problem with no cells raises ZeroDivisionError instead of returning.", "quantifier": "for every number of cells (no upper bound) and every kernel", "why_tests_cant": "Batch boundaries depend on num_cells // 20; every residue class and the range below 20 would have to be tested.", "anchors": ["jax_fem/problem.py:Problem.split_and_compute_cell"]}
{"id": "C03", "title": "The residual is the sum of the element and face contributions of the incident cells", "statement": "compute_residual(sol_list)[var][node][comp] equals the sum, over all cells and local nodes whose global node is `node`, of the cell kernel's entry for (var, local node, comp), plus the same sum over all selected faces of all boundary subsets, each (cell, face) occurrence counted once; nodes not touched by any cell get 0.", "quantifier": "for every mesh, every set of variables, every boundary selection, every kernel and every solution", "why_tests_cant": "Quantifies over all connectivities (repeated nodes, unused nodes, several variables with different node counts).", "anchors": ["jax_fem/problem.py:Problem.compute_residual_vars", "jax_fem/problem.py:Problem.compute_residual_vars_helper", "jax_fem/problem.py:Problem.compute_face"]}
{"id": "C04", "title": "The sparse triplets (I, J, V) describe the sum of the element matrices", "statement": "After newton_update the triplet arrays have equal lengths, all indices are valid, and the entry (r, c) of the matrix they describe (duplicates summed) equals the sum over cells and selected faces of the local Jacobian entries whose local row maps to r and whose local column maps to c; rows and columns are never swapped.", "quantifier": "for every mesh, variables, boundary selection and family of (possibly unsymmetric) local Jacobians", "why_tests_cant": "A transposed or misaligned block is invisible on symmetric problems, and alignment depends on all sizes at once.", "anchors": ["jax_fem/problem.py:Problem.__post_init__ (I, J)", "jax_fem/problem.py:Problem.compute_newton_vars"]}
{"id": "C05", "title": "The assembled tangent is the exact derivative of the assembled residual", "statement": "If each local Jacobian returned by the kernels is the derivative of the local residual, then the assembled matrix is the (Frechet) derivative of the flattened global residual with respect to the flattened solution vector, including face terms and coupling between variables.", "quantifier": "for every differentiable family of kernels, mesh, variables and state", "why_tests_cant": "Finite-difference tests check single states and cannot exclude errors in couplings that vanish there.", "anchors": ["jax_fem/problem.py:Problem.compute_newton_vars", "jax_fem/problem.py:Problem.compute_residual_vars", "jax_fem/problem.py:Problem.pre_jit_fns"]}
{"id": "C06", "title": "Assembly does not depend on the order of cells and commutes with renumbering of nodes", "statement": "Permuting the cells together with their data leaves residual and matrix unchanged; renumbering the nodes permutes residual and matrix entries accordingly.", "quantifier": "for every mesh and every permutation", "why_tests_cant": "There are factorially many orders.", "anchors": ["jax_fem/problem.py:Problem.compute_residual_vars_helper", "jax_fem/problem.py:Problem.__post_init__"]}
{"id": "C07", "title": "Tangent sparsity, locality and symmetry", "statement": "A matrix entry coupling two degrees of freedom that share no cell is zero; the residual at a node depends only on the solution at nodes of cells containing it; if every local Jacobian is symmetric the assembled matrix (before row elimination) is symmetric.", "quantifier": "for every mesh, every pair of degrees of freedom, every state", "why_tests_cant": "Quantifies over all pairs and all meshes.", "anchors": ["jax_fem/problem.py:Problem.__post_init__", "jax_fem/problem.py:Problem.compute_newton_vars"]}
{"id": "C08", "title": "Global force balance of the gradient (tensor_map) weak form", "statement": "For a weak form given by get_tensor_map, the sum over all nodes of the unconstrained residual vanishes for every component, whatever the solution, the tensor_map, the internal variables and the mesh; with get_mass_map / get_surface_maps the sum of the residual equals the quadrature integral of the mass_map / surface_map values.", "quantifier": "for every solution, constitutive law, mesh with invertible element Jacobians and internal variables", "why_tests_cant": "A conservation law over all states and all constitutive functions.", "anchors": ["jax_fem/problem.py:Problem.get_laplace_kernel", "jax_fem/problem.py:Problem.get_mass_kernel", "jax_fem/problem.py:Problem.get_surface_kernel", "jax_fem/fe.py:FiniteElement.get_shape_grads"]}
{"id": "C09", "title": "Translation invariance of the gradient weak form", "statement": "Adding one constant vector to the solution at all nodes leaves the tensor_map residual unchanged, for any (nonlinear) tensor_map.", "quantifier": "for every solution, constant, constitutive law and mesh", "why_tests_cant": "Quantifies over all states and functions.", "anchors": ["jax_fem/problem.py:Problem.get_laplace_kernel"]}
{"id": "C10", "title": "Patch test: affine fields are reproduced exactly", "statement": "For every mesh whose element Jacobians are invertible, sol_to_grad of the nodal values of an affine field x -> G x + c is G at every quadrature point of every cell, and convert_from_dof_to_quad of it is the affine field at the physical quadrature points; convert_from_dof_to_quad applied to the coordinates gives the physical quadrature points.", "quantifier": "for every mesh, affine field, cell and quadrature point, for any element whose shape functions sum to one", "why_tests_cant": "Tests check a few distorted meshes.", "anchors": ["jax_fem/fe.py:FiniteElement.get_shape_grads", "jax_fem/fe.py:FiniteElement.sol_to_grad", "jax_fem/fe.py:FiniteElement.convert_from_dof_to_quad", "jax_fem/fe.py:FiniteElement.get_physical_quad_points"]}
{"id": "C11", "title": "Moment balance for symmetric stress", "statement": "If vec = dim and tensor_map always returns a symmetric tensor, the total moment of the internal residual (sum over nodes of x wedge r) vanishes for every solution.", "quantifier": "for every solution, symmetric-stress law and mesh with invertible Jacobians", "why_tests_cant": "Conservation law over all states.", "anchors": ["jax_fem/problem.py:Problem.get_laplace_kernel", "jax_fem/fe.py:FiniteElement.get_shape_grads"]}
{"id": "C12", "title": "Face scaling equals the true surface measure", "statement": "The Nanson factor multiplied by the reference face size is the physical length (2D) or area (3D) of the mapped face when the element is not inverted; for an inverted element it is the negative of it.", "quantifier": "for every invertible Jacobian, every reference face", "why_tests_cant": "Quantifies over all real matrices.", "anchors": ["jax_fem/fe.py:FiniteElement.get_face_shape_grads", "jax_fem/basis.py:get_face_shape_vals_and_grads"]}
{"id": "C13", "title": "Quadrature weights of a structured mesh are positive and sum to the domain measure", "statement": "On rectangle_mesh (and box_mesh) with positive side lengths every JxW is positive and the sum of JxW over all cells and quadrature points is exactly the area (volume) of the domain, when the reference weights are positive and sum to one.", "quantifier": "for every Nx, Ny(, Nz) >= 1, side lengths > 0 and quadrature rule", "why_tests_cant": "Unbounded mesh sizes and arbitrary rules.", "anchors": ["jax_fem/generate_mesh.py:rectangle_mesh", "jax_fem/generate_mesh.py:box_mesh", "jax_fem/fe.py:FiniteElement.get_shape_grads"]}
{"id": "C14", "title": "Dirichlet node selection is exact", "statement": "For each boundary-condition entry the returned node list is the strictly increasing list of exactly those nodes whose location function is true (a 1-argument function gets the point, a 2-argument function the point and the node index), the component list repeats the given component, values are the value function at exactly those points; unequal list lengths raise AssertionError, other argument counts raise ValueError.", "quantifier": "for every point set, location/value functions and list of entries", "why_tests_cant": "Quantifies over all user functions and point sets.", "anchors": ["jax_fem/fe.py:FiniteElement.Dirichlet_boundary_conditions", "jax_fem/fe.py:FiniteElement.update_Dirichlet_boundary_conditions"]}
{"id": "C15", "title": "Surface face selection is exact and the face counter agrees with it", "statement": "A pair (cell, face) is selected for boundary subset k iff all vertices of that face satisfy location function k; pairs are listed once, in increasing (cell, face) order; Mesh.count_selected_faces returns the number of selected pairs for a 1-argument function.", "quantifier": "for every mesh, face table and location function", "why_tests_cant": "Quantifies over all user functions and meshes.", "anchors": ["jax_fem/fe.py:FiniteElement.get_boundary_conditions_inds", "jax_fem/generate_mesh.py:Mesh.count_selected_faces"]}
{"id": "C16", "title": "Row-elimination residual: r = D r_unc + (I - D) u - u_b", "statement": "The residual with boundary conditions keeps the unconstrained residual at free degrees of freedom and equals u - scale*u_b at constrained ones, where u_b is the vector produced by assigning the boundary values; if several entries constrain the same degree of freedom, the last entry wins, and all boundary-condition functions (residual, assign, copy, zero, one) agree on the set and on the winner.", "quantifier": "for every list of (possibly overlapping) entries, residual, solution and scale", "why_tests_cant": "Overlaps and orders are unbounded; tests use disjoint boundaries.", "anchors": ["jax_fem/solver.py:apply_bc_vec", "jax_fem/solver.py:assign_bc", "jax_fem/solver.py:copy_bc", "jax_fem/solver.py:assign_zeros_bc", "jax_fem/solver.py:assign_ones_bc"]}
{"id": "C17", "title": "Row-eliminated matrix is the derivative of the row-eliminated residual", "statement": "The matrix returned by get_A has identity rows at constrained degrees of freedom, the assembled rows elsewhere, and is the derivative of the residual with boundary conditions.", "quantifier": "for every problem, boundary entries and state", "why_tests_cant": "Quantifies over all overlaps, sizes and states.", "anchors": ["jax_fem/solver.py:get_A", "jax_fem/solver.py:_PetscTangentCache.update", "jax_fem/solver.py:apply_bc_vec"]}
{"id": "C18", "title": "One exact Newton step enforces the Dirichlet values, and all later steps keep them", "statement": "For any nonlinear residual and any starting vector, if the linear system is solved exactly then after one full Newton step every constrained degree of freedom has its prescribed value, and remains so after any number of further (full or damped) exact steps; the initial guess handed to the linear solver already satisfies the constrained rows.", "quantifier": "for every residual, tangent, starting vector and number of iterations", "why_tests_cant": "Quantifies over all nonlinear problems and iteration counts.", "anchors": ["jax_fem/solver.py:newton_step", "jax_fem/solver.py:line_search", "jax_fem/solver.py:assign_bc", "jax_fem/solver.py:copy_bc"]}
{"id": "C19", "title": "BC helper functions are projections with a frame condition", "statement": "assign_bc, assign_zeros_bc, assign_ones_bc and copy_bc are idempotent, change only constrained entries (copy_bc: zero the others), keep the length, and compose as expected (assign after assign_zeros equals assign, copy of assign equals assign of zero).", "quantifier": "for every vector and boundary entries", "why_tests_cant": "Quantifies over all vectors and overlaps.", "anchors": ["jax_fem/solver.py:assign_bc", "jax_fem/solver.py:assign_zeros_bc", "jax_fem/solver.py:assign_ones_bc", "jax_fem/solver.py:copy_bc"]}
{"id": "C20", "title": "solver() returns only converged finite states", "statement": "If the Newton solver returns, the returned solution is the one at which the last residual was evaluated, that residual norm is finite, the solution is finite, and the norm is at most tol or at most rel_tol times the initial norm; NaN/Inf residuals never lead to a return; a zero initial residual returns the initial guess after zero iterations.", "quantifier": "for every residual history (including NaN/Inf), tolerances and iteration count", "why_tests_cant": "Partial-correctness over all executions including floating-point specials.", "anchors": ["jax_fem/solver.py:solver"]}
{"id": "C21", "title": "Linear problems converge in one Newton iteration", "statement": "If the residual is affine in the solution with nonsingular row-eliminated matrix and linear solves are exact, the solver performs exactly one step (zero if already converged), and returns the unique solution, independent of the initial guess.", "quantifier": "for every affine problem, initial guess and nonnegative tolerances", "why_tests_cant": "Quantifies over all linear problems and initial guesses.", "anchors": ["jax_fem/solver.py:solver", "jax_fem/solver.py:newton_step"]}
{"id": "C22", "title": "Line search returns one of four steps and never a worse one than the full step", "statement": "line_search returns dofs + alpha*inc with alpha in {1, 1/2, 1/4, 1/8}; the residual norm there is at most that of the full step, and every larger tried step is not better; it is not guaranteed to be at most the current residual.", "quantifier": "for every residual-norm function", "why_tests_cant": "Quantifies over all functions.", "anchors": ["jax_fem/solver.py:line_search"]}
{"id": "C23", "title": "The cached tangent never goes stale", "statement": "After any sequence of boundary-condition updates, value updates and earlier get_A calls, get_A returns the same matrix a freshly built cache would, provided boundary index arrays are replaced and not mutated in place; with in-place mutation the matrix can be stale.", "quantifier": "for every history of updates of any length", "why_tests_cant": "Property of all histories; object identity and aliasing.", "anchors": ["jax_fem/solver.py:_PetscTangentCache", "jax_fem/solver.py:_get_petsc_tangent_cache", "jax_fem/solver.py:get_A", "jax_fem/fe.py:FiniteElement.update_Dirichlet_boundary_conditions"]}
{"id": "C24", "title": "Linear-solver selection is total, documented-default and stable", "statement": "linear_solver picks the first of jax, amgx, spsolve, petsc, custom present in the options and jax with preconditioning if none is present, with the documented parameter defaults; the five documented default spellings are equivalent; repeated calls with the same options object select the same solver.", "quantifier": "for every options dictionary and every sequence of calls", "why_tests_cant": "Quantifies over all dictionaries and call histories; the call mutates its argument.", "anchors": ["jax_fem/solver.py:linear_solver", "jax_fem/solver.py:newton_step"]}
{"id": "C25", "title": "A linear solve does not change the caller's options", "statement": "Calling solver or the gradient of ad_wrapper leaves the options dictionaries passed by the caller unchanged, so that adding another solver key later has the documented effect.", "quantifier": "for every options dictionary and every sequence of calls and edits", "why_tests_cant": "Aliasing over histories.", "anchors": ["jax_fem/solver.py:linear_solver", "jax_fem/solver.py:ad_wrapper"]}
{"id": "C26", "title": "Returned linear solutions have been checked", "statement": "A vector returned by the jax or petsc backend satisfies ||A x - b|| < 0.1 whatever the iterative method did (including NaN); the spsolve, amgx and custom backends give no such guarantee.", "quantifier": "for every backend behaviour (adversarial iterate), matrix and right-hand side", "why_tests_cant": "Quantifies over all behaviours of the iterative method.", "anchors": ["jax_fem/solver.py:jax_solve", "jax_fem/solver.py:petsc_solve", "jax_fem/solver.py:scipy_spsolve", "jax_fem/solver.py:AMGX_solve"]}
{"id": "C27", "title": "jax_solver option precond=False solves without a preconditioner", "statement": "With {'jax_solver': {'precond': False}} the iterative method is called without a preconditioner (the documented meaning of the flag).", "quantifier": "for every matrix and right-hand side", "why_tests_cant": "Requires reasoning about what is passed for every input; the default hides it.", "anchors": ["jax_fem/solver.py:jax_solve"]}
{"id": "C28", "title": "solver_options resolution", "statement": "With no method key the flat dictionary is interpreted as Newton with the Newton keys at top level and the linear keys nested under 'linear'; exactly one method key selects that method with its own dictionary; several method keys or a non-dictionary block raise ValueError; None and {} mean Newton with defaults; no recognised key is lost; and the legacy flat form is equivalent to the documented nested form.", "quantifier": "for every options dictionary", "why_tests_cant": "Quantifies over all dictionaries (all subsets of keys and unknown keys).", "anchors": ["jax_fem/solver.py:_resolve_solver_options", "jax_fem/solver.py:solver"]}
{"id": "C29", "title": "Arc-length constraint holds exactly after every corrector iteration", "statement": "Whenever an arc-length corrector iteration completes without assertion failure, the increment (Delta u, Delta lambda) from the last continuation point satisfies ||Delta u||^2 + psi^2 Delta lambda^2 ||w||^2 = Delta_l^2 (w the boundary or load vector), in displacement and in force control, for any number of iterations.", "quantifier": "for every problem, state, step size and iteration count (exact arithmetic)", "why_tests_cant": "Invariant over all iterations and problems.", "anchors": ["jax_fem/solver.py:arc_length_solver_disp_driven", "jax_fem/solver.py:arc_length_solver_force_driven"]}
{"id": "C30", "title": "Displacement-controlled arc length keeps boundary values proportional to lambda", "statement": "With exact linear solves, after every corrector iteration each constrained degree of freedom equals lambda times its prescribed value; in force control it equals the prescribed value itself.", "quantifier": "for every problem, state and iteration count", "why_tests_cant": "Invariant over iterations.", "anchors": ["jax_fem/solver.py:arc_length_solver_disp_driven", "jax_fem/solver.py:arc_length_solver_force_driven"]}
{"id": "C31", "title": "Arc-length root selection moves forward", "statement": "The chosen root is the one whose increment has the larger inner product with the previous direction; only when both products are negligible the larger lambda increment is chosen; in particular the first step from rest increases lambda by at least as much as the alternative.", "quantifier": "for every pair of roots and previous direction", "why_tests_cant": "Quantifies over reals.", "anchors": ["jax_fem/solver.py:arc_length_solver_disp_driven"]}
{"id": "C32", "title": "Arc-length continuation bookkeeping", "statement": "The history has one record per performed step numbered 0,1,2,..., at most max_continuation_steps, the step callback is called once per record in order; the run stops at the first step with lambda >= 1; 'polished' is true iff the last lambda is >= 1, in that case the result is a Newton solution started from the last point, otherwise the last continuation point is returned; in force control the step length is Delta_l before Delta_l_switch_step and Delta_l_late from it on; a missing/unknown control or missing q_vec_aux raises ValueError.", "quantifier": "for every corrector behaviour, configuration and number of steps", "why_tests_cant": "Quantifies over all runs.", "anchors": ["jax_fem/solver.py:_solve_arc_length_disp", "jax_fem/solver.py:_solve_arc_length_force", "jax_fem/solver.py:_finish_arc_length", "jax_fem/solver.py:_solve_arc_length"]}
{"id": "C33", "title": "Dynamic relaxation never moves constrained degrees of freedom", "statement": "During dynamic relaxation the velocity of constrained degrees of freedom is zero in every iteration, so their values stay equal to the initial (prescribed) values in the returned solution, for any residual function, tangent refresh and damping history.", "quantifier": "for every residual, number of iterations and refresh schedule", "why_tests_cant": "Invariant over all iterations.", "anchors": ["jax_fem/solver.py:dynamic_relax_solve"]}
{"id": "C34", "title": "Dynamic-relaxation damping stays in the stable range", "statement": "The damping coefficient is always within [1e-3, 3.9] even for NaN-free negative or huge estimates, so the velocity factor (2-ch)/(2+ch) lies strictly inside (-1, 1) and with zero residual velocities decay geometrically.", "quantifier": "for every damping estimate and iteration", "why_tests_cant": "Quantifies over reals and iterations.", "anchors": ["jax_fem/solver.py:calC", "jax_fem/solver.py:dynamic_relax_solve"]}
{"id": "C35", "title": "Dynamic relaxation returns only converged states", "statement": "If dynamic relaxation returns, the returned solution's largest free residual is at most tol.", "quantifier": "for every residual history (including NaN)", "why_tests_cant": "Needs all executions including floating-point specials.", "anchors": ["jax_fem/solver.py:dynamic_relax_solve"]}
{"id": "C36", "title": "Multi-point constraints: the reduced system is the exact reduction", "statement": "With a P_mat, the reduced residual is P^T r(P u_hat) and the reduced matrix P^T A P is its derivative; the returned full solution lies in the range of P (slaves equal masters); Dirichlet values are enforced at every constrained degree of freedom provided the constrained set is closed under the periodic pairing with equal values.", "quantifier": "for every P, residual, boundary entries and state", "why_tests_cant": "Quantifies over all constraint matrices.", "anchors": ["jax_fem/solver.py:solver", "jax_fem/solver.py:get_A", "jax_fem/solver.py:newton_step"]}
{"id": "C37", "title": "Periodic projection matrix", "statement": "The matrix built from location/mapping pairs has exactly one 1 per row, a slave's row equals its master's row, independent nodes have distinct columns, and every column is used, provided no master is itself a slave and no slave is listed twice.", "quantifier": "for every list of pairs and every mesh size", "why_tests_cant": "Quantifies over all pairings.", "anchors": ["applications/periodic_bc/example.py:periodic_boundary_conditions"]}
{"id": "C38", "title": "Implicit differentiation returns the exact adjoint gradient", "statement": "If the residual with boundary conditions c(u,p) is differentiable with invertible derivative in u and u(p) solves c(u(p),p)=0, then for every cotangent v the vector returned by the custom vjp equals the derivative of p -> <v, u(p)>, also with multipoint constraints.", "quantifier": "for every differentiable problem, parameter and cotangent", "why_tests_cant": "Finite-difference tests check single directions of single problems.", "anchors": ["jax_fem/solver.py:implicit_vjp", "jax_fem/solver.py:ad_wrapper"]}
{"id": "C39", "title": "Forward prediction is a function of its parameters", "statement": "fwd_pred(params) and its backward pass depend only on params (and the fixed options), not on how often or in which order forward and backward passes were called before, provided set_params overwrites everything the residual reads.", "quantifier": "for every interleaving of forward and backward calls", "why_tests_cant": "History quantification.", "anchors": ["jax_fem/solver.py:ad_wrapper", "jax_fem/solver.py:implicit_vjp", "jax_fem/problem.py:Problem.set_params"]}
{"id": "C40", "title": "Element node reordering tables are consistent", "statement": "For each supported element type the re_order table is a permutation; reorder_inds returns, for every index, the position at which the table holds it; so face vertex lists expressed in mesh numbering name the same geometric vertices as in the reference element, and each mesh node gets the shape function of its own reference location.", "quantifier": "for every permutation table and index array; for every supported element type", "why_tests_cant": "General statement about all tables; an error shows up only on unsymmetric geometry.", "anchors": ["jax_fem/basis.py:get_elements", "jax_fem/basis.py:reorder_inds", "jax_fem/basis.py:get_shape_vals_and_grads", "jax_fem/basis.py:get_face_shape_vals_and_grads"]}
{"id": "C41", "title": "Structured rectangle mesh is a correct conforming mesh", "statement": "rectangle_mesh(Nx, Ny, Lx, Ly) has (Nx+1)(Ny+1) distinct points and Nx*Ny cells; node i*(Ny+1)+j is at (i Lx/Nx, j Ly/Ny); each cell lists the four corners of one grid square counterclockwise, each square exactly once; every index is valid, every node is used when Nx,Ny >= 1, and two cells share an edge iff their squares are adjacent.", "quantifier": "for every Nx, Ny and side lengths", "why_tests_cant": "Unbounded sizes.", "anchors": ["jax_fem/generate_mesh.py:rectangle_mesh"]}
{"id": "C42", "title": "Structured box mesh is a correct conforming mesh", "statement": "box_mesh(Nx, Ny, Nz, ...) has (Nx+1)(Ny+1)(Nz+1) distinct points and Nx*Ny*Nz cells, node numbering (i(Ny+1)+j)(Nz+1)+k, each grid cube exactly once in HEX8 order with positive Jacobian, valid indices, no unused node.", "quantifier": "for every Nx, Ny, Nz and side lengths", "why_tests_cant": "Unbounded sizes.", "anchors": ["jax_fem/generate_mesh.py:box_mesh"]}
{"id": "C43", "title": "Cylinder mesh clean-up keeps every cell's geometry", "statement": "Dropping points 0 and 14 and shifting the connectivity leaves every cell with the same vertex coordinates as before, provided no cell references the two dropped points.", "quantifier": "for every point list and connectivity", "why_tests_cant": "Depends on the external mesher's numbering; arbitrary input.", "anchors": ["jax_fem/generate_mesh.py:cylinder_mesh_gmsh"]}
{"id": "C44", "title": "TET4 orientation check", "statement": "check_mesh_TET4 returns, for each cell, a number whose sign is the orientation of the tetrahedron (six times its signed volume, i.e. the determinant of the element Jacobian used for integration); swapping two vertices flips it, translating the mesh leaves it.", "quantifier": "for every tetrahedron", "why_tests_cant": "Quantifies over reals.", "anchors": ["jax_fem/generate_mesh.py:check_mesh_TET4", "jax_fem/fe.py:FiniteElement.get_shape_grads"]}
{"id": "C45", "title": "MMA asymptotes and subproblem bounds are ordered", "statement": "In every call of mmasub with xmin < xmax, positive move limit and current point within bounds: low < x < upp, xmin <= alfa <= x <= beta <= xmax, alfa < beta, low < alfa, beta < upp and the bounds lie within the move limit, for any history of iterates.", "quantifier": "for every history of iterates, gradients and bounds", "why_tests_cant": "Invariant over optimisation histories.", "anchors": ["jax_fem/mma.py:MMA.mmasub"]}
{"id": "C46", "title": "MMA subproblem solver keeps strict feasibility of bounds and positivity of multipliers", "statement": "Throughout subsolv the iterate stays strictly between alfa and beta and all slack and dual variables stay positive, whatever the Newton directions are (even garbage from an ill-conditioned solve), for any number of inner iterations and step halvings.", "quantifier": "for every sequence of search directions and iterations", "why_tests_cant": "Invariant over all executions with adversarial linear algebra.", "anchors": ["jax_fem/mma.py:subsolv"]}
{"id": "C47", "title": "optimize keeps densities within [0,1] and within the move limit", "statement": "Starting from densities in [0,1], every iterate passed to the objective and the returned densities lie in [0,1], consecutive iterates differ by at most the move limit, objective and constraint handles are called exactly maxIters times with iteration numbers 1..maxIters, and the two previous iterates used for the asymptotes are the true previous iterates.", "quantifier": "for every objective/constraint functions, initial densities and iteration count", "why_tests_cant": "Invariant over the optimisation run.", "anchors": ["jax_fem/mma.py:optimize", "jax_fem/mma.py:MMA.registerMMAIter"]}
{"id": "C48", "title": "Density filter is an averaging operator", "statement": "applyDensityFilter maps a constant field to itself and keeps values between the minimum and maximum of the input; with fewer than 20 design cells the neighbour search yields out-of-range indices and the filter cannot be built. The centroid of a cell lies between any bounds of its nodes; scaling and moving the mesh carries the centroids along and multiplies their distances by the factor; radius and weights scale with the unit of length, so that the filtered density does not depend on it.", "quantifier": "for every geometry (distances) and density field", "why_tests_cant": "Quantifies over all geometries and fields.", "anchors": ["jax_fem/mma.py:compute_filter_kd_tree", "jax_fem/mma.py:applyDensityFilter"]}
{"id": "C49", "title": "Sensitivity filter is the transpose of the density filter for densities at least 1e-3", "statement": "For a symmetric weight matrix and rho >= 1e-3, applySensitivityFilter(dJ) is the gradient of J composed with the density filter (adjoint identity); for smaller densities the sensitivity is scaled down.", "quantifier": "for every symmetric weight matrix, density and gradient", "why_tests_cant": "Algebraic identity over all inputs.", "anchors": ["jax_fem/mma.py:applySensitivityFilter", "jax_fem/mma.py:applyDensityFilter"]}
{"id": "C50", "title": "VTU header conversion", "statement": "modify_vtu_file writes to the output path the input text, with line endings normalised to newline by text mode, with every occurrence of the version-2.2 header replaced by the version-1.0 header and nothing else changed, and leaves the input file unchanged when the paths differ; converting a file onto itself is destructive (the file ends up empty).", "quantifier": "for every file content, every line structure and every pair of paths", "why_tests_cant": "Quantifies over all texts and both aliasing cases.", "anchors": ["jax_fem/utils.py:modify_vtu_file"]}
{"id": "C51", "title": "save_sol validates before writing", "statement": "save_sol either raises and changes no file, or writes the solution file with exactly the given mesh, the solution under 'sol' and all named fields in single precision (the last field given under a name wins, so a point field named 'sol' replaces the solution) and changes no other file; it raises when a cell field does not have shape (num_cells,), when a point field has a length different from the solution, when the element type is unsupported and when the file name has no directory part.", "quantifier": "for every element type, fields and file name", "why_tests_cant": "Error branches over all inputs.", "anchors": ["jax_fem/utils.py:save_sol", "jax_fem/generate_mesh.py:get_meshio_cell_type"]}
{"id": "C52", "title": "Incremental boundary tracking of element activation", "statement": "In the quiet-element tools, after any monotone sequence of activation updates the tracked external faces are exactly the faces that belong to exactly one active cell, and the face truth table and the quiet-point set agree with that; the incremental result equals the one computed from scratch.", "quantifier": "for every mesh, every activation history of any length", "why_tests_cant": "History quantification.", "anchors": ["applications/quiet_element/example.py:initialize_hash_map", "applications/quiet_element/example.py:update_hash_map", "applications/quiet_element/example.py:get_active_face_truth_tab"]}
{"id": "C53", "title": "Triangle orientation repair", "statement": "After transform_cells every triangle is counterclockwise if it was not degenerate, has the same vertex set and, for TRI6, each mid-side node still lies on the same edge.", "quantifier": "for every triangle mesh", "why_tests_cant": "Quantifies over all meshes.", "anchors": ["applications/wave/example.py:transform_cells", "applications/stokes/example.py:transform_cells"]}
{"id": "C54", "title": "Small-strain plasticity return mapping stays admissible for every load history", "statement": "After any number of load steps the stored stress satisfies the yield condition, elastic steps are unaffected by the return mapping, a step beyond yield ends on the yield surface at the closest admissible stress, and the volumetric stress is never changed by the return mapping.", "quantifier": "for every strain history of any length", "why_tests_cant": "Invariant over histories.", "anchors": ["tests/benchmarks/plasticity/test_plasticity.py"]}
{"id": "C55", "title": "Finite-strain plasticity return mapping is consistent", "statement": "For positive material constants and deformations of positive volume, after any load history the deviatoric Kirchhoff stress satisfies the hardening yield condition, with equality after plastic steps, and the accumulated plastic strain never decreases.", "quantifier": "for every deformation history of any length", "why_tests_cant": "Invariant over histories.", "anchors": ["applications/finite_plasticity/model.py"]}
{"id": "C56", "title": "Explicit dynamics keeps fixed degrees of freedom and lumped mass", "statement": "In the explicit dynamics example fixed degrees of freedom keep their value for all time steps once the initial field respects them, the lumped mass matrix has the total mass of the consistent one, and the scheme is time-reversible.", "quantifier": "for every internal force function and number of steps", "why_tests_cant": "Invariant over histories.", "anchors": ["applications/explicit_dynamics/example.py"]}
{"id": "C57", "title": "Partitioned assembly equals serial assembly", "statement": "Assembling the element contributions of any partition of the cells over any number of ranks, in any order, gives the serially assembled matrix and vector.", "quantifier": "for every partition, rank count and interleaving", "why_tests_cant": "Schedule quantification.", "anchors": ["applications/parallel/example.py"]}
{"id": "C58", "title": "AMGX resources are released exactly once on every path", "statement": "Whatever call fails during the AMGX solve, every created object is destroyed exactly once, in reverse order of creation, nothing that was not created is destroyed, and the error is propagated.", "quantifier": "for every failure point", "why_tests_cant": "Crash-point quantification.", "anchors": ["jax_fem/solver.py:AMGX_solve_host", "jax_fem/solver.py:AMGX_solve"]}
{"id": "C59", "title": "Dynamic relaxation supports multi-variable problems", "statement": "The sparse matrix assembled for dynamic relaxation has one row and column per degree of freedom of all variables.", "quantifier": "for every list of variables", "why_tests_cant": "Quantifies over variables; all tests use one variable.", "anchors": ["jax_fem/solver.py:assembleCSR"]}
{"id": "C60", "title": "Compiled kernels see current internal variables", "statement": "compute_residual always uses the current internal variables, whatever was set before; data read by a user kernel from attributes of the problem object is frozen at the first evaluation with given shapes.", "quantifier": "for every history of parameter updates and evaluations", "why_tests_cant": "History quantification over compilation caches.", "anchors": ["jax_fem/problem.py:Problem.pre_jit_fns", "jax_fem/problem.py:Problem.compute_residual", "jax_fem/problem.py:Problem.set_params"]}
{"id": "C61", "title": "Missing surface-integral definitions are detected at construction", "statement": "Constructing a problem succeeds only if for every boundary subset all surface kernels that will be evaluated exist.", "quantifier": "for every combination of user definitions and number of boundary subsets", "why_tests_cant": "Decision logic over all combinations.", "anchors": ["jax_fem/problem.py:Problem.pre_jit_fns"]}
{"id": "C62", "title": "MMA subproblem is a first-order exact convex approximation", "statement": "In every call of mmasub with xmin < xmax, all coefficients p0, q0, P, Q are positive, the approximated constraints minus b have the given constraint values at the current point, and the partial derivatives of the approximated objective and constraints at the current point equal the given gradients.", "quantifier": "all numbers of variables and constraints, all iterates, gradients, constraint values and histories", "why_tests_cant": "A wrong sign or a swapped distance only changes the approximation slightly for particular gradients and histories; sampled runs of the optimiser would still converge.", "anchors": ["jax_fem/mma.py:MMA.mmasub"]}
{"id": "C63", "title": "MMA Newton directions solve the full perturbed optimality system", "statement": "If numpy.linalg.solve solves the condensed system, then in both branches (fewer constraints than variables or not) the nine groups of directions computed by subsolv satisfy the linearised perturbed optimality conditions.", "quantifier": "all interior points, all subproblem data with positive coefficients, both branches", "why_tests_cant": "Block elimination errors show up only in badly conditioned or unusual shapes (m >= n is almost never run); the line search hides wrong directions.", "anchors": ["jax_fem/mma.py:subsolv"]}
{"id": "C64", "title": "MMA subproblem result satisfies the optimality conditions unless iterations ran out", "statement": "The stopping test of subsolv bounds exactly the residuals of the optimality conditions of the subproblem; the returned point satisfies them to 0.9e-6 (complementarity within 0.9e-6 of 1e-6), or the last inner loop used its 200 iterations.", "quantifier": "all subproblems, all linear solvers", "why_tests_cant": "Requires reasoning over every execution of three nested loops.", "anchors": ["jax_fem/mma.py:subsolv"]}
{"id": "C65", "title": "Thermo-mechanical example: admissible stress and phase history", "statement": "In the thermo-mechanical example the stored stress satisfies the yield condition after any history of temperatures and displacements; the material is still powder exactly if the melting temperature was never exceeded, and solid exactly if the temperature fell below the melting temperature some time after exceeding it.", "quantifier": "for every temperature and displacement history of any length", "why_tests_cant": "Invariant over histories.", "anchors": ["applications/thermal_mechanical/example.py:Plasticity.get_maps", "applications/thermal_mechanical/example.py:Plasticity.update_dT_and_phase"]}
{"id": "C66", "title": "Finite-strain plasticity is frame indifferent", "statement": "Superposing an arbitrary sequence of rotations on a deformation history rotates the stored elastic deformation and the stress and leaves the plastic strain unchanged.", "quantifier": "for every deformation history of any length and every sequence of rotations", "why_tests_cant": "Quantifies over all histories and all rotation sequences; tests use uniaxial loading without rotation.", "anchors": ["applications/finite_plasticity/model.py:Plasticity.get_maps"]}
{"id": "C67", "title": "The explicit scheme conserves a discrete energy", "statement": "For every symmetric linear internal force the central difference scheme of the explicit dynamics example conserves the discrete energy (kinetic energy at half steps plus the mixed strain energy of successive states) exactly, for every number of steps.", "quantifier": "for every symmetric stiffness, lumped mass, time step and number of steps", "why_tests_cant": "Invariant over runs of any length and over all matrices.", "anchors": ["applications/explicit_dynamics/example.py"]}
{"id": "C68", "title": "Element functions on facets: trace, nodality and conformity", "statement": "For every Lagrange element type, the function of a node that lies on a facet restricts to the facet's own Lagrange function for that position and the functions of all other nodes vanish on the facet; functions are one at their own node and zero at the others; hence fields on two cells that share the nodes of a facet agree at every point of the facet, whatever the relative orientation of the two cells.", "quantifier": "for all Lagrange element types, facets, facet points, nodal values, and all vertex matchings between the two sides", "why_tests_cant": "Tests sample a few quadrature points and one mesh; the claim covers all points of a facet and all relative orientations.", "anchors": ["jax_fem/basis.py:get_face_shape_vals_and_grads", "jax_fem/basis.py:get_shape_vals_and_grads", "jax_fem/basis.py:get_elements"]}
{"id": "C69", "title": "Polynomial completeness of the element functions", "statement": "For each of the nine element types the tabulated values and gradients reproduce every polynomial of the degree of the element (degree one for the serendipity elements) from its values at the mesh nodes, at every point; the gradients are the derivatives of the values; every element is a partition of unity in cells and on faces. The serendipity elements do not reproduce quadratics and their edge functions are not nodal.", "quantifier": "for all element types, polynomials, points, quadrature points and weights", "why_tests_cant": "Infinitely many polynomials and points; a wrong node order can pass symmetric tests.", "anchors": ["jax_fem/basis.py:get_shape_vals_and_grads", "jax_fem/basis.py:get_face_shape_vals_and_grads", "jax_fem/basis.py:get_elements"]}
{"id": "C70", "title": "Arc-length correctors return states on the equilibrium path", "statement": "If an arc-length corrector returns, the returned state (u, lambda) lies on the arc, satisfies the boundary conditions at its load factor, and its out-of-balance vector is within the tolerance; for affine residuals it is exactly in equilibrium at its load factor, in displacement and in force control.", "quantifier": "for every problem, step length, start state and number of iterations (exact linear solves)", "why_tests_cant": "Quantifies over all problems and iteration histories; the unchecked last correction only matters for strongly nonlinear cases.", "anchors": ["jax_fem/solver.py:arc_length_solver_disp_driven", "jax_fem/solver.py:arc_length_solver_force_driven"]}
{"id": "C71", "title": "Triangle mesh of the parallel example is a conforming mesh of the rectangle", "statement": "unit_square_triangle_mesh(nx, ny, lower, upper) has (nx+1)(ny+1) vertices at the grid points and 2 nx ny pairwise different counterclockwise triangles of equal area whose interiors are disjoint and which cover the rectangle; every edge is shared with exactly one triangle on its other side or lies on a side of the rectangle; on the unit square the coordinate test of the Dirichlet condition selects exactly the boundary vertices if the tolerance does not exceed the grid spacing.", "quantifier": "for all numbers of cells nx, ny and all rectangles", "why_tests_cant": "All grid sizes; covering and disjointness quantify over all points.", "anchors": ["applications/parallel/example.py:unit_square_triangle_mesh", "applications/parallel/example.py:main"]}
{"id": "C72", "title": "The assembled residual is the weak form", "statement": "For a problem of one variable with a tensor map, an optional mass map and surface maps, compute_residual succeeds and, tested with any nodal field v, gives the virtual work: the quadrature of sigma(grad u):grad v plus m(u,x).v over the cells plus s(u,x).v over the selected faces, with gradients taken in physical coordinates. Hence the residual vanishes at the free degrees of freedom if and only if the virtual work vanishes for every test field that is zero at the constrained ones.", "quantifier": "for all meshes, elements, maps (nonlinear included), solutions and test fields", "why_tests_cant": "Tests compare single assembled vectors; the identity is for every test field, mesh and constitutive law.", "anchors": ["jax_fem/problem.py:compute_residual", "jax_fem/problem.py:get_laplace_kernel", "jax_fem/problem.py:get_mass_kernel", "jax_fem/problem.py:get_surface_kernel"]}
{"id": "C73", "title": "Uniqueness of discrete solutions and the patch test", "statement": "With a strictly monotone tensor map, monotone mass and surface maps, positive measures, quadrature points that determine gradients (any rule for TRI3 and TET4, two distinct points for QUAD4, a 2x2 product in two coordinates for HEX8; not one point for QUAD4) and every node connected through cells with a constrained one, two arrays with zero residual at the free and equal values at the constrained degrees of freedom are equal. On rectangle_mesh the nodal values of an affine field have zero residual at interior nodes for every homogeneous law, and with affine boundary values and a strictly monotone law they are the only such array.", "quantifier": "for all meshes, laws, solutions; for all grid sizes and side lengths", "why_tests_cant": "Uniqueness quantifies over all arrays; tests only exhibit one solution.", "anchors": ["jax_fem/problem.py:compute_residual", "jax_fem/fe.py:get_shape_grads", "jax_fem/generate_mesh.py:rectangle_mesh"]}
{"id": "C74", "title": "Linear monotone problems are solved by the Newton solver", "statement": "If all maps are affine in the solution the flattened residual is T u - f; under the conditions of C73 the tangent with eliminated Dirichlet rows is nonsingular, the boundary value problem has exactly one solution, and solver (exact linear solver, zero tolerance, with or without line search) returns it from every initial guess after at most one Newton step. On rectangle_mesh with affine boundary values it returns the affine field.", "quantifier": "for all problems with affine maps, all boundary conditions, initial guesses and line search settings", "why_tests_cant": "Regularity of the eliminated system for every mesh and boundary condition is not a finite check.", "anchors": ["jax_fem/solver.py:solver", "jax_fem/solver.py:apply_bc_vec", "jax_fem/problem.py:compute_residual"]}
{"id": "C75", "title": "Problems with several variables are put together per variable", "statement": "With one mesh, Problem accepts exactly single-valued arguments and builds one FiniteElement from them. With a list of meshes it builds one FiniteElement per mesh, the i-th from the i-th entries of vec, ele_type and dirichlet_bc_info and from the i-th or the shared quadrature arguments; it raises if the list is empty, a list is too short, an element type is unknown, ele_type is a single string or dirichlet_bc_info is a single triple; surplus entries are ignored. The packed geometry exists exactly when all variables have as many cells and quadrature points (and face points if there are boundary subsets); in it the block of variable i between its two entries of num_nodes_cumsum holds that variable's own physical gradients, measures and face data, and the points are those of variable 0.", "quantifier": "for all argument combinations, variables, meshes, cells, faces and quadrature points", "why_tests_cant": "A wrong offset or a wrong variable's measure only shows for variables with different elements; tests use few combinations.", "anchors": ["jax_fem/problem.py:__post_init__", "jax_fem/problem.py:initialize_geometric_quantities"]}
{"id": "C76", "title": "The mixed Stokes kernel assembles the Stokes form", "statement": "The residual of the two-variable kernel tested with (v, r) is the sum over cells and quadrature points of grad u : grad v + p div v with the velocity measure plus r div u with the pressure measure, each field interpolated with its own element. Where no pressure is prescribed a solution is discretely divergence free. With positive equal measures two solutions with the same prescribed values have the same velocity gradient at every quadrature point.", "quantifier": "for all meshes, element pairs, states and test fields", "why_tests_cant": "A swapped slice or component can cancel in symmetric examples; the identity is for all states and test fields.", "anchors": ["applications/stokes/example.py:get_universal_kernel", "jax_fem/problem.py:compute_residual"]}
{"id": "C77", "title": "The wave scheme is unconditionally stable", "statement": "The residual of a step is the weak form c^2 dt^2 grad u . grad w + (u - 2 u1 + u2) w. If a step is solved exactly with unchanged prescribed values, the energy 1/2 |u - u1|^2 + 1/2 c^2 dt^2 |grad u|^2 decreases by exactly 1/2 |u - 2 u1 + u2|^2 + 1/2 c^2 dt^2 |grad (u - u1)|^2, so in a run with fixed boundary values it never exceeds its value after the first step, for every dt.", "quantifier": "for all meshes with positive measures, c, dt, runs and numbers of steps", "why_tests_cant": "Stability over all step sizes and numbers of steps is not a finite check.", "anchors": ["applications/wave/example.py:get_universal_kernel", "applications/wave/example.py:main_fns"]}
{"id": "C78", "title": "The thermoelastic step never gains free energy", "statement": "The residual of a step of the fully coupled problem is the weak form of momentum balance with stress lambda tr(eps) I + 2 mu eps - kappa T I and of the heat equation with the coupling kappa T0 tr(d eps)/dt. If a step is solved exactly, prescribed displacements are unchanged and prescribed temperatures equal theta, the free energy 1/2 eps:C:eps + C/(2 T0)(T - theta)^2 - kappa theta tr(eps) does not grow; in a run it never grows for any positive step sizes.", "quantifier": "for all meshes with positive measures, states, step sizes, runs and admissible materials", "why_tests_cant": "The sign of the two coupling terms decides between decay and growth over all runs.", "anchors": ["applications/thermal_mechanical_full/example.py:get_universal_kernel", "applications/thermal_mechanical_full/example.py:set_params"]}
{"id": "C79", "title": "Enthalpy in the dendrite scripts", "statement": "Semi-implicit script, no Dirichlet conditions: after an exactly solved step, and hence along every run, the total enthalpy, the integral of T - K p, is unchanged, whatever the noise and the anisotropy. Explicit script: the row sums of the assembled mass matrix are tau/dt and 1/dt times the integrals of the shape functions, and one step changes the total enthalpy by exactly -(K a dt/tau) times the integral of p (1-p) chi, because the noise term is missing from the latent heat.", "quantifier": "for all two-variable meshes with shape functions forming a partition of unity, states, noise, parameters and numbers of steps", "why_tests_cant": "A conservation law over all states and runs; the defect of the explicit script is small for the shipped noise amplitude and is not visible in a picture.", "anchors": ["applications/dendrite/implicit_fem/example.py:get_universal_kernel", "applications/dendrite/explicit_fem/example.py:get_mass", "applications/dendrite/explicit_fem/example.py:explicit_euler"]}
{"id": "C80", "title": "The dendrite kernels are variations of a free energy", "statement": "For an integer number J of branches the flux computed from arctan2, eps and its derivative is the gradient of 1/2 eps(theta)^2 |g|^2 at every g, including the branch cut of arctan2 and g = 0; reaction and noise are derivatives of the tilted double well and of the noise potential; the assembled phase residual tested with w is the derivative of the discrete free energy in direction w, for the explicit script at every state and for the semi-implicit script at the old state.", "quantifier": "for all integer J, parameters, gradients, states, meshes and test fields", "why_tests_cant": "The branch cut and the zero gradient are sets of measure zero that random tests miss; a sign error in eps*eps' only tilts the picture.", "anchors": ["applications/dendrite/implicit_fem/example.py:safe_arctan2", "applications/dendrite/implicit_fem/example.py:get_universal_kernel", "applications/dendrite/explicit_fem/example.py:get_universal_kernel"]}
{"id": "C81", "title": "Finite-difference dendrite script", "statement": "get_theta is the polar angle in [0, 2 pi) of every nonzero gradient and get_eps returns eps and its derivative (with the sign of delta opposite to the finite-element scripts for J = 2 mod 4); laplace sums to zero over the grid and is symmetric negative (discrete Green identity); T_field changes the sum of T by exactly K times the sum of the phase increments and, for a stable step and no phase change, keeps T within its old bounds; phase_field adds at every point the central-difference divergence of eps eps' (-p_y, p_x), the gradient of eps^2 times the gradient of p, eps^2 times the Laplacian, reaction and noise, and eps^2 q + eps eps' (-q_y, q_x) is the derivative of the anisotropic energy for an integer number of arms; zero_flux_BC copies the nearest inner value to every edge and corner point. In every pass after the first the phase is advanced with the gradient of eps^2 of the initial phase, because jitted phase_field reads eps2_x, eps2_y from the enclosing function; the exact error of the update is given.", "quantifier": "for all grid sizes, arrays, steps, parameters and numbers of passes", "why_tests_cant": "The stale constants only tilt the anisotropy term and the run still produces a dendrite; conservation and bounds are claims over all arrays.", "anchors": ["applications/dendrite/explicit_fd/example.py:get_theta", "applications/dendrite/explicit_fd/example.py:laplace", "applications/dendrite/explicit_fd/example.py:T_field", "applications/dendrite/explicit_fd/example.py:zero_flux_BC", "applications/dendrite/explicit_fd/example.py:phase_field"]}
{"id": "C82", "title": "Linear elasticity is well posed", "statement": "The stress function of linear elasticity is monotone in the displacement gradient, strictly unless the strains agree, for E > 0 and -1 < nu < 1/2 in at most three dimensions. First-order triangles and tetrahedra, parallelograms and parallelepipeds with at least two quadrature points per direction have no zero-strain displacements besides rigid motions, while one-point quadrature has. Two distinct points in the plane and three non-collinear points in space exclude rigid motions. A problem that is strictly monotone in the strain on such a mesh, all of whose nodes are held (reached from fixed nodes cell by cell), has exactly one solution and solver returns it in at most one Newton step; in particular the elastic box with one fixed face and given tractions. Rigid motions that vanish at the constraints destroy uniqueness.", "quantifier": "for all elastic constants in range, meshes, boundary conditions, loads, quadrature rules as described and initial guesses", "why_tests_cant": "Singularity of the tangent appears only for some supports and quadrature rules; tests use one supported cube.", "anchors": ["tests/benchmarks/linear_elasticity_cube/test_linear_elasticity_cube.py:get_tensor_map", "jax_fem/problem.py:get_laplace_kernel", "jax_fem/solver.py:solver", "jax_fem/generate_mesh.py:box_mesh", "jax_fem/basis.py:get_shape_vals_and_grads"]}
{"id": "C83", "title": "The updated-Lagrangian scheme solves the total-Lagrangian problem", "statement": "In the updated-Lagrangian application every load step works on the mesh moved by the displacement accumulated so far, with deformation gradients carried over and stresses pulled back to the moved mesh. The residual it assigns to an increment equals, entry by entry, the residual that the total-Lagrangian neo-Hookean problem on the undeformed mesh assigns to accumulated displacement plus increment. After any sequence of load factors the accumulated displacement solves the total problem of the last load factor, with the driven end moved and turned by that factor alone, and the carried deformation gradients are those of the accumulated displacement. The stress is the derivative of a stored energy, objective, symmetric and zero in the undeformed state.", "quantifier": "for all meshes with regular undeformed cells, densities, lists of load factors and solvers whose successful calls solve the step with determinants above the floor 1e-14", "why_tests_cant": "The application is not tested; a wrong pull-back or update shows only as a slightly different deformed shape that depends on the number of steps.", "anchors": ["applications/updated_lagrangian/example.py:end_to_end_ul", "applications/updated_lagrangian/example.py:push_F_prev", "applications/updated_lagrangian/example.py:get_universal_kernel", "applications/updated_lagrangian/example.py:set_params", "jax_fem/problem.py:initialize_geometric_quantities"]}
{"id": "C84", "title": "Refreshing the geometry and differentiating with respect to the mesh", "statement": "Problem.initialize_geometric_quantities may be called at any time with new points. After any history of refreshes, boundary-condition updates and assignments to fe.points, all geometric arrays of the problem (shape gradients, JxW, quadrature points, face arrays, packed arrays of all variables) are those of the points of the last refresh, consistently for all variables, while the held points, the selected boundary faces and the Dirichlet data are unaffected by it; the residual is the one of a problem newly built at those points whenever the location functions select the same faces there. The assembled residual is continuously differentiable in solution and node coordinates together, and the backward pass of ad_wrapper with the node coordinates as parameters returns the derivative of the solution branch through a regular solution.", "quantifier": "for all problems with any number of variables, all histories of operations, all kernels; for all smooth maps, non-degenerate meshes, cotangents and exact adjoint solvers", "why_tests_cant": "The only check compares one component of the gradient at one node with a finite difference; staleness of one array after a refresh depends on the order of operations and shows only as a slightly wrong number.", "anchors": ["jax_fem/problem.py:initialize_geometric_quantities", "jax_fem/fe.py:get_shape_grads", "jax_fem/fe.py:update_Dirichlet_boundary_conditions", "jax_fem/fe.py:get_physical_quad_points", "applications/differentiable_mesh/example.py:set_params", "jax_fem/solver.py:implicit_vjp"]}
{"id": "C85", "title": "One vector variable and its components as two variables give the same problem", "statement": "The multi-variable formulation of linear elasticity with variables of one and two components (example_2vars.py) is equivalent to the single-variable formulation (example_1var.py): both residuals tested with w are the work of the isotropic stress of the displacement over w; the residual arrays agree entry by entry after concatenation; splitting a list of Dirichlet conditions by component splits what is prescribed at every node, and the lists of the two scripts are such a split; a pair of nodal arrays solves the two-variable problem exactly when the concatenation solves the one-variable problem.", "quantifier": "for all meshes, quadrature rules, elastic constants, nodal arrays and lists of Dirichlet conditions with supported location functions", "why_tests_cant": "The scripts are run by hand and compared by eye for one mesh and load; an index error in the packing of several variables can cancel for symmetric data.", "anchors": ["applications/stokes/example_1var.py:get_universal_kernel", "applications/stokes/example_2vars.py:get_universal_kernel", "applications/stokes/example_2vars.py:problem", "jax_fem/problem.py:compute_residual_vars_helper", "jax_fem/fe.py:Dirichlet_boundary_conditions"]}
{"id": "C86", "title": "Functions of symmetric matrices and their hand-written derivative", "statement": "eigen_f, which applies a scalar function to the eigenvalues of the symmetric part of a matrix, does not depend on the eigenvectors chosen by eigh, multiplies for products of functions, returns the symmetric part for the identity function and commutes with rotations. Wherever the scalar function is differentiable at the eigenvalues, the custom rule f_jvp of get_eigen_f_custom is the exact derivative of eigen_f in every direction, symmetric or not, including matrices with repeated eigenvalues; its fourth-order tensor has major symmetry.", "quantifier": "for all dimensions, matrices, scalar functions differentiable at the eigenvalues (no continuity elsewhere), and all choices of eigenvectors", "why_tests_cant": "The script prints the derivative for three matrices and the identity function, where every divided difference is one; a wrong treatment of repeated or nearly repeated eigenvalues shows only for other functions.", "anchors": ["applications/phase_field_fracture/eigen.py:get_eigen_f_custom", "applications/phase_field_fracture/eigen.py:f_jvp", "applications/phase_field_fracture/eigen.py:get_eigen_f_jax"]}
{"id": "C87", "title": "Phase-field fracture: energies, solutions and the staggered loop", "statement": "The strain energies psi_plus and psi_minus are those of the unique split of the strain into a positive and a negative semidefinite orthogonal part, add up to the isotropic linear elastic energy, and are differentiable everywhere, also where eigenvalues coincide or vanish; the stress obtained by differentiating them is the degraded split stress of the literature, both implementations of it agree without noise, and it is symmetric and monotone, strictly where the phase field is not one. The phase-field equation has zero residual exactly at the minimiser of the crack energy with the given history, which is unique without boundary conditions, is returned by the solver after at most one Newton step and vanishes for zero history; the displacement equation has zero residual exactly at minimisers of the degraded energy, which have equal strain wherever the phase field is not one. Over all load steps the saved history is the running maximum of the tensile energy of the accepted displacements, and every accepted pair was produced by the two solvers in one pass with both relative changes within the tolerance, unless a field was zero in two successive passes.", "quantifier": "for all dimensions, strains, material parameters, noise vectors, choices of eigenvectors, meshes with positive measure, histories, phase fields, boundary conditions of the displacement, load sequences and solver results", "why_tests_cant": "The example is run once for one specimen and judged by looking at the crack; an energy split with wrong derivatives at repeated eigenvalues, or a history that decreases in unloading or uses displacements of rejected passes, gives plausible pictures.", "anchors": ["applications/phase_field_fracture/example.py:PhaseField", "applications/phase_field_fracture/example.py:Elasticity.get_tensor_map", "applications/phase_field_fracture/example.py:Elasticity.get_maps", "applications/phase_field_fracture/example.py:Elasticity.compute_history", "applications/phase_field_fracture/example.py:simulation"]}
{"id": "C88", "title": "Neo-Hookean solids: energy, stress, linearisation and the discrete problem", "statement": "Where the deformation gradient has positive determinant, the stress obtained by differentiating the neo-Hookean energy of the scripts is mu J^(-2/d)(F - |F|^2/d F^-T) + kappa J(J-1)F^-T, with symmetric Kirchhoff stress, objective and isotropic; in plane strain it is the in-plane part of the three-dimensional stress, and the floor for J changes nothing above the floor. For positive moduli the energy is nonnegative and zero exactly for rotations. Linearised at rest the three-dimensional and the plane-strain stress are linear elasticity with the same E and nu; that of the two-dimensional scripts is not (first Lame parameter smaller by mu/3). The assembled residual is the gradient of the stored energy plus dead loads and its Jacobian is symmetric; without loads the nodal forces have no moment in the deformed configuration and rotate with it.", "quantifier": "for all dimensions, moduli, displacement gradients with admissible determinant, rotations, meshes, elements, internal variables, dead loads and admissible displacements", "why_tests_cant": "The tests compare displacements of two loadings with stored results; a wrong exponent or a modulus of the wrong dimension changes numbers, but objectivity, zero energy exactly at rotations and symmetry of the tangent concern all states.", "anchors": ["tests/benchmarks/hyperelasticity/test_hyper_elasticity.py:HyperElasticity.get_tensor_map", "applications/arc_length/hyperelastic_models.py", "applications/scalability/hyperelastic3d_common.py:HyperElasticityInverse", "applications/dynamic_relaxation/cellular_displacement.py"]}
{"id": "C89", "title": "Crystal plasticity: lattice, local problem, stress update and time steps", "statement": "A unit quaternion gives the rotation v -> q v conj(q); for other quaternions the matrix is scaled. The slip table lists each fcc slip system exactly once with unit vectors, and the elastic tensor is that of a cubic crystal in the orientation of the grain, positive definite for the constants used. When the damped Newton loop stops, its result was reached by damped steps and has residual at most 1e-8 or NaN; it need not stop. Its increment is a direction of descent, affine equations are solved in one pass, and without plastic flow it stops with the elastic stress for every deformation. The zeros of its residual are exactly the solutions of the equations of the time step (flow rule, hardening, elastic law). Slip does not produce negative work. Plastic volume is preserved by single slip but not by multiple slip. The Cauchy stress is symmetric and that of the elastic part; whole histories are objective and do not depend on which of the 48 equivalent orientations describes a grain. The derivative rule of the loop is the derivative of the solution of the local problem, which is smooth. After a change of the time increment the element kernel keeps the first increment while the state update uses the new one.", "quantifier": "for all quaternions, elastic constants, slip systems, rate parameters, time increments, displacement gradients, internal variables, rotations, linear solvers, numbers of loop steps and loading histories", "why_tests_cant": "There is no test of this application; comparing one simulation with stored values could not separate a permuted slip system or an orientation convention from correct values, and objectivity or equivalence of orientations concern all histories.", "anchors": ["applications/crystal_plasticity/models.py:CrystalPlasticity", "applications/crystal_plasticity/models.py:get_rot_mat", "applications/crystal_plasticity/models.py:rotate_tensor_rank_4", "applications/crystal_plasticity/polycrystal_neper.py"]}
{"id": "C90", "title": "The Newton solver converges near regular solutions", "statement": "Near a solution at which the residual is continuously differentiable and the tangent with eliminated Dirichlet rows is regular, all problems with slightly different dead loads and prescribed values have exactly one solution, and solver returns from every nearby starting point, with or without line search, for every positive tolerance and every linear solver that reaches a certain relative residual; each step reduces the error by a fixed factor. With exact solves and Lipschitz tangent the steps without line search converge quadratically. A solid whose stress is smooth at rest with derivative positive on strains, held by its supports, is solved from the default initial guess for all small dead loads and prescribed values; in particular the neo-Hookean box fixed at one face. There is no limit on the iterations: for a smooth residual with a regular solution the run from the default guess never ends.", "quantifier": "for all residuals, meshes, boundary conditions, loads, linear solvers, norms and tolerances as described", "why_tests_cant": "Convergence for all nearby loads and starting points, and a run that never ends, cannot be observed in finitely many runs.", "anchors": ["jax_fem/solver.py:solver", "jax_fem/solver.py:newton_step", "jax_fem/solver.py:line_search", "jax_fem/solver.py:apply_bc_vec", "tests/benchmarks/hyperelasticity/test_hyper_elasticity.py:HyperElasticity"]}
{"id": "C91", "title": "The Poisson problem on the rectangle mesh converges with second order", "statement": "On rectangle_mesh with QUAD4 cells the residual of the Poisson problem (tensor map identity, mass map -f) at the interior nodes is a nine-point stencil with zero row sums and a weighted mean of f. If the cells are no longer than sqrt(2) times as wide and vice versa, a smaller source and smaller boundary values give smaller nodal values everywhere; without positive (negative) sources the nodal values do not exceed (fall below) the boundary values. With the boundary values of a C4 solution u of -div grad u = f, solver returns nodal values within 7/48 M L^2 h^2 of u, where M bounds the fourth derivative, L is the shorter side and h the larger mesh width. On more stretched cells the maximum principle fails.", "quantifier": "for all numbers of cells, side lengths, sources, boundary values, solutions u and quadrature rules exact for squares", "why_tests_cant": "An error bound for every mesh and every smooth solution cannot be observed in finitely many runs; tests compare one mesh with stored values.", "anchors": ["docs/source/guide/Quickstart.md:Poisson", "docs/source/learn/poisson/example.ipynb", "tests/benchmarks/linear_poisson/test_linear_poisson.py", "jax_fem/generate_mesh.py:rectangle_mesh", "jax_fem/problem.py:Problem.get_laplace_kernel", "jax_fem/problem.py:Problem.get_mass_kernel", "jax_fem/solver.py:solver"]}
{"id": "C92", "title": "Topology optimisation: compliance, its bounds and its sensitivities", "statement": "The plane-stress law is the three-dimensional Hooke law for a plate with stress-free faces. For structures whose stiffness is a fixed law scaled by a modulus depending on design variables, with homogeneous supports and a load that does not depend on the displacement: what compute_compliance returns for the solution is twice the stored energy, nonnegative, and the maximum of twice the work of the load minus twice the energy; it does not increase when the modulus grows anywhere; it lies between the value of the full structure and Emax/Emin times it; its derivative with respect to the design variables is minus energy times derivative of the modulus (without any derivative of the solution), and exactly this is what the backward pass of ad_wrapper returns. With the SIMP modulus no entry of the gradient is positive for nonnegative densities, also after the sensitivity filter. set_params gives every design cell its row and all other cells ones. For the cantilever of the notebook on meshes of all sizes the solution exists and is unique for all nonnegative densities, and solver returns it.", "quantifier": "for all design variables, meshes, quadrature rules, loads and solutions; the cantilever for all mesh sizes and densities", "why_tests_cant": "Monotonicity, energy bounds and the exact gradient are statements about all density fields; tests compare the objective of one optimisation run with stored values.", "anchors": ["docs/source/learn/topology_optimization/example.ipynb", "applications/outdated/top_opt/fem_model.py", "jax_fem/solver.py:ad_wrapper", "jax_fem/solver.py:implicit_vjp", "jax_fem/mma.py:applySensitivityFilter", "jax_fem/problem.py:Problem.set_params"]}
{"id": "C93", "title": "Computed gradients are the gradients of the interpolated field", "statement": "For each of the nine element types, every cell and every reference point at which the map of the cell is not degenerate, the array computed by sol_to_grad (and, for Lagrange elements, by the nodal_stress example) is the gradient, with respect to the mesh coordinates, of the interpolated solution at the image of the point: a differentiable field of the mesh coordinates agreeing with the interpolated solution near the point exists and every such field has exactly this derivative. Values of affine fields give their gradient at every point of cells of any shape. Row p of the nodal_stress example belongs to the node b of the cell with re_order[b] = p; rows and nodes are in the same order for TRI3 and TET4 only, and for HEX8, the type of the example, row 2 is the gradient at node 3 and not at node 2.", "quantifier": "for all element types, meshes, cells, solutions and reference points with nonsingular map", "why_tests_cant": "The example only prints the shape of the array; the order of the rows cannot be seen in the shape, and for affine fields all rows are equal.", "anchors": ["jax_fem/fe.py:FiniteElement.sol_to_grad", "jax_fem/basis.py:get_shape_vals_and_grads", "applications/nodal_stress/example.py:get_shape_grads_ref", "applications/nodal_stress/example.py:get_shape_grads_physical"]}
{"id": "C94", "title": "Third medium contact: rotation, energy, stress and loading", "statement": "In the third medium contact example: whatever eigenvectors eigh returns, the function rotation computes the orthogonal factor of the unique polar decomposition of every invertible deformation gradient, in the plane the rotation by the angle of (F00+F11, F10-F01). The mean of the rotations of a cell is a rotation only if all quadrature points are turned by the same angle. The energy is nonnegative for positive determinants, vanishes in the solid exactly for rotations, is minimal in the medium exactly for the rotation in the direction of the old (mean) rotation, is invariant under common rotations of body and old rotations, and tends to infinity as the determinant tends to zero. first_PK_stress has the stated closed form; P F^T is symmetric in the solid, and in the medium exactly if the rotation is parallel to the old one. The undeformed solid is stress free exactly if the noise has zero diagonal. The assembled residual is the gradient of the total energy and the tangent is symmetric. After set_params with any history of scales the Dirichlet conditions clamp the left edge and move exactly one node, and each step of the sequence uses the rotations of the previous solution.", "quantifier": "for all deformation gradients with positive determinant, old rotations, moduli in the admissible range, choices of eigenvectors, meshes h = 500/n with n <= 20000, and sequences of load steps", "why_tests_cant": "The example has no test and compares nothing; uniqueness of the polar factor, minimality, the barrier and the symmetry of the tangent are statements about all deformation gradients.", "anchors": ["applications/third_medium_contact/example.py:Contact.get_maps", "applications/third_medium_contact/example.py:Contact.post_processing", "applications/third_medium_contact/example.py:Contact.set_params", "applications/third_medium_contact/example.py:problem"]}
{"id": "C95", "title": "Distributed Newton iteration solves the serial nonlinear Poisson problem", "statement": "In the MPI example for -Δu + u³ = f: the local mesh of a rank lists every vertex of its cells once with its coordinates and global number; gathering owned values gives the distributed vector on every rank; the COO scatter adds exactly the given entries if the rank owns rows. For every distribution of a mesh of counterclockwise triangles, every order in which contributions arrive and every iterate, the assembled matrix and vector are the tangent and residual of the serial one-point finite element discretisation with identity rows at the sides. The returned vector is the result of the Newton iteration of the serial problem, ends without error if each rank owns a side vertex and the solver succeeds on nonsingular matrices, and its vertex values do not depend on partition, numbering, orders or solver. The tangent is symmetric and positive definite on functions vanishing at the sides, the discrete solution is unique. The source is that of the manufactured solution, and the reported error is the root mean square over all vertices, each counted once. The square mesh meets the hypotheses for up to 99990 cells per side.", "quantifier": "for all meshes, distributions over any number of ranks, numberings, arrival orders, iterates, iteration limits, tolerances and linear solvers", "why_tests_cant": "Tests run one mesh on few ranks with one partitioner; independence of partition, numbering and accumulation order quantifies over all of them, and ranks without boundary vertices or rows do not occur in small runs.", "anchors": ["applications/parallel/poisson_mpi.py:build_local_mesh_from_dm", "applications/parallel/poisson_mpi.py:gather_owned_nodal_values", "applications/parallel/poisson_mpi.py:scatter_global_coo", "applications/parallel/poisson_mpi.py:rms_versus_u_exact_on_owned_vertices", "applications/parallel/poisson_mpi.py:main", "applications/parallel/poisson_gold.py:NonlinearPoisson.get_universal_kernel", "applications/parallel/poisson_gold.py:source_f", "applications/parallel/poisson_gold.py:unit_square_triangle_mesh", "applications/parallel/poisson_gold.py:dirichlet_bc_unit_square"]}
{"id": "C96", "title": "Neural networks as constitutive laws", "statement": "Surrogate model example: for all weights the network is continuously differentiable, compute_input_gradient returns its gradient (closed form over all paths), for a batch the gradient of every input, and the training loss is nonnegative and zero exactly if the gradient equals the labels S00, S10, S11 at every strain of the batch. The deployed stress P = F S(E) is frame indifferent, has symmetric P F^T, and vanishes for every rotation of the undeformed body. It is the derivative of the network energy exactly where the shear component vanishes, and it is hyperelastic (derivative of any energy) exactly if the network is a sum of a function of the normal strains and a function of the shear strain. A function with the labels as gradient exists exactly for materials with such a separable energy, so no weights reproduce the stress of any other material. Multi-scale example: the stress derived from a network of C is frame indifferent with symmetric P F^T and the stated closed form; the undeformed body is stress free exactly if the gradient of the network at C = I vanishes; flat_to_tensor and tensor_to_flat are inverse on symmetric matrices; the samples of symmetric H reach every C exactly once with positive definite I + H; the terms of poly_psi are invariants.", "quantifier": "for all weights, widths, batches, strains and deformation gradients with nonzero (hyperelasticity: positive) determinant; for all differentiable networks of six numbers", "why_tests_cant": "Neither example has a test; the trained network is one set of weights compared with nothing, and hyperelasticity or nonexistence of fitting weights are statements about all deformations and all weights.", "anchors": ["applications/surrogate_model/train.py:Network.__call__", "applications/surrogate_model/train.py:SurrogateModel.compute_input_gradient", "applications/surrogate_model/train.py:SurrogateModel.train", "applications/surrogate_model/example.py:NnbasedMetamaterial.get_tensor_map", "applications/outdated/multi_scale/fem_model.py:HyperElasticity.maps_nn", "applications/outdated/multi_scale/trainer.py:H_to_C", "applications/outdated/multi_scale/trainer.py:polynomial_hyperelastic", "applications/outdated/multi_scale/utils.py:flat_to_tensor"]}
{"id": "C97", "title": "Lagrange multiplier solver", "statement": "For Dirichlet and periodic entries of any number, size and overlap: the augmented residual is (r + eps B^T lmbda, eps (B u - g)), the gradient of E(u) + eps lmbda (B u - g) whenever r is the gradient of E; the assembled augmented matrix has the blocks K, eps B^T, eps B, 0 in the order of the multipliers, is the derivative of the augmented residual, and is symmetric exactly if K is. The augmented residual vanishes for some multipliers exactly if u meets all conditions and r does no work on admissible variations; for Dirichlet conditions these are the solutions of the row-elimination solver, for periodic conditions those of the reduced problem with the elimination matrix of the periodic example; contradicting entries leave no solution. The matrix is regular exactly if the constraints are independent and K is regular on the admissible variations; repeated constraints or corners paired in two directions make it singular for every K. One exact step from any vector meets all conditions, so every returned solution does; for linear problems both branches return the constrained equilibrium. With use_petsc=True every call raises.", "quantifier": "for all meshes, entries with fitting shapes and valid indices, residuals, triplets, p_num_eps nonzero, starting vectors and exact linear solvers", "why_tests_cant": "The module has no test and cannot be imported into one; equivalence of three treatments of constraints and regularity are statements about all problems.", "anchors": ["jax_fem/experimental/lm_solver.py:aug_dof_w_zero_bc", "jax_fem/experimental/lm_solver.py:aug_dof_w_bc", "jax_fem/experimental/lm_solver.py:linear_guess_solve_lm", "jax_fem/experimental/lm_solver.py:linear_incremental_solver_lm", "jax_fem/experimental/lm_solver.py:compute_residual_lm", "jax_fem/experimental/lm_solver.py:get_A_fn_and_res_aug", "jax_fem/experimental/lm_solver.py:solver_lagrange_multiplier"]}
{"id": "C98", "title": "Homogenisation of the representative volume", "statement": "compute_energy of the representative volume is differentiable in the fluctuations and in H_bar; its derivative in the fluctuations is the assembled residual, its derivative in H_bar is the integral of the first Piola-Kirchhoff stress. The fluctuation problem is the problem of the displacement H_bar x + v returned by fluc_to_disp. At an equilibrium the nodal forces and the stress do the work (integral of P) : dH on every periodic field (Hill-Mandel); the energy density along any differentiable family of periodic solutions has the gradient (integral of P) / L^3; a minimum of the energy is an equilibrium, and the gradient of the least energy is the integral of the stress. A rotation superposed on I + H_bar turns fluctuations and stress and leaves energies, equilibria and minima. Hence a network that reproduces the rows of the training data of all symmetric positive definite stretches is the homogenised energy of all deformations with positive determinant, and its stress in the mode nn is the average stress. The sampled gradients are admissible and have different invariants; the moduli are those of the union of the cubic inclusions and periodic; the traction of the top face uses the moduli found there. The multiplier equations with the conditions of rve_problem describe exactly the periodic equilibria, but their matrix is singular. The load steps after a failed solution change nothing; the collection of data ends, with one file per sample, if all samples can be solved, and never ends otherwise; the three data sets are a partition.", "quantifier": "for all meshes, moduli, macroscopic gradients, fluctuations, paired and pinned nodes, networks, samples, random choices, folders of earlier runs", "why_tests_cant": "The gradient of the homogenised energy and objectivity are statements about all gradients and rotations; termination depends on every sequence of random choices.", "anchors": ["applications/outdated/multi_scale/fem_model.py:HyperElasticity.compute_energy", "applications/outdated/multi_scale/fem_model.py:HyperElasticity.fluc_to_disp", "applications/outdated/multi_scale/fem_model.py:HyperElasticity.compute_moduli", "applications/outdated/multi_scale/fem_model.py:HyperElasticity.compute_traction", "applications/outdated/multi_scale/rve.py:rve_problem", "applications/outdated/multi_scale/rve.py:solve_rve_problem", "applications/outdated/multi_scale/rve.py:generate_samples", "applications/outdated/multi_scale/rve.py:collect_data", "applications/outdated/multi_scale/trainer.py:load_data", "applications/outdated/multi_scale/trainer.py:transform_data", "applications/outdated/multi_scale/trainer.py:shuffle_data"]}
{"id": "C99", "title": "Eigenfrequency constraint of topology optimisation", "statement": "vKv_fn and vMv_fn are the quadratic forms of the stiffness and mass matrices: the sum over the cells of Emin + (Emax - Emin) rho^5 times the energy, and of 2700 rho times the integral of the square. Both matrices are symmetric and positive semidefinite, the kernel of the stiffness is the three-dimensional space of rigid motions, the mass is definite for positive densities; rectangle meshes of any size satisfy the assumptions. At a simple eigenvalue, the eigenpair continues to a locally unique differentiable branch and d_eigen_val is the derivative of the eigenvalue. If the eigensolver returns the M-orthonormal pairs nearest to the target 10 and no elastic eigenvalue is below 20, the three skipped pairs are the rigid motions and the three kept eigenvalues are the smallest elastic ones. Whatever the spectrum, a design that meets the constraints has at most half of the volume and no elastic eigenvalue below min_freq; a design whose elastic eigenvalues exceed min_freq by log 3 / alpha meets the constraint. Where the kept eigenvalues are separated the constraint values are differentiable functions of the densities and the returned gradients are their derivatives. Uniform densities have common modes with eigenvalues that scale like modulus over density. With fewer than ten converged pairs the constraints are not computed.", "quantifier": "for all meshes of free bodies, densities, results of the eigensolver, eigenvalues and modes", "why_tests_cant": "The correctness of the sensitivity is a statement about the derivative of an implicitly defined function at all designs, and the safety of the constraint one about all spectra, including those for which the skipped modes are not the rigid ones.", "anchors": ["applications/outdated/top_opt/eigen.py:Stiffness", "applications/outdated/top_opt/eigen.py:Mass", "applications/outdated/top_opt/eigen.py:eigen_analysis", "applications/outdated/top_opt/eigen.py:eigenval_grad_fn", "applications/outdated/top_opt/eigen.py:computeConstraints", "applications/outdated/top_opt/eigen.py:min_eigen_vals_cstr"]}
{"id": "C100", "title": "Source field identification", "statement": "For every source array of shape (cells, quadrature points) the forward prediction of the tutorial ends within two Newton iterations with the only solution of the Poisson problem, which depends linearly on the source. The objective is the squared L2 distance to the data; jax.grad through ad_wrapper returns the solution of the adjoint problem at the quadrature points times their measure, and with it the second-order expansion of the objective is exact. Hence the central difference quotient of the tutorial equals the gradient entry for every step size, and a source is a stationary point exactly if it is a global minimum. On rectangle meshes of any size with the left side fixed, data that satisfy the boundary conditions are predicted by infinitely many sources, and a source is a stationary point exactly if it is one of these: the minimiser reproduces the data at all nodes but the source is not determined. The same expansion holds for every problem that is linear in state and parameters with a quadratic objective. For an index outside the array the difference quotient is silently zero.", "quantifier": "for all meshes, sources, data, step sizes and indices; for all problems linear in state and parameters", "why_tests_cant": "The absence of spurious stationary points, the non-uniqueness of the minimiser and the exactness of the gradient are statements about the whole parameter space; the difference check of the tutorial samples one entry.", "anchors": ["docs/source/learn/source_field_identification/example.ipynb:Poisson", "docs/source/learn/source_field_identification/example.ipynb:compute_l2_error", "docs/source/learn/source_field_identification/example.ipynb:J", "jax_fem/solver.py:ad_wrapper", "jax_fem/solver.py:implicit_vjp"]}
{"id": "C101", "title": "Thermal mechanical control of a plate", "statement": "The residual of the tutorial, tested with displacements and temperatures, is the weak form of linear thermoelasticity with one-way coupling. For all temperatures of the controlled nodes the forward prediction ends within two Newton iterations with the only state that takes the prescribed values, conducts heat and balances the thermal stress; it is an affine function of the temperatures. The objective is the squared distance of the displacement of one node from the goal; jax.grad through ad_wrapper and through the boundary values returns its derivative, which is the form of the coupled problem between the adjoint state and any field with the variation of the boundary values. The expansion to second order is exact: the central difference quotient of the tutorial equals the gradient entry for every step size, the gradient vanishes exactly at the global minima, and with more than two controlled nodes there is a direction of temperatures that no objective of this kind sees. Plates of linear triangles that are built up from clamped nodes satisfy the assumptions. set_params replaces the first list of values and nothing else; an index outside the temperatures makes the difference quotient silently zero, a corner number outside the mesh selects the last node.", "quantifier": "for all meshes, boundary lists, stable materials, temperatures, goals, step sizes and indices", "why_tests_cant": "Global optimality, blind directions and exactness of the gradient with respect to boundary values concern all temperatures and all meshes; the tutorial compares one entry of the gradient on one mesh.", "anchors": ["docs/source/learn/thermal_mechanical_control/example.ipynb:universal_kernel", "docs/source/learn/thermal_mechanical_control/example.ipynb:set_params", "docs/source/learn/thermal_mechanical_control/example.ipynb:J", "jax_fem/solver.py:ad_wrapper", "jax_fem/solver.py:implicit_vjp"]}
{"id": "C102", "title": "Forward-mode differentiation of the solution and the other derivative rules of the experiments are exact where stated", "statement": "Let the forward solver return a solution u0 of the constrained equations for p0, the constraint function be C1 there and the eliminated tangent invertible. Then exactly one branch u(p) of solutions passes through u0, it is differentiable at p0, the custom JVP of ad_wrapper_jvp returns u0 and the directional derivative of u for every direction, and its transpose by reverse mode returns the derivative of <v,u(p)> for every cotangent v; for any u the JVP and implicit_vjp of solver.py are dual to each other. newton_solver of custom_jvp.py ends after at most one step for every x with residual at most 1e-8; its JVP is the derivative of the returned value where |x|>1e-8 and A^-1 v also where the returned value is constant. The gradient of adjoint_save_to_local.py uses the cosine of the last forward pass, hence is right exactly if that cosine agrees, and is wrong for nested evaluations. A jitted closure over an attribute keeps returning the first value. safe_sqrt has the right derivative in both modes for x>0, and for every x<=0 zero in forward and NaN in reverse mode. Stacking a list of arrays returns the rows in order and its tangent rule is exact.", "quantifier": "all finite element spaces, parameter-dependent residuals and boundary values, parameters of any complete normed space, directions and cotangents, exact operator solvers; all x, v in R^3; all sequences of forward and backward calls; all real arguments; all lists of arrays", "why_tests_cant": "The autodiff module cannot be imported with the current solver.py, the scripts print single values; a derivative is a statement about a neighbourhood, and the wrong gradients need an interleaving of calls that the script does not make.", "anchors": ["jax_fem/experimental/autodiff_utils.py:38-75", "jax_fem/experimental/autodiff_utils.py:78-140", "jax_fem/experimental/autodiff_utils.py:143-185", "jax_fem/experimental/custom_jvp.py:6-42", "jax_fem/experimental/adjoint_save_to_local.py:18-30", "jax_fem/experimental/jit_global.py:4-42", "jax_fem/experimental/safe_grad.py:8-16"]}
{"id": "C103", "title": "Co-design of structure and material: exact gradient of the compliance through the plastic load steps, admissible histories, and a lagging yield output", "statement": "For every mesh, load sequence and design with nonnegative yield stresses, the following hold in exact arithmetic. If fwd_pred_seq returns the sequence of equilibria u1..un, all eliminated tangents are invertible and no quadrature point has a predictor on the yield surface or without deviator, then exactly one family of equilibrium sequences passes through u1..un, and jax.grad of the compliance after the last step is the derivative of that compliance along the family (for any differentiable step data: C103_gradient; for approximate Newton results: C103_forward bounds the defect of every step by the tolerances). Every update stores the admissible stress closest to the predictor, the symmetric gradient, unchanged design variables, and a yield function that is positive exactly in plastic steps; after any history the stress is admissible and symmetric with an elastic trace. Young's modulus lies in [70,70000] and the yield stress in [250,350] on the design box. compute_compliance is minus load times the integral of the vertical displacement over the loaded boundary. The constraints hold exactly if the means are at most vf and vy, with constant derivatives. The loads are 80..400. inspect after the loop shows the yield function of the step before the last: it is independent of the last solution, and zero for a body that yields in its only step.", "quantifier": "all meshes, reference elements, loaded faces, boundary conditions, designs, load sequences of any length, solutions, initial guesses, tolerances and exact adjoint solvers", "why_tests_cant": "The notebook runs one optimisation and looks at a picture; a gradient through an implicit function of several dependent nonsmooth steps is a statement about a neighbourhood, and the lag of the yield output is invisible if two successive steps look alike.", "anchors": ["docs/source/learn/structure_material_co_design/example.ipynb (cells 2-9, 14, 15, 18)", "jax_fem/solver.py:1362-1455"]}
{"id": "C104", "title": "Shape optimization with rotated pores: geometry of the holes, differentiability in the angles, exact gradient and sensitivity formula", "statement": "In exact arithmetic, for all numbers: scaled_sigmoid is strictly increasing with range the open interval between its bounds. The density of pore_fn is the smooth indicator of the complement of the square with half diagonal 0.45 L turned by the angle in (-pi/4, pi/4); it is below 1/2 exactly in the open square, and the square lies inside the cell for every design. A quadrature point in cell (i,j) of the grid gets the density of pore i*ny+j only (last entry for a vector that is too short), points outside the grid get 1; all densities lie in (0,1]. The density is differentiable in the design variable exactly if the point is not on a diagonal of the turned square, with an explicit derivative. Young's modulus lies in [1e3,1e6] and the plane strain energy is nonnegative and vanishes for rotations only. If the forward solver returns an equilibrium with regular tangent, no inverted cell and no quadrature point on a diagonal, then exactly one branch of equilibria passes through it, the compliance is the same function of the displacement for all designs, and jax.grad returns its derivative along the branch; the component for a pore is minus a sum over the quadrature points of its own cell of the density derivative times the unit-modulus stress power on an adjoint displacement. The residual is the gradient of stored energy minus work of the load, and a state with energy not above that of the undeformed solid has compliance at least its stored energy.", "quantifier": "all meshes, reference elements, loaded faces, boundary conditions, cell grids nx, ny, lengths, design vectors, quadrature points, equilibria, tolerances and exact adjoint solvers", "why_tests_cant": "The notebook shows pictures of one optimisation; that holes never leave their cells, where the density has kinks, and that the adjoint gradient equals the derivative of the branch of nonlinear equilibria are statements about all angles, points and neighbourhoods.", "anchors": ["docs/source/learn/shape_optimization/example.ipynb (cells 2-6, 8-10)", "jax_fem/solver.py:1362-1455"]}
{"id": "C105", "title": "Traction force identification: meaning of the load, exact gradient as trace of an adjoint displacement, ambiguity of the traction, finite-difference check", "statement": "In exact arithmetic, for all numbers: after set_params the work of the residual on any displacement is the work of the neo-Hookean stress minus the work of the vertical tractions given at the quadrature points of the selected faces, so that positive parameters pull upwards, and the load is linear in them. The reference traction is a Gaussian in x with values in (0, 1e5]. The misfit is the integral of the squared difference of the displacements; with positive weights it vanishes exactly if they agree at all quadrature points. If the forward solver returns an equilibrium with no cell turned inside out and a regular tangent, then exactly one branch of equilibria passes through it and jax.grad returns the derivative of the misfit along the branch. The tangent is symmetric, and the component of the gradient for a quadrature point is its area times the vertical component of an adjoint displacement that solves the linearised equations with twice the misfit as body force. Misfit and gradient vanish where the data are reproduced. If the loaded faces have more quadrature points than nodes, some nonzero traction can be added to every traction without changing equilibria, objective and gradient, and all gradients vanish along it. The central difference quotient of the notebook differs from the component of the gradient by at most eta plus eps/(|h||theta|) for all small steps h, where eps bounds the error of the evaluations.", "quantifier": "all meshes, reference elements, face lists, boundary conditions, tractions, displacements, observed data, equilibria, tolerances, steps and exact adjoint solvers", "why_tests_cant": "The notebook compares one component of the gradient with one difference quotient; the sign and shape of the load, the derivative of the branch of nonlinear equilibria, and the directions that no data can determine are statements about all tractions, displacements and neighbourhoods.", "anchors": ["docs/source/learn/traction_force_identification/example.ipynb (cells 2, 5-9)", "jax_fem/solver.py:1362-1455"]}
{"id": "C106", "title": "Computing gradients: moved boundary and equilibrium, exact derivatives for modulus, density and boundary value, stale modulus in compiled kernels", "statement": "In exact arithmetic, for all numbers: the boundary conditions prescribe zero, zero and scale_d*Lz for the components of exactly the nodes with |z| <= 1e-5, and nothing else. The work of the residual on any displacement is the work of the neo-Hookean stress with modulus E*rho minus the work of the traction (0, 0, -1000). If the forward solver returns an equilibrium with no cell turned inside out and a regular tangent, and the kernels are compiled with the current E, then exactly one branch of equilibria passes through it and jax.grad returns the derivative of the sum of squares along the branch for all three parameters. With an adjoint displacement w that vanishes at the bottom, the derivative for E is minus the work of the stress per modulus weighted with rho, the one for a density is minus E times this work at the point, the one for scale_d is Lz times the vertical reactions at the bottom, and E times the first is the density-weighted sum of the second. A sequence of evaluations uses the E of the first evaluation throughout, so that the difference quotient for E in the notebook is exactly 0 for every step, whereas those for rho and scale_d converge to the derivatives. If kernels were compiled with another modulus E0 before, the result is the gradient at E0 with the density part scaled by E/E0, and with all kernels compiled before the derivative for E is 0.", "quantifier": "all meshes, reference elements, face lists, parameters, displacements, equilibria, tolerances, steps, compiled moduli and exact adjoint solvers", "why_tests_cant": "The notebook compares three numbers at one point and for one step, and its comparison for E fails; that the failure is exactly 0 for every step, which derivative is then the correct one, and how previously compiled kernels change the gradient are statements about all parameters, steps and call sequences.", "anchors": ["docs/source/learn/compute_gradients/example.ipynb (cells 2-8)", "jax_fem/problem.py:210-276", "jax_fem/solver.py:1362-1455"]}
{"id": "C107", "title": "Dirichlet information: from the user's list of conditions to the solved equations, last condition decides, unchecked components", "statement": "For every problem (one mesh, or a list of meshes with None or a list of informations): the boundary data can be built exactly if every mesh has information with equally many location functions, components and value functions and location functions of one or two arguments. If it is built and the components exist, then component c at node n of variable i is constrained exactly as the user's list for this variable demands: the last condition with component c whose location function holds at the point decides, its value is the value function at the mesh point, and without such a condition the component is free. Accordingly the row in residual, tangent, initial guess, zeroed and copied vectors is determined by the conditions alone, and a vector is a root of the constrained residual exactly if all demanded values hold and all other equations are fulfilled. If conditions never contradict each other their order is irrelevant for all vectors and the tangent. Component numbers are not checked: a condition for a component that does not exist leaves the residual unchanged but eliminates tangent rows that belong to other nodes, and then Newton's method can alternate for ever even on linear equations.", "quantifier": "all meshes, numbers of variables, lists of conditions (also overlapping ones), location and value functions, vectors, matrices and scales", "why_tests_cant": "Tests use a few boundary parts on one mesh, mostly disjoint ones; that the last of any overlapping conditions decides in all vectors and the matrix at the same time, and that a wrong component damages the tangent only, are statements about all lists of conditions.", "anchors": ["jax_fem/problem.py:57-75", "jax_fem/fe.py:57-69", "jax_fem/fe.py:100", "jax_fem/fe.py:220-258", "jax_fem/solver.py:287-363", "jax_fem/solver.py:508-529"]}
{"id": "C108", "title": "Buckling beam examples: loads, boundary conditions, equilibrium path, assertion and number of steps of the arc-length runs", "statement": "For the two arc-length examples with a clamped beam: the faces found by the location functions are the two sides of the right end and the two lower sides beside the middle; the boundary conditions constrain exactly the nodes with x = 0 (and x = 50 in displacement control), with the values 0, -2.5 and 0. For every state with invertible deformation and every load factor, the work of the force-control vector R + (1 - lambda) q on any field is the work of the neo-Hookean stress plus lambda times the end load plus the full imperfection load. Hence the zeros of the out-of-balance vector are exactly the equilibria with lambda times the end load (force control) or with the right end moved by -2.5 lambda (displacement control). In every recorded state the ends are where the boundary conditions scaled by lambda put them; the assertion in on_step never fails; a displacement-control run has at most 600 steps, exactly 600 if lambda = 1 is not reached, and at least 44 if it is reached. A run that reaches the target returns a state from Newton's method at full load within the tolerances, any other run its last recorded state.", "quantifier": "all reference element and face tables (side tables of the bilinear element for the resultants), displacement fields, load factors, tangents, norms, linear solvers that respect identity rows, correctors that return results of the arc-length loop, and lengths of runs", "why_tests_cant": "A run shows one path; that the counter load vector removes exactly the end load for every state and load factor, that no run can violate the assertion and that no run reaches the target in fewer than 44 steps are statements about all states and all runs.", "anchors": ["applications/arc_length/hyperelastic_models.py", "applications/arc_length/beam2d_force.py:1-123", "applications/arc_length/beam2d_displacement.py:1-103", "jax_fem/solver.py:559-852", "jax_fem/generate_mesh.py"]}
{"id": "C109", "title": "Finite-strain plasticity: the stored elastic strain is isochoric only until the first plastic flow, afterwards its determinant grows", "statement": "For all admissible material constants, states and displacement gradients with positive volume: a step whose trial state is inside the yield surface keeps the determinant of be_bar and the plastic strain, and a step with plastic flow strictly increases both. Hence over every history from the initial state the determinant of be_bar never decreases, is at least one, and equals one exactly as long as there has been no plastic flow. In particular it exceeds one after the first step of the simple shear in the repository's own test.", "quantifier": "all material constants with G > 0, H1 >= 0, sig0 > 0, all histories of displacement gradients with positive determinant of the deformation gradient", "why_tests_cant": "The tests start from isochoric states and check one step each; that the drift has always the same sign and never recovers in any history needs an inequality between determinants of all positive definite matrices.", "anchors": ["applications/finite_plasticity/model.py:21-86", "applications/finite_plasticity/model.py:58-63", "tests/test_finite_plasticity.py:34-56"]}
{"id": "C110", "title": "Timing and logging of the Newton solver do not change its result and add up; logger set-up and timing decorators", "statement": "For every clock the Newton solver with watches and log returns, raises or runs on exactly as without them. If it returns after n iterations the log has the rounds 0..n in order, each with start line and summary, the first without and all others with a linear solve time; relative residuals refer to round 0, all residuals but the last miss a tolerance; the table rows are the sums of the times per round. If the clock never runs backwards, no time or percentage is negative, the rows add up to at most the wall time (and less than 0.01 s below it) and at most 100 percent, and exactly if the row 'other' is shown. If the solver raises, the log has complete rounds and at most one open round and no table. However often setup_logger is called, each message to a logger set up is delivered exactly once; with a foreign handler it can be delivered twice. The decorators timeit and walltime return what the function returns, a walltime file has the last successful call only.", "quantifier": "all clocks, problems, norms, linear solvers, tolerances, starting vectors, numbers of iterations; all sequences of logger set-ups and decorated calls", "why_tests_cant": "No test looks at the log; times differ in every run, so that only a statement over all clocks says anything about the table.", "anchors": ["jax_fem/solver.py:22-57", "jax_fem/solver.py:411-414", "jax_fem/solver.py:1280-1350", "jax_fem/logger_setup.py:5-31", "jax_fem/utils.py:141-206"]}
{"id": "C111", "title": "Load steps of the finite-plasticity drivers: re-evaluation, repeated load, printed stresses, supports and plate load", "statement": "Evaluating the finite-strain plasticity law again at the stored deformation reproduces the stored variables and both stresses. Hence in every finished load step of single_cell.py and thin_plate.py in which no quadrature point is turned inside out: the internal forces of the solution are the same for the variables before and after the update, the stresses printed (computed from the copy of the old variables) are the Cauchy stresses of the new state, the stored deformation is that of the solution, and plastic strain never decreases along the run. A step makes no Newton iteration exactly if the misfit (deviation from prescribed values, internal forces elsewhere) of the previous solution is at most tol. The loads rise to the amplitude in equal parts, the amplitude is applied twice, and go back to zero; the first step returns the undeformed stress-free state without iteration; if the step at full load ends with misfit at most tol, the repeated one reproduces it without iteration. The top load of the plate is a tent of the rim distance shifted by 1e-9 of the load, which overrules the walls on the rim. The supports of the single cell exclude rigid motions and admit every homogeneous axial stretch.", "quantifier": "all material constants with G, sig0 > 0 and H1 >= 0, all well-formed meshes and elements, all tangents, linear solvers, tolerances and fuel, all good internal variables and displacements without inverted quadrature points", "why_tests_cant": "The tests run one step of the model for a few gradients; the drivers are never run, and that a repeated step changes nothing needs an exact argument on the yield surface.", "anchors": ["applications/finite_plasticity/model.py:101-118", "applications/finite_plasticity/single_cell.py:18-80", "applications/finite_plasticity/thin_plate.py:22-90"]}
{"id": "C112", "title": "Sensitivity scripts of the crystal-plasticity example: returned value, gradient, free rotation, singular tangent", "statement": "simulation() of volume_sensitivity.py and stress_sensitivity.py returns the objective of the last step of a chain of equilibria (up to the tolerances), each starting from the internal variables the step before left; at a quadrature point where the local solver finds a root these variables follow the equations of a time step of the prescribed length. jax.grad(simulation) is the derivative of that objective along every differentiable family of equilibria, whenever the adjoint systems are solved exactly and the run is differentiable; nothing is assumed about the determinant of the tangent. The backward pass runs with the attributes the problem object has after the loop: stale boundary values do no harm, a stale attribute that enters the residual gives a wrong gradient; in these scripts the time increment is constant, so the returned gradients are right. The boundary conditions hold the cube sideways at one corner only: every configuration turned about the vertical axis through that corner is an equilibrium again, so the row-eliminated tangent is singular at every equilibrium with a node off the axis and, if the local solver returns zero stress for zero strain, in the first Newton iteration. Volume and axial stress of the result do not depend on which turned equilibrium is found, in any step.", "quantifier": "all well-formed meshes and elements, all local solvers, tangents and linear solvers, all tolerances, load amplitudes, times, step numbers and parameter values; for the rotation all materials indifferent to rotations about the axis", "why_tests_cant": "The scripts compare one gradient with finite differences for one cube; that the linear systems are singular yet the gradient is right, and that stale attributes matter only if they enter the residual, are statements about all configurations.", "anchors": ["applications/crystal_plasticity/volume_sensitivity.py:22-110", "applications/crystal_plasticity/stress_sensitivity.py:34-125", "applications/crystal_plasticity/models.py:235-291", "jax_fem/solver.py:1425-1453"]}
{"id": "C113", "title": "Quadrature of the elements: what the default rules integrate exactly and what they leave out", "statement": "get_shape_vals_and_grads takes the rule of the requested type and order (None: the default type and the order of the element table). With order at least 2*degree (2*(degree-1) on triangles and tetrahedra) every form in the gradients of the element functions with constant coefficients is integrated exactly, and the default orders do so for all Lagrange elements (this answers the TODO of HEX8). Constant loads are exact for all elements; mass matrices from order 2*degree on, hence by default for HEX8, HEX27 and QUAD4. For QUAD8 and HEX20 the default order 2 gives two points per direction: the stiffness is not exact, and every affine cell has a deformation without strain at all points, even when the middle nodes of the edges are held. For TRI3, TRI6, TET4, TET10, QUAD8 and HEX20 the default mass matrix is singular.", "quantifier": "all nine elements, all pairs of element functions, all constant coefficients, all orders, all rules of the library that meet its documentation (Gauss moments, exactness up to the order), all affine cells", "why_tests_cant": "Exactness is an identity of integrals for all polynomials of a space; the zero-energy modes of reduced integration do not show on meshes whose supports happen to exclude them.", "anchors": ["jax_fem/basis.py:51-112", "jax_fem/basis.py:127-138", "jax_fem/basis.py:162-171", "jax_fem/basis.py:203-210", "applications/serendipity/example.py:1-80"]}
{"id": "C114", "title": "Convergence study: the error measures, their relation to the best approximation, and the printed orders", "statement": "compute_l2_norm_error is the discrete L2 distance between the interpolated solution and the given function; compute_h1_norm_error is this distance plus (not root of the sum of squares) the discrete L2 distance of the gradients. On meshes with positive measure they vanish exactly if values (and gradients) are right at all quadrature points. The source of the script is the Laplacian of the manufactured solution, and the nodes near the faces of the unit cube, and no others, are prescribed with its values, whichever of the six conditions decides. The gradient error of a solution of the discrete equations exceeds that of any array with the same prescribed values by at most the bound of the consistency functional (quadrature of grad u . grad v + lap u v); if the functional vanishes, the solution is the best approximation, and it is reproduced exactly if some array has the right gradients: affine functions on the rectangle mesh give two zeros for all mesh sizes. With linear tetrahedra and the one-point rule the first error vanishes as soon as the mean of the four nodal values of each cell is right. The printed number is the exponent r up to log2(C/c) if the last two errors lie between c h^r and C h^r.", "quantifier": "all meshes with nonnegative (positive) measure, all elements and rules, all given functions with two derivatives, all solutions and comparison arrays, all constants and exponents", "why_tests_cant": "A run compares two mesh sizes for one function; that the solution is not worse than every other array, and that an error can vanish for wrong nodal values, are statements about all arrays.", "anchors": ["applications/convergence_rate/example.py:14-49", "applications/convergence_rate/example.py:52-56", "applications/convergence_rate/example.py:59-102", "applications/convergence_rate/example.py:105-130"]}
{"id": "C115", "title": "Debugging helpers: the boundary report shows what the solver enforces, and the operator matrix is the tangent at zero", "statement": "For a problem that could be built print_BC_info never fails; it lists, for every surface integral in order, exactly the faces whose vertices all satisfy the location function, and for every variable and every Dirichlet condition in order exactly the selected nodes with component and value of the user's function, with shapes (rows, 2) and (rows, 3), and variable numbers only if there are several variables. Overlapping conditions are all shown; the last row for a node and component is the value the solver enforces (residual u - scale v, unit row), and components without a row are left to the assembly. It raises ValueError exactly if in a part with nodes the three arrays differ in length. operator_to_matrix returns A for x -> A x + b, the directional derivatives at the origin for differentiable operators, and for the residual with boundary conditions the row-eliminated matrix of the residual at zero; it says nothing about the operator away from zero.", "quantifier": "all meshes, numbers of variables, lists of conditions and location functions; all operators differentiable at zero; all boundary data", "why_tests_cant": "The report is read by people; whether the rows shown are the ones enforced where conditions overlap depends on the order of all conditions.", "anchors": ["jax_fem/problem.py:558-612", "jax_fem/solver.py:379-384"]}
{"id": "C116", "title": "Patch test on every conforming mesh of triangles, quadrilaterals, tetrahedra or hexahedra", "statement": "For TRI3 and TET4 with any quadrature rule, QUAD4 with a rule exact for linear functions and HEX8 with a rule exact for products of quadratics, on every mesh with invertible Jacobians, for every numbering and all node positions: at every node around which each side of a cell occurs as often in one orientation as in the other, the residual assembled by the code for the nodal values of an affine field and any material law that is the same everywhere is zero. With a strictly monotone law and affine values at the remaining nodes the affine field is the only array without residual, and the convergence study of an affine function reports two zero errors. The elements of the code with the default rules and the interior grid nodes of rectangle_mesh and box_mesh satisfy the conditions. At a hanging node the residual does not vanish.", "quantifier": "all meshes, node positions, numberings, quadrature rules of the stated exactness, homogeneous material laws, affine fields", "why_tests_cant": "The patch test is usually run on one mesh with one material; whether it holds for every distorted conforming mesh is a statement about all node positions and all ways the cells can meet.", "anchors": ["jax_fem/fe.py:get_shape_grads", "jax_fem/problem.py:get_laplace_kernel", "jax_fem/problem.py:compute_residual", "jax_fem/basis.py:get_shape_vals_and_grads", "jax_fem/generate_mesh.py:120-189", "applications/convergence_rate/example.py:59-102"]}
{"id": "C117", "title": "Demonstration of the arc-length method: geometry of a pass, convergence, mirror image, turning back behind the limit point", "statement": "In demo_analytical.py a pass of arc_length_solver replaces the current point by the higher one of the points where the tangent of the equilibrium curve l = x - x\u00b2 at the current unknown meets the circle about the start of the step, and gives NaN exactly if the tangent is horizontal or misses the circle; the new point lies above the curve by the square of the change of the unknown. If the curve meets the circle up and to the right of the start and before the limit point, at t, the loop ends after at most 1000 (t - u) + 5 tests and returns a point of the circle between start and t, above the curve by at most (1e-6/(1-2t))\u00b2 and left of t by at most that over 1-2t. Such a t exists whenever the circle does not reach the limit point. The program itself ends and plots three points of the ascending branch, each on the circle about the one before, the residuals below 3e-11. Reflecting the start in the axis of the parabola reflects the result: on the descending branch the choice of the larger load factor turns the method round, so a step from there ends further left and higher.", "quantifier": "all starting points, radii, current unknowns and load factors; all numbers of loop tests above the stated bound", "why_tests_cant": "The script plots one run. That the passes converge monotonically from every start, with which error, and that the rule of the larger root can never follow the descending branch are statements about all starts and radii.", "anchors": ["applications/arc_length/demo_analytical.py:12-80"]}
{"id": "C118", "title": "Benchmarks: load steps of the plasticity test, reported average stress, areas and forces from face integrals", "statement": "A finished load step of the plasticity benchmark stores, at every quadrature point, the closest stress to the elastic prediction that satisfies the yield condition, and the strain of the new displacement; displacement and nodal forces fit the clamped ends and the prescribed lift to 1e-6, or to 1e-8 of the misfit of the undisplaced bar. A finished run has one step per displacement, each starting from the stresses and strains the previous one stored, the first from zero. compute_avg_stress is the volume mean of the stored stresses; it satisfies the yield condition itself and is symmetric. For any stresses on any mesh without folded cells, volume times mean stress equals the sum over the nodes of coordinate times nodal force, and the nodal forces have no resultant; so with plane ends ten times the force on the top and volume times mean stress differ by at most the misfit times the sum of the heights. surface_integral visits every face all of whose vertices are selected once, weighted with the area of the mapped face; compute_surface_area gives that area in each component for every solution; compute_traction of a displacement with constant gradient is the third column of the stress times the area, whatever the orientation of the face; a location function with an unsupported number of arguments is refused.", "quantifier": "all meshes, element tables, stored variables, displacements lists, tangents and linear solvers for which the step finishes; all stresses, solutions, integrands and location functions", "why_tests_cant": "The tests compare one mesh with files of another program. Equality of mean stress and reaction force, the yield condition for the mean and the independence of the area from the solution are statements about all meshes and histories.", "anchors": ["tests/benchmarks/plasticity/test_plasticity.py:16-160", "tests/benchmarks/hyperelasticity/test_hyper_elasticity.py:36-70", "tests/benchmarks/linear_elasticity_cylinder/test_linear_elasticity_cylinder.py:39-75"]}
{"id": "C119", "title": "Natural boundaries: affine solutions on meshes with partly free sides, and the linear Poisson benchmark", "statement": "On a mesh of first-order elements (TRI3, QUAD4, TET4, HEX8) with invertible Jacobians and a material law that is the same everywhere, an affine field has zero residual at a degree of freedom whenever every side at its node is shared by another cell or is flat and tangent to the corresponding row of the constant stress. No boundary condition is needed there. For a strictly monotone law, affine values at the other degrees of freedom and every node connected with them, an array solves the problem if and only if it holds the affine field. The meshes of rectangle_mesh and box_mesh satisfy the side condition at all nodes that are, along each axis, either strictly inside or such that the flux has no component along it. Consequence for the linear Poisson benchmark: on every mesh between x=0 and x=1 with insulated sides, whatever the shapes of its cells, solver(problem) with default options returns the x coordinate at every node after exactly one Newton step; on box_mesh with fewer than 50000 cells along x it returns i/Nx.", "quantifier": "all conforming meshes of first-order elements, all laws, affine fields, sets of constrained degrees of freedom; for the benchmark all meshes that fit the layer, all exact linear solvers, all fuel from 2 on", "why_tests_cant": "The benchmark test compares one mesh with one stored file. That the answer is exact on distorted meshes and needs one step from the zero start depends on the cancellation of fluxes over all shared sides and on the well-posedness of the discrete problem.", "anchors": ["tests/benchmarks/linear_poisson/test_linear_poisson.py:15-55", "jax_fem/problem.py:178-218", "jax_fem/solver.py:1285-1337", "jax_fem/generate_mesh.py:76-160"]}
{"id": "C120", "title": "Differentiable mesh example: the finite-difference check compares like with like and converges to the gradient", "statement": "pick_fd_node_on_neumann_edge returns the first of the nodes within 1e-3 of y=0 and strictly between the corners that are nearest to (0.35, 0); if there is none it silently returns node 0. Moving that node vertically within the strip changes neither the Dirichlet entries nor the Neumann faces of a freshly constructed problem, so the RuntimeError about face counts is not raised when |y|+eps <= 1e-3. When a face count does differ the RuntimeError is raised. The maps and boundary data state the equation solved by sin(pi x)(1+y). The discrete nonlinear Poisson problem has exactly one solution on every mesh with cells of positive measure, non-degenerate selected faces and all nodes connected with Dirichlet nodes, and its tangent is regular at every state. With exact solvers value_and_grad therefore succeeds and the quotient (J+ - J-)/(2 eps) of two independently constructed problems converges, as eps tends to 0, to the entry of the gradient for the ordinate of the picked node. All this holds for the script's QUAD4 mesh of the unit square with 2..9999 by 1..999 cells.", "quantifier": "all meshes, elements with the stated properties, nodes in the strip, exact solvers; for the last part all numbers of cells in the stated range", "why_tests_cant": "The script compares two numbers for one mesh and one step. That both belong to the same function of the node position, that this function is differentiable and that no solve can fail near the given mesh is a statement about all nearby meshes.", "anchors": ["applications/differentiable_mesh/example.py:45-165", "applications/differentiable_mesh/finite_difference.py:7-52", "jax_fem/solver.py:1340-1460"]}
{"id": "C121", "title": "Linear elasticity benchmarks: one Newton step gives the only equilibrium of body force, traction and supports", "statement": "The tests linear_elasticity_cube and linear_elasticity_cylinder, on any mesh with cells of positive measure in which all nodes are held by the nodes at x=0 (z=0), do not raise: the loaded faces are exactly the faces all vertices of which satisfy isclose to x=1 (z=10), each once; solver(problem) with exact tangent and linear solver returns, after one Newton step (cylinder: or after none, if the load on every free node is at most 1e-6), displacements that equal the prescribed value at the supports and, with stresses by the inverse law E eps = (1+nu) sigma - nu tr(sigma) 1, do the virtual power of the body force and traction of the test with their signs; no other displacements do. The reactions of the supports balance every load in all translations and rotations. On box_mesh(Nx,Ny,Nz,1,Ly,Lz) with Nx < 50000 the loaded faces are the faces 3 of the cells of the last layer, and the reactions of the cube test sum up to -10 Ly Lz in each direction.", "quantifier": "all meshes, elements and face tables with the stated properties, all exact tangents and linear solvers that may depend on the problem; for the last part all numbers of cells, side lengths and product rules", "why_tests_cant": "The tests compare one component of the solution with one file on one mesh with a tolerance. That the fields are in equilibrium with the intended loads, that nothing else is, and that the face selection has no gaps or duplicates is a statement about all test functions and meshes.", "anchors": ["tests/benchmarks/linear_elasticity_cube/test_linear_elasticity_cube.py:15-73", "tests/benchmarks/linear_elasticity_cylinder/test_linear_elasticity_cylinder.py:15-113", "jax_fem/problem.py:80-90", "jax_fem/fe.py:209-253"]}
{"id": "C122", "title": "Scalability problems: density-scaled Neo-Hookean cube under stretch and lateral traction", "statement": "The stress of the inverse problem (AD of the energy scaled with rho, determinant floored at 1e-14) is rho times the Neo-Hookean Piola stress where the determinant of the deformation gradient exceeds the floor, and rho mu (1e-14)^(-2/3) F, without volumetric resistance, where it is below. For every mesh with cells of positive measure and every field of displacements without inverted cells: the residual rows off the ends x=0 and x=1 vanish iff the stress power equals the power of the traction (0,-0.001,0) on the selected faces for every test field that is zero at the ends, and with rho=1 the inverse problem has the solutions of the forward problem; with rho=0.5 it has those of the forward problem under twice the traction, and the objective is the sum of the squares of all nodal displacements. In every such equilibrium the ends exert the force opposite to the traction times the loaded area, and their moments balance the moment of the traction at the deformed positions. On the generated unit cube with Nx,Ny,Nz cells (Nx, Ny < 50000) the construction does not raise, the loaded faces are exactly faces 4 of the cells with j=Ny-1, each once, the prescribed rows are those of the two ends with 0 and (0.02,0,0), and the ends exert exactly +0.001 in y in every solution.", "quantifier": "all meshes and tables with the stated properties, all densities per quadrature point, all displacements with determinants above the floor; all numbers of cells and product rules for the cube", "why_tests_cant": "The scripts only time the solver on a few meshes. Equivalence of the two problems, the sign of the load and the force balance hold for all fields and densities; the behaviour below the floor appears only in inverted cells.", "anchors": ["applications/scalability/hyperelastic3d_common.py:9-141", "applications/scalability/example_forward.py:1-42", "applications/scalability/example_inverse_timing.py:20-90"]}
{"id": "C123", "title": "Hyperelasticity benchmark: what a returned solution guarantees", "statement": "Let the benchmark's problem (neo-Hookean body, E=1000, nu=0.3, clamped at z=0, moved by (0,0,1) at z=10) be built on any mesh whose cells have positive measure, and let solver(problem) return with its default options, for whatever tangents and linear solver it used. Then the returned list has one row of three numbers per node; at every node of the top plate the displacement differs from (0,0,1), and at every node of the bottom plate from 0, by at most max(1e-6, 1e-8 sqrt(number of top nodes)); if no quadrature point is turned inside out, the power of the Piola stresses in every motion with resting plates is at most that tolerance times the Euclidean length of the motion; and for shape functions that form a partition of unity the total force of both plates in a direction w is at most the tolerance times sqrt(number of nodes) |w|. If all nodes belong to the plates and at least one to the top, and the linear solver is exact, the solver returns after exactly one step with the prescribed displacements, whatever the tangents.", "quantifier": "all meshes, elements and quadrature tables with positive cell measures, all tangents, all linear solvers, all numbers of loop iterations until return, all test motions and directions", "why_tests_cant": "The test compares one solution with a stored file. That a return alone bounds the error in the plates' displacements, the unbalanced power and the plates' net force on every mesh (also when a linear solve was inexact) is a statement about all executions.", "anchors": ["tests/benchmarks/hyperelasticity/test_hyper_elasticity.py:15-34", "tests/benchmarks/hyperelasticity/test_hyper_elasticity.py:73-109", "jax_fem/solver.py:1285-1337"]}
{"id": "C124", "title": "Boundary selection by point and by node number on a rectangle", "statement": "On the rectangle mesh of Nx by Ny cells (Nx, Ny < 50000) built by the boundary_index script: node_inds_list is the left column of nodes (by point) followed by the existing nodes named in the index set (by number), in increasing order; numbers of nodes that do not exist are ignored. boundary_inds_list is the list of faces 0 of the cells of the lowest row (by point) followed by exactly the faces both of whose end nodes, numbered as drawn in the script's comments (faces 0 below, 1 left, 2 right, 3 above), are named in the index set, each once. If the sets name the right and the top edge, the lists are the right column of nodes and the faces 3 of the uppermost row of cells, and they equal those of location functions that look at the coordinates. For the script's 2 by 2 mesh and sets the printed lists are [[0,1,2],[6,7,8]] and [[(0,0),(2,0)],[(1,3),(3,3)]].", "quantifier": "all numbers of cells below 50000 in each direction, all index sets (also with repetitions and numbers out of range)", "why_tests_cant": "The script prints the lists for one mesh and one pair of sets. Agreement of both kinds of location functions and of the drawn local face numbering holds for every grid and every set of node numbers.", "anchors": ["applications/boundary_index/example.py:27-96", "jax_fem/fe.py:220-258", "jax_fem/fe.py:271-322", "jax_fem/problem.py:80"]}
{"id": "C125", "title": "Robin example: hand-written kernels, weak form and uniqueness", "statement": "For every mesh and every element and face table: the residual that the robin_bc class computes with its hand-written cell kernel and surface kernels equals that of the library's kernels for the gradient, the negative source and the commented-out surface map 5u^2, for every two lists of faces and every input array. The selection by left and right gives, without repetition, exactly the faces with all nodes at x = 0 and exactly those with all nodes at x = 1 (up to the tolerance of isclose). For these faces, the residual rows of the nodes off the lower and upper edge vanish iff the integral of grad u . grad v minus the integral of f v plus the integral of 5 u^2 v over the two sides is zero for every test field v that vanishes at those edges (f = x sin(5 pi y) + exp(-((x-1/2)^2+(y-1/2)^2)/0.02)). The Dirichlet information is accepted, and prescribes exactly the nodes of the lower and upper edge (up to the tolerance of isclose), with the value 1. If the gradients of the element are determined by its quadrature points, the face measures are not negative and every node is connected through cells with a node of one of these edges, at most one solution with the value 1 at the edges is not negative at the quadrature points of the sides.", "quantifier": "all meshes with cells of positive measure, all tables, all arrays of nodal values, all test fields", "why_tests_cant": "The script computes one solution on one mesh; a comment says that it agrees with FEniCS for this quadrature order. Equality of the two ways to write the class, the sign of the boundary flux and uniqueness are statements about all fields.", "anchors": ["applications/robin_bc/example.py:19-135", "jax_fem/problem.py:189-259", "jax_fem/problem.py:270-330", "jax_fem/problem.py:462-475"]}
