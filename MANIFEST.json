{"claims": [
 {"property": "C01", "status": "proved", "theorems": ["JaxFem.C01_row_number", "JaxFem.C01_flatten_position", "JaxFem.C01_in_range", "JaxFem.C01_injective", "JaxFem.C01_surjective", "JaxFem.C01_unflatten_flatten", "JaxFem.C01_flatten_unflatten", "JaxFem.C01_cell_index"], "note": ""},
 {"property": "C02", "status": "proved", "theorems": ["JaxFem.C02_batching", "JaxFem.C02_batching_per_cell", "JaxFem.C02_empty_mesh_raises", "JaxFem.C02_batches_nonempty", "JaxFem.C02_batch_size_pos"], "note": ""},
 {"property": "C03", "status": "proved", "theorems": ["JaxFem.C03_residual_sum", "JaxFem.C03_local_exists", "JaxFem.C03_untouched_node"], "note": ""},
 {"property": "C04", "status": "proved", "theorems": ["JaxFem.C04_triplets", "JaxFem.C04_numbering_exists"], "note": ""},
 {"property": "C05", "status": "proved", "theorems": ["JaxFem.C05_tangent_is_derivative"], "note": ""},
 {"property": "C06", "status": "proved", "theorems": ["JaxFem.C06_residual_order", "JaxFem.C06_matrix_order", "JaxFem.C06_cell_permutation", "JaxFem.C06_renumber_residual", "JaxFem.C06_renumber_matrix"], "note": ""},
 {"property": "C07", "status": "proved", "theorems": ["JaxFem.C07_sparsity", "JaxFem.C07_locality", "JaxFem.C07_symmetry"], "note": ""},
 {"property": "C08", "status": "proved", "theorems": ["JaxFem.C08_force_balance"], "note": ""},
 {"property": "C09", "status": "proved", "theorems": ["JaxFem.C09_translation"], "note": ""},
 {"property": "C10", "status": "proved", "theorems": ["JaxFem.C10_affine_gradient", "JaxFem.C10_affine_value", "JaxFem.C10_coordinates", "JaxFem.C10_affine_face_value", "JaxFem.C10_first_order_unity"], "note": ""},
 {"property": "C11", "status": "proved", "theorems": ["JaxFem.C11_moment_balance"], "note": ""},
 {"property": "C12", "status": "proved", "theorems": ["JaxFem.C12_edge", "JaxFem.C12_face", "JaxFem.C12_quad4_edge_length", "JaxFem.C12_tri3_edge_length", "JaxFem.C12_tet4_face_area"], "note": ""},
 {"property": "C13", "status": "proved", "theorems": ["JaxFem.C13_rectangle", "JaxFem.C13_box"], "note": ""},
 {"property": "C14", "status": "proved", "theorems": ["JaxFem.C14_selection", "JaxFem.C14_errors", "JaxFem.C14_unique"], "note": ""},
 {"property": "C15", "status": "proved", "theorems": ["JaxFem.C15_faces", "JaxFem.C15_errors", "JaxFem.C15_count"], "note": ""},
 {"property": "C16", "status": "proved", "theorems": ["JaxFem.C16_prescribed_unique", "JaxFem.C16_residual", "JaxFem.C16_assign", "JaxFem.C16_assign_constants", "JaxFem.C16_copy"], "note": ""},
 {"property": "C17", "status": "proved", "theorems": ["JaxFem.C17_rows", "JaxFem.C17_derivative", "JaxFem.C17_tangent"], "note": ""},
 {"property": "C18", "status": "proved", "theorems": ["JaxFem.C18_initial_guess", "JaxFem.C18_full_steps", "JaxFem.C18_kept", "JaxFem.C18_damped"], "note": ""},
 {"property": "C19", "status": "proved", "theorems": ["JaxFem.C19_idempotent", "JaxFem.C19_compose", "JaxFem.C19_frame"], "note": ""},
 {"property": "C20", "status": "proved", "theorems": ["JaxFem.C20_converged", "JaxFem.C20_nan_raises", "JaxFem.C20_inf_raises", "JaxFem.C20_zero_start"], "note": ""},
 {"property": "C21", "status": "proved", "theorems": ["JaxFem.C21_linear", "JaxFem.C21_independent"], "note": ""},
 {"property": "C22", "status": "partial", "theorems": ["JaxFem.C22_steps", "JaxFem.C22_not_worse_partial", "JaxFem.C22_line_search", "JaxFem.C22_nan_counterexample", "JaxFem.C22_may_increase"], "note": "Step set and first-worse-half rule hold for every norm function including NaN (C22_steps); the not-worse claim is proved when no tried norm is NaN (C22_not_worse_partial) and refuted with NaN (C22_nan_counterexample)."},
 {"property": "C23", "status": "proved", "theorems": ["JaxFem.C23_never_stale", "JaxFem.C23_api_never_stale", "JaxFem.C23_inplace_stale", "JaxFem.C23_moved_stale"], "note": "Proved for every history without in-place array mutation and without moving an array object between variables, and unconditionally for histories made of the library's own operations. Both side conditions are necessary: C23_inplace_stale and C23_moved_stale exhibit stale results otherwise."},
 {"property": "C24", "status": "proved", "theorems": ["JaxFem.C24_documented", "JaxFem.C24_stable", "JaxFem.C24_defaults", "JaxFem.C24_bad_block"], "note": ""},
 {"property": "C25", "status": "partial", "theorems": ["JaxFem.C25_violated", "JaxFem.C25_violated_adjoint", "JaxFem.C25_unchanged_partial", "JaxFem.C25_flat_partial"], "note": "The full claim is false: an empty nested 'linear' block and the adjoint options (including the shared default) are mutated (C25_violated, C25_violated_adjoint). The partial theorems give the unaffected option shapes."},
 {"property": "C26", "status": "proved", "theorems": ["JaxFem.C26_checked", "JaxFem.C26_nan", "JaxFem.C26_unchecked", "JaxFem.C26_amgx"], "note": ""},
 {"property": "C27", "status": "partial", "theorems": ["JaxFem.C27_violated", "JaxFem.C27_precond_true_partial"], "note": "Holds when the preconditioner is on; false with precond=False (C27_violated)."},
 {"property": "C28", "status": "proved", "theorems": ["JaxFem.C28_empty", "JaxFem.C28_flat", "JaxFem.C28_one", "JaxFem.C28_several", "JaxFem.C28_legacy", "JaxFem.C28_flat_linear_ignored"], "note": ""},
 {"property": "C29", "status": "proved", "theorems": ["JaxFem.C29_constraint_disp", "JaxFem.C29_constraint_force", "JaxFem.C29_corrector", "JaxFem.C29_failure"], "note": ""},
 {"property": "C30", "status": "proved", "theorems": ["JaxFem.C30_bc_disp", "JaxFem.C30_bc_force"], "note": ""},
 {"property": "C31", "status": "proved", "theorems": ["JaxFem.C31_root_selection", "JaxFem.C31_first_step"], "note": ""},
 {"property": "C32", "status": "proved", "theorems": ["JaxFem.C32_displacement", "JaxFem.C32_force", "JaxFem.C32_errors"], "note": ""},
 {"property": "C33", "status": "partial", "theorems": ["JaxFem.C33_fixed_partial", "JaxFem.C33_result_partial", "JaxFem.C33_estimate_defined", "JaxFem.C33_nan_violated"], "note": "Prescribed values are held and returned for every iteration in which the damping estimate is defined (C33_fixed_partial, C33_result_partial, C33_estimate_defined); an undefined (NaN) damping estimate poisons constrained entries too (C33_nan_violated)."},
 {"property": "C34", "status": "proved", "theorems": ["JaxFem.C34_range", "JaxFem.C34_nan", "JaxFem.C34_decay", "JaxFem.C34_exact"], "note": ""},
 {"property": "C35", "status": "partial", "theorems": ["JaxFem.C35_converged_partial", "JaxFem.C35_invalid_start", "JaxFem.C35_violated"], "note": "A finite returned residual norm is below the tolerance (C35_converged_partial); a NaN norm leaves the loop and is returned without an error (C35_violated)."},
 {"property": "C36", "status": "proved", "theorems": ["JaxFem.C36_derivative", "JaxFem.C36_range", "JaxFem.C36_dirichlet", "JaxFem.C36_converged", "JaxFem.C36_solution", "JaxFem.C36_line_search", "JaxFem.C36_not_closed", "JaxFem.C36_start", "JaxFem.C36_start_wrong"], "note": ""},
 {"property": "C37", "status": "proved", "theorems": ["JaxFem.C37_pairing", "JaxFem.C37_matrix", "JaxFem.C37_inds", "JaxFem.C37_run", "JaxFem.C37_row", "JaxFem.C37_chain", "JaxFem.C37_repeated"], "note": ""},
 {"property": "C38", "status": "proved", "theorems": ["JaxFem.C38_adjoint", "JaxFem.C38_adjoint_mpc", "JaxFem.C38_branch"], "note": "C38_adjoint takes the solution branch as given; C38_branch derives it (existence, local uniqueness, differentiability) from a regular solution by the implicit function theorem."},
 {"property": "C39", "status": "proved", "theorems": ["JaxFem.C39_history", "JaxFem.C39_two_histories", "JaxFem.C39_tracers_left", "JaxFem.C39_needs_overwrite"], "note": ""},
 {"property": "C40", "status": "proved", "theorems": ["JaxFem.C40_reorder", "JaxFem.C40_supported", "JaxFem.C40_tables", "JaxFem.C40_faces", "JaxFem.C40_nodal"], "note": ""},
 {"property": "C41", "status": "proved", "theorems": ["JaxFem.C41_points", "JaxFem.C41_points_distinct", "JaxFem.C41_cells", "JaxFem.C41_indices", "JaxFem.C41_conforming", "JaxFem.C41_counterclockwise"], "note": ""},
 {"property": "C42", "status": "proved", "theorems": ["JaxFem.C42_jacobian", "JaxFem.C42_points", "JaxFem.C42_points_distinct", "JaxFem.C42_cells", "JaxFem.C42_indices", "JaxFem.C42_conforming"], "note": ""},
 {"property": "C43", "status": "proved", "theorems": ["JaxFem.C43_cells", "JaxFem.C43_dropped"], "note": ""},
 {"property": "C44", "status": "proved", "theorems": ["JaxFem.C44_values", "JaxFem.C44_rejects", "JaxFem.C44_symmetry"], "note": ""},
 {"property": "C45", "status": "proved", "theorems": ["JaxFem.MMA.C45_bounds", "JaxFem.MMA.C45_factor", "JaxFem.MMA.C45_start"], "note": ""},
 {"property": "C46", "status": "proved", "theorems": ["JaxFem.MMA.C46_start", "JaxFem.MMA.C46_line_search", "JaxFem.MMA.C46_inner", "JaxFem.MMA.C46_subsolv", "JaxFem.MMA.C46_terminates"], "note": ""},
 {"property": "C47", "status": "proved", "theorems": ["JaxFem.MMA.C47_optimize", "JaxFem.MMA.C47_returns"], "note": ""},
 {"property": "C48", "status": "proved", "theorems": ["JaxFem.MMA.C48_centroid", "JaxFem.MMA.C48_similar", "JaxFem.MMA.C48_units", "JaxFem.MMA.C48_too_few", "JaxFem.MMA.C48_weights", "JaxFem.MMA.C48_radius", "JaxFem.MMA.C48_average"], "note": ""},
 {"property": "C49", "status": "proved", "theorems": ["JaxFem.MMA.C49_adjoint", "JaxFem.MMA.C49_gradient", "JaxFem.MMA.C49_small"], "note": ""},
 {"property": "C50", "status": "proved", "theorems": ["JaxFem.Files.C50_convert", "JaxFem.Files.C50_newlines", "JaxFem.Files.C50_in_place", "JaxFem.Files.C50_missing", "JaxFem.Files.C50_no_old_header"], "note": ""},
 {"property": "C51", "status": "proved", "theorems": ["JaxFem.Files.C51_dirname", "JaxFem.Files.C51_save", "JaxFem.Files.C51_succeeds", "JaxFem.Files.C51_clash"], "note": ""},
 {"property": "C52", "status": "proved", "theorems": ["JaxFem.Quiet.C52_update", "JaxFem.Quiet.C52_face_table", "JaxFem.Quiet.C52_quiet_points", "JaxFem.Quiet.C52_history", "JaxFem.Quiet.C52_exchange_undetected"], "note": ""},
 {"property": "C53", "status": "proved", "theorems": ["JaxFem.C53_repair", "JaxFem.C53_degenerate", "JaxFem.C53_empty"], "note": ""},
 {"property": "C54", "status": "proved", "theorems": ["JaxFem.Plasticity.C54_admissible", "JaxFem.Plasticity.C54_elastic", "JaxFem.Plasticity.C54_plastic", "JaxFem.Plasticity.C54_volumetric", "JaxFem.Plasticity.C54_projection", "JaxFem.Plasticity.C54_symmetric", "JaxFem.Plasticity.C54_history", "JaxFem.Plasticity.C54_elastic_history", "JaxFem.Plasticity.C54_moduli", "JaxFem.Plasticity.C54_step"], "note": ""},
 {"property": "C55", "status": "proved", "theorems": ["JaxFem.FinitePlasticity.C55_step", "JaxFem.FinitePlasticity.C55_history", "JaxFem.FinitePlasticity.C55_isochoric", "JaxFem.FinitePlasticity.C55_cauchy"], "note": ""},
 {"property": "C56", "status": "proved", "theorems": ["JaxFem.Explicit.C56_row_sum", "JaxFem.Explicit.C56_total_mass", "JaxFem.Explicit.C56_mask", "JaxFem.Explicit.C56_fixed", "JaxFem.Explicit.C56_scheme", "JaxFem.Explicit.C56_reversible"], "note": ""},
 {"property": "C57", "status": "proved", "theorems": ["JaxFem.Parallel.C57_element", "JaxFem.Parallel.C57_shape_exists", "JaxFem.Parallel.C57_global_dof", "JaxFem.Parallel.C57_assembly", "JaxFem.Parallel.C57_system", "JaxFem.Parallel.C57_collective"], "note": ""},
 {"property": "C58", "status": "partial", "theorems": ["JaxFem.C58_released_partial", "JaxFem.C58_balanced_partial", "JaxFem.C58_destroy_fails_leak"], "note": "All resources are released exactly once provided the destroy calls themselves do not raise; C58_destroy_fails_leak shows the leak otherwise."},
 {"property": "C59", "status": "partial", "theorems": ["JaxFem.C59_violated", "JaxFem.C59_single_partial"], "note": "False for several variables: the CSR shape uses only the first variable and the constructor raises (C59_violated); proved for one variable (C59_single_partial)."},
 {"property": "C60", "status": "proved", "theorems": ["JaxFem.Jit.C60_residual", "JaxFem.Jit.C60_newton", "JaxFem.Jit.C60_frozen", "JaxFem.Jit.C60_inconsistent"], "note": ""},
 {"property": "C61", "status": "partial", "theorems": ["JaxFem.Jit.C61_kernels_partial", "JaxFem.Jit.C61_both", "JaxFem.Jit.C61_detected", "JaxFem.Jit.C61_gap"], "note": "False for classes defining both get_surface_maps and get_universal_kernels_surface: only the first list is compared with the number of boundary subsets (C61_gap, C61_both). Proved for classes with one kind of definition."},
 {"property": "C62", "status": "proved", "theorems": ["JaxFem.MMA.C62_first_order"], "note": ""},
 {"property": "C63", "status": "proved", "theorems": ["JaxFem.MMA.C63_elimination"], "note": ""},
 {"property": "C64", "status": "proved", "theorems": ["JaxFem.MMA.C64_residual", "JaxFem.MMA.C64_lagrangian", "JaxFem.MMA.C64_kkt", "JaxFem.MMA.C64_line_search", "JaxFem.MMA.C64_descent"], "note": ""},
 {"property": "C65", "status": "proved", "theorems": ["JaxFem.Plasticity.C65_admissible", "JaxFem.Plasticity.C65_phase", "JaxFem.Plasticity.C65_response"], "note": ""},
 {"property": "C66", "status": "proved", "theorems": ["JaxFem.FinitePlasticity.C66_step", "JaxFem.FinitePlasticity.C66_history"], "note": ""},
 {"property": "C67", "status": "proved", "theorems": ["JaxFem.Explicit.C67_energy"], "note": ""},
 {"property": "C68", "status": "proved", "theorems": ["JaxFem.C68_facet", "JaxFem.C68_interpolation", "JaxFem.C68_symmetric", "JaxFem.C68_conforming", "JaxFem.C68_nodal"], "note": ""},
 {"property": "C69", "status": "proved", "theorems": ["JaxFem.C69_values", "JaxFem.C69_grads", "JaxFem.C69_unity", "JaxFem.C69_derivative", "JaxFem.C69_face", "JaxFem.C69_tables", "JaxFem.C69_serendipity_counterexample"], "note": ""},
 {"property": "C70", "status": "partial", "theorems": ["JaxFem.C70_disp_partial", "JaxFem.C70_force_partial", "JaxFem.C70_linear", "JaxFem.C70_unchecked"], "note": "The residual is evaluated before the last correction, so that the returned state itself is unchecked: C70_unchecked gives a one-degree-of-freedom problem with consistent tangent whose returned state is out of balance by 5. Proved: arc constraint, boundary values, the tolerance at the state before the last correction, and exact equilibrium for affine residuals."},
 {"property": "C71", "status": "proved", "theorems": ["JaxFem.Parallel.C71_points", "JaxFem.Parallel.C71_cells", "JaxFem.Parallel.C71_orientation", "JaxFem.Parallel.C71_disjoint", "JaxFem.Parallel.C71_cover", "JaxFem.Parallel.C71_conforming", "JaxFem.Parallel.C71_boundary"], "note": ""},
 {"property": "C72", "status": "proved", "theorems": ["JaxFem.C72_weak_form", "JaxFem.C72_galerkin"], "note": ""},
 {"property": "C73", "status": "proved", "theorems": ["JaxFem.C73_unique", "JaxFem.C73_determines", "JaxFem.C73_hourglass", "JaxFem.C73_patch", "JaxFem.C73_patch_solution"], "note": "Strict monotonicity is required in the full gradient; linear elasticity (monotone in the symmetric part only) is treated in C82."},
 {"property": "C74", "status": "proved", "theorems": ["JaxFem.C74_affine", "JaxFem.C74_regular", "JaxFem.C74_solver", "JaxFem.C74_patch"], "note": "Under the hypotheses of C73, which exclude linear elasticity; that is C82."},
 {"property": "C75", "status": "proved", "theorems": ["JaxFem.C75_single", "JaxFem.C75_list", "JaxFem.C75_rejected", "JaxFem.C75_pack_iff", "JaxFem.C75_cells", "JaxFem.C75_faces", "JaxFem.C75_slice"], "note": ""},
 {"property": "C76", "status": "proved", "theorems": ["JaxFem.C76_weak_form", "JaxFem.C76_incompressible", "JaxFem.C76_velocity_unique"], "note": "Uniqueness concerns the velocity gradient; uniqueness of the pressure needs an inf-sup condition and is not claimed."},
 {"property": "C77", "status": "proved", "theorems": ["JaxFem.C77_weak_form", "JaxFem.C77_energy_step", "JaxFem.C77_stable"], "note": "Steps are assumed to be solved exactly (zero residual at the free degrees of freedom); the tolerance of the iterative solver is not propagated."},
 {"property": "C78", "status": "proved", "theorems": ["JaxFem.C78_weak_form", "JaxFem.C78_energy", "JaxFem.C78_stable"], "note": "Steps are assumed to be solved exactly; displacement and temperature share the geometry (equal measures), as in the example."},
 {"property": "C79", "status": "proved", "theorems": ["JaxFem.Dendrite.C79_enthalpy_step", "JaxFem.Dendrite.C79_enthalpy_run", "JaxFem.Dendrite.C79_explicit_step", "JaxFem.Dendrite.C79_explicit_defect", "JaxFem.Dendrite.C79_lumped_mass"], "note": "Semi-implicit steps are assumed to be solved exactly; the explicit theorem needs a nonzero area at every node. The noise is an argument; the script draws it with the same key in every step."},
 {"property": "C80", "status": "proved", "theorems": ["JaxFem.Dendrite.C80_flux_gradient", "JaxFem.Dendrite.C80_reaction_derivative", "JaxFem.Dendrite.C80_phase_variation", "JaxFem.Dendrite.C80_implicit_variation"], "note": "J integer, as in the parameter files (J = 6)."},
 {"property": "C81", "status": "proved", "theorems": ["JaxFem.DendriteFD.C81_theta", "JaxFem.DendriteFD.C81_eps", "JaxFem.DendriteFD.C81_laplace", "JaxFem.DendriteFD.C81_enthalpy", "JaxFem.DendriteFD.C81_max_principle", "JaxFem.DendriteFD.C81_zero_flux", "JaxFem.DendriteFD.C81_stale", "JaxFem.DendriteFD.C81_flux", "JaxFem.DendriteFD.C81_update", "JaxFem.DendriteFD.C81_frozen_arrays"], "note": "The conservation statement is about T_field; the edges are overwritten afterwards. C81_stale states what the compiled script does, which is not what the source reads like; an example shows the two differ in the second pass. Also C81_frozen_arrays."},
 {"property": "C82", "status": "proved", "theorems": ["JaxFem.C82_monotone", "JaxFem.C82_rigid", "JaxFem.C82_hourglass", "JaxFem.C82_supports", "JaxFem.C82_unique", "JaxFem.C82_unsupported", "JaxFem.C82_solver", "JaxFem.C82_box"], "note": "Quadrilateral and hexahedral cells must be affine images of the reference cell (as those of rectangle_mesh and box_mesh are); general bilinear cells and second-order elements are not treated. Held counts only nodes with all components fixed as a start (no rollers). C82_solver and C82_box assume exact linear solves as in C21."},
 {"property": "C83", "status": "proved", "theorems": ["JaxFem.UL.C83_residual", "JaxFem.UL.C83_loop", "JaxFem.UL.C83_end_to_end", "JaxFem.UL.C83_material"], "note": "The solver is a parameter; a successful call is assumed to solve the step exactly (the residual identity C83_residual holds for inexact solutions as well). Determinants must exceed the floor 1e-14 of the code at the returned increments. The gradient with respect to the density (ad_wrapper) is C38, not repeated here."},
 {"property": "C84", "status": "proved", "theorems": ["JaxFem.C84_smooth", "JaxFem.C84_mesh_gradient", "JaxFem.Refresh.C84_history", "JaxFem.Refresh.C84_rebuilt", "JaxFem.Refresh.C84_short", "JaxFem.Refresh.C84_residual", "JaxFem.Refresh.C84_gradient"], "note": "C84_mesh_gradient is for single-variable problems in the tensor/mass/surface-map form (Problem1) and holds the Dirichlet values fixed, as the code does; the derivative of Dirichlet values that depend on the coordinates is not part of what the code returns (see DESIGN.md section 6). Missing rows of a too-short points array are modelled as zero (jnp.take gives NaN)."},
 {"property": "C85", "status": "proved", "theorems": ["JaxFem.SplitVars.C85_weak_form", "JaxFem.SplitVars.C85_residual", "JaxFem.SplitVars.C85_dirichlet", "JaxFem.SplitVars.C85_scripts", "JaxFem.SplitVars.C85_solutions", "JaxFem.SplitVars.C85_supports"], "note": "Both variables live on the same mesh, as in the script."},
 {"property": "C86", "status": "proved", "theorems": ["JaxFem.Eigen.C86_well_defined", "JaxFem.Eigen.C86_calculus", "JaxFem.Eigen.C86_isotropic", "JaxFem.Eigen.C86_symmetric", "JaxFem.Eigen.C86_jvp"], "note": "Exact arithmetic: in floating point the divided difference of nearly equal eigenvalues cancels. jax.numpy.linalg.eigh is taken with its documented default symmetrize_input=True."},
 {"property": "C87", "status": "proved", "theorems": ["JaxFem.Fracture.C87_phase_field", "JaxFem.Fracture.C87_displacement", "JaxFem.Fracture.C87_history", "JaxFem.Fracture.C87_accept", "JaxFem.Fracture.C87_constants", "JaxFem.Fracture.C87_stops", "JaxFem.Fracture.C87_from_rest", "JaxFem.Fracture.C87_split", "JaxFem.Fracture.C87_stress", "JaxFem.Fracture.C87_monotone"], "note": "jax.grad is taken as the Frechet derivative, which is proved to exist; what JAX's rule for eigh computes at exactly repeated eigenvalues (the reason for the noise) is not modelled. Bounds 0 <= d <= 1 and growth of d are not claimed for the discrete problem."},
 {"property": "C88", "status": "proved", "theorems": ["JaxFem.Hyper.C88_stress", "JaxFem.Hyper.C88_variants", "JaxFem.Hyper.C88_energy", "JaxFem.Hyper.C88_linear", "JaxFem.Hyper.C88_smooth", "JaxFem.Hyper.C88_potential", "JaxFem.Hyper.C88_balance"], "note": "Powers of the real numbers; for determinants <= 0 the code gives NaN or infinity with exponent -2/3, and nothing is claimed there except for the two-dimensional energy. jax.grad is the Frechet derivative, which is proved to exist."},
 {"property": "C89", "status": "proved", "theorems": ["JaxFem.Crystal.C89_descent", "JaxFem.Crystal.C89_affine", "JaxFem.Crystal.C89_trial", "JaxFem.Crystal.C89_jvp", "JaxFem.Crystal.C89_smooth", "JaxFem.Crystal.C89_hardening", "JaxFem.Crystal.C89_average", "JaxFem.Crystal.C89_history", "JaxFem.Crystal.C89_rotation", "JaxFem.Crystal.C89_slip_systems", "JaxFem.Crystal.C89_elastic", "JaxFem.Crystal.C89_newton", "JaxFem.Crystal.C89_newton_failures", "JaxFem.Crystal.C89_time_step", "JaxFem.Crystal.C89_reference", "JaxFem.Crystal.C89_symmetry", "JaxFem.Crystal.C89_equations", "JaxFem.Crystal.C89_slip", "JaxFem.Crystal.C89_volume", "JaxFem.Crystal.C89_volume_fails", "JaxFem.Crystal.C89_stress", "JaxFem.Crystal.C89_objective"], "note": "Real arithmetic with real powers; the linear solver of the local Newton step is arbitrary (C89_jvp: exact for invertible operators). The norm in the loop may be NaN or infinite (C89_newton). C89_volume_fails: the explicit Fp update violates plastic incompressibility in uniaxial tension."},
 {"property": "C90", "status": "proved", "theorems": ["JaxFem.C90_small_loads", "JaxFem.C90_quadratic", "JaxFem.C90_cycle", "JaxFem.C90_solid", "JaxFem.C90_box"], "note": "Exact arithmetic; the linear solver may be inexact (C90_small_loads) and the norm in the stopping test is any function that is continuous and zero at zero. The result is characterised by its distance to the solution, not by the tolerance alone (C20 does that). C90_cycle: exact linear solver, no line search, tolerances below 1 and 1/2."},
 {"property": "C91", "status": "proved", "theorems": ["JaxFem.C91_converges", "JaxFem.C91_comparison", "JaxFem.C91_maximum", "JaxFem.C91_stretched", "JaxFem.C91_solver", "JaxFem.C91_stencil"], "note": "Exact arithmetic, Dirichlet conditions on all four sides (Quickstart.md); the error is measured at the nodes. C91_solver: exact linear solver, zero tolerance."},
 {"property": "C92", "status": "proved", "theorems": ["JaxFem.C92_cantilever", "JaxFem.C92_load", "JaxFem.C92_solver", "JaxFem.C92_gradient", "JaxFem.C92_plane_stress", "JaxFem.C92_materials", "JaxFem.C92_set_params", "JaxFem.C92_densities", "JaxFem.C92_objective", "JaxFem.C92_volume", "JaxFem.C92_filtered", "JaxFem.C92_compliance", "JaxFem.C92_monotone", "JaxFem.C92_expansion", "JaxFem.C92_sensitivity", "JaxFem.C92_bounds"], "note": "Exact arithmetic; integer penalty exponents (3. and 5. in the code). C92_solver and C92_gradient: exact linear solvers, zero tolerance."},
 {"property": "C93", "status": "proved", "theorems": ["JaxFem.C93_gradient", "JaxFem.C93_affine", "JaxFem.C93_nodes", "JaxFem.C93_order", "JaxFem.C93_hex8_counterexample"], "note": "Exact arithmetic over the reals. The serendipity elements are covered for sol_to_grad; basix points of these elements (used by the example only) are not modelled."},
 {"property": "C94", "status": "proved", "theorems": ["JaxFem.Contact.C94_energy", "JaxFem.Contact.C94_frame", "JaxFem.Contact.C94_stress", "JaxFem.Contact.C94_polar", "JaxFem.Contact.C94_plane", "JaxFem.Contact.C94_mean", "JaxFem.Contact.C94_reference", "JaxFem.Contact.C94_discrete", "JaxFem.Contact.C94_supports", "JaxFem.Contact.C94_sequence"], "note": "Exact arithmetic over the reals; jax.grad is the derivative of the energy (JAX differentiates through eigh, which gives NaN for coinciding eigenvalues). The region of the solid (thetas) and the solver are not modelled here; convergence of the steps is not claimed."},
 {"property": "C95", "status": "proved", "theorems": ["JaxFem.Mpi.C95_kernel", "JaxFem.Mpi.C95_clockwise", "JaxFem.Mpi.C95_one_point", "JaxFem.Mpi.C95_local_mesh", "JaxFem.Mpi.C95_newton", "JaxFem.Mpi.C95_run", "JaxFem.Mpi.C95_source", "JaxFem.Mpi.C95_square", "JaxFem.Mpi.C95_tolerance", "JaxFem.Mpi.C95_rms", "JaxFem.Mpi.C95_gather", "JaxFem.Mpi.C95_scatter", "JaxFem.Mpi.C95_scatter_lost", "JaxFem.Mpi.C95_system", "JaxFem.Mpi.C95_collective", "JaxFem.Mpi.C95_definite", "JaxFem.Mpi.C95_discrete_unique", "JaxFem.Mpi.C95_newton_unique", "JaxFem.Mpi.C95_independent"], "note": "Exact arithmetic over the reals. What DMPlex and the sections hand to the ranks is input, specified by IsPartition. The linear solver is arbitrary up to returning solutions (C95_newton, C95_independent) and succeeding on nonsingular matrices (C95_run); convergence of the Newton iteration is not claimed."},
 {"property": "C96", "status": "proved", "theorems": ["JaxFem.Surrogate.C96_frame", "JaxFem.Surrogate.C96_moment", "JaxFem.Surrogate.C96_reference", "JaxFem.Surrogate.C96_energy", "JaxFem.Surrogate.C96_hyperelastic", "JaxFem.Surrogate.C96_fit", "JaxFem.Surrogate.C96_unfit", "JaxFem.Surrogate.C96_svk", "JaxFem.Surrogate.C96_area", "JaxFem.Surrogate.C96_cases", "JaxFem.Surrogate.C96_flat", "JaxFem.Surrogate.C96_samples", "JaxFem.Surrogate.C96_invariant", "JaxFem.Surrogate.C96_initial", "JaxFem.Surrogate.C96_poly", "JaxFem.Surrogate.C96_network", "JaxFem.Surrogate.C96_batch", "JaxFem.Surrogate.C96_loss", "JaxFem.Surrogate.C96_kink"], "note": "Exact arithmetic over the reals; jax.grad is the derivative. The optimiser (adam) and the data are not modelled. C96_kink: the gradient of the network need not be differentiable (elu is only once continuously differentiable), so no theorem about the tangent is claimed."},
 {"property": "C97", "status": "proved", "theorems": ["JaxFem.LM.C97_equilibrium", "JaxFem.LM.C97_regular", "JaxFem.LM.C97_unique", "JaxFem.LM.C97_singular", "JaxFem.LM.C97_dirichlet", "JaxFem.LM.C97_conflict", "JaxFem.LM.C97_periodic", "JaxFem.LM.C97_residual", "JaxFem.LM.C97_lagrangian", "JaxFem.LM.C97_blocks", "JaxFem.LM.C97_symmetric", "JaxFem.LM.C97_tangent", "JaxFem.LM.C97_newton", "JaxFem.LM.C97_step", "JaxFem.LM.C97_result", "JaxFem.LM.C97_linear", "JaxFem.LM.C97_petsc", "JaxFem.LM.C97_bar", "JaxFem.LM.C97_corners"], "note": "Exact arithmetic over the reals. The module is read with the imports of solver.py and the attributes of the older Problem class it was written for (one variable); the linear solver is exact whenever it returns. UnboundLocalError is represented by Err.runtime."},
 {"property": "C98", "status": "proved", "theorems": ["JaxFem.Rve.C98_moduli", "JaxFem.Rve.C98_internal", "JaxFem.Rve.C98_traction", "JaxFem.Rve.C98_fallback", "JaxFem.Rve.C98_samples", "JaxFem.Rve.C98_collect", "JaxFem.Rve.C98_split", "JaxFem.Rve.C98_gradient", "JaxFem.Rve.C98_minimum", "JaxFem.Rve.C98_objective", "JaxFem.Rve.C98_surrogate", "JaxFem.Rve.C98_solver", "JaxFem.Rve.C98_singular", "JaxFem.Rve.C98_energy", "JaxFem.Rve.C98_displacement", "JaxFem.Rve.C98_hill"], "note": "Exact arithmetic over the reals. The scripts are read with the older Mechanics class they import; the weak form is that of Problem1, periodic conditions are those of C97. Existence of a minimum or of a differentiable family of solutions is a hypothesis. C98_fallback, C98_singular and the last part of C98_collect describe defects of the code as it is. The sampler is represented by the bounds it scales to."},
 {"property": "C99", "status": "proved", "theorems": ["JaxFem.Modal.C99_single_cell", "JaxFem.Modal.C99_forms", "JaxFem.Modal.C99_definite", "JaxFem.Modal.C99_sensitivity", "JaxFem.Modal.C99_modes", "JaxFem.Modal.C99_softmin", "JaxFem.Modal.C99_feasible", "JaxFem.Modal.C99_gradient", "JaxFem.Modal.C99_uniform", "JaxFem.Modal.C99_errors", "JaxFem.Modal.C99_rectangle", "JaxFem.Modal.C99_solver"], "note": "Exact arithmetic over the reals. The eigensolver is an input; what is assumed of it is the structure Nearest, which C99_solver shows to be satisfiable for all positive densities. C99_sensitivity is met by the dilation of a single cell (C99_single_cell). For C99_gradient the separation of the kept eigenvalues is a hypothesis that is not exhibited on a mesh (it needs at least five nodes). Repeated eigenvalues, for which the computed sensitivity depends on the choice of the eigenvector, are not covered."},
 {"property": "C100", "status": "proved", "theorems": ["JaxFem.Inverse.C100_stationary", "JaxFem.Inverse.C100_reachable", "JaxFem.Inverse.C100_ambiguous", "JaxFem.Inverse.C100_difference", "JaxFem.Inverse.C100_index", "JaxFem.Inverse.C100_linear", "JaxFem.Inverse.C100_rectangle", "JaxFem.Inverse.C100_source"], "note": "Exact real arithmetic; norm, linear solvers and tangent are inputs subject to the structure Exact (solvers return a solution of a regular system, norm vanishes only at zero, tol = 0, tangent is the derivative). The optimiser of the tutorial is covered by C92/C93 in part and not repeated here. The non-uniqueness needs at least four quadrature points per cell."},
 {"property": "C101", "status": "proved", "theorems": ["JaxFem.Control.C101_control", "JaxFem.Control.C101_minimum", "JaxFem.Control.C101_difference", "JaxFem.Control.C101_index", "JaxFem.Control.C101_corner", "JaxFem.Control.C101_blind", "JaxFem.Control.C101_set_params", "JaxFem.Control.C101_weak_form", "JaxFem.Control.C101_triangles"], "note": "Exact real arithmetic; norm, linear solvers and tangent are inputs subject to the structure Exact, as in C100. The mesh file and the location functions are not modelled, the Dirichlet lists are arbitrary well-formed lists. That the body is held and that the temperatures are anchored are assumptions of the general theorems, C101_triangles derives them for linear triangles."},
 {"property": "C102", "status": "proved", "theorems": ["JaxFem.ForwardMode.C102_jvp", "JaxFem.ForwardMode.C102_duality", "JaxFem.ForwardMode.C102_newton", "JaxFem.ForwardMode.C102_newton_jvp", "JaxFem.ForwardMode.C102_file", "JaxFem.ForwardMode.C102_nested", "JaxFem.ForwardMode.C102_jit", "JaxFem.ForwardMode.C102_safe_sqrt", "JaxFem.ForwardMode.C102_stack"], "note": "C102_jvp: branch, directional derivative, transposed rule; C102_duality: agreement with implicit_vjp (C38); C102_newton, C102_newton_jvp; C102_file, C102_nested: residuals kept in a file; C102_jit; C102_safe_sqrt; C102_stack. autodiff_utils.py is modelled with the meaning its calls had; as it stands its import fails (section 5)."},
 {"property": "C103", "status": "proved", "theorems": ["JaxFem.CoDesign.C103_inspect_lag", "JaxFem.CoDesign.C103_step", "JaxFem.CoDesign.C103_material", "JaxFem.CoDesign.C103_history", "JaxFem.CoDesign.C103_inspect", "JaxFem.CoDesign.C103_constraints", "JaxFem.CoDesign.C103_loads", "JaxFem.CoDesign.C103_forward", "JaxFem.CoDesign.C103_value", "JaxFem.CoDesign.C103_gradient", "JaxFem.CoDesign.C103_family", "JaxFem.CoDesign.C103_compliance", "JaxFem.CoDesign.C103_structure"], "note": "C103_forward, C103_gradient, C103_family: any sequence of dependent implicit steps; C103_structure: the elastic-plastic structure; C103_step, C103_history, C103_material; C103_compliance, C103_constraints, C103_loads; C103_inspect, C103_inspect_lag: the yield output. C103_Example.lean: a tetrahedron that yields meets all hypotheses of C103_structure."},
 {"property": "C104", "status": "proved", "theorems": ["JaxFem.Shape.C104_angle", "JaxFem.Shape.C104_hole", "JaxFem.Shape.C104_inside", "JaxFem.Shape.C104_cells", "JaxFem.Shape.C104_sensitivity", "JaxFem.Shape.C104_density", "JaxFem.Shape.C104_material", "JaxFem.Shape.C104_gradient", "JaxFem.Shape.C104_formula", "JaxFem.Shape.C104_energy"], "note": "C104_angle, C104_hole, C104_inside, C104_cells, C104_sensitivity (geometry); C104_density, C104_material; C104_gradient, C104_formula (adjoint gradient); C104_energy. C104_Example.lean: a compressed triangle meets all hypotheses of C104_gradient and C104_formula for every design."},
 {"property": "C105", "status": "proved", "theorems": ["JaxFem.Traction.C105_ambiguous", "JaxFem.Traction.C105_difference", "JaxFem.Traction.C105_load", "JaxFem.Traction.C105_reference", "JaxFem.Traction.C105_misfit", "JaxFem.Traction.C105_gradient", "JaxFem.Traction.C105_formula", "JaxFem.Traction.C105_stationary"], "note": "C105_load, C105_reference, C105_misfit; C105_gradient, C105_formula, C105_stationary; C105_ambiguous, C105_difference. C105_Example.lean: a tetrahedron stretched by a traction at four quadrature points of a face with three nodes meets the hypotheses of all theorems."},
 {"property": "C106", "status": "proved", "theorems": ["JaxFem.Gradients.C106_wrong_check", "JaxFem.Gradients.C106_gradient", "JaxFem.Gradients.C106_formula", "JaxFem.Gradients.C106_mismatch", "JaxFem.Gradients.C106_stale", "JaxFem.Gradients.C106_script", "JaxFem.Gradients.C106_raises", "JaxFem.Gradients.C106_check", "JaxFem.Gradients.C106_boundary", "JaxFem.Gradients.C106_balance"], "note": "C106_boundary, C106_balance; C106_gradient, C106_formula, C106_mismatch; C106_stale, C106_script, C106_check. C106_Example.lean: C106_wrong_check is a spring for which the difference quotient for E is 0 and the derivative is -2; a tetrahedron that is moved at its base and shortened by the traction meets the hypotheses, with a positive derivative for E. Also C106_raises."},
 {"property": "C107", "status": "proved", "theorems": ["JaxFem.UserBC.C107_rows", "JaxFem.UserBC.C107_solution", "JaxFem.UserBC.C107_order", "JaxFem.UserBC.C107_builds", "JaxFem.UserBC.C107_wrong_component", "JaxFem.UserBC.C107_wrong_component_stalls", "JaxFem.UserBC.C107_conditions"], "note": "C107_conditions, C107_rows, C107_solution, C107_order, C107_builds; C107_wrong_component and C107_wrong_component_stalls describe the missing check (indices outside an array are dropped by JAX updates; negative components are not modelled). A tuple given for several meshes, which the code passes to every variable, is not modelled."},
 {"property": "C108", "status": "proved", "theorems": ["JaxFem.Beams.C108_load", "JaxFem.Beams.C108_resultant", "JaxFem.Beams.C108_faces", "JaxFem.Beams.C108_nodes", "JaxFem.Beams.C108_boundary", "JaxFem.Beams.C108_path_force", "JaxFem.Beams.C108_path_disp", "JaxFem.Beams.C108_states_disp", "JaxFem.Beams.C108_assertion", "JaxFem.Beams.C108_steps", "JaxFem.Beams.C108_states_force", "JaxFem.Beams.C108_result", "JaxFem.Beams.C108_increments_disp", "JaxFem.Beams.C108_increments_force"], "note": "C108_faces, C108_nodes, C108_load, C108_resultant, C108_boundary, C108_path_force, C108_path_disp, C108_states_disp, C108_states_force, C108_assertion, C108_steps, C108_result. The run theorems assume that a returning corrector call is a result of the arc-length loop (C29, C70) and that the linear solver respects identity rows; nothing is claimed about convergence. The recorded states need not be equilibria within the tolerance (C70_unchecked). File output and printing are not modelled."},
 {"property": "C109", "status": "proved", "theorems": ["JaxFem.FinitePlasticity.C109_step", "JaxFem.FinitePlasticity.C109_history", "JaxFem.FinitePlasticity.C109_shear"], "note": "C109_step, C109_history, C109_shear. Proved about the code as it is; the comment at model.py:58 is refuted by C109_shear."},
 {"property": "C110", "status": "proved", "theorems": ["JaxFem.Timing.C110_times", "JaxFem.Timing.C110_failures", "JaxFem.Timing.C110_levels", "JaxFem.Timing.C110_logger", "JaxFem.Timing.C110_foreign_handler", "JaxFem.Timing.C110_decorators", "JaxFem.Timing.C110_result", "JaxFem.Timing.C110_journal"], "note": "C110_result (transparency), C110_journal, C110_times, C110_failures, C110_logger, C110_levels, C110_foreign_handler, C110_decorators. Log lines are data; rounding by the format strings is not modelled. Times are exact differences of the clock readings."},
 {"property": "C111", "status": "proved", "theorems": ["JaxFem.FinitePlasticity.C111_plate", "JaxFem.FinitePlasticity.C111_plate_conflict", "JaxFem.FinitePlasticity.C111_supports", "JaxFem.FinitePlasticity.C111_step", "JaxFem.FinitePlasticity.C111_iterations", "JaxFem.FinitePlasticity.C111_repeat", "JaxFem.FinitePlasticity.C111_start", "JaxFem.FinitePlasticity.C111_scales", "JaxFem.FinitePlasticity.C111_history", "JaxFem.FinitePlasticity.C111_single_cell", "JaxFem.FinitePlasticity.C111_thin_plate", "JaxFem.FinitePlasticity.C111_reevaluate"], "note": "C111_reevaluate (material point), C111_step, C111_iterations, C111_repeat, C111_start, C111_history, C111_scales, C111_single_cell, C111_thin_plate, C111_plate, C111_plate_conflict, C111_supports. Exact arithmetic; tangent and linear solver arbitrary. If the step at full load ended by the relative tolerance only, the repeated step iterates further (C111_iterations)."},
 {"property": "C112", "status": "proved", "theorems": ["JaxFem.Sensitivity.C112_balance", "JaxFem.Sensitivity.C112_local", "JaxFem.Sensitivity.C112_value", "JaxFem.Sensitivity.C112_gradient", "JaxFem.Sensitivity.C112_conditions", "JaxFem.Sensitivity.C112_rotation", "JaxFem.Sensitivity.C112_singular", "JaxFem.Sensitivity.C112_schedule", "JaxFem.Sensitivity.C112_turned", "JaxFem.Sensitivity.C112_tangent", "JaxFem.Sensitivity.C112_first", "JaxFem.Sensitivity.C112_volume", "JaxFem.Sensitivity.C112_stress_outcome", "JaxFem.Sensitivity.C112_volume_outcome", "JaxFem.Sensitivity.C112_stress_gradient", "JaxFem.Sensitivity.C112_volume_gradient", "JaxFem.Sensitivity.C112_smooth", "JaxFem.Sensitivity.C112_law", "JaxFem.Sensitivity.C112_differentiable", "JaxFem.Sensitivity.C112_stale"], "note": "C112_value, C112_gradient (any script of this shape), C112_stale (counterexample for an attribute in the residual), C112_conditions, C112_rotation, C112_singular, C112_turned, C112_tangent, C112_first, C112_volume, C112_stress_outcome, C112_volume_outcome, C112_stress_gradient, C112_volume_gradient, C112_smooth, C112_law, C112_differentiable, C112_local (equations of a time step at a quadrature point). Exact arithmetic; the existence of a differentiable family of equilibria is a hypothesis, since the tangent is singular (shown for one tetrahedron in C112_Example). C112_balance: balance and start state of the scripts."},
 {"property": "C113", "status": "proved", "theorems": ["JaxFem.Quadrature.C113_rule", "JaxFem.Quadrature.C113_points", "JaxFem.Quadrature.C113_stiffness", "JaxFem.Quadrature.C113_default", "JaxFem.Quadrature.C113_load", "JaxFem.Quadrature.C113_mass", "JaxFem.Quadrature.C113_arrays", "JaxFem.Quadrature.C113_serendipity", "JaxFem.Quadrature.C113_spurious", "JaxFem.Quadrature.C113_singular", "JaxFem.Quadrature.C113_mass_reduced"], "note": "C113_rule, C113_points, C113_stiffness, C113_default, C113_load, C113_mass, C113_serendipity, C113_spurious, C113_singular, C113_mass_reduced. Exact arithmetic; Gauss rules and the rules on simplices from order 3 on enter through the documented moments; integrals are iterated integrals over the reference cell. Also C113_arrays."},
 {"property": "C114", "status": "proved", "theorems": ["JaxFem.Convergence.C114_exact", "JaxFem.Convergence.C114_affine", "JaxFem.Convergence.C114_blind", "JaxFem.Convergence.C114_script", "JaxFem.Convergence.C114_source", "JaxFem.Convergence.C114_supports", "JaxFem.Convergence.C114_order", "JaxFem.Convergence.C114_errors", "JaxFem.Convergence.C114_zero", "JaxFem.Convergence.C114_strang", "JaxFem.Convergence.C114_best"], "note": "C114_errors, C114_zero, C114_source, C114_supports, C114_order, C114_strang, C114_best, C114_exact, C114_affine, C114_blind, C114_script. Exact arithmetic; derivatives of jax are Fréchet derivatives; no bound of the consistency functional of the tetrahedral meshes of the script is proved, it enters as D; the mesh generator and file output are not modelled."},
 {"property": "C115", "status": "proved", "theorems": ["JaxFem.Debug.C115_matrix", "JaxFem.Debug.C115_tangent", "JaxFem.Debug.C115_origin", "JaxFem.Debug.C115_constrained", "JaxFem.Debug.C115_nonlinear", "JaxFem.Debug.C115_report", "JaxFem.Debug.C115_reading", "JaxFem.Debug.C115_solver", "JaxFem.Debug.C115_raises"], "note": "C115_report, C115_reading, C115_solver, C115_raises, C115_matrix, C115_tangent, C115_origin, C115_constrained, C115_nonlinear. The report is a list of structured lines; the abbreviation of long arrays by numpy and the constant explanatory lines are not modelled; numbers are exact."},
 {"property": "C116", "status": "proved", "theorems": ["JaxFem.Patch.C116_elements", "JaxFem.Patch.C116_hanging", "JaxFem.Patch.C116_generated", "JaxFem.Patch.C116_gradient", "JaxFem.Patch.C116_patch", "JaxFem.Patch.C116_solution", "JaxFem.Patch.C116_study"], "note": "C116_gradient, C116_patch, C116_solution, C116_study, C116_elements, C116_generated, C116_hanging. Interior nodes are described by the cells alone (every side occurs equally often in both orientations); that a geometrically conforming mesh has this property at its inner nodes is proved for the generated meshes and for examples, not for meshes from files. Exact arithmetic; no body force, no surface terms."},
 {"property": "C117", "status": "proved", "theorems": ["JaxFem.ArcDemo.C117_converges", "JaxFem.ArcDemo.C117_target", "JaxFem.ArcDemo.C117_demo", "JaxFem.ArcDemo.C117_mirror", "JaxFem.ArcDemo.C117_back", "JaxFem.ArcDemo.C117_pass", "JaxFem.ArcDemo.C117_residual"], "note": "C117_pass, C117_residual, C117_converges, C117_target, C117_demo, C117_mirror, C117_back. Real arithmetic; NaN as a separate value. Circles that reach over the limit point are covered by C117_pass and C117_residual only."},
 {"property": "C118", "status": "proved", "theorems": ["JaxFem.Benchmarks.C118_average", "JaxFem.Benchmarks.C118_yield", "JaxFem.Benchmarks.C118_symmetric", "JaxFem.Benchmarks.C118_run", "JaxFem.Benchmarks.C118_step", "JaxFem.Benchmarks.C118_surface", "JaxFem.Benchmarks.C118_area", "JaxFem.Benchmarks.C118_traction", "JaxFem.Benchmarks.C118_refuses", "JaxFem.Benchmarks.C118_virial", "JaxFem.Benchmarks.C118_resultant"], "note": "C118_virial, C118_resultant, C118_step, C118_average, C118_yield, C118_symmetric, C118_run, C118_surface, C118_area, C118_traction, C118_refuses. Exact arithmetic; tangent and linear solver are parameters, termination of Newton's method is a hypothesis (a case where it always terminates is in C118_Example). C118_yield needs non-negative measures and positive volume."},
 {"property": "C119", "status": "proved", "theorems": ["JaxFem.PoissonBench.C119_box", "JaxFem.Patch.C119_generated", "JaxFem.Patch.C119_equilibrium", "JaxFem.Patch.C119_solution", "JaxFem.PoissonBench.C119_benchmark"], "note": "C119_equilibrium, C119_solution, C119_generated, C119_benchmark, C119_box. Exact arithmetic; linear solver exact, tangent = derivative of the residual (its existence is part of C119_box). Nodes within the tolerance of the location functions are assumed to lie exactly in the end planes (hypothesis Layer)."},
 {"property": "C120", "status": "proved", "theorems": ["JaxFem.MeshCheck.C120_poisson", "JaxFem.MeshCheck.C120_gradient", "JaxFem.MeshCheck.C120_guard", "JaxFem.C120_regular", "JaxFem.C120_wellposed", "JaxFem.MeshCheck.C120_manufactured", "JaxFem.MeshCheck.C120_conditions", "JaxFem.MeshCheck.C120_refuses", "JaxFem.MeshCheck.C120_pick", "JaxFem.MeshCheck.C120_selection", "JaxFem.MeshCheck.C120_square"], "note": "C120_pick, C120_selection, C120_conditions (what is prescribed and selected), C120_manufactured (the stated equation has the solution sin(pi x)(1+y)), C120_regular, C120_wellposed, C120_poisson, C120_gradient, C120_guard, C120_refuses, C120_square. Exact arithmetic; forward and adjoint solver exact, tangent = derivative of the residual. Convergence as the step tends to 0, no rate for the script's step 5e-6."},
 {"property": "C121", "status": "proved", "theorems": ["JaxFem.ElasticBench.C121_resultant", "JaxFem.ElasticBench.C121_box", "JaxFem.ElasticBench.C121_cube", "JaxFem.ElasticBench.C121_cylinder", "JaxFem.ElasticBench.C121_reactions"], "note": "C121_cube, C121_cylinder, C121_reactions, C121_resultant, C121_box. Exact arithmetic; the mesh is a parameter (the tests read files); writing and comparing files not modelled."},
 {"property": "C122", "status": "proved", "theorems": ["JaxFem.Scalability.C122_cube", "JaxFem.Scalability.C122_density", "JaxFem.Scalability.C122_classic", "JaxFem.Scalability.C122_inverse", "JaxFem.Scalability.C122_forces", "JaxFem.Scalability.C122_moments", "JaxFem.Scalability.C122_half"], "note": "C122_density, C122_classic, C122_inverse, C122_half, C122_forces, C122_moments, C122_cube. Exact arithmetic; existence of equilibria under the traction on fine meshes is not claimed; timing and file output not modelled."},
 {"property": "C123", "status": "proved", "theorems": ["JaxFem.HyperBench.C123_returned", "JaxFem.HyperBench.C123_forces", "JaxFem.HyperBench.C123_plates"], "note": "C123_returned, C123_forces, C123_plates. Exact arithmetic; convergence of the Newton iteration on the test's mesh is not claimed (the theorems speak about returned solutions, and about bodies whose nodes all belong to plates); comparison with the stored file not modelled."},
 {"property": "C124", "status": "proved", "theorems": ["JaxFem.BoundaryIndex.C124_nodes", "JaxFem.BoundaryIndex.C124_right", "JaxFem.BoundaryIndex.C124_faces", "JaxFem.BoundaryIndex.C124_top", "JaxFem.BoundaryIndex.C124_script"], "note": "C124_nodes, C124_right, C124_faces, C124_top, C124_script. Exact arithmetic; the script's surface map is not modelled (the script does not solve the problem)."},
 {"property": "C125", "status": "proved", "theorems": ["JaxFem.Robin.C125_kernels", "JaxFem.Robin.C125_weak", "JaxFem.Robin.C125_rows", "JaxFem.Robin.C125_sides", "JaxFem.Robin.C125_unique"], "note": "C125_kernels, C125_weak, C125_rows, C125_sides, C125_unique. Exact arithmetic; convergence of Newton's method and existence of a solution are not claimed; mesh files and output not modelled."}
]}
