{
 "claims": [
  {
   "property": "C01",
   "status": "proved",
   "theorems": [
    "PetIGA.Part.C01_processor_grid_bijection",
    "PetIGA.Part.C01_wrong_product_rejected",
    "PetIGA.Asm.C01_user_grid_accepted"
   ],
   "note": "any floating point guess (oracle)"
  },
  {
   "property": "C02",
   "status": "proved",
   "theorems": [
    "PetIGA.Part.C02_distribution_balanced",
    "PetIGA.Part.C02_distribute_iff"
   ],
   "note": ""
  },
  {
   "property": "C03",
   "status": "proved",
   "theorems": [
    "PetIGA.Elem.C03_each_element_once",
    "PetIGA.Elem.C03_failure_reported"
   ],
   "note": "from any history of iterator calls, on every process"
  },
  {
   "property": "C04",
   "status": "proved",
   "theorems": [
    "PetIGA.Ax.C04_next_knot_forward",
    "PetIGA.Ax.C04_next_knot_backward",
    "PetIGA.Ax.C04_next_knot_clamped",
    "PetIGA.Ax.C04_reads_in_range"
   ],
   "note": ""
  },
  {
   "property": "C05",
   "status": "proved",
   "theorems": [
    "PetIGA.Ax.C05_accepts_exactly_legal",
    "PetIGA.Ax.C05_effect"
   ],
   "note": ""
  },
  {
   "property": "C06",
   "status": "proved",
   "theorems": [
    "PetIGA.Ax.C06_spans_are_elements"
   ],
   "note": ""
  },
  {
   "property": "C07",
   "status": "proved",
   "theorems": [
    "PetIGA.Ax.C07_initBreaks",
    "PetIGA.Ax.C07_initUniform",
    "PetIGA.Ax.C07_initUniform_accepts",
    "PetIGA.Ax.C07_initBreaks_accepts"
   ],
   "note": ""
  },
  {
   "property": "C08",
   "status": "proved",
   "theorems": [
    "PetIGA.Ax.C08_initBreaks_periodic",
    "PetIGA.Ax.C08_initUniform_periodic"
   ],
   "note": ""
  },
  {
   "property": "C09",
   "status": "partial",
   "theorems": [
    "PetIGA.Ax.C09_accepted_axis_has_element_refuted",
    "PetIGA.Ax.C09_accepted_axis_has_element_partial"
   ],
   "note": "false: p=2, U=0,0,1,1,2,2 is accepted and has no element; true when the domain is not a point"
  },
  {
   "property": "C10",
   "status": "partial",
   "theorems": [
    "PetIGA.Ax.C10_find_span_brackets",
    "PetIGA.Ax.C10_find_span_clamps",
    "PetIGA.Ax.C10_find_span_reads",
    "PetIGA.Ax.C10_left_end_refuted",
    "PetIGA.Ax.C10_find_span_element_partial"
   ],
   "note": "false at u=U[p] when the first domain interval is empty (legal knots); proved for every other u, and for every u when the first and last domain intervals are non-empty"
  },
  {
   "property": "C11",
   "status": "proved",
   "theorems": [
    "PetIGA.Bsp.C11_values_are_cox_de_boor"
   ],
   "note": "exact arithmetic; arbitrary content of the uninitialised work arrays"
  },
  {
   "property": "C12",
   "status": "proved",
   "theorems": [
    "PetIGA.Bsp.C12_partition_of_unity"
   ],
   "note": ""
  },
  {
   "property": "C13",
   "status": "proved",
   "theorems": [
    "PetIGA.Bsp.C13_rows_are_derivatives",
    "PetIGA.Bsp.C13_pieces_are_bsplines",
    "PetIGA.Bsp.C13_library_call",
    "PetIGA.Bsp.C13_real_derivatives",
    "PetIGA.Bsp.C13_any_order"
   ],
   "note": "polynomial derivative over any ordered field, and the analytic derivative over the reals; C13_any_order: every number of rows requested, rows beyond it zero"
  },
  {
   "property": "C14",
   "status": "partial",
   "theorems": [
    "PetIGA.Lag.C14_rows_0_to_3",
    "PetIGA.Lag.C14_cardinal",
    "PetIGA.Lag.C14_newton_cotes_nodes",
    "PetIGA.Lag.C14_lagrange",
    "PetIGA.Lag.C14_lobatto_nodes",
    "PetIGA.Lag.C14_spectral_partial",
    "PetIGA.Lag.C14_order_4_refuted",
    "PetIGA.Lag.C14_spectral_degree_10_refuted"
   ],
   "note": "orders 0..3 proved; order 4 is always stored as zero (refuted); the spectral basis has coincident nodes from degree 10 on (refuted)"
  },
  {
   "property": "C15",
   "status": "proved",
   "theorems": [
    "PetIGA.Ax.C15_greville_in_support",
    "PetIGA.Ax.C15_greville_increasing",
    "PetIGA.Ax.C15_greville_distinct",
    "PetIGA.Ax.C15_greville_clamped"
   ],
   "note": ""
  },
  {
   "property": "C16",
   "status": "proved",
   "theorems": [
    "PetIGA.Rule.C16_legendre",
    "PetIGA.Rule.C16_lobatto",
    "PetIGA.Rule.C16_set_size"
   ],
   "note": "every real polynomial, against the interval integral; the rounding allowance is 1e-34 times the sum of |coefficients|"
  },
  {
   "property": "C17",
   "status": "proved",
   "theorems": [
    "PetIGA.Quad.C17_mapped_quadrature",
    "PetIGA.Quad.C17_reduced"
   ],
   "note": ""
  },
  {
   "property": "C18",
   "status": "partial",
   "theorems": [
    "PetIGA.Quad.C18_repeated_setup_refuted",
    "PetIGA.Quad.C18_repeated_setup_partial"
   ],
   "note": "false for the reduced rule: it loses a point at each set up; proved for the other rule types"
  },
  {
   "property": "C19",
   "status": "partial",
   "theorems": [
    "PetIGA.Rule.C19_retry_refuted",
    "PetIGA.Rule.C19_no_failure_partial"
   ],
   "note": "false: IGARuleSetSize(11) fails, repeating it succeeds with zero weights; proved for histories without a failed call"
  },
  {
   "property": "C20",
   "status": "partial",
   "theorems": [
    "PetIGA.Lay.C20_owned_nodes_partition_partial",
    "PetIGA.Lay.C20_owned_geometry_partition_partial",
    "PetIGA.Lay.C20_clamped_ends",
    "PetIGA.Asm.C20_setup_succeeds",
    "PetIGA.Lay.C20_first_interval_refuted"
   ],
   "note": "false when the first domain knot interval is empty (node 0 is owned by nobody); proved when the end intervals are not empty, which holds for clamped knots"
  },
  {
   "property": "C21",
   "status": "partial",
   "theorems": [
    "PetIGA.Lay.C21_ghosts_cover_closures_partial",
    "PetIGA.Lay.C21_collocation_wrap_refuted",
    "PetIGA.Lay.C21_last_interval_refuted"
   ],
   "note": "false for periodic collocation with few nodes (wraps to a negative node) and for an empty last interval; proved otherwise"
  },
  {
   "property": "C22",
   "status": "partial",
   "theorems": [
    "PetIGA.SetUp.C22_retry_refuted",
    "PetIGA.SetUp.C22_success_means_done_partial"
   ],
   "note": "false: after any failure past the dimension test a retry reports success and does nothing; proved for histories without a failed set-up"
  },
  {
   "property": "C23",
   "status": "proved",
   "theorems": [
    "PetIGA.Elem.C23_form_loop",
    "PetIGA.Elem.C23_form_loop_collocation"
   ],
   "note": ""
  },
  {
   "property": "C24",
   "status": "proved",
   "theorems": [
    "PetIGA.Elem.C24_closure",
    "PetIGA.Elem.C24_collocation_row",
    "PetIGA.Elem.C24_inside_after_setup"
   ],
   "note": ""
  },
  {
   "property": "C25",
   "status": "partial",
   "theorems": [
    "PetIGA.Elem.C25_get_indices_refuted",
    "PetIGA.Elem.C25_get_indices_partial"
   ],
   "note": "false: the row map is never stored; the other outputs are"
  },
  {
   "property": "C26",
   "status": "proved",
   "theorems": [
    "PetIGA.Grid.C26_global_numbering",
    "PetIGA.Grid.C26_local_to_global",
    "PetIGA.Grid.C26_local_to_global_range",
    "PetIGA.Grid.C26_after_setup_partial"
   ],
   "note": "every decomposition into boxes; the setup produces one except in the cases refuted under C20/C21"
  },
  {
   "property": "C27",
   "status": "proved",
   "theorems": [
    "PetIGA.Grid.C27_global_to_local",
    "PetIGA.Grid.C27_local_to_global_insert",
    "PetIGA.Grid.C27_round_trip",
    "PetIGA.Grid.C27_local_to_global_add",
    "PetIGA.Grid.C27_add_is_transpose"
   ],
   "note": "AO and VecScatter by their contracts"
  },
  {
   "property": "C28",
   "status": "partial",
   "theorems": [
    "PetIGA.Grid.C28_global_to_natural",
    "PetIGA.Grid.C28_natural_to_global",
    "PetIGA.Grid.C28_process_independent",
    "PetIGA.Grid.C28_global_round_trip",
    "PetIGA.Grid.C28_natural_round_trip",
    "PetIGA.Grid.C28_natural_round_trip_nonperiodic",
    "PetIGA.Grid.C28_after_setup_partial",
    "PetIGA.Grid.C28_condition",
    "PetIGA.Grid.C28_collocation_refuted"
   ],
   "note": "global to natural and back is the identity; natural to global and back is the identity on non-periodic grids and otherwise replaces every entry by that of the node it wraps to; false for collocation on some non-uniform periodic axes (index arrays partly uninitialised)"
  },
  {
   "property": "C29",
   "status": "proved",
   "theorems": [
    "PetIGA.Pool.C29_exclusive",
    "PetIGA.Pool.C29_accounting",
    "PetIGA.Pool.C29_safe",
    "PetIGA.Pool.C29_restore",
    "PetIGA.Pool.C29_reset",
    "PetIGA.Pool.C29_size_partial",
    "PetIGA.Pool.C29_size_refuted"
   ],
   "note": "any history of get, restore, reset and set-up. Extra finding: a vector held across a reset and restored later can be handed out with the wrong size (C29_size_refuted)"
  },
  {
   "property": "C30",
   "status": "proved",
   "theorems": [
    "PetIGA.Form.C30_last_setting_wins",
    "PetIGA.Form.C30_rejects_without_change",
    "PetIGA.Form.C30_iga_level",
    "PetIGA.Form.C30_visit_flags",
    "PetIGA.Form.C30_visit"
   ],
   "note": ""
  },
  {
   "property": "C31",
   "status": "partial",
   "theorems": [
    "PetIGA.Form.C31_reset_refuted",
    "PetIGA.Form.C31_reset_tables_lost_refuted",
    "PetIGA.Form.C31_clear_all_partial"
   ],
   "note": "false: IGAFormReset writes past the end of the form and drops the tables; clearing the six sides does empty a form"
  },
  {
   "property": "C32",
   "status": "proved",
   "theorems": [
    "PetIGA.Fix.C32_fix_list"
   ],
   "note": "from any history of calls on the form"
  },
  {
   "property": "C33",
   "status": "proved",
   "theorems": [
    "PetIGA.Fix.C33_flux_list"
   ],
   "note": "the boundary area is a parameter"
  },
  {
   "property": "C34",
   "status": "proved",
   "theorems": [
    "PetIGA.Fix.C34_entries",
    "PetIGA.Fix.C34_symmetric",
    "PetIGA.Fix.C34_solves_iff"
   ],
   "note": "over any commutative ring"
  },
  {
   "property": "C35",
   "status": "proved",
   "theorems": [
    "PetIGA.Fix.C35_fixValues",
    "PetIGA.Fix.C35_fixFunction",
    "PetIGA.Fix.C35_fixJacobian",
    "PetIGA.Fix.C35_newton_step"
   ],
   "note": "over any commutative ring"
  },
  {
   "property": "C36",
   "status": "proved",
   "theorems": [
    "PetIGA.Fix.C36_constrained_in_every_element",
    "PetIGA.Fix.C36_sides",
    "PetIGA.Fix.C36_assembled_row",
    "PetIGA.Fix.C36_assembled_solves_iff",
    "PetIGA.Fix.C36_dirichlet_problem"
   ],
   "note": "For any grid of configured axes and any history of calls on the form, a node constrained on the grid is constrained to the same value in all elements containing it; the assembled eliminated system is equivalent to the prescribed values plus the original equations at the other unknowns. Arithmetic is exact (a field of characteristic 0)."
  },
  {
   "property": "C37",
   "status": "partial",
   "theorems": [
    "PetIGA.Fix.C37_periodic_refuted",
    "PetIGA.Fix.C37_field_refuted",
    "PetIGA.Fix.C37_table_ignored_refuted",
    "PetIGA.Fix.C37_fix_list_partial",
    "PetIGA.Fix.C37_system_partial"
   ],
   "note": "Refuted: collocation honours values on the left side of a periodic direction, and a condition on a field >= dof makes it write out of bounds; linear systems also ignore the fix table. The partial theorems give the exact result when no condition is set on a periodic direction and all fields are below dof."
  },
  {
   "property": "C38",
   "status": "partial",
   "theorems": [
    "PetIGA.Mat.C38_pattern_partial",
    "PetIGA.Mat.C38_after_setup",
    "PetIGA.Mat.C38_periodic_ok",
    "PetIGA.Mat.C38_local_matrix",
    "PetIGA.Mat.C38_periodic_refuted",
    "PetIGA.Mat.C38_local_collocation_refuted"
   ],
   "note": "true for non-periodic axes and for periodic axes whose knots repeat (all those made by IGAAxisInitUniform/Breaks), and for MATIS matrices with the Galerkin method; false for other periodic knot vectors accepted by IGAAxisSetKnots, and MATIS with periodic collocation reads out of bounds"
  },
  {
   "property": "C39",
   "status": "proved",
   "theorems": [
    "PetIGA.Mat.C39_buffer"
   ],
   "note": ""
  },
  {
   "property": "C40",
   "status": "partial",
   "theorems": [
    "PetIGA.Ker.C40_rational_partial",
    "PetIGA.Ker.C40_untouched",
    "PetIGA.Ker.C40_rational_refuted"
   ],
   "note": "true for derivatives up to order 3; the code writes zeros for the fourth derivatives, so the order 4 claim is refuted"
  },
  {
   "property": "C41",
   "status": "partial",
   "theorems": [
    "PetIGA.Ker.C41_mapped_partial",
    "PetIGA.Ker.C41_exists",
    "PetIGA.Ker.C41_mapped_refuted"
   ],
   "note": "true for derivatives up to order 3; the code writes zeros for the fourth derivatives, so the order 4 claim is refuted"
  },
  {
   "property": "C42",
   "status": "proved",
   "theorems": [
    "PetIGA.Ker.C42_tensor_1d",
    "PetIGA.Ker.C42_tensor_2d",
    "PetIGA.Ker.C42_tensor_3d",
    "PetIGA.Ker.C42_ordering"
   ],
   "note": ""
  },
  {
   "property": "C43",
   "status": "proved",
   "theorems": [
    "PetIGA.Ker.C43_det_inverse"
   ],
   "note": ""
  },
  {
   "property": "C44",
   "status": "proved",
   "theorems": [
    "PetIGA.Ker.C44_normal",
    "PetIGA.Ker.C44_reflected_refuted"
   ],
   "note": "the condition that the map preserves orientation is needed: the second theorem is a counterexample without it"
  },
  {
   "property": "C45",
   "status": "partial",
   "theorems": [
    "PetIGA.IO.C45_round_trip_partial",
    "PetIGA.IO.C45_file_contents_partial",
    "PetIGA.IO.C45_periodic_refuted",
    "PetIGA.IO.C45_wrong_file",
    "PetIGA.IO.C45_other_dimension",
    "PetIGA.IO.C45_save_without_points"
   ],
   "note": "for any two numbers of processes, if the objects that load have the periodic flags of the file: the flag is not in the file (refuted); condition of C48 on the axes; binary viewer and VecView/VecLoad by contract"
  },
  {
   "property": "C46",
   "status": "partial",
   "theorems": [
    "PetIGA.IO.C46_geometry_round_trip_partial",
    "PetIGA.IO.C46_file_process_independent_partial",
    "PetIGA.IO.C46_file_contents_partial",
    "PetIGA.IO.C46_property_round_trip_partial",
    "PetIGA.IO.C46_rational_flag_refuted",
    "PetIGA.IO.C46_dims"
   ],
   "note": "condition of C48 on the axes; the rational flag is lost when weights differ by less than the tolerance (refuted); exact arithmetic (multiplying and dividing by a weight)"
  },
  {
   "property": "C47",
   "status": "partial",
   "theorems": [
    "PetIGA.FD.C47_jacobian_partial",
    "PetIGA.FD.C47_ijacobian_partial",
    "PetIGA.FD.C47_iejacobian_partial",
    "PetIGA.FD.C47_i2jacobian_partial",
    "PetIGA.FD.C47_rhsjacobian_partial",
    "PetIGA.FD.C47_affine_jacobian_partial",
    "PetIGA.FD.C47_affine_ijacobian_partial",
    "PetIGA.FD.C47_affine_iejacobian_partial",
    "PetIGA.FD.C47_affine_i2jacobian_partial",
    "PetIGA.FD.C47_affine_rhsjacobian_partial",
    "PetIGA.FD.C47_accumulating",
    "PetIGA.FD.C47_accumulating_refuted",
    "PetIGA.FD.C47_inputs_unchanged_partial",
    "PetIGA.FD.C47_inputs_after_error_refuted",
    "PetIGA.FD.C47_not_ready"
   ],
   "note": "true for callbacks that write every entry and succeed; false for callbacks that accumulate (the work array is not zeroed between columns) and the input stays perturbed if the callback fails; exact arithmetic"
  },
  {
   "property": "C48",
   "status": "partial",
   "theorems": [
    "PetIGA.Asm.C48_compute_scalar_partial",
    "PetIGA.Asm.C48_independent_partial"
   ],
   "note": "for every decomposition and iterator history, on axes whose first and last interval are not empty (Galerkin) or with at most half a turn of ghosts (collocation): otherwise the ghost region is too small (C21); exact sums; MPI_Allreduce by contract"
  },
  {
   "property": "C49",
   "status": "partial",
   "theorems": [
    "PetIGA.Asm.C49_error_norm_partial",
    "PetIGA.Asm.C49_negative",
    "PetIGA.Asm.C49_large_refuted",
    "PetIGA.Asm.C49_overflow_refuted",
    "PetIGA.Asm.C49_unset_order_refuted"
   ],
   "note": "negative orders are refused and orders up to min(4, iga order) computed; orders above 4 read outside the table, orders between the order of the IGA and 4 read uninitialised tables"
  },
  {
   "property": "C50",
   "status": "partial",
   "theorems": [
    "PetIGA.Crd.C50_parametric",
    "PetIGA.Crd.C50_linear_precision",
    "PetIGA.Crd.C50_geometry_partial",
    "PetIGA.Crd.C50_geometry_read",
    "PetIGA.Crd.C50_geometry_refuted"
   ],
   "note": "Proved for grids without a geometry (any dimension, Galerkin and collocation, any decomposition, end intervals not empty, spectral degree at most 16) and for one-dimensional geometries (geometry_partial; not periodic collocation). Does not hold with a geometry of dimension 2 or 3: src/petigansp.c:84 reads xyz[index+c] instead of xyz[index*nsd+c], so every node but the first of the ghosted box gets wrong coordinates (geometry_refuted; geometry_read says what is written)."
  },
  {
   "property": "C51",
   "status": "partial",
   "theorems": [
    "PetIGA.Asm.C51_vector_partial",
    "PetIGA.Asm.C51_vector_collocation_partial",
    "PetIGA.Asm.C51_matrix_partial",
    "PetIGA.Asm.C51_matrix_collocation_partial",
    "PetIGA.Asm.C51_independent_partial"
   ],
   "note": "under the condition of C48 on the axes; VecSetValues/MatSetValues with ADD_VALUES by contract; exact sums"
  },
  {
   "property": "C52",
   "status": "partial",
   "theorems": [
    "PetIGA.Prb.C52_collective",
    "PetIGA.Prb.C52_independent",
    "PetIGA.Prb.C52_vector",
    "PetIGA.Prb.C52_outside",
    "PetIGA.Prb.C52_refusals",
    "PetIGA.Prb.C52_single",
    "PetIGA.Prb.C52_value_1d",
    "PetIGA.Prb.C52_value_2d",
    "PetIGA.Prb.C52_value_3d",
    "PetIGA.Prb.C52_parametric_partial",
    "PetIGA.Prb.C52_position",
    "PetIGA.Prb.C52_mapped_partial",
    "PetIGA.Prb.C52_collocation_partial",
    "PetIGA.Prb.C52_collocation_refuted",
    "PetIGA.Prb.C52_periodic_collocation_refuted",
    "PetIGA.Prb.C52_stale_refuted"
   ],
   "note": "proved for every Galerkin set-up; with collocation only if every interval holds a collocation point, refuted otherwise (no process has the closure) and for periodic directions (out of bounds read); raising the order after setting the point is refuted; weights and maps up to order 3"
  },
  {
   "property": "C53",
   "status": "proved",
   "theorems": [
    "PetIGA.MG.C53_factors",
    "PetIGA.MG.C53_refused",
    "PetIGA.MG.C53_hierarchy"
   ],
   "note": "factors, refusals and the chain of coarser grids; DMDA and the interpolation are PETSc"
  },
  {
   "property": "C54",
   "status": "proved",
   "theorems": [
    "PetIGA.BDDC.C54_boundary",
    "PetIGA.BDDC.C54_after_setup_partial",
    "PetIGA.BDDC.C54_collocation_refuted",
    "PetIGA.BDDC.C54_field_out_of_range"
   ],
   "note": "as stated, for every box, flags and lists of fields in range (out of range: see C54_field_out_of_range); in addition, for the arguments computed after the setup, the lists are the boundary unknowns of the process for Galerkin discretisations and miss ghosted nodes with collocation"
  },
  {
   "property": "C55",
   "status": "partial",
   "theorems": [
    "PetIGA.BDDC.C55_colour_partial",
    "PetIGA.BDDC.C55_after_setup_partial",
    "PetIGA.BDDC.C55_collocation_refuted"
   ],
   "note": "when the subdomain lies in the box, which holds for Galerkin discretisations; refuted for collocation with an unsplit periodic direction (start is negative)"
  },
  {
   "property": "C56",
   "status": "partial",
   "theorems": [
    "PetIGA.DMF.C56_sub_dm",
    "PetIGA.DMF.C56_sub_dm_range",
    "PetIGA.DMF.C56_sub_dm_after_setup",
    "PetIGA.DMF.C56_fields_partial",
    "PetIGA.DMF.C56_fields_refuted",
    "PetIGA.DMF.C56_fields_after_setup_refuted"
   ],
   "note": "the index sets of a sub-DM are exactly the chosen fields of the owned unknowns; the index sets of DMCreateFieldIS are right on the first process or with one field, and refuted on every other process with two or more fields (the stride starts at the field number, not at the owned range)"
  },
  {
   "property": "C57",
   "status": "partial",
   "theorems": [
    "PetIGA.SetUp.C57_dim",
    "PetIGA.SetUp.C57_dof",
    "PetIGA.SetUp.C57_order",
    "PetIGA.SetUp.C57_frozen",
    "PetIGA.SetUp.C57_degree_partial",
    "PetIGA.SetUp.C57_degree_refuted",
    "PetIGA.SetUp.C57_processors"
   ],
   "note": "dimension and dof are write-once after any history; the degree of an axis can still be changed before its knots are given (refuted)"
  },
  {
   "property": "C58",
   "status": "proved",
   "theorems": [
    "PetIGA.Ref.C58_released_exactly",
    "PetIGA.Ref.C58_usable_iff",
    "PetIGA.Ref.C58_disciplined"
   ],
   "note": "one machine for all reference-counted classes, with forms shared between IGA objects by IGASetForm; memory is never reused in the model so that a use after release is seen"
  },
  {
   "property": "C59",
   "status": "partial",
   "theorems": [
    "PetIGA.SetUp.C59_clone_preserves",
    "PetIGA.SetUp.C59_tables_partial",
    "PetIGA.SetUp.C59_reduced_refuted"
   ],
   "note": "configuration, partition and geometry are preserved; tables and rules are preserved except for the reduced rule, whose clone has fewer points (refuted)"
  },
  {
   "property": "C60",
   "status": "partial",
   "theorems": [
    "PetIGA.Blk.C60_block",
    "PetIGA.Blk.C60_overlap",
    "PetIGA.Blk.C60_legal",
    "PetIGA.Blk.C60_after_setup_partial",
    "PetIGA.Blk.C60_refuted",
    "PetIGA.Blk.C60_last_process",
    "PetIGA.Blk.C60_example"
   ],
   "note": "legality for all set-ups; content for processes whose window reaches their owned nodes; refuted for the last process of a nonperiodic direction, whose last owned nodes are in no block"
  },
  {
   "property": "C61",
   "status": "proved",
   "theorems": [
    "PetIGA.Ker.C61_evaluate",
    "PetIGA.Ker.C61_laplacian",
    "PetIGA.Ker.C61_linear",
    "PetIGA.Ker.C61_constants"
   ],
   "note": ""
  },
  {
   "property": "C62",
   "status": "partial",
   "theorems": [
    "PetIGA.Part.C62_auto_grid_complete_2d_partial",
    "PetIGA.Part.C62_auto_grid_complete_3d_refuted"
   ],
   "note": "true with two directions in exact arithmetic; false with three directions (630 processes on 9x7x14)"
  },
  {
   "property": "C63",
   "status": "partial",
   "theorems": [
    "PetIGA.Ax.C63_refused_init_unchanged_refuted",
    "PetIGA.Ax.C63_init_partial"
   ],
   "note": "false: IGAAxisInit stores the degree before validating the knots"
  },
  {
   "property": "C64",
   "status": "partial",
   "theorems": [
    "PetIGA.Quad.C64_user_rule_tabulated_refuted",
    "PetIGA.Quad.C64_user_rule_tabulated_partial"
   ],
   "note": "false when a weight is not positive; proved when all weights are positive"
  },
  {
   "property": "C65",
   "status": "partial",
   "theorems": [
    "PetIGA.Elem.C65_point_data_partial",
    "PetIGA.Elem.C65_point_data_any_dim_partial",
    "PetIGA.Elem.C65_manifold_refuted"
   ],
   "note": "false for geometries with nsd different from dim: shape derivatives are read with the wrong stride"
  },
  {
   "property": "C66",
   "status": "partial",
   "theorems": [
    "PetIGA.Fix.C66_function",
    "PetIGA.Fix.C66_jacobian",
    "PetIGA.Fix.C66_consistent_iff",
    "PetIGA.Fix.C66_consistent_refuted"
   ],
   "note": "The residual part holds. The Jacobian row is the derivative of the residual exactly if the point interpolates its own node; refuted on the side of a two-dimensional patch."
  },
  {
   "property": "C67",
   "status": "partial",
   "theorems": [
    "PetIGA.SetUp.C67_setup_describes_partial",
    "PetIGA.SetUp.C67_axis_refuted",
    "PetIGA.SetUp.C67_processors_refuted"
   ],
   "note": "true for the first set-up and after IGAReset; false when axes or the processor grid are changed between two set-ups"
  },
  {
   "property": "C68",
   "status": "proved",
   "theorems": [
    "PetIGA.Quad.C68_collocation_tables",
    "PetIGA.Quad.C68_other_basis_refused"
   ],
   "note": ""
  },
  {
   "property": "C69",
   "status": "proved",
   "theorems": [
    "PetIGA.Mat.C69_preallocation",
    "PetIGA.Mat.C69_inserted"
   ],
   "note": "the counting done by the PETSc preallocation macros is modelled"
  },
  {
   "property": "C70",
   "status": "proved",
   "theorems": [
    "PetIGA.Ker.C70_inverse",
    "PetIGA.Ker.C70_gradient",
    "PetIGA.Ker.C70_none",
    "PetIGA.Ker.C70_manifold"
   ],
   "note": ""
  },
  {
   "property": "C71",
   "status": "partial",
   "theorems": [
    "PetIGA.Ker.C71_mapped_partial",
    "PetIGA.Ker.C71_parametric_partial"
   ],
   "note": "orders up to 3; order 4 is refuted by C40 and C41"
  },
  {
   "property": "C72",
   "status": "partial",
   "theorems": [
    "PetIGA.Area.C72_parametric",
    "PetIGA.Area.C72_mesh_load",
    "PetIGA.Area.C72_element_load",
    "PetIGA.Area.C72_geometry_2d_0",
    "PetIGA.Area.C72_geometry_2d_1",
    "PetIGA.Area.C72_geometry_3d_0",
    "PetIGA.Area.C72_geometry_3d_1",
    "PetIGA.Area.C72_geometry_3d_2",
    "PetIGA.Area.C72_consistent_refuted",
    "PetIGA.Area.C72_manifold_refuted"
   ],
   "note": "totals proved: per element with and without geometry (NURBS included, control points of the dimension of the domain, end functions interpolating), over the mesh without geometry; refuted: a node does not receive the integral of its function (all nodes of the side receive the same share), and for surfaces in space the kernels read the control points with the wrong stride"
  },
  {
   "property": "C73",
   "status": "partial",
   "theorems": [
    "PetIGA.IO.C73_vector_file_partial",
    "PetIGA.IO.C73_file_process_independent_partial",
    "PetIGA.IO.C73_vector_round_trip_partial"
   ],
   "note": "condition of C48 on the axes; VecView/VecLoad and VecScatter by contract"
  },
  {
   "property": "C74",
   "status": "partial",
   "theorems": [
    "PetIGA.MG.C74_partition_partial",
    "PetIGA.MG.C74_partition_refuted"
   ],
   "note": "proved for all levels but the coarsest; for the coarsest refuted (8 nodes on 3 processes are coarsened to 2 nodes)"
  },
  {
   "property": "C75",
   "status": "proved",
   "theorems": [
    "PetIGA.BDDC.C75_graph",
    "PetIGA.BDDC.C75_symmetric",
    "PetIGA.BDDC.C75_two_wrapped"
   ],
   "note": "each neighbour once if wrapped directions have at least three nodes (with two nodes it is listed twice)"
  },
  {
   "property": "C76",
   "status": "proved",
   "theorems": [
    "PetIGA.Blk.C76_element_blocks",
    "PetIGA.Blk.C76_repeated_refuted"
   ],
   "note": "proved for every set-up as stated; C76_repeated_refuted shows the condition on the number of nodes is needed"
  },
  {
   "property": "C77",
   "status": "proved",
   "theorems": [
    "PetIGA.Drv.C77_vector",
    "PetIGA.Drv.C77_matrix",
    "PetIGA.Drv.C77_system",
    "PetIGA.Drv.C77_function",
    "PetIGA.Drv.C77_jacobian",
    "PetIGA.Drv.C77_ifunction",
    "PetIGA.Drv.C77_ijacobian",
    "PetIGA.Drv.C77_iefunction",
    "PetIGA.Drv.C77_iejacobian",
    "PetIGA.Drv.C77_rhsfunction",
    "PetIGA.Drv.C77_rhsjacobian",
    "PetIGA.Drv.C77_i2function",
    "PetIGA.Drv.C77_i2jacobian"
   ],
   "note": "Galerkin elements; the collocation branches of the boundary conditions are C37 and C66"
  },
  {
   "property": "C78",
   "status": "proved",
   "theorems": [
    "PetIGA.Drv.C78_function",
    "PetIGA.Drv.C78_ifunction",
    "PetIGA.Drv.C78_iefunction",
    "PetIGA.Drv.C78_rhsfunction",
    "PetIGA.Drv.C78_i2function",
    "PetIGA.Drv.C78_function_at",
    "PetIGA.Drv.C78_ifunction_at"
   ],
   "note": "Galerkin discretisations; derivative in every direction; the _at versions for residuals differentiable only at admissible states"
  },
  {
   "property": "C79",
   "status": "proved",
   "theorems": [
    "PetIGA.Drv.C79_request",
    "PetIGA.Drv.C79_element",
    "PetIGA.Drv.C79_outside",
    "PetIGA.Drv.C79_point"
   ],
   "note": ""
  },
  {
   "property": "C80",
   "status": "proved",
   "theorems": [
    "PetIGA.Drv.C80_function",
    "PetIGA.Drv.C80_ifunction",
    "PetIGA.Drv.C80_iefunction",
    "PetIGA.Drv.C80_i2function",
    "PetIGA.Drv.C80_system",
    "PetIGA.Drv.C80_vector",
    "PetIGA.Drv.C80_matrix"
   ],
   "note": "Galerkin discretisations; over a field of characteristic 0. Rates and accelerations at constrained unknowns are taken as zero, as the code does"
  },
  {
   "property": "C81",
   "status": "partial",
   "theorems": [
    "PetIGA.Drv.C81_rate",
    "PetIGA.Drv.C81_rate_partial",
    "PetIGA.Drv.C81_rate_refuted"
   ],
   "note": "Does not hold in general: src/petigats.c:402 applies IGAElementFixFunction, so the rate of a constrained unknown is k(u-v), k the number of elements at the node. Holds for fields that take the prescribed values"
  },
  {
   "property": "C82",
   "status": "proved",
   "theorems": [
    "PetIGA.Dmda.C82_elem_dm",
    "PetIGA.Dmda.C82_node_dm",
    "PetIGA.Dmda.C82_geom_dm",
    "PetIGA.Dmda.C82_node_access",
    "PetIGA.Dmda.C82_node_write"
   ],
   "note": ""
  },
  {
   "property": "C83",
   "status": "proved",
   "theorems": [
    "PetIGA.Dmda.C83_draw_dm",
    "PetIGA.Dmda.C83_samples_increasing",
    "PetIGA.Dmda.C83_step",
    "PetIGA.Dmda.C83_resolution",
    "PetIGA.Dmda.C83_samples",
    "PetIGA.Dmda.C83_values_1d",
    "PetIGA.Dmda.C83_values_2d",
    "PetIGA.Dmda.C83_values_3d",
    "PetIGA.Dmda.C83_collocation",
    "PetIGA.Dmda.greville_domain"
   ],
   "note": "Values spelled out for Galerkin in 1, 2, 3 dimensions; for collocation each entry is what the probe reports from the data of the node (C61 evaluates it); in a build with error checking the Greville points must be in the domain, which holds for clamped knots"
  },
  {
   "property": "C84",
   "status": "partial",
   "theorems": [
    "PetIGA.PCA.C84_ebe_partial",
    "PetIGA.PCA.C84_spd",
    "PetIGA.PCA.C84_pattern",
    "PetIGA.PCA.C84_repeated_refuted",
    "PetIGA.PCA.C84_collocation_refuted"
   ],
   "note": "Fails where it is false: a periodic direction with few nodes repeats an index in a block (zero pivot for every matrix), and with collocation the blocks need couplings that are not in the pattern of the matrix. Where the blocks are nonsingular the operator is as claimed"
  },
  {
   "property": "C85",
   "status": "partial",
   "theorems": [
    "PetIGA.PCA.C85_bbb_partial",
    "PetIGA.PCA.C85_spd_partial",
    "PetIGA.PCA.C85_refuted",
    "PetIGA.PCA.C85_seam_refuted",
    "PetIGA.PCA.C85_repeated_refuted"
   ],
   "note": "Any directions, periodic ones with more than twice as many nodes as the overlap (with fewer, setting up fails for every matrix: refuted). The blocks contain only owned nodes within the overlap and all of them if the window of the process reaches its owned nodes, except that the blocks at the lower end of a periodic direction do not go around (refuted); the operator is then positive definite for positive definite matrices. On the last process of a distributed nonperiodic direction the window does not reach, and there the preconditioner is singular for every positive definite matrix (refuted)"
  },
  {
   "property": "C86",
   "status": "proved",
   "theorems": [
    "PetIGA.Itg.C86_exact",
    "PetIGA.Itg.C86_exact_interior",
    "PetIGA.Itg.C86_near",
    "PetIGA.Itg.C86_legendre"
   ],
   "note": "without geometry (parametric domain), exact arithmetic; rules exact on polynomials up to the stated degree, or exact up to a tolerance with an explicit bound"
  },
  {
   "property": "C87",
   "status": "proved",
   "theorems": [
    "PetIGA.Itg.C87_mass",
    "PetIGA.Itg.C87_mass_checked",
    "PetIGA.Itg.C87_system",
    "PetIGA.Drv.posDef_of_elements",
    "PetIGA.Itg.tensor_independent"
   ],
   "note": "B-spline axes (the other basis types have no kernel in the theorem), exact arithmetic; callback computing rho N_a N_b per component; C87_mass_checked needs no hypothesis on the Jacobian"
  },
  {
   "property": "C88",
   "status": "proved",
   "theorems": [
    "PetIGA.Itg.C88_dirichlet",
    "PetIGA.Itg.C88_solvable",
    "PetIGA.Itg.C88_constants",
    "PetIGA.Itg.posDef_solve",
    "PetIGA.Itg.element_const",
    "PetIGA.Itg.connected"
   ],
   "note": "B-splines without rational weights, exact arithmetic; interior integrals only (no boundary integrals in the form); positive Jacobian at the points is a hypothesis (a build with error checking enforces it, detJac_pos)"
  },
  {
   "property": "C89",
   "status": "partial",
   "theorems": [
    "PetIGA.Itg.C89_rigid_motions",
    "PetIGA.Itg.C89_rigid_body_partial",
    "PetIGA.Itg.C89_null_space",
    "PetIGA.Itg.C89_geometry_refuted",
    "PetIGA.Itg.C89_periodic_refuted",
    "PetIGA.Itg.C89_translations",
    "PetIGA.Itg.modes_rigid",
    "PetIGA.Itg.modes_independent"
   ],
   "note": "holds without a geometry and without periodic directions (C89_rigid_body_partial), where the vectors span the whole null space of the elastic form (C89_null_space); with a geometry the vectors are not rigid motions (C89_geometry_refuted, inherits C50); rigid motions of the true control points are in the null space (C89_rigid_motions); with one direction periodic and another not some vector is not in the null space (C89_periodic_refuted), the translations always are (C89_translations)"
  },
  {
   "property": "C90",
   "status": "partial",
   "theorems": [
    "PetIGA.Sol.C90_callback",
    "PetIGA.Sol.C90_callback_partial",
    "PetIGA.Sol.C90_missing",
    "PetIGA.Sol.C90_context_refuted"
   ],
   "note": "holds for the nine kinds with a context of their own (C90_callback); IFunction/I2Function and IJacobian/I2Jacobian share one context pointer, so that the first is called with the context of the second (C90_context_refuted); C90_callback_partial covers all kinds when the sharing setter is not called afterwards"
  },
  {
   "property": "C91",
   "status": "proved",
   "theorems": [
    "PetIGA.Sol.C91_snes",
    "PetIGA.Sol.C91_ts",
    "PetIGA.Sol.C91_ts_explicit",
    "PetIGA.Sol.C91_ts2",
    "PetIGA.Sol.C91_ts2_first_order",
    "PetIGA.Sol.C91_ksp_system",
    "PetIGA.Sol.C91_ksp_forms",
    "PetIGA.Sol.C91_missing"
   ],
   "note": "Galerkin discretisations, as C78 and C80; J and P the same matrix (PETSc only assembles J otherwise); the order of the calls of KSPSetUp is PETSc's contract"
  },
  {
   "property": "C92",
   "status": "partial",
   "theorems": [
    "PetIGA.Opt.C92_axes",
    "PetIGA.Opt.C92_given",
    "PetIGA.Opt.C92_no_options",
    "PetIGA.Opt.C92_after_stage",
    "PetIGA.Opt.C92_set_up_again",
    "PetIGA.Opt.C92_rejects_rules",
    "PetIGA.Opt.C92_rejects_axes",
    "PetIGA.Opt.C92_keep_partial",
    "PetIGA.Opt.C92_keep_refuted",
    "PetIGA.Opt.C92_basis_refuted"
   ],
   "note": "the requested values hold as stated (C92_axes, C92_given); \"settings no option names keep their values\" fails for axes: with only one of -iga_elements and -iga_degree the other quantities of every direction become those of direction 0 (C92_keep_refuted), likewise the continuity with mixed basis types (C92_basis_refuted); -iga_limits and -iga_continuity are ignored on configured axes unless -iga_elements or -iga_degree is given (C92_no_options); options database by contract, -iga_vec_type, -iga_mat_type and views not modelled"
  },
  {
   "property": "C93",
   "status": "partial",
   "theorems": [
    "PetIGA.AD.C93_jacobian",
    "PetIGA.AD.C93_ijacobian",
    "PetIGA.AD.C93_propagates",
    "PetIGA.AD.C93_propagates_rates",
    "PetIGA.AD.C93_assembled",
    "PetIGA.AD.C93_iassembled",
    "PetIGA.AD.C93_errors_refuted",
    "PetIGA.AD.C93_collocation_refuted"
   ],
   "note": "the matrices are the derivatives (proved at the element and after assembly); false: an error returned by the residual is dropped by the Jacobian (C93_errors_refuted); with collocation entries behind the end of the matrix are written (C93_collocation_refuted); numbers of the AD libraries (MiniFAD, Sacado, FADBAD, not in the repository) by contract: value and gradient obeying the chain rule; fad/iejacobian.hpp not modelled"
  },
  {
   "property": "C94",
   "status": "proved",
   "theorems": [
    "PetIGA.Ifc.C94_lookup",
    "PetIGA.Ifc.C94_call",
    "PetIGA.Ifc.C94_compiles"
   ],
   "note": "all values of the range macros; the table of degree combinations is checked completely by the kernel and lifted to all degrees"
  },
  {
   "property": "C95",
   "status": "partial",
   "theorems": [
    "PetIGA.Ifc.C95_cxx",
    "PetIGA.Ifc.C95_c",
    "PetIGA.Ifc.C95_ftn",
    "PetIGA.Ifc.C95_div",
    "PetIGA.Ifc.C95_del2",
    "PetIGA.Ifc.C95_views",
    "PetIGA.Ifc.C95_sums",
    "PetIGA.Ifc.C95_boundary",
    "PetIGA.Ifc.C95_struct",
    "PetIGA.Ifc.C95_offset_refuted"
   ],
   "note": "the C++ functions do not check offset+num <= dof and then read behind the array (C95_offset_refuted); the Fortran IGA_Div returns an array of dim copies of the divergence instead of a number (C95_div); the memory of the derivatives of order r is taken as one index 0 <= t < dim^r"
  },
  {
   "property": "C96",
   "status": "proved",
   "theorems": [
    "PetIGA.Bsp.C96_smooth_1d",
    "PetIGA.Bsp.C96_smooth_2d",
    "PetIGA.Bsp.C96_smooth_3d",
    "PetIGA.Bsp.C96_tables",
    "PetIGA.Bsp.C96_uniform",
    "PetIGA.Bsp.C96_breaks",
    "PetIGA.Bsp.C96_ends",
    "PetIGA.Bsp.C96_periodic",
    "PetIGA.Bsp.C96_kink",
    "PetIGA.Prb.C96_probe_1d",
    "PetIGA.Prb.C96_probe_2d",
    "PetIGA.Prb.C96_probe_3d"
   ],
   "note": "B-spline basis, exact arithmetic; the bound p-mu is attained (C96_kink)"
  },
  {
   "property": "C97",
   "status": "proved",
   "theorems": [
    "PetIGA.Bsp.C97_poly",
    "PetIGA.Bsp.C97_greville",
    "PetIGA.Itg.C97_points",
    "PetIGA.Itg.C97_affine",
    "PetIGA.Itg.C97_affine_gradient",
    "PetIGA.Prb.C97_probe_1d",
    "PetIGA.Prb.C97_probe_2d",
    "PetIGA.Prb.C97_probe_3d"
   ],
   "note": "directions without periodicity (a periodic space contains no polynomials but constants); polynomials in several variables as sums of products; exact arithmetic; IGAProbe without rational weights and geometry; affine functions of the geometry at the points of the assembly tables"
  },
  {
   "property": "C98",
   "status": "proved",
   "theorems": [
    "PetIGA.Itg.C98_best",
    "PetIGA.Itg.C98_least",
    "PetIGA.Itg.C98_exact",
    "PetIGA.Itg.C98_l2",
    "PetIGA.Itg.C98_l2_affine",
    "PetIGA.Itg.C98_ritz"
   ],
   "note": "Galerkin, interior terms assembled by a user callback that fills the element matrix and vector as stated (FillsSys); prescribed values and loads of the boundary conditions in general position for C98_best, C98_least and C98_exact; the solution is that of the assembled system (the linear solver is PETSc)"
  },
  {
   "property": "C99",
   "status": "proved",
   "theorems": [
    "PetIGA.Itg.C99_poisson"
   ],
   "note": "Galerkin, no geometry and no NURBS weights, no boundary loads; the boundary nodes are all prescribed; the callback fills the element matrix and vector as stated (FillsSys); exact arithmetic; the linear solver is PETSc"
  },
  {
   "property": "C100",
   "status": "proved",
   "theorems": [
    "PetIGA.MIO.C100_matrix_file",
    "PetIGA.MIO.C100_matrix_load",
    "PetIGA.MIO.C100_round_trip",
    "PetIGA.MIO.C100_rejects",
    "PetIGA.MIO.C100_pattern",
    "PetIGA.MIO.C100_created_round_trip",
    "PetIGA.MIO.C100_duplicates"
   ],
   "note": "matrices that are not MATIS and not SBAIJ (the submatrix of a symmetric matrix that stores one triangle is not modelled); binary viewer; periodic axes as in C38 (PeriodicOK); loading into a matrix with another pattern copies values to wrong places (see the example)"
  },
  {
   "property": "C101",
   "status": "partial",
   "theorems": [
    "PetIGA.DMI.C101_references",
    "PetIGA.DMI.C101_defined_partial",
    "PetIGA.DMI.C101_created",
    "PetIGA.DMI.C101_reports",
    "PetIGA.DMI.C101_derived",
    "PetIGA.DMI.C101_defined_refuted",
    "PetIGA.DMI.C101_types_kept_refuted",
    "PetIGA.DMI.C101_type_choice_refuted",
    "PetIGA.DMI.C101_derived_types_refuted"
   ],
   "note": "reference counts hold for all programs (C101_references); a failed creation leaves the IGA pointing to the DM's type string, which it later releases (C101_types_kept_refuted, C101_defined_refuted), so that defined behaviour is proved for programs in which no request of an object from a DM fails (C101_defined_partial); DMSetUp overwrites a type chosen before (C101_type_choice_refuted); clones have the default types (C101_derived_types_refuted). PETSc's DM, reference counting and VecSetDM by contract"
  },
  {
   "property": "C102",
   "status": "proved",
   "theorems": [
    "PetIGA.Demo.C102_laplace",
    "PetIGA.Demo.C102_laplace_nurbs",
    "PetIGA.Demo.C102_poisson",
    "PetIGA.Demo.C102_project",
    "PetIGA.Demo.C102_project_power",
    "PetIGA.Demo.C102_project_linear",
    "PetIGA.Demo.C102_poisson_dims"
   ],
   "note": "the Galerkin branch of demo/Laplace.c, demo/Poisson.c and demo/L2Projection.c: callbacks as loops over the point arrays, boundary conditions as the calls in main; exact arithmetic; positive Jacobian at the points is a hypothesis; positive definiteness of Laplace and Poisson for bases without rational weights (polynomial geometries included); the linear solver is PETSc. C102_poisson_dims: demo/Poisson1D.c, Poisson2D.c and Poisson3D.c do the same at their dimensions, so that C102_poisson holds of them"
  },
  {
   "property": "C103",
   "status": "partial",
   "theorems": [
    "PetIGA.Opts.C103_default",
    "PetIGA.Opts.C103_alias_partial",
    "PetIGA.Opts.C103_alias_refuted",
    "PetIGA.Opts.C103_aliases_partial",
    "PetIGA.Opts.C103_reject",
    "PetIGA.Opts.C103_get",
    "PetIGA.Opts.C103_string_partial",
    "PetIGA.Opts.C103_string_refuted"
   ],
   "note": "the database is a map from names to texts (PETSc); values of more than 1023 characters are cut without an error (refuted), and a text read is overwritten by the next read (refuted); the conversion of texts to numbers is PETSc"
  },
  {
   "property": "C104",
   "status": "proved",
   "theorems": [
    "PetIGA.Frm.C104_bratu",
    "PetIGA.Frm.C104_bratu_collocation",
    "PetIGA.Frm.C104_bratu_transient",
    "PetIGA.Frm.C104_elastic_rod",
    "PetIGA.Frm.C104_mobility",
    "PetIGA.Frm.C104_potential_2d",
    "PetIGA.Frm.C104_potential_3d",
    "PetIGA.Frm.C104_cahn_hilliard_2d",
    "PetIGA.Frm.C104_cahn_hilliard_3d",
    "PetIGA.Frm.C104_pattern_formation",
    "PetIGA.Frm.C104_nsk",
    "PetIGA.Frm.C104_bratu_assembled",
    "PetIGA.Frm.C104_bratu_transient_assembled",
    "PetIGA.Frm.C104_elastic_rod_assembled",
    "PetIGA.Frm.C104_cahn_hilliard_2d_assembled",
    "PetIGA.Frm.C104_cahn_hilliard_3d_assembled",
    "PetIGA.Frm.C104_pattern_formation_assembled",
    "PetIGA.Frm.C104_nsk_assembled"
   ],
   "note": "the callbacks are modelled as the loops over the element arrays they are; exact real arithmetic with exp and log from Mathlib; states outside the domain of the residual are excluded by hypotheses. demo/HyperElasticity.c is C105; the demos without an exact Jacobian (NavierStokesVMS, Richards, TwoPhaseTwoComponent, ShallowWater) are not covered"
  },
  {
   "property": "C105",
   "status": "partial",
   "theorems": [
    "PetIGA.Hyp.C105_tangent",
    "PetIGA.Hyp.C105_tangent_assembled",
    "PetIGA.Hyp.C105_tangent_refuted",
    "PetIGA.Hyp.C105_symmetric",
    "PetIGA.Hyp.C105_objective",
    "PetIGA.Hyp.C105_energy",
    "PetIGA.Hyp.C105_energy_assembled",
    "PetIGA.Hyp.C105_rigid_partial",
    "PetIGA.Hyp.C105_rigid_refuted",
    "PetIGA.Hyp.C105_small_strain_partial",
    "PetIGA.Hyp.C105_mooneyr2_ignored_refuted"
   ],
   "note": "tables transcribed from the C text entry by entry (integer divisions included); exact real arithmetic; the default model leaves the rest state under stress because 1/3 is 0 in C (refuted), the tangent of MooneyRivlinModel2 is wrong for the same reason (refuted) and -mooneyr2 never selects it (refuted): rest state and small strains proved for -neohook, -stvenant, -mooneyr1; the load stepping of main is not modelled"
  },
  {
   "property": "C106",
   "status": "proved",
   "theorems": [
    "PetIGA.Drv.C106_gradient"
   ],
   "note": "Galerkin drivers; the callback and its energy density are parameters; stated as the directional derivative along every field; exact arithmetic"
  },
  {
   "property": "C107",
   "status": "proved",
   "theorems": [
    "PetIGA.Frm.C107_cahn_hilliard_2d",
    "PetIGA.Frm.C107_cahn_hilliard_2d_step",
    "PetIGA.Frm.C107_cahn_hilliard_2d_uniform",
    "PetIGA.Frm.C107_cahn_hilliard_3d",
    "PetIGA.Frm.C107_cahn_hilliard_3d_uniform",
    "PetIGA.Frm.C107_nsk",
    "PetIGA.Frm.C107_pattern_formation"
   ],
   "note": "integrals are those of the quadrature rule of the discretisation; that the functions at a point sum to 1 and their first and second derivatives to 0, with weights and geometry, is derived from the model of the tabulation (Itg.shape_sums); time stepping itself is PETSc TS, so the step theorem assumes a zero residual; exact real arithmetic"
  },
  {
   "property": "C108",
   "status": "partial",
   "theorems": [
    "PetIGA.VIO.C108_view",
    "PetIGA.VIO.C108_load",
    "PetIGA.VIO.C108_round_trip",
    "PetIGA.VIO.C108_wrong_size",
    "PetIGA.VIO.C108_same_file_partial",
    "PetIGA.VIO.C108_periodic_refuted"
   ],
   "note": "VecCopy and the natural ordering of DMDA vectors on binary viewers are contracts; binary viewers only. With a periodic direction the files of VecView and IGASaveVec differ and IGALoadVec refuses a file of VecView (refuted)"
  },
  {
   "property": "C109",
   "status": "proved",
   "theorems": [
    "PetIGA.Plt.C109_processes",
    "PetIGA.Plt.C109_processes_collocation",
    "PetIGA.Plt.C109_grid",
    "PetIGA.Plt.C109_points",
    "PetIGA.Plt.C109_window",
    "PetIGA.Plt.C109_other_dimensions"
   ],
   "note": "draw viewers; the PetscDraw calls are recorded as a list of items; the calls that only forward to DMView for VTK and GLVis viewers are covered by the draw DM of C82; exact arithmetic"
  },
  {
   "property": "C110",
   "status": "proved",
   "theorems": [
    "PetIGA.Flt.C110_values",
    "PetIGA.Flt.C110_divisors",
    "PetIGA.Flt.C110_unity",
    "PetIGA.Flt.C110_field",
    "PetIGA.Flt.C110_nurbs"
   ],
   "note": "the standard model of floating-point arithmetic (relative error, monotone), which IEEE binary64 meets as long as there is no overflow or underflow; an instance, rounding to t+1 significant binary digits over the rationals, is proved (Spec.binary_rounding); values only, the derivatives are not covered"
  },
  {
   "property": "C111",
   "status": "partial",
   "theorems": [
    "PetIGA.Flt.C111_uniform",
    "PetIGA.Flt.C111_greville_ordered",
    "PetIGA.Flt.C111_greville_error",
    "PetIGA.Flt.C111_points",
    "PetIGA.Flt.C111_uniform_refuted",
    "PetIGA.Flt.C111_greville_refuted",
    "PetIGA.Flt.C111_lobatto_refuted"
   ],
   "note": "same floating-point model as C110; non-periodic knots. Proved: legal knots if the elements are larger than twice the rounding error, Greville abscissae in order and within p+1 roundings, quadrature points never before the element and not behind it if they keep five roundings from its end. The unconditional statements fail (refuted in double precision): four elements of [2^53, 2^53+2] are accepted and the first is empty; the last Greville abscissa of a cubic axis on [0, 0.1] is larger than 0.1; the last Lobatto point of [0.3, 0.9] is larger than 0.9"
  },
  {
   "property": "C112",
   "status": "partial",
   "theorems": [
    "PetIGA.Ovf.C112_distribute",
    "PetIGA.Ovf.C112_local",
    "PetIGA.Ovf.C112_ghost",
    "PetIGA.Ovf.C112_after_setup",
    "PetIGA.Ovf.C112_closure",
    "PetIGA.Ovf.C112_gather",
    "PetIGA.Ovf.C112_partition_partial",
    "PetIGA.Ovf.C112_partition_refuted",
    "PetIGA.Ovf.C112_tables_partial",
    "PetIGA.Ovf.C112_tables_refuted",
    "PetIGA.Ovf.C112_findspan_partial",
    "PetIGA.Ovf.C112_findspan_refuted"
   ],
   "note": "holds for the distribution, the numbering of owned and ghosted unknowns and the element maps; fails for the choice of the process grid (sides or faces of the grid times the number of processes), for the tables of basis functions (nel*nqp*(p+1)*5) and for the search for spans (low+high), with the conditions under which these do not overflow. Other integer arithmetic of PetIGA (byte counts, probe, matrix preallocation, files) is not covered"
  },
  {
   "property": "C113",
   "status": "partial",
   "theorems": [
    "PetIGA.Vw.C113_partition",
    "PetIGA.Vw.C113_view",
    "PetIGA.Vw.C113_continuity_partial",
    "PetIGA.Vw.C113_continuity_periodic_partial",
    "PetIGA.Vw.C113_continuity_refuted"
   ],
   "note": "sizes, partition and the choice by viewer are proved for every set-up. The continuity is true if the domain begins and ends with an element (and, for periodic axes, the seam has the same multiplicity at both ends), as for all knots the library makes itself; for user knots where the domain begins inside a repeated knot it is wrong (refuted: -1 -1 0 0 1 1 2 3 3 of degree 2 is C0 at its only inner knot, printed 0:1). Not modelled: the synchronised per-process lines of the detailed format, names and options prefixes"
  },
  {
   "property": "C114",
   "status": "partial",
   "theorems": [
    "PetIGA.Wir.C114_operators_partial",
    "PetIGA.Wir.C114_set",
    "PetIGA.Wir.C114_inner",
    "PetIGA.Wir.C114_created_partial",
    "PetIGA.Wir.C114_callbacks",
    "PetIGA.Wir.C114_foreign",
    "PetIGA.Wir.C114_order_refuted",
    "PetIGA.Wir.C114_again_refuted",
    "PetIGA.Wir.C114_created_refuted"
   ],
   "note": "PETSc's part (which object passes operators, DMs and options on to which) is a contract stated in Model/Wire.lean. Proved for every history in which the preconditioning matrix of the IGA is set before the options are processed, and for the solvers connected by KSPSetIGA, SNESSetIGA, TSSetIGA. Fails if options are processed before the operators are set on a solver of IGACreateKSP (the IGA is composed with the solver but looked for at the preconditioner), likewise for IGACreateSNES/TS/TS2 unless PETSc gives the matrix to the inner solver first, and on a second processing of options after KSPSetIGA without operators"
  },
  {
   "property": "C115",
   "status": "proved",
   "theorems": [
    "PetIGA.SetUp.C115_same_outcome"
   ],
   "note": "programs are lists of calls, left at the first failing call (CHKERRQ); arguments of the calls are the same on all processes, geometry arrays are allocated for the local box. Calls on axes are any that stay within the axis interface. Cloning and the contents of files are not part of these programs"
  },
  {
   "property": "C116",
   "status": "partial",
   "theorems": [
    "PetIGA.BDDC.C116_list_partial",
    "PetIGA.BDDC.C116_once_partial",
    "PetIGA.BDDC.C116_planes_partial",
    "PetIGA.BDDC.C116_collocation_refuted"
   ],
   "note": "proved for Galerkin discretisations whose first and last knot interval is not empty (the condition under which the layout itself is right, C20). With collocation the statement fails: the boxes of the last processes can end at the same node, and two processes list it (refuted)"
  },
  {
   "property": "C117",
   "status": "proved",
   "theorems": [
    "PetIGA.Itg.C117_between",
    "PetIGA.Itg.C117_geometry",
    "PetIGA.Prb.C117_probe_1d",
    "PetIGA.Prb.C117_probe_2d",
    "PetIGA.Prb.C117_probe_3d"
   ],
   "note": "exact arithmetic; Galerkin set-ups with the condition of C48 on the axes; the probe theorems are for fields without weights (polynomial splines) at the spans IGA_FindSpan returns. Outside the domain, where a build without error checking extrapolates, an example shows the bounds fail; the Lagrange and spectral bases are not covered"
  },
  {
   "property": "C118",
   "status": "partial",
   "theorems": [
    "PetIGA.BDDC.C118_orthonormal_partial",
    "PetIGA.BDDC.C118_independent_partial",
    "PetIGA.BDDC.C118_space_partial",
    "PetIGA.BDDC.C118_one_process_partial",
    "PetIGA.BDDC.C118_line_partial",
    "PetIGA.BDDC.C118_end_refuted",
    "PetIGA.BDDC.C118_interface_refuted",
    "PetIGA.BDDC.C118_zero_refuted"
   ],
   "note": "the vectors are orthogonal, span what was asked for, and are orthonormal when the given vectors are independent (otherwise a zero vector is handed over, refuted). The mask is characterised for one process in any dimension and for any number of processes in one dimension (no periodic direction, Galerkin). It differs from the English claim: the end of the domain is masked out (refuted), and fix[0] is used for all directions, so a whole interface can be masked out (refuted). Real scalars, exact arithmetic"
  },
  {
   "property": "C119",
   "status": "partial",
   "theorems": [
    "PetIGA.Itg.C119_points",
    "PetIGA.Itg.C119_trace",
    "PetIGA.Itg.C119_constant",
    "PetIGA.Itg.C119_geometry",
    "PetIGA.Itg.C119_exact",
    "PetIGA.Itg.C119_unclamped_refuted"
   ],
   "note": "values and geometry on a side are proved for sides with p+1 equal knots (clamped, as IGAAxisInit makes them) and non-periodic directions; for other legal knots the statement fails (refuted). The integral over a side holds for all legal knots, without geometry (parametric side); with a geometry the surface factor is that of C41. Exact arithmetic, B-spline and NURBS bases"
  },
  {
   "property": "C120",
   "status": "proved",
   "theorems": [
    "PetIGA.Itg.C120_system",
    "PetIGA.Itg.C120_function",
    "PetIGA.Itg.C120_table"
   ],
   "note": "exact arithmetic, Galerkin, B-splines and NURBS with positive weights. The solution is any vector that satisfies the assembled equations (the solver is PETSc). Without repeated knots at the side the statement fails: C119_unclamped_refuted"
  },
  {
   "property": "C121",
   "status": "proved",
   "theorems": [
    "PetIGA.Itg.C121_divergence",
    "PetIGA.Itg.C121_by_parts"
   ],
   "note": "exact arithmetic, no geometry (the parametric box, as the code treats it), Galerkin; C121_divergence needs points strictly inside the elements, C121_by_parts is for B-spline fields (no weights) and non-periodic directions and any rule exact to twice the degree"
  },
  {
   "property": "C122",
   "status": "proved",
   "theorems": [
    "PetIGA.Demo.C122_nitsche",
    "PetIGA.Demo.C122_symmetric"
   ],
   "note": "exact arithmetic, without a geometry, non-periodic directions; the exact solution satisfies the assembled equations for every penalty (consistency), and the matrix is symmetric (also with a geometry). That it is the only solution is C124"
  },
  {
   "property": "C123",
   "status": "proved",
   "theorems": [
    "PetIGA.Sym.C123_matrix",
    "PetIGA.Sym.C123_system",
    "PetIGA.Sym.C123_jacobian",
    "PetIGA.Sym.C123_rhsjacobian",
    "PetIGA.Sym.C123_ijacobian",
    "PetIGA.Sym.C123_iejacobian",
    "PetIGA.Sym.C123_i2jacobian"
   ],
   "note": "exact arithmetic (real numbers), Galerkin"
  },
  {
   "property": "C124",
   "status": "partial",
   "theorems": [
    "PetIGA.Demo.C124_energy",
    "PetIGA.Demo.C124_coercive",
    "PetIGA.Demo.C124_spd_partial",
    "PetIGA.Demo.C124_unique_partial",
    "PetIGA.Demo.C124_indefinite",
    "PetIGA.Demo.C124_spd_refuted"
   ],
   "note": "exact arithmetic. The quadratic form is the energy of the field for every degree, with or without a geometry. Without a geometry and for degrees up to 4 in every direction it is at least a fifth of the integral of |grad v|^2, the matrix is symmetric positive definite and the system has exactly one solution, the sum of the squares (degrees 2 to 4). For every degree the property is false: with one element of degree 6 on [0,1] the form takes the value -14 although main sets MAT_SPD (refuted). Missing: degree 5 with more than one element, and a geometry"
  },
  {
   "property": "C125",
   "status": "proved",
   "theorems": [
    "PetIGA.Demo.C125_solution",
    "PetIGA.Demo.C125_exact"
   ],
   "note": "exact arithmetic, Galerkin, no geometry, non-periodic directions, knots clamped at the side with the prescribed value, rule exact for twice the degrees with more than p distinct points; one component. The collocation variant of the program, the solver and the error norm are not part of the theorem"
  },
  {
   "property": "C126",
   "status": "partial",
   "theorems": [
    "PetIGA.Demo.C126_nullspace",
    "PetIGA.Demo.C126_spd_refuted",
    "PetIGA.Demo.C126_mean"
   ],
   "note": "exact arithmetic, one component. C126_nullspace: the matrix is symmetric, positive semidefinite and annihilates exactly the constant vectors (polynomial splines; any geometry with positive determinants). C126_spd_refuted: hence it is never positive definite although main sets MAT_SPD. C126_mean: the dot product with MassVector is the integral of the field, and the shift multiplies that integral by 1 - |domain|: it becomes zero only if the domain has measure 1 (or it was zero). Missing, because false: MAT_SPD, and the zero mean on domains of another measure. The collocation variant and the solver are not part of the theorems"
  },
  {
   "property": "C127",
   "status": "proved",
   "theorems": [
    "PetIGA.Demo.C127_solvable",
    "PetIGA.Demo.C127_compatible",
    "PetIGA.Demo.C127_data"
   ],
   "note": "exact arithmetic, polynomial splines, one component; the areas of the sides are those of the parametric domain in C127_compatible (no geometry, C72). The integral is the one of the quadrature rule, which for the sine need not vanish on every mesh: then the system has no solution. C127_data: the forcing and the flux are those of the solution the program compares with, on the unit box"
  },
  {
   "property": "C128",
   "status": "partial",
   "theorems": [
    "PetIGA.Demo.C128_definite",
    "PetIGA.Demo.C128_weak",
    "PetIGA.Demo.C128_sides",
    "PetIGA.Demo.C128_wind",
    "PetIGA.Demo.C128_still_refuted"
   ],
   "note": "exact arithmetic, one component; C128_definite without a geometry and on polynomial splines, C128_weak with or without. C128_wind: the norm of the wind is |Pe| only if the direction has norm at least 1/100; for a shorter one it is |Pe| times that norm (Finding 62). C128_still_refuted: with the direction zero no condition is set and every constant solves the system. Missing, because false: the norm being |Pe| for every nonzero direction, and one solution for direction zero"
  },
  {
   "property": "C129",
   "status": "partial",
   "theorems": [
    "PetIGA.Demo.C129_form",
    "PetIGA.Demo.C129_hooke_partial",
    "PetIGA.Demo.C129_hooke_refuted",
    "PetIGA.Demo.C129_everywhere_refuted",
    "PetIGA.Demo.C129_assembled"
   ],
   "note": "exact arithmetic. C129_form: for all constants the form is Hooke's plus mu (mu-1) d_x v_y d_x u_y, from a misplaced factor mu in the callback. C129_hooke_partial: Hooke's law for mu = 1, which main sets. Refuted for every other mu but 0, at every point of every mesh (C129_everywhere_refuted): a rotation has the energy mu (mu-1), negative for 0 < mu < 1. C129_assembled: symmetric for all constants, nonnegative for lambda >= 0 and mu >= 1. Missing, because false: the other mu"
  },
  {
   "property": "C130",
   "status": "partial",
   "theorems": [
    "PetIGA.Demo.C130_data",
    "PetIGA.Demo.C130_system",
    "PetIGA.Demo.C130_position",
    "PetIGA.Demo.C130_geometry_refuted",
    "PetIGA.Demo.logg_set",
    "PetIGA.Demo.logg_value"
   ],
   "note": "exact arithmetic, one component; C130_system on the spaces of C102_poisson, with or without a geometry, for the forcing at the parameters. C130_position: without a geometry forcing and solution are taken at the position of the point. C130_geometry_refuted: with a geometry (-iga_load) they are taken at the parameters, not at the position (Finding 64). Missing, because false: the position with a geometry. The size of the error is not bounded. logg_set, logg_value: main prescribes 0 on both sides of every direction and nothing else"
  }
 ]
}