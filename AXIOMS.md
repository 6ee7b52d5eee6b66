# Axioms of the theorems of MANIFEST.json

P = `propext`, C = `Classical.choice`, Q = `Quot.sound`; – = none. Generated from `#print axioms`.

* **C01**: `PetIGA.Part.C01_processor_grid_bijection` (P C Q), `PetIGA.Part.C01_wrong_product_rejected` (P Q), `PetIGA.Asm.C01_user_grid_accepted` (P C Q)
* **C02**: `PetIGA.Part.C02_distribution_balanced` (P C Q), `PetIGA.Part.C02_distribute_iff` (P C Q)
* **C03**: `PetIGA.Elem.C03_each_element_once` (P C Q), `PetIGA.Elem.C03_failure_reported` (P Q)
* **C04**: `PetIGA.Ax.C04_next_knot_forward` (P Q), `PetIGA.Ax.C04_next_knot_backward` (P Q), `PetIGA.Ax.C04_next_knot_clamped` (P Q), `PetIGA.Ax.C04_reads_in_range` (P Q)
* **C05**: `PetIGA.Ax.C05_accepts_exactly_legal` (P C Q), `PetIGA.Ax.C05_effect` (P Q)
* **C06**: `PetIGA.Ax.C06_spans_are_elements` (P C Q)
* **C07**: `PetIGA.Ax.C07_initBreaks` (P C Q), `PetIGA.Ax.C07_initUniform` (P C Q), `PetIGA.Ax.C07_initUniform_accepts` (P C Q), `PetIGA.Ax.C07_initBreaks_accepts` (P C Q)
* **C08**: `PetIGA.Ax.C08_initBreaks_periodic` (P C Q), `PetIGA.Ax.C08_initUniform_periodic` (P C Q)
* **C09**: `PetIGA.Ax.C09_accepted_axis_has_element_refuted` (P C Q), `PetIGA.Ax.C09_accepted_axis_has_element_partial` (P C Q)
* **C10**: `PetIGA.Ax.C10_find_span_brackets` (P Q), `PetIGA.Ax.C10_find_span_clamps` (P Q), `PetIGA.Ax.C10_find_span_reads` (P Q), `PetIGA.Ax.C10_left_end_refuted` (P C Q), `PetIGA.Ax.C10_find_span_element_partial` (P Q)
* **C11**: `PetIGA.Bsp.C11_values_are_cox_de_boor` (P C Q)
* **C12**: `PetIGA.Bsp.C12_partition_of_unity` (P C Q)
* **C13**: `PetIGA.Bsp.C13_rows_are_derivatives` (P C Q), `PetIGA.Bsp.C13_pieces_are_bsplines` (P C Q), `PetIGA.Bsp.C13_library_call` (P C Q), `PetIGA.Bsp.C13_real_derivatives` (P C Q), `PetIGA.Bsp.C13_any_order` (P C Q)
* **C14**: `PetIGA.Lag.C14_rows_0_to_3` (P C Q), `PetIGA.Lag.C14_cardinal` (P C Q), `PetIGA.Lag.C14_newton_cotes_nodes` (P C Q), `PetIGA.Lag.C14_lagrange` (P C Q), `PetIGA.Lag.C14_lobatto_nodes` (P C Q), `PetIGA.Lag.C14_spectral_partial` (P C Q), `PetIGA.Lag.C14_order_4_refuted` (P C Q), `PetIGA.Lag.C14_spectral_degree_10_refuted` (P C Q)
* **C15**: `PetIGA.Ax.C15_greville_in_support` (P C Q), `PetIGA.Ax.C15_greville_increasing` (P C Q), `PetIGA.Ax.C15_greville_distinct` (P C Q), `PetIGA.Ax.C15_greville_clamped` (P C Q)
* **C16**: `PetIGA.Rule.C16_legendre` (P C Q), `PetIGA.Rule.C16_lobatto` (P C Q), `PetIGA.Rule.C16_set_size` (P C Q)
* **C17**: `PetIGA.Quad.C17_mapped_quadrature` (P C Q), `PetIGA.Quad.C17_reduced` (P C Q)
* **C18**: `PetIGA.Quad.C18_repeated_setup_refuted` (P C Q), `PetIGA.Quad.C18_repeated_setup_partial` (P C Q)
* **C19**: `PetIGA.Rule.C19_retry_refuted` (P C Q), `PetIGA.Rule.C19_no_failure_partial` (P C Q)
* **C20**: `PetIGA.Lay.C20_owned_nodes_partition_partial` (P C Q), `PetIGA.Lay.C20_owned_geometry_partition_partial` (P C Q), `PetIGA.Lay.C20_clamped_ends` (P Q), `PetIGA.Asm.C20_setup_succeeds` (P C Q), `PetIGA.Lay.C20_first_interval_refuted` (P C Q)
* **C21**: `PetIGA.Lay.C21_ghosts_cover_closures_partial` (P C Q), `PetIGA.Lay.C21_collocation_wrap_refuted` (P C Q), `PetIGA.Lay.C21_last_interval_refuted` (P C Q)
* **C22**: `PetIGA.SetUp.C22_retry_refuted` (P C Q), `PetIGA.SetUp.C22_success_means_done_partial` (P C Q)
* **C23**: `PetIGA.Elem.C23_form_loop` (P C Q), `PetIGA.Elem.C23_form_loop_collocation` (P C Q)
* **C24**: `PetIGA.Elem.C24_closure` (P C Q), `PetIGA.Elem.C24_collocation_row` (P C Q), `PetIGA.Elem.C24_inside_after_setup` (P C Q)
* **C25**: `PetIGA.Elem.C25_get_indices_refuted` (–), `PetIGA.Elem.C25_get_indices_partial` (P)
* **C26**: `PetIGA.Grid.C26_global_numbering` (P C Q), `PetIGA.Grid.C26_local_to_global` (P C Q), `PetIGA.Grid.C26_local_to_global_range` (P C Q), `PetIGA.Grid.C26_after_setup_partial` (P C Q)
* **C27**: `PetIGA.Grid.C27_global_to_local` (P C Q), `PetIGA.Grid.C27_local_to_global_insert` (P C Q), `PetIGA.Grid.C27_round_trip` (P C Q), `PetIGA.Grid.C27_local_to_global_add` (P C Q), `PetIGA.Grid.C27_add_is_transpose` (P C Q)
* **C28**: `PetIGA.Grid.C28_global_to_natural` (P C Q), `PetIGA.Grid.C28_natural_to_global` (P C Q), `PetIGA.Grid.C28_process_independent` (P C Q), `PetIGA.Grid.C28_global_round_trip` (P C Q), `PetIGA.Grid.C28_natural_round_trip` (P C Q), `PetIGA.Grid.C28_natural_round_trip_nonperiodic` (P C Q), `PetIGA.Grid.C28_after_setup_partial` (P C Q), `PetIGA.Grid.C28_condition` (P C Q), `PetIGA.Grid.C28_collocation_refuted` (P C Q)
* **C29**: `PetIGA.Pool.C29_exclusive` (P C Q), `PetIGA.Pool.C29_accounting` (P C Q), `PetIGA.Pool.C29_safe` (P C Q), `PetIGA.Pool.C29_restore` (P C Q), `PetIGA.Pool.C29_reset` (P C Q), `PetIGA.Pool.C29_size_partial` (P C Q), `PetIGA.Pool.C29_size_refuted` (P Q)
* **C30**: `PetIGA.Form.C30_last_setting_wins` (P C Q), `PetIGA.Form.C30_rejects_without_change` (P C Q), `PetIGA.Form.C30_iga_level` (P), `PetIGA.Form.C30_visit_flags` (P C Q), `PetIGA.Form.C30_visit` (P C Q)
* **C31**: `PetIGA.Form.C31_reset_refuted` (P Q), `PetIGA.Form.C31_reset_tables_lost_refuted` (P Q), `PetIGA.Form.C31_clear_all_partial` (P C Q)
* **C32**: `PetIGA.Fix.C32_fix_list` (P C Q)
* **C33**: `PetIGA.Fix.C33_flux_list` (P C Q)
* **C34**: `PetIGA.Fix.C34_entries` (P C Q), `PetIGA.Fix.C34_symmetric` (P C Q), `PetIGA.Fix.C34_solves_iff` (P C Q)
* **C35**: `PetIGA.Fix.C35_fixValues` (P C Q), `PetIGA.Fix.C35_fixFunction` (P C Q), `PetIGA.Fix.C35_fixJacobian` (P C Q), `PetIGA.Fix.C35_newton_step` (P C Q)
* **C36**: `PetIGA.Fix.C36_constrained_in_every_element` (P C Q), `PetIGA.Fix.C36_sides` (P C Q), `PetIGA.Fix.C36_assembled_row` (P C Q), `PetIGA.Fix.C36_assembled_solves_iff` (P C Q), `PetIGA.Fix.C36_dirichlet_problem` (P C Q)
* **C37**: `PetIGA.Fix.C37_periodic_refuted` (P C Q), `PetIGA.Fix.C37_field_refuted` (P), `PetIGA.Fix.C37_table_ignored_refuted` (P C Q), `PetIGA.Fix.C37_fix_list_partial` (P C Q), `PetIGA.Fix.C37_system_partial` (P C Q)
* **C38**: `PetIGA.Mat.C38_pattern_partial` (P C Q), `PetIGA.Mat.C38_after_setup` (P C Q), `PetIGA.Mat.C38_periodic_ok` (P C Q), `PetIGA.Mat.C38_local_matrix` (P C Q), `PetIGA.Mat.C38_periodic_refuted` (P C Q), `PetIGA.Mat.C38_local_collocation_refuted` (P C Q)
* **C39**: `PetIGA.Mat.C39_buffer` (P C Q)
* **C40**: `PetIGA.Ker.C40_rational_partial` (P C Q), `PetIGA.Ker.C40_untouched` (P C Q), `PetIGA.Ker.C40_rational_refuted` (P C Q)
* **C41**: `PetIGA.Ker.C41_mapped_partial` (P C Q), `PetIGA.Ker.C41_exists` (P C Q), `PetIGA.Ker.C41_mapped_refuted` (P C Q)
* **C42**: `PetIGA.Ker.C42_tensor_1d` (P C Q), `PetIGA.Ker.C42_tensor_2d` (P C Q), `PetIGA.Ker.C42_tensor_3d` (P C Q), `PetIGA.Ker.C42_ordering` (P C Q)
* **C43**: `PetIGA.Ker.C43_det_inverse` (P C Q)
* **C44**: `PetIGA.Ker.C44_normal` (P C Q), `PetIGA.Ker.C44_reflected_refuted` (P C Q)
* **C45**: `PetIGA.IO.C45_round_trip_partial` (P C Q), `PetIGA.IO.C45_file_contents_partial` (P C Q), `PetIGA.IO.C45_periodic_refuted` (P C Q), `PetIGA.IO.C45_wrong_file` (P Q), `PetIGA.IO.C45_other_dimension` (P C Q), `PetIGA.IO.C45_save_without_points` (P Q)
* **C46**: `PetIGA.IO.C46_geometry_round_trip_partial` (P C Q), `PetIGA.IO.C46_file_process_independent_partial` (P C Q), `PetIGA.IO.C46_file_contents_partial` (P C Q), `PetIGA.IO.C46_property_round_trip_partial` (P C Q), `PetIGA.IO.C46_rational_flag_refuted` (P C Q), `PetIGA.IO.C46_dims` (P C Q)
* **C47**: `PetIGA.FD.C47_jacobian_partial` (P C Q), `PetIGA.FD.C47_ijacobian_partial` (P C Q), `PetIGA.FD.C47_iejacobian_partial` (P C Q), `PetIGA.FD.C47_i2jacobian_partial` (P C Q), `PetIGA.FD.C47_rhsjacobian_partial` (P C Q), `PetIGA.FD.C47_affine_jacobian_partial` (P C Q), `PetIGA.FD.C47_affine_ijacobian_partial` (P C Q), `PetIGA.FD.C47_affine_iejacobian_partial` (P C Q), `PetIGA.FD.C47_affine_i2jacobian_partial` (P C Q), `PetIGA.FD.C47_affine_rhsjacobian_partial` (P C Q), `PetIGA.FD.C47_accumulating` (P C Q), `PetIGA.FD.C47_accumulating_refuted` (P C Q), `PetIGA.FD.C47_inputs_unchanged_partial` (P C Q), `PetIGA.FD.C47_inputs_after_error_refuted` (P C Q), `PetIGA.FD.C47_not_ready` (P C Q)
* **C48**: `PetIGA.Asm.C48_compute_scalar_partial` (P C Q), `PetIGA.Asm.C48_independent_partial` (P C Q)
* **C49**: `PetIGA.Asm.C49_error_norm_partial` (P C Q), `PetIGA.Asm.C49_negative` (P C Q), `PetIGA.Asm.C49_large_refuted` (P C Q), `PetIGA.Asm.C49_overflow_refuted` (P C Q), `PetIGA.Asm.C49_unset_order_refuted` (P C Q)
* **C50**: `PetIGA.Crd.C50_parametric` (P C Q), `PetIGA.Crd.C50_linear_precision` (P C Q), `PetIGA.Crd.C50_geometry_partial` (P C Q), `PetIGA.Crd.C50_geometry_read` (P C Q), `PetIGA.Crd.C50_geometry_refuted` (P C Q)
* **C51**: `PetIGA.Asm.C51_vector_partial` (P C Q), `PetIGA.Asm.C51_vector_collocation_partial` (P C Q), `PetIGA.Asm.C51_matrix_partial` (P C Q), `PetIGA.Asm.C51_matrix_collocation_partial` (P C Q), `PetIGA.Asm.C51_independent_partial` (P C Q)
* **C52**: `PetIGA.Prb.C52_collective` (P C Q), `PetIGA.Prb.C52_independent` (P C Q), `PetIGA.Prb.C52_vector` (P C Q), `PetIGA.Prb.C52_outside` (P C Q), `PetIGA.Prb.C52_refusals` (P C Q), `PetIGA.Prb.C52_single` (P), `PetIGA.Prb.C52_value_1d` (P C Q), `PetIGA.Prb.C52_value_2d` (P C Q), `PetIGA.Prb.C52_value_3d` (P C Q), `PetIGA.Prb.C52_parametric_partial` (P C Q), `PetIGA.Prb.C52_position` (P C Q), `PetIGA.Prb.C52_mapped_partial` (P C Q), `PetIGA.Prb.C52_collocation_partial` (P C Q), `PetIGA.Prb.C52_collocation_refuted` (P C Q), `PetIGA.Prb.C52_periodic_collocation_refuted` (P C Q), `PetIGA.Prb.C52_stale_refuted` (P C Q)
* **C53**: `PetIGA.MG.C53_factors` (P C Q), `PetIGA.MG.C53_refused` (P), `PetIGA.MG.C53_hierarchy` (P C Q)
* **C54**: `PetIGA.BDDC.C54_boundary` (P C Q), `PetIGA.BDDC.C54_after_setup_partial` (P C Q), `PetIGA.BDDC.C54_collocation_refuted` (P C Q), `PetIGA.BDDC.C54_field_out_of_range` (P)
* **C55**: `PetIGA.BDDC.C55_colour_partial` (P C Q), `PetIGA.BDDC.C55_after_setup_partial` (P C Q), `PetIGA.BDDC.C55_collocation_refuted` (P C Q)
* **C56**: `PetIGA.DMF.C56_sub_dm` (P C Q), `PetIGA.DMF.C56_sub_dm_range` (P Q), `PetIGA.DMF.C56_sub_dm_after_setup` (P C Q), `PetIGA.DMF.C56_fields_partial` (P C Q), `PetIGA.DMF.C56_fields_refuted` (P C Q), `PetIGA.DMF.C56_fields_after_setup_refuted` (P C Q)
* **C57**: `PetIGA.SetUp.C57_dim` (P C Q), `PetIGA.SetUp.C57_dof` (P C Q), `PetIGA.SetUp.C57_order` (P C Q), `PetIGA.SetUp.C57_frozen` (P C Q), `PetIGA.SetUp.C57_degree_partial` (P C Q), `PetIGA.SetUp.C57_degree_refuted` (P C Q), `PetIGA.SetUp.C57_processors` (P C Q)
* **C58**: `PetIGA.Ref.C58_released_exactly` (P C Q), `PetIGA.Ref.C58_usable_iff` (P C Q), `PetIGA.Ref.C58_disciplined` (P C Q)
* **C59**: `PetIGA.SetUp.C59_clone_preserves` (P C Q), `PetIGA.SetUp.C59_tables_partial` (P C Q), `PetIGA.SetUp.C59_reduced_refuted` (P C Q)
* **C60**: `PetIGA.Blk.C60_block` (P C Q), `PetIGA.Blk.C60_overlap` (P C Q), `PetIGA.Blk.C60_legal` (P C Q), `PetIGA.Blk.C60_after_setup_partial` (P C Q), `PetIGA.Blk.C60_refuted` (P C Q), `PetIGA.Blk.C60_last_process` (P C Q), `PetIGA.Blk.C60_example` (P C Q)
* **C61**: `PetIGA.Ker.C61_evaluate` (P C Q), `PetIGA.Ker.C61_laplacian` (P C Q), `PetIGA.Ker.C61_linear` (P C Q), `PetIGA.Ker.C61_constants` (P C Q)
* **C62**: `PetIGA.Part.C62_auto_grid_complete_2d_partial` (P C Q), `PetIGA.Part.C62_auto_grid_complete_3d_refuted` (P C Q)
* **C63**: `PetIGA.Ax.C63_refused_init_unchanged_refuted` (P C Q), `PetIGA.Ax.C63_init_partial` (P C Q)
* **C64**: `PetIGA.Quad.C64_user_rule_tabulated_refuted` (P C Q), `PetIGA.Quad.C64_user_rule_tabulated_partial` (P C Q)
* **C65**: `PetIGA.Elem.C65_point_data_partial` (P Q), `PetIGA.Elem.C65_point_data_any_dim_partial` (P Q), `PetIGA.Elem.C65_manifold_refuted` (P Q)
* **C66**: `PetIGA.Fix.C66_function` (P C Q), `PetIGA.Fix.C66_jacobian` (P C Q), `PetIGA.Fix.C66_consistent_iff` (P C Q), `PetIGA.Fix.C66_consistent_refuted` (P C Q)
* **C67**: `PetIGA.SetUp.C67_setup_describes_partial` (P C Q), `PetIGA.SetUp.C67_axis_refuted` (P C Q), `PetIGA.SetUp.C67_processors_refuted` (P C Q)
* **C68**: `PetIGA.Quad.C68_collocation_tables` (P C Q), `PetIGA.Quad.C68_other_basis_refused` (P Q)
* **C69**: `PetIGA.Mat.C69_preallocation` (P C Q), `PetIGA.Mat.C69_inserted` (P Q)
* **C70**: `PetIGA.Ker.C70_inverse` (P C Q), `PetIGA.Ker.C70_gradient` (P C Q), `PetIGA.Ker.C70_none` (P C Q), `PetIGA.Ker.C70_manifold` (P C Q)
* **C71**: `PetIGA.Ker.C71_mapped_partial` (P C Q), `PetIGA.Ker.C71_parametric_partial` (P C Q)
* **C72**: `PetIGA.Area.C72_parametric` (P C Q), `PetIGA.Area.C72_mesh_load` (P C Q), `PetIGA.Area.C72_element_load` (P C Q), `PetIGA.Area.C72_geometry_2d_0` (P C Q), `PetIGA.Area.C72_geometry_2d_1` (P C Q), `PetIGA.Area.C72_geometry_3d_0` (P C Q), `PetIGA.Area.C72_geometry_3d_1` (P C Q), `PetIGA.Area.C72_geometry_3d_2` (P C Q), `PetIGA.Area.C72_consistent_refuted` (P C Q), `PetIGA.Area.C72_manifold_refuted` (P C Q)
* **C73**: `PetIGA.IO.C73_vector_file_partial` (P C Q), `PetIGA.IO.C73_file_process_independent_partial` (P C Q), `PetIGA.IO.C73_vector_round_trip_partial` (P C Q)
* **C74**: `PetIGA.MG.C74_partition_partial` (P C Q), `PetIGA.MG.C74_partition_refuted` (P)
* **C75**: `PetIGA.BDDC.C75_graph` (P C Q), `PetIGA.BDDC.C75_symmetric` (–), `PetIGA.BDDC.C75_two_wrapped` (P)
* **C76**: `PetIGA.Blk.C76_element_blocks` (P C Q), `PetIGA.Blk.C76_repeated_refuted` (P C Q)
* **C77**: `PetIGA.Drv.C77_vector` (P C Q), `PetIGA.Drv.C77_matrix` (P C Q), `PetIGA.Drv.C77_system` (P C Q), `PetIGA.Drv.C77_function` (P C Q), `PetIGA.Drv.C77_jacobian` (P C Q), `PetIGA.Drv.C77_ifunction` (P C Q), `PetIGA.Drv.C77_ijacobian` (P C Q), `PetIGA.Drv.C77_iefunction` (P C Q), `PetIGA.Drv.C77_iejacobian` (P C Q), `PetIGA.Drv.C77_rhsfunction` (P C Q), `PetIGA.Drv.C77_rhsjacobian` (P C Q), `PetIGA.Drv.C77_i2function` (P C Q), `PetIGA.Drv.C77_i2jacobian` (P C Q)
* **C78**: `PetIGA.Drv.C78_function` (P C Q), `PetIGA.Drv.C78_ifunction` (P C Q), `PetIGA.Drv.C78_iefunction` (P C Q), `PetIGA.Drv.C78_rhsfunction` (P C Q), `PetIGA.Drv.C78_i2function` (P C Q), `PetIGA.Drv.C78_function_at` (P C Q), `PetIGA.Drv.C78_ifunction_at` (P C Q)
* **C79**: `PetIGA.Drv.C79_request` (P Q), `PetIGA.Drv.C79_element` (P C Q), `PetIGA.Drv.C79_outside` (P), `PetIGA.Drv.C79_point` (P Q)
* **C80**: `PetIGA.Drv.C80_function` (P C Q), `PetIGA.Drv.C80_ifunction` (P C Q), `PetIGA.Drv.C80_iefunction` (P C Q), `PetIGA.Drv.C80_i2function` (P C Q), `PetIGA.Drv.C80_system` (P C Q), `PetIGA.Drv.C80_vector` (P C Q), `PetIGA.Drv.C80_matrix` (P C Q)
* **C81**: `PetIGA.Drv.C81_rate` (P C Q), `PetIGA.Drv.C81_rate_partial` (P C Q), `PetIGA.Drv.C81_rate_refuted` (P C Q)
* **C82**: `PetIGA.Dmda.C82_elem_dm` (P C Q), `PetIGA.Dmda.C82_node_dm` (P C Q), `PetIGA.Dmda.C82_geom_dm` (P C Q), `PetIGA.Dmda.C82_node_access` (P C Q), `PetIGA.Dmda.C82_node_write` (P C Q)
* **C83**: `PetIGA.Dmda.C83_draw_dm` (P C Q), `PetIGA.Dmda.C83_samples_increasing` (P C Q), `PetIGA.Dmda.C83_step` (P C Q), `PetIGA.Dmda.C83_resolution` (P Q), `PetIGA.Dmda.C83_samples` (P C Q), `PetIGA.Dmda.C83_values_1d` (P C Q), `PetIGA.Dmda.C83_values_2d` (P C Q), `PetIGA.Dmda.C83_values_3d` (P C Q), `PetIGA.Dmda.C83_collocation` (P C Q), `PetIGA.Dmda.greville_domain` (P C Q)
* **C84**: `PetIGA.PCA.C84_ebe_partial` (P C Q), `PetIGA.PCA.C84_spd` (P C Q), `PetIGA.PCA.C84_pattern` (P C Q), `PetIGA.PCA.C84_repeated_refuted` (P C Q), `PetIGA.PCA.C84_collocation_refuted` (P C Q)
* **C85**: `PetIGA.PCA.C85_bbb_partial` (P C Q), `PetIGA.PCA.C85_spd_partial` (P C Q), `PetIGA.PCA.C85_refuted` (P C Q), `PetIGA.PCA.C85_seam_refuted` (P C Q), `PetIGA.PCA.C85_repeated_refuted` (P C Q)
* **C86**: `PetIGA.Itg.C86_exact` (P C Q), `PetIGA.Itg.C86_exact_interior` (P C Q), `PetIGA.Itg.C86_near` (P C Q), `PetIGA.Itg.C86_legendre` (P C Q)
* **C87**: `PetIGA.Itg.C87_mass` (P C Q), `PetIGA.Itg.C87_mass_checked` (P C Q), `PetIGA.Itg.C87_system` (P C Q), `PetIGA.Drv.posDef_of_elements` (P C Q), `PetIGA.Itg.tensor_independent` (P C Q)
* **C88**: `PetIGA.Itg.C88_dirichlet` (P C Q), `PetIGA.Itg.C88_solvable` (P C Q), `PetIGA.Itg.C88_constants` (P C Q), `PetIGA.Itg.posDef_solve` (P C Q), `PetIGA.Itg.element_const` (P C Q), `PetIGA.Itg.connected` (P C Q)
* **C89**: `PetIGA.Itg.C89_rigid_motions` (P C Q), `PetIGA.Itg.C89_rigid_body_partial` (P C Q), `PetIGA.Itg.C89_null_space` (P C Q), `PetIGA.Itg.C89_geometry_refuted` (P C Q), `PetIGA.Itg.C89_periodic_refuted` (P C Q), `PetIGA.Itg.C89_translations` (P C Q), `PetIGA.Itg.modes_rigid` (P C Q), `PetIGA.Itg.modes_independent` (P C Q)
* **C90**: `PetIGA.Sol.C90_callback` (P Q), `PetIGA.Sol.C90_callback_partial` (P Q), `PetIGA.Sol.C90_missing` (P Q), `PetIGA.Sol.C90_context_refuted` (P)
* **C91**: `PetIGA.Sol.C91_snes` (P C Q), `PetIGA.Sol.C91_ts` (P C Q), `PetIGA.Sol.C91_ts_explicit` (P C Q), `PetIGA.Sol.C91_ts2` (P C Q), `PetIGA.Sol.C91_ts2_first_order` (P C Q), `PetIGA.Sol.C91_ksp_system` (P C Q), `PetIGA.Sol.C91_ksp_forms` (P C Q), `PetIGA.Sol.C91_missing` (P Q)
* **C92**: `PetIGA.Opt.C92_axes` (P C Q), `PetIGA.Opt.C92_given` (P C Q), `PetIGA.Opt.C92_no_options` (P C Q), `PetIGA.Opt.C92_after_stage` (P C Q), `PetIGA.Opt.C92_set_up_again` (P C Q), `PetIGA.Opt.C92_rejects_rules` (P C Q), `PetIGA.Opt.C92_rejects_axes` (P C Q), `PetIGA.Opt.C92_keep_partial` (P C Q), `PetIGA.Opt.C92_keep_refuted` (P C Q), `PetIGA.Opt.C92_basis_refuted` (P C Q)
* **C93**: `PetIGA.AD.C93_jacobian` (P C Q), `PetIGA.AD.C93_ijacobian` (P C Q), `PetIGA.AD.C93_propagates` (P C Q), `PetIGA.AD.C93_propagates_rates` (P C Q), `PetIGA.AD.C93_assembled` (P C Q), `PetIGA.AD.C93_iassembled` (P C Q), `PetIGA.AD.C93_errors_refuted` (P C Q), `PetIGA.AD.C93_collocation_refuted` (P C Q)
* **C94**: `PetIGA.Ifc.C94_lookup` (P C Q), `PetIGA.Ifc.C94_call` (P C Q), `PetIGA.Ifc.C94_compiles` (P Q)
* **C95**: `PetIGA.Ifc.C95_cxx` (P C Q), `PetIGA.Ifc.C95_c` (P C Q), `PetIGA.Ifc.C95_ftn` (P C Q), `PetIGA.Ifc.C95_div` (P C Q), `PetIGA.Ifc.C95_del2` (P C Q), `PetIGA.Ifc.C95_views` (P Q), `PetIGA.Ifc.C95_sums` (P C Q), `PetIGA.Ifc.C95_boundary` (P Q), `PetIGA.Ifc.C95_struct` (P Q), `PetIGA.Ifc.C95_offset_refuted` (P)
* **C96**: `PetIGA.Bsp.C96_smooth_1d` (P C Q), `PetIGA.Bsp.C96_smooth_2d` (P C Q), `PetIGA.Bsp.C96_smooth_3d` (P C Q), `PetIGA.Bsp.C96_tables` (P C Q), `PetIGA.Bsp.C96_uniform` (P C Q), `PetIGA.Bsp.C96_breaks` (P C Q), `PetIGA.Bsp.C96_ends` (P C Q), `PetIGA.Bsp.C96_periodic` (P C Q), `PetIGA.Bsp.C96_kink` (P C Q), `PetIGA.Prb.C96_probe_1d` (P C Q), `PetIGA.Prb.C96_probe_2d` (P C Q), `PetIGA.Prb.C96_probe_3d` (P C Q)
* **C97**: `PetIGA.Bsp.C97_poly` (P C Q), `PetIGA.Bsp.C97_greville` (P C Q), `PetIGA.Itg.C97_points` (P C Q), `PetIGA.Itg.C97_affine` (P C Q), `PetIGA.Itg.C97_affine_gradient` (P C Q), `PetIGA.Prb.C97_probe_1d` (P C Q), `PetIGA.Prb.C97_probe_2d` (P C Q), `PetIGA.Prb.C97_probe_3d` (P C Q)
* **C98**: `PetIGA.Itg.C98_best` (P C Q), `PetIGA.Itg.C98_least` (P C Q), `PetIGA.Itg.C98_exact` (P C Q), `PetIGA.Itg.C98_l2` (P C Q), `PetIGA.Itg.C98_l2_affine` (P C Q), `PetIGA.Itg.C98_ritz` (P C Q)
* **C99**: `PetIGA.Itg.C99_poisson` (P C Q)
* **C100**: `PetIGA.MIO.C100_matrix_file` (P C Q), `PetIGA.MIO.C100_matrix_load` (P C Q), `PetIGA.MIO.C100_round_trip` (P C Q), `PetIGA.MIO.C100_rejects` (P C Q), `PetIGA.MIO.C100_pattern` (P C Q), `PetIGA.MIO.C100_created_round_trip` (P C Q), `PetIGA.MIO.C100_duplicates` (P)
* **C101**: `PetIGA.DMI.C101_references` (P C Q), `PetIGA.DMI.C101_defined_partial` (P C Q), `PetIGA.DMI.C101_created` (P Q), `PetIGA.DMI.C101_reports` (P Q), `PetIGA.DMI.C101_derived` (P Q), `PetIGA.DMI.C101_defined_refuted` (P Q), `PetIGA.DMI.C101_types_kept_refuted` (P C Q), `PetIGA.DMI.C101_type_choice_refuted` (P C Q), `PetIGA.DMI.C101_derived_types_refuted` (P C Q)
* **C102**: `PetIGA.Demo.C102_laplace` (P C Q), `PetIGA.Demo.C102_laplace_nurbs` (P C Q), `PetIGA.Demo.C102_poisson` (P C Q), `PetIGA.Demo.C102_project` (P C Q), `PetIGA.Demo.C102_project_power` (P C Q), `PetIGA.Demo.C102_project_linear` (P C Q), `PetIGA.Demo.C102_poisson_dims` (P C Q)
* **C103**: `PetIGA.Opts.C103_default` (P Q), `PetIGA.Opts.C103_alias_partial` (P C Q), `PetIGA.Opts.C103_alias_refuted` (P C Q), `PetIGA.Opts.C103_aliases_partial` (P C Q), `PetIGA.Opts.C103_reject` (P Q), `PetIGA.Opts.C103_get` (P Q), `PetIGA.Opts.C103_string_partial` (P C Q), `PetIGA.Opts.C103_string_refuted` (P C Q)
* **C104**: `PetIGA.Frm.C104_bratu` (P C Q), `PetIGA.Frm.C104_bratu_collocation` (P C Q), `PetIGA.Frm.C104_bratu_transient` (P C Q), `PetIGA.Frm.C104_elastic_rod` (P C Q), `PetIGA.Frm.C104_mobility` (P C Q), `PetIGA.Frm.C104_potential_2d` (P C Q), `PetIGA.Frm.C104_potential_3d` (P C Q), `PetIGA.Frm.C104_cahn_hilliard_2d` (P C Q), `PetIGA.Frm.C104_cahn_hilliard_3d` (P C Q), `PetIGA.Frm.C104_pattern_formation` (P C Q), `PetIGA.Frm.C104_nsk` (P C Q), `PetIGA.Frm.C104_bratu_assembled` (P C Q), `PetIGA.Frm.C104_bratu_transient_assembled` (P C Q), `PetIGA.Frm.C104_elastic_rod_assembled` (P C Q), `PetIGA.Frm.C104_cahn_hilliard_2d_assembled` (P C Q), `PetIGA.Frm.C104_cahn_hilliard_3d_assembled` (P C Q), `PetIGA.Frm.C104_pattern_formation_assembled` (P C Q), `PetIGA.Frm.C104_nsk_assembled` (P C Q)
* **C105**: `PetIGA.Hyp.C105_tangent` (P C Q), `PetIGA.Hyp.C105_tangent_assembled` (P C Q), `PetIGA.Hyp.C105_tangent_refuted` (P C Q), `PetIGA.Hyp.C105_symmetric` (P C Q), `PetIGA.Hyp.C105_objective` (P C Q), `PetIGA.Hyp.C105_energy` (P C Q), `PetIGA.Hyp.C105_energy_assembled` (P C Q), `PetIGA.Hyp.C105_rigid_partial` (P C Q), `PetIGA.Hyp.C105_rigid_refuted` (P C Q), `PetIGA.Hyp.C105_small_strain_partial` (P C Q), `PetIGA.Hyp.C105_mooneyr2_ignored_refuted` (P C Q)
* **C106**: `PetIGA.Drv.C106_gradient` (P C Q)
* **C107**: `PetIGA.Frm.C107_cahn_hilliard_2d` (P C Q), `PetIGA.Frm.C107_cahn_hilliard_2d_step` (P C Q), `PetIGA.Frm.C107_cahn_hilliard_2d_uniform` (P C Q), `PetIGA.Frm.C107_cahn_hilliard_3d` (P C Q), `PetIGA.Frm.C107_cahn_hilliard_3d_uniform` (P C Q), `PetIGA.Frm.C107_nsk` (P C Q), `PetIGA.Frm.C107_pattern_formation` (P C Q)
* **C108**: `PetIGA.VIO.C108_view` (P C Q), `PetIGA.VIO.C108_load` (P C Q), `PetIGA.VIO.C108_round_trip` (P C Q), `PetIGA.VIO.C108_wrong_size` (P C Q), `PetIGA.VIO.C108_same_file_partial` (P C Q), `PetIGA.VIO.C108_periodic_refuted` (P C Q)
* **C109**: `PetIGA.Plt.C109_processes` (P C Q), `PetIGA.Plt.C109_processes_collocation` (P C Q), `PetIGA.Plt.C109_grid` (P C Q), `PetIGA.Plt.C109_points` (P C Q), `PetIGA.Plt.C109_window` (P C Q), `PetIGA.Plt.C109_other_dimensions` (P Q)
* **C110**: `PetIGA.Flt.C110_values` (P C Q), `PetIGA.Flt.C110_divisors` (P C Q), `PetIGA.Flt.C110_unity` (P C Q), `PetIGA.Flt.C110_field` (P C Q), `PetIGA.Flt.C110_nurbs` (P C Q)
* **C111**: `PetIGA.Flt.C111_uniform` (P C Q), `PetIGA.Flt.C111_greville_ordered` (P C Q), `PetIGA.Flt.C111_greville_error` (P C Q), `PetIGA.Flt.C111_points` (P C Q), `PetIGA.Flt.C111_uniform_refuted` (P C Q), `PetIGA.Flt.C111_greville_refuted` (P C Q), `PetIGA.Flt.C111_lobatto_refuted` (P C Q)
* **C112**: `PetIGA.Ovf.C112_distribute` (P C Q), `PetIGA.Ovf.C112_local` (P C Q), `PetIGA.Ovf.C112_ghost` (P C Q), `PetIGA.Ovf.C112_after_setup` (P C Q), `PetIGA.Ovf.C112_closure` (P C Q), `PetIGA.Ovf.C112_gather` (P C Q), `PetIGA.Ovf.C112_partition_partial` (P C Q), `PetIGA.Ovf.C112_partition_refuted` (P C Q), `PetIGA.Ovf.C112_tables_partial` (P C Q), `PetIGA.Ovf.C112_tables_refuted` (P C Q), `PetIGA.Ovf.C112_findspan_partial` (P C Q), `PetIGA.Ovf.C112_findspan_refuted` (P C Q)
* **C113**: `PetIGA.Vw.C113_partition` (P C Q), `PetIGA.Vw.C113_view` (P), `PetIGA.Vw.C113_continuity_partial` (P C Q), `PetIGA.Vw.C113_continuity_periodic_partial` (P C Q), `PetIGA.Vw.C113_continuity_refuted` (P C Q)
* **C114**: `PetIGA.Wir.C114_operators_partial` (P Q), `PetIGA.Wir.C114_set` (P Q), `PetIGA.Wir.C114_inner` (P Q), `PetIGA.Wir.C114_created_partial` (P Q), `PetIGA.Wir.C114_callbacks` (–), `PetIGA.Wir.C114_foreign` (P), `PetIGA.Wir.C114_order_refuted` (P), `PetIGA.Wir.C114_again_refuted` (P Q), `PetIGA.Wir.C114_created_refuted` (P)
* **C115**: `PetIGA.SetUp.C115_same_outcome` (P C Q)
* **C116**: `PetIGA.BDDC.C116_list_partial` (P C Q), `PetIGA.BDDC.C116_once_partial` (P C Q), `PetIGA.BDDC.C116_planes_partial` (P C Q), `PetIGA.BDDC.C116_collocation_refuted` (P C Q)
* **C117**: `PetIGA.Itg.C117_between` (P C Q), `PetIGA.Itg.C117_geometry` (P C Q), `PetIGA.Prb.C117_probe_1d` (P C Q), `PetIGA.Prb.C117_probe_2d` (P C Q), `PetIGA.Prb.C117_probe_3d` (P C Q)
* **C118**: `PetIGA.BDDC.C118_orthonormal_partial` (P C Q), `PetIGA.BDDC.C118_independent_partial` (P C Q), `PetIGA.BDDC.C118_space_partial` (P C Q), `PetIGA.BDDC.C118_one_process_partial` (P C Q), `PetIGA.BDDC.C118_line_partial` (P C Q), `PetIGA.BDDC.C118_end_refuted` (P C Q), `PetIGA.BDDC.C118_interface_refuted` (P C Q), `PetIGA.BDDC.C118_zero_refuted` (P C Q)
* **C119**: `PetIGA.Itg.C119_points` (P C Q), `PetIGA.Itg.C119_trace` (P C Q), `PetIGA.Itg.C119_constant` (P C Q), `PetIGA.Itg.C119_geometry` (P C Q), `PetIGA.Itg.C119_exact` (P C Q), `PetIGA.Itg.C119_unclamped_refuted` (P C Q)
* **C120**: `PetIGA.Itg.C120_system` (P C Q), `PetIGA.Itg.C120_function` (P C Q), `PetIGA.Itg.C120_table` (P C Q)
* **C121**: `PetIGA.Itg.C121_divergence` (P C Q), `PetIGA.Itg.C121_by_parts` (P C Q)
* **C122**: `PetIGA.Demo.C122_nitsche` (P C Q), `PetIGA.Demo.C122_symmetric` (P C Q)
* **C123**: `PetIGA.Sym.C123_matrix` (P C Q), `PetIGA.Sym.C123_system` (P C Q), `PetIGA.Sym.C123_jacobian` (P C Q), `PetIGA.Sym.C123_rhsjacobian` (P C Q), `PetIGA.Sym.C123_ijacobian` (P C Q), `PetIGA.Sym.C123_iejacobian` (P C Q), `PetIGA.Sym.C123_i2jacobian` (P C Q)
* **C124**: `PetIGA.Demo.C124_energy` (P C Q), `PetIGA.Demo.C124_coercive` (P C Q), `PetIGA.Demo.C124_spd_partial` (P C Q), `PetIGA.Demo.C124_unique_partial` (P C Q), `PetIGA.Demo.C124_indefinite` (P C Q), `PetIGA.Demo.C124_spd_refuted` (P C Q)
* **C125**: `PetIGA.Demo.C125_solution` (P C Q), `PetIGA.Demo.C125_exact` (P C Q)
* **C126**: `PetIGA.Demo.C126_nullspace` (P C Q), `PetIGA.Demo.C126_spd_refuted` (P C Q), `PetIGA.Demo.C126_mean` (P C Q)
* **C127**: `PetIGA.Demo.C127_solvable` (P C Q), `PetIGA.Demo.C127_compatible` (P C Q), `PetIGA.Demo.C127_data` (P C Q)
* **C128**: `PetIGA.Demo.C128_definite` (P C Q), `PetIGA.Demo.C128_weak` (P C Q), `PetIGA.Demo.C128_sides` (P C Q), `PetIGA.Demo.C128_wind` (P C Q), `PetIGA.Demo.C128_still_refuted` (P C Q)
* **C129**: `PetIGA.Demo.C129_form` (P C Q), `PetIGA.Demo.C129_hooke_partial` (P C Q), `PetIGA.Demo.C129_hooke_refuted` (P C Q), `PetIGA.Demo.C129_everywhere_refuted` (P C Q), `PetIGA.Demo.C129_assembled` (P C Q)
* **C130**: `PetIGA.Demo.C130_data` (P C Q), `PetIGA.Demo.C130_system` (P C Q), `PetIGA.Demo.C130_position` (P C Q), `PetIGA.Demo.C130_geometry_refuted` (P C Q), `PetIGA.Demo.logg_set` (P C Q), `PetIGA.Demo.logg_value` (P C Q)
