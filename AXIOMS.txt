'Acados.Mem.C01_make_int_multiple_of' depends on axioms: [propext, Classical.choice, Quot.sound]
'Acados.Mem.C01_align_char_to' depends on axioms: [propext, Classical.choice, Quot.sound]
'Acados.Mem.C01_idempotent' depends on axioms: [propext, Classical.choice, Quot.sound]
'Acados.Mem.C01_padding' depends on axioms: [propext, Quot.sound]
'Acados.Mem.C02_bgh_model' depends on axioms: [propext, Classical.choice, Quot.sound]
'Acados.Mem.C02_bgh_memory' depends on axioms: [propext, Classical.choice, Quot.sound]
'Acados.Mem.C02_bgh_workspace' depends on axioms: [propext, Classical.choice, Quot.sound]
'Acados.Mem.C02_bgp_model' depends on axioms: [propext, Classical.choice, Quot.sound]
'Acados.Mem.C02_bgp_memory' depends on axioms: [propext, Classical.choice, Quot.sound]
'Acados.Mem.C02_bgp_workspace' depends on axioms: [propext, Classical.choice, Quot.sound]
'Acados.Mem.C02_ls_model_partial' depends on axioms: [propext, Classical.choice, Quot.sound]
'Acados.Mem.C02_ls_memory' depends on axioms: [propext, Classical.choice, Quot.sound]
'Acados.Mem.C02_ls_workspace' depends on axioms: [propext, Classical.choice, Quot.sound]
'Acados.Mem.C02_nls_model' depends on axioms: [propext, Classical.choice, Quot.sound]
'Acados.Mem.C02_nls_memory' depends on axioms: [propext, Classical.choice, Quot.sound]
'Acados.Mem.C02_nls_workspace' depends on axioms: [propext, Classical.choice, Quot.sound]
'Acados.Mem.C02_ext_model' depends on axioms: [propext, Classical.choice, Quot.sound]
'Acados.Mem.C02_ext_memory' depends on axioms: [propext, Classical.choice, Quot.sound]
'Acados.Mem.C02_conl_model' depends on axioms: [propext, Classical.choice, Quot.sound]
'Acados.Mem.C02_conl_memory' depends on axioms: [propext, Classical.choice, Quot.sound]
'Acados.Mem.C02_conl_workspace' depends on axioms: [propext, Classical.choice, Quot.sound]
'Acados.Mem.C02_ext_workspace' depends on axioms: [propext, Classical.choice, Quot.sound]
'Acados.Mem.C02_ls_model_false' depends on axioms: [propext, Quot.sound]
'Acados.Mem.C02_nested' depends on axioms: [propext, Quot.sound]
'Acados.Mem.C02_sqp_memory_nested' depends on axioms: [propext, Classical.choice, Quot.sound]
'Acados.Mem.C02_nlp_config' depends on axioms: [propext, Classical.choice, Quot.sound]
'Acados.Mem.C02_reg_dims' depends on axioms: [propext, Classical.choice, Quot.sound]
'Acados.Mem.C02_qpscal_dims' depends on axioms: [propext, Classical.choice, Quot.sound]
'Acados.Mem.C02_nlp_dims_self_partial' depends on axioms: [propext, Classical.choice, Quot.sound]
'Acados.Mem.C02_nlp_dims_self_bytes' depends on axioms: [propext, Classical.choice, Quot.sound]
'Acados.Mem.C02_nlp_dims_self_false' depends on axioms: [propext]
'Acados.Mem.C02_nlp_dims' depends on axioms: [propext, Classical.choice, Quot.sound]
'Acados.Mem.C02_nlp_in' depends on axioms: [propext, Classical.choice, Quot.sound]
'Acados.Mem.C02_nlp_out' depends on axioms: [propext, Classical.choice, Quot.sound]
'Acados.Mem.C02_nlp_opts' depends on axioms: [propext, Classical.choice, Quot.sound]
'Acados.Mem.C02_nlp_res' depends on axioms: [propext, Classical.choice, Quot.sound]
'Acados.Mem.C02_nlp_memory' depends on axioms: [propext, Classical.choice, Quot.sound]
'Acados.Mem.C02_nlp_workspace' depends on axioms: [propext, Classical.choice, Quot.sound]
'Acados.Mem.C02_nlp_workspace_shared' depends on axioms: [propext]
'Acados.Mem.C02_reg_mirror' depends on axioms: [propext, Classical.choice, Quot.sound]
'Acados.Mem.C02_reg_glm' depends on axioms: [propext, Classical.choice, Quot.sound]
'Acados.Mem.C02_reg_reduc' depends on axioms: [propext, Classical.choice, Quot.sound]
'Acados.Mem.C02_reg_convexify' depends on axioms: [propext, Classical.choice, Quot.sound]
'Acados.Mem.C02_qpscal_memory' depends on axioms: [propext, Classical.choice, Quot.sound]
'Acados.Mem.C02_glob_memory' depends on axioms: [propext, Classical.choice, Quot.sound]
'Acados.Mem.C02_sqp_memory' depends on axioms: [propext, Classical.choice, Quot.sound]
'Acados.Mem.C02_rti_memory' depends on axioms: [propext, Classical.choice, Quot.sound]
'Acados.Mem.C02_ddp_memory' depends on axioms: [propext, Classical.choice, Quot.sound]
'Acados.Mem.C02_wfqp_memory' depends on axioms: [propext, Classical.choice, Quot.sound]
'Acados.Mem.C02_solver_pair' depends on axioms: [propext, Classical.choice, Quot.sound]
'Acados.Mem.C02_qp_dims' depends on axioms: [propext, Classical.choice, Quot.sound]
'Acados.Mem.C02_qp_in' depends on axioms: [propext, Classical.choice, Quot.sound]
'Acados.Mem.C02_qp_out' depends on axioms: [propext, Classical.choice, Quot.sound]
'Acados.Mem.C02_qp_seed' depends on axioms: [propext, Classical.choice, Quot.sound]
'Acados.Mem.C02_qp_res' depends on axioms: [propext, Classical.choice, Quot.sound]
'Acados.Mem.C02_qp_res_workspace' depends on axioms: [propext, Classical.choice, Quot.sound]
'Acados.Mem.C02_pcond_dims' depends on axioms: [propext, Classical.choice, Quot.sound]
'Acados.Mem.C02_pcond_opts' depends on axioms: [propext, Classical.choice, Quot.sound]
'Acados.Mem.C02_pcond_memory' depends on axioms: [propext, Classical.choice, Quot.sound]
'Acados.Mem.C02_dense_dims' depends on axioms: [propext, Classical.choice, Quot.sound]
'Acados.Mem.C02_dense_in' depends on axioms: [propext, Classical.choice, Quot.sound]
'Acados.Mem.C02_dense_out' depends on axioms: [propext, Classical.choice, Quot.sound]
'Acados.Mem.C02_dense_seed' depends on axioms: [propext, Classical.choice, Quot.sound]
'Acados.Mem.C02_dense_res' depends on axioms: [propext, Classical.choice, Quot.sound]
'Acados.Mem.C02_dense_res_workspace' depends on axioms: [propext, Classical.choice, Quot.sound]
'Acados.Mem.C02_fcond_dims' depends on axioms: [propext, Classical.choice, Quot.sound]
'Acados.Mem.C02_fcond_opts' depends on axioms: [propext, Classical.choice, Quot.sound]
'Acados.Mem.C02_fcond_memory' depends on axioms: [propext, Classical.choice, Quot.sound]
'Acados.Mem.C02_xcond_config' depends on axioms: [propext, Classical.choice, Quot.sound]
'Acados.Mem.C02_xcond_dims' depends on axioms: [propext, Classical.choice, Quot.sound]
'Acados.Mem.C02_xcond_opts' depends on axioms: [propext, Quot.sound]
'Acados.Mem.C02_xcond_memory' depends on axioms: [propext, Quot.sound]
'Acados.Mem.C02_xcond_workspace' depends on axioms: [propext, Classical.choice, Quot.sound]
'Acados.Mem.C02_hpipm' depends on axioms: [propext, Classical.choice, Quot.sound]
'Acados.Mem.C02_daqp_opts' depends on axioms: [propext, Classical.choice, Quot.sound]
'Acados.Mem.C02_daqp_workspace' depends on axioms: [propext, Classical.choice, Quot.sound]
'Acados.Mem.C02_daqp_memory_partial' depends on axioms: [propext, Quot.sound]
'Acados.Mem.C02_daqp_memory_false' depends on axioms: [propext]
'Acados.Mem.C02_dense_ooqp_memory' depends on axioms: [propext, Classical.choice, Quot.sound]
'Acados.Mem.C02_dense_ooqp_workspace' depends on axioms: [propext, Classical.choice, Quot.sound]
'Acados.Mem.C02_qpoases_memory' depends on axioms: [propext, Classical.choice, Quot.sound]
'Acados.Mem.C02_ooqp_memory' depends on axioms: [propext, Classical.choice, Quot.sound]
'Acados.Mem.C02_ooqp_workspace_partial' depends on axioms: [propext, Classical.choice, Quot.sound]
'Acados.Mem.C02_ooqp_workspace_false' depends on axioms: [propext]
'Acados.Mem.C02_qpdunes_workspace' depends on axioms: [propext, Classical.choice, Quot.sound]
'Acados.Mem.C02_clarabel_memory' depends on axioms: [propext, Classical.choice, Quot.sound]
'Acados.Mem.C02_osqp_workspace' depends on axioms: [propext, Classical.choice, Quot.sound]
'Acados.Mem.C02_osqp_memory_partial' depends on axioms: [propext, Quot.sound]
'Acados.Mem.C02_osqp_memory_false' depends on axioms: [propext]
'Acados.Mem.C02_ext_param_generic' depends on axioms: [propext, Classical.choice, Quot.sound]
'Acados.Mem.C02_casadi' depends on axioms: [propext, Classical.choice, Quot.sound]
'Acados.Mem.C02_casadi_ext_param' depends on axioms: [propext, Classical.choice, Quot.sound]
'Acados.Mem.C02_sim_in' depends on axioms: [propext, Classical.choice, Quot.sound]
'Acados.Mem.C02_sim_out' depends on axioms: [propext, Classical.choice, Quot.sound]
'Acados.Mem.C02_erk_opts' depends on axioms: [propext, Classical.choice, Quot.sound]
'Acados.Mem.C02_erk_memory' depends on axioms: [propext, Classical.choice, Quot.sound]
'Acados.Mem.C02_erk_workspace' depends on axioms: [propext, Classical.choice, Quot.sound]
'Acados.Mem.C02_irk_opts' depends on axioms: [propext, Classical.choice, Quot.sound]
'Acados.Mem.C02_gnsf_opts' depends on axioms: [propext, Classical.choice, Quot.sound]
'Acados.Mem.C02_irk_memory' depends on axioms: [propext, Classical.choice, Quot.sound]
'Acados.Mem.C02_irk_workspace' depends on axioms: [propext, Classical.choice, Quot.sound]
'Acados.Mem.C02_lifted_memory' depends on axioms: [propext, Classical.choice, Quot.sound]
'Acados.Mem.C02_lifted_workspace' depends on axioms: [propext, Classical.choice, Quot.sound]
'Acados.Mem.C02_gnsf_model' depends on axioms: [propext, Classical.choice, Quot.sound]
'Acados.Mem.C02_gnsf_memory' depends on axioms: [propext, Classical.choice, Quot.sound]
'Acados.Mem.C02_gnsf_pre_workspace' depends on axioms: [propext, Classical.choice, Quot.sound]
'Acados.Mem.C02_gnsf_workspace' depends on axioms: [propext, Classical.choice, Quot.sound]
'Acados.Mem.C02_dyn_cont_dims' depends on axioms: [propext, Classical.choice, Quot.sound]
'Acados.Mem.C02_dyn_cont_opts' depends on axioms: [propext, Classical.choice, Quot.sound]
'Acados.Mem.C02_dyn_cont_memory' depends on axioms: [propext, Classical.choice, Quot.sound]
'Acados.Mem.C02_dyn_cont_workspace' depends on axioms: [propext, Classical.choice, Quot.sound]
'Acados.Mem.C02_dyn_cont_model' depends on axioms: [propext, Classical.choice, Quot.sound]
'Acados.Mem.C02_dyn_disc_memory' depends on axioms: [propext, Classical.choice, Quot.sound]
'Acados.Mem.C02_dyn_disc_workspace' depends on axioms: [propext, Classical.choice, Quot.sound]
'Acados.Mem.C02_erk_fun_only' depends on axioms: [propext, Classical.choice, Quot.sound]
'Acados.Mem.C02_erk_adjoint_false' depends on axioms: [propext, Quot.sound]
'Acados.Mem.C02_erk_adjoint_partial' depends on axioms: [propext, Quot.sound]
'Acados.Mem.C02_irk_fun_only' depends on axioms: [propext, Classical.choice, Quot.sound]
'Acados.Mem.C02_irk_adjoint_false' depends on axioms: [propext, Quot.sound]
'Acados.Bgh.C03_vector_fields' depends on axioms: [propext, Quot.sound]
'Acados.Bgh.C03_readable' depends on axioms: [propext]
'Acados.Bgh.C03_index_fields' depends on axioms: [propext, Classical.choice, Quot.sound]
'Acados.Bgh.C03_matrix_fields' depends on axioms: [propext, Classical.choice, Quot.sound]
'Acados.Bgh.C03_writes_in_bounds' depends on axioms: [propext, Quot.sound]
'Acados.Bgh.C03_inconsistent_slack_dims_out_of_bounds' depends on axioms: [propext, Quot.sound]
'Acados.Bgh.C04_mask' depends on axioms: [propext, Classical.choice, Quot.sound]
'Acados.Bgh.C04_mask_double' depends on axioms: [propext, Quot.sound]
'Acados.Bgh.C04_off_row_zero' depends on axioms: [propext, Classical.choice, Quot.sound]
'Acados.Bgh.C04_off_multiplier_zero' depends on axioms: [propext, Quot.sound]
'Acados.Bgh.C04_on_multiplier_kept' depends on axioms: [propext, Quot.sound]
'Acados.Bgh.C04_minus_infinity_gives_nan' depends on axioms: [propext, Classical.choice, Quot.sound]
'Acados.Bgh.C04_finite_gives_zero' depends on axioms: [propext, Classical.choice, Quot.sound]
'Acados.Bgh.C04_bgp_rows' depends on axioms: [propext, Classical.choice, Quot.sound]
'Acados.Bgh.C04_bgp_off_slack_counterexample' depends on axioms: [propext, Classical.choice, Quot.sound]
'Acados.Bgh.C05_nonpositive_iff_constraints_hold' depends on axioms: [propext, Classical.choice, Quot.sound]
'Acados.Bgh.C05_nonpositive_iff_constraints_hold_rev' depends on axioms: [propext, Classical.choice, Quot.sound]
'Acados.Bgh.C05_bgp_partial' depends on axioms: [propext, Classical.choice, Quot.sound]
'Acados.Bgh.C06_adjoint' depends on axioms: [propext, Classical.choice, Quot.sound]
'Acados.Bgh.C06_adjoint_bgp_partial' depends on axioms: [propext, Classical.choice, Quot.sound]
'Acados.Bgh.C06_bgp_idxs_rev_wrong' depends on axioms: [propext, Classical.choice, Quot.sound]
'Acados.Bgh.C07_rev_follows_last_write' depends on axioms: [propext, Classical.choice, Quot.sound]
'Acados.Bgh.C07_first_solve_partial' depends on axioms: [propext, Classical.choice, Quot.sound]
'Acados.Bgh.C07_soft_rows_accumulate' depends on axioms: [propext, Classical.choice, Quot.sound]
'Acados.Bgh.C07_stale_soft_row' depends on axioms: [propext, Quot.sound]
'Acados.Bgh.C08_total_derivative_partial' depends on axioms: [propext, Classical.choice, Quot.sound]
'Acados.Bgh.C08_misplaced_block' depends on axioms: [propext, Classical.choice, Quot.sound]
'Acados.Bgh.C08_false_with_general_constraints' depends on axioms: [propext, Classical.choice, Quot.sound]
'Acados.Funnel.C09_initial_width' depends on axioms: [propext, Classical.choice, Quot.sound]
'Acados.Funnel.C09_width_along_solve' depends on axioms: [propext, Classical.choice, Quot.sound]
'Acados.Funnel.C10_accepted_progress' depends on axioms: [propext, Classical.choice, Quot.sound]
'Acados.Funnel.C10_decision_rule' depends on axioms: [propext, Classical.choice, Quot.sound]
'Acados.Funnel.C10_never_both_worse' depends on axioms: [propext, Classical.choice, Quot.sound]
'Acados.QpOpts.C100_hpipm' depends on axioms: [propext, Classical.choice, Quot.sound]
'Acados.QpOpts.C100_osqp_partial' depends on axioms: [propext, Classical.choice, Quot.sound]
'Acados.QpOpts.C100_clarabel_partial' depends on axioms: [propext, Classical.choice, Quot.sound]
'Acados.QpOpts.C100_qpoases_partial' depends on axioms: [propext, Classical.choice, Quot.sound]
'Acados.QpOpts.C100_daqp_partial' depends on axioms: [propext, Classical.choice, Quot.sound]
'Acados.QpOpts.C100_qpdunes_partial' depends on axioms: [propext, Classical.choice, Quot.sound]
'Acados.QpOpts.C100_hpmpc_partial' depends on axioms: [propext, Classical.choice, Quot.sound]
'Acados.QpOpts.C100_nlp_tols' depends on axioms: [propext, Classical.choice, Quot.sound]
'Acados.QpOpts.C100_adaptive' depends on axioms: [propext, Classical.choice, Quot.sound]
'Acados.QpOpts.C100_warm' depends on axioms: [propext, Classical.choice, Quot.sound]
'Acados.QpOpts.C100_generated' depends on axioms: [propext, Classical.choice, Quot.sound]
'Acados.QpOpts.C100_modes' depends on axioms: [propext, Classical.choice, Quot.sound]
'Acados.QpOpts.C100_qpoases_counterexample' depends on axioms: [propext, Classical.choice, Quot.sound]
'Acados.QpOpts.C100_osqp_counterexample' depends on axioms: [propext, Classical.choice, Quot.sound]
'Acados.QpOpts.C100_osqp_verbose_counterexample' depends on axioms: [propext, Classical.choice, Quot.sound]
'Acados.QpOpts.C100_print_counterexample' depends on axioms: [propext, Classical.choice, Quot.sound]
'Acados.QpOpts.C100_mode_counterexample' depends on axioms: [propext, Classical.choice, Quot.sound]
'Acados.QpOpts.C100_order_counterexample' depends on axioms: [propext, Classical.choice, Quot.sound]
'Acados.QpOpts.C100_clarabel_counterexample' depends on axioms: [propext, Classical.choice, Quot.sound]
'Acados.QpOpts.C100_plain_counterexample' depends on axioms: [propext, Classical.choice, Quot.sound]
'Acados.QpOpts.C100_qpoases_warm_counterexample' depends on axioms: [propext, Classical.choice, Quot.sound]
'Acados.QpOpts.C100_tau_counterexample' depends on axioms: [propext, Classical.choice, Quot.sound]
'Acados.QpOpts.C100_back_to_fixed_counterexample' depends on axioms: [propext, Classical.choice, Quot.sound]
'Acados.QpOpts.C100_first_warm_counterexample' depends on axioms: [propext, Classical.choice, Quot.sound]
'Acados.QpOpts.C100_rti_counterexample' depends on axioms: [propext, Classical.choice, Quot.sound]
'Acados.OcpCost.C101_accepts' depends on axioms: [propext, Classical.choice, Quot.sound]
'Acados.OcpCost.C101_checks_partial' depends on axioms: [propext, Classical.choice, Quot.sound]
'Acados.OcpCost.C101_calls_partial' depends on axioms: [propext, Classical.choice, Quot.sound]
'Acados.OcpCost.C101_ls_partial' depends on axioms: [propext, Classical.choice, Quot.sound]
'Acados.OcpCost.C101_ext_type_partial' depends on axioms: [propext, Classical.choice, Quot.sound]
'Acados.OcpCost.C101_vz_missing_counterexample' depends on axioms: [propext, Classical.choice, Quot.sound]
'Acados.OcpCost.C101_vz_extra_counterexample' depends on axioms: [propext, Classical.choice, Quot.sound]
'Acados.OcpCost.C101_asymmetric_counterexample' depends on axioms: [propext, Classical.choice, Quot.sound]
'Acados.OcpCost.C101_indefinite_counterexample' depends on axioms: [propext, Classical.choice, Quot.sound]
'Acados.OcpCost.C101_small_weight_counterexample' depends on axioms: [propext, Classical.choice, Quot.sound]
'Acados.OcpCost.C101_history_counterexample' depends on axioms: [propext, Classical.choice, Quot.sound]
'Acados.OcpCost.C101_initial_counterexample' depends on axioms: [propext, Classical.choice, Quot.sound]
'Acados.OcpCost.C101_ext_type_counterexample' depends on axioms: [propext, Classical.choice, Quot.sound]
'Acados.OptSet.C102_set_partial' depends on axioms: [propext, Classical.choice, Quot.sound]
'Acados.OptSet.C102_reject' depends on axioms: [propext, Classical.choice, Quot.sound]
'Acados.OptSet.C102_frame' depends on axioms: [propext, Classical.choice, Quot.sound]
'Acados.OptSet.C102_history_partial' depends on axioms: [propext, Classical.choice, Quot.sound]
'Acados.OptSet.C102_domain' depends on axioms: [propext, Classical.choice, Quot.sound]
'Acados.OptSet.C102_hpipm' depends on axioms: [propext, Classical.choice, Quot.sound]
'Acados.OptSet.C102_range_counterexample' depends on axioms: [propext, Classical.choice, Quot.sound]
'Acados.OptSet.C102_applies_counterexample' depends on axioms: [propext, Classical.choice, Quot.sound]
'Acados.OptSet.C102_ignored_counterexample' depends on axioms: [propext, Classical.choice, Quot.sound]
'Acados.OptSet.C102_wrap_counterexample' depends on axioms: [propext, Classical.choice, Quot.sound]
'Acados.OptSet.C102_bool_counterexample' depends on axioms: [propext, Classical.choice, Quot.sound]
'Acados.OptSet.C102_float_counterexample' depends on axioms: [propext, Classical.choice, Quot.sound]
'Acados.OptSet.C102_qp_counterexample' depends on axioms: [propext, Classical.choice, Quot.sound]
'Acados.OptSet.C102_level_counterexample' depends on axioms: [propext, Classical.choice, Quot.sound]
'Acados.PyArr.C103_matrix' depends on axioms: [propext, Quot.sound]
'Acados.PyArr.C103_warn' depends on axioms: [propext, Quot.sound]
'Acados.PyArr.C103_warn_accepts' depends on axioms: [propext, Classical.choice, Quot.sound]
'Acados.PyArr.C103_vector' depends on axioms: [propext, Quot.sound]
'Acados.PyArr.C103_refuse' depends on axioms: [propext, Classical.choice, Quot.sound]
'Acados.PyArr.C103_inbounds_partial' depends on axioms: [propext, Classical.choice, Quot.sound]
'Acados.PyArr.C103_roundtrip' depends on axioms: [propext, Quot.sound]
'Acados.PyArr.C103_set_partial' depends on axioms: [propext, Quot.sound]
'Acados.PyArr.C103_sim_partial' depends on axioms: [propext, Classical.choice, Quot.sound]
'Acados.PyArr.C103_sim_vector' does not depend on any axioms
'Acados.PyArr.C103_sparse_partial' depends on axioms: [propext, Classical.choice, Quot.sound]
'Acados.PyArr.C103_time_steps_partial' depends on axioms: [propext, Quot.sound]
'Acados.PyArr.C103_batch_partial' depends on axioms: [propext, Quot.sound]
'Acados.PyArr.C103_batch_vector' depends on axioms: [propext, Quot.sound]
'Acados.PyArr.C103_old_counterexample' depends on axioms: [propext, Classical.choice, Quot.sound]
'Acados.PyArr.C103_empty_counterexample' depends on axioms: [propext, Quot.sound]
'Acados.PyArr.C103_field_counterexample' depends on axioms: [propext, Quot.sound]
'Acados.PyArr.C103_set_counterexample' depends on axioms: [propext, Classical.choice, Quot.sound]
'Acados.PyArr.C103_sim_counterexample' depends on axioms: [propext, Classical.choice, Quot.sound]
'Acados.PyArr.C103_sparse_counterexample' depends on axioms: [propext, Quot.sound]
'Acados.PyArr.C103_time_steps_counterexample' depends on axioms: [propext, Quot.sound]
'Acados.PyArr.C103_time_steps_stride_counterexample' depends on axioms: [propext, Quot.sound]
'Acados.PyArr.C103_batch_counterexample' depends on axioms: [propext, Classical.choice, Quot.sound]
'Acados.Regularity.C104_indices' depends on axioms: [propext, Classical.choice, Quot.sound]
'Acados.Regularity.C104_strict_stage_partial' depends on axioms: [propext, Classical.choice, Quot.sound]
'Acados.Regularity.C104_strict_partial' depends on axioms: [propext, Classical.choice, Quot.sound]
'Acados.Regularity.C104_strict_stages_partial' depends on axioms: [propext, Quot.sound]
'Acados.Regularity.C104_licq_stage' depends on axioms: [propext, Classical.choice, Quot.sound]
'Acados.Regularity.C104_licq_partial' depends on axioms: [propext, Classical.choice, Quot.sound]
'Acados.Regularity.C104_licq_free_x0_partial' depends on axioms: [propext, Classical.choice, Quot.sound]
'Acados.Regularity.C104_tol_false' depends on axioms: [propext, Classical.choice, Quot.sound]
'Acados.Regularity.C104_equality_false' depends on axioms: [propext, Classical.choice, Quot.sound]
'Acados.Regularity.C104_strict_soft_false' depends on axioms: [propext, Classical.choice, Quot.sound]
'Acados.Regularity.C104_licq_soft_false' depends on axioms: [propext, Classical.choice, Quot.sound]
'Acados.Regularity.C104_licq_x0_false' depends on axioms: [propext, Classical.choice, Quot.sound]
'Acados.Regularity.C104_licq_dyn_false' depends on axioms: [propext, Classical.choice, Quot.sound]
'Acados.Regularity.C104_ocp_rows' depends on axioms: [propext, Classical.choice, Quot.sound]
'Acados.Regularity.C104_ocp_strict_partial' depends on axioms: [propext, Classical.choice, Quot.sound]
'Acados.Regularity.C104_ocp_staged' depends on axioms: [propext, Classical.choice, Quot.sound]
'Acados.Regularity.C104_ocp_licq_partial' depends on axioms: [propext, Classical.choice, Quot.sound]
'Acados.Regularity.C104_ocp_eq_bounds' depends on axioms: [propext, Classical.choice, Quot.sound]
'Acados.QpDesc.C105_received_partial' depends on axioms: [propext, Quot.sound]
'Acados.QpDesc.C105_accepts' depends on axioms: [propext, Quot.sound]
'Acados.QpDesc.C105_masks_required' depends on axioms: [propext, Quot.sound]
'Acados.QpDesc.C105_idxs_rev_required' depends on axioms: [propext, Quot.sound]
'Acados.QpDesc.C105_create' depends on axioms: [propext, Quot.sound]
'Acados.QpDesc.C105_masks' depends on axioms: [propext, Quot.sound]
'Acados.QpDesc.C105_idxs_partial' depends on axioms: [propext, Classical.choice, Quot.sound]
'Acados.QpDesc.C105_default_opts_false' depends on axioms: [propext, Quot.sound]
'Acados.QpDesc.C105_A_false' depends on axioms: [propext, Classical.choice, Quot.sound]
'Acados.QpDesc.C105_ubx_false' depends on axioms: [propext, Classical.choice, Quot.sound]
'Acados.QpDesc.C105_terminal_false' depends on axioms: [propext, Classical.choice, Quot.sound]
'Acados.QpDesc.C105_Q_false' depends on axioms: [propext, Classical.choice, Quot.sound]
'Acados.QpDesc.C105_idxs_false' depends on axioms: [propext, Classical.choice, Quot.sound]
'Acados.QpLicq.C105_licq_stages_partial' depends on axioms: [propext, Classical.choice, Quot.sound]
'Acados.QpLicq.C105_licq_denied_partial' depends on axioms: [propext, Classical.choice, Quot.sound]
'Acados.QpLicq.C105_licq_controls_partial' depends on axioms: [propext, Classical.choice, Quot.sound]
'Acados.QpLicq.C105_licq_index' depends on axioms: [propext, Classical.choice, Quot.sound]
'Acados.QpLicq.C105_licq_nx' depends on axioms: [propext, Classical.choice, Quot.sound]
'Acados.QpLicq.C105_licq_false' depends on axioms: [propext, Classical.choice, Quot.sound]
'Acados.QpLicq.C105_licq_index_false' depends on axioms: [propext, Classical.choice, Quot.sound]
'Acados.IterObj.C106_default_partial' depends on axioms: [propext, Quot.sound]
'Acados.IterObj.C106_default_false' depends on axioms: [propext, Classical.choice, Quot.sound]
'Acados.IterObj.C106_alias_false' depends on axioms: [propext, Quot.sound]
'Acados.IterObj.C106_replace' depends on axioms: [propext, Quot.sound]
'Acados.IterObj.C106_allclose_partial' depends on axioms: [propext, Quot.sound]
'Acados.IterObj.C106_allclose_size_false' depends on axioms: [propext, Classical.choice, Quot.sound]
'Acados.IterObj.C106_allclose_symm_false' depends on axioms: [propext, Classical.choice, Quot.sound]
'Acados.IterObj.C106_allclose_stages_partial' depends on axioms: [propext, Quot.sound]
'Acados.IterObj.C106_allclose_stages_false' depends on axioms: [propext, Classical.choice, Quot.sound]
'Acados.IterObj.C106_arith' depends on axioms: [propext, Quot.sound]
'Acados.IterObj.C106_inf_norm' depends on axioms: [propext, Classical.choice, Quot.sound]
'Acados.IterObj.C106_norm_diff' depends on axioms: [propext, Classical.choice, Quot.sound]
'Acados.IterObj.C106_batch' depends on axioms: [propext, Quot.sound]
'Acados.SimDesc.C107_accepts' depends on axioms: [propext, Classical.choice, Quot.sound]
'Acados.SimDesc.C107_options' depends on axioms: [propext, Classical.choice, Quot.sound]
'Acados.SimDesc.C107_names' depends on axioms: [propext, Classical.choice, Quot.sound]
'Acados.SimDesc.C107_idempotent_partial' depends on axioms: [propext, Classical.choice, Quot.sound]
'Acados.SimDesc.C107_create_supported' depends on axioms: [propext, Classical.choice, Quot.sound]
'Acados.SimDesc.C107_from_ocp_partial' depends on axioms: [propext, Classical.choice, Quot.sound]
'Acados.SimDesc.C107_from_ocp_file_false' depends on axioms: [propext, Classical.choice, Quot.sound]
'Acados.SimDesc.C107_sens_gnsf_false' depends on axioms: [propext]
'Acados.SimDesc.C107_sens_one_false' depends on axioms: [propext]
'Acados.SimDesc.C107_warning_false' depends on axioms: [propext]
'Acados.SimDesc.C107_name_false' depends on axioms: [propext]
'Acados.SimDesc.C107_params_false' depends on axioms: [propext]
'Acados.SimDesc.C107_erk_z_false' depends on axioms: [propext]
'Acados.StepNorm.C108_primal' depends on axioms: [propext, Classical.choice, Quot.sound]
'Acados.StepNorm.C108_dual' depends on axioms: [propext, Classical.choice, Quot.sound]
'Acados.StepNorm.C108_delta_dual' depends on axioms: [propext, Classical.choice, Quot.sound]
'Acados.StepNorm.C108_dual_zero' depends on axioms: [propext, Classical.choice, Quot.sound]
'Acados.StepNorm.C108_logged_partial' depends on axioms: [propext, Classical.choice, Quot.sound]
'Acados.StepNorm.C108_qp_failure_false' depends on axioms: [propext, Classical.choice, Quot.sound]
'Acados.SensOpts.C109_options' depends on axioms: [propext]
'Acados.SensOpts.C109_accepts' depends on axioms: [propext, Classical.choice, Quot.sound]
'Acados.SensOpts.C109_supported_partial' depends on axioms: [propext, Classical.choice, Quot.sound]
'Acados.SensOpts.C109_new_place_false' depends on axioms: [propext, Classical.choice, Quot.sound]
'Acados.SensOpts.C109_both_directions_false' does not depend on any axioms
'Acados.SensOpts.C109_idempotent' depends on axioms: [propext, Classical.choice, Quot.sound]
'Acados.SensOpts.C109_available' depends on axioms: [propext, Classical.choice, Quot.sound]
'Acados.SensOpts.C109_check_before_false' does not depend on any axioms
'Acados.SensOpts.C109_check_before_partial' depends on axioms: [propext]
'Acados.SensOpts.C109_forward_partial' depends on axioms: [propext, Quot.sound]
'Acados.SensOpts.C109_adjoint_partial' depends on axioms: [propext, Quot.sound]
'Acados.SensOpts.C109_value_partial' depends on axioms: [propext, Quot.sound]
'Acados.SensOpts.C109_forward_exits' depends on axioms: [propext, Classical.choice, Quot.sound]
'Acados.SensOpts.C109_adjoint_exits' depends on axioms: [propext, Quot.sound]
'Acados.SensOpts.C109_exit_false' depends on axioms: [propext, Classical.choice, Quot.sound]
'Acados.Funnel.C11_penalty_range' depends on axioms: [propext, Classical.choice, Quot.sound]
'Acados.Funnel.C11_penalty_along_solve' depends on axioms: [propext, Classical.choice, Quot.sound]
'Acados.Funnel.C11_unchanged_if_sufficient' depends on axioms: [propext, Classical.choice, Quot.sound]
'Acados.Funnel.C11_predicted_reduction_partial' depends on axioms: [propext, Classical.choice, Quot.sound]
'Acados.Funnel.C11_noise_window_counterexample' depends on axioms: [propext, Classical.choice, Quot.sound]
'Acados.Funnel.C12_funnel_terminates' depends on axioms: [propext, Classical.choice, Quot.sound]
'Acados.Funnel.C12_funnel_terminates_nan' depends on axioms: [propext, Classical.choice, Quot.sound]
'Acados.Funnel.C12_funnel_failure_leaves_iterate' depends on axioms: [propext, Quot.sound]
'Acados.Funnel.C12_funnel_nonterminating' depends on axioms: [propext, Classical.choice, Quot.sound]
'Acados.Funnel.C12_bad_options_accepted' depends on axioms: [propext, Classical.choice, Quot.sound]
'Acados.Merit.C12_merit_terminates' depends on axioms: [propext, Classical.choice, Quot.sound]
'Acados.Merit.C12_ddp_terminates' depends on axioms: [propext, Classical.choice, Quot.sound]
'Acados.Merit.C12_ddp_failure_leaves_iterate' depends on axioms: [propext, Quot.sound]
'Acados.Merit.C12_merit_failure_moves_iterate' depends on axioms: [propext, Classical.choice, Quot.sound]
'Acados.Merit.C13_success_cases_partial' depends on axioms: [propext, Classical.choice, Quot.sound]
'Acados.Merit.C13_success_without_descent' depends on axioms: [propext, Classical.choice, Quot.sound]
'Acados.Merit.C13_no_test_when_alpha_min_large' depends on axioms: [propext, Classical.choice, Quot.sound]
'Acados.Merit.C13_nan_leaves_iterate' depends on axioms: [propext, Classical.choice, Quot.sound]
'Acados.Merit.C14_weights' depends on axioms: [propext, Classical.choice, Quot.sound]
'Acados.Merit.C14_averaging' depends on axioms: [propext, Classical.choice, Quot.sound]
'Acados.Sqp.C15_status_meaning' depends on axioms: [propext, Classical.choice, Quot.sound]
'Acados.Sqp.C15_stops_at_first_criterion' depends on axioms: [propext, Classical.choice, Quot.sound]
'Acados.Sqp.C15_closed_list' depends on axioms: [propext, Classical.choice, Quot.sound]
'Acados.Sqp.C15_negative_max_iter_success' depends on axioms: [propext, Quot.sound]
'Acados.Sqp.C15_stale_nan' depends on axioms: [propext, Classical.choice, Quot.sound]
'Acados.Sqp.C15_stale_unbounded' depends on axioms: [propext, Classical.choice, Quot.sound]
'Acados.Merit.C15_merit_statuses' depends on axioms: [propext, Quot.sound]
'Acados.Funnel.C15_funnel_statuses' depends on axioms: [propext, Quot.sound]
'Acados.Sqp.C16_terminates' depends on axioms: [propext, Quot.sound]
'Acados.Sqp.C16_bounded' depends on axioms: [propext, Classical.choice, Quot.sound]
'Acados.Sqp.C16_raised_max_iter_out_of_bounds' depends on axioms: [propext, Classical.choice, Quot.sound]
'Acados.Sqp.C17_off' depends on axioms: [propext, Classical.choice, Quot.sound]
'Acados.Sqp.C17_stops' depends on axioms: [propext, Classical.choice, Quot.sound]
'Acados.Sqp.C17_max_overall' depends on axioms: [propext, Classical.choice, Quot.sound]
'Acados.Sqp.C17_average_underestimates' depends on axioms: [propext, Classical.choice, Quot.sound]
'Acados.Sqp.C18_levels' depends on axioms: [propext, Classical.choice, Quot.sound]
'Acados.Sqp.C18_level_restored' depends on axioms: [propext, Classical.choice, Quot.sound]
'Acados.Sqp.C18_unconfigured_level_overwritten' depends on axioms: [propext, Classical.choice, Quot.sound]
'Acados.WfqpLoop.C18_wfqp_levels' depends on axioms: [propext, Classical.choice, Quot.sound]
'Acados.WfqpLoop.C18_wfqp_restored' depends on axioms: [propext, Classical.choice, Quot.sound]
'Acados.Rti.C19_split_equals_combined_partial' depends on axioms: [propext, Quot.sound]
'Acados.Rti.C19_split_first_call_differs' does not depend on any axioms
'Acados.Rti.C19_initialisation_request_left_pending' does not depend on any axioms
'Acados.Rti.C19_feedback_qp' depends on axioms: [propext, Classical.choice, Quot.sound]
'Acados.Rti.C19_advanced_feedback_qp' depends on axioms: [propext, Classical.choice, Quot.sound]
'Acados.Rti.C19_condensed_matrices' depends on axioms: [propext, Classical.choice, Quot.sound]
'Acados.Rti.C19_repeated_feedback_overshoots' does not depend on any axioms
'Acados.Rti.C19_feedback_status_partial' depends on axioms: [propext, Classical.choice, Quot.sound]
'Acados.Rti.C19_globalization_failure_hidden' depends on axioms: [propext, Classical.choice, Quot.sound]
'Acados.Rti.C19_preparation_returns_old_status' depends on axioms: [propext]
'Acados.Rti.C19_advanced_preparation_status' depends on axioms: [propext, Classical.choice, Quot.sound]
'Acados.Rti.C19_levelA_hides_qp_failure' does not depend on any axioms
'Acados.Rti.C19_failed_preparation_keeps_matrices' depends on axioms: [propext, Classical.choice, Quot.sound]
'Acados.Rti.C19_statistics_in_bounds_iff' depends on axioms: [propext, Classical.choice, Quot.sound]
'Acados.Rti.C19_second_feedback_writes_out_of_bounds' does not depend on any axioms
'Acados.Rti.C19_statistics_in_bounds_partial' depends on axioms: [propext, Classical.choice, Quot.sound]
'Acados.Rti.C19_levelA_default_iterations_out_of_bounds' does not depend on any axioms
'Acados.Rti.C19_raised_iterations_out_of_bounds' does not depend on any axioms
'Acados.Rti.C19_negative_iterations_out_of_bounds' does not depend on any axioms
'Acados.Rti.C19_levelA_linearisation_point_partial' depends on axioms: [propext]
'Acados.Rti.C19_levelA_line_search_overwrites' does not depend on any axioms
'Acados.Rti.C19_logging_changes_iterates' does not depend on any axioms
'Acados.Ddp.C20_trial_simulated' depends on axioms: [propext, Classical.choice, Quot.sound]
'Acados.Ddp.C20_trial_start' depends on axioms: [propext, Classical.choice, Quot.sound]
'Acados.Ddp.C20_trial_feedback' depends on axioms: [propext, Classical.choice, Quot.sound]
'Acados.Ddp.C20_fixed_step_drops_feedback' depends on axioms: [propext, Classical.choice, Quot.sound]
'Acados.Ddp.C20_iterates_simulated' depends on axioms: [propext, Classical.choice, Quot.sound]
'Acados.Ddp.C20_cost_monotone' depends on axioms: [propext, Classical.choice, Quot.sound]
'Acados.Ddp.C20_initial_state' depends on axioms: [propext, Classical.choice, Quot.sound]
'Acados.Ddp.C20_success_at_wrong_initial_state' depends on axioms: [propext, Classical.choice, Quot.sound]
'Acados.Ddp.C20_fixed_step_cost_increases' depends on axioms: [propext, Classical.choice, Quot.sound]
'Acados.Ddp.C20_status' depends on axioms: [propext, Classical.choice, Quot.sound]
'Acados.Ddp.C20_status_misreported' depends on axioms: [propext, Classical.choice, Quot.sound]
'Acados.Ddp.C20_multipliers_always_full' depends on axioms: [propext, Classical.choice, Quot.sound]
'Acados.Ddp.C20_terminates' depends on axioms: [propext, Classical.choice, Quot.sound]
'Acados.Ddp.C20_only_initial_constraints' depends on axioms: [propext, Quot.sound]
'Acados.Merit.C20_ddp_cost_nonincreasing' depends on axioms: [propext, Classical.choice, Quot.sound]
'Acados.Wfqp.C21_relaxed_feasible' depends on axioms: [propext, Classical.choice, Quot.sound]
'Acados.Wfqp.C21_nominal_feasible_partial' depends on axioms: [propext, Classical.choice, Quot.sound]
'Acados.Wfqp.C21_relaxed_objective' depends on axioms: [propext, Classical.choice, Quot.sound]
'Acados.Wfqp.C21_l1_manual' depends on axioms: [propext, Classical.choice, Quot.sound]
'Acados.Wfqp.C21_violation_le_slacks' depends on axioms: [propext, Classical.choice, Quot.sound]
'Acados.Wfqp.C21_small_factor_infeasible' depends on axioms: [propext, Classical.choice, Quot.sound]
'Acados.Wfqp.C21_predicted_reduction' depends on axioms: [propext, Quot.sound]
'Acados.Wfqp.C22_zero_infeasibility_iff' depends on axioms: [propext, Classical.choice, Quot.sound]
'Acados.WfqpLoop.C22_to_byrd_omojokun' depends on axioms: [propext, Classical.choice, Quot.sound]
'Acados.WfqpLoop.C22_to_nominal' depends on axioms: [propext, Classical.choice, Quot.sound]
'Acados.WfqpLoop.C22_no_other_mode' depends on axioms: [propext, Classical.choice, Quot.sound]
'Acados.WfqpLoop.C22_mode_used' depends on axioms: [propext, Classical.choice, Quot.sound]
'Acados.WfqpLoop.C22_qp_matches_mode' depends on axioms: [propext, Classical.choice, Quot.sound]
'Acados.WfqpLoop.C22_step_from_solved_qp' depends on axioms: [propext, Classical.choice, Quot.sound]
'Acados.WfqpLoop.C22_not_consecutive' depends on axioms: [propext, Classical.choice, Quot.sound]
'Acados.WfqpLoop.C22_maxiter_counts_as_failure' depends on axioms: [propext, Classical.choice, Quot.sound]
'Acados.WfqpLoop.C22_zero_slacks_meaning' depends on axioms: [propext, Classical.choice, Quot.sound]
'Acados.Wfqp.C23_one_slack_per_constraint_partial' depends on axioms: [propext, Classical.choice, Quot.sound]
'Acados.Wfqp.C23_duplicate_index_overflows' does not depend on any axioms
'Acados.Wfqp.C23_idxs_rev_overflows' depends on axioms: [propext, Classical.choice, Quot.sound]
'Acados.QpScal.C24_kkt_partial' depends on axioms: [propext, Classical.choice, Quot.sound]
'Acados.QpScal.C24_objective_partial' depends on axioms: [propext, Classical.choice, Quot.sound]
'Acados.QpScal.C24_minimiser_partial' depends on axioms: [propext, Classical.choice, Quot.sound]
'Acados.QpScal.C24_shared_slack' depends on axioms: [propext, Classical.choice, Quot.sound]
'Acados.QpScal.C25_constraint_factors' depends on axioms: [propext, Classical.choice, Quot.sound]
'Acados.QpScal.C25_objective_factor' depends on axioms: [propext, Classical.choice, Quot.sound]
'Acados.QpScal.C25_zero_objective_infinite' depends on axioms: [propext, Classical.choice, Quot.sound]
'Acados.QpScal.C25_floating_point_agrees' depends on axioms: [propext, Classical.choice, Quot.sound]
'Acados.QpScal.C25_status_false_alarm' depends on axioms: [propext, Classical.choice, Quot.sound]
'Acados.QpScal.C25_gershgorin' depends on axioms: [propext, Classical.choice, Quot.sound]
'Acados.QpScal.C25_scaled_curvature' depends on axioms: [propext, Classical.choice, Quot.sound]
'Acados.QpScal.C25_min_scaling_partial' depends on axioms: [propext, Quot.sound]
'Acados.QpScal.C25_min_scaling_ignores_terminal' depends on axioms: [propext, Quot.sound]
'Acados.Param.C26_within_limits' depends on axioms: [propext, Classical.choice, Quot.sound]
'Acados.Param.C26_positive' depends on axioms: [propext, Classical.choice, Quot.sound]
'Acados.Param.C26_forgets_history' depends on axioms: [propext, Quot.sound]
'Acados.Param.C26_rejected_growth' depends on axioms: [propext, Classical.choice, Quot.sound]
'Acados.Param.C26_full_step_decay' depends on axioms: [propext, Classical.choice, Quot.sound]
'Acados.Param.C26_recovery' depends on axioms: [propext, Classical.choice, Quot.sound]
'Acados.Param.C26_drop_exceeds_factor' depends on axioms: [propext, Classical.choice, Quot.sound]
'Acados.Param.C26_hessian_term' depends on axioms: [propext, Classical.choice, Quot.sound]
'Acados.Param.C26_option_overwritten' depends on axioms: [propext, Classical.choice, Quot.sound]
'Acados.Step.C27_entries' depends on axioms: [propext, Classical.choice, Quot.sound]
'Acados.Step.C27_frame' depends on axioms: [propext, Classical.choice, Quot.sound]
'Acados.Step.C27_zero_step' depends on axioms: [propext, Classical.choice, Quot.sound]
'Acados.Step.C27_full_step' depends on axioms: [propext, Classical.choice, Quot.sound]
'Acados.Step.C27_in_place' depends on axioms: [propext, Classical.choice, Quot.sound]
'Acados.Step.C27_affine' depends on axioms: [propext, Classical.choice, Quot.sound]
'Acados.Step.C27_delta_update' depends on axioms: [propext, Classical.choice, Quot.sound]
'Acados.Step.C27_copy' depends on axioms: [propext]
'Acados.Step.C27_warm_start_fixpoint' depends on axioms: [propext, Classical.choice, Quot.sound]
'Acados.Step.C27_multipliers_nonneg' depends on axioms: [propext, Classical.choice, Quot.sound]
'Acados.Step.C27_linear_constraints' depends on axioms: [propext, Classical.choice, Quot.sound]
'Acados.Step.C28_restart' depends on axioms: [propext, Classical.choice, Quot.sound]
'Acados.Step.C28_exact_update' depends on axioms: [propext, Classical.choice, Quot.sound]
'Acados.Step.C28_documented_partial' depends on axioms: [propext, Classical.choice, Quot.sound]
'Acados.Step.C28_gamma_optimal' depends on axioms: [propext, Classical.choice, Quot.sound]
'Acados.Step.C28_equal_steps_nan' depends on axioms: [propext, Classical.choice, Quot.sound]
'Acados.Step.C28_damped_wrong' depends on axioms: [propext, Classical.choice, Quot.sound]
'Acados.Res.C29_norms' depends on axioms: [propext, Classical.choice, Quot.sound]
'Acados.Res.C29_zero_iff' depends on axioms: [propext, Classical.choice, Quot.sound]
'Acados.Res.C29_kkt_partial' depends on axioms: [propext, Classical.choice, Quot.sound]
'Acados.Res.C29_sign_not_checked' depends on axioms: [propext, Classical.choice, Quot.sound]
'Acados.Res.C29_tau_partial' depends on axioms: [propext, Classical.choice, Quot.sound]
'Acados.Res.C29_tau_stale_norm' depends on axioms: [propext, Classical.choice, Quot.sound]
'Acados.Res.C29_tau_wrong_row' depends on axioms: [propext, Classical.choice, Quot.sound]
'Acados.Res.C29_nan_ignored' depends on axioms: [propext, Quot.sound]
'Acados.Res.C30_exact_value' depends on axioms: [propext, Classical.choice, Quot.sound]
'Acados.Res.C30_no_slacks_partial' depends on axioms: [propext, Classical.choice, Quot.sound]
'Acados.Res.C30_overestimates' depends on axioms: [propext, Classical.choice, Quot.sound]
'Acados.Res.C30_false_with_slacks' depends on axioms: [propext, Classical.choice, Quot.sound]
'Acados.Res.C30_directional_derivative' depends on axioms: [propext, Classical.choice, Quot.sound]
'Acados.Res.C31_zero_iff_feasible' depends on axioms: [propext, Classical.choice, Quot.sound]
'Acados.Res.C31_convex' depends on axioms: [propext, Classical.choice, Quot.sound]
'Acados.Res.C31_linear_decrease' depends on axioms: [propext, Classical.choice, Quot.sound]
'Acados.Res.C31_multiplier_norms' depends on axioms: [propext, Quot.sound]
'Acados.Reg.C32_fixed_epsilon' depends on axioms: [propext, Classical.choice, Quot.sound]
'Acados.Reg.C32_adaptive' depends on axioms: [propext, Classical.choice, Quot.sound]
'Acados.Reg.C32_eigenvectors' depends on axioms: [propext, Classical.choice, Quot.sound]
'Acados.Reg.exact_eig_exists' depends on axioms: [propext, Classical.choice, Quot.sound]
'Acados.Reg.C33_glm' depends on axioms: [propext, Classical.choice, Quot.sound]
'Acados.Conv.C34_objective' depends on axioms: [propext, Classical.choice, Quot.sound]
'Acados.Conv.C34_backup_is_input' depends on axioms: [propext, Classical.choice, Quot.sound]
'Acados.Conv.C34_same_order' depends on axioms: [propext, Classical.choice, Quot.sound]
'Acados.Conv.C34_convex_partial' depends on axioms: [propext, Classical.choice, Quot.sound]
'Acados.Conv.C34_stale_triangle' depends on axioms: [propext, Classical.choice, Quot.sound]
'Acados.Conv.C34_growing_state_dimension' depends on axioms: [propext, Classical.choice, Quot.sound]
'Acados.Conv.exact_ext_exists' depends on axioms: [propext, Classical.choice, Quot.sound]
'Acados.Math.C35_solves' depends on axioms: [propext, Classical.choice, Quot.sound]
'Acados.Math.C35_singular' depends on axioms: [propext, Classical.choice, Quot.sound]
'Acados.Math.C35_success_iff_nonsingular' depends on axioms: [propext, Classical.choice, Quot.sound]
'Acados.Math.C35_stale_info' depends on axioms: [propext, Quot.sound]
'Acados.Math.C36_neville' depends on axioms: [propext, Classical.choice, Quot.sound]
'Acados.Math.C37_order' depends on axioms: [propext, Classical.choice, Quot.sound]
'Acados.Math.C37_expm_partial' depends on axioms: [propext, Classical.choice, Quot.sound]
'Acados.Math.C37_degree13_actual' depends on axioms: [propext, Classical.choice, Quot.sound]
'Acados.Math.C37_expm_wrong' depends on axioms: [propext, Classical.choice, Quot.sound]
'Acados.Math.C37_scaling_partial' depends on axioms: [propext, Classical.choice, Quot.sound]
'Acados.Math.frexp_exists' depends on axioms: [propext, Classical.choice, Quot.sound]
'Acados.Erk.C38_state' depends on axioms: [propext, Classical.choice, Quot.sound]
'Acados.Erk.C38_sensitivities' depends on axioms: [propext, Classical.choice, Quot.sound]
'Acados.Erk.C38_identity_seed' depends on axioms: [propext, Classical.choice, Quot.sound]
'Acados.Butcher.C39_lu_system_solve' depends on axioms: [propext, Classical.choice, Quot.sound]
'Acados.Butcher.C39_collocation' depends on axioms: [propext, Classical.choice, Quot.sound]
'Acados.Butcher.C39_row_sums' depends on axioms: [propext, Classical.choice, Quot.sound]
'Acados.Butcher.C39_stiffly_accurate' depends on axioms: [propext, Classical.choice, Quot.sound]
'Acados.Butcher.C39_radau_nodes' depends on axioms: [propext, Classical.choice, Quot.sound]
'Acados.Butcher.C39_radau_quadrature' depends on axioms: [propext, Classical.choice, Quot.sound]
'Acados.Butcher.C39_gauss_slope' depends on axioms: [propext, Classical.choice, Quot.sound]
'Acados.Butcher.C39_gauss_quadrature' depends on axioms: [propext, Classical.choice, Quot.sound]
'Acados.Butcher.C39_explicit' depends on axioms: [propext, Classical.choice, Quot.sound]
'Acados.Butcher.C39_explicit_linear' depends on axioms: [propext, Classical.choice, Quot.sound]
'Acados.Casadi.C40_denotes_unique' depends on axioms: [propext, Classical.choice, Quot.sound]
'Acados.Casadi.C40_nnz' depends on axioms: [propext, Quot.sound]
'Acados.Casadi.C40_to_colmaj' depends on axioms: [propext, Classical.choice, Quot.sound]
'Acados.Casadi.C40_to_dmat' depends on axioms: [propext, Classical.choice, Quot.sound]
'Acados.Casadi.C40_to_dvec_partial' depends on axioms: [propext, Classical.choice, Quot.sound]
'Acados.Casadi.C40_dvec_no_columns_overrun' depends on axioms: [propext, Quot.sound]
'Acados.Casadi.C40_to_colmaj_args_partial' depends on axioms: [propext, Classical.choice, Quot.sound]
'Acados.Casadi.C40_colmaj_args_dense_wrong' depends on axioms: [propext, Classical.choice, Quot.sound]
'Acados.Casadi.C40_from_colmaj' depends on axioms: [propext, Classical.choice, Quot.sound]
'Acados.Casadi.C40_from_dmat' depends on axioms: [propext, Classical.choice, Quot.sound]
'Acados.Casadi.C40_roundtrip_colmaj' depends on axioms: [propext, Classical.choice, Quot.sound]
'Acados.Casadi.C40_roundtrip_dmat' depends on axioms: [propext, Classical.choice, Quot.sound]
'Acados.Casadi.C40_roundtrip_dvec' depends on axioms: [propext, Classical.choice, Quot.sound]
'Acados.Params.C41_history_partial' depends on axioms: [propext, Classical.choice, Quot.sound]
'Acados.Params.C41_exit_iff' depends on axioms: [propext, Quot.sound]
'Acados.Params.C41_update_params' depends on axioms: [propext]
'Acados.Params.C41_generic_unset_not_refused' depends on axioms: [propext, Classical.choice, Quot.sound]
'Acados.Params.C41_sparse_index_unchecked' depends on axioms: [propext]
'Acados.Params.C41_own_set' depends on axioms: [propext, Quot.sound]
'Acados.Params.C41_own_set_sparse' depends on axioms: [propext, Classical.choice, Quot.sound]
'Acados.Params.C41_own_casadi' depends on axioms: [propext, Classical.choice, Quot.sound]
'Acados.Params.C41_own_casadi_sparse' depends on axioms: [propext, Classical.choice, Quot.sound]
'Acados.Cost.C42_ls_history' depends on axioms: [propext, Classical.choice, Quot.sound]
'Acados.Cost.C42_ls_hessian_psd' depends on axioms: [propext, Classical.choice, Quot.sound]
'Acados.Cost.C42_cost_eval_stale_weight' depends on axioms: [propext, Classical.choice, Quot.sound]
'Acados.Cost.C43_ls_gradient' depends on axioms: [propext, Classical.choice, Quot.sound]
'Acados.Cost.C43_nls_gradient' depends on axioms: [propext, Classical.choice, Quot.sound]
'Acados.Cost.C43_nls_linesearch_value' depends on axioms: [propext, Classical.choice, Quot.sound]
'Acados.Cost.C43_conl_gradient' depends on axioms: [propext, Classical.choice, Quot.sound]
'Acados.Cost.C43_ext_gradient' depends on axioms: [propext, Classical.choice, Quot.sound]
'Acados.Cost.C43_nls_integrator_partial' depends on axioms: [propext, Classical.choice, Quot.sound]
'Acados.Cost.C43_nls_integrator_slack_inconsistent' depends on axioms: [propext, Classical.choice, Quot.sound]
'Acados.Dims.C44_derived_partial' depends on axioms: [propext, Quot.sound]
'Acados.Dims.C44_order_irrelevant_partial' depends on axioms: [propext, Quot.sound]
'Acados.Dims.C44_ni_exact' depends on axioms: [propext, Quot.sound]
'Acados.Dims.C44_ni_partial' depends on axioms: [propext, Quot.sound]
'Acados.Dims.C44_ni_stale' depends on axioms: [propext]
'Acados.Dims.C44_exit_iff' depends on axioms: [propext, Classical.choice, Quot.sound]
'Acados.Dims.C44_slack_test' depends on axioms: [propext, Quot.sound]
'Acados.Sqp.C45_statistics_layout' depends on axioms: [propext, Quot.sound]
'Acados.Flat.C46_total' depends on axioms: [propext, Quot.sound]
'Acados.Flat.C46_get_all' depends on axioms: [propext, Quot.sound]
'Acados.Flat.C46_set_all' depends on axioms: [propext, Quot.sound]
'Acados.Flat.C46_roundtrip' depends on axioms: [propext, Quot.sound]
'Acados.Flat.C46_set_all_stagewise' depends on axioms: [propext, Quot.sound]
'Acados.Flat.C46_get_stage' depends on axioms: [propext, Quot.sound]
'Acados.SparseQp.Osqp.C47_matrices_valid' depends on axioms: [propext, Classical.choice, Quot.sound]
'Acados.SparseQp.Osqp.C47_fits' depends on axioms: [propext, Classical.choice, Quot.sound]
'Acados.SparseQp.Osqp.C47_feasible' depends on axioms: [propext, Classical.choice, Quot.sound]
'Acados.SparseQp.Osqp.C47_kkt_partial' depends on axioms: [propext, Classical.choice, Quot.sound]
'Acados.SparseQp.Osqp.C47_kkt_exact_partial' depends on axioms: [propext, Classical.choice, Quot.sound]
'Acados.SparseQp.Osqp.C47_history' depends on axioms: [propext, Classical.choice, Quot.sound]
'Acados.SparseQp.Osqp.C47_mask_ignored' depends on axioms: [propext, Quot.sound]
'Acados.SparseQp.Osqp.C47_status' depends on axioms: [propext]
'Acados.SparseQp.Osqp.C47_overflow' depends on axioms: [propext, Classical.choice, Quot.sound]
'Acados.SparseQp.Osqp.C47_one_sided_wrong' depends on axioms: [propext, Classical.choice, Quot.sound]
'Acados.SparseQp.Osqp.C47_duplicate_bound_lost' depends on axioms: [propext, Classical.choice, Quot.sound]
'Acados.DenseQp.C48_objective' depends on axioms: [propext, Classical.choice, Quot.sound]
'Acados.DenseQp.C48_stacked_feasible_partial' depends on axioms: [propext, Classical.choice, Quot.sound]
'Acados.DenseQp.C48_same_minimum_partial' depends on axioms: [propext, Classical.choice, Quot.sound]
'Acados.DenseQp.C48_solution_partial' depends on axioms: [propext, Classical.choice, Quot.sound]
'Acados.DenseQp.C48_qpoases_kkt_partial' depends on axioms: [propext, Classical.choice, Quot.sound]
'Acados.DenseQp.C48_kkt_optimal' depends on axioms: [propext, Classical.choice, Quot.sound]
'Acados.DenseQp.C48_hard_bound_counterexample' depends on axioms: [propext, Classical.choice, Quot.sound]
'Acados.DenseQp.C48_negative_slack_counterexample' depends on axioms: [propext, Classical.choice, Quot.sound]
'Acados.DenseQp.C48_slack_cap_counterexample' depends on axioms: [propext, Classical.choice, Quot.sound]
'Acados.DenseQp.C48_slack_order_counterexample' depends on axioms: [propext, Classical.choice, Quot.sound]
'Acados.DenseQp.C48_qpoases_ignores' depends on axioms: [propext, Quot.sound]
'Acados.DenseQp.C48_mask_counterexample' depends on axioms: [propext, Classical.choice, Quot.sound]
'Acados.DenseQp.C48_equality_counterexample' depends on axioms: [propext, Classical.choice, Quot.sound]
'Acados.Pcond.C49_default_sum' depends on axioms: [propext, Classical.choice, Quot.sound]
'Acados.Pcond.C49_default_even' depends on axioms: [propext, Quot.sound]
'Acados.Pcond.C49_default_used' depends on axioms: [propext]
'Acados.Pcond.C49_user_blocks_checked' depends on axioms: [propext, Classical.choice, Quot.sound]
'Acados.Pcond.C49_refused_iff' depends on axioms: [propext, Classical.choice, Quot.sound]
'Acados.Pcond.C49_user_blocks_used_partial' depends on axioms: [propext, Classical.choice, Quot.sound]
'Acados.Pcond.C49_order_counterexample' depends on axioms: [propext, Classical.choice, Quot.sound]
'Acados.Pcond.C49_negative_block_counterexample' depends on axioms: [propext]
'Acados.Pcond.C49_in_bounds_partial' depends on axioms: [propext, Quot.sound]
'Acados.Pcond.C49_long_condensed_horizon_overflows' depends on axioms: [propext, Quot.sound]
'Acados.Pcond.C49_change_detected' depends on axioms: [propext, Quot.sound]
'Acados.Pcond.C49_change_undetected' does not depend on any axioms
'Acados.Soc.C50_dynamics_exact' depends on axioms: [propext, Classical.choice, Quot.sound]
'Acados.Soc.C50_dynamics_partial' depends on axioms: [propext, Classical.choice, Quot.sound]
'Acados.Soc.C50_general_exact' depends on axioms: [propext, Classical.choice, Quot.sound]
'Acados.Soc.C50_general_partial' depends on axioms: [propext, Classical.choice, Quot.sound]
'Acados.Soc.C50_bounds_exact' depends on axioms: [propext, Classical.choice, Quot.sound]
'Acados.Soc.C50_affine_partial' depends on axioms: [propext, Classical.choice, Quot.sound]
'Acados.Soc.C50_status' depends on axioms: [propext]
'Acados.Soc.C50_dynamics_wrong_sign' depends on axioms: [propext, Classical.choice, Quot.sound]
'Acados.Soc.C50_soft_affine_changed' depends on axioms: [propext, Classical.choice, Quot.sound]
'Acados.Param.C51_joint_value' depends on axioms: [propext, Classical.choice, Quot.sound]
'Acados.Param.C51_joint_limits' depends on axioms: [propext, Classical.choice, Quot.sound]
'Acados.Param.C51_joint_monotone' depends on axioms: [propext, Classical.choice, Quot.sound]
'Acados.Param.C51_joint_floor' depends on axioms: [propext, Classical.choice, Quot.sound]
'Acados.Param.C51_joint_not_nan' depends on axioms: [propext, Classical.choice, Quot.sound]
'Acados.Param.C51_scaling_limits' depends on axioms: [propext, Classical.choice, Quot.sound]
'Acados.Merit.C52_slope_partial' depends on axioms: [propext, Classical.choice, Quot.sound]
'Acados.Merit.C52_slope_upper_only' depends on axioms: [propext, Classical.choice, Quot.sound]
'Acados.Merit.C52_lower_bound_wrong_sign' depends on axioms: [propext, Classical.choice, Quot.sound]
'Acados.Sqp.C53_stored_iterates' depends on axioms: [propext, Classical.choice, Quot.sound]
'Acados.Step.C54_update_schedule_independent' depends on axioms: [propext, Classical.choice, Quot.sound]
'Acados.Step.C54_add_partial' depends on axioms: [propext, Classical.choice, Quot.sound]
'Acados.Step.C54_shared_length_race' depends on axioms: [propext, Classical.choice, Quot.sound]
'Acados.Conv.C55_stationarity' depends on axioms: [propext, Classical.choice, Quot.sound]
'Acados.Conv.C55_kkt_partial' depends on axioms: [propext, Classical.choice, Quot.sound]
'Acados.Conv.C55_split_restores_stale_gradient' depends on axioms: [propext, Classical.choice, Quot.sound]
'Acados.Cost.C56_ext_hessian_partial' depends on axioms: [propext, Classical.choice, Quot.sound]
'Acados.Cost.C56_ext_hessian_no_z_partial' depends on axioms: [propext, Classical.choice, Quot.sound]
'Acados.Cost.C56_ext_hessian_cross_term_wrong' depends on axioms: [propext, Classical.choice, Quot.sound]
'Acados.Cost.C56_ext_hessian_reads_outside' depends on axioms: [propext, Classical.choice, Quot.sound]
'Acados.Flat.C57_reset_zero' depends on axioms: [propext, Classical.choice, Quot.sound]
'Acados.Flat.C57_reset_frame_iff' depends on axioms: [propext, Classical.choice, Quot.sound]
'Acados.Flat.C57_reset_overrun' depends on axioms: [propext, Classical.choice, Quot.sound]
'Acados.SparseQp.Clarabel.C58_matrices_valid' depends on axioms: [propext, Classical.choice, Quot.sound]
'Acados.SparseQp.Clarabel.C58_fits' depends on axioms: [propext, Classical.choice, Quot.sound]
'Acados.SparseQp.Clarabel.C58_feasible' depends on axioms: [propext, Classical.choice, Quot.sound]
'Acados.SparseQp.Clarabel.C58_kkt_partial' depends on axioms: [propext, Classical.choice, Quot.sound]
'Acados.SparseQp.Clarabel.C58_history' depends on axioms: [propext, Classical.choice, Quot.sound]
'Acados.SparseQp.Clarabel.C58_hessian_flips' depends on axioms: [propext, Classical.choice, Quot.sound]
'Acados.SparseQp.Clarabel.C58_inside' depends on axioms: [propext, Quot.sound]
'Acados.SparseQp.Clarabel.C58_mask_ignored' depends on axioms: [propext, Quot.sound]
'Acados.SparseQp.Clarabel.C58_status' depends on axioms: [propext]
'Acados.SparseQp.Clarabel.C58_hessian_corrupted' depends on axioms: [propext, Classical.choice, Quot.sound]
'Acados.SparseQp.Clarabel.C58_one_sided_wrong' depends on axioms: [propext, Classical.choice, Quot.sound]
'Acados.SparseQp.Clarabel.C58_unsorted' depends on axioms: [propext, Classical.choice, Quot.sound]
'Acados.WfqpLoop.C59_status_meaning' depends on axioms: [propext, Classical.choice, Quot.sound]
'Acados.WfqpLoop.C59_tables_and_iterations' depends on axioms: [propext, Classical.choice, Quot.sound]
'Acados.WfqpLoop.C59_terminates' depends on axioms: [propext, Classical.choice, Quot.sound]
'Acados.WfqpLoop.C59_negative_max_iter_ready' depends on axioms: [propext, Classical.choice, Quot.sound]
'Acados.WfqpLoop.C59_feasibility_mode_ready' depends on axioms: [propext, Classical.choice, Quot.sound]
'Acados.WfqpLoop.C59_raised_max_iter_out_of_bounds' depends on axioms: [propext, Classical.choice, Quot.sound]
'Acados.WfqpLoop.C60_regularised_once' depends on axioms: [propext, Classical.choice, Quot.sound]
'Acados.WfqpLoop.C60_relaxed_never_regularised' depends on axioms: [propext, Classical.choice, Quot.sound]
'Acados.WfqpLoop.C60_pointer' depends on axioms: [propext, Classical.choice, Quot.sound]
'Acados.WfqpLoop.C60_constraint_hessian_twice' depends on axioms: [propext, Classical.choice, Quot.sound]
'Acados.QpCall.C61_cold_data' depends on axioms: [propext, Quot.sound]
'Acados.QpCall.C61_qpoases_status' depends on axioms: [propext, Quot.sound]
'Acados.QpCall.C61_hot_box_always_success' depends on axioms: [propext, Quot.sound]
'Acados.QpCall.C61_hot_box_infeasible_is_success' depends on axioms: [propext, Classical.choice, Quot.sound]
'Acados.QpCall.C61_hot_data' depends on axioms: [propext, Quot.sound]
'Acados.QpCall.C61_hot_stale_hessian' depends on axioms: [propext, Classical.choice, Quot.sound]
'Acados.QpCall.C61_hpipm_status' does not depend on any axioms
'Acados.QpCall.C61_daqp_success' depends on axioms: [propext, Classical.choice, Quot.sound]
'Acados.QpCall.C61_daqp_crossed_bounds_unknown' depends on axioms: [propext, Quot.sound]
'Acados.QpCall.C62_qpoases_last_write' depends on axioms: [propext, Quot.sound]
'Acados.QpCall.C62_qpoases_tolerance' depends on axioms: [propext, Quot.sound]
'Acados.Gnsf.C63_residual' depends on axioms: [propext, Classical.choice, Quot.sound]
'Acados.Gnsf.C63_step_partial' depends on axioms: [propext, Classical.choice, Quot.sound]
'Acados.Gnsf.C63_step_ode' depends on axioms: [propext, Classical.choice, Quot.sound]
'Acados.Gnsf.C63_run_partial' depends on axioms: [propext, Classical.choice, Quot.sound]
'Acados.Gnsf.C63_newton_fixed' depends on axioms: [propext, Classical.choice, Quot.sound]
'Acados.Gnsf.C63_newton' depends on axioms: [propext, Classical.choice, Quot.sound]
'Acados.Gnsf.C63_newton_reuse' depends on axioms: [propext, Classical.choice, Quot.sound]
'Acados.Gnsf.C63_newton_affine' depends on axioms: [propext, Classical.choice, Quot.sound]
'Acados.Gnsf.C63_permutation_false' depends on axioms: [propext, Classical.choice, Quot.sound]
'Acados.Gnsf.C63_stale_false' depends on axioms: [propext, Classical.choice, Quot.sound]
'Acados.Gnsf.C64_sens_step_partial' depends on axioms: [propext, Classical.choice, Quot.sound]
'Acados.Gnsf.C64_run_partial' depends on axioms: [propext, Classical.choice, Quot.sound]
'Acados.Gnsf.C64_second_precompute_false' depends on axioms: [propext, Classical.choice, Quot.sound]
'Acados.Gnsf.C65_adj_step_partial' depends on axioms: [propext, Classical.choice, Quot.sound]
'Acados.Gnsf.C65_adj_run_partial' depends on axioms: [propext, Classical.choice, Quot.sound]
'Acados.Gnsf.C65_stale_false' depends on axioms: [propext, Classical.choice, Quot.sound]
'Acados.Gnsf.C66_linear_state_partial' depends on axioms: [propext, Classical.choice, Quot.sound]
'Acados.Gnsf.C66_linear_forw' depends on axioms: [propext, Classical.choice, Quot.sound]
'Acados.Gnsf.C66_linear_adj_partial' depends on axioms: [propext, Classical.choice, Quot.sound]
'Acados.Gnsf.C66_constant_false' depends on axioms: [propext, Classical.choice, Quot.sound]
'Acados.Gnsf.C66_no_sens_false' depends on axioms: [propext, Classical.choice, Quot.sound]
'Acados.Gnsf.C66_seed_false' depends on axioms: [propext, Classical.choice, Quot.sound]
'Acados.Gnsf.C66_adj_seed_false' depends on axioms: [propext, Classical.choice, Quot.sound]
'Acados.Irk.C67_newton' depends on axioms: [propext, Classical.choice, Quot.sound]
'Acados.Irk.C67_run' depends on axioms: [propext, Classical.choice, Quot.sound]
'Acados.Irk.C67_init' depends on axioms: [propext, Classical.choice, Quot.sound]
'Acados.Irk.C67_solved_stays' depends on axioms: [propext, Classical.choice, Quot.sound]
'Acados.Irk.C67_affine' depends on axioms: [propext, Classical.choice, Quot.sound]
'Acados.Irk.C67_affine_run' depends on axioms: [propext, Classical.choice, Quot.sound]
'Acados.Irk.C67_unconverged_false' depends on axioms: [propext, Classical.choice, Quot.sound]
'Acados.Irk.C68_forward' depends on axioms: [propext, Classical.choice, Quot.sound]
'Acados.Irk.C68_param' depends on axioms: [propext, Classical.choice, Quot.sound]
'Acados.Irk.C68_unique' depends on axioms: [propext, Classical.choice, Quot.sound]
'Acados.Irk.C69_adjoint' depends on axioms: [propext, Classical.choice, Quot.sound]
'Acados.Irk.C70_hessian' depends on axioms: [propext, Classical.choice, Quot.sound]
'Acados.Irk.C70_symmetric' depends on axioms: [propext, Quot.sound]
'Acados.Irk.C71_neville' depends on axioms: [propext, Classical.choice, Quot.sound]
'Acados.Irk.C71_interp_unique' depends on axioms: [propext, Classical.choice, Quot.sound]
'Acados.Irk.C71_z' depends on axioms: [propext, Classical.choice, Quot.sound]
'Acados.Irk.C71_sens' depends on axioms: [propext, Classical.choice, Quot.sound]
'Acados.Irk.C71_exact_affine_partial' depends on axioms: [propext, Classical.choice, Quot.sound]
'Acados.Irk.C71_exact_sens' depends on axioms: [propext, Classical.choice, Quot.sound]
'Acados.Irk.C71_exact_false' depends on axioms: [propext, Classical.choice, Quot.sound]
'Acados.Irk.C71_exact_reuse_false' depends on axioms: [propext, Classical.choice, Quot.sound]
'Acados.Irk.C72_unique' depends on axioms: [propext, Classical.choice, Quot.sound]
'Acados.Irk.C72_nls_value_partial' depends on axioms: [propext, Classical.choice, Quot.sound]
'Acados.Irk.C72_nls_gradient_partial' depends on axioms: [propext, Classical.choice, Quot.sound]
'Acados.Irk.C72_nls_hessian' depends on axioms: [propext, Classical.choice, Quot.sound]
'Acados.Irk.C72_nls_value_only' depends on axioms: [propext, Classical.choice, Quot.sound]
'Acados.Irk.C72_conl_value' depends on axioms: [propext, Classical.choice, Quot.sound]
'Acados.Irk.C72_conl_value_only' depends on axioms: [propext, Classical.choice, Quot.sound]
'Acados.Irk.C72_conl_gradient' depends on axioms: [propext, Classical.choice, Quot.sound]
'Acados.Irk.C72_conl_hessian' depends on axioms: [propext, Classical.choice, Quot.sound]
'Acados.Irk.C72_full_weight_false' depends on axioms: [propext, Classical.choice, Quot.sound]
'Acados.Hess.C73_no_stale' depends on axioms: [propext, Classical.choice, Quot.sound]
'Acados.Hess.C73_block_partial' depends on axioms: [propext, Classical.choice, Quot.sound]
'Acados.Hess.C73_constraint_part' depends on axioms: [propext, Classical.choice, Quot.sound]
'Acados.Hess.C73_user_hessian' depends on axioms: [propext, Classical.choice, Quot.sound]
'Acados.Hess.C73_generated_code' depends on axioms: [propext, Classical.choice, Quot.sound]
'Acados.Hess.C73_toggle_loses_dynamics' depends on axioms: [propext, Classical.choice, Quot.sound]
'Acados.Hess.C73_lagrangian' depends on axioms: [propext, Classical.choice, Quot.sound]
'Acados.Hess.C73_constraint_mixed_terms_missing' depends on axioms: [propext, Classical.choice, Quot.sound]
'Acados.Hess.C73_fixed_partial' depends on axioms: [propext, Classical.choice, Quot.sound]
'Acados.Hess.C73_fixed_loses_cost' depends on axioms: [propext, Classical.choice, Quot.sound]
'Acados.Hess.C73_fixed_accumulates_counterexample' depends on axioms: [propext, Classical.choice, Quot.sound]
'Acados.Hess.C73_convex_constraint_psd' depends on axioms: [propext, Classical.choice, Quot.sound]
'Acados.Hess.C73_convex_constraint_affine' depends on axioms: [propext, Classical.choice, Quot.sound]
'Acados.Hess.C73_convex_constraint_lower' depends on axioms: [propext, Classical.choice, Quot.sound]
'Acados.Hess.C73_feasible_qp' depends on axioms: [propext, Classical.choice, Quot.sound]
'Acados.Hess.C73_levenberg_marquardt' depends on axioms: [propext, Quot.sound]
'Acados.Dyn.C74_cont_linearisation_partial' depends on axioms: [propext, Classical.choice, Quot.sound]
'Acados.Dyn.C74_cont_fun' depends on axioms: [propext, Classical.choice, Quot.sound]
'Acados.Dyn.C74_cont_fun_adj_partial' depends on axioms: [propext, Classical.choice, Quot.sound]
'Acados.Dyn.C74_guess_once' depends on axioms: [propext, Classical.choice, Quot.sound]
'Acados.Dyn.C74_failure_ignored' depends on axioms: [propext, Classical.choice, Quot.sound]
'Acados.Dyn.C74_trial_z_false' depends on axioms: [propext, Classical.choice, Quot.sound]
'Acados.Dyn.C74_seed_false' depends on axioms: [propext, Classical.choice, Quot.sound]
'Acados.Dyn.C74_disc_linearisation' depends on axioms: [propext, Classical.choice, Quot.sound]
'Acados.Dyn.C74_disc_evaluations' depends on axioms: [propext, Classical.choice, Quot.sound]
'Acados.Daqp.C75_kkt_partial' depends on axioms: [propext, Classical.choice, Quot.sound]
'Acados.Daqp.C75_history_partial' depends on axioms: [propext, Classical.choice, Quot.sound]
'Acados.Daqp.C75_optimal' depends on axioms: [propext, Classical.choice, Quot.sound]
'Acados.Daqp.C75_global_partial' depends on axioms: [propext, Classical.choice, Quot.sound]
'Acados.Daqp.C75_short_row_false' depends on axioms: [propext, Classical.choice, Quot.sound]
'Acados.Daqp.C75_empty_equality_false' depends on axioms: [propext, Classical.choice, Quot.sound]
'Acados.Daqp.C75_penalty_false' depends on axioms: [propext, Classical.choice, Quot.sound]
'Acados.Daqp.C75_slack_mask_false' depends on axioms: [propext, Classical.choice, Quot.sound]
'Acados.Daqp.C75_empty_soft_false' depends on axioms: [propext, Classical.choice, Quot.sound]
'Acados.Daqp.C75_shared_slack_false' depends on axioms: [propext, Classical.choice, Quot.sound]
'Acados.Daqp.C75_hot_stale_false' depends on axioms: [propext, Classical.choice, Quot.sound]
'Acados.Daqp.C75_failed_update_false' depends on axioms: [propext, Classical.choice, Quot.sound]
'Acados.PSens.C76_adjoint' depends on axioms: [propext, Classical.choice, Quot.sound]
'Acados.PSens.C76_adjoint_runs' depends on axioms: [propext, Classical.choice, Quot.sound]
'Acados.PSens.C76_forward_partial' depends on axioms: [propext, Classical.choice, Quot.sound]
'Acados.PSens.C76_forward_adjoint_partial' depends on axioms: [propext, Classical.choice, Quot.sound]
'Acados.PSens.C76_initial_state_partial' depends on axioms: [propext, Classical.choice, Quot.sound]
'Acados.PSens.C76_lagr_grad_partial' depends on axioms: [propext, Classical.choice, Quot.sound]
'Acados.PSens.C76_setup_options_partial' depends on axioms: [propext, Quot.sound]
'Acados.PSens.C76_forward_false' depends on axioms: [propext, Classical.choice, Quot.sound]
'Acados.PSens.C76_initial_state_false' depends on axioms: [propext, Classical.choice, Quot.sound]
'Acados.PSens.C76_initial_state_index_false' depends on axioms: [propext, Classical.choice, Quot.sound]
'Acados.PSens.C76_lagr_grad_false' depends on axioms: [propext, Classical.choice, Quot.sound]
'Acados.PSens.C76_setup_options_false' depends on axioms: [propext, Quot.sound]
'Acados.LiftedIrk.C77_newton' depends on axioms: [propext, Classical.choice, Quot.sound]
'Acados.LiftedIrk.C77_converged' depends on axioms: [propext, Classical.choice, Quot.sound]
'Acados.LiftedIrk.C77_repeat' depends on axioms: [propext, Classical.choice, Quot.sound]
'Acados.LiftedIrk.C77_affine' depends on axioms: [propext, Classical.choice, Quot.sound]
'Acados.LiftedIrk.C77_affine_history' depends on axioms: [propext, Classical.choice, Quot.sound]
'Acados.LiftedIrk.C77_prediction' depends on axioms: [propext, Classical.choice, Quot.sound]
'Acados.LiftedIrk.C77_prediction_false' depends on axioms: [propext, Classical.choice, Quot.sound]
'Acados.LiftedIrk.C77_reset_partial' depends on axioms: [propext, Classical.choice, Quot.sound]
'Acados.LiftedIrk.C77_reset_false' depends on axioms: [propext, Classical.choice, Quot.sound]
'Acados.ReducHess.C78_first_stage' depends on axioms: [propext, Classical.choice, Quot.sound]
'Acados.ReducHess.C78_reduced_hessian_pd' depends on axioms: [propext, Classical.choice, Quot.sound]
'Acados.ReducHess.C78_unchanged' depends on axioms: [propext, Classical.choice, Quot.sound]
'Acados.ReducHess.C78_cost_to_go_partial' depends on axioms: [propext, Classical.choice, Quot.sound]
'Acados.ReducHess.C78_pivoting_false' depends on axioms: [propext, Classical.choice, Quot.sound]
'Acados.ReducHess.C78_small_pivot_false' depends on axioms: [propext, Classical.choice, Quot.sound]
'Acados.Zoro.C79_propagation_partial' depends on axioms: [propext, Classical.choice, Quot.sound]
'Acados.Zoro.C79_inputs' depends on axioms: [propext, Classical.choice, Quot.sound]
'Acados.Zoro.C79_payload' depends on axioms: [propext, Classical.choice, Quot.sound]
'Acados.Zoro.C79_layout' depends on axioms: [propext, Classical.choice, Quot.sound]
'Acados.Zoro.C79_output' depends on axioms: [propext, Classical.choice, Quot.sound]
'Acados.Zoro.C79_symmetric_partial' depends on axioms: [propext, Classical.choice, Quot.sound]
'Acados.Zoro.C79_psd_partial' depends on axioms: [propext, Classical.choice, Quot.sound]
'Acados.Zoro.C79_backoff_partial' depends on axioms: [propext, Classical.choice, Quot.sound]
'Acados.Zoro.C79_backoff_terminal_partial' depends on axioms: [propext, Classical.choice, Quot.sound]
'Acados.Zoro.C79_robust_partial' depends on axioms: [propext, Classical.choice, Quot.sound]
'Acados.Zoro.C79_accepts' depends on axioms: [propext, Classical.choice, Quot.sound]
'Acados.Zoro.C79_offdiag_false' depends on axioms: [propext, Classical.choice, Quot.sound]
'Acados.Zoro.C79_no_payload_false' depends on axioms: [propext, Classical.choice, Quot.sound]
'Acados.Zoro.C79_null_false' depends on axioms: [propext, Classical.choice, Quot.sound]
'Acados.Zoro.C79_sign_false' depends on axioms: [propext, Classical.choice, Quot.sound]
'Acados.Zoro.C79_bounds_change_false' depends on axioms: [propext, Classical.choice, Quot.sound]
'Acados.Zoro.C79_terminal_g_false' depends on axioms: [propext, Classical.choice, Quot.sound]
'Acados.Zoro.C79_terminal_oob_false' depends on axioms: [propext, Classical.choice, Quot.sound]
'Acados.Zoro.C80_gain_optimal_partial' depends on axioms: [propext, Classical.choice, Quot.sound]
'Acados.Zoro.C80_const_optimal' depends on axioms: [propext, Classical.choice, Quot.sound]
'Acados.Zoro.C80_gain_zero' depends on axioms: [propext, Classical.choice, Quot.sound]
'Acados.Zoro.C80_robust_partial' depends on axioms: [propext, Classical.choice, Quot.sound]
'Acados.Zoro.C80_accepts' depends on axioms: [propext, Classical.choice, Quot.sound]
'Acados.Zoro.C80_h_rows_false' depends on axioms: [propext, Classical.choice, Quot.sound]
'Acados.Zoro.C80_terminal_idx_false' depends on axioms: [propext, Classical.choice, Quot.sound]
'Acados.Zoro.C80_terminal_oob_false' depends on axioms: [propext, Classical.choice, Quot.sound]
'Acados.GenSolver.C81_create' depends on axioms: [propext, Classical.choice, Quot.sound]
'Acados.GenSolver.C81_create_steps' depends on axioms: [propext, Classical.choice, Quot.sound]
'Acados.GenSolver.C81_refuses' depends on axioms: [propext, Quot.sound]
'Acados.GenSolver.C81_no_ub' depends on axioms: [propext, Classical.choice, Quot.sound]
'Acados.GenSolver.C81_reset_partial' depends on axioms: [propext, Classical.choice, Quot.sound]
'Acados.GenSolver.C81_new_steps_partial' depends on axioms: [propext, Classical.choice, Quot.sound]
'Acados.GenSolver.C81_reset_stages_false' depends on axioms: [propext, Classical.choice, Quot.sound]
'Acados.GenSolver.C81_reset_x_false' depends on axioms: [propext]
'Acados.GenSolver.C81_scaling_false' depends on axioms: [propext, Classical.choice, Quot.sound]
'Acados.GenSolver.C81_new_steps_stale_false' depends on axioms: [propext, Classical.choice, Quot.sound]
'Acados.Batch.C82_schedule' depends on axioms: [propext, Quot.sound]
'Acados.Batch.C82_set' depends on axioms: [propext, Quot.sound]
'Acados.Batch.C82_get' depends on axioms: [propext, Classical.choice, Quot.sound]
'Acados.Batch.C82_size' depends on axioms: [propext]
'Acados.Batch.C82_roundtrip' depends on axioms: [propext, Classical.choice, Quot.sound]
'Acados.Batch.C82_flat_roundtrip' depends on axioms: [propext, Classical.choice, Quot.sound]
'Acados.Batch.C82_adjoint' depends on axioms: [propext, Classical.choice, Quot.sound]
'Acados.Batch.C82_con_layout' depends on axioms: [propext, Quot.sound]
'Acados.Batch.C82_family' depends on axioms: [propext, Classical.choice, Quot.sound]
'Acados.Batch.C82_raises' depends on axioms: [propext, Classical.choice, Quot.sound]
'Acados.Batch.C82_status_partial' depends on axioms: [propext, Classical.choice, Quot.sound]
'Acados.Batch.C82_threads_partial' does not depend on any axioms
'Acados.Batch.C82_con_shape_false' depends on axioms: [propext, Quot.sound]
'Acados.Batch.C82_slack_sens_false' depends on axioms: [propext, Quot.sound]
'Acados.Batch.C82_status_false' depends on axioms: [propext]
'Acados.Batch.C82_grown_flag_false' depends on axioms: [propext, Classical.choice, Quot.sound]
'Acados.Batch.C82_threads_false' depends on axioms: [propext, Quot.sound]
'Acados.Batch.C82_solve_threads_false' depends on axioms: [propext]
'Acados.Dunes.C83_dims' depends on axioms: [propext, Classical.choice, Quot.sound]
'Acados.Dunes.C83_data' depends on axioms: [propext, Classical.choice, Quot.sound]
'Acados.Dunes.C83_clip' depends on axioms: [propext, Classical.choice, Quot.sound]
'Acados.Dunes.C83_linear' depends on axioms: [propext, Quot.sound]
'Acados.Dunes.C83_first' depends on axioms: [propext, Classical.choice, Quot.sound]
'Acados.Dunes.C83_primal' depends on axioms: [propext, Classical.choice, Quot.sound]
'Acados.Dunes.C83_solvable' depends on axioms: [propext, Classical.choice, Quot.sound]
'Acados.Dunes.C83_kkt_partial' depends on axioms: [propext, Classical.choice, Quot.sound]
'Acados.Dunes.C83_call' depends on axioms: [propext, Classical.choice, Quot.sound]
'Acados.Dunes.C83_status' depends on axioms: [propext, Classical.choice, Quot.sound]
'Acados.Dunes.C83_first_false' depends on axioms: [propext, Classical.choice, Quot.sound]
'Acados.Dunes.C83_retry_false' depends on axioms: [propext, Classical.choice, Quot.sound]
'Acados.Dunes.C83_lam_ub' depends on axioms: [propext, Classical.choice, Quot.sound]
'Acados.Dunes.C83_lam_false' depends on axioms: [propext, Classical.choice, Quot.sound]
'Acados.Dunes.C83_mask_false' depends on axioms: [propext, Classical.choice, Quot.sound]
'Acados.Dunes.C83_status_false' depends on axioms: [propext, Classical.choice, Quot.sound]
'Acados.CostForm.C84_external' depends on axioms: [propext, Classical.choice, Quot.sound]
'Acados.CostForm.C84_external_ok' depends on axioms: [propext, Classical.choice, Quot.sound]
'Acados.CostForm.C84_params' depends on axioms: [propext, Quot.sound]
'Acados.CostForm.C84_gauss_newton' depends on axioms: [propext, Classical.choice, Quot.sound]
'Acados.CostForm.C84_conl' depends on axioms: [propext, Classical.choice, Quot.sound]
'Acados.CostForm.C84_copy' depends on axioms: [propext, Classical.choice, Quot.sound]
'Acados.CostForm.C84_get_partial' depends on axioms: [propext, Classical.choice, Quot.sound]
'Acados.CostForm.C84_copy_false' depends on axioms: [propext, Classical.choice, Quot.sound]
'Acados.CostForm.C84_get_false' depends on axioms: [propext, Classical.choice, Quot.sound]
'Acados.CostForm.C84_atomic_false' depends on axioms: [propext, Classical.choice, Quot.sound]
'Acados.Penalty.C85_violation' depends on axioms: [propext, Classical.choice, Quot.sound]
'Acados.Penalty.C85_l2' depends on axioms: [propext, Classical.choice, Quot.sound]
'Acados.Penalty.C85_l2_returns' depends on axioms: [propext, Quot.sound]
'Acados.Penalty.C85_huber_fun' depends on axioms: [propext, Classical.choice, Quot.sound]
'Acados.Penalty.C85_huber_zero' depends on axioms: [propext, Classical.choice, Quot.sound]
'Acados.Penalty.C85_xgn' depends on axioms: [propext, Classical.choice, Quot.sound]
'Acados.Penalty.C85_min_hess' depends on axioms: [propext, Quot.sound]
'Acados.Penalty.C85_sym_hess' depends on axioms: [propext, Classical.choice, Quot.sound]
'Acados.Penalty.C85_huber_upper' depends on axioms: [propext, Classical.choice, Quot.sound]
'Acados.Penalty.C85_huber_both' depends on axioms: [propext, Classical.choice, Quot.sound]
'Acados.Penalty.C85_huber_outer' depends on axioms: [propext, Classical.choice, Quot.sound]
'Acados.Penalty.C85_feasibility_partial' depends on axioms: [propext, Classical.choice, Quot.sound]
'Acados.Penalty.C85_feasibility_param_partial' depends on axioms: [propext, Classical.choice, Quot.sound]
'Acados.Penalty.C85_huber_weight_false' depends on axioms: [propext, Classical.choice, Quot.sound]
'Acados.Penalty.C85_huber_equal_false' depends on axioms: [propext, Classical.choice, Quot.sound]
'Acados.Penalty.C85_huber_lower_false' depends on axioms: [propext, Classical.choice, Quot.sound]
'Acados.Penalty.C85_l2_atomic_false' depends on axioms: [propext, Classical.choice, Quot.sound]
'Acados.Penalty.C85_outer_false' depends on axioms: [propext, Classical.choice, Quot.sound]
'Acados.Penalty.C85_feasibility_linear_false' depends on axioms: [propext, Classical.choice, Quot.sound]
'Acados.Penalty.C85_t0_false' depends on axioms: [propext, Classical.choice, Quot.sound]
'Acados.AutoCost.C86_linear_partial' depends on axioms: [propext, Classical.choice, Quot.sound]
'Acados.AutoCost.C86_checked' depends on axioms: [propext, Classical.choice, Quot.sound]
'Acados.AutoCost.C86_exact' depends on axioms: [propext, Classical.choice, Quot.sound]
'Acados.AutoCost.C86_external' depends on axioms: [propext, Classical.choice, Quot.sound]
'Acados.AutoCost.C86_zero' depends on axioms: [propext, Classical.choice, Quot.sound]
'Acados.AutoCost.C86_terminal' depends on axioms: [propext, Classical.choice, Quot.sound]
'Acados.AutoCost.C86_fallback_false' depends on axioms: [propext, Classical.choice, Quot.sound]
'Acados.AutoCost.C86_order_false' depends on axioms: [propext, Classical.choice, Quot.sound]
'Acados.IterFile.C87_get' depends on axioms: [propext, Classical.choice, Quot.sound]
'Acados.IterFile.C87_file_partial' depends on axioms: [propext, Classical.choice, Quot.sound]
'Acados.IterFile.C87_object_partial' depends on axioms: [propext, Classical.choice, Quot.sound]
'Acados.IterFile.C87_restore' depends on axioms: [propext, Classical.choice, Quot.sound]
'Acados.IterFile.C87_json_partial' depends on axioms: [propext, Classical.choice, Quot.sound]
'Acados.IterFile.C87_compatible_partial' depends on axioms: [propext, Classical.choice, Quot.sound]
'Acados.IterFile.C87_json_load' depends on axioms: [propext, Classical.choice, Quot.sound]
'Acados.IterFile.C87_flatten' depends on axioms: [propext, Quot.sound]
'Acados.IterFile.C87_json_false' depends on axioms: [propext, Classical.choice, Quot.sound]
'Acados.IterFile.C87_size_false' depends on axioms: [propext, Classical.choice, Quot.sound]
'Acados.IterFile.C87_mask_false' depends on axioms: [propext, Classical.choice, Quot.sound]
'Acados.MultiPhase.C88_phase' depends on axioms: [propext, Classical.choice, Quot.sound]
'Acados.MultiPhase.C88_plan' depends on axioms: [propext, Classical.choice, Quot.sound]
'Acados.MultiPhase.C88_dynamics' depends on axioms: [propext, Classical.choice, Quot.sound]
'Acados.MultiPhase.C88_dims' depends on axioms: [propext, Classical.choice, Quot.sound]
'Acados.MultiPhase.C88_objects' depends on axioms: [propext, Classical.choice, Quot.sound]
'Acados.MultiPhase.C88_transition_partial' depends on axioms: [propext, Classical.choice, Quot.sound]
'Acados.MultiPhase.C88_names' depends on axioms: [propext, Classical.choice, Quot.sound]
'Acados.MultiPhase.C88_update' depends on axioms: [propext, Classical.choice, Quot.sound]
'Acados.MultiPhase.C88_params_partial' depends on axioms: [propext, Classical.choice, Quot.sound]
'Acados.MultiPhase.C88_lengths_false' depends on axioms: [propext]
'Acados.MultiPhase.C88_transition_false' depends on axioms: [propext]
'Acados.MultiPhase.C88_update_false' depends on axioms: [propext, Quot.sound]
'Acados.MultiPhase.C88_params_false' depends on axioms: [propext, Classical.choice, Quot.sound]
'Acados.ParamManager.C89_init' depends on axioms: [propext, Classical.choice, Quot.sound]
'Acados.ParamManager.C89_set' depends on axioms: [propext, Classical.choice, Quot.sound]
'Acados.ParamManager.C89_history_partial' depends on axioms: [propext, Classical.choice, Quot.sound]
'Acados.ParamManager.C89_horizon' depends on axioms: [propext, Classical.choice, Quot.sound]
'Acados.ParamManager.C89_layout' depends on axioms: [propext, Classical.choice, Quot.sound]
'Acados.ParamManager.C89_flat' depends on axioms: [propext, Classical.choice, Quot.sound]
'Acados.ParamManager.C89_in_place_partial' depends on axioms: [propext, Classical.choice, Quot.sound]
'Acados.ParamManager.C89_growth_false' depends on axioms: [propext, Quot.sound]
'Acados.ParamManager.C89_layout_false' depends on axioms: [propext, Quot.sound]
'Acados.ParamManager.C89_in_place_false' depends on axioms: [propext, Quot.sound]
'Acados.DetectCon.C90_path_partial' depends on axioms: [propext, Classical.choice, Quot.sound]
'Acados.DetectCon.C90_nonlinear' depends on axioms: [propext, Quot.sound]
'Acados.DetectCon.C90_terminal_partial' depends on axioms: [propext, Classical.choice, Quot.sound]
'Acados.DetectCon.C90_initial_partial' depends on axioms: [propext, Classical.choice, Quot.sound]
'Acados.DetectCon.C90_path_false' depends on axioms: [propext, Classical.choice, Quot.sound]
'Acados.DetectCon.C90_scope_false' depends on axioms: [propext, Classical.choice, Quot.sound]
'Acados.ControlHorizon.C91_cases' depends on axioms: [propext, Quot.sound]
'Acados.ControlHorizon.C91_equivalent_partial' depends on axioms: [propext, Classical.choice, Quot.sound]
'Acados.ControlHorizon.C91_integrator' depends on axioms: [propext, Classical.choice, Quot.sound]
'Acados.ControlHorizon.C91_time' depends on axioms: [propext, Classical.choice, Quot.sound]
'Acados.ControlHorizon.C91_remaining_false' depends on axioms: [propext, Classical.choice, Quot.sound]
'Acados.ControlHorizon.C91_grid_false' depends on axioms: [propext, Classical.choice, Quot.sound]
'Acados.ControlHorizon.C91_given_problem_false' depends on axioms: [propext, Classical.choice, Quot.sound]
'Acados.ControlHorizon.C91_first_stage_false' depends on axioms: [propext, Classical.choice, Quot.sound]
'Acados.Evaluator.C92_evaluate' depends on axioms: [propext, Classical.choice, Quot.sound]
'Acados.Evaluator.C92_parameters' depends on axioms: [propext, Quot.sound]
'Acados.Evaluator.C92_default_partial' depends on axioms: [propext, Quot.sound]
'Acados.Evaluator.C92_default_false' depends on axioms: [propext, Quot.sound]
'Acados.Evaluator.C92_total_partial' depends on axioms: [propext, Classical.choice, Quot.sound]
'Acados.Evaluator.C92_total_false' depends on axioms: [propext, Classical.choice, Quot.sound]
'Acados.Evaluator.C92_terminal_parameters_false' depends on axioms: [propext, Classical.choice, Quot.sound]
'Acados.Evaluator.C92_cost_state' depends on axioms: [propext, Classical.choice, Quot.sound]
'Acados.Evaluator.C92_cost_state_partial' depends on axioms: [propext, Classical.choice, Quot.sound]
'Acados.Evaluator.C92_cost_state_false' depends on axioms: [propext, Classical.choice, Quot.sound]
'Acados.QpSlack.C93_values' depends on axioms: [propext, Classical.choice, Quot.sound]
'Acados.QpSlack.C93_feasible' depends on axioms: [propext, Classical.choice, Quot.sound]
'Acados.QpSlack.C93_dense' depends on axioms: [propext, Classical.choice, Quot.sound]
'Acados.QpSlack.C93_current_partial' depends on axioms: [propext, Classical.choice, Quot.sound]
'Acados.QpSlack.C93_current_false' depends on axioms: [propext, Classical.choice, Quot.sound]
'Acados.QpSlack.C93_norms' depends on axioms: [propext, Classical.choice, Quot.sound]
'Acados.CasadiQp.C94_feasible_partial' depends on axioms: [propext, Classical.choice, Quot.sound]
'Acados.CasadiQp.C94_feasible_false' depends on axioms: [propext, Classical.choice, Quot.sound]
'Acados.CasadiQp.C94_cost' depends on axioms: [propext, Classical.choice, Quot.sound]
'Acados.CasadiQp.C94_get' depends on axioms: [propext, Classical.choice, Quot.sound]
'Acados.CasadiQp.C94_set' depends on axioms: [propext, Classical.choice, Quot.sound]
'Acados.CasadiQp.C94_x0' depends on axioms: [propext, Classical.choice, Quot.sound]
'Acados.CasadiQp.C94_pi' depends on axioms: [propext, Classical.choice, Quot.sound]
'Acados.CasadiQp.C94_lam_partial' depends on axioms: [propext, Classical.choice, Quot.sound]
'Acados.CasadiQp.C94_lam_false' depends on axioms: [propext, Classical.choice, Quot.sound]
'Acados.CasadiQp.C94_lam_length_false' depends on axioms: [propext, Classical.choice, Quot.sound]
'Acados.CasadiQp.C94_round_trip_partial' depends on axioms: [propext, Classical.choice, Quot.sound]
'Acados.CasadiQp.C94_set_lam_false' depends on axioms: [propext, Classical.choice, Quot.sound]
'Acados.CasadiQp.C94_terminal_false' depends on axioms: [propext, Classical.choice, Quot.sound]
'Acados.CasadiQp.C94_flat_false' depends on axioms: [propext, Classical.choice, Quot.sound]
'Acados.QpDump.C95_load_partial' depends on axioms: [propext, Classical.choice, Quot.sound]
'Acados.QpDump.C95_digits_false' depends on axioms: [propext, Classical.choice, Quot.sound]
'Acados.QpDump.C95_nu_false' depends on axioms: [propext, Classical.choice, Quot.sound]
'Acados.QpDump.C95_buffer' depends on axioms: [propext, Classical.choice, Quot.sound]
'Acados.AsRti.C96_levelC_partial' depends on axioms: [propext, Classical.choice, Quot.sound]
'Acados.AsRti.C96_levelC_newton' depends on axioms: [propext, Classical.choice, Quot.sound]
'Acados.AsRti.C96_terminal_false' depends on axioms: [propext, Classical.choice, Quot.sound]
'Acados.AsRti.C96_levelB_partial' depends on axioms: [propext, Classical.choice, Quot.sound]
'Acados.AsRti.C96_levelB_feasible' depends on axioms: [propext, Classical.choice, Quot.sound]
'Acados.AsRti.C96_step_false' depends on axioms: [propext, Classical.choice, Quot.sound]
'Acados.AsRti.C96_log_partial' depends on axioms: [propext, Classical.choice, Quot.sound]
'Acados.AsRti.C96_log_false' depends on axioms: [propext, Classical.choice, Quot.sound]
'Acados.AsRti.C96_advance_partial' depends on axioms: [propext, Quot.sound]
'Acados.AsRti.C96_advance_false' depends on axioms: [propext, Classical.choice, Quot.sound]
'Acados.CasadiNlp.C97_feasible_partial' depends on axioms: [propext, Classical.choice, Quot.sound]
'Acados.CasadiNlp.C97_cost' depends on axioms: [propext, Classical.choice, Quot.sound]
'Acados.CasadiNlp.C97_get' depends on axioms: [propext, Classical.choice, Quot.sound]
'Acados.CasadiNlp.C97_set' depends on axioms: [propext, Classical.choice, Quot.sound]
'Acados.CasadiNlp.C97_pi' depends on axioms: [propext, Classical.choice, Quot.sound]
'Acados.CasadiNlp.C97_lam' depends on axioms: [propext, Classical.choice, Quot.sound]
'Acados.CasadiNlp.C97_iterate' depends on axioms: [propext, Classical.choice, Quot.sound]
'Acados.CasadiNlp.C97_flat_partial' depends on axioms: [propext, Classical.choice, Quot.sound]
'Acados.CasadiNlp.C97_flat_false' depends on axioms: [propext, Classical.choice, Quot.sound]
'Acados.CasadiNlp.C97_lh_partial' depends on axioms: [propext, Classical.choice, Quot.sound]
'Acados.CasadiNlp.C97_lh_false' depends on axioms: [propext, Classical.choice, Quot.sound]
'Acados.CasadiNlp.C97_get_lbx' depends on axioms: [propext, Classical.choice, Quot.sound]
'Acados.CasadiNlp.C97_set_lbx' depends on axioms: [propext, Classical.choice, Quot.sound]
'Acados.CasadiNlp.C97_hessian' depends on axioms: [propext, Classical.choice, Quot.sound]
'Acados.CasadiNlp.C97_refused' depends on axioms: [propext, Classical.choice, Quot.sound]
'Acados.CasadiNlp.C97_slack_bound_false' depends on axioms: [propext, Classical.choice, Quot.sound]
'Acados.CasadiNlp.C97_steps_false' depends on axioms: [propext, Classical.choice, Quot.sound]
'Acados.CasadiNlp.C97_phi0_false' depends on axioms: [propext, Classical.choice, Quot.sound]
'Acados.TimeGrid.C98_uniform' depends on axioms: [propext, Classical.choice, Quot.sound]
'Acados.TimeGrid.C98_steps_accepted_iff' depends on axioms: [propext, Classical.choice, Quot.sound]
'Acados.TimeGrid.C98_steps_kept' depends on axioms: [propext, Classical.choice, Quot.sound]
'Acados.TimeGrid.C98_nodes_kept' depends on axioms: [propext, Classical.choice, Quot.sound]
'Acados.TimeGrid.C98_scaling_default' depends on axioms: [propext, Classical.choice, Quot.sound]
'Acados.TimeGrid.C98_scaling_given' depends on axioms: [propext, Classical.choice, Quot.sound]
'Acados.TimeGrid.C98_horizon_partial' depends on axioms: [propext, Classical.choice, Quot.sound]
'Acados.TimeGrid.C98_twice_partial' depends on axioms: [propext, Classical.choice, Quot.sound]
'Acados.TimeGrid.C98_new_N_rejected' depends on axioms: [propext, Classical.choice, Quot.sound]
'Acados.TimeGrid.C98_zero' depends on axioms: [propext, Classical.choice, Quot.sound]
'Acados.TimeGrid.C98_short_counterexample' depends on axioms: [propext, Classical.choice, Quot.sound]
'Acados.TimeGrid.C98_new_tf_counterexample' depends on axioms: [propext, Classical.choice, Quot.sound]
'Acados.TimeGrid.C98_length_counterexample' depends on axioms: [propext, Classical.choice, Quot.sound]
'Acados.TimeGrid.C98_nodes_ignored_counterexample' depends on axioms: [propext, Classical.choice, Quot.sound]
'Acados.TimeGrid.C98_twice_counterexample' depends on axioms: [propext, Classical.choice, Quot.sound]
'Acados.TimeGrid.C98_decreasing_counterexample' depends on axioms: [propext, Classical.choice, Quot.sound]
'Acados.TimeGrid.C98_integrator_settings' depends on axioms: [propext, Classical.choice, Quot.sound]
'Acados.TimeGrid.C98_condensing' depends on axioms: [propext, Quot.sound]
'Acados.OcpDims.C99_path_partial' depends on axioms: [propext, Classical.choice, Quot.sound]
'Acados.OcpDims.C99_init_partial' depends on axioms: [propext, Classical.choice, Quot.sound]
'Acados.OcpDims.C99_x0_partial' depends on axioms: [propext, Classical.choice, Quot.sound]
'Acados.OcpDims.C99_term_partial' depends on axioms: [propext, Classical.choice, Quot.sound]
'Acados.OcpDims.C99_soft_path' depends on axioms: [propext, Classical.choice, Quot.sound]
'Acados.OcpDims.C99_soft_init' depends on axioms: [propext, Classical.choice, Quot.sound]
'Acados.OcpDims.C99_soft_term' depends on axioms: [propext, Classical.choice, Quot.sound]
'Acados.OcpDims.C99_rev_path' depends on axioms: [propext, Classical.choice, Quot.sound]
'Acados.OcpDims.C99_rev_init' depends on axioms: [propext, Classical.choice, Quot.sound]
'Acados.OcpDims.C99_rev_term_partial' depends on axioms: [propext, Classical.choice, Quot.sound]
'Acados.OcpDims.C99_two_sided_partial' depends on axioms: [propext, Classical.choice, Quot.sound]
'Acados.OcpDims.C99_accepts' depends on axioms: [propext, Classical.choice, Quot.sound]
'Acados.OcpDims.C99_accepts_rev' depends on axioms: [propext, Classical.choice, Quot.sound]
'Acados.OcpDims.C99_index_counterexample' depends on axioms: [propext, Classical.choice, Quot.sound]
'Acados.OcpDims.C99_columns_counterexample' depends on axioms: [propext, Classical.choice, Quot.sound]
'Acados.OcpDims.C99_phi_counterexample' depends on axioms: [propext, Classical.choice, Quot.sound]
'Acados.OcpDims.C99_mix_counterexample' depends on axioms: [propext, Classical.choice, Quot.sound]
'Acados.OcpDims.C99_infty_counterexample' depends on axioms: [propext, Classical.choice, Quot.sound]
'Acados.OcpDims.C99_penalty_counterexample' depends on axioms: [propext, Classical.choice, Quot.sound]
'Acados.OcpDims.C99_x0_counterexample' depends on axioms: [propext, Classical.choice, Quot.sound]
'Acados.OcpDims.C99_ddp_counterexample' depends on axioms: [propext, Classical.choice, Quot.sound]
'Acados.OcpDims.C99_ddp_partial' depends on axioms: [propext, Quot.sound]
