{
 "claims": [
  {
   "property": "C01",
   "status": "proved",
   "theorems": [
    "Acados.Mem.C01_make_int_multiple_of",
    "Acados.Mem.C01_align_char_to",
    "Acados.Mem.C01_idempotent",
    "Acados.Mem.C01_padding"
   ],
   "note": "over unbounded naturals; overflow of int/size_t not modelled"
  },
  {
   "property": "C02",
   "status": "partial",
   "theorems": [
    "Acados.Mem.C02_bgh_model",
    "Acados.Mem.C02_bgh_memory",
    "Acados.Mem.C02_bgh_workspace",
    "Acados.Mem.C02_bgp_model",
    "Acados.Mem.C02_bgp_memory",
    "Acados.Mem.C02_bgp_workspace",
    "Acados.Mem.C02_ls_model_partial",
    "Acados.Mem.C02_ls_memory",
    "Acados.Mem.C02_ls_workspace",
    "Acados.Mem.C02_nls_model",
    "Acados.Mem.C02_nls_memory",
    "Acados.Mem.C02_nls_workspace",
    "Acados.Mem.C02_ext_model",
    "Acados.Mem.C02_ext_memory",
    "Acados.Mem.C02_conl_model",
    "Acados.Mem.C02_conl_memory",
    "Acados.Mem.C02_conl_workspace",
    "Acados.Mem.C02_ext_workspace",
    "Acados.Mem.C02_ls_model_false",
    "Acados.Mem.C02_nested",
    "Acados.Mem.C02_sqp_memory_nested",
    "Acados.Mem.C02_nlp_config",
    "Acados.Mem.C02_reg_dims",
    "Acados.Mem.C02_qpscal_dims",
    "Acados.Mem.C02_nlp_dims_self_partial",
    "Acados.Mem.C02_nlp_dims_self_bytes",
    "Acados.Mem.C02_nlp_dims_self_false",
    "Acados.Mem.C02_nlp_dims",
    "Acados.Mem.C02_nlp_in",
    "Acados.Mem.C02_nlp_out",
    "Acados.Mem.C02_nlp_opts",
    "Acados.Mem.C02_nlp_res",
    "Acados.Mem.C02_nlp_memory",
    "Acados.Mem.C02_nlp_workspace",
    "Acados.Mem.C02_nlp_workspace_shared",
    "Acados.Mem.C02_reg_mirror",
    "Acados.Mem.C02_reg_glm",
    "Acados.Mem.C02_reg_reduc",
    "Acados.Mem.C02_reg_convexify",
    "Acados.Mem.C02_qpscal_memory",
    "Acados.Mem.C02_glob_memory",
    "Acados.Mem.C02_sqp_memory",
    "Acados.Mem.C02_rti_memory",
    "Acados.Mem.C02_ddp_memory",
    "Acados.Mem.C02_wfqp_memory",
    "Acados.Mem.C02_solver_pair",
    "Acados.Mem.C02_qp_dims",
    "Acados.Mem.C02_qp_in",
    "Acados.Mem.C02_qp_out",
    "Acados.Mem.C02_qp_seed",
    "Acados.Mem.C02_qp_res",
    "Acados.Mem.C02_qp_res_workspace",
    "Acados.Mem.C02_pcond_dims",
    "Acados.Mem.C02_pcond_opts",
    "Acados.Mem.C02_pcond_memory",
    "Acados.Mem.C02_dense_dims",
    "Acados.Mem.C02_dense_in",
    "Acados.Mem.C02_dense_out",
    "Acados.Mem.C02_dense_seed",
    "Acados.Mem.C02_dense_res",
    "Acados.Mem.C02_dense_res_workspace",
    "Acados.Mem.C02_fcond_dims",
    "Acados.Mem.C02_fcond_opts",
    "Acados.Mem.C02_fcond_memory",
    "Acados.Mem.C02_xcond_config",
    "Acados.Mem.C02_xcond_dims",
    "Acados.Mem.C02_xcond_opts",
    "Acados.Mem.C02_xcond_memory",
    "Acados.Mem.C02_xcond_workspace",
    "Acados.Mem.C02_hpipm",
    "Acados.Mem.C02_daqp_opts",
    "Acados.Mem.C02_daqp_workspace",
    "Acados.Mem.C02_daqp_memory_partial",
    "Acados.Mem.C02_daqp_memory_false",
    "Acados.Mem.C02_dense_ooqp_memory",
    "Acados.Mem.C02_dense_ooqp_workspace",
    "Acados.Mem.C02_qpoases_memory",
    "Acados.Mem.C02_ooqp_memory",
    "Acados.Mem.C02_ooqp_workspace_partial",
    "Acados.Mem.C02_ooqp_workspace_false",
    "Acados.Mem.C02_qpdunes_workspace",
    "Acados.Mem.C02_clarabel_memory",
    "Acados.Mem.C02_osqp_workspace",
    "Acados.Mem.C02_osqp_memory_partial",
    "Acados.Mem.C02_osqp_memory_false",
    "Acados.Mem.C02_ext_param_generic",
    "Acados.Mem.C02_casadi",
    "Acados.Mem.C02_casadi_ext_param",
    "Acados.Mem.C02_sim_in",
    "Acados.Mem.C02_sim_out",
    "Acados.Mem.C02_erk_opts",
    "Acados.Mem.C02_erk_memory",
    "Acados.Mem.C02_erk_workspace",
    "Acados.Mem.C02_irk_opts",
    "Acados.Mem.C02_gnsf_opts",
    "Acados.Mem.C02_irk_memory",
    "Acados.Mem.C02_irk_workspace",
    "Acados.Mem.C02_lifted_memory",
    "Acados.Mem.C02_lifted_workspace",
    "Acados.Mem.C02_gnsf_model",
    "Acados.Mem.C02_gnsf_memory",
    "Acados.Mem.C02_gnsf_pre_workspace",
    "Acados.Mem.C02_gnsf_workspace",
    "Acados.Mem.C02_dyn_cont_dims",
    "Acados.Mem.C02_dyn_cont_opts",
    "Acados.Mem.C02_dyn_cont_memory",
    "Acados.Mem.C02_dyn_cont_workspace",
    "Acados.Mem.C02_dyn_cont_model",
    "Acados.Mem.C02_dyn_disc_memory",
    "Acados.Mem.C02_dyn_disc_workspace",
    "Acados.Mem.C02_erk_fun_only",
    "Acados.Mem.C02_erk_adjoint_false",
    "Acados.Mem.C02_erk_adjoint_partial",
    "Acados.Mem.C02_irk_fun_only",
    "Acados.Mem.C02_irk_adjoint_false"
   ],
   "note": "proved for 90 calculate_size/assign pairs (constraints, cost, dynamics, integrators, external functions, QP layer and its solver interfaces, NLP layer, regularization, globalization, the four NLP solvers) for all dimensions and option combinations, and for whole trees of nested objects (C02_nested); false and shown false for: linear least-squares cost model, ocp_nlp_dims with even N, DAQP memory, OOQP workspace, OSQP memory with 4-byte integers, and the ERK/IRK workspace used for adjoints; HPMPC is not modelled"
  },
  {
   "property": "C03",
   "status": "proved",
   "theorems": [
    "Acados.Bgh.C03_vector_fields",
    "Acados.Bgh.C03_readable",
    "Acados.Bgh.C03_index_fields",
    "Acados.Bgh.C03_matrix_fields",
    "Acados.Bgh.C03_writes_in_bounds",
    "Acados.Bgh.C03_inconsistent_slack_dims_out_of_bounds"
   ],
   "note": "every history and dimension; ls/us/idxe fields have no getter, their effect is covered by C05; memory safety of the writes needs the slack groups not to exceed ns (counter-theorem otherwise)"
  },
  {
   "property": "C04",
   "status": "partial",
   "theorems": [
    "Acados.Bgh.C04_mask",
    "Acados.Bgh.C04_mask_double",
    "Acados.Bgh.C04_off_row_zero",
    "Acados.Bgh.C04_off_multiplier_zero",
    "Acados.Bgh.C04_on_multiplier_kept",
    "Acados.Bgh.C04_minus_infinity_gives_nan",
    "Acados.Bgh.C04_finite_gives_zero",
    "Acados.Bgh.C04_bgp_rows",
    "Acados.Bgh.C04_bgp_off_slack_counterexample"
   ],
   "note": "masks proved for every history, also with IEEE comparisons; zero contribution proved for finite bounds; false for a bound written as -infinity in floating point (NaN row, counter-theorem); false for slack bounds in the function evaluation of the bgp module, where they are not switched off (exact characterisation and witness); that the QP solver keeps masked multipliers at zero is trusted"
  },
  {
   "property": "C05",
   "status": "partial",
   "theorems": [
    "Acados.Bgh.C05_nonpositive_iff_constraints_hold",
    "Acados.Bgh.C05_nonpositive_iff_constraints_hold_rev",
    "Acados.Bgh.C05_bgp_partial"
   ],
   "note": "end to end from the history of user writes; exact arithmetic; both slack formulations; complete for the bgh module and the linearisation of both; for the function evaluation of the bgp module only if no slack is below a switched-off bound (-1e10), otherwise false (C04_bgp_off_slack_counterexample)"
  },
  {
   "property": "C06",
   "status": "partial",
   "theorems": [
    "Acados.Bgh.C06_adjoint",
    "Acados.Bgh.C06_adjoint_bgp_partial",
    "Acados.Bgh.C06_bgp_idxs_rev_wrong"
   ],
   "note": "proved for the bgh module; for the bgp (convex-over-nonlinear) module proved with idxs and false with idxs_rev (counter-theorem)"
  },
  {
   "property": "C07",
   "status": "partial",
   "theorems": [
    "Acados.Bgh.C07_rev_follows_last_write",
    "Acados.Bgh.C07_first_solve_partial",
    "Acados.Bgh.C07_soft_rows_accumulate",
    "Acados.Bgh.C07_stale_soft_row"
   ],
   "note": "proved for idxs_rev and for the first solve; false in general for the idxs lists: soft rows accumulate over solves (exact characterisation and witness)"
  },
  {
   "property": "C08",
   "status": "partial",
   "theorems": [
    "Acados.Bgh.C08_total_derivative_partial",
    "Acados.Bgh.C08_misplaced_block",
    "Acados.Bgh.C08_false_with_general_constraints"
   ],
   "note": "proved for ng = 0 or nz = 0; false otherwise (exact formula and witness)"
  },
  {
   "property": "C09",
   "status": "proved",
   "theorems": [
    "Acados.Funnel.C09_initial_width",
    "Acados.Funnel.C09_width_along_solve"
   ],
   "note": "exact arithmetic; trial infeasibilities assumed >= 0 (they are l1 norms)"
  },
  {
   "property": "C10",
   "status": "proved",
   "theorems": [
    "Acados.Funnel.C10_accepted_progress",
    "Acados.Funnel.C10_decision_rule",
    "Acados.Funnel.C10_never_both_worse"
   ],
   "note": "exact arithmetic"
  },
  {
   "property": "C100",
   "status": "partial",
   "theorems": [
    "Acados.QpOpts.C100_hpipm",
    "Acados.QpOpts.C100_osqp_partial",
    "Acados.QpOpts.C100_clarabel_partial",
    "Acados.QpOpts.C100_qpoases_partial",
    "Acados.QpOpts.C100_daqp_partial",
    "Acados.QpOpts.C100_qpdunes_partial",
    "Acados.QpOpts.C100_hpmpc_partial",
    "Acados.QpOpts.C100_nlp_tols",
    "Acados.QpOpts.C100_adaptive",
    "Acados.QpOpts.C100_warm",
    "Acados.QpOpts.C100_generated",
    "Acados.QpOpts.C100_modes",
    "Acados.QpOpts.C100_qpoases_counterexample",
    "Acados.QpOpts.C100_osqp_counterexample",
    "Acados.QpOpts.C100_osqp_verbose_counterexample",
    "Acados.QpOpts.C100_print_counterexample",
    "Acados.QpOpts.C100_mode_counterexample",
    "Acados.QpOpts.C100_order_counterexample",
    "Acados.QpOpts.C100_clarabel_counterexample",
    "Acados.QpOpts.C100_plain_counterexample",
    "Acados.QpOpts.C100_qpoases_warm_counterexample",
    "Acados.QpOpts.C100_tau_counterexample",
    "Acados.QpOpts.C100_back_to_fixed_counterexample",
    "Acados.QpOpts.C100_first_warm_counterexample",
    "Acados.QpOpts.C100_rti_counterexample"
   ],
   "note": "Proved: the claim for HPIPM (tolerances; iteration limit and warm start if modes are selected first), the exact value each other solver uses after any history, NLP tolerances, adaptive tolerances, generated solvers with HPIPM. Refuted: qpOASES never relaxes a tolerance; OSQP and Clarabel merge the tolerances for equalities and inequalities, OSQP has a floor; Clarabel ignores calls after the first QP; a mode of HPIPM drops earlier calls; OSQP stays verbose; the QP print level is overwritten; QORE and OOQP cannot be used by a generated solver; the real-time iteration ignores the NLP tolerances of the description. Missing: stat_max, alpha_min, mu0 and other solver parameters; the copy qpDUNES takes of its options."
  },
  {
   "property": "C101",
   "status": "partial",
   "theorems": [
    "Acados.OcpCost.C101_accepts",
    "Acados.OcpCost.C101_checks_partial",
    "Acados.OcpCost.C101_calls_partial",
    "Acados.OcpCost.C101_ls_partial",
    "Acados.OcpCost.C101_ext_type_partial",
    "Acados.OcpCost.C101_vz_missing_counterexample",
    "Acados.OcpCost.C101_vz_extra_counterexample",
    "Acados.OcpCost.C101_asymmetric_counterexample",
    "Acados.OcpCost.C101_indefinite_counterexample",
    "Acados.OcpCost.C101_small_weight_counterexample",
    "Acados.OcpCost.C101_history_counterexample",
    "Acados.OcpCost.C101_initial_counterexample",
    "Acados.OcpCost.C101_ext_type_counterexample"
   ],
   "note": "Proved: well-formed costs are accepted; accepted costs are well-formed up to the tolerances of the weighting matrix and the columns of Vz; every needed field is set at every stage with the data of the description; value of a linear least-squares cost from the description to the module. Refuted: columns of Vz are not checked; asymmetric and indefinite matrices pass, small positive definite ones do not; dims.ny survives a change to an external cost; the copied initial cost is frozen; the type of an external terminal cost is compared as a substring. Missing: AUTO (C86), expressions beyond their lengths, the values of nonlinear costs, NaN."
  },
  {
   "property": "C102",
   "status": "partial",
   "theorems": [
    "Acados.OptSet.C102_set_partial",
    "Acados.OptSet.C102_reject",
    "Acados.OptSet.C102_frame",
    "Acados.OptSet.C102_history_partial",
    "Acados.OptSet.C102_domain",
    "Acados.OptSet.C102_hpipm",
    "Acados.OptSet.C102_range_counterexample",
    "Acados.OptSet.C102_applies_counterexample",
    "Acados.OptSet.C102_ignored_counterexample",
    "Acados.OptSet.C102_wrap_counterexample",
    "Acados.OptSet.C102_bool_counterexample",
    "Acados.OptSet.C102_float_counterexample",
    "Acados.OptSet.C102_qp_counterexample",
    "Acados.OptSet.C102_level_counterexample"
   ],
   "note": "Proved: good calls set their option and nothing else; unknown names and wrong types raise; frame of every successful call; last value after any sequence of good calls; types and checked ranges are invariant under arbitrary calls; HPIPM accepts its options. Refuted: values out of range and options the solver or QP solver does not have end the process (rti_phase 0 passes the checks for every solver); max_iter is ignored by real-time solvers; large integers are cut off and pass the limit of iterations; warm_start_first_qp reads one byte of an integer; the check of rti_phase uses the level of the description. Missing: options only set through C, subclasses of the Python types."
  },
  {
   "property": "C103",
   "status": "partial",
   "theorems": [
    "Acados.PyArr.C103_matrix",
    "Acados.PyArr.C103_warn",
    "Acados.PyArr.C103_warn_accepts",
    "Acados.PyArr.C103_vector",
    "Acados.PyArr.C103_refuse",
    "Acados.PyArr.C103_inbounds_partial",
    "Acados.PyArr.C103_roundtrip",
    "Acados.PyArr.C103_set_partial",
    "Acados.PyArr.C103_sim_partial",
    "Acados.PyArr.C103_sim_vector",
    "Acados.PyArr.C103_sparse_partial",
    "Acados.PyArr.C103_time_steps_partial",
    "Acados.PyArr.C103_batch_partial",
    "Acados.PyArr.C103_batch_vector",
    "Acados.PyArr.C103_old_counterexample",
    "Acados.PyArr.C103_empty_counterexample",
    "Acados.PyArr.C103_field_counterexample",
    "Acados.PyArr.C103_set_counterexample",
    "Acados.PyArr.C103_sim_counterexample",
    "Acados.PyArr.C103_sparse_counterexample",
    "Acados.PyArr.C103_time_steps_counterexample",
    "Acados.PyArr.C103_time_steps_stride_counterexample",
    "Acados.PyArr.C103_batch_counterexample"
   ],
   "note": "Proved: cost_set and constraints_set with api new (and warn, when it succeeds) for all strides; acceptance of warn; shapes; reads in bounds; round trip; set for vectors and columns; integrators for vectors and Fortran order; sparse parameters and time steps for consecutive arrays. Refuted: api old transposes; a matrix without columns is accepted for a vector; set takes the first row of a matrix; the integrator reads freed memory; sparse parameters and time steps ignore strides; a negative index changes another stage; time steps changed in place are not noticed; the batch solver checks only the number of entries. Missing: conversions from other element types, NaN in the comparison of warn."
  },
  {
   "property": "C104",
   "status": "partial",
   "theorems": [
    "Acados.Regularity.C104_indices",
    "Acados.Regularity.C104_strict_stage_partial",
    "Acados.Regularity.C104_strict_partial",
    "Acados.Regularity.C104_strict_stages_partial",
    "Acados.Regularity.C104_licq_stage",
    "Acados.Regularity.C104_licq_partial",
    "Acados.Regularity.C104_licq_free_x0_partial",
    "Acados.Regularity.C104_tol_false",
    "Acados.Regularity.C104_equality_false",
    "Acados.Regularity.C104_strict_soft_false",
    "Acados.Regularity.C104_licq_soft_false",
    "Acados.Regularity.C104_licq_x0_false",
    "Acados.Regularity.C104_licq_dyn_false",
    "Acados.Regularity.C104_ocp_rows",
    "Acados.Regularity.C104_ocp_strict_partial",
    "Acados.Regularity.C104_ocp_staged",
    "Acados.Regularity.C104_ocp_licq_partial",
    "Acados.Regularity.C104_ocp_eq_bounds"
   ],
   "note": "Proved for all problems: the index lists and exceptions; strict complementarity for hard constraints; the check of a stage is linear independence with respect to the variables of the stage; the checks of all stages together imply linear independence for the whole problem, without the equalities on variables of the initial stage and without soft constraints; for problems built by the CasADi solver class (C97) the constraints read are the hard constraints of the optimal control problem. Refuted: the tolerance argument has no effect; violated equalities are not noticed; soft constraints are ignored by both checks; LICQ is reported if the fixed initial state makes it fail, and not reported if it holds because of the next state. Missing: the numerical rank, NaN, single shooting."
  },
  {
   "property": "C105",
   "status": "partial",
   "theorems": [
    "Acados.QpDesc.C105_received_partial",
    "Acados.QpDesc.C105_accepts",
    "Acados.QpDesc.C105_masks_required",
    "Acados.QpDesc.C105_idxs_rev_required",
    "Acados.QpDesc.C105_create",
    "Acados.QpDesc.C105_masks",
    "Acados.QpDesc.C105_idxs_partial",
    "Acados.QpDesc.C105_default_opts_false",
    "Acados.QpDesc.C105_A_false",
    "Acados.QpDesc.C105_ubx_false",
    "Acados.QpDesc.C105_terminal_false",
    "Acados.QpDesc.C105_Q_false",
    "Acados.QpDesc.C105_idxs_false",
    "Acados.QpLicq.C105_licq_stages_partial",
    "Acados.QpLicq.C105_licq_denied_partial",
    "Acados.QpLicq.C105_licq_controls_partial",
    "Acados.QpLicq.C105_licq_index",
    "Acados.QpLicq.C105_licq_nx",
    "Acados.QpLicq.C105_licq_false",
    "Acados.QpLicq.C105_licq_index_false"
   ],
   "note": "Proved for all descriptions: fields that are checked arrive entry by entry; descriptions with the documented shapes are accepted; exactly when a solver is created; solvers without masks get none that is zero; slack indices are expressible by slack exactly if no slack is used twice and none is unused. Refuted: masks and slack indices have no defaults; options may not be omitted; columns of A, upper bounds, the terminal number of states and the columns of Q are not checked, so the solver reads outside of the arrays; unused slacks are not noticed. check_licq, for stages with bounds on controls only or without controls: it is true exactly if the active constraints of every stage but the last are linearly independent; if it is false, LICQ does not hold; if it is true and active constraints depend on controls only, LICQ holds. Refuted: it is true although LICQ fails, because the terminal stage and the coupling by the dynamics are left out; it raises an exception for bounds on states with documented indices and for changing numbers of states. Missing: numerical rank, types of arrays, the setters of HPIPM."
  },
  {
   "property": "C106",
   "status": "partial",
   "theorems": [
    "Acados.IterObj.C106_default_partial",
    "Acados.IterObj.C106_default_false",
    "Acados.IterObj.C106_alias_false",
    "Acados.IterObj.C106_replace",
    "Acados.IterObj.C106_allclose_partial",
    "Acados.IterObj.C106_allclose_size_false",
    "Acados.IterObj.C106_allclose_symm_false",
    "Acados.IterObj.C106_allclose_stages_partial",
    "Acados.IterObj.C106_allclose_stages_false",
    "Acados.IterObj.C106_arith",
    "Acados.IterObj.C106_inf_norm",
    "Acados.IterObj.C106_norm_diff",
    "Acados.IterObj.C106_batch"
   ],
   "note": "Proved for all sizes and values: the default iterate of a problem with intervals; replacing the array of a stage changes this stage only; comparison of iterates of the same sizes; arithmetic, norm; batches. Refuted: without intervals the default iterate has slacks and multipliers of two stages; a change in place of the state at one stage changes all stages and the bounds on the initial state of the problem; iterates of different sizes are reported as close if an array of one entry meets an empty one, or if only the stages differ; the comparison is not symmetric. Missing: NaN, types other than vectors of numbers."
  },
  {
   "property": "C107",
   "status": "partial",
   "theorems": [
    "Acados.SimDesc.C107_accepts",
    "Acados.SimDesc.C107_options",
    "Acados.SimDesc.C107_names",
    "Acados.SimDesc.C107_idempotent_partial",
    "Acados.SimDesc.C107_create_supported",
    "Acados.SimDesc.C107_from_ocp_partial",
    "Acados.SimDesc.C107_from_ocp_file_false",
    "Acados.SimDesc.C107_sens_gnsf_false",
    "Acados.SimDesc.C107_sens_one_false",
    "Acados.SimDesc.C107_warning_false",
    "Acados.SimDesc.C107_name_false",
    "Acados.SimDesc.C107_params_false",
    "Acados.SimDesc.C107_erk_z_false"
   ],
   "note": "Proved for all descriptions and all hash functions: which are accepted, which option values the code has, when there are warnings, names and files; a second call changes nothing if parameter sensitivities are supported; creating a solver with code generation succeeds for supported combinations only; the description built from an optimal control problem. Refuted: parameter sensitivities with GNSF pass through the deprecated option, and a second call raises an exception; a value that a setter accepts is refused later; a warning of two values after setting one; the same name and file for different options of code generation; matrices as parameter values; algebraic variables with ERK; the integrator of an optimal control problem overwrites the file of the problem. Missing: validity of CasADi symbols, structure detection of GNSF, Simulink, ROS."
  },
  {
   "property": "C108",
   "status": "partial",
   "theorems": [
    "Acados.StepNorm.C108_primal",
    "Acados.StepNorm.C108_dual",
    "Acados.StepNorm.C108_delta_dual",
    "Acados.StepNorm.C108_dual_zero",
    "Acados.StepNorm.C108_logged_partial",
    "Acados.StepNorm.C108_qp_failure_false"
   ],
   "note": "Proved for all dimensions, steps and histories: the norms; one value per step taken, each of its own iteration, if no QP fails. Refuted: after a failure of the QP solver the last value is one that was in memory before the call. Missing: NaN, SQP_WITH_FEASIBLE_QP."
  },
  {
   "property": "C109",
   "status": "partial",
   "theorems": [
    "Acados.SensOpts.C109_options",
    "Acados.SensOpts.C109_accepts",
    "Acados.SensOpts.C109_supported_partial",
    "Acados.SensOpts.C109_new_place_false",
    "Acados.SensOpts.C109_both_directions_false",
    "Acados.SensOpts.C109_idempotent",
    "Acados.SensOpts.C109_available",
    "Acados.SensOpts.C109_check_before_false",
    "Acados.SensOpts.C109_check_before_partial",
    "Acados.SensOpts.C109_forward_partial",
    "Acados.SensOpts.C109_adjoint_partial",
    "Acados.SensOpts.C109_value_partial",
    "Acados.SensOpts.C109_forward_exits",
    "Acados.SensOpts.C109_adjoint_exits",
    "Acados.SensOpts.C109_exit_false"
   ],
   "note": "Proved for all descriptions: values of the options from both places, which descriptions are accepted, repeated calls, the check before an evaluation, evaluations of supported descriptions. Refuted: the requirements are not checked for options at their new place; the deprecated option does not always turn on both directions; the check depends on whether the description was made consistent; adjoint sensitivities with a linear least-squares cost, BGP constraints, continuous dynamics and a missing option of the optimal-value gradient end the process instead of raising an exception. Missing: the other checks of make_consistent, several phases."
  },
  {
   "property": "C11",
   "status": "partial",
   "theorems": [
    "Acados.Funnel.C11_penalty_range",
    "Acados.Funnel.C11_penalty_along_solve",
    "Acados.Funnel.C11_unchanged_if_sufficient",
    "Acados.Funnel.C11_predicted_reduction_partial",
    "Acados.Funnel.C11_noise_window_counterexample"
   ],
   "note": "the claimed predicted reduction is false for predicted objective changes in (-1e-4,0); proved up to 1e-4*penalty and exactly outside that window"
  },
  {
   "property": "C12",
   "status": "partial",
   "theorems": [
    "Acados.Funnel.C12_funnel_terminates",
    "Acados.Funnel.C12_funnel_terminates_nan",
    "Acados.Funnel.C12_funnel_failure_leaves_iterate",
    "Acados.Funnel.C12_funnel_nonterminating",
    "Acados.Funnel.C12_bad_options_accepted",
    "Acados.Merit.C12_merit_terminates",
    "Acados.Merit.C12_ddp_terminates",
    "Acados.Merit.C12_ddp_failure_leaves_iterate",
    "Acados.Merit.C12_merit_failure_moves_iterate"
   ],
   "note": "termination for all three line searches and failure-leaves-iterate for funnel and DDP are proved; the latter is false for merit backtracking (counter-theorem), and termination is false outside the stated option range (counter-theorem)"
  },
  {
   "property": "C13",
   "status": "partial",
   "theorems": [
    "Acados.Merit.C13_success_cases_partial",
    "Acados.Merit.C13_success_without_descent",
    "Acados.Merit.C13_no_test_when_alpha_min_large",
    "Acados.Merit.C13_nan_leaves_iterate"
   ],
   "note": "claim is false: an exhausted search is reported as SUCCESS with an untested step (counter-theorem); the partial theorem lists exactly the cases"
  },
  {
   "property": "C14",
   "status": "proved",
   "theorems": [
    "Acados.Merit.C14_weights",
    "Acados.Merit.C14_averaging"
   ],
   "note": "exact arithmetic; inequality multipliers are compared without absolute value as in the code"
  },
  {
   "property": "C15",
   "status": "partial",
   "theorems": [
    "Acados.Sqp.C15_status_meaning",
    "Acados.Sqp.C15_stops_at_first_criterion",
    "Acados.Sqp.C15_closed_list",
    "Acados.Sqp.C15_negative_max_iter_success",
    "Acados.Sqp.C15_stale_nan",
    "Acados.Sqp.C15_stale_unbounded",
    "Acados.Merit.C15_merit_statuses",
    "Acados.Funnel.C15_funnel_statuses"
   ],
   "note": "meaning of every status proved for nonnegative max_iter, for every oracle; full claim is false in three corners (counter-theorems): negative max_iter returns SUCCESS, stale NaN with max_iter=0, stale cost with fixed-step globalization"
  },
  {
   "property": "C16",
   "status": "partial",
   "theorems": [
    "Acados.Sqp.C16_terminates",
    "Acados.Sqp.C16_bounded",
    "Acados.Sqp.C16_raised_max_iter_out_of_bounds"
   ],
   "note": "proved for max_iter not above its value at creation; the reported count is one less than the number of QPs when globalization fails (stated exactly); counter-theorem for max_iter raised later"
  },
  {
   "property": "C17",
   "status": "partial",
   "theorems": [
    "Acados.Sqp.C17_off",
    "Acados.Sqp.C17_stops",
    "Acados.Sqp.C17_max_overall",
    "Acados.Sqp.C17_average_underestimates"
   ],
   "note": "all heuristics proved; the AVERAGE heuristic is not an average of durations (exact formula proved)"
  },
  {
   "property": "C18",
   "status": "partial",
   "theorems": [
    "Acados.Sqp.C18_levels",
    "Acados.Sqp.C18_level_restored",
    "Acados.Sqp.C18_unconfigured_level_overwritten",
    "Acados.WfqpLoop.C18_wfqp_levels",
    "Acados.WfqpLoop.C18_wfqp_restored"
   ],
   "note": "proved for every history once a level is configured (SQP and SQP with feasible QP); counter-theorem for solvers whose default level is 1"
  },
  {
   "property": "C19",
   "status": "partial",
   "theorems": [
    "Acados.Rti.C19_split_equals_combined_partial",
    "Acados.Rti.C19_split_first_call_differs",
    "Acados.Rti.C19_initialisation_request_left_pending",
    "Acados.Rti.C19_feedback_qp",
    "Acados.Rti.C19_advanced_feedback_qp",
    "Acados.Rti.C19_condensed_matrices",
    "Acados.Rti.C19_repeated_feedback_overshoots",
    "Acados.Rti.C19_feedback_status_partial",
    "Acados.Rti.C19_globalization_failure_hidden",
    "Acados.Rti.C19_preparation_returns_old_status",
    "Acados.Rti.C19_advanced_preparation_status",
    "Acados.Rti.C19_levelA_hides_qp_failure",
    "Acados.Rti.C19_failed_preparation_keeps_matrices",
    "Acados.Rti.C19_statistics_in_bounds_iff",
    "Acados.Rti.C19_second_feedback_writes_out_of_bounds",
    "Acados.Rti.C19_statistics_in_bounds_partial",
    "Acados.Rti.C19_levelA_default_iterations_out_of_bounds",
    "Acados.Rti.C19_raised_iterations_out_of_bounds",
    "Acados.Rti.C19_negative_iterations_out_of_bounds",
    "Acados.Rti.C19_levelA_linearisation_point_partial",
    "Acados.Rti.C19_levelA_line_search_overwrites",
    "Acados.Rti.C19_logging_changes_iterates"
   ],
   "note": "Split equals combined is proved for all inputs except the first call with warm_start_first_qp and warm_start_first_qp_from_nlp, where it is false (witness). The QP a feedback call solves, the status of every call and the exact condition for the statistics to stay in bounds are proved. A failed globalization is reported as success (proved), and repeated feedback with default options writes behind the statistics array (proved)."
  },
  {
   "property": "C20",
   "status": "partial",
   "theorems": [
    "Acados.Ddp.C20_trial_simulated",
    "Acados.Ddp.C20_trial_start",
    "Acados.Ddp.C20_trial_feedback",
    "Acados.Ddp.C20_fixed_step_drops_feedback",
    "Acados.Ddp.C20_iterates_simulated",
    "Acados.Ddp.C20_cost_monotone",
    "Acados.Ddp.C20_initial_state",
    "Acados.Ddp.C20_success_at_wrong_initial_state",
    "Acados.Ddp.C20_fixed_step_cost_increases",
    "Acados.Ddp.C20_status",
    "Acados.Ddp.C20_status_misreported",
    "Acados.Ddp.C20_multipliers_always_full",
    "Acados.Ddp.C20_terminates",
    "Acados.Ddp.C20_only_initial_constraints",
    "Acados.Merit.C20_ddp_cost_nonincreasing"
   ],
   "note": "Exact dynamics for every accepted iterate unconditionally. Cost monotone with the Armijo globalization from the first dynamically feasible iterate on; false for fixed-step globalization (witness), which also ignores the feedback gains (theorem). Prescribed initial state only if the guess starts there or violates the dynamics (theorem), otherwise SUCCESS can be returned at a wrong initial state (witness)."
  },
  {
   "property": "C21",
   "status": "partial",
   "theorems": [
    "Acados.Wfqp.C21_relaxed_feasible",
    "Acados.Wfqp.C21_nominal_feasible_partial",
    "Acados.Wfqp.C21_relaxed_objective",
    "Acados.Wfqp.C21_l1_manual",
    "Acados.Wfqp.C21_violation_le_slacks",
    "Acados.Wfqp.C21_small_factor_infeasible",
    "Acados.Wfqp.C21_predicted_reduction"
   ],
   "note": "Relaxed QP always feasible; nominal QP after the bound update admits the relaxed solution for relaxation factors >= 1; for a factor below one (accepted by the setter) the nominal QP can be infeasible."
  },
  {
   "property": "C22",
   "status": "proved",
   "theorems": [
    "Acados.Wfqp.C22_zero_infeasibility_iff",
    "Acados.WfqpLoop.C22_to_byrd_omojokun",
    "Acados.WfqpLoop.C22_to_nominal",
    "Acados.WfqpLoop.C22_no_other_mode",
    "Acados.WfqpLoop.C22_mode_used",
    "Acados.WfqpLoop.C22_qp_matches_mode",
    "Acados.WfqpLoop.C22_step_from_solved_qp",
    "Acados.WfqpLoop.C22_not_consecutive",
    "Acados.WfqpLoop.C22_maxiter_counts_as_failure",
    "Acados.WfqpLoop.C22_zero_slacks_meaning"
   ],
   "note": "For every history of outcomes. The zero-slack iterations need not be consecutive, contrary to the comments in the header (witness)."
  },
  {
   "property": "C23",
   "status": "partial",
   "theorems": [
    "Acados.Wfqp.C23_one_slack_per_constraint_partial",
    "Acados.Wfqp.C23_duplicate_index_overflows",
    "Acados.Wfqp.C23_idxs_rev_overflows"
   ],
   "note": "Proved for every stage whose soft constraints are declared through idxsbu/idxsbx/idxsg/idxsh without repetition. With the idxs_rev formulation, or a repeated index, more values are written to idxns than allocated (negations with exact counts)."
  },
  {
   "property": "C24",
   "status": "partial",
   "theorems": [
    "Acados.QpScal.C24_kkt_partial",
    "Acados.QpScal.C24_objective_partial",
    "Acados.QpScal.C24_minimiser_partial",
    "Acados.QpScal.C24_shared_slack"
   ],
   "note": "equivalence of KKT points, objective values and minimisers proved when no slack is shared by two scaled constraints and the objective factor is finite; false for a shared slack (witness)"
  },
  {
   "property": "C25",
   "status": "partial",
   "theorems": [
    "Acados.QpScal.C25_constraint_factors",
    "Acados.QpScal.C25_objective_factor",
    "Acados.QpScal.C25_zero_objective_infinite",
    "Acados.QpScal.C25_floating_point_agrees",
    "Acados.QpScal.C25_status_false_alarm",
    "Acados.QpScal.C25_gershgorin",
    "Acados.QpScal.C25_scaled_curvature",
    "Acados.QpScal.C25_min_scaling_partial",
    "Acados.QpScal.C25_min_scaling_ignores_terminal"
   ],
   "note": "factor bounds, maximality and curvature limit proved for all data; the reported smallest factor ignores the terminal stage, the warning status can be a false alarm and a zero objective gives an infinite factor (theorems)"
  },
  {
   "property": "C26",
   "status": "proved",
   "theorems": [
    "Acados.Param.C26_within_limits",
    "Acados.Param.C26_positive",
    "Acados.Param.C26_forgets_history",
    "Acados.Param.C26_rejected_growth",
    "Acados.Param.C26_full_step_decay",
    "Acados.Param.C26_recovery",
    "Acados.Param.C26_drop_exceeds_factor",
    "Acados.Param.C26_hessian_term",
    "Acados.Param.C26_option_overwritten"
   ],
   "note": "exact arithmetic; every history; side findings: one full step can undo more than one growth step, the user option levenberg_marquardt is overwritten"
  },
  {
   "property": "C27",
   "status": "proved",
   "theorems": [
    "Acados.Step.C27_entries",
    "Acados.Step.C27_frame",
    "Acados.Step.C27_zero_step",
    "Acados.Step.C27_full_step",
    "Acados.Step.C27_in_place",
    "Acados.Step.C27_affine",
    "Acados.Step.C27_delta_update",
    "Acados.Step.C27_copy",
    "Acados.Step.C27_warm_start_fixpoint",
    "Acados.Step.C27_multipliers_nonneg",
    "Acados.Step.C27_linear_constraints"
   ],
   "note": "exact arithmetic; BLASFEO vector kernels modelled by their documented meaning"
  },
  {
   "property": "C28",
   "status": "partial",
   "theorems": [
    "Acados.Step.C28_restart",
    "Acados.Step.C28_exact_update",
    "Acados.Step.C28_documented_partial",
    "Acados.Step.C28_gamma_optimal",
    "Acados.Step.C28_equal_steps_nan",
    "Acados.Step.C28_damped_wrong"
   ],
   "note": "documented update proved for step length 1; for damped steps the code applies alpha twice (exact formula and witness); NaN weight for two equal steps"
  },
  {
   "property": "C29",
   "status": "partial",
   "theorems": [
    "Acados.Res.C29_norms",
    "Acados.Res.C29_zero_iff",
    "Acados.Res.C29_kkt_partial",
    "Acados.Res.C29_sign_not_checked",
    "Acados.Res.C29_tau_partial",
    "Acados.Res.C29_tau_stale_norm",
    "Acados.Res.C29_tau_wrong_row",
    "Acados.Res.C29_nan_ignored"
   ],
   "note": "exact characterisation for tau_min = 0 with nonnegative multipliers; sign of multipliers is not checked; for tau_min != 0 two defects (stale norms, wrong equality row); NaN inequality values are ignored"
  },
  {
   "property": "C30",
   "status": "partial",
   "theorems": [
    "Acados.Res.C30_exact_value",
    "Acados.Res.C30_no_slacks_partial",
    "Acados.Res.C30_overestimates",
    "Acados.Res.C30_false_with_slacks",
    "Acados.Res.C30_directional_derivative"
   ],
   "note": "true without slacks; with slacks the code adds the squared slack steps (exact formula and witness)"
  },
  {
   "property": "C31",
   "status": "proved",
   "theorems": [
    "Acados.Res.C31_zero_iff_feasible",
    "Acados.Res.C31_convex",
    "Acados.Res.C31_linear_decrease",
    "Acados.Res.C31_multiplier_norms"
   ],
   "note": "exact arithmetic"
  },
  {
   "property": "C32",
   "status": "proved",
   "theorems": [
    "Acados.Reg.C32_fixed_epsilon",
    "Acados.Reg.C32_adaptive",
    "Acados.Reg.C32_eigenvectors",
    "Acados.Reg.exact_eig_exists"
   ],
   "note": "exact arithmetic; the eigenvalue routine is a parameter assumed exact (exact_eig_exists shows the assumption can be met for all blocks at once)"
  },
  {
   "property": "C33",
   "status": "proved",
   "theorems": [
    "Acados.Reg.C33_glm"
   ],
   "note": "exact arithmetic"
  },
  {
   "property": "C34",
   "status": "partial",
   "theorems": [
    "Acados.Conv.C34_objective",
    "Acados.Conv.C34_backup_is_input",
    "Acados.Conv.C34_same_order",
    "Acados.Conv.C34_convex_partial",
    "Acados.Conv.C34_stale_triangle",
    "Acados.Conv.C34_growing_state_dimension",
    "Acados.Conv.exact_ext_exists"
   ],
   "note": "objective part proved for non-increasing state dimension (false otherwise, witness); convexity proved for at most one control per stage and false for two (witness: the eigenvalue test reads the triangle that was not updated)"
  },
  {
   "property": "C35",
   "status": "proved",
   "theorems": [
    "Acados.Math.C35_solves",
    "Acados.Math.C35_singular",
    "Acados.Math.C35_success_iff_nonsingular",
    "Acados.Math.C35_stale_info"
   ],
   "note": "exact arithmetic, every size; success is reported exactly for nonzero determinants; info must be 0 on entry"
  },
  {
   "property": "C36",
   "status": "proved",
   "theorems": [
    "Acados.Math.C36_neville"
   ],
   "note": "exact arithmetic, every number of points"
  },
  {
   "property": "C37",
   "status": "partial",
   "theorems": [
    "Acados.Math.C37_order",
    "Acados.Math.C37_expm_partial",
    "Acados.Math.C37_degree13_actual",
    "Acados.Math.C37_expm_wrong",
    "Acados.Math.C37_scaling_partial",
    "Acados.Math.frexp_exists"
   ],
   "note": "proved for one-norms up to 2.0978 (degrees 3 to 9, including nonsingularity); the degree 13 branch uses a wrong coefficient: false for larger norms (exact polynomial and witness with 12 percent error)"
  },
  {
   "property": "C38",
   "status": "proved",
   "theorems": [
    "Acados.Erk.C38_state",
    "Acados.Erk.C38_sensitivities",
    "Acados.Erk.C38_identity_seed"
   ],
   "note": "array-level model of the forward and adjoint sweeps; exact arithmetic; the generated model functions are parameters assumed to return the derivatives of the right-hand side; the Hessian option is not covered"
  },
  {
   "property": "C39",
   "status": "proved",
   "theorems": [
    "Acados.Butcher.C39_lu_system_solve",
    "Acados.Butcher.C39_collocation",
    "Acados.Butcher.C39_row_sums",
    "Acados.Butcher.C39_stiffly_accurate",
    "Acados.Butcher.C39_radau_nodes",
    "Acados.Butcher.C39_radau_quadrature",
    "Acados.Butcher.C39_gauss_slope",
    "Acados.Butcher.C39_gauss_quadrature",
    "Acados.Butcher.C39_explicit",
    "Acados.Butcher.C39_explicit_linear"
   ],
   "note": "exact arithmetic; explicit order conditions for orders 1 to 4 (all rooted trees); Radau literals shown near-exact to degree 2ns-2; Gauss nodes exact to degree 2ns-1 once the node iteration has converged (convergence itself not proved: its slope is (ns+1)/ns times the derivative)"
  },
  {
   "property": "C40",
   "status": "partial",
   "theorems": [
    "Acados.Casadi.C40_denotes_unique",
    "Acados.Casadi.C40_nnz",
    "Acados.Casadi.C40_to_colmaj",
    "Acados.Casadi.C40_to_dmat",
    "Acados.Casadi.C40_to_dvec_partial",
    "Acados.Casadi.C40_dvec_no_columns_overrun",
    "Acados.Casadi.C40_to_colmaj_args_partial",
    "Acados.Casadi.C40_colmaj_args_dense_wrong",
    "Acados.Casadi.C40_from_colmaj",
    "Acados.Casadi.C40_from_dmat",
    "Acados.Casadi.C40_roundtrip_colmaj",
    "Acados.Casadi.C40_roundtrip_dmat",
    "Acados.Casadi.C40_roundtrip_dvec"
   ],
   "note": "every valid pattern and every argument type; false for dense non-square column-major arguments with a leading dimension (witness) and a vector argument without columns is read past its end (theorem)"
  },
  {
   "property": "C41",
   "status": "partial",
   "theorems": [
    "Acados.Params.C41_history_partial",
    "Acados.Params.C41_exit_iff",
    "Acados.Params.C41_update_params",
    "Acados.Params.C41_generic_unset_not_refused",
    "Acados.Params.C41_sparse_index_unchecked",
    "Acados.Params.C41_own_set",
    "Acados.Params.C41_own_set_sparse",
    "Acados.Params.C41_own_casadi",
    "Acados.Params.C41_own_casadi_sparse"
   ],
   "note": "every history of full, sparse and flat updates; generic functions without parameter memory are not refused and sparse indices are not checked (theorems)"
  },
  {
   "property": "C42",
   "status": "proved",
   "theorems": [
    "Acados.Cost.C42_ls_history",
    "Acados.Cost.C42_ls_hessian_psd",
    "Acados.Cost.C42_cost_eval_stale_weight"
   ],
   "note": "every sequence of writes and solver calls; exact arithmetic; Cholesky and sqrt are parameters assumed exact for the last weight; negative result: evaluating the cost after writing W without a new initialize uses the old factor"
  },
  {
   "property": "C43",
   "status": "partial",
   "theorems": [
    "Acados.Cost.C43_ls_gradient",
    "Acados.Cost.C43_nls_gradient",
    "Acados.Cost.C43_nls_linesearch_value",
    "Acados.Cost.C43_conl_gradient",
    "Acados.Cost.C43_ext_gradient",
    "Acados.Cost.C43_nls_integrator_partial",
    "Acados.Cost.C43_nls_integrator_slack_inconsistent"
   ],
   "note": "all four cost modules, with algebraic variables; generated functions assumed to return the derivatives of their value; false for cost integrated in the integrator with slacks and scaling != 1 (witness); line-search value of linear least squares is part of C42_ls_history"
  },
  {
   "property": "C44",
   "status": "partial",
   "theorems": [
    "Acados.Dims.C44_derived_partial",
    "Acados.Dims.C44_order_irrelevant_partial",
    "Acados.Dims.C44_ni_exact",
    "Acados.Dims.C44_ni_partial",
    "Acados.Dims.C44_ni_stale",
    "Acados.Dims.C44_exit_iff",
    "Acados.Dims.C44_slack_test"
   ],
   "note": "all derived dimensions, for every sequence of calls; the reported number of inequality constraints is stale when the number of slacks is written after the constraint dimensions (exact value and witness)"
  },
  {
   "property": "C45",
   "status": "proved",
   "theorems": [
    "Acados.Sqp.C45_statistics_layout"
   ],
   "note": "for every number of iterations, rows, columns"
  },
  {
   "property": "C46",
   "status": "proved",
   "theorems": [
    "Acados.Flat.C46_total",
    "Acados.Flat.C46_get_all",
    "Acados.Flat.C46_set_all",
    "Acados.Flat.C46_roundtrip",
    "Acados.Flat.C46_set_all_stagewise",
    "Acados.Flat.C46_get_stage",
    "Acados.Params.C41_history_partial"
   ],
   "note": "all fields; parameters are the setFlat/getFlat requests of C41; multipliers are multiplied by the mask on writing"
  },
  {
   "property": "C47",
   "status": "partial",
   "theorems": [
    "Acados.SparseQp.Osqp.C47_matrices_valid",
    "Acados.SparseQp.Osqp.C47_fits",
    "Acados.SparseQp.Osqp.C47_feasible",
    "Acados.SparseQp.Osqp.C47_kkt_partial",
    "Acados.SparseQp.Osqp.C47_kkt_exact_partial",
    "Acados.SparseQp.Osqp.C47_history",
    "Acados.SparseQp.Osqp.C47_mask_ignored",
    "Acados.SparseQp.Osqp.C47_status",
    "Acados.SparseQp.Osqp.C47_overflow",
    "Acados.SparseQp.Osqp.C47_one_sided_wrong",
    "Acados.SparseQp.Osqp.C47_duplicate_bound_lost"
   ],
   "note": "Sorted well-formed CSC matrices that fit the allocated arrays, and equivalence of the optimality conditions (multipliers included) with the stage-wise QP, for all horizons, dimensions, data and call histories, when every stage has at most as many softened rows as slacks, no variable has two bounds and no side of a constraint is switched off. Proved to fail otherwise: shared slacks overflow the arrays, one-sided constraints are enforced on both sides, the second bound on a variable is dropped. OSQP itself is trusted."
  },
  {
   "property": "C48",
   "status": "partial",
   "theorems": [
    "Acados.DenseQp.C48_objective",
    "Acados.DenseQp.C48_stacked_feasible_partial",
    "Acados.DenseQp.C48_same_minimum_partial",
    "Acados.DenseQp.C48_solution_partial",
    "Acados.DenseQp.C48_qpoases_kkt_partial",
    "Acados.DenseQp.C48_kkt_optimal",
    "Acados.DenseQp.C48_hard_bound_counterexample",
    "Acados.DenseQp.C48_negative_slack_counterexample",
    "Acados.DenseQp.C48_slack_cap_counterexample",
    "Acados.DenseQp.C48_slack_order_counterexample",
    "Acados.DenseQp.C48_qpoases_ignores",
    "Acados.DenseQp.C48_mask_counterexample",
    "Acados.DenseQp.C48_equality_counterexample"
   ],
   "note": "Stacking of slacks and the qpOASES interface, for all dimensions and data: same objective, same feasible set and minimum, and every solution of qpOASES is returned as a point satisfying the optimality conditions of the original QP, provided hard bounds are listed by variable, soft bounds in the order of their slacks, slack lower bounds are zero, no equality constraints and no masks. Each of these conditions is necessary (witnesses); the first three are defects of the code. qpOASES itself is trusted."
  },
  {
   "property": "C49",
   "status": "partial",
   "theorems": [
    "Acados.Pcond.C49_default_sum",
    "Acados.Pcond.C49_default_even",
    "Acados.Pcond.C49_default_used",
    "Acados.Pcond.C49_user_blocks_checked",
    "Acados.Pcond.C49_refused_iff",
    "Acados.Pcond.C49_user_blocks_used_partial",
    "Acados.Pcond.C49_order_counterexample",
    "Acados.Pcond.C49_negative_block_counterexample",
    "Acados.Pcond.C49_in_bounds_partial",
    "Acados.Pcond.C49_long_condensed_horizon_overflows",
    "Acados.Pcond.C49_change_detected",
    "Acados.Pcond.C49_change_undetected"
   ],
   "note": "Default sizes (the algorithm is HPIPM, restated) cover the horizon evenly; user sizes are used and refused exactly when they do not sum to N, for every history in which N is set first. Not refused: negative sizes, a condensed horizon longer than the horizon (writes behind the arrays, theorem), and a change after creation followed by an update (witnesses)."
  },
  {
   "property": "C50",
   "status": "partial",
   "theorems": [
    "Acados.Soc.C50_dynamics_exact",
    "Acados.Soc.C50_dynamics_partial",
    "Acados.Soc.C50_general_exact",
    "Acados.Soc.C50_general_partial",
    "Acados.Soc.C50_bounds_exact",
    "Acados.Soc.C50_affine_partial",
    "Acados.Soc.C50_status",
    "Acados.Soc.C50_dynamics_wrong_sign",
    "Acados.Soc.C50_soft_affine_changed"
   ],
   "note": "right for hard inequality constraints and for affine problems without soft constraints; the dynamics part has the wrong sign of the function value and slack steps enter with the wrong sign (exact formulas and witnesses)"
  },
  {
   "property": "C51",
   "status": "proved",
   "theorems": [
    "Acados.Param.C51_joint_value",
    "Acados.Param.C51_joint_limits",
    "Acados.Param.C51_joint_monotone",
    "Acados.Param.C51_joint_floor",
    "Acados.Param.C51_joint_not_nan",
    "Acados.Param.C51_scaling_limits"
   ],
   "note": "exact arithmetic, plus NaN residuals"
  },
  {
   "property": "C52",
   "status": "partial",
   "theorems": [
    "Acados.Merit.C52_slope_partial",
    "Acados.Merit.C52_slope_upper_only",
    "Acados.Merit.C52_lower_bound_wrong_sign"
   ],
   "note": "claim is false for violated lower constraints (wrong sign); exact error term proved"
  },
  {
   "property": "C53",
   "status": "proved",
   "theorems": [
    "Acados.Sqp.C53_stored_iterates"
   ],
   "note": "for every run; max_iter nonnegative"
  },
  {
   "property": "C54",
   "status": "partial",
   "theorems": [
    "Acados.Step.C54_update_schedule_independent",
    "Acados.Step.C54_add_partial",
    "Acados.Step.C54_shared_length_race"
   ],
   "note": "proved for the variable update loop; ocp_qp_out_add shares a loop-length variable between threads: independent of the schedule only if all stages have the same size (race witness)"
  },
  {
   "property": "C55",
   "status": "partial",
   "theorems": [
    "Acados.Conv.C55_stationarity",
    "Acados.Conv.C55_kkt_partial",
    "Acados.Conv.C55_split_restores_stale_gradient"
   ],
   "note": "proved for the full regularisation when no stage is projected and the initial state does not move; exact residual otherwise; in the RTI split the multipliers are recovered from a stale gradient (theorem)"
  },
  {
   "property": "C56",
   "status": "partial",
   "theorems": [
    "Acados.Cost.C56_ext_hessian_partial",
    "Acados.Cost.C56_ext_hessian_no_z_partial",
    "Acados.Cost.C56_ext_hessian_cross_term_wrong",
    "Acados.Cost.C56_ext_hessian_reads_outside"
   ],
   "note": "true without algebraic variables; false with them: the mixed block enters transposed and, for fewer algebraic variables than controls and states, memory outside it is read (witnesses)"
  },
  {
   "property": "C57",
   "status": "partial",
   "theorems": [
    "Acados.Flat.C57_reset_zero",
    "Acados.Flat.C57_reset_frame_iff",
    "Acados.Flat.C57_reset_overrun"
   ],
   "note": "all numbers become zero; the write stays inside the iterate exactly when the first stage has no more inputs than there is room for inequality multipliers, false otherwise (theorem)"
  },
  {
   "property": "C58",
   "status": "partial",
   "theorems": [
    "Acados.SparseQp.Clarabel.C58_matrices_valid",
    "Acados.SparseQp.Clarabel.C58_fits",
    "Acados.SparseQp.Clarabel.C58_feasible",
    "Acados.SparseQp.Clarabel.C58_kkt_partial",
    "Acados.SparseQp.Clarabel.C58_history",
    "Acados.SparseQp.Clarabel.C58_hessian_flips",
    "Acados.SparseQp.Clarabel.C58_inside",
    "Acados.SparseQp.Clarabel.C58_mask_ignored",
    "Acados.SparseQp.Clarabel.C58_status",
    "Acados.SparseQp.Clarabel.C58_hessian_corrupted",
    "Acados.SparseQp.Clarabel.C58_one_sided_wrong",
    "Acados.SparseQp.Clarabel.C58_unsorted"
   ],
   "note": "equivalence of optimality conditions for QPs without one-sided constraints and with at least as many inequality rows as states; otherwise the Hessian sign of leading entries is flipped (exact formula and witness) and masks are ignored (witness); solver itself trusted"
  },
  {
   "property": "C59",
   "status": "partial",
   "theorems": [
    "Acados.WfqpLoop.C59_status_meaning",
    "Acados.WfqpLoop.C59_tables_and_iterations",
    "Acados.WfqpLoop.C59_terminates",
    "Acados.WfqpLoop.C59_negative_max_iter_ready",
    "Acados.WfqpLoop.C59_feasibility_mode_ready",
    "Acados.WfqpLoop.C59_raised_max_iter_out_of_bounds"
   ],
   "note": "Proved for nonnegative max_iter not larger than at creation. READY is returned for a negative max_iter and for the mode FEASIBILITY_QP; raising max_iter after creation writes outside the statistics table (witnesses)."
  },
  {
   "property": "C60",
   "status": "partial",
   "theorems": [
    "Acados.WfqpLoop.C60_regularised_once",
    "Acados.WfqpLoop.C60_relaxed_never_regularised",
    "Acados.WfqpLoop.C60_pointer",
    "Acados.WfqpLoop.C60_constraint_hessian_twice"
   ],
   "note": "Exactly once with the identity Hessian in the relaxed QP. With the constraint Hessian the relaxed QP is never regularised (theorem) and the nominal one twice (witness)."
  },
  {
   "property": "C61",
   "status": "partial",
   "theorems": [
    "Acados.QpCall.C61_cold_data",
    "Acados.QpCall.C61_qpoases_status",
    "Acados.QpCall.C61_hot_box_always_success",
    "Acados.QpCall.C61_hot_box_infeasible_is_success",
    "Acados.QpCall.C61_hot_data",
    "Acados.QpCall.C61_hot_stale_hessian",
    "Acados.QpCall.C61_hpipm_status",
    "Acados.QpCall.C61_daqp_success",
    "Acados.QpCall.C61_daqp_crossed_bounds_unknown"
   ],
   "note": "Proved for HPIPM, DAQP and for qpOASES without hot start, for all histories and answers. With hot start qpOASES keeps the matrices of the first call (theorem), and for problems with bounds only its report is dropped and SUCCESS always returned (theorem and witness)."
  },
  {
   "property": "C62",
   "status": "partial",
   "theorems": [
    "Acados.QpCall.C62_qpoases_last_write",
    "Acados.QpCall.C62_qpoases_tolerance"
   ],
   "note": "Iteration limit and warm start level follow the last write. The tolerance does not: it is the minimum of everything ever written and the default 1e-4 (theorem)."
  },
  {
   "property": "C63",
   "status": "partial",
   "theorems": [
    "Acados.Gnsf.C63_residual",
    "Acados.Gnsf.C63_step_partial",
    "Acados.Gnsf.C63_step_ode",
    "Acados.Gnsf.C63_run_partial",
    "Acados.Gnsf.C63_newton_fixed",
    "Acados.Gnsf.C63_newton",
    "Acados.Gnsf.C63_newton_reuse",
    "Acados.Gnsf.C63_newton_affine",
    "Acados.Gnsf.C63_permutation_false",
    "Acados.Gnsf.C63_stale_false"
   ],
   "note": "For all models, tableaus and numbers of steps, with exact LU factorisations. Without algebraic variables in the nonlinear part no further condition is needed (C63_step_ode). With them, the row permutation of the Schur complement must be trivial (it is applied to the wrong matrix, witness) and the workspace zero outside the diagonal blocks of LLZ (witness)."
  },
  {
   "property": "C64",
   "status": "partial",
   "theorems": [
    "Acados.Gnsf.C64_sens_step_partial",
    "Acados.Gnsf.C64_run_partial",
    "Acados.Gnsf.C64_second_precompute_false"
   ],
   "note": "Under the conditions of C63 and for one precompute after creation; a second precompute doubles the stored control sensitivity of the linear output states (witness). The phi Jacobians are parameters: the theorem says the code uses them as the linearised equations demand."
  },
  {
   "property": "C65",
   "status": "partial",
   "theorems": [
    "Acados.Gnsf.C65_adj_step_partial",
    "Acados.Gnsf.C65_adj_run_partial",
    "Acados.Gnsf.C65_stale_false"
   ],
   "note": "For all models, trajectories, seeds and numbers of steps. With trivial f_LO the workspace block dK2_dvv must be zero; it is never written (witness)."
  },
  {
   "property": "C66",
   "status": "partial",
   "theorems": [
    "Acados.Gnsf.C66_linear_state_partial",
    "Acados.Gnsf.C66_linear_forw",
    "Acados.Gnsf.C66_linear_adj_partial",
    "Acados.Gnsf.C66_constant_false",
    "Acados.Gnsf.C66_no_sens_false",
    "Acados.Gnsf.C66_seed_false",
    "Acados.Gnsf.C66_adj_seed_false"
   ],
   "note": "State for models without constant term, forward sensitivities for the identity seed, adjoint for seeds without control part. Witnesses: constant term dropped, wrong when sens_forw is off during precompute, non-identity seed reads a stale block, control part of the adjoint seed dropped. Algebraic outputs of the shortcut are not modelled."
  },
  {
   "property": "C67",
   "status": "partial",
   "theorems": [
    "Acados.Irk.C67_newton",
    "Acados.Irk.C67_run",
    "Acados.Irk.C67_init",
    "Acados.Irk.C67_solved_stays",
    "Acados.Irk.C67_affine",
    "Acados.Irk.C67_affine_run",
    "Acados.Irk.C67_unconverged_false"
   ],
   "note": "For all models, tableaus and numbers of steps; corrections computed at singular linearisation points are left unspecified. For affine models the stage equations are solved exactly. In general success does not imply it: the integrator never checks convergence (witness)."
  },
  {
   "property": "C68",
   "status": "proved",
   "theorems": [
    "Acados.Irk.C68_forward",
    "Acados.Irk.C68_param",
    "Acados.Irk.C68_unique"
   ],
   "note": "For every list of steps at which the linearised stage equations are uniquely solvable; identity_seed only with the seed [I, 0]."
  },
  {
   "property": "C69",
   "status": "proved",
   "theorems": [
    "Acados.Irk.C69_adjoint"
   ],
   "note": "Control part of the seed included."
  },
  {
   "property": "C70",
   "status": "proved",
   "theorems": [
    "Acados.Irk.C70_hessian",
    "Acados.Irk.C70_symmetric"
   ],
   "note": "The generated Hessian function is a parameter: the symmetric combination of second derivatives with the multipliers."
  },
  {
   "property": "C71",
   "status": "partial",
   "theorems": [
    "Acados.Irk.C71_neville",
    "Acados.Irk.C71_interp_unique",
    "Acados.Irk.C71_z",
    "Acados.Irk.C71_sens",
    "Acados.Irk.C71_exact_affine_partial",
    "Acados.Irk.C71_exact_sens",
    "Acados.Irk.C71_exact_false",
    "Acados.Irk.C71_exact_reuse_false"
   ],
   "note": "Interpolated outputs and sensitivities are proved; exact_z_output is proved for affine models and refuted in general."
  },
  {
   "property": "C72",
   "status": "partial",
   "theorems": [
    "Acados.Irk.C72_unique",
    "Acados.Irk.C72_nls_value_partial",
    "Acados.Irk.C72_nls_gradient_partial",
    "Acados.Irk.C72_nls_hessian",
    "Acados.Irk.C72_nls_value_only",
    "Acados.Irk.C72_conl_value",
    "Acados.Irk.C72_conl_value_only",
    "Acados.Irk.C72_conl_gradient",
    "Acados.Irk.C72_conl_hessian",
    "Acados.Irk.C72_full_weight_false"
   ],
   "note": "Refuted for least squares with a non-diagonal weight (value and gradient); everything else proved."
  },
  {
   "property": "C73",
   "status": "partial",
   "theorems": [
    "Acados.Hess.C73_no_stale",
    "Acados.Hess.C73_block_partial",
    "Acados.Hess.C73_constraint_part",
    "Acados.Hess.C73_user_hessian",
    "Acados.Hess.C73_generated_code",
    "Acados.Hess.C73_toggle_loses_dynamics",
    "Acados.Hess.C73_lagrangian",
    "Acados.Hess.C73_constraint_mixed_terms_missing",
    "Acados.Hess.C73_fixed_partial",
    "Acados.Hess.C73_fixed_loses_cost",
    "Acados.Hess.C73_fixed_accumulates_counterexample",
    "Acados.Hess.C73_convex_constraint_psd",
    "Acados.Hess.C73_convex_constraint_affine",
    "Acados.Hess.C73_convex_constraint_lower",
    "Acados.Hess.C73_feasible_qp",
    "Acados.Hess.C73_levenberg_marquardt"
   ],
   "note": "Proved for the option sequence of the generated code and all sequences that switch exact_hess_dyn on only while it is on. Refuted: switching exact_hess_dyn off and on again, constraints with algebraic variables (mixed terms missing), fixed_hess with exact dynamics, fixed_hess with constraints phi(r) (their term is added again in every linearisation), Levenberg-Marquardt for the relaxed QP. Constraints phi(r): generalised Gauss-Newton term with the multipliers of the upper bounds, positive semidefinite for convex phi, exact for affine r; lower bounds do not enter."
  },
  {
   "property": "C74",
   "status": "partial",
   "theorems": [
    "Acados.Dyn.C74_cont_linearisation_partial",
    "Acados.Dyn.C74_cont_fun",
    "Acados.Dyn.C74_cont_fun_adj_partial",
    "Acados.Dyn.C74_guess_once",
    "Acados.Dyn.C74_failure_ignored",
    "Acados.Dyn.C74_trial_z_false",
    "Acados.Dyn.C74_seed_false",
    "Acados.Dyn.C74_disc_linearisation",
    "Acados.Dyn.C74_disc_evaluations"
   ],
   "note": "Discrete module: proved for all dimensions. Continuous module: for equal state dimensions of both stages (otherwise the seed is wrong, witness). Refuted: trial points use the algebraic variables of the linearisation point; integrator failures are ignored."
  },
  {
   "property": "C75",
   "status": "partial",
   "theorems": [
    "Acados.Daqp.C75_kkt_partial",
    "Acados.Daqp.C75_history_partial",
    "Acados.Daqp.C75_optimal",
    "Acados.Daqp.C75_global_partial",
    "Acados.Daqp.C75_short_row_false",
    "Acados.Daqp.C75_empty_equality_false",
    "Acados.Daqp.C75_penalty_false",
    "Acados.Daqp.C75_slack_mask_false",
    "Acados.Daqp.C75_empty_soft_false",
    "Acados.Daqp.C75_shared_slack_false",
    "Acados.Daqp.C75_hot_stale_false",
    "Acados.Daqp.C75_failed_update_false"
   ],
   "note": "For all dimensions and data: the returned point satisfies the optimality conditions and is a global minimum, after any history of calls with the same matrices in which only hot-started calls failed. Conditions: no constraint row shorter than the tolerance in the metric of the Hessian, slack penalties not decreasing at the slack bound, slack bounds not masked, one constraint per slack; each is necessary (witnesses). DAQP and the Cholesky factorisation are trusted; quadratic penalties below 1e-8 are raised."
  },
  {
   "property": "C76",
   "status": "partial",
   "theorems": [
    "Acados.PSens.C76_adjoint",
    "Acados.PSens.C76_adjoint_runs",
    "Acados.PSens.C76_forward_partial",
    "Acados.PSens.C76_forward_adjoint_partial",
    "Acados.PSens.C76_initial_state_partial",
    "Acados.PSens.C76_lagr_grad_partial",
    "Acados.PSens.C76_setup_options_partial",
    "Acados.PSens.C76_forward_false",
    "Acados.PSens.C76_initial_state_false",
    "Acados.PSens.C76_initial_state_index_false",
    "Acados.PSens.C76_lagr_grad_false",
    "Acados.PSens.C76_setup_options_false"
   ],
   "note": "Adjoint gradient: proved for all problems. Forward: proved for constraints without mixed derivatives in variables and parameters; refuted otherwise (wrong sign). Initial state: proved if the upper side of the bound has no multiplier; refuted with both sides active, and when not every state is bounded. Value gradient: proved without parameters in the terminal constraint; refuted with. Options: update_fact_exit stays set."
  },
  {
   "property": "C77",
   "status": "partial",
   "theorems": [
    "Acados.LiftedIrk.C77_newton",
    "Acados.LiftedIrk.C77_converged",
    "Acados.LiftedIrk.C77_repeat",
    "Acados.LiftedIrk.C77_affine",
    "Acados.LiftedIrk.C77_affine_history",
    "Acados.LiftedIrk.C77_prediction",
    "Acados.LiftedIrk.C77_prediction_false",
    "Acados.LiftedIrk.C77_reset_partial",
    "Acados.LiftedIrk.C77_reset_false"
   ],
   "note": "Newton iteration, fixed points and affine exactness are proved for every memory content. Refuted: the prediction moves the stage values against their derivative (for affine models it doubles the residual; later steps are not predicted at all); a reset leaves the stored derivative and last inputs in place (witness), it is equivalent to a new integrator only if state and control are unchanged."
  },
  {
   "property": "C78",
   "status": "partial",
   "theorems": [
    "Acados.ReducHess.C78_first_stage",
    "Acados.ReducHess.C78_reduced_hessian_pd",
    "Acados.ReducHess.C78_unchanged",
    "Acados.ReducHess.C78_cost_to_go_partial",
    "Acados.ReducHess.C78_pivoting_false",
    "Acados.ReducHess.C78_small_pivot_false"
   ],
   "note": "Convexity along the dynamics and the no-change statement are proved for all data and options with thr_eig, min_eig > 0 (exact eigenvalue and Cholesky routines as hypotheses, shown satisfiable over the reals). The cost-to-go statement is proved without pivoting and without pivots below min_pivot; it is refuted for the default options (the symmetric exchange of rows and columns acts on wrong entries) and for small pivots (replaced with the opposite sign)."
  },
  {
   "property": "C79",
   "status": "partial",
   "theorems": [
    "Acados.Zoro.C79_propagation_partial",
    "Acados.Zoro.C79_inputs",
    "Acados.Zoro.C79_payload",
    "Acados.Zoro.C79_layout",
    "Acados.Zoro.C79_output",
    "Acados.Zoro.C79_symmetric_partial",
    "Acados.Zoro.C79_psd_partial",
    "Acados.Zoro.C79_backoff_partial",
    "Acados.Zoro.C79_backoff_terminal_partial",
    "Acados.Zoro.C79_robust_partial",
    "Acados.Zoro.C79_accepts",
    "Acados.Zoro.C79_offdiag_false",
    "Acados.Zoro.C79_no_payload_false",
    "Acados.Zoro.C79_null_false",
    "Acados.Zoro.C79_sign_false",
    "Acados.Zoro.C79_bounds_change_false",
    "Acados.Zoro.C79_terminal_g_false",
    "Acados.Zoro.C79_terminal_oob_false"
   ],
   "note": "Recursion, back-offs and robust satisfaction are proved for all histories, modes and gains, under the hypothesis that additional variances are only used with a diagonal W and that a payload is given if diag(W) is an input; both cases are refuted without it. Terminal general linear rows are proved only if the terminal matrix is the beginning of the path matrix (the code uses the path matrix; refuted otherwise). Bounds are tightened from those of stage 1 at creation (refuted for bounds that are changed or vary over the stages). The documented sign A+BK is refuted. Out-of-bounds accesses for more terminal than path rows and for a missing payload with additional variances are refuted as safe. The square root is a parameter."
  },
  {
   "property": "C80",
   "status": "partial",
   "theorems": [
    "Acados.Zoro.C80_gain_optimal_partial",
    "Acados.Zoro.C80_const_optimal",
    "Acados.Zoro.C80_gain_zero",
    "Acados.Zoro.C80_robust_partial",
    "Acados.Zoro.C80_accepts",
    "Acados.Zoro.C80_h_rows_false",
    "Acados.Zoro.C80_terminal_idx_false",
    "Acados.Zoro.C80_terminal_oob_false"
   ],
   "note": "Unique optimality of the gains from every stage and state is proved for all histories, with exact Cholesky solves as hypothesis. In the barrier modes nonlinear rows before the last stage are excluded (the input gradient is packed into row 0; refuted) and terminal bounds must be on the states of the path bounds of the same index (idxbx is used instead of idxbx_e; refuted, with an out-of-bounds read if there is no such path bound). With tightened general linear rows the rendered code does not compile (the loop variable is used outside of the template brackets), so these are excluded. The weights use the back-offs of the previous update."
  },
  {
   "property": "C81",
   "status": "partial",
   "theorems": [
    "Acados.GenSolver.C81_create",
    "Acados.GenSolver.C81_create_steps",
    "Acados.GenSolver.C81_refuses",
    "Acados.GenSolver.C81_no_ub",
    "Acados.GenSolver.C81_reset_partial",
    "Acados.GenSolver.C81_new_steps_partial",
    "Acados.GenSolver.C81_reset_stages_false",
    "Acados.GenSolver.C81_reset_x_false",
    "Acados.GenSolver.C81_scaling_false",
    "Acados.GenSolver.C81_new_steps_stale_false"
   ],
   "note": "Creation is proved for all consistent descriptions. The reset is proved for solvers with the number of stages of the description; with another number every reset with numerical values has undefined behaviour (the cost-scaling buffer has the length of the new horizon and is filled with the numbers of the old one; refuted in general). set_new_time_steps is proved for histories without such resets; after one, the same new steps are silently ignored (refuted). A reset without the x0 flag does not restore the initial guess, and new steps overwrite the cost scaling (refuted). The template rendering itself is trusted: the model is of the rendered program as a function of the description."
  },
  {
   "property": "C82",
   "status": "partial",
   "theorems": [
    "Acados.Batch.C82_schedule",
    "Acados.Batch.C82_set",
    "Acados.Batch.C82_get",
    "Acados.Batch.C82_size",
    "Acados.Batch.C82_roundtrip",
    "Acados.Batch.C82_flat_roundtrip",
    "Acados.Batch.C82_adjoint",
    "Acados.Batch.C82_con_layout",
    "Acados.Batch.C82_family",
    "Acados.Batch.C82_raises",
    "Acados.Batch.C82_status_partial",
    "Acados.Batch.C82_threads_partial",
    "Acados.Batch.C82_con_shape_false",
    "Acados.Batch.C82_slack_sens_false",
    "Acados.Batch.C82_status_false",
    "Acados.Batch.C82_grown_flag_false",
    "Acados.Batch.C82_threads_false",
    "Acados.Batch.C82_solve_threads_false"
   ],
   "note": "The equality with independent solvers is proved for every interleaving and every history. False parts, refuted with witnesses: a batch solve overwrites the status of members outside of the batch with an old entry; solvers created on growth do not keep the global parameters; wrongly shaped constraint matrices of the right total size are accepted; sensitivities of more than one slack raise an exception; a request of one thread uses all threads of the process, and batch and single solves leave the thread setting of the process changed. Trusted: iterations of the OpenMP loop touch only their own capsule in external libraries; the model gives every interleaving of the calls of the iterations, not of machine instructions."
  },
  {
   "property": "C83",
   "status": "partial",
   "theorems": [
    "Acados.Dunes.C83_dims",
    "Acados.Dunes.C83_data",
    "Acados.Dunes.C83_clip",
    "Acados.Dunes.C83_linear",
    "Acados.Dunes.C83_first",
    "Acados.Dunes.C83_primal",
    "Acados.Dunes.C83_solvable",
    "Acados.Dunes.C83_kkt_partial",
    "Acados.Dunes.C83_call",
    "Acados.Dunes.C83_status",
    "Acados.Dunes.C83_first_false",
    "Acados.Dunes.C83_retry_false",
    "Acados.Dunes.C83_lam_ub",
    "Acados.Dunes.C83_lam_false",
    "Acados.Dunes.C83_mask_false",
    "Acados.Dunes.C83_status_false"
   ],
   "note": "Proved: after the first call (and in the first call with clipping) exactly the QP of the caller is handed over, whatever memory and workspace held; minimisers carry over; multipliers carry over for stages without bounds, with bounds on all variables in order, or without inputs. Refuted: in the first call with the default stage solver 1e-8 is added to two entries of the terminal Hessian of the caller (undefined with one state, and added again after a failed set-up); with bounds on some variables of a stage with inputs the multipliers are at wrong places or behind the end of the vector (exact condition in C83_lam_ub); masked bounds are handed over as bounds; a failure while data are handed over leaves the recorded status of the call before. Trusted: qpDUNES reads matrices by rows with variables [x;u], as documented in Spec/Dunes.lean (the submodule is empty)."
  },
  {
   "property": "C84",
   "status": "partial",
   "theorems": [
    "Acados.CostForm.C84_external",
    "Acados.CostForm.C84_external_ok",
    "Acados.CostForm.C84_params",
    "Acados.CostForm.C84_gauss_newton",
    "Acados.CostForm.C84_conl",
    "Acados.CostForm.C84_copy",
    "Acados.CostForm.C84_get_partial",
    "Acados.CostForm.C84_copy_false",
    "Acados.CostForm.C84_get_false",
    "Acados.CostForm.C84_atomic_false"
   ],
   "note": "Proved: both translations and the copy to the initial stage keep the cost at all points, the exact condition under which the translation returns, numbers of parameters and of values stay equal, the Gauss-Newton Hessian and its difference to the exact one. Refuted: get_*_cost_expression does not subtract the reference of a CONVEX_OVER_NONLINEAR cost; copy_path_cost_to_stage_0 leaves out the custom Hessian of the outer function; a translation that raises has already appended the parameters. Broadcasting of scalars by CasADi is not modelled."
  },
  {
   "property": "C85",
   "status": "partial",
   "theorems": [
    "Acados.Penalty.C85_violation",
    "Acados.Penalty.C85_l2",
    "Acados.Penalty.C85_l2_returns",
    "Acados.Penalty.C85_huber_fun",
    "Acados.Penalty.C85_huber_zero",
    "Acados.Penalty.C85_xgn",
    "Acados.Penalty.C85_min_hess",
    "Acados.Penalty.C85_sym_hess",
    "Acados.Penalty.C85_huber_upper",
    "Acados.Penalty.C85_huber_both",
    "Acados.Penalty.C85_huber_outer",
    "Acados.Penalty.C85_feasibility_partial",
    "Acados.Penalty.C85_feasibility_param_partial",
    "Acados.Penalty.C85_huber_weight_false",
    "Acados.Penalty.C85_huber_equal_false",
    "Acados.Penalty.C85_huber_lower_false",
    "Acados.Penalty.C85_l2_atomic_false",
    "Acados.Penalty.C85_outer_false",
    "Acados.Penalty.C85_feasibility_linear_false",
    "Acados.Penalty.C85_t0_false"
   ],
   "note": "Proved: the penalised expression is the distance to the bounds; values after L2 and Huber penalties; exactly which L2 calls return; values, XGN majorisation and lower limits of the Huber functions; the custom Hessian; the feasibility problem without general linear constraints, with and without parametric initial state. Refuted: a two-sided Huber penalty has Hessian 4 times the weight; equal bounds are accepted and cost nothing (division by zero); lower bounds alone and unsupported cost types raise after changing the description; an L2 penalty after an XGN Huber penalty leaves a custom Hessian of wrong size; general linear constraints vanish from the feasibility problem; augment_with_t0_param adds a global parameter value without a global parameter. Vector-valued constraints and floating point arithmetic are not modelled."
  },
  {
   "property": "C86",
   "status": "partial",
   "theorems": [
    "Acados.AutoCost.C86_linear_partial",
    "Acados.AutoCost.C86_checked",
    "Acados.AutoCost.C86_exact",
    "Acados.AutoCost.C86_external",
    "Acados.AutoCost.C86_zero",
    "Acados.AutoCost.C86_terminal",
    "Acados.AutoCost.C86_fallback_false",
    "Acados.AutoCost.C86_order_false"
   ],
   "note": "Proved: with indices in ascending order a detected cost differs from the given one at most by a constant and by a linear function of variables without second derivative; agreement at the test points for every order; equality everywhere and acceptance for weighted squared distances with nonsingular Hessian; zero costs; terminal costs. Refuted: quadratic costs with another constant, with a linear-only variable or with a singular Hessian raise instead of becoming EXTERNAL; x1^2+2*x8^2 raises because CPython lists {1,8} as [8,1]. Missing: the CasADi tests for quadratic expressions are inputs of the model; exact arithmetic."
  },
  {
   "property": "C87",
   "status": "partial",
   "theorems": [
    "Acados.IterFile.C87_get",
    "Acados.IterFile.C87_file_partial",
    "Acados.IterFile.C87_object_partial",
    "Acados.IterFile.C87_restore",
    "Acados.IterFile.C87_json_partial",
    "Acados.IterFile.C87_compatible_partial",
    "Acados.IterFile.C87_json_load",
    "Acados.IterFile.C87_flatten",
    "Acados.IterFile.C87_json_false",
    "Acados.IterFile.C87_size_false",
    "Acados.IterFile.C87_mask_false"
   ],
   "note": "Proved: store and load between solvers of the same size for every key order, iterate objects, restoring, JSON round trip and interchangeability if the terminal stage has a number, injectivity of flatten. Refuted: a terminal stage without numbers is lost, an iterate without numbers cannot be read, a longer iterate raises after stages were overwritten, a shorter one is accepted and leaves later stages, multipliers of constraints masked in the target are not restored. Missing: decimal representation of numbers in JSON; iterates of the integrators and parameters, which the files do not contain."
  },
  {
   "property": "C88",
   "status": "partial",
   "theorems": [
    "Acados.MultiPhase.C88_phase",
    "Acados.MultiPhase.C88_plan",
    "Acados.MultiPhase.C88_dynamics",
    "Acados.MultiPhase.C88_dims",
    "Acados.MultiPhase.C88_objects",
    "Acados.MultiPhase.C88_transition_partial",
    "Acados.MultiPhase.C88_names",
    "Acados.MultiPhase.C88_update",
    "Acados.MultiPhase.C88_params_partial",
    "Acados.MultiPhase.C88_lengths_false",
    "Acados.MultiPhase.C88_transition_false",
    "Acados.MultiPhase.C88_update_false",
    "Acados.MultiPhase.C88_params_false"
   ],
   "note": "Proved for phases of length at least 1: partition of the stages, types, integrators, dimensions, bounds, refusals, names, setting parameters; fitting states and parameter values under provisos. Refuted: lengths below 1 are accepted and write out of bounds, a transition phase of one interval with a wrong next state is accepted, parameters of an earlier phase remain in a later one with sparse values, the terminal stage keeps zeros instead of the values given, the number of values is unchecked at the terminal stage. Missing: numerical data of costs and constraints, external functions, options."
  },
  {
   "property": "C89",
   "status": "partial",
   "theorems": [
    "Acados.ParamManager.C89_init",
    "Acados.ParamManager.C89_set",
    "Acados.ParamManager.C89_history_partial",
    "Acados.ParamManager.C89_horizon",
    "Acados.ParamManager.C89_layout",
    "Acados.ParamManager.C89_flat",
    "Acados.ParamManager.C89_in_place_partial",
    "Acados.ParamManager.C89_growth_false",
    "Acados.ParamManager.C89_layout_false",
    "Acados.ParamManager.C89_in_place_false"
   ],
   "note": "Proved after every history: set and get, refusals, effect of a new horizon on old stages and inner new stages, layout of the vectors for known names and fitting sizes; values are the last ones set if the horizon does not grow after the first set; arrays are separate if the horizon is given at creation. Refuted: growing the horizon resets the old terminal stage and gives the new one the value of the first stage or an old one, unknown names and wrong sizes are accepted and shift the vector, stages share arrays after growth. Missing: CasADi symbols themselves."
  },
  {
   "property": "C90",
   "status": "partial",
   "theorems": [
    "Acados.DetectCon.C90_path_partial",
    "Acados.DetectCon.C90_nonlinear",
    "Acados.DetectCon.C90_terminal_partial",
    "Acados.DetectCon.C90_initial_partial",
    "Acados.DetectCon.C90_path_false",
    "Acados.DetectCon.C90_scope_false"
   ],
   "note": "Proved: the feasible set of path, terminal and initial stage is unchanged if linear constraints have no constant, single coefficients are positive and the problem had no bounds or linear constraints before; nonlinear constraints are kept in order; refusal of controls at the end. Refuted: constants are dropped, negative coefficients exchange the bounds, existing bounds are replaced, constraints found for one of initial and path stages apply to both. Missing: the linearity tests of CasADi are parameters."
  },
  {
   "property": "C91",
   "status": "partial",
   "theorems": [
    "Acados.ControlHorizon.C91_cases",
    "Acados.ControlHorizon.C91_equivalent_partial",
    "Acados.ControlHorizon.C91_integrator",
    "Acados.ControlHorizon.C91_time",
    "Acados.ControlHorizon.C91_remaining_false",
    "Acados.ControlHorizon.C91_grid_false",
    "Acados.ControlHorizon.C91_given_problem_false",
    "Acados.ControlHorizon.C91_first_stage_false"
   ],
   "note": "Proved: cases of the arguments, trajectories and costs correspond in both directions for every number of remaining stages on the grid used (Nc at least 2, or same initial and path data), the augmented equations integrate to the same states, when the horizon is kept. Refuted: other numbers of remaining stages than the default change the horizon (fewer: refused later), zero is taken as the default, a non-uniform grid is replaced, the options of the given problem are changed, for Nc = 1 the data of the initial stage are lost. Missing: linear constraints with matrices, cost scalings other than the time steps."
  },
  {
   "property": "C92",
   "status": "partial",
   "theorems": [
    "Acados.Evaluator.C92_evaluate",
    "Acados.Evaluator.C92_parameters",
    "Acados.Evaluator.C92_default_partial",
    "Acados.Evaluator.C92_default_false",
    "Acados.Evaluator.C92_total_partial",
    "Acados.Evaluator.C92_total_false",
    "Acados.Evaluator.C92_terminal_parameters_false",
    "Acados.Evaluator.C92_cost_state",
    "Acados.Evaluator.C92_cost_state_partial",
    "Acados.Evaluator.C92_cost_state_false"
   ],
   "note": "Proved: evaluation at a stage for all constraints and weights, parameters after an update or as given, cost of a trajectory for at most one parameter and one terminal slack, same parameters at the last two stages, terminal scaling one and an initial stage like the path without slacks; derivative of the cost state without quadratic weights. Refuted: parameters before an update for two or more, given parameters for trajectories, terminal parameters and scaling, two terminal slacks, quadratic weights in the cost state (counted twice). Missing: CasADi expressions are functions."
  },
  {
   "property": "C93",
   "status": "partial",
   "theorems": [
    "Acados.QpSlack.C93_values",
    "Acados.QpSlack.C93_feasible",
    "Acados.QpSlack.C93_dense",
    "Acados.QpSlack.C93_current_partial",
    "Acados.QpSlack.C93_current_false",
    "Acados.QpSlack.C93_norms"
   ],
   "note": "Proved: values of all slacks, equivalence with feasibility, dense version, norms for stages stored one after the other. Slacks belong to the solution if they did when marked as computed; refuted in general for ocp_qp_out_set_to_zero, which keeps the mark (exported, not called inside the repository). Missing: the residuals themselves are computed by HPIPM, whose contiguous storage is a hypothesis."
  },
  {
   "property": "C94",
   "status": "partial",
   "theorems": [
    "Acados.CasadiQp.C94_feasible_partial",
    "Acados.CasadiQp.C94_feasible_false",
    "Acados.CasadiQp.C94_cost",
    "Acados.CasadiQp.C94_get",
    "Acados.CasadiQp.C94_set",
    "Acados.CasadiQp.C94_x0",
    "Acados.CasadiQp.C94_pi",
    "Acados.CasadiQp.C94_lam_partial",
    "Acados.CasadiQp.C94_lam_false",
    "Acados.CasadiQp.C94_lam_length_false",
    "Acados.CasadiQp.C94_round_trip_partial",
    "Acados.CasadiQp.C94_set_lam_false",
    "Acados.CasadiQp.C94_terminal_false",
    "Acados.CasadiQp.C94_flat_false"
   ],
   "note": "Proved without restriction: cost, get and set of primal fields and of pi, initial state. Proved for soft bounds on the variables at their position: feasible set; for all bounds on the variables at their position and bounds of each kind all hard or all soft: multipliers. Refuted otherwise: soft bounds are put on, and multipliers of hard bounds read from, the variable at the position of the bound; hard multipliers are dropped if another bound of the kind is soft. Set multipliers are read back except that those of hard linear constraints are exchanged, those of terminal controls are ignored, and set_flat raises an exception with soft linear constraints (all refuted with witnesses). Missing: CasADi itself, algebraic expressions are functions."
  },
  {
   "property": "C95",
   "status": "partial",
   "theorems": [
    "Acados.QpDump.C95_load_partial",
    "Acados.QpDump.C95_digits_false",
    "Acados.QpDump.C95_nu_false",
    "Acados.QpDump.C95_buffer"
   ],
   "note": "Proved for stages with states, controls at all stages but the last, equalities on bounds of states, and, for the C backend, N and N+1 with equally many digits. Refuted otherwise: with the C backend loading raises an exception for every QP with N = 9, 99, ..., and with both backends for a QP with a stage without controls before the last. Buffer size proved. Missing: parsing of numbers is a function; stages without states."
  },
  {
   "property": "C96",
   "status": "partial",
   "theorems": [
    "Acados.AsRti.C96_levelC_partial",
    "Acados.AsRti.C96_levelC_newton",
    "Acados.AsRti.C96_terminal_false",
    "Acados.AsRti.C96_levelB_partial",
    "Acados.AsRti.C96_levelB_feasible",
    "Acados.AsRti.C96_step_false",
    "Acados.AsRti.C96_log_partial",
    "Acados.AsRti.C96_log_false",
    "Acados.AsRti.C96_advance_partial",
    "Acados.AsRti.C96_advance_false"
   ],
   "note": "Proved: level C for linear constraints, level B for full steps, logging for linear constraints, advancing with all initial states bounded in order. Refuted: nonlinear constraints at the last stage pass the check of level C, whose QP then leaves an optimal point; with step length below one level B stops at points that are not stationary for its model; logging residuals in level B replaces the Jacobian of nonlinear constraints and adds their exact Hessian again; advancing writes the first entries of the next state to whichever initial states are bounded. Missing: regularisation, QP scaling, algebraic variables, levels A and D (phases in C19)."
  },
  {
   "property": "C97",
   "status": "partial",
   "theorems": [
    "Acados.CasadiNlp.C97_feasible_partial",
    "Acados.CasadiNlp.C97_cost",
    "Acados.CasadiNlp.C97_get",
    "Acados.CasadiNlp.C97_set",
    "Acados.CasadiNlp.C97_pi",
    "Acados.CasadiNlp.C97_lam",
    "Acados.CasadiNlp.C97_iterate",
    "Acados.CasadiNlp.C97_flat_partial",
    "Acados.CasadiNlp.C97_flat_false",
    "Acados.CasadiNlp.C97_lh_partial",
    "Acados.CasadiNlp.C97_lh_false",
    "Acados.CasadiNlp.C97_get_lbx",
    "Acados.CasadiNlp.C97_set_lbx",
    "Acados.CasadiNlp.C97_hessian",
    "Acados.CasadiNlp.C97_refused",
    "Acados.CasadiNlp.C97_slack_bound_false",
    "Acados.CasadiNlp.C97_steps_false",
    "Acados.CasadiNlp.C97_phi0_false"
   ],
   "note": "Proved: same feasible set and cost, access by stage, order of multipliers, copying of iterates, refusals, when the exact Hessian can be requested. Refuted: lower bounds of slacks other than zero are ignored; integrator settings of the first interval are used for all; soft convex-over-nonlinear constraints of the initial stage are not refused and become hard; set_flat of multipliers raises whenever there are slacks; bounds of soft constraints are missing from constraints_get. Missing: single shooting, contents of the Hessian, solver statistics."
  },
  {
   "property": "C98",
   "status": "partial",
   "theorems": [
    "Acados.TimeGrid.C98_uniform",
    "Acados.TimeGrid.C98_steps_accepted_iff",
    "Acados.TimeGrid.C98_steps_kept",
    "Acados.TimeGrid.C98_nodes_kept",
    "Acados.TimeGrid.C98_scaling_default",
    "Acados.TimeGrid.C98_scaling_given",
    "Acados.TimeGrid.C98_horizon_partial",
    "Acados.TimeGrid.C98_twice_partial",
    "Acados.TimeGrid.C98_new_N_rejected",
    "Acados.TimeGrid.C98_zero",
    "Acados.TimeGrid.C98_short_counterexample",
    "Acados.TimeGrid.C98_new_tf_counterexample",
    "Acados.TimeGrid.C98_length_counterexample",
    "Acados.TimeGrid.C98_nodes_ignored_counterexample",
    "Acados.TimeGrid.C98_twice_counterexample",
    "Acados.TimeGrid.C98_decreasing_counterexample",
    "Acados.TimeGrid.C98_integrator_settings",
    "Acados.TimeGrid.C98_condensing"
   ],
   "note": "Proved: uniform default grid, given steps and nodes, acceptance of time steps, cost scaling, integrator settings, condensing options, second call. Refuted: a grid shorter than tf is accepted, also when tf is changed after the first call; the number of time steps is not checked when a cost scaling is given; given nodes are ignored beside time steps; nodes not starting at 0 are moved by a second call; decreasing nodes are averaged. Missing: rounding."
  },
  {
   "property": "C99",
   "status": "partial",
   "theorems": [
    "Acados.OcpDims.C99_path_partial",
    "Acados.OcpDims.C99_init_partial",
    "Acados.OcpDims.C99_x0_partial",
    "Acados.OcpDims.C99_term_partial",
    "Acados.OcpDims.C99_soft_path",
    "Acados.OcpDims.C99_soft_init",
    "Acados.OcpDims.C99_soft_term",
    "Acados.OcpDims.C99_rev_path",
    "Acados.OcpDims.C99_rev_init",
    "Acados.OcpDims.C99_rev_term_partial",
    "Acados.OcpDims.C99_two_sided_partial",
    "Acados.OcpDims.C99_accepts",
    "Acados.OcpDims.C99_accepts_rev",
    "Acados.OcpDims.C99_index_counterexample",
    "Acados.OcpDims.C99_columns_counterexample",
    "Acados.OcpDims.C99_phi_counterexample",
    "Acados.OcpDims.C99_mix_counterexample",
    "Acados.OcpDims.C99_infty_counterexample",
    "Acados.OcpDims.C99_penalty_counterexample",
    "Acados.OcpDims.C99_x0_counterexample",
    "Acados.OcpDims.C99_ddp_counterexample",
    "Acados.OcpDims.C99_ddp_partial"
   ],
   "note": "Proved: well-formed descriptions are accepted; accepted ones have matching sizes, indices not too large, numbered slacks with bounds and penalties. Refuted: negative and repeated indices, terminal matrices of the wrong width, missing bounds of convex-over-nonlinear constraints, both formulations of soft constraints in the terminal stage, one-sided initial nonlinear constraints, penalties taken from other constraints, a single state with x0 and no equalities, DDP with initial nonlinear and terminal state constraints are all accepted. Missing: cost dimensions, consistency of the symbolic model."
  }
 ]
}