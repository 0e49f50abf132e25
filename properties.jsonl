{"id": "C01", "title": "Alignment helpers return the least aligned value", "statement": "make_int_multiple_of(num,&size) leaves size at the smallest multiple of num that is >= the old size, and align_char_to(num,&ptr) moves the pointer to the smallest multiple of num that is >= the old pointer, so the padding is always smaller than num; calling either a second time changes nothing.", "quantifier": "every positive alignment and every size / pointer value", "why_tests_cant": "the input space (all addresses and sizes) is unbounded; tests sample a few addresses handed out by one malloc", "anchors": ["acados/utils/mem.c: make_int_multiple_of, align_char_to"]}
{"id": "C02", "title": "A buffer of the calculated size always suffices for the matching assign", "statement": "For every *_calculate_size / *_assign pair of the library, a caller who allocates exactly the number of bytes returned by calculate_size may place the object at any base address (8-byte aligned where the code asks for it): every sub-array handed out lies inside the buffer, sub-arrays do not overlap, and each is aligned as its element type requires.", "quantifier": "every combination of problem dimensions and every base address of the caller's buffer", "why_tests_cant": "dimensions and base addresses are unbounded; an overflow that needs one particular residue of the address or one unusual combination of dimensions is not hit by example problems", "anchors": ["acados/utils/mem.c", "acados/ocp_nlp/ocp_nlp_constraints_bgh.c: ocp_nlp_constraints_bgh_model_calculate_size/_assign", "acados/utils/external_function_generic.c: external_function_casadi_calculate_size/_assign", "acados/sim/sim_common.c", "acados/sim/sim_erk_integrator.c", "acados/ocp_nlp/ocp_nlp_cost_ls.c"]}
{"id": "C03", "title": "Constraint fields read back what was last written and do not disturb each other", "statement": "After any sequence of constraint-field writes (lbx, ubx, lbu, ubu, lg, ug, lh, uh, ls*, us*, idxbx, idxbu, idxs*, C, D ...), reading a field returns the value last written to that field (or its initial value), whatever other fields were written in between.", "quantifier": "every dimension tuple, every finite history of set operations, every field", "why_tests_cant": "histories and dimensions are unbounded; packed offsets overlap only for particular dimension combinations", "anchors": ["acados/ocp_nlp/ocp_nlp_constraints_bgh.c: ocp_nlp_constraints_bgh_model_set, ocp_nlp_constraints_bgh_model_get"]}
{"id": "C04", "title": "Bounds at or beyond +-1e10 are switched off, all others stay on", "statement": "A lower (upper) bound takes part in the problem iff its last written value is > -1e10 (< 1e10); a switched-off bound never contributes to the constraint residual, the infeasibility measure or the stationarity condition, and switching it back on by writing a finite bound restores it.", "quantifier": "every bound value, every history of bound writes, every stage", "why_tests_cant": "a history property over real-valued bounds", "anchors": ["acados/ocp_nlp/ocp_nlp_constraints_bgh.c: ocp_nlp_constraints_bgh_update_mask_lower/_upper, compute_fun", "acados/utils/types.h: ACADOS_INFTY"]}
{"id": "C05", "title": "Inequality function values are nonpositive exactly when the constraints hold", "statement": "The inequality vector produced for a stage is componentwise <= 0 iff every active bound, general and nonlinear constraint (relaxed by its slack when soft) and every active slack bound is satisfied at the current iterate.", "quantifier": "every iterate, every bound vector, every choice of soft constraints and every dimension", "why_tests_cant": "quantifies over all real iterates and all index maps", "anchors": ["acados/ocp_nlp/ocp_nlp_constraints_bgh.c: ocp_nlp_constraints_bgh_compute_fun"]}
{"id": "C06", "title": "The constraint adjoint is the transpose-Jacobian product", "statement": "The adjoint vector a constraint stage reports is minus J(x,u,s)^T lambda for the Jacobian J of the inequality vector of C05 (i.e. plus for lower sides and slacks, minus for upper sides): for multipliers that vanish on switched-off rows its inner product with every direction equals minus the inner product of lambda with the directional derivative, including the slack columns, for both constraint modules.", "quantifier": "every multiplier, every direction, every index map of bounds and slacks", "why_tests_cant": "an algebraic identity over all vectors and index maps", "anchors": ["acados/ocp_nlp/ocp_nlp_constraints_bgh.c: ocp_nlp_constraints_bgh_update_qp_matrices"]}
{"id": "C07", "title": "Soft-constraint selection follows the last write", "statement": "After changing which constraints are soft (idxsbu, idxsbx, idxsg, idxsh) between two solves, exactly the constraints listed last are relaxed by slacks in the next solve.", "quantifier": "every history of selections and solves", "why_tests_cant": "needs a history of at least two different selections on one solver object", "anchors": ["acados/ocp_nlp/ocp_nlp_constraints_bgh.c: ocp_nlp_constraints_bgh_initialize, model_set"]}
{"id": "C08", "title": "Jacobian of nonlinear constraints with algebraic variables lands in its own columns", "statement": "When h depends on algebraic variables, the linearised constraint rows passed to the QP are the total derivative of h for every combination of numbers of general-linear, nonlinear constraints and algebraic variables, and the rows of the general-linear constraints are left untouched.", "quantifier": "every ng, nh, nz, nx, nu and all matrices", "why_tests_cant": "the defect needs ng>0, nh>0 and nz>0 at once; a test grid rarely covers the product", "anchors": ["acados/ocp_nlp/ocp_nlp_constraints_bgh.c: ocp_nlp_constraints_bgh_update_qp_matrices lines 1390-1445"]}
{"id": "C09", "title": "Funnel width stays positive and never grows during a solve", "statement": "With option values that pass validation, the funnel width used by funnel globalization is positive, at least as large as the initial infeasibility bound at start and non-increasing over every sequence of accepted steps of one solve.", "quantifier": "every option set accepted by the setters and every sequence of trial infeasibilities", "why_tests_cant": "sequences of line-search outcomes are unbounded", "anchors": ["acados/ocp_nlp/ocp_nlp_globalization_funnel.c: initialize_funnel_width, update_funnel_penalty_parameter, decrease_funnel"]}
{"id": "C10", "title": "Every accepted funnel iterate is inside the funnel and makes progress", "statement": "Whenever the funnel line search accepts a step, the new infeasibility is within the funnel (unless only the merit function is in use) and either the objective satisfies the Armijo condition with the switching condition, or the infeasibility fell by the sufficient-decrease factor, or the penalty function satisfies its Armijo condition.", "quantifier": "every trial value, option set and penalty state", "why_tests_cant": "decision logic over six real inputs and a mode bit, over all histories of the mode bit", "anchors": ["acados/ocp_nlp/ocp_nlp_globalization_funnel.c: is_trial_iterate_acceptable_to_funnel, backtracking_line_search"]}
{"id": "C100", "title": "The QP solver is called with the options last set, after any history of option calls and solves", "statement": "Whatever options were set by name and however many QPs were solved before, the QP solver is called with the tolerance last set under the name of the QP tolerance or of the NLP tolerance, with the iteration limit last set and with the warm start last set; the first QP of a solve is started cold unless asked otherwise. An adaptive strategy for the tolerances sets exactly the tolerances it prescribes. The tolerances of the NLP solver are changed only by calls for them. A generated solver uses the tolerances of its description.", "quantifier": "all sequences of option calls, starts of solves and QP solves; all values; all QP solvers; all residuals; all option descriptions of a generated solver", "why_tests_cant": "Tests set an option once and solve once; whether a value survives other calls, mode changes, adaptive updates and solves, for each of nine QP solvers with its own setter, depends on the whole history.", "anchors": ["acados/ocp_nlp/ocp_nlp_common.c:ocp_nlp_opts_set", "acados/ocp_nlp/ocp_nlp_common.c:ocp_nlp_opts_initialize_default", "acados/ocp_qp/ocp_qp_xcond_solver.c:ocp_qp_xcond_solver_opts_set_", "acados/ocp_qp/ocp_qp_hpipm.c:ocp_qp_hpipm_opts_set", "acados/ocp_qp/ocp_qp_osqp.c:ocp_qp_osqp_opts_set", "acados/ocp_qp/ocp_qp_clarabel.c:ocp_qp_clarabel_opts_set", "acados/dense_qp/dense_qp_qpoases.c:dense_qp_qpoases_opts_set", "acados/dense_qp/dense_qp_daqp.c:dense_qp_daqp_opts_set", "interfaces/acados_template/acados_template/c_templates_tera/acados_solver.in.c"]}
{"id": "C101", "title": "The stage costs of the generated solver are those of the problem description", "statement": "A problem description is accepted if and only if the costs of its initial, intermediate and terminal stages are well-formed: the weighting matrix is symmetric and positive semidefinite, references, matrices and expressions have matching sizes. The generated solver then sets at each stage every field the cost depends on, with the data of the description for that stage; a missing initial cost is that of the other stages. For a linear least-squares cost the solver evaluates scaling (1/2 |Vx x + Vu u + Vz z - yref|_W^2 + slack penalties) with the data of the description.", "quantifier": "all horizons, dimensions, cost types per stage, matrices, references, slack penalties, scalings; all eigenvalue routines that satisfy the contract; all points; all previous contents of the memory", "why_tests_cant": "Tests generate solvers for a few problems with correct data; acceptance of wrong data, storage order for every size, stages that inherit a cost and descriptions that are checked twice depend on all fields at once.", "anchors": ["interfaces/acados_template/acados_template/acados_ocp.py:_make_consistent_cost_initial", "interfaces/acados_template/acados_template/acados_ocp.py:_make_consistent_cost_path", "interfaces/acados_template/acados_template/acados_ocp.py:_make_consistent_cost_terminal", "interfaces/acados_template/acados_template/utils.py:verify_weighting_matrix", "interfaces/acados_template/acados_template/acados_ocp_cost.py:cost_ext_fun_type_e", "interfaces/acados_template/acados_template/c_templates_tera/acados_solver.in.c", "acados/ocp_nlp/ocp_nlp_cost_ls.c:ocp_nlp_cost_ls_model_set"]}
{"id": "C102", "title": "Setting an option at run time changes that option or raises an exception", "statement": "A call of options_set with the name of an option of the solver and a value of its type and range succeeds: the option holds the value afterwards, an option of the QP solver is passed to it, and no other option changes. An unknown name or a value of the wrong type raises an exception and changes nothing. After any sequence of calls every option holds the value of the last call for it. No sequence of calls with arbitrary names and values brings a member of the option structs out of its type or checked range, and no call ends the process.", "quantifier": "all names, all Python values (integers of any size, real numbers, truth values, others), all SQP-type solvers and globalizations, all sequences of calls that go on after exceptions, all states of the options, all QP solver setters", "why_tests_cant": "Tests set a few options once with sensible values; the lists of names in Python and the branches of six C setters must agree for every option and solver, and the checks use a description that can differ from the options in use.", "anchors": ["interfaces/acados_template/acados_template/acados_ocp_solver.py:options_set", "acados/ocp_nlp/ocp_nlp_sqp.c:ocp_nlp_sqp_opts_set", "acados/ocp_nlp/ocp_nlp_sqp_rti.c:ocp_nlp_sqp_rti_opts_set", "acados/ocp_nlp/ocp_nlp_ddp.c:ocp_nlp_ddp_opts_set", "acados/ocp_nlp/ocp_nlp_common.c:ocp_nlp_opts_set", "acados/ocp_nlp/ocp_nlp_globalization_common.c:ocp_nlp_globalization_opts_set", "acados/ocp_nlp/ocp_nlp_globalization_funnel.c:ocp_nlp_globalization_funnel_opts_set"]}
{"id": "C103", "title": "Arrays handed to the solver from Python arrive as they are", "statement": "A vector or matrix passed to cost_set, constraints_set, set, set_params_sparse, set_new_time_steps, the batch solver or the integrator arrives in C with its elements, vectors in their order and matrices column by column, whatever the strides of the array; arrays whose shape is not that of the field are refused, C reads nothing beyond the data, and a matrix that is set is read back as it was. After set_new_time_steps the solver uses the steps of the array passed.", "quantifier": "all shapes, offsets and strides of arrays, all field dimensions, stages and values of the api argument, all parameter dimensions and index lists, all histories of in-place changes and calls of set_new_time_steps", "why_tests_cant": "Tests pass contiguous arrays of the right shape; views, reversed and strided arrays, other memory orders, empty matrices and arrays that the program changes later behave differently and their number is unbounded.", "anchors": ["interfaces/acados_template/acados_template/acados_ocp_solver.py:cost_set", "interfaces/acados_template/acados_template/acados_ocp_solver.py:constraints_set", "interfaces/acados_template/acados_template/acados_ocp_solver.py:set", "interfaces/acados_template/acados_template/acados_ocp_solver.py:set_params_sparse", "interfaces/acados_template/acados_template/acados_ocp_solver.py:set_new_time_steps", "interfaces/acados_template/acados_template/acados_sim_solver.py:set", "interfaces/acados_template/acados_template/acados_ocp_batch_solver.py:constraints_set", "interfaces/acados_c/ocp_nlp_interface.c:ocp_nlp_cost_dims_get_from_attr", "interfaces/acados_c/ocp_nlp_interface.c:ocp_nlp_in_set_params_sparse"]}
{"id": "C104", "title": "The checks of strict complementarity and of LICQ at a solution say whether these conditions hold", "statement": "For a solution computed with CasADi, get_constraints_indices lists exactly the equalities, the inequalities and the active bounds of a stage and raises an exception exactly if an inequality is violated beyond the tolerance. satisfies_strict_complementarity is true exactly if every active bound has a multiplier of the right sign that is at least the tolerance. If satisfies_LICQ is true, the gradients of all equalities and active bounds of the whole problem are linearly independent.", "quantifier": "all problems with dynamics linking the stages, all horizons, numbers and kinds of constraints, all bounds including infinite ones, all primal and dual solutions, gradients and tolerances", "why_tests_cant": "The functions are documented as not tested; a test checks one solution, while the set of active constraints, their order and the coupling between stages vary with every problem, and linear independence of the whole problem is concluded from checks of single stages.", "anchors": ["interfaces/acados_template/acados_template/acados_casadi_ocp_solver.py:get_constraints_indices", "interfaces/acados_template/acados_template/acados_casadi_ocp_solver.py:satisfies_strict_complementarity", "interfaces/acados_template/acados_template/acados_casadi_ocp_solver.py:satisfies_strict_complementarity_stages", "interfaces/acados_template/acados_template/acados_casadi_ocp_solver.py:satisfies_LICQ", "interfaces/acados_template/acados_template/acados_casadi_ocp_solver.py:satisfies_LICQ_stage_wise"]}
{"id": "C105", "title": "A QP description that is accepted is the QP the solver receives", "statement": "AcadosOcpQp.make_consistent accepts a description exactly if its arrays have the documented shapes; masks and slack indices that are not set have their documented defaults. For an accepted description, AcadosOcpQpSolver reads every entry of every array at its place and nothing outside of the arrays. A solver that does not support masks, slacks or several constraints per slack is not created for a QP that has them; options may be omitted. AcadosOcpQp.check_licq says whether the gradients of the active constraints are linearly independent.", "quantifier": "all horizons, dimensions varying over the stages, arrays of all shapes and values, unset fields, solvers, iterates", "why_tests_cant": "A test passes a few well-formed descriptions; reading outside of an array or a transposed reading depends on shapes that tests do not try, and it has no reliable observable effect.", "anchors": ["interfaces/acados_template/acados_template/acados_ocp_qp.py:make_consistent", "interfaces/acados_template/acados_template/acados_ocp_qp.py:has_idxs_rev_not_idxs", "interfaces/acados_template/acados_template/acados_ocp_qp.py:has_masks", "interfaces/acados_template/acados_template/acados_ocp_qp.py:check_licq", "interfaces/acados_template/acados_template/acados_ocp_qp_solver.py:__init__", "interfaces/acados_template/acados_template/acados_ocp_qp_solver.py:_set_initial_qp_data_in_c"]}
{"id": "C106", "title": "Iterates as Python objects: default, comparison, arithmetic, batches", "statement": "create_default_initial_iterate has the sizes of the problem and is zero, except for the state if an initial state is given; the user can change an entry at one stage without changing other stages or the problem. Two iterates are reported as close exactly if they have the same sizes and all entries are close. Sum, difference and norm of flattened iterates are those of vectors; the norm of a difference is zero exactly if the iterates are equal. An item that is set in a batch of iterates is read back and other items are not changed.", "quantifier": "all horizons, dimensions, iterates of all sizes and values, tolerances, stages and indices (also negative)", "why_tests_cant": "A test compares a few iterates of one problem; shared arrays show only after a change in place, and wrong answers for different sizes only if such iterates are compared.", "anchors": ["interfaces/acados_template/acados_template/acados_ocp.py:create_default_initial_iterate", "interfaces/acados_template/acados_template/acados_ocp_iterate.py:AcadosOcpFlattenedIterate", "interfaces/acados_template/acados_template/acados_ocp_iterate.py:AcadosOcpFlattenedBatchIterate", "interfaces/acados_template/acados_template/acados_ocp_iterate.py:AcadosOcpIterate.allclose"]}
{"id": "C107", "title": "An integrator description that is accepted is supported, and its code has the options the user set", "statement": "AcadosSim.make_consistent accepts a description exactly if the lengths of its symbols and expressions agree, the parameter values fit, and the integrator supports what is asked for. An option that can be set in two places is used wherever it was set; there is a warning exactly if it was set in both. Calling it again changes nothing. Different descriptions have different names and files; AcadosSim.from_ocp has the data of the first interval, with global parameters after the others.", "quantifier": "all lengths of symbols and expressions, integrator types, option values in both places, parameter arrays, names, hash functions, optimal control problems", "why_tests_cant": "The order of checks and of the transfer of deprecated options matters only for combinations that tests do not try; the hash function and names are arbitrary.", "anchors": ["interfaces/acados_template/acados_template/acados_sim.py:make_consistent", "interfaces/acados_template/acados_template/acados_sim.py:from_ocp", "interfaces/acados_template/acados_template/acados_sim.py:_get_id", "interfaces/acados_template/acados_template/acados_model.py:make_consistent", "interfaces/acados_template/acados_template/acados_code_gen_options.py:make_consistent", "interfaces/acados_template/acados_template/acados_sim_solver.py:generate"]}
{"id": "C108", "title": "Logged step norms are the maximum norms of the steps of the iterations", "statement": "With log_primal_step_norm and log_dual_step_norm, after a call of the SQP solver get_stats returns one value per iteration: the largest absolute value of the primal step (slacks included), and the largest absolute change of a multiplier; with Anderson acceleration, of the accelerated step. The dual norm is zero exactly if no multiplier changes.", "quantifier": "all horizons, dimensions, steps, sequences of iterations and their endings, contents of the log before the call", "why_tests_cant": "A test reads the norms of one run that succeeds; whether each value belongs to its iteration for every length and ending of a run needs an argument for all of them.", "anchors": ["acados/ocp_qp/ocp_qp_common.c:ocp_qp_out_compute_primal_nrm_inf", "acados/ocp_qp/ocp_qp_common.c:ocp_qp_out_compute_dual_nrm_inf", "acados/ocp_nlp/ocp_nlp_common.c:ocp_nlp_compute_delta_dual_norm_inf", "acados/ocp_nlp/ocp_nlp_common.c:ocp_nlp_memory_get", "acados/ocp_nlp/ocp_nlp_sqp.c:ocp_nlp_sqp", "acados/ocp_nlp/ocp_nlp_globalization_fixed_step.c:ocp_nlp_globalization_fixed_step_find_acceptable_iterate"]}
{"id": "C109", "title": "Options for parametric sensitivities", "statement": "A description that asks for sensitivities with respect to global parameters is accepted only if it meets the documented requirements (global parameters, supported costs, discrete dynamics, supported constraints, HPIPM), at whichever place the options are set; deprecated options have the same effect as the new ones; making a description consistent twice changes nothing; asking whether sensitivities are available gives the same answer at any time; evaluating a sensitivity either gives a result or raises an exception, it never ends the process.", "quantifier": "every description: horizon, number of parameters, costs, constraints, integrator, QP solver, options at both places", "why_tests_cant": "the combinations of options are unbounded and an evaluation that ends the process cannot be tested together with others", "anchors": ["interfaces/acados_template/acados_template/acados_ocp.py: AcadosOcp.make_consistent, ensure_solution_sensitivities_available", "interfaces/acados_template/acados_template/acados_code_gen_options.py: with_solution_sens_wrt_params", "interfaces/acados_template/acados_template/acados_ocp_solver.py: eval_solution_sensitivity, eval_adjoint_solution_sensitivity, eval_and_get_optimal_value_gradient", "acados/ocp_nlp/ocp_nlp_common.c: ocp_nlp_params_jac_compute, ocp_nlp_common_eval_solution_sens_adj_p, ocp_nlp_common_eval_lagr_grad_p", "acados/ocp_nlp/ocp_nlp_cost_ls.c: ocp_nlp_cost_ls_compute_adj_sol_sens_pdiff"]}
{"id": "C11", "title": "The funnel penalty parameter decreases only as much as needed and keeps the predicted merit reduction positive", "statement": "The penalty parameter stays in [0, previous value]; after each update the predicted reduction of the penalty function is at least a fixed fraction of the predicted infeasibility reduction whenever a nonnegative parameter can achieve it.", "quantifier": "every predicted objective change, infeasibility change and every sequence of updates", "why_tests_cant": "real-valued case analysis with several branches", "anchors": ["acados/ocp_nlp/ocp_nlp_globalization_funnel.c: update_funnel_penalty_parameter"]}
{"id": "C12", "title": "Backtracking line searches terminate after a computable number of trials and leave the iterate untouched on failure", "statement": "For alpha_min>0 and 0<alpha_reduction<1 the backtracking loops end after finitely many trials, every trial step size is a power of alpha_reduction, and when the search fails (MINSTEP) the user's iterate is unchanged; for option values the setters accept but outside that range the loop need not end.", "quantifier": "every option pair the setters accept, every objective behaviour (including NaN)", "why_tests_cant": "termination for every trial oracle", "anchors": ["acados/ocp_nlp/ocp_nlp_globalization_funnel.c: backtracking_line_search", "acados/ocp_nlp/ocp_nlp_globalization_merit_backtracking.c: ocp_nlp_line_search, ocp_nlp_ddp_backtracking_line_search"]}
{"id": "C13", "title": "A merit line-search step that is reported successful satisfies the descent condition", "statement": "If merit-backtracking globalization reports success for an iteration, the step it applied satisfies the (sufficient) descent condition it tests.", "quantifier": "every merit function behaviour and option set", "why_tests_cant": "needs the behaviour after all trials were rejected", "anchors": ["acados/ocp_nlp/ocp_nlp_globalization_merit_backtracking.c: ocp_nlp_line_search, ocp_nlp_globalization_merit_backtracking_find_acceptable_iterate"]}
{"id": "C14", "title": "Merit weights dominate the multipliers and adapt by averaging", "statement": "After every update each merit weight is at least the absolute value of the corresponding multiplier, never negative, and is bounded by the largest multiplier seen so far.", "quantifier": "every sequence of multiplier vectors", "why_tests_cant": "history of unbounded length", "anchors": ["acados/ocp_nlp/ocp_nlp_globalization_merit_backtracking.c: merit_backtracking_initialize_weights, merit_backtracking_update_weights"]}
{"id": "C15", "title": "SQP status codes mean what they say", "statement": "The status returned by the SQP solver is SUCCESS only if all four residuals at the returned iterate are below their tolerances, MAXITER only if the iteration limit was reached, NAN_DETECTED only if a residual is NaN, MINSTEP / UNBOUNDED / TIMEOUT only if the corresponding criterion holds, QP_FAILURE only if a QP solve failed; and with valid options the solver never returns a status outside this list.", "quantifier": "every residual history (including NaN/inf), every option set, every behaviour of QP solver, globalization and clock", "why_tests_cant": "priority order of seven criteria under NaN comparisons, over all runs", "anchors": ["acados/ocp_nlp/ocp_nlp_sqp.c: check_termination, ocp_nlp_sqp", "acados/utils/types.h"]}
{"id": "C16", "title": "SQP performs at most max_iter QP solves and never writes outside its statistics", "statement": "For nonnegative max_iter (fixed at creation) the solver stops after at most max_iter QP solves whatever QP solver, globalization and timer do, reports that number as the iteration count, and all statistics writes stay inside the table allocated for it.", "quantifier": "every run of the solver", "why_tests_cant": "all runs of the main loop, for every oracle", "anchors": ["acados/ocp_nlp/ocp_nlp_sqp.c: ocp_nlp_sqp, ocp_nlp_sqp_memory_calculate_size"]}
{"id": "C17", "title": "Timeout prediction", "statement": "With timeout_max_time > 0 the solver stops as soon as elapsed time plus the predicted duration of the next iteration reaches the limit; the prediction is the maximum over the iterations of this call, over all calls, the last, the average or zero according to the chosen heuristic; with timeout_max_time <= 0 it never stops for time.", "quantifier": "every sequence of measured iteration times and solver calls", "why_tests_cant": "depends on wall-clock histories", "anchors": ["acados/ocp_nlp/ocp_nlp_sqp.c: ocp_nlp_sqp lines 600-650, check_termination"]}
{"id": "C18", "title": "Warm start of the first QP is a per-call decision and leaves the user's option in place", "statement": "After every return of the SQP solver the QP warm-start level equals what the user configured; the first QP of a call is solved cold when warm_start_first_qp is off and with the configured level otherwise, and every later QP of the call uses the configured level.", "quantifier": "every history of settings, solver calls and early exits", "why_tests_cant": "the early exits (converged at once, QP failure, globalization failure, timeout) and repeated calls multiply", "anchors": ["acados/ocp_nlp/ocp_nlp_sqp.c: ocp_nlp_sqp", "acados/ocp_nlp/ocp_nlp_common.c: ocp_nlp_opts_set"]}
{"id": "C19", "title": "Real-time iteration phases", "statement": "Calling preparation then feedback is equivalent to one combined call; a feedback call uses the matrices of the latest preparation and the current initial state; the returned status reflects a failed QP or globalization; repeated feedback calls stay inside the allocated statistics.", "quantifier": "every sequence of phase settings and solver calls", "why_tests_cant": "protocol state machine over call histories", "anchors": ["acados/ocp_nlp/ocp_nlp_sqp_rti.c: ocp_nlp_sqp_rti, preparation, feedback"]}
{"id": "C20", "title": "DDP iterates satisfy the dynamics exactly and the cost never increases", "statement": "Every iterate accepted by the DDP solver satisfies x_{k+1}=f(x_k,u_k) for all stages with the prescribed initial state, whatever the step size and gains; and the accepted cost never exceeds the previous cost.", "quantifier": "every horizon length, dynamics function, feedback gain, step size and number of iterations", "why_tests_cant": "arbitrary nonlinear dynamics and horizons", "anchors": ["acados/ocp_nlp/ocp_nlp_ddp.c: ocp_nlp_ddp_compute_trial_iterate", "acados/ocp_nlp/ocp_nlp_globalization_merit_backtracking.c: ocp_nlp_ddp_backtracking_line_search"]}
{"id": "C21", "title": "Feasible-QP SQP: the relaxed subproblem is always feasible and the bounds handed to the nominal QP are consistent", "statement": "In SQP_WITH_FEASIBLE_QP the feasibility QP admits a point for every linearisation, and after the Byrd-Omojokun bound update the nominal QP admits the solution of the feasibility QP, so the nominal solve is feasible.", "quantifier": "every linearisation, every step, every set of soft constraints", "why_tests_cant": "existential statement over all QP data", "anchors": ["acados/ocp_nlp/ocp_nlp_sqp_with_feasible_qp.c: set_relaxed_qp_in_matrices_bounds, setup_byrd_omojokun_bounds"]}
{"id": "C22", "title": "Feasible-QP SQP: search-direction mode switching", "statement": "The search direction mode changes from nominal to Byrd-Omojokun only after a failed nominal QP, and back only after the configured number of iterations with (relative) zero slacks, and only when switching back is allowed.", "quantifier": "every history of QP outcomes and slack norms", "why_tests_cant": "automaton over unbounded histories", "anchors": ["acados/ocp_nlp/ocp_nlp_sqp_with_feasible_qp.c: calculate_search_direction"]}
{"id": "C23", "title": "Relaxation indices address every non-slacked constraint exactly once", "statement": "The relaxed QP of SQP_WITH_FEASIBLE_QP introduces exactly one extra slack pair for each general/nonlinear/state-bound constraint that is not already soft, keeps user slacks in place, and maps slacks to constraints injectively.", "quantifier": "every dimension tuple and every set of soft indices", "why_tests_cant": "combinatorial index bookkeeping for all sizes", "anchors": ["acados/ocp_nlp/ocp_nlp_sqp_with_feasible_qp.c: ocp_nlp_sqp_wfqp_precompute, memory_calculate_size"]}
{"id": "C24", "title": "QP scaling does not change the solution", "statement": "Scaling objective and constraints of the QP, solving, and rescaling multipliers gives a primal-dual solution of the original QP (all KKT conditions), and conversely.", "quantifier": "every QP, every positive scaling factor, every stage and soft-constraint structure", "why_tests_cant": "equivalence of optimisation problems for all data", "anchors": ["acados/ocp_nlp/ocp_nlp_qpscaling.c: ocp_nlp_qpscaling_scale_qp, ocp_nlp_qpscaling_rescale_solution"]}
{"id": "C25", "title": "Scaling factors are bounded and positive", "statement": "Constraint scaling factors lie in (0,1] and make coefficient norms and active bounds at most the configured target; the objective factor is positive and finite whenever the objective is nonzero and stays within its configured limits.", "quantifier": "every QP data", "why_tests_cant": "real-valued for all data, including zero rows and infinite bounds", "anchors": ["acados/ocp_nlp/ocp_nlp_qpscaling.c: compute_objective_scaling_factor, scale_constraints"]}
{"id": "C26", "title": "Adaptive Levenberg-Marquardt parameter stays within its limits", "statement": "Over every sequence of iterations the adaptive LM parameter is positive and stays between mu_min and max(1, mu0); a shortened step multiplies it by the configured factor, capped at 1; full steps decrease it geometrically (after every second one) until mu_min is reached; the Hessian term added is the parameter times stage scaling and cost value on the diagonal.", "quantifier": "every sequence of step sizes and cost values; every option value with 0 < mu_min, lam > 1", "why_tests_cant": "history of unbounded length", "anchors": ["acados/ocp_nlp/ocp_nlp_common.c: adaptive_levenberg_marquardt_update_mu, ocp_nlp_add_levenberg_marquardt_term"]}
{"id": "C27", "title": "Primal-dual step update", "statement": "After a step of length alpha the iterate is x + alpha*dx, multipliers are either replaced (full_step_dual) or moved to (1-alpha)*old + alpha*new; alpha=0 leaves the iterate unchanged, alpha=1 takes the QP solution; nonnegative multipliers stay nonnegative; exact linear constraints satisfied by the QP solution are satisfied after a full step.", "quantifier": "every step length, iterate, QP solution and horizon", "why_tests_cant": "algebra over all vectors", "anchors": ["acados/ocp_nlp/ocp_nlp_common.c: ocp_nlp_update_variables_sqp, ocp_nlp_update_variables_sqp_delta_primal_dual"]}
{"id": "C28", "title": "Anderson acceleration step", "statement": "With Anderson acceleration the update applied to the iterate is the documented convex/affine combination of the last two steps; for gamma=0 it is the plain step of length alpha.", "quantifier": "every gamma, alpha and pair of steps", "why_tests_cant": "algebra; the defect is invisible at alpha=1", "anchors": ["acados/ocp_nlp/ocp_nlp_globalization_fixed_step.c", "acados/ocp_nlp/ocp_nlp_common.c: ocp_nlp_convert_primaldelta_absdual_step_to_delta_step"]}
{"id": "C29", "title": "Residuals vanish exactly at KKT points", "statement": "The four residual norms reported to the user are all zero iff the iterate is a KKT point (stationarity, dynamics, inequality feasibility, complementarity); each is nonnegative and bounds every stage's entries.", "quantifier": "every iterate, every horizon and every stage dimension, including stages without inequalities", "why_tests_cant": "maximum over all stages for unbounded N; stale workspace reuse", "anchors": ["acados/ocp_nlp/ocp_nlp_common.c: ocp_nlp_res_compute, ocp_nlp_res_get_inf_norm"]}
{"id": "C30", "title": "QP objective value and predicted reductions", "statement": "The QP objective value used for the predicted reduction is 1/2 d^T H d + g^T d of the QP handed to the solver, including slack terms.", "quantifier": "every QP and direction", "why_tests_cant": "algebra over all slacks; invisible without soft constraints", "anchors": ["acados/ocp_nlp/ocp_nlp_common.c: ocp_nlp_compute_qp_objective_value, ocp_nlp_compute_gradient_directional_derivative"]}
{"id": "C31", "title": "Infeasibility measure", "statement": "The l1 infeasibility is nonnegative, zero iff dynamics and active inequalities hold, and is convex-homogeneous along linearised directions as the funnel method assumes.", "quantifier": "every iterate", "why_tests_cant": "all real vectors", "anchors": ["acados/ocp_nlp/ocp_nlp_common.c: ocp_nlp_get_l1_infeasibility"]}
{"id": "C32", "title": "Regularised Hessian blocks are symmetric positive definite (mirror / project)", "statement": "After mirror or project regularisation every stage Hessian is symmetric with smallest eigenvalue >= epsilon, blocks that already had eigenvalues >= epsilon are unchanged, and with the adaptive option the condition number is at most the configured maximum.", "quantifier": "every symmetric stage Hessian of every size and every positive epsilon", "why_tests_cant": "all matrices of all sizes", "anchors": ["acados/ocp_nlp/ocp_nlp_reg_common.c: acados_mirror, acados_project, acados_reconstruct_A", "acados/ocp_nlp/ocp_nlp_reg_project.c", "acados/ocp_nlp/ocp_nlp_reg_mirror.c"]}
{"id": "C33", "title": "Gershgorin-Levenberg-Marquardt regularisation gives positive definite blocks", "statement": "After GERSHGORIN_LEVENBERG_MARQUARDT every stage Hessian H satisfies v^T H v >= epsilon |v|^2 for all v, off-diagonal entries are unchanged, and a block whose Gershgorin estimate is already >= epsilon is not changed.", "quantifier": "every stage Hessian and every epsilon>0", "why_tests_cant": "all matrices of all sizes", "anchors": ["acados/ocp_nlp/ocp_nlp_reg_glm.c: ocp_nlp_reg_glm_regularize", "acados/utils/math.c: compute_gershgorin_min_eig_estimate"]}
{"id": "C34", "title": "Convexification preserves the QP objective on feasible trajectories", "statement": "CONVEXIFY changes the QP objective only by terms that vanish on all trajectories of the linearised dynamics starting from the same initial state, and makes every stage Hessian convex.", "quantifier": "every horizon, every linearised OCP", "why_tests_cant": "telescoping over an unbounded horizon", "anchors": ["acados/ocp_nlp/ocp_nlp_reg_convexify.c: ocp_nlp_reg_convexify_regularize"]}
{"id": "C35", "title": "Dense linear solver", "statement": "dgesv_3l either reports a zero pivot or returns X with A X = B, for every n and number of right-hand sides, also when rows must be exchanged.", "quantifier": "every square matrix and right-hand side", "why_tests_cant": "all matrices of all sizes", "anchors": ["acados/utils/math.c: dgesv_3l, dgetf2_3l, dgetrs_3l, dlaswp_3l, idamax_3l"]}
{"id": "C36", "title": "Neville interpolation", "statement": "neville_algorithm returns the value at xx of the unique polynomial of degree <= n through the given points with distinct abscissae; in particular it reproduces the data at the nodes and is exact for polynomials.", "quantifier": "every number of points, distinct abscissae, data and evaluation point", "why_tests_cant": "all sizes", "anchors": ["acados/utils/math.c: neville_algorithm"]}
{"id": "C37", "title": "Matrix exponential approximation", "statement": "expm computes the scaling-and-squaring Pade approximant of the chosen degree: the rational function it evaluates matches the exponential series to order 2m.", "quantifier": "every matrix; every branch m in {3,5,7,9,13}", "why_tests_cant": "a wrong coefficient changes results below test tolerances for small norms and only in one branch", "anchors": ["acados/utils/math.c: padeapprox, expm"]}
{"id": "C38", "title": "Explicit Runge-Kutta forward and adjoint sensitivities agree", "statement": "For every explicit tableau the adjoint sweep returns exactly S_forw^T * seed of the discrete forward map; the forward sensitivities are the derivative of the discrete map.", "quantifier": "every tableau, stage count, number of steps, dynamics linearisation and seed", "why_tests_cant": "induction over unbounded numbers of steps and stages", "anchors": ["acados/sim/sim_erk_integrator.c: sim_erk"]}
{"id": "C39", "title": "Butcher tableaus are consistent collocation schemes", "statement": "The tableau computed from distinct nodes integrates every polynomial of degree < ns exactly on [0,c_i] and on [0,1]; the explicit tableaus satisfy row-sum consistency and their order conditions.", "quantifier": "every ns and every set of distinct nodes", "why_tests_cant": "all sizes and all polynomials", "anchors": ["acados/sim/sim_collocation_utils.c: calculate_butcher_tableau_from_nodes, get_explicit_butcher_tableau, lu_system_solve"]}
{"id": "C40", "title": "CasADi sparse buffers and acados dense arrays convert without loss", "statement": "Converting a CasADi (compressed column) output into a column-major, matrix or vector argument yields the matrix the sparsity pattern denotes (zeros elsewhere), and converting back yields the same nonzeros, for every sparsity pattern, including dense and empty ones.", "quantifier": "every sparsity pattern and every shape", "why_tests_cant": "all patterns and shapes; the special dense code path differs from the sparse one", "anchors": ["acados/utils/external_function_generic.c: d_cvt_casadi_to_colmaj, d_cvt_colmaj_to_casadi, d_cvt_casadi_to_colmaj_args ..."]}
{"id": "C41", "title": "Parameter updates are exact", "statement": "Setting all parameters stores exactly the given vector, a sparse update changes exactly the listed entries, and evaluating a function with external parameter memory before the memory is set is refused.", "quantifier": "every parameter dimension, index list and history of updates", "why_tests_cant": "history of updates", "anchors": ["acados/utils/external_function_generic.c: external_function_param_generic_set_param(_sparse), external_function_external_param_*"]}
{"id": "C42", "title": "Linear least-squares cost caches follow the last written weights", "statement": "After any sequence of writes to W, Vx, Vu, Vz, yref, scaling followed by a solve, Hessian, gradient and cost value equal those of the cost 1/2 scaling |Vx x + Vu u + Vz z - yref|_W^2 with the last written values; the Hessian is positive semidefinite and symmetric.", "quantifier": "every history of cost writes and solves, every dimension", "why_tests_cant": "cache invalidation over histories", "anchors": ["acados/ocp_nlp/ocp_nlp_cost_ls.c: ocp_nlp_cost_ls_model_set, ocp_nlp_cost_ls_update_W_factorization, ocp_nlp_cost_ls_update_qp_matrices"]}
{"id": "C43", "title": "Cost gradient and value agree", "statement": "For each cost module the reported gradient (including slack part and scaling) is the derivative of the reported value, and value computed in line search equals the value computed during linearisation at the same point.", "quantifier": "every iterate, weight matrix, slack penalty and scaling", "why_tests_cant": "all real data; both code paths", "anchors": ["acados/ocp_nlp/ocp_nlp_cost_ls.c", "acados/ocp_nlp/ocp_nlp_cost_nls.c: update_qp_matrices, compute_fun"]}
{"id": "C44", "title": "Dimension bookkeeping does not depend on the order of setters", "statement": "After setting nx, nu, ns, nz, nbx, ... in any order and any number of times, derived dimensions (numbers of variables, inequalities, bounds) equal the formula in terms of the last written values.", "quantifier": "every permutation and repetition of dimension writes", "why_tests_cant": "all orders of writes", "anchors": ["acados/ocp_nlp/ocp_nlp_common.c: ocp_nlp_dims_set_opt_vars, ocp_nlp_dims_set_constraints", "acados/ocp_nlp/ocp_nlp_constraints_bgh.c: dims_set"]}
{"id": "C45", "title": "Statistics getter layout", "statement": "The statistics table returned to the user has min(stat_m, iter+1) rows and its columns are the iteration index followed by the recorded values, column-major, without overlap.", "quantifier": "every number of iterations and columns", "why_tests_cant": "index arithmetic for all sizes", "anchors": ["acados/ocp_nlp/ocp_nlp_sqp.c: ocp_nlp_sqp_get 'statistics'"]}
{"id": "C46", "title": "Flat trajectory get/set round-trips", "statement": "Setting a flat field (x, u, sl, su, pi, lam, z, p) over the whole horizon and reading it back returns the same vector, and equals the concatenation of the per-stage fields.", "quantifier": "every horizon and stage-varying dimension", "why_tests_cant": "offset accumulation over unbounded horizons", "anchors": ["interfaces/acados_c/ocp_nlp_interface.c: ocp_nlp_set_all, ocp_nlp_get_all"]}
{"id": "C47", "title": "Sparse QP matrix construction (OSQP)", "statement": "The compressed-column matrices handed to OSQP have sorted, in-range, duplicate-free row indices and denote the Hessian, dynamics, bounds and constraint rows of the stage-wise QP.", "quantifier": "every horizon and dimension tuple", "why_tests_cant": "all sizes", "anchors": ["acados/ocp_qp/ocp_qp_osqp.c"]}
{"id": "C48", "title": "Dense QP stacking", "statement": "Extracting a dense QP with bounds, general constraints and slacks for dense solvers preserves the feasible set and multipliers, and the multipliers returned are mapped back with the right sign.", "quantifier": "every dimension, every soft set", "why_tests_cant": "all sizes and signs", "anchors": ["acados/dense_qp/dense_qp_qpoases.c", "acados/dense_qp/dense_qp_daqp.c", "acados/dense_qp/dense_qp_common.c: dense_qp_stack_slacks, dense_qp_unstack_slacks"]}
{"id": "C49", "title": "Partial condensing block sizes cover the horizon", "statement": "For every horizon N and condensed horizon N2 the default block sizes are within one of each other, sum to N, and user-provided block sizes are checked.", "quantifier": "every N and N2", "why_tests_cant": "all sizes", "anchors": ["acados/ocp_qp/ocp_qp_partial_condensing.c", "acados/ocp_nlp/ocp_nlp_common.c"]}
{"id": "C50", "title": "Second-order correction right-hand side", "statement": "The QP used for a second-order correction has constraints c(x+d) - J d linearised at the current iterate, so that for affine constraints the correction leaves the step unchanged.", "quantifier": "every step and constraint functions", "why_tests_cant": "sign conventions of dynamics and inequality parts, all data", "anchors": ["acados/ocp_nlp/ocp_nlp_common.c: ocp_nlp_perform_second_order_correction"]}
{"id": "C51", "title": "Adaptive QP tolerances", "statement": "With adaptive QP tolerances the tolerance passed to the QP solver is never below the safety factor times the NLP tolerance, never above the larger of that and 1e-2, grows monotonically with the NLP residual and reaches its floor when the NLP residual is small enough; with the residual-scaling strategy it is never below the configured minimum.", "quantifier": "every residual history, also NaN residuals", "why_tests_cant": "all real residuals", "anchors": ["acados/ocp_nlp/ocp_nlp_common.c: ocp_nlp_solve_qp_and_correct_dual"]}
{"id": "C52", "title": "The slope used by the sufficient-descent test is the slope of the merit function", "statement": "With line_search_use_sufficient_descent, the number multiplied by eps_sufficient_descent in the acceptance test is the directional derivative, along the QP step, of the merit function whose values are compared.", "quantifier": "every iterate, weight vector, QP step, set of violated constraints, horizon", "why_tests_cant": "which constraints are violated, their side (lower/upper) and the weights range over a continuum; a test sees a handful of combinations and a wrong slope only weakens the test silently", "anchors": ["acados/ocp_nlp/ocp_nlp_globalization_merit_backtracking.c: ocp_nlp_compute_merit_gradient, ocp_nlp_evaluate_merit_fun"]}
{"id": "C53", "title": "Stored iterates are the iterates of the run", "statement": "With store_iterates, entry k of the stored iterates is the iterate from which SQP iteration k started, for every k below the reported iteration count, no entry is written twice, and after SUCCESS the returned iterate is the last entry.", "quantifier": "every run of the SQP solver, every early exit", "why_tests_cant": "depends on every exit path of the loop and every option combination", "anchors": ["acados/ocp_nlp/ocp_nlp_sqp.c: ocp_nlp_sqp", "interfaces/acados_c/ocp_nlp_interface.c: ocp_nlp_get_from_iterate"]}
{"id": "C54", "title": "Every OpenMP schedule gives the sequential result", "statement": "The parallel stage loops (variable update, QP-solution arithmetic, Hessian set-up) leave the same memory for every thread count and every interleaving of their memory accesses as the sequential loop.", "quantifier": "every schedule (interleaving of atomic actions) and number of threads, every horizon", "why_tests_cant": "schedules cannot be enumerated; races show up rarely", "anchors": ["acados/ocp_nlp/ocp_nlp_common.c: ocp_nlp_update_variables_sqp", "acados/ocp_qp/ocp_qp_common.c: ocp_qp_out_add, ocp_qp_out_axpy, ocp_qp_out_sc, ocp_qp_out_set_to_zero, ocp_qp_out_ddot", "acados/ocp_nlp/ocp_nlp_sqp_with_feasible_qp.c: setup_hessian_matrices_for_qps"]}
{"id": "C55", "title": "Multipliers recovered after convexification solve the original KKT system", "statement": "With CONVEXIFY, the multipliers of the dynamics returned to the user together with the primal QP solution satisfy the KKT conditions of the QP before convexification.", "quantifier": "every horizon, every linearised OCP with bounds, general and soft constraints, every KKT point of the convexified QP", "why_tests_cant": "the recursion runs over every stage; a wrong multiplier changes convergence, not the result of one test", "anchors": ["acados/ocp_nlp/ocp_nlp_reg_convexify.c: ocp_nlp_reg_convexify_correct_dual_sol, ocp_nlp_reg_convexify_regularize, ocp_nlp_reg_convexify_regularize_lhs, ocp_nlp_reg_convexify_regularize_rhs"]}
{"id": "C56", "title": "Exact Hessian of an external cost with algebraic variables", "statement": "With an exact Hessian, the Hessian of an external stage cost l(x, u, z) handed to the QP is scaling times the second derivative of l along (x, u) with z replaced by its linearisation: hux + dz hzux + (dz hzux)^T + dz hzz dz^T.", "quantifier": "every dimension of x, u and z, every Hessian block and sensitivity matrix", "why_tests_cant": "a Gauss-Newton-like wrong Hessian still converges on most tests; the defect is visible only for non-symmetric mixed blocks", "anchors": ["acados/ocp_nlp/ocp_nlp_cost_external.c: ocp_nlp_cost_external_update_qp_matrices", "interfaces/acados_template/acados_template/casadi_function_generation.py: generate_c_code_external_cost"]}
{"id": "C57", "title": "Resetting an iterate writes only the iterate", "statement": "After an iterate is reset, every number in it (states, inputs, slacks, algebraic variables, multipliers) is zero and no other memory has changed.", "quantifier": "every horizon, stage-varying dimensions and memory contents", "why_tests_cant": "an overrun of a loop bound depends on all dimensions at once and is usually invisible", "anchors": ["interfaces/acados_c/ocp_nlp_interface.c: ocp_nlp_out_set_values_to_zero", "acados/ocp_nlp/ocp_nlp_common.c: ocp_nlp_out_assign, ocp_nlp_dims_assign_self"]}
{"id": "C58", "title": "The cone problem given to Clarabel is the stage-wise QP", "statement": "Solving an OCP QP with the Clarabel backend solves that QP: the compressed-column matrices and vectors handed to the solver are well formed, fit the memory reserved for them and describe exactly the cost, dynamics, bounds, general and soft constraints of the stage-wise QP, so that a primal-dual point satisfies the optimality conditions of the cone problem if and only if the iterate returned to the user satisfies those of the QP, also when the solver is called again with new numbers.", "quantifier": "every horizon, stage-varying dimensions, bound and soft-constraint indices, numerical data, previous memory contents and histories of calls", "why_tests_cant": "index arithmetic over all stages and all kinds of columns; an error shows only for particular combinations of dimensions", "anchors": ["acados/ocp_qp/ocp_qp_clarabel.c: update_hessian_structure, update_constraints_matrix_structure, update_constraints_matrix_data, update_bounds, ocp_qp_clarabel_update_memory, fill_in_qp_out, ocp_qp_clarabel"]}
{"id": "C59", "title": "SQP with feasible QP: status and statistics", "statement": "The status returned by the SQP_WITH_FEASIBLE_QP solver describes what happened: SUCCESS only when all four residuals of the returned iterate are below their tolerances, QP_FAILURE only when one of the two QPs of the Byrd-Omojokun step failed, and so on; the solver always stops, makes at most max_iter iterations and writes its statistics, stored iterates and logs only inside their tables.", "quantifier": "every problem, option set, history of QP and globalization outcomes, clock readings", "why_tests_cant": "the statement is about all histories; tests sample a few", "anchors": ["acados/ocp_nlp/ocp_nlp_sqp_with_feasible_qp.c: ocp_nlp_sqp_wfqp, check_termination, calculate_search_direction, log_qp_stats, log_multiplier_norms"]}
{"id": "C60", "title": "SQP with feasible QP: regularisation", "statement": "In every iteration the Hessian of a QP is regularised exactly once before that QP is solved, for the nominal QP always and for the relaxed QP when it uses the constraint Hessian.", "quantifier": "every history of modes and QP outcomes, both choices of the Hessian of the relaxed QP", "why_tests_cant": "which Hessian is regularised depends on pointers set in another module and on the history of the iteration", "anchors": ["acados/ocp_nlp/ocp_nlp_sqp_with_feasible_qp.c: prepare_and_solve_QP", "acados/ocp_nlp/ocp_nlp_common.c: ocp_nlp_solve_qp_and_correct_dual, ocp_nlp_regularize_set_qp_in_ptrs"]}
{"id": "C61", "title": "QP solver interfaces: current data in, true status out", "statement": "Every call of a QP solver through acados hands the current QP to the solver, and SUCCESS is returned exactly when the solver reported success; other reports keep their meaning (iteration limit, infeasible, unbounded).", "quantifier": "every sequence of QPs, every option setting, every answer of the external solver", "why_tests_cant": "depends on the history of calls and on every answer the external solver can give", "anchors": ["acados/dense_qp/dense_qp_qpoases.c: dense_qp_qpoases", "acados/dense_qp/dense_qp_daqp.c: dense_qp_daqp", "acados/dense_qp/dense_qp_hpipm.c: dense_qp_hpipm", "acados/ocp_qp/ocp_qp_hpipm.c: ocp_qp_hpipm"]}
{"id": "C62", "title": "QP solver options take the value written last", "statement": "After any sequence of option writes to the dense QP solver, the tolerance, iteration limit and warm start level in effect are the values written last.", "quantifier": "every sequence of option writes", "why_tests_cant": "all orders and repetitions of writes", "anchors": ["acados/dense_qp/dense_qp_qpoases.c: dense_qp_qpoases_opts_set, dense_qp_qpoases_opts_initialize_default"]}
{"id": "C63", "title": "GNSF integrator steps are implicit Runge-Kutta steps of the declared model", "statement": "For a model in generalized nonlinear static feedback form, every integration step returned by the GNSF integrator satisfies, at every stage, the linear differential-algebraic equations E (xdot, z) = A x + B u + C v + c and the linear output equations of the declared model exactly, and the next state is x + dt * sum b_i k_i; the only defect is the residual v - phi(L_x x + L_xdot xdot + L_z z, L_u u) left by the Newton iteration, which is zero after one iteration when phi is affine.", "quantifier": "all stage numbers, dimensions, model matrices, tableaus, step sizes, nonlinearities, states, controls and numbers of steps", "why_tests_cant": "The integrator works on condensed matrices computed once from the model by several block eliminations; wrong pivoting or a stale block shows only for particular model structures.", "anchors": ["acados/sim/sim_gnsf.c:sim_gnsf_precompute", "acados/sim/sim_gnsf.c:sim_gnsf"]}
{"id": "C64", "title": "GNSF forward sensitivities are the derivative of the discrete step", "statement": "Applied to any direction of the initial state and control, the forward sensitivity matrix returned by the GNSF integrator gives the direction obtained by linearising every stage equation of every step and chaining the steps, starting from the given seed.", "quantifier": "all models, tableaus, nonlinearities, trajectories, seeds, directions and numbers of steps", "why_tests_cant": "Agreement with finite differences is checked at a few points and only to a tolerance; errors appear only in particular block structures.", "anchors": ["acados/sim/sim_gnsf.c:sim_gnsf"]}
{"id": "C65", "title": "GNSF adjoint sensitivities are the transpose of the forward sensitivities", "statement": "For every adjoint seed (state and control part), forward seed and direction: the product of the adjoint result with the forward seed direction equals the product of the adjoint seed with the forward result.", "quantifier": "all models, trajectories, seeds, directions and numbers of steps", "why_tests_cant": "The adjoint pass recomputes other matrices in a reverse loop than the forward pass; they can disagree in blocks not exercised by a test model.", "anchors": ["acados/sim/sim_gnsf.c:sim_gnsf"]}
{"id": "C66", "title": "The shortcut for fully linear GNSF models gives the result of the integration", "statement": "For a model declared fully linear, a call answered from the stored matrices returns the same state, forward and adjoint sensitivities as performing the integration.", "quantifier": "all linear models, states, controls, seeds and numbers of steps", "why_tests_cant": "The shortcut is taken from the second call on; a first-call test never sees it.", "anchors": ["acados/sim/sim_gnsf.c:sim_gnsf", "acados/sim/sim_gnsf.c:sim_gnsf_precompute"]}
{"id": "C67", "title": "IRK integration performs the Runge-Kutta steps of the tableau with the configured Newton iteration", "statement": "A call of the implicit Runge-Kutta integrator takes num_steps steps of the chosen tableau at times t0 + ss h; the stage values of each step are the result of at most newton_iter Newton iterations for the stage equations, started at the previous stage values and stopped early only when every component of a correction is below newton_tol; the next state is x + h sum b_i k_i. With jac_reuse the Jacobian of the first guess (or, with sensitivities, of the previous step) is used. A successful return means the stage equations are solved.", "quantifier": "all implicit DAE models, tableaus, dimensions, step counts, initial values and guesses, with and without Jacobian reuse", "why_tests_cant": "Stage blocks are addressed by offsets in three arrays with different block sizes; wrong offsets may agree for the dimensions of a test model.", "anchors": ["acados/sim/sim_irk_integrator.c:sim_irk"]}
{"id": "C68", "title": "IRK forward and parameter sensitivities are the derivative of the discrete steps", "statement": "Applied to any direction, the forward sensitivity matrix returned by the IRK integrator is the tangent obtained by linearising the stage equations of every step at the computed stage values and chaining the steps, from the given seed; the parameter sensitivity likewise with the model derivative with respect to the parameters as inhomogeneity.", "quantifier": "all models, tableaus, trajectories, seeds, directions and numbers of steps", "why_tests_cant": "Finite differences check a few points to a tolerance.", "anchors": ["acados/sim/sim_irk_integrator.c:sim_irk"]}
{"id": "C69", "title": "IRK adjoint sensitivities are the transpose of the forward sensitivities", "statement": "For every adjoint seed (state and control part) and direction: the adjoint result times the direction equals the seed times the forward tangent of the final state, plus the control part.", "quantifier": "all models, trajectories, seeds, directions and numbers of steps", "why_tests_cant": "The reverse sweep reassembles or reuses matrices of the forward sweep; disagreements show only for particular structures.", "anchors": ["acados/sim/sim_irk_integrator.c:sim_irk"]}
{"id": "C70", "title": "IRK Hessian is the second derivative of the seed-weighted final state", "statement": "The Hessian returned by the IRK integrator is symmetric, and its quadratic form in any two directions is the adjoint seed times the second-order tangent of the final state in these directions.", "quantifier": "all models with symmetric second derivatives, trajectories, seeds, pairs of directions and numbers of steps", "why_tests_cant": "Only the upper triangle is accumulated and then mirrored; second derivatives of test models are sparse and hide wrong blocks.", "anchors": ["acados/sim/sim_irk_integrator.c:sim_irk"]}
{"id": "C71", "title": "Algebraic outputs of IRK are the interpolation of the stage values and carry the right sensitivities", "statement": "With output_z the IRK integrator returns, component by component, the value at the beginning of the interval of the polynomial of least degree through the stage values of the algebraic variables at the collocation nodes of the first step; with sens_algebraic the sensitivity is the same interpolation of the linearised stage values; with exact_z_output the returned algebraic variables satisfy the model equations at the initial state and the sensitivities are those of this implicit relation.", "quantifier": "all models, tableaus with distinct nodes, states, controls, stage values and directions", "why_tests_cant": "Test models have few stages and one algebraic variable, and the exact option is tested on one model from a good initial guess.", "anchors": ["acados/sim/sim_irk_integrator.c:sim_irk_compute_z_and_algebraic_sens", "acados/sim/sim_common.c:neville_algorithm"]}
{"id": "C72", "title": "Cost propagated by the integrator is the Runge-Kutta quadrature of the stage cost, with its derivatives", "statement": "With cost_discretization INTEGRATOR and IRK the stage cost value is the quadrature of the continuous cost with the nodes and weights of the scheme over all steps, times the cost scaling, with or without sensitivities; the gradient is its derivative with respect to control and initial state, and the Hessian is the Gauss-Newton form of that quadrature.", "quantifier": "all models, inner functions, weights, tableaus, numbers of steps, trajectories, seeds and directions", "why_tests_cant": "Tests use diagonal weights, for which a transposed Cholesky factor makes no difference.", "anchors": ["acados/sim/sim_irk_integrator.c:sim_irk", "acados/ocp_nlp/ocp_nlp_dynamics_cont.c", "acados/ocp_nlp/ocp_nlp_cost_nls.c"]}
{"id": "C73", "title": "Hessian blocks of the QP are the sum of the selected contributions", "statement": "At every stage the Hessian block of the QP after a linearisation is the sum of the cost Hessian (exact or Gauss-Newton as requested), the dynamics term if exact_hess_dyn is on and the constraint term if exact_hess_constr is on, independent of the earlier content of the block; with everything on it is the Hessian of the Lagrangian. Convex-over-nonlinear constraints contribute the curvature of their outer convex function, a positive semidefinite term. fixed_hess keeps it constant; Levenberg-Marquardt adds a multiple of the identity.", "quantifier": "all stages, cost, dynamics and constraint modules, sequences of option calls, earlier block contents, multipliers", "why_tests_cant": "Which module overwrites and which adds depends on the whole history of option calls; tests use one configuration per solver and compare iterates only.", "anchors": ["acados/ocp_nlp/ocp_nlp_common.c:ocp_nlp_opts_set", "acados/ocp_nlp/ocp_nlp_common.c:ocp_nlp_approximate_qp_matrices", "acados/ocp_nlp/ocp_nlp_cost_ls.c", "acados/ocp_nlp/ocp_nlp_constraints_bgh.c", "acados/ocp_nlp/ocp_nlp_common.c:ocp_nlp_add_levenberg_marquardt_term", "acados/ocp_nlp/ocp_nlp_sqp_with_feasible_qp.c", "acados/ocp_nlp/ocp_nlp_constraints_bgp.c:ocp_nlp_constraints_bgp_update_qp_matrices"]}
{"id": "C74", "title": "Dynamics data of the QP are the linearisation of the integrator at the iterate", "statement": "After a linearisation the dynamics rows of the QP are the Jacobian of the integrator map (or discrete map) at the current iterate in the order (u, x), the right-hand side is the gap to the next state, algebraic variables and their sensitivities belong to the same point, the adjoint is minus the transposed Jacobian times the multipliers however it is computed, and the exact Hessian block is the multiplier-weighted second derivative. Function evaluations at trial points give the same values and do not disturb the linearisation or the options; an integrator guess is used exactly once.", "quantifier": "all integrators meeting their contract, maps, dimensions, iterates, multipliers, option settings, earlier memory contents and histories of calls", "why_tests_cant": "Index arithmetic between (x,u) and (u,x) orders, stale arrays and restored options can be right for one dimension or call order and wrong for another.", "anchors": ["acados/ocp_nlp/ocp_nlp_dynamics_cont.c:ocp_nlp_dynamics_cont_update_qp_matrices", "acados/ocp_nlp/ocp_nlp_dynamics_cont.c:ocp_nlp_dynamics_cont_compute_fun", "acados/ocp_nlp/ocp_nlp_dynamics_cont.c:ocp_nlp_dynamics_cont_compute_fun_and_adj", "acados/ocp_nlp/ocp_nlp_dynamics_disc.c"]}
{"id": "C75", "title": "Solving a dense QP with DAQP returns its solution", "statement": "The DAQP interface hands DAQP a least-distance problem equivalent to the dense QP (bounds, general constraints, equalities, soft constraints with linear and quadratic penalties, masked bounds) and translates the answer back: if DAQP solves its problem, the returned variables, slacks and multipliers satisfy the optimality conditions of the QP in the order and sign convention of acados, and no admissible point has a smaller objective. This holds for every sequence of earlier calls, including hot starts that reuse the factorised matrices.", "quantifier": "all dimensions, matrices, bounds, masks, penalties, earlier contents of the solver memory, sequences of calls with and without hot start, answers of DAQP that solve the problem it was given", "why_tests_cant": "The interface scales, factorises and shifts every constraint and reuses matrices between calls; a test sees only the combinations of active constraints, scalings and histories it happens to produce.", "anchors": ["acados/dense_qp/dense_qp_daqp.c:dense_qp_daqp", "acados/dense_qp/dense_qp_daqp.c:dense_qp_daqp_update_memory", "acados/dense_qp/dense_qp_daqp.c:dense_qp_daqp_fill_output", "acados/dense_qp/dense_qp_daqp.c:dense_qp_daqp_ldp_to_qp_solution"]}
{"id": "C76", "title": "Solution sensitivities are the derivatives of the solution", "statement": "After solving and factorising, the forward sensitivity reported for a global parameter or for an initial state is the derivative of the primal-dual solution with respect to it; the adjoint gradient for a seed is the seed applied to that derivative, so forward and adjoint results agree; the gradient of the optimal value is the derivative of the Lagrangian with respect to the parameters. None of them depends on what earlier calls left in the solver memory, and computing them leaves the solver options unchanged.", "quantifier": "all horizons, dimensions, parameter counts, derivative values, multipliers, seeds, earlier contents of the sensitivity matrices, solvers that meet their contract", "why_tests_cant": "A test compares a few problems against finite differences; contributions that vanish there (mixed derivatives of constraints, terminal constraints, both sides of a bound active) are never seen.", "anchors": ["acados/ocp_nlp/ocp_nlp_common.c:ocp_nlp_common_eval_param_sens", "acados/ocp_nlp/ocp_nlp_common.c:ocp_nlp_params_jac_compute", "acados/ocp_nlp/ocp_nlp_common.c:ocp_nlp_common_eval_solution_sens_adj_p", "acados/ocp_nlp/ocp_nlp_common.c:ocp_nlp_common_eval_lagr_grad_p", "acados/ocp_nlp/ocp_nlp_common.c:ocp_nlp_common_setup_qp_matrices_and_factorize", "acados/ocp_nlp/ocp_nlp_constraints_bgh.c:ocp_nlp_constraints_bgh_compute_jac_hess_p"]}
{"id": "C77", "title": "The lifted implicit integrator takes one consistent Newton step per call", "statement": "Every call of the lifted implicit Runge-Kutta integrator is one Newton iteration for the stage equations of all steps together, starting from the stored stage values moved by a first-order prediction for the change of state and control since the last call; the returned state is the end of the corrected trajectory and the returned sensitivities are the derivative of the linearised steps. Stored values that solve the equations stay; for affine models the exact Runge-Kutta solution and sensitivities are returned whatever was called before; resetting the integrator gives the behaviour of a new one.", "quantifier": "all implicit ODE models, tableaus, step counts, seeds, memory contents and histories of calls and resets", "why_tests_cant": "The result depends on stage values and derivatives left by all earlier calls; tests compare converged closed loops, where a wrong prediction only costs iterations.", "anchors": ["acados/sim/sim_lifted_irk_integrator.c:sim_lifted_irk", "acados/sim/sim_lifted_irk_integrator.c:sim_lifted_irk_memory_set_to_zero", "acados/sim/sim_lifted_irk_integrator.c:sim_lifted_irk_memory_assign"]}
{"id": "C78", "title": "Projection of the reduced Hessian gives a strictly convex QP on the dynamics and leaves good problems alone", "statement": "With the PROJECT_REDUC_HESS regularisation the QP Hessian handed to the solver is positive definite along every direction that satisfies the linearised dynamics, whatever the original Hessian, horizon, dimensions and pivot options are. A Hessian that already has curvature thr_eig along the dynamics is returned unchanged in every entry. Only curvature of the controls is added: the cost-to-go of every later stage (minimum of the regularised problem from a given state) is the stationary cost-to-go of the original problem.", "quantifier": "all horizons, dimensions, Hessians, dynamics, options, memory contents and directions", "why_tests_cant": "Positive definiteness on a subspace is a statement about all directions; tests look at convergence of a few problems, on which wrong Schur complements still give convex QPs.", "anchors": ["acados/ocp_nlp/ocp_nlp_reg_project_reduc_hess.c:ocp_nlp_reg_project_reduc_hess_regularize", "acados/ocp_nlp/ocp_nlp_reg_project_reduc_hess.c:ocp_nlp_reg_project_reduc_hess_opts_initialize_default", "acados/ocp_nlp/ocp_nlp_reg_common.c:acados_reconstruct_A"]}
{"id": "C79", "title": "The zoRO update computes the uncertainty tubes and tightens the bounds so that the constraints hold for every admissible disturbance", "statement": "After any history of zoRO custom updates, an update leaves the uncertainty matrices of the covariance recursion P+ = (A-BK) P (A-BK)^T + G W_k G^T (plus the contribution of parameter uncertainty of the chosen mode), symmetric and positive semidefinite when the data are. Every tightened bound is the original bound moved inwards by the square root of gamma^2 times the variance of the constraint, and a nominal trajectory that meets the tightened bounds meets the original ones for every disturbance of the scaled ellipsoid in the linearised closed loop. The payload is read and written in the documented blocks, and a payload of a wrong length is refused.", "quantifier": "all horizons, dimensions, descriptions, linearisations, feedback gains, payloads, update histories, disturbances and constraint rows", "why_tests_cant": "Robust satisfaction is a statement about all disturbances and stages; tests simulate a few noise samples on one example, and errors that accumulate over stages or calls need particular options.", "anchors": ["interfaces/acados_template/acados_template/custom_update_templates/custom_update_function_zoro_template.in.c:custom_update_function", "interfaces/acados_template/acados_template/custom_update_templates/custom_update_function_zoro_template.in.c:uncertainty_propagate_and_update", "interfaces/acados_template/acados_template/custom_update_templates/custom_update_function_zoro_template.in.c:compute_GWG_stagewise_varying", "interfaces/acados_template/acados_template/zoro_description.py:ZoroDescription.make_consistent"]}
{"id": "C80", "title": "The feedback gains of the zoRO Riccati modes are the optimal feedback of the linear-quadratic problem", "statement": "In the modes RICCATI_CONSTANT_COST, RICCATI_BARRIER_1 and RICCATI_BARRIER_2, after any history of updates, the gains K_1..K_{N-1} used by an update are the unique optimal linear feedback u = -K x of the problem with the linearised dynamics and the constant quadratic cost plus, in the barrier modes, the squared changes of the tightened constraints weighted with tau/s^2 or tau/(2 s b), where s is the slack and b the back-off of the constraint. There is no feedback at stage 0. Robust satisfaction of the bounds holds for the closed loop with these gains.", "quantifier": "all horizons, dimensions, linearisations, cost matrices, bounds, tightened rows, update histories, start stages, states and alternative input sequences", "why_tests_cant": "Optimality is a statement about all alternative input sequences from all states; tests compare one closed-loop simulation, and a misplaced gradient only shows for particular mixes of constraint types.", "anchors": ["interfaces/acados_template/acados_template/custom_update_templates/custom_update_function_zoro_template.in.c:riccati_recursion", "interfaces/acados_template/acados_template/custom_update_templates/custom_update_function_zoro_template.in.c:update_riccati_quad_matrices", "interfaces/acados_template/acados_template/custom_update_templates/custom_update_function_zoro_template.in.c:update_riccati_quad_matrices_terminal", "interfaces/acados_template/acados_template/custom_update_templates/custom_update_function_zoro_template.in.c:custom_val_init_function"]}
{"id": "C81", "title": "A generated solver holds the numbers of its description after creation and after a reset", "statement": "Creating a generated solver stores, for every stage, exactly the cost, constraint, soft-constraint and parameter values that the problem description gives for that kind of stage (initial, path, terminal), the time steps and the cost scaling, and the initial guess x0. Creating it with another number of stages and new time steps stores these steps and otherwise the same data. After any history of setter calls, solves and resets, a reset with numerical values brings the described data back and has no undefined behaviour; set_new_time_steps makes the solver use the given steps.", "quantifier": "all problem descriptions (dimensions, cost types, constraint types, values), numbers of stages, time steps and histories of setter, solve, reset and time step calls", "why_tests_cant": "The code is a template with hundreds of conditionals on dimensions and types; tests generate a few problems and compare solutions, not every stored number, and do not combine resets with changed discretisations.", "anchors": ["interfaces/acados_template/acados_template/c_templates_tera/acados_solver.in.c:acados_create_setup_nlp_in_numerical_values", "interfaces/acados_template/acados_template/c_templates_tera/acados_solver.in.c:acados_create_with_discretization", "interfaces/acados_template/acados_template/c_templates_tera/acados_solver.in.c:acados_update_time_steps", "interfaces/acados_template/acados_template/c_templates_tera/acados_solver.in.c:acados_reset", "interfaces/acados_template/acados_template/c_templates_tera/acados_solver.in.c:acados_update_params", "interfaces/acados_template/acados_template/acados_ocp_solver.py:AcadosOcpSolver.set_new_time_steps"]}
{"id": "C82", "title": "A batch solver behaves as independent solvers, whatever the number of threads", "statement": "A batch call for n samples does to solver i exactly what the call of the single solver does with row i of the arrays, leaves the other solvers unchanged, and returns in row i what the single getter returns, for every schedule of the parallel loop and every number of threads. Arrays of the wrong size are refused. After any history of batch calls, calls of single members, growth and shrinkage of the batch, every member (also those created later) is in the state of an independent solver with the same calls and the same options, and its status is that of its last solve. The requested number of threads is used and the setting of the process is unchanged afterwards.", "quantifier": "all numbers of samples, dimensions, stages, data, interleavings of the loop iterations, numbers of threads, and histories of calls", "why_tests_cant": "Tests run a few sizes and compare solutions on one machine; races and stale entries depend on the schedule and the history.", "anchors": ["interfaces/acados_template/acados_template/c_templates_tera/acados_solver.in.c:acados_batch_solve", "interfaces/acados_template/acados_template/c_templates_tera/acados_solver.in.c:acados_batch_set_flat", "interfaces/acados_template/acados_template/c_templates_tera/acados_solver.in.c:acados_batch_get_flat", "interfaces/acados_template/acados_template/c_templates_tera/acados_solver.in.c:acados_batch_set", "interfaces/acados_template/acados_template/c_templates_tera/acados_solver.in.c:acados_batch_get", "interfaces/acados_template/acados_template/c_templates_tera/acados_solver.in.c:acados_batch_eval_solution_sens_adj_p", "interfaces/acados_template/acados_template/acados_ocp_batch_solver.py:AcadosOcpBatchSolver", "interfaces/acados_template/acados_template/acados_ocp_solver.py:AcadosOcpSolver.set", "interfaces/acados_c/ocp_nlp_interface.c:ocp_nlp_dims_get_from_attr"]}
{"id": "C83", "title": "The qpDUNES interface solves the QP it is given", "statement": "For every QP whose dimensions are accepted, the problem handed to qpDUNES has, in every call, exactly the objective, dynamics, bounds and rows of the QP of the caller (none left over from earlier calls), the QP of the caller is not changed, a minimiser found by qpDUNES is returned as a minimiser of the QP, its multipliers are returned as multipliers of the QP, all writes stay inside the vectors of the caller, and the return value and the recorded status tell whether the solution is optimal.", "quantifier": "all numbers of stages, states, inputs, bounds and rows, all QP data, all contents of memory and workspace from earlier calls, all outcomes of qpDUNES", "why_tests_cant": "Tests compare a few QPs; wrong positions of multipliers, masked bounds and effects of the first call depend on dimensions and history.", "anchors": ["acados/ocp_qp/ocp_qp_qpdunes.c:ocp_qp_qpdunes", "acados/ocp_qp/ocp_qp_qpdunes.c:update_memory", "acados/ocp_qp/ocp_qp_qpdunes.c:fill_in_qp_out", "acados/ocp_qp/ocp_qp_qpdunes.c:form_H", "acados/ocp_qp/ocp_qp_qpdunes.c:form_RSQ", "acados/ocp_qp/ocp_qp_qpdunes.c:form_g", "acados/ocp_qp/ocp_qp_qpdunes.c:form_dynamics", "acados/ocp_qp/ocp_qp_qpdunes.c:form_bounds", "acados/ocp_qp/ocp_qp_qpdunes.c:form_inequalities", "acados/ocp_qp/ocp_qp_qpdunes.c:check_stage_qp_solver", "acados/ocp_qp/ocp_qp_qpdunes.c:ocp_qp_qpdunes_memory_assign"]}
{"id": "C84", "title": "Reformulating the cost of a description keeps the cost", "statement": "Translating the cost of an OCP description to an external cost or to a convex-over-nonlinear cost, and using the path cost for the initial stage, leaves the cost of every stage unchanged at all values of states, inputs, algebraic variables and parameters, except that references and weights given as arguments replace those of the description; the Gauss-Newton Hessian that can be requested is J\u1d40WJ; the symbolic cost expressions handed out by the description evaluate to the cost; a call that raises changes nothing.", "quantifier": "all cost types of the three stages, all dimensions, residual and cost expressions, weights, references (also symbolic), parameters and evaluation points", "why_tests_cant": "Tests translate a few example costs and compare solutions; equality must hold for every expression and at every point, and failures in the middle of a call are not tested.", "anchors": ["interfaces/acados_template/acados_template/acados_ocp.py:translate_cost_to_external_cost", "interfaces/acados_template/acados_template/acados_ocp.py:_translate_cost_term_to_external", "interfaces/acados_template/acados_template/acados_ocp.py:translate_nls_cost_to_conl", "interfaces/acados_template/acados_template/acados_ocp.py:copy_path_cost_to_stage_0", "interfaces/acados_template/acados_template/acados_ocp.py:_get_cost_expression", "interfaces/acados_template/acados_template/acados_ocp.py:get_path_cost_expression"]}
{"id": "C85", "title": "Penalties for constraints cost what is violated", "statement": "Replacing a constraint by an L2 or Huber penalty adds to the cost of the chosen stage exactly the documented function of the distance to the bounds, which is zero exactly where the constraint is met, and leaves a well formed cost to which more penalties can be added; a call that cannot do this raises and changes nothing; the feasibility problem of a description has no constraints, and its cost is zero exactly at the points at which all constraints of the description are met; custom Hessians stay consistent and bounded, and the XGN Hessian majorises the penalty.", "quantifier": "all constraint expressions, bounds, weights, Huber parameters, cost types, sequences of calls, descriptions and evaluation points", "why_tests_cant": "Tests solve one pendulum example with each penalty; equality with the distance function, zero exactly on the feasible set and behaviour of failing calls must hold for every expression and point.", "anchors": ["interfaces/acados_template/acados_template/penalty_utils.py:huber_loss", "interfaces/acados_template/acados_template/penalty_utils.py:one_sided_huber_penalty", "interfaces/acados_template/acados_template/penalty_utils.py:symmetric_huber_penalty", "interfaces/acados_template/acados_template/acados_ocp.py:formulate_constraint_as_L2_penalty", "interfaces/acados_template/acados_template/acados_ocp.py:formulate_constraint_as_Huber_penalty", "interfaces/acados_template/acados_template/acados_ocp.py:translate_to_feasibility_problem", "interfaces/acados_template/acados_template/acados_ocp.py:remove_all_constraints", "interfaces/acados_template/acados_template/acados_ocp.py:augment_with_t0_param"]}
{"id": "C86", "title": "Cost type AUTO keeps the cost", "statement": "If the cost type of a stage is AUTO, the detected cost has the same value as the given expression at all states, inputs and algebraic variables: a quadratic cost becomes a LINEAR_LS cost that equals it, every other cost, and every cost for which this is not possible, an EXTERNAL cost; a terminal cost does not depend on inputs or algebraic variables.", "quantifier": "all quadratic costs (Hessian, gradient, constant), dimensions, stages, random test points, linear solvers and orders in which Python lists sets", "why_tests_cant": "Tests detect one cost and compare at five random points; equality must hold everywhere, and costs for which the detection fails are not tested.", "anchors": ["interfaces/acados_template/acados_template/acados_ocp.py:detect_cost_type"]}
{"id": "C87", "title": "Stored iterates are restored", "statement": "An iterate stored in a file and loaded again, in the same solver or in another solver of the same size, gives all primal values, slacks and multipliers of the first solver (multipliers of masked constraints are zero); the same holds for iterate objects. An iterate object written as JSON and read again is the same object, and the files of solver and object are interchangeable. An iterate of another size is refused without changing the solver.", "quantifier": "all horizons, dimensions per stage (also zero), values, masks, earlier contents of the solver, and orders of the keys in the file", "why_tests_cant": "Tests store one iterate of one problem; keys with padded stage numbers, empty fields and terminal stages without numbers depend on dimensions and horizon.", "anchors": ["interfaces/acados_template/acados_template/acados_ocp_iterate.py:AcadosOcpIterate.to_json", "interfaces/acados_template/acados_template/acados_ocp_iterate.py:AcadosOcpIterate.from_json", "interfaces/acados_template/acados_template/acados_ocp_solver.py:store_iterate", "interfaces/acados_template/acados_template/acados_ocp_solver.py:load_iterate", "interfaces/acados_template/acados_template/acados_ocp_solver.py:set_iterate", "interfaces/acados_template/acados_template/acados_ocp_solver.py:get_iterate"]}
{"id": "C88", "title": "Multi-phase problems: every stage gets the data of its phase", "statement": "In a problem of several phases every stage belongs to exactly one phase, in the order and with the lengths given. The solver creates each stage with the cost and constraint types, integrator, dimensions and parameter values its phase gives for an initial, intermediate or terminal stage; no array is written outside its bounds. Phases whose states do not fit together, that share objects or that have different global parameters are refused, names of models are made different. Setting the parameters of a stage refuses a wrong number of values and changes only this stage.", "quantifier": "all numbers and lengths of phases, dimensions, types, integrators, parameter values and names", "why_tests_cant": "Tests use a few problems with two or three phases of fixed lengths; boundaries between phases, phases of one interval and the buffer shared by all phases depend on lengths and values.", "anchors": ["interfaces/acados_template/acados_template/acados_multiphase_ocp.py:AcadosMultiphaseOcp.make_consistent", "interfaces/acados_template/acados_template/acados_multiphase_ocp.py:AcadosMultiphaseOptions.make_consistent", "interfaces/acados_template/acados_template/c_templates_tera/acados_multi_solver.in.c", "interfaces/acados_template/acados_template/acados_ocp.py:make_consistent", "acados/ocp_nlp/ocp_nlp_common.c:ocp_nlp_in_assign", "interfaces/acados_c/ocp_nlp_interface.c:ocp_nlp_in_set"]}
{"id": "C89", "title": "Parameter manager: values are got as set and laid out like the symbols", "statement": "A manager of named parameter matrices returns, for each name and stage, the value last set there, or the default given at creation; changing the horizon keeps the values of the stages that remain and gives new stages the default. Setting a value at one stage changes no other, stages outside the horizon are refused. The parameter vector of a stage has the entries of each matrix where the vector of symbols has this symbol, the flat vector has the stages one after the other.", "quantifier": "all lists of parameters and shapes, horizons and histories of sets and changes of the horizon", "why_tests_cant": "Tests set one value in one problem; results depend on the history and on which arrays are shared between stages.", "anchors": ["interfaces/acados_template/acados_template/acados_param_manager.py:AcadosParamManager.__init__", "interfaces/acados_template/acados_template/acados_param_manager.py:AcadosParamManager.N_horizon", "interfaces/acados_template/acados_template/acados_param_manager.py:AcadosParamManager.set_value", "interfaces/acados_template/acados_template/acados_param_manager.py:AcadosParamManager.get_value", "interfaces/acados_template/acados_template/acados_param_manager.py:AcadosParamManager.get_p_stagewise_values", "interfaces/acados_template/acados_template/acados_param_manager.py:AcadosParamManager.get_p_stagewise_values_flat", "interfaces/acados_template/acados_template/acados_param_manager.py:AcadosParamManager.get_p_stagewise_expression"]}
{"id": "C90", "title": "Constraint detection does not change the feasible set", "statement": "Detecting the structure of constraints given as expressions replaces constraints that are linear in states and controls by bounds and linear constraints, and keeps the others. The points satisfying the new constraints are those satisfying the old ones, for the initial, path and terminal stages; terminal constraints that depend on controls are refused.", "quantifier": "all lists of constraints with their bounds, all points, all existing bounds and linear constraints of the problem", "why_tests_cant": "Tests compare solutions on problems with a few constraints; the claim is about every point of the feasible set for every mix of constraints.", "anchors": ["interfaces/acados_template/acados_template/mpc_utils.py:detect_constraint_structure", "interfaces/acados_template/acados_template/mpc_utils.py:J_to_idx"]}
{"id": "C91", "title": "Control horizon: the multi-phase problem is the problem with the last control kept", "statement": "Given a problem with N intervals, a control horizon of Nc intervals returns the problem itself if Nc = N, raises for Nc outside 1..N, and otherwise a multi-phase problem whose feasible trajectories are, up to the transition stage, those of the given problem whose control is constant from the last interval of the control horizon on, with the same cost and over the same time. The given problem is unchanged.", "quantifier": "all horizons, control horizons, numbers of remaining stages, dynamics, constraints, costs and trajectories", "why_tests_cant": "Tests compare one closed loop; the claim is a bijection of all trajectories of two problems for all horizons.", "anchors": ["interfaces/acados_template/acados_template/mpc_utils.py:create_ocp_with_control_horizon", "interfaces/acados_template/acados_template/acados_multiphase_ocp.py:AcadosMultiphaseOcp.make_consistent", "interfaces/acados_template/acados_template/acados_ocp.py:AcadosOcp._make_consistent_discretization"]}
{"id": "C92", "title": "Cost and constraint evaluator: cost with the least slack penalties, violations exactly of hard constraints", "statement": "Evaluating a point at a stage gives the scaled cost plus the least penalty of slacks with which the softened constraints hold, reports these slacks, and reports violations of the other constraints that are zero exactly if they hold, with the parameters of the problem, of the solver after an update, or as given. The cost of a trajectory is the sum over the stages as in the solver. A model with a cost state has as derivative the cost with these penalties.", "quantifier": "all points, parameters, constraints of the four kinds, sets of softened constraints, weights, trajectories and horizons", "why_tests_cant": "Tests evaluate one problem with one parameter; index offsets between kinds of constraints and the shape of the parameter array depend on all dimensions.", "anchors": ["interfaces/acados_template/acados_template/mpc_utils.py:AcadosCostConstraintEvaluator.__init__", "interfaces/acados_template/acados_template/mpc_utils.py:AcadosCostConstraintEvaluator.evaluate", "interfaces/acados_template/acados_template/mpc_utils.py:AcadosCostConstraintEvaluator.evaluate_ocp_cost", "interfaces/acados_template/acados_template/mpc_utils.py:AcadosCostConstraintEvaluator.update_all", "interfaces/acados_template/acados_template/mpc_utils.py:create_model_with_cost_state"]}
{"id": "C93", "title": "QP slacks are the distances to the bounds, residual norms cover all stages", "statement": "The slacks computed for the constraints of a QP solution are the distances of each constraint value to its relaxed lower and upper bound and of each slack variable to its bound: all are nonnegative exactly if the solution is feasible. Before residuals are computed the slacks belong to the current solution. A residual norm is below a tolerance exactly if every entry of every stage is.", "quantifier": "all dimensions, horizons, bounds, linear constraints, maps of soft constraints, solutions and tolerances", "why_tests_cant": "Tests solve a few QPs; offsets between blocks depend on all dimensions, and norms over contiguous memory on every stage size.", "anchors": ["acados/ocp_qp/ocp_qp_common.c:ocp_qp_compute_t", "acados/ocp_qp/ocp_qp_common.c:ocp_qp_res_compute", "acados/ocp_qp/ocp_qp_common.c:ocp_qp_res_compute_nrm_inf", "acados/ocp_qp/ocp_qp_common.c:ocp_qp_out_set_to_zero", "acados/dense_qp/dense_qp_common.c:dense_qp_compute_t"]}
{"id": "C94", "title": "The QP solved with CasADi is the given QP, and its fields are read and written at their place", "statement": "A point satisfies the bounds and constraints handed to CasADi exactly if it is feasible for the optimal control QP, and the objective is the cost of the QP. get and set for x, u, sl, su and pi read and write the entries of that field at that stage and no others, solve_for_x0 fixes exactly the initial state, the multipliers returned for a stage are those of its bounds, linear constraints and slacks in the documented order, and multipliers that were set are read back.", "quantifier": "all horizons, stage dimensions, bound index lists, maps of soft constraints, masks, points and multipliers", "why_tests_cant": "Tests run a few QPs whose bounds are on the first variables and compare solutions; the offsets depend on all dimensions of all stages and on which constraints are soft.", "anchors": ["interfaces/acados_template/acados_template/acados_casadi_ocp_qp.py:AcadosCasadiOcpQp", "interfaces/acados_template/acados_template/acados_casadi_ocp_qp_solver.py:AcadosCasadiOcpQpSolver.get", "interfaces/acados_template/acados_template/acados_casadi_ocp_qp_solver.py:AcadosCasadiOcpQpSolver.set", "interfaces/acados_template/acados_template/acados_casadi_ocp_qp_solver.py:AcadosCasadiOcpQpSolver.set_flat", "interfaces/acados_template/acados_template/acados_casadi_ocp_qp_solver.py:AcadosCasadiOcpQpSolver.solve_for_x0"]}
{"id": "C95", "title": "A dumped QP is loaded as the same QP", "statement": "A QP written to a file with the C or the Python backend, or returned as a dictionary, and loaded again has the same horizon, the same dimensions at every stage and the same matrices, vectors, masks and index lists, up to the precision with which numbers are printed. Writing never exceeds the buffer.", "quantifier": "all horizons, stage dimensions and data", "why_tests_cant": "Tests dump a few QPs with a fixed horizon and all dimensions positive; the key format depends on the number of digits of the horizon, and which fields are written depends on all dimensions.", "anchors": ["interfaces/acados_c/ocp_nlp_interface.c:ocp_nlp_dump_last_qp_to_json", "interfaces/acados_template/acados_template/acados_ocp_solver.py:AcadosOcpSolver.get_last_qp", "interfaces/acados_template/acados_template/acados_ocp_solver.py:AcadosOcpSolver.dump_last_qp_to_json", "interfaces/acados_template/acados_template/acados_ocp_qp.py:AcadosOcpQp.from_dict", "interfaces/acados_template/acados_template/acados_ocp_qp.py:AcadosOcpQp.from_json", "interfaces/acados_template/acados_template/acados_ocp_qp.py:AcadosOcpQp.make_consistent"]}
{"id": "C96", "title": "Advanced-step real-time iterations stop at the points they are meant to find", "statement": "With advanced-step level C the iterations stop exactly at points satisfying the optimality conditions of the nonlinear problem; with level B exactly at points that satisfy its constraints and are stationary for the quadratic model made in the last preparation. This holds after any number of iterations and for any QP solver. Logging residuals does not change the iterations. The advanced problem starts at the predicted or simulated next state. Unsupported problems are refused.", "quantifier": "all problems, dimensions, linearisation points, numbers of iterations, QP solvers and step lengths", "why_tests_cant": "Tests run closed loops and compare costs; they do not examine limits of the iterations, nor all combinations of constraints, stages and options.", "anchors": ["acados/ocp_nlp/ocp_nlp_common.c:ocp_nlp_zero_order_qp_update", "acados/ocp_nlp/ocp_nlp_common.c:ocp_nlp_level_c_update", "acados/ocp_nlp/ocp_nlp_sqp_rti.c:ocp_nlp_sqp_rti_preparation_advanced_step", "acados/ocp_nlp/ocp_nlp_sqp_rti.c:as_rti_sanity_checks", "acados/ocp_nlp/ocp_nlp_sqp_rti.c:as_rti_advance_problem", "acados/ocp_nlp/ocp_nlp_sqp_rti.c:prepare_full_residual_computation"]}
{"id": "C97", "title": "The CasADi formulation of an optimal control problem is the same problem", "statement": "AcadosCasadiOcp turns an optimal control problem into one nonlinear program with the same feasible trajectories and the same cost. Reading and writing states, controls, slacks, bounds and multipliers by stage accesses exactly the entries of that stage. Multipliers are returned in the order documented for acados, and copying an iterate reproduces all of them. Unsupported problems are refused.", "quantifier": "all horizons, dimensions, index lists, soft constraints, bounds, trajectories and multipliers", "why_tests_cant": "Tests compare solutions of a few problems; they cannot examine all positions in the stacked vectors, all combinations of hard and soft rows, nor trajectories other than the solutions.", "anchors": ["interfaces/acados_template/acados_template/acados_casadi_ocp.py:AcadosCasadiOcp", "interfaces/acados_template/acados_template/acados_casadi_ocp.py:_append_constraints", "interfaces/acados_template/acados_template/acados_casadi_ocp_solver.py:AcadosCasadiOcpSolver.get", "interfaces/acados_template/acados_template/acados_casadi_ocp_solver.py:AcadosCasadiOcpSolver.set", "interfaces/acados_template/acados_template/acados_casadi_ocp_solver.py:AcadosCasadiOcpSolver.set_flat"]}
{"id": "C98", "title": "The time grid of an accepted problem description is the one that was asked for", "statement": "A problem description that is accepted has N_horizon time steps and N_horizon + 1 shooting nodes that match, covering the horizon tf: uniform by default, otherwise the given steps or nodes. The default cost scaling is the length of the intervals and 1 at the end. A number or vector of integrator settings becomes one setting per interval. Condensing block sizes are one per condensed stage and cover the horizon. Making a description consistent twice changes nothing.", "quantifier": "all horizons, numbers of intervals, time steps, shooting nodes, cost scalings, integrator settings and block sizes", "why_tests_cant": "Tests use a few uniform and non-uniform grids that are consistent; they cannot examine all inconsistent combinations nor all roundings of nearly constant steps.", "anchors": ["interfaces/acados_template/acados_template/acados_ocp.py:AcadosOcp._make_consistent_discretization", "interfaces/acados_template/acados_template/acados_ocp.py:AcadosOcp._make_consistent_simulation", "interfaces/acados_template/acados_template/acados_ocp.py:AcadosOcp.make_consistent"]}
{"id": "C99", "title": "An accepted problem description has matching dimensions of constraints, slacks and penalties", "statement": "A problem description is accepted exactly if every index names an existing component, there is one lower and one upper bound for each constraint, the matrices have matching sizes, soft constraints are chosen among the constraints and each slack has its bounds and penalties. Bounds of slacks that are not given are zero, given ones are kept. The two formulations of soft constraints are not mixed, one-sided constraints are refused for QP solvers that cannot treat them, and DDP is refused with other than initial state constraints.", "quantifier": "all numbers of states and controls, index vectors, bounds, matrices, soft constraints, penalties and QP solvers", "why_tests_cant": "Tests build a few correct descriptions and a few with one error; they cannot enumerate the combinations of inconsistent fields of three kinds of stages.", "anchors": ["interfaces/acados_template/acados_template/acados_ocp.py:AcadosOcp._make_consistent_constraints_path", "interfaces/acados_template/acados_template/acados_ocp.py:AcadosOcp._make_consistent_slacks_initial", "interfaces/acados_template/acados_template/acados_ocp.py:AcadosOcp._make_consistent_slacks_rev_terminal", "interfaces/acados_template/acados_template/utils.py:ns_from_idxs_rev"]}
