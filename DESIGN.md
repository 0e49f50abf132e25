# Formal model of acados in Lean 4 — design

## Approach

Each modelled C function becomes a total computable Lean function. Every definition cites the file and
lines it models and says where it simplifies. The development is split into

- `Verif/Model/` — definitions only, the transcription of the C code;
- `Verif/Spec/` — small independent specifications (what the English claim means), free of model helpers;
- `Verif/Lemmas/` — helper lemmas (loop invariants, closed forms);
- `Verif/Props/` — the property theorems `Cxx_...`, each with an `example` showing that a concrete
  non-trivial case meets its hypotheses.

Conventions

- *Numbers.* `double` is an arbitrary linearly ordered field `K` (the reals when roots are needed), so
  rounding is not modelled. Where control flow depends on NaN or infinity the type `Dbl` (nan, -inf,
  rational, +inf with IEEE comparisons; `Model/Num.lean`) is used.
- *Indices* are `Nat`; 32-bit overflow is not modelled.
- *Arrays* are functions on `Nat`, lists, or Mathlib matrices; in-place loops are folds.
- *Loops without static bound* run on fuel, and the theorems show which fuel suffices.
- *Undefined behaviour, asserts and `exit(1)`* are distinct outcomes (`none`, `.abort`, ghost overflow flags).
- *External routines* (QP solvers, CasADi functions, eigenvalue and LU routines of BLASFEO, clocks) are
  function parameters or oracle streams; the theorems hold for every behaviour, or state the exactness they
  assume as a hypothesis.
- *Histories.* Properties over histories are proved by induction over lists of operations.

When a claim is false of the code, the negation is proved with a concrete witness (names ending in
`_false`, `_counterexample` or describing the defect), and the true part is kept as a `_partial` theorem
with its exact conditions.

## Properties: model, method, result

For each property: the files that hold its theorems, what is modelled and how the proof goes, and the
result. "Witness" means a theorem giving a concrete reachable case in which the claim fails of the code.
Statements are in `properties.jsonl`, theorem names in `MANIFEST.json`.

- **C01 Alignment helpers return the least aligned value** — both helpers as total functions on Nat; least-multiple theorem, idempotence, padding below the alignment. *Files:* `Props/Mem.lean`. *Result (proved):* over unbounded naturals; overflow of int/size_t not modelled
- **C02 A buffer of the calculated size always suffices for the matching assign** — a generic bump allocator (align / advance operations) with a general sufficiency theorem for every base address; each calculate_size/assign pair is a size expression and an operation list depending on all dimensions and options; nested objects by induction over trees. blasfeo_memsize_* are parameters (multiples of 64), sizeof(T) parameters. *Files:* `Props/MemModules.lean`, `Props/MemNest.lean`, `Props/MemNlp.lean`, `Props/MemQp.lean`, `Props/MemSim.lean`. *Result (partial):* proved for 90 calculate_size/assign pairs (constraints, cost, dynamics, integrators, external functions, QP layer and its solver interfaces, NLP layer, regularization, globalization, the four NLP solvers) for all dimensions and option combinations, and for whole trees of nested objects (C02_nested); false and shown false for: linear least-squares cost model, ocp_nlp_dims with even N, DAQP memory, OOQP workspace, OSQP memory with 4-byte integers, and the ERK/IRK workspace used for adjoints; HPMPC is not modelled
- **C03 Constraint fields read back what was last written and do not disturb each other** — model struct with the packed vector d and index arrays; model_set/model_get as interpreters of a field type; refinement to a field-value map for every history. *Files:* `Props/Bgh.lean`. *Result (proved):* every history and dimension; ls/us/idxe fields have no getter, their effect is covered by C05; memory safety of the writes needs the slack groups not to exceed ns (counter-theorem otherwise)
- **C04 Bounds at or beyond +-1e10 are switched off, all others stay on** — mask updates as in the code; invariant over histories, also over IEEE comparisons. *Files:* `Props/Bgh.lean`. *Result (partial):* masks proved for every history, also with IEEE comparisons; zero contribution proved for finite bounds; false for a bound written as -infinity in floating point (NaN row, counter-theorem); false for slack bounds in the function evaluation of the bgp module, where they are not switched off (exact characterisation and witness); that the QP solver keeps masked multipliers at zero is trusted
- **C05 Inequality function values are nonpositive exactly when the constraints hold** — compute_fun modelled componentwise; iff theorem from the history of user writes; the evaluation of the bgp module compared row by row. *Files:* `Props/Bgh.lean`. *Result (partial):* end to end from the history of user writes; exact arithmetic; both slack formulations; complete for the bgh module and the linearisation of both; for the function evaluation of the bgp module only if no slack is below a switched-off bound (-1e10), otherwise false (C04_bgp_off_slack_counterexample)
- **C06 The constraint adjoint is the transpose-Jacobian product** — adjoint as the sequence of scatter-adds; finite-sum identity with the Jacobian. *Files:* `Props/Bgh.lean`. *Result (partial):* proved for the bgh module; for the bgp (convex-over-nonlinear) module proved with idxs and false with idxs_rev (counter-theorem)
- **C07 Soft-constraint selection follows the last write** — initialize with the persistent memory idxs_rev; exact characterisation over solves. *Files:* `Props/Bgh.lean`. *Result (partial):* proved for idxs_rev and for the first solve; false in general for the idxs lists: soft rows accumulate over solves (exact characterisation and witness)
- **C08 Jacobian of nonlinear constraints with algebraic variables lands in its own columns** — block writes of the constraint Jacobian at matrix level; exact formula. *Files:* `Props/Bgh.lean`. *Result (partial):* proved for ng = 0 or nz = 0; false otherwise (exact formula and witness)
- **C09 Funnel width stays positive and never grows during a solve** — funnel state machine; invariant over accepted-step histories. *Files:* `Props/Funnel.lean`. *Result (proved):* exact arithmetic; trial infeasibilities assumed >= 0 (they are l1 norms)
- **C10 Every accepted funnel iterate is inside the funnel and makes progress** — decision logic of the acceptance test. *Files:* `Props/Funnel.lean`. *Result (proved):* exact arithmetic
- **C100 The QP solver is called with the options last set, after any history of option calls and solves** — options and values by name, dispatch at the first underscore, setters of all QP solver interfaces, option writes of a solve; exit and wrongly typed values are errors; spec = the value last set in a history, over the user's names (Spec/QpOpts.lean); proof: an observation of the options commutes with every event, induction over the history. *Files:* `Props/QpOpts.lean`. *Result (partial):* Proved: the claim for HPIPM (tolerances; iteration limit and warm start if modes are selected first), the exact value each other solver uses after any history, NLP tolerances, adaptive tolerances, generated solvers with HPIPM. Refuted: qpOASES never relaxes a tolerance; OSQP and Clarabel merge the tolerances for equalities and inequalities, OSQP has a floor; Clarabel ignores calls after the first QP; a mode of HPIPM drops earlier calls; OSQP stays verbose; the QP print level is overwritten; QORE and OOQP cannot be used by a generated solver; the real-time iteration ignores the NLP tolerances of the description. Missing: stat_max, alpha_min, mu0 and other solver parameters; the copy qpDUNES takes of its options.
- **C101 The stage costs of the generated solver are those of the problem description** — cost fields of a description as arrays with sizes, the checks as a partial function, the template as a list of setter calls with filled buffers, composed with the module of C42; the eigenvalue routine is a parameter with a contract; spec = well-formedness, needed fields, the stage cost (Spec/OcpCost.lean); proof: one equivalence per checker, buffers by induction over the assignments, agreement of the module with the description through the fold of the calls. *Files:* `Props/OcpCost.lean`. *Result (partial):* Proved: well-formed costs are accepted; accepted costs are well-formed up to the tolerances of the weighting matrix and the columns of Vz; every needed field is set at every stage with the data of the description; value of a linear least-squares cost from the description to the module. Refuted: columns of Vz are not checked; asymmetric and indefinite matrices pass, small positive definite ones do not; dims.ny survives a change to an external cost; the copied initial cost is frozen; the type of an external terminal cost is compared as a substring. Missing: AUTO (C86), expressions beyond their lengths, the values of nonlinear costs, NaN.
- **C102 Setting an option at run time changes that option or raises an exception** — the lists of names and checks of options_set, the branch of the C setters for a name as data found by the comparisons of the code, executed on a typed buffer; the QP solver setter is a parameter, instantiated with C100; spec = table of options with name, type, member and range (Spec/OptSet.lean); proof: agreement of names and branches for all solvers and options by one kernel computation over the finite table, values and sequences by cases and induction. *Files:* `Props/OptSet.lean`. *Result (partial):* Proved: good calls set their option and nothing else; unknown names and wrong types raise; frame of every successful call; last value after any sequence of good calls; types and checked ranges are invariant under arbitrary calls; HPIPM accepts its options. Refuted: values out of range and options the solver or QP solver does not have end the process (rti_phase 0 passes the checks for every solver); max_iter is ignored by real-time solvers; large integers are cut off and pass the limit of iterations; warm_start_first_qp reads one byte of an integer; the check of rti_phase uses the level of the description. Missing: options only set through C, subclasses of the Python types.
- **C103 Arrays handed to the solver from Python arrive as they are** — numpy arrays as memory with offset and strides, copies and flattenings as buffers with a length, accesses beyond it as a distinct outcome, the caller arrays of time steps as objects that a program changes and passes; spec = elements, column by column (Spec/PyArr.lean); proof: index arithmetic, induction over the updates and over the history. *Files:* `Props/PyArr.lean`. *Result (partial):* Proved: cost_set and constraints_set with api new (and warn, when it succeeds) for all strides; acceptance of warn; shapes; reads in bounds; round trip; set for vectors and columns; integrators for vectors and Fortran order; sparse parameters and time steps for consecutive arrays. Refuted: api old transposes; a matrix without columns is accepted for a vector; set takes the first row of a matrix; the integrator reads freed memory; sparse parameters and time steps ignore strides; a negative index changes another stage; time steps changed in place are not noticed; the batch solver checks only the number of entries. Missing: conversions from other element types, NaN in the comparison of warn.
- **C104 The checks of strict complementarity and of LICQ at a solution say whether these conditions hold** — bounds, values, multipliers and gradients read through the index maps of a stage, lists of positions, loops with early return, rank of the matrix of gradients; spec = active bounds, multipliers, vanishing combinations of gradients (Spec/Regularity.lean); proof: membership in the lists, full rank as independence of the rows, induction over the stages for the block triangular matrix of the whole problem; the index maps of the C97 model give the hard constraints of the optimal control problem (Spec/RegularityOcp.lean). *Files:* `Props/Regularity.lean`, `Props/RegularityOcp.lean`. *Result (partial):* Proved for all problems: the index lists and exceptions; strict complementarity for hard constraints; the check of a stage is linear independence with respect to the variables of the stage; the checks of all stages together imply linear independence for the whole problem, without the equalities on variables of the initial stage and without soft constraints; for problems built by the CasADi solver class (C97) the constraints read are the hard constraints of the optimal control problem. Refuted: the tolerance argument has no effect; violated equalities are not noticed; soft constraints are ignored by both checks; LICQ is reported if the fixed initial state makes it fail, and not reported if it holds because of the next state. Missing: the numerical rank, NaN, single shooting.
- **C105 A QP description that is accepted is the QP the solver receives** — unset fields as options, the checks of a stage (shared with C95), array memory in column-major order that is undefined outside of the array, creation of the solver with early exceptions; spec = documented shapes, reading entry by entry (Spec/QpDesc.lean); proof: case analysis over the fields, arithmetic of positions, counting of constraints per slack; check_licq as rank of a list of rows, the identity block removes the dynamics (Spec/QpLicq.lean). *Files:* `Props/QpDesc.lean`, `Props/QpLicq.lean`. *Result (partial):* Proved for all descriptions: fields that are checked arrive entry by entry; descriptions with the documented shapes are accepted; exactly when a solver is created; solvers without masks get none that is zero; slack indices are expressible by slack exactly if no slack is used twice and none is unused. Refuted: masks and slack indices have no defaults; options may not be omitted; columns of A, upper bounds, the terminal number of states and the columns of Q are not checked, so the solver reads outside of the arrays; unused slacks are not noticed. check_licq, for stages with bounds on controls only or without controls: it is true exactly if the active constraints of every stage but the last are linearly independent; if it is false, LICQ does not hold; if it is true and active constraints depend on controls only, LICQ holds. Refuted: it is true although LICQ fails, because the terminal stage and the coupling by the dynamics are left out; it raises an exception for bounds on states with documented indices and for changing numbers of states. Missing: numerical rank, types of arrays, the setters of HPIPM.
- **C106 Iterates as Python objects: default, comparison, arithmetic, batches** — arrays as addresses in a memory, as stages share arrays; broadcasting of NumPy; spec = sizes and values of the default iterate, entrywise closeness (Spec/IterObj.lean); proof: lists of stages entry by entry, induction over fields and over the concatenation. *Files:* `Props/IterObj.lean`. *Result (partial):* Proved for all sizes and values: the default iterate of a problem with intervals; replacing the array of a stage changes this stage only; comparison of iterates of the same sizes; arithmetic, norm; batches. Refuted: without intervals the default iterate has slacks and multipliers of two stages; a change in place of the state at one stage changes all stages and the bounds on the initial state of the problem; iterates of different sizes are reported as close if an array of one entry meets an empty one, or if only the stages differ; the comparison is not symmetric. Missing: NaN, types other than vectors of numbers.
- **C107 An integrator description that is accepted is supported, and its code has the options the user set** — a description as lengths, options and names, exceptions as none, the hash as an arbitrary function; spec = documented lengths, the place an option is taken from (Spec/SimDesc.lean); proof: one characterisation of a successful call, case analysis of the options. *Files:* `Props/SimDesc.lean`. *Result (partial):* Proved for all descriptions and all hash functions: which are accepted, which option values the code has, when there are warnings, names and files; a second call changes nothing if parameter sensitivities are supported; creating a solver with code generation succeeds for supported combinations only; the description built from an optimal control problem. Refuted: parameter sensitivities with GNSF pass through the deprecated option, and a second call raises an exception; a value that a setter accepts is refused later; a warning of two values after setting one; the same name and file for different options of code generation; matrices as parameter values; algebraic variables with ERK; the integrator of an optimal control problem overwrites the file of the problem. Missing: validity of CasADi symbols, structure detection of GNSF, Simulink, ROS.
- **C108 Logged step norms are the maximum norms of the steps of the iterations** — norms as folds over stages, a call as a list of iterations that write the log; spec = largest absolute value of the entries of the problem (Spec/StepNorm.lean); proof: induction over stages and over iterations. *Files:* `Props/StepNorm.lean`. *Result (partial):* Proved for all dimensions, steps and histories: the norms; one value per step taken, each of its own iteration, if no QP fails. Refuted: after a failure of the QP solver the last value is one that was in memory before the call. Missing: NaN, SQP_WITH_FEASIBLE_QP.
- **C109 Options for parametric sensitivities** — description as a record of choices, `make_consistent` and the check before evaluation as lists of conditions, evaluations as loops over stages with outcomes exception, end of the process, undefined, result; spec = documented requirements (Spec/SensOpts.lean); proof: case analysis and stages. *Files:* `Props/SensOpts.lean`. *Result (partial):* Proved for all descriptions: values of the options from both places, which descriptions are accepted, repeated calls, the check before an evaluation, evaluations of supported descriptions. Refuted: the requirements are not checked for options at their new place; the deprecated option does not always turn on both directions; the check depends on whether the description was made consistent; adjoint sensitivities with a linear least-squares cost, BGP constraints, continuous dynamics and a missing option of the optimal-value gradient end the process instead of raising an exception. Missing: the other checks of make_consistent, several phases.
- **C11 The funnel penalty parameter decreases only as much as needed and keeps the predicted merit reduction positive** — case analysis of the penalty update. *Files:* `Props/Funnel.lean`. *Result (partial):* the claimed predicted reduction is false for predicted objective changes in (-1e-4,0); proved up to 1e-4*penalty and exactly outside that window
- **C12 Backtracking line searches terminate after a computable number of trials and leave the iterate untouched on failure** — backtracking loops; termination with explicit bound by induction, iterate as loop invariant. *Files:* `Props/Funnel.lean`, `Props/Merit.lean`. *Result (partial):* termination for all three line searches and failure-leaves-iterate for funnel and DDP are proved; the latter is false for merit backtracking (counter-theorem), and termination is false outside the stated option range (counter-theorem)
- **C13 A merit line-search step that is reported successful satisfies the descent condition** — line search loop; list of exactly the cases in which success is reported. *Files:* `Props/Merit.lean`. *Result (partial):* claim is false: an exhausted search is reported as SUCCESS with an untested step (counter-theorem); the partial theorem lists exactly the cases
- **C14 Merit weights dominate the multipliers and adapt by averaging** — merit weight update; invariant over histories. *Files:* `Props/Merit.lean`. *Result (proved):* exact arithmetic; inequality multipliers are compared without absolute value as in the code
- **C15 SQP status codes mean what they say** — termination checks over `Dbl`, main loop over oracle streams; meaning of each status by induction over the loop. *Files:* `Props/Funnel.lean`, `Props/Merit.lean`, `Props/Sqp.lean`. *Result (partial):* meaning of every status proved for nonnegative max_iter, for every oracle; full claim is false in three corners (counter-theorems): negative max_iter returns SUCCESS, stale NaN with max_iter=0, stale cost with fixed-step globalization
- **C16 SQP performs at most max_iter QP solves and never writes outside its statistics** — same loop with ghost counters and a ghost overflow flag. *Files:* `Props/Sqp.lean`. *Result (partial):* proved for max_iter not above its value at creation; the reported count is one less than the number of QPs when globalization fails (stated exactly); counter-theorem for max_iter raised later
- **C17 Timeout prediction** — timeout estimators as folds over measured durations. *Files:* `Props/Sqp.lean`. *Result (partial):* all heuristics proved; the AVERAGE heuristic is not an average of durations (exact formula proved)
- **C18 Warm start of the first QP is a per-call decision and leaves the user's option in place** — warm-start option as part of the loop state, over histories of calls. *Files:* `Props/Sqp.lean`, `Props/WfqpLoop.lean`. *Result (partial):* proved for every history once a level is configured (SQP and SQP with feasible QP); counter-theorem for solvers whose default level is 1
- **C19 Real-time iteration phases** — phase dispatcher as a state machine over histories of calls with event log; equality of the split and the combined call. *Files:* `Props/Rti.lean`. *Result (partial):* Split equals combined is proved for all inputs except the first call with warm_start_first_qp and warm_start_first_qp_from_nlp, where it is false (witness). The QP a feedback call solves, the status of every call and the exact condition for the statistics to stay in bounds are proved. A failed globalization is reported as success (proved), and repeated feedback with default options writes behind the statistics array (proved).
- **C20 DDP iterates satisfy the dynamics exactly and the cost never increases** — forward sweep over an arbitrary dynamics function, feedback gains, globalisation loop; induction on horizon and on iterations. *Files:* `Props/Ddp.lean`, `Props/Merit.lean`. *Result (partial):* Exact dynamics for every accepted iterate unconditionally. Cost monotone with the Armijo globalization from the first dynamically feasible iterate on; false for fixed-step globalization (witness), which also ignores the feedback gains (theorem). Prescribed initial state only if the guess starts there or violates the dynamics (theorem), otherwise SUCCESS can be returned at a wrong initial state (witness).
- **C21 Feasible-QP SQP: the relaxed subproblem is always feasible and the bounds handed to the nominal QP are consistent** — bounds and slacks of the relaxed QP; existence of a feasible point for all data; feasibility of the nominal QP after the bound update. *Files:* `Props/Wfqp.lean`. *Result (partial):* Relaxed QP always feasible; nominal QP after the bound update admits the relaxed solution for relaxation factors >= 1; for a factor below one (accepted by the setter) the nominal QP can be infeasible.
- **C22 Feasible-QP SQP: search-direction mode switching** — mode automaton inside the full loop model, over all outcome histories. *Files:* `Props/Wfqp.lean`, `Props/WfqpLoop.lean`. *Result (proved):* For every history of outcomes. The zero-slack iterations need not be consecutive, contrary to the comments in the header (witness).
- **C23 Relaxation indices address every non-slacked constraint exactly once** — index list construction as in the code; each index exactly once by count arguments. *Files:* `Props/Wfqp.lean`. *Result (partial):* Proved for every stage whose soft constraints are declared through idxsbu/idxsbx/idxsg/idxsh without repetition. With the idxs_rev formulation, or a repeated index, more values are written to idxns than allocated (negations with exact counts).
- **C24 QP scaling does not change the solution** — scaling loops as folds with closed forms; KKT systems before and after related by an explicit bijection of multipliers. *Files:* `Props/QpScaling.lean`. *Result (partial):* equivalence of KKT points, objective values and minimisers proved when no slack is shared by two scaled constraints and the objective factor is finite; false for a shared slack (witness)
- **C25 Scaling factors are bounded and positive** — bounds of the factors by the loop closed forms. *Files:* `Props/QpScaling.lean`. *Result (partial):* factor bounds, maximality and curvature limit proved for all data; the reported smallest factor ignores the terminal stage, the warning status can be a false alarm and a zero objective gives an infinite factor (theorems)
- **C26 Adaptive Levenberg-Marquardt parameter stays within its limits** — adaptive Levenberg-Marquardt update; invariant over histories. *Files:* `Props/NlpParam.lean`. *Result (proved):* exact arithmetic; every history; side findings: one full step can undo more than one growth step, the user option levenberg_marquardt is overwritten
- **C27 Primal-dual step update** — step update of primal and dual variables; componentwise identity for both update modes. *Files:* `Props/NlpStep.lean`. *Result (proved):* exact arithmetic; BLASFEO vector kernels modelled by their documented meaning
- **C28 Anderson acceleration step** — Anderson acceleration update over histories of steps; exact formula. *Files:* `Props/NlpStep.lean`. *Result (partial):* documented update proved for step length 1; for damped steps the code applies alpha twice (exact formula and witness); NaN weight for two equal steps
- **C29 Residuals vanish exactly at KKT points** — residual computation with its persistent norms; iff with the KKT conditions (separate spec). *Files:* `Props/NlpRes.lean`. *Result (partial):* exact characterisation for tau_min = 0 with nonnegative multipliers; sign of multipliers is not checked; for tau_min != 0 two defects (stale norms, wrong equality row); NaN inequality values are ignored
- **C30 QP objective value and predicted reductions** — QP objective value loop; exact formula. *Files:* `Props/NlpRes.lean`. *Result (partial):* true without slacks; with slacks the code adds the squared slack steps (exact formula and witness)
- **C31 Infeasibility measure** — infeasibility measure loop; equals the l1 violation (separate spec). *Files:* `Props/NlpRes.lean`. *Result (proved):* exact arithmetic
- **C32 Regularised Hessian blocks are symmetric positive definite (mirror / project)** — mirror/project over an arbitrary exact eigendecomposition; quadratic form bounds. *Files:* `Props/Reg.lean`. *Result (proved):* exact arithmetic; the eigenvalue routine is a parameter assumed exact (exact_eig_exists shows the assumption can be met for all blocks at once)
- **C33 Gershgorin-Levenberg-Marquardt regularisation gives positive definite blocks** — Gershgorin radius loop; diagonal dominance implies definiteness. *Files:* `Props/Reg.lean`. *Result (proved):* exact arithmetic
- **C34 Convexification preserves the QP objective on feasible trajectories** — backward recursion; telescoping sum over the horizon. *Files:* `Props/Convexify.lean`. *Result (partial):* objective part proved for non-increasing state dimension (false otherwise, witness); convexity proved for at most one control per stage and false for two (witness: the eigenvalue test reads the triangle that was not updated)
- **C35 Dense linear solver** — LU with partial pivoting and substitution on flat arrays; loop invariants; success iff nonzero determinant. *Files:* `Props/LinSolve.lean`. *Result (proved):* exact arithmetic, every size; success is reported exactly for nonzero determinants; info must be 0 on entry
- **C36 Neville interpolation** — Neville scheme in place; polynomial interpolation uniqueness. *Files:* `Props/LinSolve.lean`. *Result (proved):* exact arithmetic, every number of points
- **C37 Matrix exponential approximation** — Pade branches on matrices; polynomial identities and nonsingularity by norm bounds. *Files:* `Props/Expm.lean`. *Result (partial):* proved for one-norms up to 2.0978 (degrees 3 to 9, including nonsingularity); the degree 13 branch uses a wrong coefficient: false for larger norms (exact polynomial and witness with 12 percent error)
- **C38 Explicit Runge-Kutta forward and adjoint sensitivities agree** — array-level forward and adjoint sweeps over arbitrary linearisations; adjoint identity by induction over stages and steps. *Files:* `Props/Erk.lean`. *Result (proved):* array-level model of the forward and adjoint sweeps; exact arithmetic; the generated model functions are parameters assumed to return the derivatives of the right-hand side; the Hessian option is not covered
- **C39 Butcher tableaus are consistent collocation schemes** — tableau construction; polynomial exactness of nodes and weights; order conditions over rooted trees. *Files:* `Props/Butcher.lean`. *Result (proved):* exact arithmetic; explicit order conditions for orders 1 to 4 (all rooted trees); Radau literals shown near-exact to degree 2ns-2; Gauss nodes exact to degree 2ns-1 once the node iteration has converged (convergence itself not proved: its slope is (ns+1)/ns times the derivative)
- **C40 CasADi sparse buffers and acados dense arrays convert without loss** — CCS pattern conversions in both directions, all argument types; round trip and frame theorems. *Files:* `Props/Casadi.lean`. *Result (partial):* every valid pattern and every argument type; false for dense non-square column-major arguments with a leading dimension (witness) and a vector argument without columns is read past its end (theorem)
- **C41 Parameter updates are exact** — parameter memory shared by external functions; refinement to the abstract parameter vector over histories. *Files:* `Props/Params.lean`. *Result (partial):* every history of full, sparse and flat updates; generic functions without parameter memory are not refused and sparse indices are not checked (theorems)
- **C42 Linear least-squares cost caches follow the last written weights** — cost module with cached factor and products; cache coherence over histories. *Files:* `Props/Cost.lean`. *Result (proved):* every sequence of writes and solver calls; exact arithmetic; Cholesky and sqrt are parameters assumed exact for the last weight; negative result: evaluating the cost after writing W without a new initialize uses the old factor
- **C43 Cost gradient and value agree** — value and gradient paths of the four cost modules; chain rule identities. *Files:* `Props/Cost.lean`. *Result (partial):* all four cost modules, with algebraic variables; generated functions assumed to return the derivatives of their value; false for cost integrated in the integrator with slacks and scaling != 1 (witness); line-search value of linear least squares is part of C42_ls_history
- **C44 Dimension bookkeeping does not depend on the order of setters** — dimension setters as folds; derived dimensions as a function of the last writes. *Files:* `Props/Dims.lean`. *Result (partial):* all derived dimensions, for every sequence of calls; the reported number of inequality constraints is stale when the number of slacks is written after the constraint dimensions (exact value and witness)
- **C45 Statistics getter layout** — statistics table layout; row/column addressing. *Files:* `Props/Sqp.lean`. *Result (proved):* for every number of iterations, rows, columns
- **C46 Flat trajectory get/set round-trips** — offset arithmetic of flat getters and setters; round trip and frame over stage lists. *Files:* `Props/Flat.lean`, `Props/Params.lean`. *Result (proved):* all fields; parameters are the setFlat/getFlat requests of C41; multipliers are multiplied by the mask on writing
- **C47 Sparse QP matrix construction (OSQP)** — construction of P, A, l, u in CSC form for OSQP with array capacities; sortedness, bounds, and equivalence of optimality conditions. *Files:* `Props/Osqp.lean`. *Result (partial):* Sorted well-formed CSC matrices that fit the allocated arrays, and equivalence of the optimality conditions (multipliers included) with the stage-wise QP, for all horizons, dimensions, data and call histories, when every stage has at most as many softened rows as slacks, no variable has two bounds and no side of a constraint is switched off. Proved to fail otherwise: shared slacks overflow the arrays, one-sided constraints are enforced on both sides, the second bound on a variable is dropped. OSQP itself is trusted.
- **C48 Dense QP stacking** — stacking of slacks and index mapping of the qpOASES interface; bijection of feasible points and of KKT points. *Files:* `Props/DenseQp.lean`. *Result (partial):* Stacking of slacks and the qpOASES interface, for all dimensions and data: same objective, same feasible set and minimum, and every solution of qpOASES is returned as a point satisfying the optimality conditions of the original QP, provided hard bounds are listed by variable, soft bounds in the order of their slacks, slack lower bounds are zero, no equality constraints and no masks. Each of these conditions is necessary (witnesses); the first three are defects of the code. qpOASES itself is trusted.
- **C49 Partial condensing block sizes cover the horizon** — block size default and user block sizes over option histories; sum and evenness; capacity of the arrays. *Files:* `Props/Pcond.lean`. *Result (partial):* Default sizes (the algorithm is HPIPM, restated) cover the horizon evenly; user sizes are used and refused exactly when they do not sum to N, for every history in which N is set first. Not refused: negative sizes, a condensed horizon longer than the horizon (writes behind the arrays, theorem), and a change after creation followed by an update (witnesses).
- **C50 Second-order correction right-hand side** — right-hand side of the second-order correction; exact formula against the Taylor model. *Files:* `Props/Soc.lean`. *Result (partial):* right for hard inequality constraints and for affine problems without soft constraints; the dynamics part has the wrong sign of the function value and slack steps enter with the wrong sign (exact formulas and witnesses)
- **C51 Adaptive QP tolerances** — adaptive QP tolerance update; bounds and monotonicity over histories. *Files:* `Props/NlpParam.lean`. *Result (proved):* exact arithmetic, plus NaN residuals
- **C52 The slope used by the sufficient-descent test is the slope of the merit function** — directional derivative of the merit function as coded against the one-sided derivative. *Files:* `Props/Merit.lean`. *Result (partial):* claim is false for violated lower constraints (wrong sign); exact error term proved
- **C53 Stored iterates are the iterates of the run** — event log of the loop; QP solve counts in the statistics. *Files:* `Props/Sqp.lean`. *Result (proved):* for every run; max_iter nonnegative
- **C54 Every OpenMP schedule gives the sequential result** — parallel loops as arbitrary interleavings of the iterations; independence of the schedule. *Files:* `Props/NlpStep.lean`. *Result (partial):* proved for the variable update loop; ocp_qp_out_add shares a loop-length variable between threads: independent of the schedule only if all stages have the same size (race witness)
- **C55 Multipliers recovered after convexification solve the original KKT system** — dual recovery after convexification; stationarity residual in closed form. *Files:* `Props/Convexify.lean`. *Result (partial):* proved for the full regularisation when no stage is projected and the initial state does not move; exact residual otherwise; in the RTI split the multipliers are recovered from a stale gradient (theorem)
- **C56 Exact Hessian of an external cost with algebraic variables** — Hessian contribution of nonlinear constraints; block placement. *Files:* `Props/Cost.lean`. *Result (partial):* true without algebraic variables; false with them: the mixed block enters transposed and, for fewer algebraic variables than controls and states, memory outside it is read (witnesses)
- **C57 Resetting an iterate writes only the iterate** — zeroing of the iterate; memory extent of the writes. *Files:* `Props/Flat.lean`. *Result (partial):* all numbers become zero; the write stays inside the iterate exactly when the first stage has no more inputs than there is room for inequality multipliers, false otherwise (theorem)
- **C58 The cone problem given to Clarabel is the stage-wise QP** — construction of the Clarabel data (cones, signs, CSC arrays); equivalence of optimality conditions. *Files:* `Props/Clarabel.lean`. *Result (partial):* equivalence of optimality conditions for QPs without one-sided constraints and with at least as many inequality rows as states; otherwise the Hessian sign of leading entries is flipped (exact formula and witness) and masks are ignored (witness); solver itself trusted
- **C59 SQP with feasible QP: status and statistics** — full loop of SQP_WITH_FEASIBLE_QP over oracle streams; status by induction. *Files:* `Props/WfqpLoop.lean`. *Result (partial):* Proved for nonnegative max_iter not larger than at creation. READY is returned for a negative max_iter and for the mode FEASIBILITY_QP; raising max_iter after creation writes outside the statistics table (witnesses).
- **C60 SQP with feasible QP: regularisation** — event log of regularisation calls in the same loop. *Files:* `Props/WfqpLoop.lean`. *Result (partial):* Exactly once with the identity Hessian in the relaxed QP. With the constraint Hessian the relaxed QP is never regularised (theorem) and the nominal one twice (witness).
- **C61 QP solver interfaces: current data in, true status out** — solver interfaces as state machines over histories of calls with an arbitrary solver; data handed over and status mapping. *Files:* `Props/QpCall.lean`. *Result (partial):* Proved for HPIPM, DAQP and for qpOASES without hot start, for all histories and answers. With hot start qpOASES keeps the matrices of the first call (theorem), and for problems with bounds only its report is dropped and SUCCESS always returned (theorem and witness).
- **C62 QP solver options take the value written last** — option histories of the QP solver interface; last-write theorems. *Files:* `Props/QpCall.lean`. *Result (partial):* Iteration limit and warm start level follow the last write. The tolerance does not: it is the minimum of everything ever written and the default 1e-4 (theorem).
- **C63 GNSF integrator steps are implicit Runge-Kutta steps of the declared model** — all precomputed blocks (block LU elimination on flat model matrices) and the Newton loop; the condensed equations are shown equivalent to the stage equations of the declared model (separate spec `IrkStep`), induction over the steps. *Files:* `Props/Gnsf.lean`. *Result (partial):* For all models, tableaus and numbers of steps, with exact LU factorisations. Without algebraic variables in the nonlinear part no further condition is needed (C63_step_ode). With them, the row permutation of the Schur complement must be trivial (it is applied to the wrong matrix, witness) and the workspace zero outside the diagonal blocks of LLZ (witness).
- **C64 GNSF forward sensitivities are the derivative of the discrete step** — sensitivity matrices of a step and their chaining; applied to a direction they solve the linearised step (spec `LinStep`, `LinRun`). *Files:* `Props/GnsfSens.lean`. *Result (partial):* Under the conditions of C63 and for one precompute after creation; a second precompute doubles the stored control sensitivity of the linear output states (witness). The phi Jacobians are parameters: the theorem says the code uses them as the linearised equations demand.
- **C65 GNSF adjoint sensitivities are the transpose of the forward sensitivities** — adjoint pass; pairing identity per step and by induction over the trajectory. *Files:* `Props/GnsfSens.lean`. *Result (partial):* For all models, trajectories, seeds and numbers of steps. With trivial f_LO the workspace block dK2_dvv must be zero; it is never written (witness).
- **C66 The shortcut for fully linear GNSF models gives the result of the integration** — stored matrices of the shortcut against the integration itself, induction over the steps. *Files:* `Props/GnsfSens.lean`. *Result (partial):* State for models without constant term, forward sensitivities for the identity seed, adjoint for seeds without control part. Witnesses: constant term dropped, wrong when sens_forw is off during precompute, non-identity seed reads a stale block, control part of the adjoint seed dropped. Algebraic outputs of the shortcut are not modelled.
- **C67 IRK integration performs the Runge-Kutta steps of the tableau with the configured Newton iteration** — Model of the stage vector with the C offsets; specification as separate families of stage derivatives and algebraic variables and an inductive Newton run; block lemmas for every BLASFEO call, induction over iterations and steps. *Files:* `Props/Irk.lean`. *Result (partial):* For all models, tableaus and numbers of steps; corrections computed at singular linearisation points are left unspecified. For affine models the stage equations are solved exactly. In general success does not imply it: the integrator never checks convergence (witness).
- **C68 IRK forward and parameter sensitivities are the derivative of the discrete steps** — block lemmas give the linearised stage equations; induction over the steps. *Files:* `Props/Irk.lean`. *Result (proved):* For every list of steps at which the linearised stage equations are uniquely solvable; identity_seed only with the seed [I, 0].
- **C69 IRK adjoint sensitivities are the transpose of the forward sensitivities** — transposed solve, induction over the linearised run. *Files:* `Props/Irk.lean`. *Result (proved):* Control part of the seed included.
- **C70 IRK Hessian is the second derivative of the seed-weighted final state** — second-order propagation as inductive relation; upper triangle as a symmetric sum over the steps. *Files:* `Props/IrkHess.lean`. *Result (proved):* The generated Hessian function is a parameter: the symmetric combination of second derivatives with the multipliers.
- **C71 Algebraic outputs of IRK are the interpolation of the stage values and carry the right sensitivities** — Neville scheme equal to the Lagrange interpolant (uniqueness by degree); stage tangents from C68; the exact option only for affine models, two negations. *Files:* `Props/IrkAlg.lean`. *Result (partial):* Interpolated outputs and sensitivities are proved; exact_z_output is proved for affine models and refuted in general.
- **C72 Cost propagated by the integrator is the Runge-Kutta quadrature of the stage cost, with its derivatives** — quadrature and its linearisation as separate recursive specification; one induction over steps and stages for an arbitrary functional of the accumulators, instantiated for value, gradient and Hessian; negation for full weights. *Files:* `Props/IrkCost.lean`. *Result (partial):* Refuted for least squares with a non-diagonal weight (value and gradient); everything else proved.
- **C73 Hessian blocks of the QP are the sum of the selected contributions** — writes of the dynamics, cost and constraint modules to one block in the order of the linearisation, flags as a fold over option calls; invariant "add implies dynamics Hessian on", specification by last request; derivative of the Lagrangian via the cost calculus; negations for toggling, fixed Hessian and mixed terms; convex-over-nonlinear constraints by the loop over components, term specified as a sum over components, semidefinite by exchanging sums. *Files:* `Props/Hess.lean`. *Result (partial):* Proved for the option sequence of the generated code and all sequences that switch exact_hess_dyn on only while it is on. Refuted: switching exact_hess_dyn off and on again, constraints with algebraic variables (mixed terms missing), fixed_hess with exact dynamics, fixed_hess with constraints phi(r) (their term is added again in every linearisation), Levenberg-Marquardt for the relaxed QP. Constraints phi(r): generalised Gauss-Newton term with the multipliers of the upper bounds, positive semidefinite for convex phi, exact for affine r; lower bounds do not enter.
- **C74 Dynamics data of the QP are the linearisation of the integrator at the iterate** — modules as array programs around an arbitrary integrator with a contract (proved for the integrators in C38, C64 to C71); index arithmetic for all dimensions; tracing wrapper for histories; negations by witnesses. *Files:* `Props/Dynamics.lean`. *Result (partial):* Discrete module: proved for all dimensions. Continuous module: for equal state dimensions of both stages (otherwise the seed is wrong, witness). Refuted: trial points use the algebraic variables of the linearisation point; integrator failures are ignored.
- **C75 Solving a dense QP with DAQP returns its solution** — the set-up and translation loops as array programs; Cholesky factor, reciprocal square root and DAQP as parameters with contracts (optimality conditions of the least-distance problem); algebra of the change of variables, one side of one constraint at a time; invariant over call histories; witnesses for every condition. *Files:* `Props/Daqp.lean`. *Result (partial):* For all dimensions and data: the returned point satisfies the optimality conditions and is a global minimum, after any history of calls with the same matrices in which only hot-started calls failed. Conditions: no constraint row shorter than the tolerance in the metric of the Hessian, slack penalties not decreasing at the slack bound, slack bounds not masked, one constraint per slack; each is necessary (witnesses). DAQP and the Cholesky factorisation are trusted; quadratic penalties below 1e-8 are raised.
- **C76 Solution sensitivities are the derivatives of the solution** — array programs for the sensitivity matrices (with arbitrary earlier contents), seeds, accumulation and copies; external functions replaced by the derivatives they return; QP sensitivity routines as parameters with a contract (solve the differentiated optimality conditions); spec = linear system obtained by differentiating the optimality conditions, adjoint identity by exchanging sums over stages; witnesses for the wrong signs and the missing terminal term. *Files:* `Props/ParamSens.lean`. *Result (partial):* Adjoint gradient: proved for all problems. Forward: proved for constraints without mixed derivatives in variables and parameters; refuted otherwise (wrong sign). Initial state: proved if the upper side of the bound has no multiplier; refuted with both sides active, and when not every state is bounded. Value gradient: proved without parameters in the terminal constraint; refuted with. Options: update_fact_exit stays set.
- **C77 The lifted implicit integrator takes one consistent Newton step per call** — reuses the residual and Jacobian model of C67 with arbitrary stored stage values; spec = one Newton iteration for the coupled steps (inductive), sensitivities and exact steps as inductive relations; induction over the steps with the invariant corrected minus linearised state; affine models by uniqueness; the sign of the prediction computed for every affine model, reset by a witness. *Files:* `Props/LiftedIrk.lean`. *Result (partial):* Newton iteration, fixed points and affine exactness are proved for every memory content. Refuted: the prediction moves the stage values against their derivative (for affine models it doubles the residual; later steps are not predicted at all); a reset leaves the stored derivative and last inputs in place (witness), it is equivalent to a new integrator only if state and control are unchanged.
- **C78 Projection of the reduced Hessian gives a strictly convex QP on the dynamics and leaves good problems alone** — function-by-function model of the backward sweep including stale scratch contents, pivot search, exchange and elimination; spec = quadratic form along directions of the dynamics, stationary and minimal cost-to-go; completion of squares H' + BAᵀP BA = F Fᵀ + diag(0, P⁺) at every stage, telescoped by induction over the stages; unchanged by rolling out the optimal feedback and eigenvalue bounds; cost-to-go by the LDLᵀ identity of the elimination; concrete problems for the default options. *Files:* `Props/ReducHess.lean`. *Result (partial):* Convexity along the dynamics and the no-change statement are proved for all data and options with thr_eig, min_eig > 0 (exact eigenvalue and Cholesky routines as hypotheses, shown satisfiable over the reals). The cost-to-go statement is proved without pivoting and without pivots below min_pivot; it is refuted for the default options (the symmetric exchange of rows and columns acts on wrong entries) and for small pivots (replaced with the opposite sign).
- **C79 The zoRO update computes the uncertainty tubes and tightens the bounds so that the constraints hold for every admissible disturbance** — model of the rendered template: creation, payload, propagation in the three modes, tightening per row, terminal stage, with accesses outside of objects as outcome; spec = covariance recursion, linear closed loop, joint ellipsoid of the disturbances given by its support function, first-order value of a row; invariants over the stages of one update and over all histories of updates; robust satisfaction from a bound on every linear function of the error by backward induction; refutations by concrete descriptions. *Files:* `Props/Zoro.lean`. *Result (partial):* Recursion, back-offs and robust satisfaction are proved for all histories, modes and gains, under the hypothesis that additional variances are only used with a diagonal W and that a payload is given if diag(W) is an input; both cases are refuted without it. Terminal general linear rows are proved only if the terminal matrix is the beginning of the path matrix (the code uses the path matrix; refuted otherwise). Bounds are tightened from those of stage 1 at creation (refuted for bounds that are changed or vary over the stages). The documented sign A+BK is refuted. Out-of-bounds accesses for more terminal than path rows and for a missing payload with additional variances are refuted as safe. The square root is a parameter.
- **C80 The feedback gains of the zoRO Riccati modes are the optimal feedback of the linear-quadratic problem** — model of the rendered Riccati code: constant gradients at creation, weighting of the rows, products, backward recursion with Cholesky factor and triangular solves as parameters, memory kept between updates; spec = cost of a trajectory of the linearised dynamics; proof by completion of squares at each stage, backward induction (cost = value of the state + positive definite forms of the deviation from the feedback), and an invariant of the memory over all histories. *Files:* `Props/ZoroRiccati.lean`. *Result (partial):* Unique optimality of the gains from every stage and state is proved for all histories, with exact Cholesky solves as hypothesis. In the barrier modes nonlinear rows before the last stage are excluded (the input gradient is packed into row 0; refuted) and terminal bounds must be on the states of the path bounds of the same index (idxbx is used instead of idxbx_e; refuted, with an out-of-bounds read if there is no such path bound). With tightened general linear rows the rendered code does not compile (the loop variable is used outside of the template brackets), so these are excluded. The weights use the back-offs of the previous update.
- **C81 A generated solver holds the numbers of its description after creation and after a reset** — model of the generated solver file as a function of the description: buffers (calloc/malloc with length and uninitialised entries), the guarded setter blocks in order, parameters, initial guess, reset, and the Python record of time steps; spec = value of a field for a kind of stage; proof by reducing the block sequence to the first contribution per field, pointwise loop lemmas, and an invariant over histories. *Files:* `Props/GenSolver.lean`. *Result (partial):* Creation is proved for all consistent descriptions. The reset is proved for solvers with the number of stages of the description; with another number every reset with numerical values has undefined behaviour (the cost-scaling buffer has the length of the new horizon and is filled with the numbers of the old one; refuted in general). set_new_time_steps is proved for histories without such resets; after one, the same new steps are silently ignored (refuted). A reset without the x0 flag does not restore the initial guess, and new steps overwrite the cost scaling (refuted). The template rendering itself is trusted: the model is of the rendered program as a function of the description.
- **C82 A batch solver behaves as independent solvers, whatever the number of threads** — the generated batch functions as families of micro-actions per iteration with all interleavings (Acados.Step.Interleaves), the single and batch setters and getters over the flat storage of C46, the Python object with solvers created on demand, and the OpenMP thread setting; spec = family of independent solvers; proof: commutation of updates of different capsules, writes of one function of the position, and a refinement invariant over histories. *Files:* `Props/Batch.lean`. *Result (partial):* The equality with independent solvers is proved for every interleaving and every history. False parts, refuted with witnesses: a batch solve overwrites the status of members outside of the batch with an old entry; solvers created on growth do not keep the global parameters; wrongly shaped constraint matrices of the right total size are accepted; sensitivities of more than one slack raise an exception; a request of one thread uses all threads of the process, and batch and single solves leave the thread setting of the process changed. Trusted: iterations of the OpenMP loop touch only their own capsule in external libraries; the model gives every interleaving of the calls of the iterations, not of machine instructions.
- **C83 The qpDUNES interface solves the QP it is given** — all conversions of ocp_qp_qpdunes.c as lists of array assignments on arrays with arbitrary old content, the loops over the intervals with failures of qpDUNES at any of them, the first and later calls, clipping and linear MPC mode; spec = the problem qpDUNES solves and its optimality conditions, next to those of the QP (Spec/OcpQp.lean); proof: assignments of one function of the address, loop invariant over the intervals, reindexing of sums between [u;x] and [x;u]. *Files:* `Props/Dunes.lean`. *Result (partial):* Proved: after the first call (and in the first call with clipping) exactly the QP of the caller is handed over, whatever memory and workspace held; minimisers carry over; multipliers carry over for stages without bounds, with bounds on all variables in order, or without inputs. Refuted: in the first call with the default stage solver 1e-8 is added to two entries of the terminal Hessian of the caller (undefined with one state, and added again after a failed set-up); with bounds on some variables of a stage with inputs the multipliers are at wrong places or behind the end of the vector (exact condition in C83_lam_ub); masked bounds are handed over as bounds; a failure while data are handed over leaves the recorded status of the call before. Trusted: qpDUNES reads matrices by rows with variables [x;u], as documented in Spec/Dunes.lean (the submodule is empty).
- **C84 Reformulating the cost of a description keeps the cost** — CasADi expressions as syntax trees with evaluation, substitution and symbolic derivatives (function symbols uninterpreted); the methods of acados_ocp.py as functions on the description that return it or raise, leaving it as it is then; spec = the documented value of a stage cost for each cost type (Spec/CostForm.lean); proof: evaluation lemmas by structural induction, product rule for the quadratic form, case analysis over types and shapes. *Files:* `Props/CostForm.lean`. *Result (partial):* Proved: both translations and the copy to the initial stage keep the cost at all points, the exact condition under which the translation returns, numbers of parameters and of values stay equal, the Gauss-Newton Hessian and its difference to the exact one. Refuted: get_*_cost_expression does not subtract the reference of a CONVEX_OVER_NONLINEAR cost; copy_path_cost_to_stage_0 leaves out the custom Hessian of the outer function; a translation that raises has already appended the parameters. Broadcasting of scalars by CasADi is not modelled.
- **C85 Penalties for constraints cost what is violated** — the Huber functions of penalty_utils.py over an ordered field and the methods of acados_ocp.py on the expression trees of C84; spec = distance to an interval and the Huber function of a distance (Spec/Penalty.lean); proof: case analysis on the branches, evaluation lemmas for a cost with one more residual, induction over the list of constraints. *Files:* `Props/Penalty.lean`. *Result (partial):* Proved: the penalised expression is the distance to the bounds; values after L2 and Huber penalties; exactly which L2 calls return; values, XGN majorisation and lower limits of the Huber functions; the custom Hessian; the feasibility problem without general linear constraints, with and without parametric initial state. Refuted: a two-sided Huber penalty has Hessian 4 times the weight; equal bounds are accepted and cost nothing (division by zero); lower bounds alone and unsupported cost types raise after changing the description; an L2 penalty after an XGN Huber penalty leaves a custom Hessian of wrong size; general linear constraints vanish from the feasibility problem; augment_with_t0_param adds a global parameter value without a global parameter. Vector-valued constraints and floating point arithmetic are not modelled.
- **C86 Cost type AUTO keeps the cost** — detect_cost_type as a function of the coefficients of a quadratic cost, with the answers of CasADi, the linear solver, the random points and the order of Python sets as inputs; spec = value of a LINEAR_LS cost and of a quadratic function (Spec/AutoCost.lean); proof: sums over the listed indices are sums over all variables because the other rows of the Hessian vanish, expansion of the square. *Files:* `Props/AutoCost.lean`. *Result (partial):* Proved: with indices in ascending order a detected cost differs from the given one at most by a constant and by a linear function of variables without second derivative; agreement at the test points for every order; equality everywhere and acceptance for weighted squared distances with nonsingular Hessian; zero costs; terminal costs. Refuted: quadratic costs with another constant, with a linear-only variable or with a singular Hessian raise instead of becoming EXTERNAL; x1^2+2*x8^2 raises because CPython lists {1,8} as [8,1]. Missing: the CasADi tests for quadratic expressions are inputs of the model; exact arithmetic.
- **C87 Stored iterates are restored** — store_iterate, load_iterate, get_iterate, set_iterate, to_json, from_json on data sets whose keys are pairs of a field and the padded decimal digits of the stage; the solver is its per-stage values (C46) with the checks of set; spec = values per field and stage (Spec/IterFile.lean); proof: membership in the data set, injectivity of padded digits, a loop lemma for set. *Files:* `Props/IterFile.lean`. *Result (partial):* Proved: store and load between solvers of the same size for every key order, iterate objects, restoring, JSON round trip and interchangeability if the terminal stage has a number, injectivity of flatten. Refuted: a terminal stage without numbers is lost, an iterate without numbers cannot be read, a longer iterate raises after stages were overwritten, a shorter one is accepted and leaves later stages, multipliers of constraints masked in the target are not restored. Missing: decimal representation of numbers in JSON; iterates of the integrators and parameters, which the files do not contain.
- **C88 Multi-phase problems: every stage gets the data of its phase** — make_consistent of multi-phase problems (indices, names, refusals) and the loops of the generated code over phases as lists of writes (types, integrators, dimensions), default parameters with their common buffer, update of parameters; spec = phase of a stage by partial sums, dimension by kind of stage (Spec/MultiPhase.lean); proof: membership in the loops, uniqueness of the phase by monotone partial sums, induction over phases for the buffer. *Files:* `Props/MultiPhase.lean`. *Result (partial):* Proved for phases of length at least 1: partition of the stages, types, integrators, dimensions, bounds, refusals, names, setting parameters; fitting states and parameter values under provisos. Refuted: lengths below 1 are accepted and write out of bounds, a transition phase of one interval with a wrong next state is accepted, parameters of an earlier phase remain in a later one with sparse values, the terminal stage keeps zeros instead of the values given, the number of values is unchecked at the terminal stage. Missing: numerical data of costs and constraints, external functions, options.
- **C89 Parameter manager: values are got as set and laid out like the symbols** — AcadosParamManager with arrays as references into a heap, ordered dictionaries as association lists, deepcopy as allocation; spec = table of values over a history, offsets of symbols (Spec/ParamManager.lean); proof: invariants on references and keys, preserved by all operations, induction over histories. *Files:* `Props/ParamManager.lean`. *Result (partial):* Proved after every history: set and get, refusals, effect of a new horizon on old stages and inner new stages, layout of the vectors for known names and fitting sizes; values are the last ones set if the horizon does not grow after the first set; arrays are separate if the horizon is given at creation. Refuted: growing the horizon resets the old terminal stage and gives the new one the value of the first stage or an old one, unknown names and wrong sizes are accepted and shift the vector, stages share arrays after growth. Missing: CasADi symbols themselves.
- **C90 Constraint detection does not change the feasible set** — detect_constraint_structure on constraints with the reports of CasADi (linear, depends on controls, gradient); spec = affine functions, points within bounds (Spec/DetectCon.lean); proof: induction over the list of constraints. *Files:* `Props/DetectCon.lean`. *Result (partial):* Proved: the feasible set of path, terminal and initial stage is unchanged if linear constraints have no constant, single coefficients are positive and the problem had no bounds or linear constraints before; nonlinear constraints are kept in order; refusal of controls at the end. Refuted: constants are dropped, negative coefficients exchange the bounds, existing bounds are replaced, constraints found for one of initial and path stages apply to both. Missing: the linearity tests of CasADi are parameters.
- **C91 Control horizon: the multi-phase problem is the problem with the last control kept** — create_ocp_with_control_horizon as list of stages with time steps and the shared options, meaning of the multi-phase problem stage by stage; spec = trajectories of a problem on a grid, kept control, Runge-Kutta methods (Spec/ControlHorizon.lean); proof: shift of the indices in both directions, induction over Runge-Kutta stages. *Files:* `Props/ControlHorizon.lean`. *Result (partial):* Proved: cases of the arguments, trajectories and costs correspond in both directions for every number of remaining stages on the grid used (Nc at least 2, or same initial and path data), the augmented equations integrate to the same states, when the horizon is kept. Refuted: other numbers of remaining stages than the default change the horizon (fewer: refused later), zero is taken as the default, a non-uniform grid is replaced, the options of the given problem are changed, for Nc = 1 the data of the initial stage are lost. Missing: linear constraints with matrices, cost scalings other than the time steps.
- **C92 Cost and constraint evaluator: cost with the least slack penalties, violations exactly of hard constraints** — AcadosCostConstraintEvaluator with index lists and offsets, the tiled parameter array, create_model_with_cost_state; spec = admissible slacks, least penalty (Spec/Evaluator.lean); proof: induction over constraints and slacks, index arithmetic of the concatenation. *Files:* `Props/Evaluator.lean`. *Result (partial):* Proved: evaluation at a stage for all constraints and weights, parameters after an update or as given, cost of a trajectory for at most one parameter and one terminal slack, same parameters at the last two stages, terminal scaling one and an initial stage like the path without slacks; derivative of the cost state without quadratic weights. Refuted: parameters before an update for two or more, given parameters for trajectories, terminal parameters and scaling, two terminal slacks, quadratic weights in the cost state (counted twice). Missing: CasADi expressions are functions.
- **C93 QP slacks are the distances to the bounds, residual norms cover all stages** — ocp_qp_compute_t and dense_qp_compute_t as sequences of writes into the vector t, the flag t_computed, lengths and norms of the residuals; spec = constraints of a stage, feasibility (Spec/QpSlack.lean); proof: invariant of the loop over soft constraints, index arithmetic, induction over stages. *Files:* `Props/QpSlack.lean`. *Result (partial):* Proved: values of all slacks, equivalence with feasibility, dense version, norms for stages stored one after the other. Slacks belong to the solution if they did when marked as computed; refuted in general for ocp_qp_out_set_to_zero, which keeps the mark (exported, not called inside the repository). Missing: the residuals themselves are computed by HPIPM, whose contiguous storage is a hypothesis.
- **C94 The QP solved with CasADi is the given QP, and its fields are read and written at their place** — construction of variables, bounds, constraints, index maps and objective for CasADi, get, set, set_flat, solve_for_x0; expressions are functions of the point; spec = documented QP (Spec/CasadiQp.lean); proof: invariants of the loops giving closed forms for all index maps, feasibility stage by stage, multipliers through sorting by index. *Files:* `Props/CasadiQp.lean`. *Result (partial):* Proved without restriction: cost, get and set of primal fields and of pi, initial state. Proved for soft bounds on the variables at their position: feasible set; for all bounds on the variables at their position and bounds of each kind all hard or all soft: multipliers. Refuted otherwise: soft bounds are put on, and multipliers of hard bounds read from, the variable at the position of the bound; hard multipliers are dropped if another bound of the kind is soft. Set multipliers are read back except that those of hard linear constraints are exchanged, those of terminal controls are ignored, and set_flat raises an exception with soft linear constraints (all refuted with witnesses). Missing: CasADi itself, algebraic expressions are functions.
- **C95 A dumped QP is loaded as the same QP** — keys with padded stage numbers, sizes and order of entries of the written arrays, detection of the horizon from the keys, reshaping and the assertions of make_consistent (none = exception); spec = dimensions of the fields (Spec/QpDump.lean); proof: padded numbers are injective with a fixed width, keys are found exactly once, every assertion holds. *Files:* `Props/QpDump.lean`. *Result (partial):* Proved for stages with states, controls at all stages but the last, equalities on bounds of states, and, for the C backend, N and N+1 with equally many digits. Refuted otherwise: with the C backend loading raises an exception for every QP with N = 9, 99, ..., and with both backends for a QP with a stage without controls before the last. Buffer size proved. Missing: parsing of numbers is a function; stages without states.
- **C96 Advanced-step real-time iterations stop at the points they are meant to find** — QP updates of levels B and C, residual computation, step and loop on stage-wise vectors and matrices, sanity checks and advancing; the QP solver is any function; spec = optimality conditions of the nonlinear problem and of a QP (Spec/AsRti.lean); proof: invariant of the gradient over the iterations, cancellation of the stale Jacobian against the adjoint correction. *Files:* `Props/AsRti.lean`. *Result (partial):* Proved: level C for linear constraints, level B for full steps, logging for linear constraints, advancing with all initial states bounded in order. Refuted: nonlinear constraints at the last stage pass the check of level C, whose QP then leaves an optimal point; with step length below one level B stops at points that are not stationary for its model; logging residuals in level B replaces the Jacobian of nonlinear constraints and adds their exact Hessian again; advancing writes the first entries of the next state to whichever initial states are bounded. Missing: regularisation, QP scaling, algebraic variables, levels A and D (phases in C19).
- **C97 The CasADi formulation of an optimal control problem is the same problem** — construction of the NLP stage by stage (symbols, expressions, bounds, index maps, offsets) and access by stage as Python lists with exceptions; spec = feasible trajectories, objective and order of multipliers of the optimal control problem (Spec/CasadiNlp.lean); proof: invariant of the loops (every index map points at the entries it names), positions in duplicate-free lists, argsort of an increasing map. *Files:* `Props/CasadiNlp.lean`. *Result (partial):* Proved: same feasible set and cost, access by stage, order of multipliers, copying of iterates, refusals, when the exact Hessian can be requested. Refuted: lower bounds of slacks other than zero are ignored; integrator settings of the first interval are used for all; soft convex-over-nonlinear constraints of the initial stage are not refused and become hard; set_flat of multipliers raises whenever there are slacks; bounds of soft constraints are missing from constraints_get. Missing: single shooting, contents of the Hessian, solver statistics.
- **C98 The time grid of an accepted problem description is the one that was asked for** — options as lists over an ordered field, an exception is none, division by zero by IEEE comparisons; spec = matching steps and nodes covering the horizon (Spec/TimeGrid.lean); proof: inductions over cumulative sums and differences, bounds of an average. *Files:* `Props/TimeGrid.lean`. *Result (partial):* Proved: uniform default grid, given steps and nodes, acceptance of time steps, cost scaling, integrator settings, condensing options, second call. Refuted: a grid shorter than tf is accepted, also when tf is changed after the first call; the number of time steps is not checked when a cost scaling is given; given nodes are ignored beside time steps; nodes not starting at 0 are moved by a second call; decreasing nodes are averaged. Missing: rounding.
- **C99 An accepted problem description has matching dimensions of constraints, slacks and penalties** — checks as Boolean functions of lists and sizes, an exception is none; spec = well-formed stage descriptions (Spec/OcpDims.lean); proof: each check is equivalent to a predicate of the specification, pigeonhole for distinct indices and numbered slacks. *Files:* `Props/OcpDims.lean`. *Result (partial):* Proved: well-formed descriptions are accepted; accepted ones have matching sizes, indices not too large, numbered slacks with bounds and penalties. Refuted: negative and repeated indices, terminal matrices of the wrong width, missing bounds of convex-over-nonlinear constraints, both formulations of soft constraints in the terminal stage, one-sided initial nonlinear constraints, penalties taken from other constraints, a single state with x0 and no equalities, DDP with initial nonlinear and terminal state constraints are all accepted. Missing: cost dimensions, consistency of the symbolic model.

## Model inventory

Every definition cites the lines it models. One row per model file; the sources are those cited in it.

| model file | what | cited sources | definitions |
|---|---|---|---|
| `Model/AsRti.lean` | QP updates of the advanced-step real-time iterations | ocp_nlp_sqp_rti.c, p.h, ocp_nlp_common.c, ocp_nlp_dynamics_cont.c, ocp_nlp_dynamics_disc.c | 18 |
| `Model/AutoCost.lean` | `detect_cost_type` | acados_ocp.py | 13 |
| `Model/Batch.lean` | Batch functions of the generated solver and the Python batch solver | in.c, ocp_nlp_interface.c, acados_ocp_batch_solver.py, acados_ocp_solver.py, ocp_nlp_sqp.c | 46 |
| `Model/Bgh.lean` | Stage constraints | bgh.c, bgp.c, ocp_nlp_interface.c, ocp_nlp_constraints_bgh.c, ocp_nlp_constraints_bgp.c | 52 |
| `Model/Butcher.lean` | Butcher tableaus | sim_collocation_utils.c | 20 |
| `Model/Casadi.lean` | Conversion between CasADi buffers and acados arguments | external_function_generic.c | 24 |
| `Model/CasadiNlp.lean` | Model of `interfaces/acados_template/acados_template/acados_casadi_ocp.py` (construction of the NLP | acados_casadi_ocp.py, n.c, acados_casadi_ocp_solver.py, acados_ocp.py, on.h | 75 |
| `Model/CasadiQp.lean` | QP for CasADi and its solver | acados_casadi_ocp_qp.py, acados_casadi_ocp_qp_solver.py | 45 |
| `Model/ControlHorizon.lean` | Control horizon | acados_multiphase_ocp.py, mpc_utils.py, acados_ocp.py | 13 |
| `Model/Convexify.lean` | Convexification of the QP Hessians | ocp_nlp_reg_convexify.c | 25 |
| `Model/Cost.lean` | Cost modules | ocp_nlp_cost_ls.c, ocp_nlp_cost_conl.c, ocp_nlp_cost_external.c, casadi_function_generation.py | 56 |
| `Model/CostForm.lean` | Reformulation of the cost in the description of an OCP | acados_ocp.py, utils.py | 35 |
| `Model/Daqp.lean` | DAQP interface | dense_qp_daqp.c | 23 |
| `Model/Ddp.lean` | The DDP solver | ocp_nlp_ddp.c, ocp_nlp_dynamics_cont.c, ocp_nlp_common.c, ocp_nlp_interface.c, merit_backtracking.c | 31 |
| `Model/DenseQp.lean` | Dense QPs: stacking of slack variables and the qpOASES interface | dense_qp_qpoases.c, dense_qp_common.c, dense_qp_daqp.c | 17 |
| `Model/DetectCon.lean` | Constraint detection | f.h, path.h, term.h, mpc_utils.py, a.h | 13 |
| `Model/Dims.lean` | Dimension bookkeeping | ocp_nlp_common.c, ocp_nlp_constraints_bgh.c, ocp_nlp_reg_common.c, ocp_nlp_cost_ls.c, ocp_nlp_dynamics_cont.c | 18 |
| `Model/Dunes.lean` | The qpDUNES interface, `acados/ocp_qp/ocp_qp_qpdunes.c` | old.c, ocp_qp_qpdunes.c, types.h | 42 |
| `Model/Dynamics.lean` | Dynamics modules | ocp_nlp_dynamics_cont.c, ocp_nlp_dynamics_disc.c | 29 |
| `Model/Erk.lean` | Explicit Runge-Kutta integrator | sim_erk_integrator.c | 29 |
| `Model/Evaluator.lean` | Cost and constraint evaluator, model with cost state | s.h, mpc_utils.py | 22 |
| `Model/Expm.lean` | Matrix exponential | math.c | 18 |
| `Model/Flat.lean` | Flat and stage-wise access to an iterate | ocp_nlp_common.c, ocp_nlp_interface.c | 19 |
| `Model/Funnel.lean` | Funnel globalization | funnel.c, funnel.h, globalization_common.c, ocp_nlp_globalization_funnel.c, globalization_common.h | 27 |
| `Model/GenSolver.lean` | The generated solver: creation, time steps, reset | acados_ocp_solver.py, in.c, ocp_nlp_cost_ls.c | 60 |
| `Model/Gnsf.lean` | GNSF integrator | sim_gnsf.c, sim_gnsf.h, m.c | 92 |
| `Model/GnsfSens.lean` | GNSF integrator: sensitivities | sim_gnsf.c | 22 |
| `Model/Hess.lean` | Assembly of the Hessian blocks of the QP | ocp_nlp_common.c, ocp_nlp_sqp_with_feasible_qp.c, ocp_nlp_constraints_bgh.c, ocp_nlp_cost_ls.c, ocp_nlp_cost_nls.c | 24 |
| `Model/Irk.lean` | Implicit Runge-Kutta integrator | sim_irk_integrator.c | 40 |
| `Model/IrkAlg.lean` | Algebraic outputs of the implicit Runge-Kutta integrator | math.c, sim_irk_integrator.c | 10 |
| `Model/IrkCost.lean` | Cost propagation of the implicit Runge-Kutta integrator | sim_irk_integrator.c | 14 |
| `Model/IterFile.lean` | Iterates as objects and in files | acados_ocp_iterate.py, acados_ocp_solver.py | 16 |
| `Model/IterObj.lean` | Iterates as Python objects | acados_ocp_iterate.py, acados_ocp.py, acados_ocp_constraints.py | 20 |
| `Model/LiftedIrk.lean` | Lifted implicit Runge-Kutta integrator | sim_lifted_irk_integrator.c | 13 |
| `Model/LinSolve.lean` | Dense linear algebra helpers | math.c | 19 |
| `Model/Mem.lean` | Model of the raw-memory helpers | mem.c | 16 |
| `Model/MemLoop.lean` | Loops over stages in `*_assign` functions |  | 1 |
| `Model/MemModules.lean` | Size and layout of the cost, constraint and dynamics modules | ocp_nlp_constraints_bgh.c, ocp_nlp_constraints_bgp.c, ocp_nlp_cost_ls.c, ocp_nlp_cost_nls.c, ocp_nlp_cost_external.c | 39 |
| `Model/MemNest.lean` | Objects inside objects | ocp_nlp_sqp.c, ocp_nlp_common.c | 3 |
| `Model/MemNlp.lean` | Size and layout of the NLP layer | ocp_nlp_common.c, ocp_nlp_qpscaling.c, ocp_nlp_sqp_rti.c, ocp_nlp_sqp.c, ocp_nlp_ddp.c | 57 |
| `Model/MemQp.lean` | Size and layout of the QP layer | ocp_qp_common.c, dense_qp_common.c, ocp_qp_xcond_solver.c, ocp_qp_partial_condensing.c, ocp_qp_full_condensing.c | 83 |
| `Model/MemSim.lean` | Size and layout of integrators, dynamics modules and external functions | sim_gnsf.c, ocp_nlp_dynamics_cont.c, sim_erk_integrator.c, external_function_generic.c, sim_irk_integrator.c | 73 |
| `Model/Merit.lean` | Merit-function backtracking | merit_backtracking.c, s.c, globalization_common.c, ocp_nlp_globalization_merit_backtracking.c | 32 |
| `Model/MultiPhase.lean` | Multi-phase problems | acados_multiphase_ocp.py, in.c, acados_ocp.py, ocp_nlp_interface.c, ocp_nlp_common.c | 33 |
| `Model/NlpParam.lean` | Adaptive parameters of the NLP solvers | ocp_nlp_common.c, ocp_nlp_common.h, ocp_nlp_sqp.c, ocp_nlp_ddp.c | 12 |
| `Model/NlpRes.lean` | NLP residuals, infeasibility measure, QP objective value | ocp_nlp_common.c, ocp_nlp_dynamics_cont.c, ocp_nlp_dynamics_disc.c | 20 |
| `Model/NlpStep.lean` | Iterate updates | ocp_nlp_common.c, ocp_qp_common.c, ocp_nlp_globalization_fixed_step.c | 33 |
| `Model/Num.lean` | Numbers | math.h, types.h | 15 |
| `Model/OcpCost.lean` | Checks of the cost of a problem description and the cost data of the generated solver | in.c, utils.py, acados_ocp.py, acados_ocp_cost.py, ocp_nlp_cost_ls.c | 24 |
| `Model/OcpDims.lean` | Dimension checks of constraints and soft constraints | acados_ocp.py, term.h, p.h, utils.py, path.h | 30 |
| `Model/OptSet.lean` | `options_set` of the Python interface and the option setters in C | acados_ocp_solver.py, ocp_nlp_sqp_rti.c, ocp_nlp_common.c, ocp_nlp_sqp.c, ocp_nlp_ddp.c | 24 |
| `Model/Osqp.lean` | The sparse QP data handed to OSQP | ocp_qp_osqp.c | 39 |
| `Model/ParamManager.lean` | Management of parameters | acados_param_manager.py | 18 |
| `Model/ParamSens.lean` | Solution sensitivities with respect to global parameters and the initial state | ocp_nlp_common.c, ocp_nlp_dynamics_disc.c, ocp_nlp_constraints_bgh.c, casadi_function_generation.py, ocp_nlp_cost_external.c | 34 |
| `Model/Params.lean` | Parameter memory and external functions | ocp_nlp_common.c, external_function_generic.c, ocp_nlp_interface.c, in.c | 21 |
| `Model/Pcond.lean` | Partial condensing: block sizes | ocp_qp_partial_condensing.c | 9 |
| `Model/Penalty.lean` | Constraints as penalties | penalty_utils.py, acados_ocp.py, path.h, term.h, init.h | 35 |
| `Model/PyArr.lean` | Arrays handed from Python to C | a.c, acados_ocp_solver.py, acados_sim_solver.py, acados_ocp_batch_solver.py, ocp_nlp_interface.c | 24 |
| `Model/QpCall.lean` | Calls of the external QP solvers: data handed over, status returned | dense_qp_qpoases.c, dense_qp_hpipm.c, ocp_qp_hpipm.c, dense_qp_daqp.c, andling.h | 18 |
| `Model/QpDesc.lean` | QP descriptions in Python and the data passed to the QP solver | acados_ocp_qp.py, acados_ocp_qp_solver.py | 8 |
| `Model/QpDump.lean` | Writing the last QP to a file and loading it | ocp_nlp_interface.c, acados_ocp_qp.py, acados_ocp_solver.py, utils.py | 23 |
| `Model/QpLicq.lean` | `check_licq` of a QP description | acados_ocp_qp.py | 10 |
| `Model/QpOpts.lean` | Options of the QP solver as seen through the NLP options | ocp_nlp_common.c, ocp_qp_hpipm.c, dense_qp_hpipm.c, ocp_nlp_sqp.c, ocp_qp_xcond_solver.c | 52 |
| `Model/QpScaling.lean` | Scaling of the QP subproblems | ocp_nlp_qpscaling.c, math.c | 23 |
| `Model/QpSlack.lean` | Slacks of the constraints of a QP solution, norms of residuals | ocp_qp_common.c, dense_qp_common.c | 12 |
| `Model/ReducHess.lean` | Projection of the reduced Hessian | ocp_nlp_reg_project_reduc_hess.c, ocp_nlp_reg_project_reduc_hess.h | 33 |
| `Model/Reg.lean` | Hessian regularisation: mirror, project, Gershgorin-Levenberg-Marquardt | ocp_nlp_reg_common.c, ocp_nlp_reg_mirror.c, math.c, ocp_nlp_reg_project.c, ocp_nlp_reg_glm.c | 17 |
| `Model/Regularity.lean` | Model of the checks of a solution in | acados_casadi_ocp_solver.py, acados_casadi_ocp.py | 23 |
| `Model/RegularityOcp.lean` | The data that the checks of `Model/Regularity.lean` read, for an NLP built from an optimal control | n.c, acados_casadi_ocp_solver.py | 1 |
| `Model/Rti.lean` | Real-time iteration solver | ocp_nlp_sqp_rti.c, ocp_nlp_common.c, ocp_nlp_sqp_rti.h, ocp_qp_xcond_solver.c, ocp_nlp_constraints_bgh.c | 33 |
| `Model/SensOpts.lean` | Options for parametric sensitivities of an OCP | acados_ocp.py, ocp_nlp_common.c, acados_ocp_solver.py, acados_code_gen_options.py, ocp_nlp_dynamics_disc.c | 22 |
| `Model/SimDesc.lean` | Descriptions of integrators | acados_sim.py, acados_code_gen_options.py, acados_sim_solver.py, acados_model.py, acados_ocp.py | 10 |
| `Model/Soc.lean` | `ocp_nlp_perform_second_order_correction` | ocp_nlp_common.c | 6 |
| `Model/SparseQp.lean` | The sparse QP data handed to OSQP and Clarabel | clarabel.c, osqp.c, ocp_qp_clarabel.c, ocp_qp_osqp.c | 48 |
| `Model/SqpLoop.lean` | The SQP loop | ocp_nlp_sqp.c, types.h, ocp_nlp_common.c | 32 |
| `Model/StepNorm.lean` | Step norms | ocp_nlp_common.c, ocp_nlp_sqp.c, ocp_qp_common.c, ocp_nlp_globalization_fixed_step.c, acados_ocp_solver.py | 13 |
| `Model/TimeGrid.lean` | The time grid of a problem description | acados_ocp.py, acados_ocp_options.py | 14 |
| `Model/Wfqp.lean` | Relaxed QP of SQP_WITH_FEASIBLE_QP | ocp_nlp_sqp_with_feasible_qp.c, ocp_nlp_constraints_bgh.c, ocp_nlp_constraints_bgh.h, ocp_nlp_common.c | 26 |
| `Model/WfqpLoop.lean` | The loop of SQP_WITH_FEASIBLE_QP | ocp_nlp_sqp_with_feasible_qp.c, ocp_nlp_common.c, types.h, ocp_nlp_sqp.c | 31 |
| `Model/Zoro.lean` | Zero-order robust optimisation update | in.c, zoro_description.py | 52 |
| `Model/ZoroRiccati.lean` | Riccati feedback gains of the zero-order robust optimisation update | in.c, zoro_description.py | 29 |

## Not modelled

- Rounding, 32-bit integer overflow, the exact memory layout of BLASFEO panels (only sizes), caches, timing
  values (clock readings are inputs).
- The external packages (BLASFEO, HPIPM, qpOASES, DAQP, OSQP, Clarabel, CasADi-generated code): their
  directories in /repo are empty; they appear as parameters with the hypotheses stated in the theorems.
- Integrators: the Hessian option of ERK; algebraic outputs of GNSF; `ipiv_x` reordering and model import of GNSF.
- QP layer: the condensing and expansion arithmetic (HPIPM), the OOQP, qpDUNES and HPMPC interfaces except
  for memory layout (HPMPC not at all: its size and assign functions are inconsistent beyond repair).
- The Jacobi/QL eigenvalue routines.
- Printing, code generation templates, Python/Matlab/Simulink front ends.

## Findings about the code

Negations proved as theorems (see the results above for names): funnel penalty window (C11), merit line
search success with an untested step (C12, C13), derivative sign (C52), SQP corner statuses (C15), statistics
overflow after raising max_iter (C16, C19, C59), Anderson with damping (C28), residuals with tau_min (C29),
QP objective with slacks (C30), convexification (C34, C55), Pade degree 13 coefficient (C37), dense CasADi
arguments (C40), constraint module defects (C06, C07, C08, C56), stale nd counts (C44), cost scaling (C43),
interfaces to OSQP, Clarabel, qpOASES (C47, C48, C58, C61, C62), block sizes (C49), second-order correction
(C50), OpenMP race (C54), zeroing beyond the iterate (C57), regularisation in SQP_WITH_FEASIBLE_QP (C60),
index overflow with idxs_rev (C23), memory layout (C02), GNSF pivoting, stale blocks and fully linear
shortcut (C63 to C66), IRK without convergence check (C67), exact algebraic outputs of IRK (C71), propagated
least-squares cost with a full weight (C72), Hessian lost when `exact_hess_dyn` is toggled, missing mixed terms and
misdirected Levenberg-Marquardt term, a fixed Hessian that grows with convex-over-nonlinear constraints (C73), algebraic variables not updated in the line search, ignored integrator
failures, forward seed for changing state dimension (C74), DAQP: constraint rows dropped when the Hessian is large,
empty equalities skipped, decreasing slack penalties, masks of slack bounds ignored, shared slacks, stale matrices after
a hot start or a failed update (C75), solution sensitivities: wrong sign of the constraint contribution in the forward
route, wrong sign and index of the initial-state seed, terminal constraint missing in the value gradient,
`update_fact_exit` not restored (C76), prediction of the lifted IRK with the wrong sign and incomplete reset (C77), pivoting and small pivots in the reduced-Hessian projection (C78), accumulation of off-diagonal noise, missing noise without payload, terminal rows and the documented sign in the zoRO update (C79), misplaced gradients of nonlinear rows and terminal bounds in its Riccati modes (C80), undefined behaviour of a numerical reset after a change of the number of stages, and forgotten time steps (C81), stale status entries, lost options of grown batches, slack sensitivities and thread settings of batch solvers (C82), the perturbed first QP, misplaced multipliers and masked bounds of the qpDUNES interface (C83), the reference missing in cost expressions, the Hessian missing at the initial stage and partial changes by failed translations (C84), weights, equal bounds, failed calls, Hessian sizes and dropped linear constraints of penalties and feasibility problem (C85), quadratic costs for which cost type AUTO raises (C86), iterates whose terminal stage is lost in JSON and iterates of other size that overwrite part of the solver (C87), phases whose parameters are those of an earlier phase, terminal stages without parameter values and accepted phases whose states do not fit (C88), parameter values that are lost or shared when the horizon grows (C89), constraint detection that drops constants and exchanges bounds (C90), control horizons that change the prediction horizon and the given problem (C91), evaluated costs with wrong parameters or doubled penalties (C92), QP slacks kept as computed when a solution is set to zero (C93), CasADi QP with soft bounds on other variables and multipliers lost, exchanged or read from other variables (C94), a dumped QP that cannot be loaded if N + 1 is a power of ten or a stage has no controls (C95), advanced-step iterations with terminal nonlinear constraints, short steps or logging (C96), the CasADi formulation with slack bounds, varying integrator settings, soft constraints read or written flat (C97), time grids shorter than tf, of the wrong length beside a given cost scaling, or made consistent twice (C98), descriptions with negative indices, narrow terminal matrices, missing bounds, mixed or inferred slack data (C99), options of QP solvers that are merged, frozen, dropped or never relaxed (C100), cost data that pass or fail the checks wrongly or outlive a change (C101), options set at run time that end the process, are cut off or ignored (C102), arrays that are read with the wrong strides, after they are freed or not at all (C103), checks of a solution that leave out constraints, arguments or derivatives (C104), QP descriptions that are accepted although arrays are too small, a check of LICQ without the last stage (C105), default iterates whose stages share one array with the problem, iterates of different sizes that compare as close (C106), integrator descriptions that share names and files, unsupported combinations through deprecated options (C107), step norms read after a failed QP (C108), requirements of parametric sensitivities not checked for the options at their new place, adjoint sensitivities with linear least-squares cost or BGP constraints end the process, the gradient of the optimal value without its option (C109).

Observed while reading, not (yet) theorems:

- `ocp_nlp_common_eval_lagr_grad_p` hands the options of the NLP solver instead of those of the constraint module to
  `compute_adj_p`; the workspace is then cast as if both sensitivity options were set.
- The `integrator_cost` option of the NLS and CONL modules is not initialised at the terminal stage.
- The lifted IRK passes four arguments to generated functions that take a fifth, the time, beside the parameters: the
  wrapper reads outside `ext_fun_in`.
- The tridiagonal QL routine writes `e[-1]` for dimension zero.
- The reduced-Hessian projection reads `nx[1]` and `BAbt[0]` for horizon 0.
- ERK with `sens_hess` but without `sens_forw` reads outside its arrays; its adjoint ignores the control part
  of the seed.
- `compute_gradient` of the least-squares costs exits the process, so AS-RTI level C aborts with them.
- A failed second-order correction QP sets status QP_FAILURE but the line search proceeds.
- AS-RTI level B corrects the gradient with the full QP step although the step may have been shortened.
- In SQP_WITH_FEASIBLE_QP the relaxed solve with the constraint Hessian is rescaled with the nominal scaling,
  and the solve resets the user option `ext_qp_res`.
- IRK algebraic outputs: `impl_ode_res_out.xi` is read uninitialised with `exact_z_output` (the model takes 0);
  `df_dxdotz` is allocated only with `sens_algebraic` but used with `output_z`; `K_traj` is read for `z` though it
  is only allocated with adjoint or Hessian sensitivities; the stored `z` is overwritten by the Newton correction.
- Cost propagation without sensitivities passes a `BLASFEO_DVEC` tag for a `BLASFEO_DVEC_ARGS` argument
  (convex-over-nonlinear).
- `dense_qp_unstack_slacks` is dead code with contradictory asserts; the QORE interface does not compile;
  several solver interfaces `exit(1)` in `memory_reset` and `solver_get`.

## Seeded bugs

`seeded/LOG.jsonl` has one line per wrong program tried: the definition edited in a scratch copy, the edit,
the claim it breaks, the theorems that failed and the theorems tightened because an edit survived.

## Trusted base

- Lean 4.33.0 kernel. Every property theorem depends on no axioms other than `propext`, `Classical.choice`
  and `Quot.sound`; the list per theorem is in `AXIOMS.txt` (output of `#print axioms`). No `sorry`, no own
  axioms, no `native_decide` or `bv_decide`; concrete witnesses use `decide` with kernel reduction.
- The reading of the C sources: the model is a transcription by hand, checked against the cited lines. No C
  code is executed.
- The documented mathematical meaning of BLASFEO kernels (dgemm, dgetrf, drowpe, ...) and of CasADi output.
- Exactness hypotheses on eigenvalue, Cholesky and LU routines where stated in a theorem.
