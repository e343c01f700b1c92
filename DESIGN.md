# Formal model of qtune in Lean 4 – design

The properties are listed in `properties.jsonl` (C01 …).  This file says, for each property, what is modelled
and how it is proved, what is trusted, which parts of the code are modelled, and where code and expected
property disagree.

## 1. Method

* The code under `/repo/qtune` is modelled function by function as total Lean functions ("shallow" model).
  Every model definition carries a comment with file and lines.  Exceptions are values of `Except PyErr _`;
  for methods that mutate an object before raising, the model returns the new state *and* the outcome.
* Stateful parts (autotuner, tuners, solvers, estimators, writer thread, GUI worker, history) are state
  machines; properties of "every run" are proved by induction over lists of operations or over a reachability
  relation, without bounds.
* Outcomes of measurements, of external libraries and of schedulers are universally quantified inputs
  ("oracles").  Where a library result is needed it is given by its specification (for instance `lstsq`:
  minimiser of the residual; `eigh`: orthonormal eigenvectors; `nullspace`: basis of the kernel), and it is
  shown that a function with this specification exists.
* `Verif/<Area>/Model.lean` holds the model, `Spec.lean` the small independent specifications, `Lemmas.lean`
  helper lemmas and `Props*.lean` the property theorems, with `example`s that meet their hypotheses.
* A property that is false of the code is kept as stated in `properties.jsonl`; its negation is proved on a
  witness (`*_refuted`), often for a whole family of inputs, and the part that does hold is proved under an
  explicit extra hypothesis as `*_partial`.

## 2. Trusted base

* Lean 4.33.0 kernel; Mathlib; axioms at most `propext`, `Classical.choice`, `Quot.sound` (section 7).  There
  are no own axioms, no `sorry`, no `native_decide`/`bv_decide`.
* The reading of the Python and MATLAB code, as cited at each definition.
* The behaviour of the libraries it calls, as described at the definitions:
  * pandas 0.24 label semantics: a list lookup with some missing labels gives NaN, with all labels missing
    raises `KeyError`; assignment enlarges a Series; arithmetic aligns labels; `Index.intersection(series)`
    intersects with the *values* of the series;
  * numpy (`argmax`, `linspace`, `nanmean`, `nanvar`, slicing), `lstsq`/`eigh`/`inv` by specification, sympy
    `nullspace` by specification, filterpy `predict`/`update` (Joseph form);
  * h5py: groups, datasets, object references, `ValueError` for existing names, order of `keys()` arbitrary;
  * `queue.Queue`, `threading.Thread`, `copy.deepcopy`, `strftime`; threads are sequentially consistent and a
    single read or write of an attribute is atomic;
  * MATLAB: `reshape`, `transpose`, `typecast`, end-based indices, comparison with NaN, `smset`/`smget` of
    special measure as ideal write and read of a channel.
* Numbers: exact real arithmetic instead of IEEE floats; NaN is modelled explicitly as `none`; infinities only
  where the code uses them as bounds.  Rounding, overflow and ill conditioning are outside the model.

## 3. Properties

Status as in `MANIFEST.json`.  “partial” with a *finding* means that the code violates the property: the
theorem `…_refuted` (or the theorem named in the note) shows this on the model, and the `_partial` theorems
prove what is left.  Files are relative to `lean/Verif/`.

**C01 Completion certificate** (proved).  `Autotuner` as state machine over an abstract hierarchy (tuners, solvers, shared estimators and experiment behind it), with a log of evaluations, suggestions, writes and saves.  Inductive invariant over all operation sequences; the log itself is shown to be truthful by `log_truthful`.
  Theorems: `completion_certificate` (Autotuner/Props); `log_truthful` (Autotuner/PropsLog).

**C02 Hierarchy order of evaluations** (proved).  Same model.  Characterisation of two neighbouring evaluations in the log.
  Theorems: `hierarchy_order` (Autotuner/Props); `log_truthful` (Autotuner/PropsLog).

**C03 One action per iterate; only suggested voltages are written** (proved).  Same model.  Case analysis of `iterate`, invariant "a pending voltage is the last suggestion".
  Theorems: `one_action_per_iterate`, `only_suggested_voltages_written` (Autotuner/Props); `log_truthful` (Autotuner/PropsLog).

**C04 NaN voltages never reach the experiment** (proved).  Same model.  Case analysis of the NaN check; invariant over runs.
  Theorems: `nan_never_written`, `nan_pending_stuck`, `nan_pending_resolved` (Autotuner/Props); `log_truthful` (Autotuner/PropsLog).

**C05 iterate on a complete or incoherent setup is a pure error** (proved).  Same model.  Case analysis.
  Theorems: `iterate_pure_error` (Autotuner/Props).

**C06 Failed iterate can be retried** (proved).  Same model.  Case analysis over every point at which a call can raise.
  Theorems: `failed_iterate_retry` (Autotuner/Props).

**C07 restart starts over with an evaluation of the first tuner** (partial).  Same model.  Refuted by the surviving status flag for every hierarchy; partial theorem for status False.
  Theorems: `restart_reevaluates_partial`, `restart_reevaluates_refuted` (Autotuner/PropsRestart).
  Finding / limit: False when restart() is called right after a "not tuned" report: the status flag survives. Refuted for every hierarchy; proved in all other cases.

**C08 change_targets starts over with an evaluation of the first tuner** (partial).  Same model.  As C07; plus the exact condition under which the change is accepted.
  Theorems: `change_targets_reevaluates_partial`, `change_targets_reevaluates_refuted`, `change_targets_failure_keeps_position`, `change_targets_accepts` (Autotuner/PropsRestart).
  Finding / limit: False when change_targets() is called right after a "not tuned" report. Refuted for every hierarchy; proved in all other cases.

**C09 restart communicates the new voltages to the tuners** (partial).  Pandas label model (`Naming`).  Refuted for every non-empty state; what does happen is proved.
  Theorems: `restart_voltages_refuted`, `restart_voltages_agree_iff`, `restart_communicates_partial` (Naming/Props).
  Finding / limit: False: the setter intersects the index with the values of the new voltages, so that nothing is assigned. Refuted for every tuner that has voltages; proved for tuners without voltages and for the positions of the solvers.

**C10 tuned_parameters passed to a tuner** (proved).  Target tables as rows with optional entries.  Set characterisation.
  Theorems: `tuned_parameters_passed`, `mem_tunedParameters` (Naming/Props); `log_truthful` (Autotuner/PropsLog).

**C11 ready_to_tune detects naming incoherence** (proved).  Names of tuners, solvers and estimators.  Equivalence with the coherence predicate of the specification.
  Theorems: `ready_iff_coherent`, `pending_unknown_gate` (Naming/Props).

**C12 Progress of the state machine** (proved).  Autotuner model.  Every state has exactly one enabled action; lexicographic measure.
  Theorems: `progress_all_tuned`, `progress_untuned` (Autotuner/PropsRestart).

**C13 Crash recovery from the last saved state** (proved).  Autotuner with crash and reload transitions; the crash reloads the newest file that the log says was written.  Simulation of the crash-free run by induction.
  Theorems: `crash_recovery` (Autotuner/PropsCrash).

**C14 Reloading an autotuner keeps its configuration** (partial).  Constructor and `to_hdf5` as functions on strings and records.  Induction over the number of reloads.
  Theorems: `reload_partial`, `reload_path_refuted` (Autotuner/PropsReload).
  Finding / limit: False: the storage path gets another time component with every reload. Proved for everything else, for any number of reloads.

**C15 SubsetTuner.is_tuned is sound** (partial).  `SubsetTuner` over labelled real vectors with NaN.  Case analysis over the table columns.
  Theorems: `is_tuned_sound_partial`, `is_tuned_sound_uniform_partial`, `is_tuned_sound_refuted`, `lastValues_index_invariant` (Tuner/Props); `unnoticed_failure_refuted` (Tuner/PropsNan).
  Finding / limit: False for targets with partially filled columns: a NaN measurement of such a parameter counts as within tolerance. Proved for the parameters that have an entry in every used column.

**C16 SubsetTuner.is_tuned is complete** (proved).  Same model.  Case analysis.
  Theorems: `is_tuned_complete` (Tuner/Props).

**C17 Failed evaluation is contained** (proved).  Same model.  State comparison after a failed evaluation.
  Theorems: `failed_evaluation_contained`, `keeps` (Tuner/Props); `raising_evaluator_contained`, `result_needs_all_evaluators` (Tuner/PropsRaise).

**C18 Recovery bisects back to the last good point** (proved).  Same model.  Induction over the number of failures: distance halves each time.
  Theorems: `recovery_bisects`, `recovery_converges`, `recovery_without_good_point` (Tuner/Props).

**C19 Step size limit** (proved).  Same model.  Norm inequality.
  Theorems: `step_size_limit` (Tuner/PropsStep).

**C20 Bounded number of unevaluated steps** (partial).  Same model.  Induction over the queue counter.
  Theorems: `bounded_unevaluated_steps_partial`, `bounded_unevaluated_steps_refuted` (Tuner/PropsStep); `never_evaluated_again_refuted` (Tuner/PropsStuck).
  Finding / limit: False when the last queued step is shorter than the maximal step: the queue counter then never reaches zero. Proved while all queued steps are longer than the maximal step.

**C21 Queued steps do not overshoot** (proved).  Same model.  The point lies on the segment to the suggestion.
  Theorems: `queued_steps_do_not_overshoot` (Tuner/PropsStep).

**C22 SensingDotTuner decision** (proved).  `SensingDotTuner` with the acts it performs.  Case analysis.
  Theorems: `sensing_dot_decision` (SensingDot/Props).

**C23 Expensive measurement only on demand** (proved).  Same model.  Case analysis of the acts.
  Theorems: `expensive_on_demand` (SensingDot/Props).

**C24 SensingDotTuner detects failed expensive measurements** (partial).  Same model.  Refuted for the expensive evaluation.
  Theorems: `failed_cheap_evaluation_partial`, `failed_expensive_evaluation_unnoticed`, `failed_expensive_evaluation_refuted` (SensingDot/Props).
  Finding / limit: False: a NaN from the expensive evaluation is not noticed. Proved for the cheap evaluation.

**C25 Reloading a tuner keeps its recovery state** (partial).  Constructor and `to_hdf5` of both tuners.  Round trip over all reachable states.
  Theorems: `subset_reload_partial`, `subset_reload_impossible`, `subset_reload_refuted` (Tuner/Reload); `sensing_dot_reload_partial`, `sensing_dot_reload_refuted` (SensingDot/Reload).
  Finding / limit: False for both tuners: a SubsetTuner whose target has a partially filled row cannot be rebuilt at all; a SensingDotTuner loses its failure flag. Proved in all other cases.

**C26 rescale and descale are inverse** (proved).  Label-wise table operations.  Lookup lemmas; also shown for the operation used inside the tuners.
  Theorems: `rescale_descale_inverse`, `rescale_entries`, `rescale_in_tuners` (Target/Props).

**C27 ForwardingSolver position** (proved).  `ForwardingSolver`.  Lookup lemmas.
  Theorems: `forwarding_position` (Target/Props).

**C28 Newton step meets the set points to first order** (proved).  `NewtonSolver` with `lstsq` given by its specification.  Linear algebra.
  Theorems: `newton_step_after_update` (Newton/PropsStep); `newton_step_in_any_life` (Newton/PropsNew); `newton_step_meets_set_points` (Newton/Props); `exists_lstsq` (Newton/Exists).

**C29 Parameters without set point are left invariant by a Newton step** (partial).  Same model.
  Theorems: `missing_set_point_partial`, `missing_set_point_refuted` (Newton/Props).
  Finding / limit: False: the first order value of a parameter without set point after the step is 0 instead of its present value. Proved when the present value is 0 or missing.

**C30 Measurement requests have priority** (proved).  Same model.  Case analysis.
  Theorems: `requests_have_priority`, `newton_step_without_requests`, `no_set_point_never_asked`, `tuned_jacobian_rows` (Newton/PropsProtocol).

**C31 Every estimator gets its own value and variance** (partial).  Same model.  Induction over the estimators.
  Theorems: `own_value_and_variance_partial`, `own_variance_refuted` (Newton/PropsProtocol).
  Finding / limit: False when the variances come in another order than the target: they are matched by position. Proved for variances in the order of the target and values in any order.

**C32 Nelder-Mead never reaches its internal error** (proved).  `NelderMeadSolver` state machine.  Invariant over all runs.
  Theorems: `nelder_mead_never_raises`, `no_gates_bug` (NelderMead/Props).

**C33 Nelder-Mead never loses its best point** (proved).  Same model.  Invariant; sorting lemmas.
  Theorems: `nelder_mead_best_monotone` (NelderMead/Props).

**C34 Nelder-Mead starts each iteration with a reflection** (partial).  Same model.  Refuted by absorbing states.
  Theorems: `back_to_reflection_partial`, `back_to_reflection_refuted`, `left_reachable_refuted` (NelderMead/Props).
  Finding / limit: False: after an expansion, contraction or shrink the solver never reflects again. Proved for iterations that end with accepting the reflected point.

**C35 Nelder-Mead works as solver of a SubsetTuner and can be reloaded** (partial).  Same model, and its interface to the tuner.
  Theorems: `nelder_mead_use_and_reload_refuted` (NelderMead/Props).
  Finding / limit: False: TypeError when used by a tuner, ValueError on reconstruction, in every state.

**C36 make_target table** (partial).  `make_target`.  Lookup lemmas for every combination of scalar and Series arguments.
  Theorems: `make_target_table_partial`, `make_target_error`, `make_target_rescaling_refuted`, `nan_factor_spoils_value` (Target/PropsTable).
  Finding / limit: False for the rescaling factor of parameters that a series of factors leaves out: it is NaN instead of 1.

**C37 Changing a target changes only what is named** (proved).  Target setter.  Lookup lemmas.
  Theorems: `target_change_exact`, `targets_change_exact`, `targets_change_too_many`, `targets_change_stops`, `target_change_unknown` (Target/PropsTable).

**C38 Finite differences are exact on affine responses** (proved).  `calculate_gradient_non_orthogonal` with matrix inverse.  Linear algebra.
  Theorems: `gradient_exact_base`, `gradient_exact_pairs`, `gradient_dependent_base`, `gradient_dependent_pairs`, `gradient_wrong_number` (Gradient/UtilProps); `gradient_of_nan`, `estimate_from_nan` (Gradient/FDNan).

**C39 Gradient covariance is the propagated measurement error** (partial).  Same model.  Covariance of a linear map; `covariance_base` gives the exact deviation.
  Theorems: `covariance_propagated_pairs`, `covariance_propagated_partial`, `covariance_base`, `covariance_propagated_refuted` (Gradient/UtilProps); `covariance_of_differences`, `covariance_propagated_iff` (Gradient/PropsCovIff).
  Finding / limit: False for n+1 points with n >= 2: the error of the base point is treated as independent for each difference. covariance_propagated_iff decides it: the returned covariance is right exactly if there is at most one gate or the base value is exact. Proved for 2n points, for n = 1 and for an exact base point; covariance_base gives the exact deviation.

**C40 Finite difference protocol terminates with the gradient (one-sided)** (proved).  Finite difference protocol with the orthogonal vector as oracle.  Induction over requests, linear independence.
  Theorems: `one_sided_protocol`, `exists_orth` (Gradient/FDProps).

**C41 Finite difference protocol terminates with the gradient (symmetric)** (partial).  Same model, symmetric mode.
  Theorems: `symmetric_protocol_partial`, `symmetric_protocol_refuted` (Gradient/FDProps).
  Finding / limit: False when the estimator knows its position and is first updated there: EvaluationError after 2n updates in every dimension. Proved for the other two starts.

**C42 Estimators can be saved while collecting measurements** (partial).  `to_hdf5` and constructor of the finite difference estimator.
  Theorems: `estimator_reload_partial`, `estimator_reload_refuted` (Gradient/FDProps).
  Finding / limit: False as soon as a measurement is stored. Proved before that.

**C43 Kalman covariance stays symmetric positive semidefinite** (proved).  Kalman filter (Joseph form).  Matrix algebra, PSD order, induction over updates.
  Theorems: `covariance_posSemidef` (Kalman/Props).

**C44 A Kalman update never increases the uncertainty** (proved).  Same model.  Loewner order.
  Theorems: `correction_decreases_variance` (Kalman/Props).

**C45 The Kalman filter does not leave the true gradient and converges to it** (proved).  Same model.  Fixed point, contraction and convergence along exciting sequences.
  Theorems: `kalman_error`, `kalman_error_bound`, `kalman_residual_bound`, `kalman_converges`, `kalman_converges_along` (Kalman/PropsConvergence).

**C46 The measurement matrix maps the stacked gradient to value differences** (proved).  `__createMatrixH`.  Index computation.
  Theorems: `measurement_matrix` (Kalman/Props).

**C47 Kalman estimator requests a measurement iff some direction is too uncertain** (proved).  `KalmanGradientEstimator` with `eigh` by specification.  Spectral argument.
  Theorems: `kalman_request` (Kalman/EstimatorProps); `kalman_request_unknown_position` (Kalman/PropsFill); `exists_eigh` (Kalman/EstimatorLemmas).

**C48 Measurement requests do not disturb tuned parameters** (partial).  Same model with `nullspace` by specification.  Refuted for non-uniform epsilon.
  Theorems: `request_keeps_tuned_partial`, `request_keeps_tuned_refuted`, `tuned_request_sound`, `exists_nullspace` (Kalman/EstimatorTuned); `request_keeps_tuned_iff` (Kalman/PropsTunedIff).
  Finding / limit: False when the entries of epsilon differ: the direction is scaled gate by gate after it was chosen in the null space. Proved when epsilon is the same for all gates of the Jacobian.

**C49 Kalman estimator reference point** (proved).  Same model.  Induction over updates.
  Theorems: `kalman_reference` (Kalman/EstimatorHistory).

**C50 Restart moves the estimators to the new position** (partial).  Pandas label model.
  Theorems: `restart_estimators_refuted`, `restart_communicates_partial` (Naming/Props).
  Finding / limit: False for every estimator: the setter intersects the index with the values of the old position, so that nothing is assigned. Proved for the position of the solver.

**C51 Self initialising Kalman estimator hands over** (partial).  `SelfInitializingKalmanEstimator`.  Refuted in every run.
  Theorems: `finite_difference_phase_partial`, `kalman_phase_partial` (Kalman/PropsSelfInit); `self_initialising_refuted` (Kalman/EstimatorHistory).
  Finding / limit: Proved for the phase of finite differences, and for an estimator that is constructed with a Kalman estimator. False of the transition: a missing comma and a missing epsilon make every update raise TypeError from the completion of the finite differences on.

**C52 HDF5 round trip preserves structure and sharing** (partial).  Object heap with identities, HDF5 tree with references.  Simulation between heap and file, induction on the graph.
  Theorems: `round_trip_partial`, `round_trip_refuted` (Storage/Props).
  Finding / limit: Proved for every acyclic graph except that plain arrays that are shared are loaded as separate arrays with the same contents (counterexample). Cyclic graphs: C55.

**C53 HDF5 round trip of temporaries** (partial).  Same model with address reuse.
  Theorems: `temporaries_refuted`, `round_trip_partial` (Storage/Props).
  Finding / limit: False: a temporary that gets the address of a freed one is stored as a reference to it. Proved if no address is used twice.

**C54 Reserved objects are replaced on loading** (proved).  Same model with reserved objects.
  Theorems: `reserved_replaced`, `reserved_required` (Storage/Props).
  Note: For graphs whose objects have different addresses.

**C55 Cyclic structures** (partial).  Same model with cycles. For files that were written with a cycle, an invariant of the file (at each path that was used for an object are the entry of the object and, below it, the members or references to them) is proved without the rank used for C52; then the paths that lead to the cycle are never registered while loading.
  Theorems: `cycles_partial` (Storage/PropsCycles); `cycles_refuted`, `cyclic_copy_refuted` (Storage/Props); `instance_cycles_refuted` (Storage/PropsInstanceCycles).
  Finding / limit: False for cycles through instances: a file with any cycle of instances and tuples can never be loaded, whatever the recursion limit, and a cycle through an instance and a list is loaded as a different graph. Cycles of dicts, lists and tuples anywhere in the graph are rejected when saving.

**C56 Asynchronous writer is FIFO and lossless** (proved).  Writer and caller as transition system with arbitrary interleaving.  Invariant over all schedules.
  Theorems: `writer_fifo`, `writer_complete` (Writer/Props).

**C57 join terminates** (partial).  Same model.  Measure for fair schedules; deadlock witness.
  Theorems: `join_partial`, `join_without_failures`, `join_refuted` (Writer/PropsJoin).
  Finding / limit: False if a write fails after join has found the worker alive: join waits forever (for every write that fails there is such a schedule). Proved for all fair schedules and all failing writes: this is the only way in which a program does not finish, and a join that finds the worker dead returns.

**C58 Writes after a failure are reported** (proved).  Same model.  Invariant.
  Theorems: `failed_writes` (Writer/Props).

**C59 File name order is chronological** (proved).  Fixed-width decimal rendering.  Lexicographic order on lists of characters.
  Theorems: `time_string_order`, `time_string_injective`, `load_order` (Times/Props).
  Note: Times of year 1000 to 9999 (strftime); proved for all times, and for all orders of the directory listing.

**C60 History rows are voltage points** (proved).  History as list of rows.  Induction over the appended sequence, composed with the autotuner model.
  Theorems: `rows_are_runs`, `run_append_ok`, `run_history` (History/Props).
  Note: For arbitrary sequences of autotuners appending may raise ValueError; then there is no row. In runs of the autotuner it never raises, if all gradients are known (see C138) and no parameter belongs to two tuners (see C185).

**C61 History records every evaluation** (partial).  Same model.
  Theorems: `latest_recorded_partial`, `latest_recorded_refuted` (History/Props); `repeated_evaluation_refuted` (History/PropsRepeated).
  Finding / limit: False: an evaluation repeated at the same voltages is not recorded. Proved if every change of the voltages moves the gates, also for gradients of estimators that several tuners share, as in the tutorial.

**C62 get_gradients returns the columns of the parameter** (partial).  Regular expression of `get_gradients` as function on characters.
  Theorems: `get_gradients_partial`, `get_gradients_refuted` (History/Gradients); `get_gradients_suffix_refuted` (History/GradientsRefuted).
  Finding / limit: False: the name of the parameter is not anchored. Proved for names without special characters none of which ends with another.

**C63 Pause takes effect after at most one iteration** (proved).  GUI worker as transition system with interleaving of single reads and writes.  Invariant.
  Theorems: `pause_one_more`, `step_exactly_one` (Gui/Props); `step_after_end_exactly_one` (Gui/PropsRestart).
  Note: All interleavings of the single reads and writes of the flags.

**C64 Closing stops the worker** (partial).  Same model.
  Theorems: `close_partial`, `close_refuted` (Gui/Props); `close_returns_partial` (Gui/PropsClose).
  Finding / limit: False in continuous mode (operator precedence in the loop condition). Proved otherwise.

**C65 The buttons work with the default logger** (partial).  Same model, logger argument.
  Theorems: `buttons_partial`, `buttons_refuted` (Gui/Props).
  Finding / limit: False for names of loggers, the default. Proved for loggers.

**C66 LeadTransition restores the voltages** (partial).  `LeadTransition.evaluate` over an experiment with exceptions.
  Theorems: `lead_transition_partial`, `lead_transition_refuted` (Evaluator/Props).
  Finding / limit: False if a measurement raises: the gate stays displaced. Proved otherwise, for an ideal experiment.

**C67 Lead transition index** (partial).  `new_find_lead_transition_index` on lists of reals.
  Theorems: `lead_index_ok`, `lead_index_step_partial`, `lead_index_step_refuted` (Signal/Props); `last_step_refuted` (Signal/PropsGeneral).
  Finding / limit: Range, position of the maximum and failure conditions proved for all data. False for a step between the last two points; proved for all other clean steps.

**C68 Moving average** (partial).  `moving_average_filter` on lists of reals.
  Theorems: `moving_average_partial`, `moving_average_refuted` (Signal/Props); `moving_average_one_point_refuted` (Signal/PropsGeneral).
  Finding / limit: False for one point (fails although the width fits). Proved otherwise, for positive widths.

**C69 Averaging evaluator** (proved).  `AveragingEvaluator` with exceptions and NaN.
  Theorems: `averaging` (Evaluator/Props).

**C70 Evaluators keep their configuration through save and load** (partial).  All evaluator constructors and `to_hdf5` as data (parameter, attribute, stored key); one generic round-trip theorem.
  Theorems: `reload_settings_partial`, `reload_flank_refuted`, `reload_sample_rate_refuted` (Evaluator/Reload); `arguments_are_kept`, `classes_complete` (Evaluator/ReloadArgs).
  Finding / limit: False for four settings (flank of SensingDot1D/2D, sample rate of LeadTunnelTimePrefitVersion, transition width of LeadTransition). Proved for all other settings of all 16 evaluator classes.

**C71 Range check of the response evaluator** (partial).  `QQDResp` constructor and evaluation.
  Theorems: `resp_partial`, `resp_default_refuted`, `resp_order_refuted`, `resp_number_refuted` (Evaluator/QqdProps).
  Finding / limit: False without an upper limit, for Series in another order and for other numbers of parameters than two. Proved otherwise.

**C72 Index transformation to MATLAB** (partial).  `transform_index` to MATLAB index text and its evaluation on a list; Python indexing as specification.
  Theorems: `index_partial`, `index_tuple_partial`, `index_refuted` (Matlab/IndexProps).
  Finding / limit: False for negative integers, slices with a start, slices that stop behind the end, slices that run backwards to a given end. Proved for all other indices.

**C73 Array transfer to MATLAB** (proved).  `to_matlab` for arrays.  Index arithmetic between C order and column-major order, any dimension.
  Theorems: `transfer_2d`, `transfer_1d`, `transfer_refused` (Matlab/TransferProps).

**C74 Setting a subset of gates** (partial).  `set_gate_voltages` of both experiments and the MATLAB functions behind them.
  Theorems: `qqd_set_subset`, `dqd_set_subset_partial`, `dqd_set_subset_refuted` (Matlab/VoltProps).
  Finding / limit: Proved in full for SMTuneQQD. False for LegacyDQDRefactored: a refused call moves all gates to the pretuned point; everything else proved.

**C75 End-to-end convergence on an affine device** (proved).  Composition of autotuner, tuner, Newton solver, finite differences and an affine device.
  Theorems: `affine_device_is_tuned` (EndToEnd/Props).
  Note: Without a maximal step size; with one: C111.

**C76 Recovery from an older file** (partial).  Autotuner with crash; refuted for older files because the state of the experiment has moved on.
  Theorems: `stale_file_recovery_refuted`, `crash_recovery` (Autotuner/PropsCrash).
  Finding / limit: False for older files; crash_recovery is the version for the newest file.

**C77 SensingDotTuner recovery** (proved).  `SensingDotTuner`.  Invariant over all histories of calls.
  Theorems: `sensing_dot_recovery` (SensingDot/PropsRun); `sensing_dot_next` (SensingDot/Props).
  Note: For every history of calls.

**C78 Newton step with parameters that have no gradient yet** (partial).  `NewtonSolver` with an estimator without estimate.
  Theorems: `missing_gradient_refuted` (Newton/PropsProtocol).
  Finding / limit: False: the unknown gradient is missing in the Jacobian and lstsq raises LinAlgError.

**C79 Request-first finite differences (one-sided)** (partial).  Finite difference estimator asked before it is updated.
  Theorems: `request_first_refuted` (Gradient/FDProps).
  Finding / limit: False in every dimension: the same point is requested n+1 times.

**C80 Finite differences on a subset of the gates** (partial).  Finite difference protocol with `gates` a strict subset.
  Theorems: `subset_protocol_refuted` (Gradient/FDProps).
  Finding / limit: False for every strict subset: ValueError after as many requests as there are gates in the subset.

**C81 Nelder-Mead keeps good measurements** (proved).  `NelderMeadSolver`: multiset of the simplex.
  Theorems: `nelder_mead_best_kept` (NelderMead/Props).

**C82 Nelder-Mead mirrors the worst point** (partial).  Same model; the suggested point is computed exactly.
  Theorems: `mirror_image_refuted` (NelderMead/Props); `mirror_image_of_worst_refuted` (NelderMead/PropsWorst).
  Finding / limit: False in every dimension: the worst point is included in the mean. The theorem gives the suggested point.

**C83 Nelder-Mead builds a simplex in general position** (proved).  Same model; linear independence of the edges.
  Theorems: `build_up_general_position` (NelderMead/Props).

**C84 Requests of the Kalman estimator below tuned parameters** (partial).  Kalman estimator with several null vectors; every free direction is a combination of them with its entries at the free columns as coefficients, the bound follows from the inequality of Cauchy and Schwarz; the refutation takes a covariance along the sum of two of them.
  Theorems: `tuned_request_partial`, `tuned_request_refuted` (Kalman/EstimatorTuned); `tuned_request_bound_partial`, `tuned_request_free_refuted` (Kalman/PropsTunedBound).
  Finding / limit: Proved for one free direction. With several, if nothing is requested, the variance is at most the limit times the sum of the squared lengths of the vectors of the null space. False of every Jacobian with two or more free directions: only the basis vectors of the null space are checked.

**C85 Kalman estimator and change_position** (partial).  Kalman estimator, `change_position` followed by `update`: closed form of the estimate after the next exact measurement.
  Theorems: `change_position_partial`, `change_position_moves_refuted` (Kalman/PropsPosition); `change_position_refuted` (Kalman/EstimatorHistory).
  Finding / limit: False: change_position keeps the value of the old position. Proved exactly when: the estimate stays if the new position has the same value, and it moves for every other change of the position unless the estimator is certain about the direction of the next step.

**C86 Kalman filter and estimator survive a reload** (proved).  Constructors and `to_hdf5` of filter and estimator.
  Theorems: `kalman_reload` (Kalman/EstimatorHistory).

**C87 Gates with infinite maximum covariance are ignored** (partial).  Kalman estimator with infinite limits; each eigenvector of the covariance is split into its parts on the ignored and on the other gates, which are eigenvectors themselves if the gates are not correlated.
  Theorems: `infinite_limit_partial` (Kalman/PropsIgnored); `infinite_limit_refuted` (Kalman/EstimatorHistory).
  Finding / limit: Proved for gates that are not correlated with the others: they never cause a measurement, and if their variances differ from those of the others they are not moved either. False: correlations with other gates make the ignored gate count, and it is moved.

**C88 Steepest point of a sensing dot scan** (proved).  `find_stepes_point_sensing_dot` on lists of reals.
  Theorems: `find_steepest_ok` (Signal/Props).

**C89 find_lead_transition keeps the caller's data** (partial).  In-place differences of `find_lead_transition`.
  Theorems: `find_lead_data_partial`, `find_lead_data_refuted` (Signal/Props); `find_lead_keeps_data_refuted` (Signal/PropsGeneral).
  Finding / limit: False: the array is changed in place. Proved: the end of the array is kept and the result is that of the copying function.

**C90 Positions returned by LeadTransition** (proved).  `LeadTransition.process_raw_data`.
  Theorems: `lead_transition_positions` (Evaluator/Props).

**C91 LeadTransition returns its declared parameters** (partial).  `LeadTransition` constructor and result labels.
  Theorems: `lead_transition_names_partial`, `lead_transition_names_refuted` (Evaluator/Props).
  Finding / limit: False for the evaluators of the tutorial. Proved if the parameters are named after the shifting gates.

**C92 Averaging with a single valid repetition** (proved).  `AveragingEvaluator` with one valid repetition.
  Theorems: `averaging_single` (Evaluator/Props).

**C93 Range checks of QQDLine and QQDLead** (proved).  `QQDLine`, `QQDLead`.
  Theorems: `line_lead_range` (Evaluator/QqdProps).

**C94 Steepest point of the two-dimensional sensing dot scan** (partial).  `SensingDot2D.process_raw_data`, the polynomial fit as oracle.
  Theorems: `sensing_dot_2d_partial`, `sensing_dot_2d_refuted` (Evaluator/QqdProps).
  Finding / limit: False: the flanks are exchanged. Proved with exchanged flanks; fails exactly for lines with fewer than 25 points.

**C95 Voltage limits of the quadruple dot** (partial).  set_qqd_gate_voltages.m.  Invariant over histories of calls.
  Theorems: `qqd_limits_partial`, `qqd_limits_refuted` (Matlab/VoltProps); `nan_passes_limits_refuted` (Matlab/VoltNan).
  Finding / limit: False for NaN, which passes all comparisons. Proved for all histories of calls without NaN.

**C96 Voltage limits of the double dot** (partial).  set_gates_v_pretuned.m.  Invariant over histories of calls.
  Theorems: `dqd_limits_partial`, `dqd_limits_refuted` (Matlab/VoltProps).
  Finding / limit: False: the sensor gates have no lower limit. Proved for the dot gates and the upper limit of the sensor gates, for all histories.

**C97 Absolute limits of the quadruple dot** (partial).  set_qqd_gate_voltages_abs_limit.m.
  Theorems: `abs_limit_partial`, `abs_limit_refuted` (Matlab/VoltProps).
  Finding / limit: False: the lower limit is compared with the step. Proved: the upper limit.

**C98 Steps of the sensing dot** (proved).  change_sensing_dot_gates.m.
  Theorems: `sensing_dot_limits` (Matlab/VoltProps).

**C99 Retuning the sensor** (partial).  retune_qpc.m.
  Theorems: `retune_qpc_partial`, `retune_qpc_refuted` (Matlab/VoltProps).
  Finding / limit: False for other gates than SDB2. Proved for SDB2.

**C100 Iterating over MATLAB data** (partial).  `__iter__` of the MATLAB views.
  Theorems: `iterate_view` (Matlab/IndexProps); `struct_view_iterates_partial`, `cell_elements_refuted` (Matlab/ViewProps).
  Finding / limit: The indices are right (iterate_view), and iterating over struct arrays gives their elements. False for cells, because the index is sent to MATLAB as a text in quotation marks.

**C101 Voltages of the simulated experiment** (proved).  `TestExperiment` as Series.  Induction over calls.
  Theorems: `read_after_set` (TestExperiment/Props).

**C102 The simulated experiment keeps the caller's Series** (partial).  Same model; sharing with the caller.
  Theorems: `initial_voltages_partial`, `initial_voltages_refuted` (TestExperiment/Props); `initial_voltages_always_refuted` (TestExperiment/CallerProps).
  Finding / limit: False: the Series is changed in place. Proved for gates that are never set.

**C103 Voltages of the tuners after construction** (proved).  `Autotuner.__init__` over tuners without voltages.
  Theorems: `construct_voltages` (Autotuner/PropsReload).

**C104 Raw data of the sensing dot in the history** (partial).  `SensingDotTuner` and the selection in `read_evaluator_data_from_autotuner`.  Case analysis.
  Theorems: `history_evaluators_partial`, `history_evaluators_refuted` (SensingDot/PropsRun).
  Finding / limit: False after a failed scan that follows an expensive one: the flag survives. Proved for scans without NaN.

**C105 Requests keep parameters that are tuned already** (partial).  `NewtonSolver` with `KalmanGradientEstimator`s after an update.  Composition of the two models, null space of the tuned rows; the refutation by calculation in the one-dimensional null space.
  Theorems: `request_keeps_tuned_parameters_partial` (EndToEnd/Kalman); `request_keeps_tuned_parameters_refuted` (EndToEnd/PropsRequest).
  Finding / limit: Proved if epsilon is the same for all gates of the solver. False otherwise: for all gradients that depend on both of two gates and all pairs of different step widths.

**C106 Meaning of all_estimators_ready** (partial).  `all_estimators_ready` over any estimators.  Induction over tuners and estimators.
  Theorems: `estimators_ready_partial`, `estimators_ready_refuted`, `estimators_ready_raises_refuted` (Ready/Props); `ready_newton_step_kalman`, `ready_newton_step_fd` (Ready/PropsStep).
  Finding / limit: Proved: if it is True, every Newton solver makes a Newton step next, for Kalman estimators also if parameters are tuned already. The other direction is false: parameters without set point are asked too, and estimators without a position raise. Proved if all parameters have set points.

**C107 all_estimators_ready is a query** (partial).  Sequences of updates, suggestions and queries.  Simulation relation on the estimators, induction over the calls.
  Theorems: `query_effect_partial`, `query_no_effect_kalman`, `query_effect_refuted` (Ready/PropsQuery).
  Finding / limit: False for the requested measurements of finite difference estimators, which are saved. Proved for everything else, for all histories.

**C108 Nelder-Mead moves after a reflection** (proved).  `NelderMeadSolver` state machine.  Case analysis on the measured cost; stability of sorting.
  Theorems: `moves_after_reflection`, `moves_end` (NelderMead/PropsMoves).

**C109 Nelder-Mead shrinks towards the best point** (proved).  Same model.  Induction over the rounds; the best points of a union.
  Theorems: `shrink_suggestions` (NelderMead/PropsMoves).

**C110 Newton solvers reject inconsistent set ups** (proved).  `NewtonSolver.__init__` and its methods.  Invariant over all calls.
  Theorems: `constructor_checks`, `sound_forever` (Newton/PropsNew); `construct_checks` (Newton/ConstructProps).

**C111 End-to-end convergence with a maximal step size** (proved).  As C75, with slicing of long steps.  Induction over the number of maximal steps that are left.
  Theorems: `affine_device_is_tuned_limited` (EndToEnd/PropsLimit).
  Note: The maximal step has to be at least twice the step of the finite differences: requests that are sliced are not covered (see C20).

**C112 End-to-end convergence with Kalman estimators that know the gradients** (proved).  As C111 with the model of the Kalman estimator.  The exact gradient is kept by every update, the variances do not grow, so nothing is requested.
  Theorems: `affine_device_is_tuned_kalman` (EndToEnd/PropsKalman).
  Note: For the same maximum covariance for all gates and a filter without process noise.

**C113 Failing fits are reported as NaN** (partial).  The four evaluators that fit curves, with `curve_fit` and `polyfit` as unknown functions.  Case analysis; the first fit is reached for all data with enough points.
  Theorems: `failed_fit_partial`, `failed_fit_refuted`, `nan_data_refuted` (Evaluator/FitProps).
  Finding / limit: False of the evaluators of the tunnel times, and of NaN in the data. Proved for InterDotTCByLineScan and NewLoadTime if the fit routine does not converge.

**C114 Results are labelled by the parameters of the evaluator** (partial).  Same model.  Case analysis on everything that `evaluate` may return.
  Theorems: `fit_names_partial`, `fit_names_refuted` (Evaluator/FitProps).
  Finding / limit: False: the names are fixed in the code. Proved for the default names.

**C115 Recalculation from stored data** (partial).  Same model, with the state that stores the raw data.  Unfolding.
  Theorems: `data_stored_partial` (Evaluator/PropsStored); `recalculation_partial`, `recalculation_refuted` (Evaluator/FitProps).
  Finding / limit: False of NewLoadTime and the evaluators of the tunnel times. Proved for InterDotTCByLineScan.

**C116 The second fit emphasises the transition** (partial).  The slices of the weights with the index rules of Python, over real positions.  Distance between the nearest point and the calculated one.
  Theorems: `emphasis_partial`, `emphasis_refuted`, `emphasis_edges_refuted` (Evaluator/FitCurves).
  Finding / limit: False: the position is calculated with a wrong scale. Proved for transitions near the centre of a scan around 0.

**C117 Time constants of the fitted pulse response** (partial).  The fitted functions over the reals.  Hyperbolic functions, gluing of continuous pieces.
  Theorems: `lead_times_v1`, `lead_times_v2_partial`, `lead_times_v2_refuted` (Evaluator/FitFunctions).
  Finding / limit: Proved for func_lead_times_v1. func_lead_times_v2 jumps, and starts at the wrong level if the first edge is not at time 0.

**C118 Ranges of fitted times** (proved).  Same model.  Bounds of the fit routine.
  Theorems: `fitted_times` (Evaluator/FitProps).
  Note: For fit routines that respect their bounds.

**C119 End-to-end convergence of a hierarchy** (proved).  The autotuner of C30 with the tuners and Newton solvers of C75; the estimators are shared.  Induction over the tuners; a Newton step of a tuner leaves the parameters without desired value where they are.
  Theorems: `hierarchy_is_tuned`, `hierarchy_is_tuned_fd` (EndToEnd/PropsHierarchy).
  Note: For Kalman estimators that know the gradients and finite difference estimators that have measured them. Without maximal step sizes within 4K + K(K-1)/2 iterations for K tuners.

**C120 The requests of a Kalman estimator come to an end** (proved).  The estimator of C47 and C84, driven by a loop that measures where it asks.  Each requested measurement reduces the trace of the covariance by at least a fixed amount.
  Theorems: `requests_end`, `requests_end_certain` (Kalman/PropsRequests).
  Note: Histories without restart().

**C121 End-to-end convergence while the gradients are learned** (proved).  The system of C112 with estimators that may be wrong.  Each request reduces the sum of the variances; the error stays P w with fixed w, so that it is small once the estimators are silent; then the Newton steps contract.
  Theorems: `learns_and_tunes`, `learns_and_tunes_finally` (EndToEnd/PropsLearning).
  Note: Without a maximal step size; common limit and step width.

**C122 A Kalman filter with fading memory follows the device** (proved).  The filter of C43 with a factor alpha.  Invariants: the inverse covariance is the discounted information, the error is P w with w divided by alpha² in every call; a geometric series bounds the weight of the past.
  Theorems: `fading_error`, `fading_forgets` (Kalman/PropsFading); `never_forgets_refuted` (Kalman/PropsMemory).
  Note: Without process noise and with the identity as state transition; the refutation shows that the default filter has no such bound.

**C123 Renewed requests** (proved).  Histories of C49.  Without fading memory every variance decreases; with it the variance of an unprobed direction is at least alpha^(2N) |v|⁴ / (vᵀ P₀⁻¹ v).
  Theorems: `silent_forever`, `asks_again` (Kalman/PropsMemory).
  Note: Common limit for all gates.

**C124 Suggested differences** (partial).  Model of the property with an oracle for eigh; the parts of an eigenvector of an uncoupled covariance are eigenvectors; blocks are preserved by the filter; counterexample with a rank one covariance.
  Theorems: `suggestion_partial`, `stays_uncoupled`, `suggestion_refuted` (Kalman/PropsSuggest).
  Finding / limit: False for coupled errors of several values: the first part of the eigenvector that is not zero is returned, however small it is (`suggestion_refuted`).

**C125 End-to-end convergence on devices that are not affine** (proved).  The composition of C75 with any responses.  The secants that the estimators find are close to the gradients because the displacements are orthogonal; a Newton step with them is a contraction up to delta; induction over the steps.
  Theorems: `nearly_affine_device_is_tuned`, `nearly_affine_device_is_tuned_eventually` (EndToEnd/PropsRobust).
  Note: Errors of the evaluators are the same whenever the voltages are the same; the estimators are one-sided.

**C126 End-to-end convergence with noise** (proved).  The composition of C75 with evaluators that depend on the number of the evaluation.  The stored measurements are those of some function that has the measured values at the measured points, which are different; then as C125 with twice the noise added to delta.
  Theorems: `noisy_device_is_tuned`, `noisy_device_is_tuned_eventually` (EndToEnd/PropsNoise).
  Note: The evaluators return values in every evaluation; the estimators are one-sided.

**C127 End-to-end convergence with failing evaluations** (proved).  The composition of C126 with results that are exact or NaN.  After a failure the tuner halves the distance to the last good point (C18); the point at which the evaluation works at last is independent of the measured ones, so that the gradients are found; each Newton step is at least partly made: geometric decrease.
  Theorems: `flaky_device_is_tuned`, `flaky_device_is_tuned_eventually`, `first_failure_is_fatal` (EndToEnd/PropsFlaky); `flaky_device_is_tuned_kalman` (EndToEnd/PropsFlakyKalman).
  Note: An evaluation that fails returns NaN; exceptions of evaluators end `iterate` (C06).

**C128 End-to-end convergence on a monotone device** (partial).  The composition of C75 with one gate and a response that has the slope 1 below the voltage 1 and b above; invariant for b >= 2: the voltages are below the kink or at the set point itself, and the set point is met at neither; for b < 2 each step multiplies what is missing by 1 - b.
  Theorems: `increasing_device_is_tuned_refuted`, `increasing_device_is_tuned_partial`, `kinked_continuous`, `kinked_strictMono` (EndToEnd/PropsKink); `slopes_within_factor_two_partial` (EndToEnd/PropsSlopes).
  Finding / limit: False: the gradient is measured once and never again, so that a kink at which the slope at least doubles makes the tuning oscillate for ever; refuted for all such slopes, set points, starts and tolerances. Proved for all devices whose steepest slope is less than twice the flattest one.

**C129 Files written in the background refer to the reserved objects** (partial).  Deep copy as a map of the object graph that turns experiments into one integer each; pickling as a graph in which numbers have a new identity at every place; both followed by the models of to_hdf5 and from_hdf5 (C52-C54). Thread mode by C54, process mode by projecting the unpickled graph onto the original one.
  Theorems: `background_file_thread_partial`, `background_file_process_partial`, `background_file_process_refuted` (Storage/PropsHandoff).
  Finding / limit: False in process mode (the default of the class; Autotuner uses thread mode): Experiment.__deepcopy__ returns an integer, pickle does not keep the identity of integers, so that the worker does not recognise the experiment and stores a number. Proved in thread mode for all graphs, and in process mode if no reserved object is an experiment.

**C130 SensingDot1D returns the steepest point** (partial).  process_raw_data and evaluate with numpy functions as unknowns (polyfit, the attribute lookup of poly1d) and an index that is an integer or a float; by cases over all exits, extremal positions by the lemmas on argmax of C67.
  Theorems: `sensing_dot_1d_refuted`, `sensing_dot_1d_partial`, `sensing_dot_1d_signal_refuted` (Evaluator/Sd1dProps).
  Finding / limit: False: no evaluation returns, since the index of the current signal is a float (and np.polynomial has no poly1d). Proved: which exception it is, and that options, raw data and the steepest position are stored before; the stored signal is the best slope of the whole scan and need not be the one at that position.

**C131 A tuning survives any number of crashes** (partial).  The composition of C121 with a loading function built from the constructors of estimator, solver, tuner and autotuner; executions with crashes as an inductive relation; every reachable tuner is loaded as itself (invariants of C25 and C110, C86), so that an interrupted execution is one without crashes up to a torn write (C14); the refutation by the invariant that some estimator has stored a measurement.
  Theorems: `interrupted_tuning_completes_partial`, `interrupted_tuning_refuted`, `crashes_do_not_matter` (EndToEnd/PropsInterrupted).
  Finding / limit: Proved with Kalman estimators. False with finite difference estimators: for every device of C75 no file that the autotuner writes can be loaded, the constructor of the estimator raises AssertionError (C42). Needed: columns of the target that are filled for all parameters or for none (C25).

**C132 End-to-end convergence with symmetric finite differences** (partial).  The composition of C75 with symmetric estimators; invariant: k pairs (and a half) of measurements at independent displacements, one pair in two cycles; the refutation with the invariant that one displacement is zero, for which the least squares matrix is singular (C41).
  Theorems: `symmetric_estimators_partial`, `symmetric_estimators_refuted` (EndToEnd/PropsSymmetric).
  Finding / limit: Proved if the estimators are created without a position, with and without maximal step size. False if they are created with the position at which the tuning starts, which the constructor offers as current_position: for every device, affine or not, exactly 6n - 3 calls succeed and the next raises EvaluationError (unless set points are met on the way).

**C133 End-to-end convergence of a hierarchy with finite differences** (partial).  The hierarchy of C119 with fresh estimators for the first tuner; the protocol of C75 replayed in the hierarchy (the first estimator with a set point requests, all estimators of the tuner are fed); then either the rest of C119 or a Jacobian with missing rows.
  Theorems: `hierarchy_from_scratch_partial`, `hierarchy_from_scratch_refuted` (EndToEnd/PropsScratch).
  Finding / limit: False for two or more tuners: for every such device, unless the first tuner is tuned within the steps of the finite differences, exactly 3n + 1 calls succeed and the next raises LinAlgError (the Jacobian has no rows for the parameters of the other tuners). Proved if the estimators of the other tuners have found their gradients.

**C134 End-to-end convergence of a hierarchy with rough gradients** (proved).  The hierarchy of C119 with the estimators of C121; a quantity made of what is missing to the set points of the tuners, the sum of all variances and the index of the working tuner decreases by at least η with every suggestion: Newton steps reduce the first, requests whose result is used the second (C120), requests whose result is not used the third.
  Theorems: `rough_hierarchy_is_tuned`, `rough_hierarchy_is_tuned_finally` (EndToEnd/PropsRoughKalman).
  Note: With exact measurements (the estimators assume the reported variances). Unlike C119 the gradients are wrong, so that every Newton step and every requested measurement may disturb the other tuners; a requested measurement is only taken by the estimator that has asked for it if the tuners before are still tuned.

**C135 An operator may intervene at any time** (partial).  The hierarchy of C119 with the real restart and change_targets; sessions as an inductive relation; an invariant on status flag, index and stored voltages that survives stale status flags and positions (C07-C09, C50), from which C119 gives the bound; the refutation by the invariant that the queue is not empty and the step is short.
  Theorems: `operator_may_intervene_partial`, `operator_may_intervene_fd_partial`, `operator_may_intervene_refuted`, `queued_forever` (EndToEnd/PropsOperator).
  Finding / limit: Proved for tuners without maximal step size. False with a maximal step size: if the set point is changed while steps are queued so that the step to the new one is not longer than the maximal step size, the number of queued steps is never reduced again; nothing is evaluated any more and the voltages grow beyond all bounds without an exception (queued_forever: for every such tuner).

**C136 Calling MATLAB functions through views** (partial).  The base workspace as a map of variables and a list of records of calls, views as expressions; induction over the arguments and over the history of calls: two workspaces agree on everything that reads neither temp nor the record of the call.
  Theorems: `call_arguments_partial`, `call_arguments_refuted`, `call_leaves_views_partial`, `call_leaves_views_refuted`, `results_stay_valid_partial`, `outcomes_stay_valid_partial`, `results_stay_valid_refuted`, `cleared_results_stay_invalid`, `calls_accumulate` (Matlab/CallProps).
  Finding / limit: Proved if no argument is a view that reads the variable temp, for all variables except temp, and until clear_all_temporary_data is called. False otherwise: plain arguments are passed through the variable temp of the base workspace, which overwrites it and makes a view on it show the wrong value; clearing the data of one function view invalidates the results of all. The data of every call stay in MATLAB, also of failed calls.

**C137 Connections to MATLAB sessions** (partial).  Sessions, engine objects and the weak dictionary as a state machine with the events of the program and of its environment; invariant: names are different, every engine object is registered under the name of its session and vice versa.
  Theorems: `connect_finds_session_partial`, `connect_started_refuted`, `connect_reused_refuted` (Matlab/EngineProps).
  Finding / limit: Proved for all histories in which the program does not start sessions itself and names are not used again. False for a session that the program has started (it is registered by its process id only, so that connecting by name raises) and for a name that is used again after the session has ended (the engine of the dead session is returned).

**C138 Files of the rows of a history** (partial).  append_autotuner with the history after an exception and a flag for every tuner whether its gradients are known; induction over the appended sequence (a prefix of lost paths stays in front); for fresh estimators the invariant that after k calls of iterate no estimator has more than k points, so none has an estimate before n + 1 points.
  Theorems: `reload_path_partial`, `known_gradients_append`, `reload_path_refuted` (History/GapProps); `fresh_estimators_history_refuted` (EndToEnd/PropsHistory).
  Finding / limit: Proved if no append raises, which holds for runs of the autotuner if all gradients are known. False otherwise: while a gradient is missing append_autotuner raises TypeError after it has stored the path, so that every later row gets the file of an earlier point. With finite difference estimators that have measured nothing this happens to the first appends of every tuning (fresh_estimators_history_refuted: every device, every number of tuners).

**C139 Reload windows** (partial).  Autotuner objects by number, windows with the number of their autotuner, the number they act on and the one they show; induction over the actions: a window follows the main window and, once typed, acts on the number shown.
  Theorems: `reload_voltages_partial`, `reload_state_partial`, `typed_number_has_row`, `new_window_refuted`, `others_abandoned`, `abandoned_window_refuted` (Gui/ReloadProps); `neighbouring_rows_differ`, `last_row_is_current` (Gui/ReloadRows).
  Finding / limit: Proved for windows in which a number was typed, while no other window reloads a state. False otherwise: a new window shows 1 but acts on row 0, and after a state was reloaded in one window the others restart the abandoned autotuner, so that the current one overwrites the reloaded voltages with the ones it was about to set. Buttons pressed while the worker runs: see C142.

**C140 History of a directory** (partial).  Directories as lists of entries by path, makedirs and save as updates, load_directory as sorting by name and appending; C59 gives the order, and the sorted list is unique because the names are different; composed with runs of the autotuner by the states in the log.
  Theorems: `load_directory_partial`, `load_directory_run_partial`, `load_directory_refuted` (History/DiskProps).
  Finding / limit: Proved without reloads. False otherwise: a reloaded autotuner saves into a new directory inside the old one (C14), and as soon as it has saved anything History(directory) raises, because a directory is not an HDF5 file. Assumes that all writes have succeeded.

**C141 get_gradient_variances returns the diagonal of the covariance** (partial).  Names as lists of characters, the regular expression as a function on them; counting the separators shows that a match is a whole column.
  Theorems: `get_gradient_variances_partial`, `get_gradient_variances_refuted` (History/Variances).
  Finding / limit: False: the name of the parameter is not anchored, so that the variances of every parameter whose name ends with p are returned as well (for all such names). Proved for names none of which ends with another.

**C142 Restarting while the worker iterates** (partial).  iterate cut into the call of a method and the assignments that follow it, calls of other threads in between; a schedule in which the others wait is simulated by a sequence of calls (C01, C03 carry over); refuted by two schedules for every hierarchy.
  Theorems: `completion_between_iterations_partial`, `written_between_iterations_partial`, `restart_during_evaluation_refuted`, `restart_during_suggestion_refuted`, `begin_end_eq_iterate` (Autotuner/PropsRace).
  Finding / limit: False, for every hierarchy: iterate increments the index or stores the new voltages after the restart, so that the tuning can be reported complete at voltages at which nothing was evaluated, or the voltages of the user are overwritten. Proved for all schedules in which the other threads act only while no call of iterate is running. Interruptions inside the two halves of iterate are not modelled.

**C143 Evaluators that fit a curve report the parameters of the curve that was measured** (partial).  curve_fit as an oracle that returns a curve through all points, within its bounds, if there is one and the start values are within the bounds; the start values calculated by the code are shown to be such numbers; an exponential with an offset is determined by three points, three equidistant points of one piece are found among enough points of a curve with two break points, and sums of exponentials with straight lines as coefficients have few zeros (Rolle); refuted by oracles that prefer negative widths or exchanged times.
  Theorems: `load_curve_of_exact_data`, `load_time_of_exact_data`, `tunnel_coupling_of_exact_data`, `tunnel_coupling_sign_refuted` (Evaluator/FitExactProps); `prefit_of_exact_data`, `scan_of_exact_data` (Evaluator/FitExactLead); `prefit_true_times`, `scan_true_times`, `tunnel_coupling_true_partial`, `tunnel_times_swapped_refuted` (Evaluator/FitDeterminedProps).
  Finding / limit: The load time is the true one if three different times were measured. The tunnel times are the true ones if at least two points lie before the rise of the response, nine between rise and fall and eight after the fall, for both evaluators of tunnel times. The width of a transition is the true one except for its sign if the scan has at least eight points. For shorter scans the reported numbers belong to a curve that agrees with all measured values. False of InterDotTCByLineScan: the sign of the width is not determined by the data and nothing in the code makes it positive, there is an exact fit routine that gives negative widths for all transitions. False of LeadTunnelTimePrefitVersion for scans that begin with the rise and last exactly one period: rise and fall may be exchanged.

**C144 Exceptions that are caught do no harm** (proved).  Faults as data: which evaluator raises, what a failing write leaves, whether saving raises; a relation between states that differ only in the voltages a tuner remembers and in gates that are about to be written; simulation by induction over the calls, composed with the termination theorem C126.
  Theorems: `caught_exceptions_are_harmless`, `interrupted_call_changes_nothing`, `tuned_despite_exceptions` (EndToEnd/PropsRetry); `cheap_evaluator_raises`, `expensive_evaluator_raises` (SensingDot/PropsRetry).
  Note: For hierarchies of SubsetTuners with Newton solvers, any estimators and any lstsq. For a SensingDotTuner per call: the state is that of an interrupted call. Saving may fail too.

**C145 A raw data window shows the data of the row whose number is displayed** (partial).  The window as a record of typed number, displayed number and picture; python indexing with negative numbers; refuted for all rows that differ from the row before.
  Theorems: `raw_window_refuted`, `raw_window_partial`, `windows_disagree` (Gui/RawProps); `new_window_refuted` (Gui/PropsClose).
  Finding / limit: False, for all histories with different data: the picture is the one of the row before the displayed number, and of the last row for the number 0. The reload window, which displays the same kind of number, acts on the row with this number. Proved: the picture belongs to some row, and every row can be shown.

**C146 Raw data rows belong to the rows of the history** (partial).  The table of raw data beside the table of C60, filled by the same loop; the reference is the history in which the raw data takes the place of the parameters; induction over the appended autotuners.
  Theorems: `raw_data_aligned_partial`, `raw_data_aligned_refuted`, `raw_data_shifted_refuted` (History/EvalProps).
  Finding / limit: Proved if all tuners have the same evaluators with data in all appended autotuners and a tuner was evaluated whenever the voltages changed. False otherwise: an evaluator without column in the table raises KeyError, and a row for which nothing was evaluated has no row of raw data.

**C147 A row of a history belongs together** (partial).  The recorded rows of C60 on top of the end-to-end machine of C121; invariant: what a tuner remembers was reported at the voltages it remembers, and every row is NaN or agrees with an evaluator at the voltages of the row; refuted by a run with queued steps.
  Theorems: `rows_measured_partial`, `rows_measured_refuted` (EndToEnd/PropsRows).
  Finding / limit: Proved for hierarchies of SubsetTuners without maximal step size whose tuners were not evaluated before. False with a maximal step size: a row that is added while steps are queued has the new voltages but the values of the voltages before.

**C148 Measuring leaves the gates where they are** (partial).  Scans as data (loops and cleanup functions) as the MATLAB functions make them; smrun as an oracle that moves only swept channels; case analysis over the five kinds of measurements, induction over sequences; refuted for all voltages of RFA and RFB that are not zero.
  Theorems: `gates_stay_partial`, `gates_stay_refuted`, `failed_scan_refuted` (Matlab/ScanProps); `failed_line_scan_stays` (Matlab/ScanAskedProps).
  Finding / limit: Proved for all gates but RFA and RFB, for all sequences of measurements that do not fail. False of RFA and RFB: line scans, scans of the detuning and lead scans set both to zero afterwards, although they are gates that can be tuned. A scan that fails leaves the swept gate where it is. smrun is assumed to move only the channels of the scan and to call the cleanup functions at the end.

**C149 The scan that is performed is the scan that was asked for** (partial).  The scans of C148 compared with the options; the x-axis of the evaluators (linspace) compared with the voltages of the loop; refuted by showing that measurements with different options are the same scan.
  Theorems: `line_scan_as_asked`, `line_scan_axis`, `detune_scan_partial`, `detune_scan_refuted`, `scan_2d_partial`, `scan_2d_ramp`, `scan_2d_refuted`, `lead_load_refuted` (Matlab/ScanAskedProps); `scan_needs_options` (Matlab/ScanNeeds).
  Finding / limit: Proved for line scans and for scans of the detuning by the DecaDAC. False: a scan of the detuning by the AWG, the default of InterDotTCByLineScan, ignores center, range, number of points and time; every other value of AWGorDecaDAC raises; a 2D scan always sweeps SDB1 and SDB2 around their present voltages with a number of points that does not depend on the option; lead and load scans ignore their options.

**C150 Pass-through evaluators assign values and variances in order** (partial).  The three arrays that evaluate() fills, compared with a list of readings each of which carries its quality; induction over the measurements; refuted for all values for two lists of measurements.
  Theorems: `pass_thru_partial`, `first_evaluation_partial`, `pass_thru_lines_partial`, `file_names_recorded`, `pass_thru_refuted`, `line_last_refuted`, `line_first_refuted`, `interrupted_estimate_refuted` (Evaluator/PassThruProps).
  Finding / limit: Proved if no measurement is a line, or all are, for an experiment that has get_last_file_name. False: SMTuneQQD has no such method, every evaluation raises AttributeError; line measurements together with others shift variances and residuals or drop values; if a measurement fails during the estimate of the variances, all later variances are NaN.

**C151 A sensing dot is kept sensitive while the other parameters are tuned** (proved).  The hierarchy of C119 with a sensing dot tuner and forwarding solver (C33, C34) at index 0; induction over the adjustments of the dot, over the slices of a step and over the tuners; the crosstalk example by an invariant of the rounds.
  Theorems: `sensed_hierarchy_is_tuned`, `sensed_hierarchy_is_tuned_fd` (EndToEnd/PropsSensed); `sensed_hierarchy_crosstalk_refuted` (EndToEnd/PropsCrosstalk).
  Note: Without maximal step sizes at most 3R + 1 + (5 + 3R)K + K(K - 1)/2 calls for K tuners above the dot. The last theorem shows that the condition on the gates of the dot is needed: a device where the set point can be met with a sensitive dot, but every step spoils it.

**C152 The plot of the gui shows exactly what is selected** (partial).  The dictionary of shown items as a function of their keys; each part of refresh changes only its own keys (frame lemmas), the keys of different items differ; induction over the loops and over the session.
  Theorems: `plot_shows_selection_partial`, `plot_same_name_refuted`, `plot_missing_gradient_refuted` (Gui/PlotProps).
  Finding / limit: Proved for names of gates and parameters that differ and contain no #, no gate called err_bar, and a history that has tables of all gradients. False otherwise: a gate with the name of an unselected parameter is not shown, and a gradient that is missing stops the refresh although it is not selected. Colours and the legend are not modelled.

**C153 MATLAB uses the files of this installation** (partial).  The search path as a list of directories with the package; case analysis over what is found and what the user allows.
  Theorems: `own_files_are_used_partial`, `own_files_are_found`, `other_directories_stay`, `not_found_is_reported`, `missing_package_refuted` (Matlab/PathProps).
  Finding / limit: Proved if the directory of this installation contains the MATLAB files. False otherwise: the last check only asks whether some package qtune is found, so the construction ends well with the other files. addpath and the search of MATLAB are modelled by a list of directories.

**C154 The options of a measurement reach the tune program** (partial).  Options as lists of tagged values; induction over the options, compared with a relation between options and arguments.
  Theorems: `options_reach_tune_partial`, `unknown_measurement_rejected`, `numpy_text_refuted`, `reserved_option_refuted` (Matlab/PathProps).
  Finding / limit: Proved for options without complex numbers and text of numpy types that have an index. False: text of a numpy type raises ValueError after options before it have been converted; an option called measurement_name raises TypeError.

**C155 Figures of raw data show all evaluators that have data** (partial).  The loop that removes entries from the list it runs over, with the entries that were passed and those that come; induction over the rest; the slices of the axes by induction over the evaluators.
  Theorems: `evaluator_figures_partial`, `drawn_by_name`, `unknown_neighbours_refuted`, `empty_row_refuted`, `caller_list_refuted` (History/FigureProps); `averaging_figure_refuted` (Gui/PictureProps).
  Finding / limit: Proved if no two unknown names follow each other and every row has data. False: of two unknown names that follow each other the second stays in the list, which causes a KeyError; a row without data raises ValueError; unknown names are removed from the list of the caller. For averaging evaluators there is always a KeyError. What is drawn into the axes is the subject of C164.

**C156 get_gradient_covariances returns the covariances of the parameter** (partial).  The regular expression as a function on lists of characters as in C62 and C141; looking up labels in a data frame; the labels by counting the number signs.
  Theorems: `get_gradient_covariances_labels_partial`, `get_gradient_covariances_sorted_partial`, `get_gradient_covariances_values`, `get_gradient_covariances_refuted`, `no_covariances_refuted` (History/Covariances).
  Finding / limit: The labels are proved for names as in C141. False for every history: the columns are looked up by the pairs of gates although they have other names, so that all values are NaN; without covariances there is a TypeError.

**C157 LeadTransition reports where the transition is** (partial).  The device as a function that gives position and shape of the transition for each scan and voltages; the first maximum of the differences over a window is where the middle of the window is nearest to the transition; addition theorems for the hyperbolic tangent.
  Theorems: `lead_transition_located_partial`, `lead_transition_scaled_refuted`, `lead_transition_other_range_refuted` (Evaluator/LocateProps); `lead_transition_window` (Evaluator/PropsWindow); `transition_found`, `tanh_peaked` (Signal/TransitionProps).
  Finding / limit: Proved if all scans have the same range, center and number of points. False otherwise: the positions of all scans are read off the axis of the first scan, so that distances from the center are scaled by the ratio of the ranges.

**C158 A device that only works near the start is tuned without leaving the region** (proved).  Every cycle of C125 with all states of the three calls; invariant of the Newton steps: distance from the start plus the length of all further steps is at most R; runs that stay in the region do not depend on the evaluators elsewhere.
  Theorems: `local_device_is_tuned` (EndToEnd/PropsLocal).
  Note: What the evaluators do outside of the region does not matter: the proof compares with a device whose evaluators work everywhere. Evaluators do not move the gates.

**C159 Lead transitions are tuned from the data of line scans** (proved).  The results of C157 as responses of a device of C158, with the distance of two points as error; a complete tuning meets the set points for every estimator (invariant), and reported positions are points of the scan.
  Theorems: `lead_transitions_are_tuned`, `coarse_scan_is_never_tuned` (EndToEnd/PropsLead).
  Note: The scans of all transitions have the same settings apart from the gate (see C157). Combination of the models of LeadTransition, the index search, SubsetTuner, NewtonSolver, the finite difference estimator and Autotuner. transition_simulation with the default settings meets the hypotheses.

**C160 plot_tuning draws what it is asked for** (partial).  Figures as lists of axes; what subplots returns depends on the number of rows; induction on the names.
  Theorems: `plot_tuning_partial`, `single_gradient_refuted`, `unknown_parameter_refuted`, `lead_times_refuted`, `parameter_texts_partial`, `titles_refuted`, `documented_mode_refuted`, `gradient_window_refuted`, `gradient_window_missing_refuted` (History/TuningPlotProps).
  Finding / limit: Proved if the history has all columns, parameter_information has texts for all parameters and at least two gradients or none are asked for. False otherwise: a single gradient raises TypeError (subplots returns one axes, not an array), a parameter without text raises KeyError, among them the default names of the evaluators of lead tunnel times, the mode with_par_variences of the docstring is ignored, the window with one gradient is empty until the second refresh, and with a parameter without gradient it is always empty.

**C161 Start tunes the device** (partial).  The threads of C63 with the state of an autotuner; invariant: the state is that of the loop after as many calls as were made; termination measure of the worker after Start.
  Theorems: `session_is_loop`, `start_completes`, `start_stops_at_exception`, `start_tunes` (Gui/TuneProps); `start_tunes_affine_device`, `start_fresh_history_refuted` (Gui/TuneDevice); `start_tunes_double_dot` (Gui/TuneDot).
  Finding / limit: Combination of the models of the worker, the autotuner, the history and (with C75 and C165) affine devices and double dots. False with a history and finite difference estimators that have measured nothing: append_autotuner raises in each of the first n calls (TypeError, see C138), so that each Start gives a single call of iterate. The scheduler gives the worker enough steps; iterate is one step of the worker.

**C162 Each press of Step makes one call of iterate** (partial).  Invariant: calls of iterate plus a step that is ordered and not begun are at most the orders.
  Theorems: `steps_at_most_ordered_partial`, `step_lost_refuted` (Gui/TuneDevice); `step_exactly_one` (Gui/Props).
  Finding / limit: At most one call for each press is proved for all schedules, exactly one if the worker is idle. False: a step that is ordered while the previous one is executed is lost, since the worker clears the flag at the end.

**C163 The buttons show whether the worker was started** (partial).  Each assignment of both threads is one step; invariant: the buttons are right after the assignments that are left; two schedules for every state in a step.
  Theorems: `buttons_right_partial`, `orders_partial`, `cannot_pause_refuted`, `lost_start_refuted` (Gui/ButtonProps).
  Finding / limit: Proved if the worker does not call pause while the other thread executes a method. False otherwise: if Start is pressed while a step ends with an exception or completion, the worker may go on tuning with Pause disabled, or wait with Start and Step disabled. All reads of Qt are left out; the worker lives.

**C164 Pictures of raw data show the data and the reported result** (partial).  A picture as list of items with the exception that ended it; the evaluators of C113 to C118 give the data and fit results; lookup of labels in a zipped Series.
  Theorems: `coupling_picture_partial`, `tunnel_times_picture_partial`, `load_time_picture_partial`, `transition_picture_partial`, `sensing_dot_1d_picture_partial`, `averaging_picture_partial`, `tunnel_times_picture_refuted`, `load_time_window_refuted`, `transition_window_refuted`, `two_points_refuted`, `sensing_dot_1d_figure_refuted`, `sensing_dot_2d_window_refuted`, `averaging_figure_refuted`, `other_names_refuted`, `list_of_axes` (Gui/PictureProps).
  Finding / limit: Proved for InterDotTCByLineScan, LeadTunnelTimePrefitVersion, several line scans of LeadTransition (window and figure), NewLoadTime and SensingDot2D (figure), SensingDot1D and averaged couplings (window). False for all data: the curve of LeadTunnelTimeByLeadScan (TypeError, the wrong fit function is called), the windows of load times, of single line scans and of two-dimensional scans (one axes is not a list), the figures of SensingDot1D (an array of axes is not a list) and of all averaging evaluators (KeyError), scans with two points, and all evaluators with other names than the ten in the table.

**C165 A double dot is tuned from the data of its scans** (partial).  The evaluators of C143 and C157 give the responses of a device of C158; entries of a concatenated Series; a complete tuning was within the tolerances when it was last evaluated (invariant).
  Theorems: `double_dot_is_tuned_partial`, `negative_widths_are_never_tuned_refuted` (EndToEnd/PropsDot).
  Finding / limit: Proved for exact data and fit routines that find exact fits, with the additional assumption that the fits of detuning scans return positive widths. Without it false for every device: nothing in the code makes the width positive, and with a fit routine that returns the equally good negative width no tuning with a set point above the tolerance is ever complete. The curves of load_simulation, detune_simulation and transition_simulation meet the hypotheses.

**C166 Values inside each other arrive in MATLAB** (partial).  Values as an inductive type, `to_matlab` with the number of calls that the interpreter allows; induction over plain values, and over the number of calls.
  Theorems: `nested_arrives_partial`, `tuple_arrives_refuted`, `text_arrives_refuted`, `repeated_label_arrives_refuted` (Matlab/NestedProps).
  Finding / limit: The values that arrive are characterised exactly: numbers, arrays of one or two dimensions of known types, and lists, sets, dicts and Series without repeated labels of these. False for all others: of a tuple only a generator is returned, a string, truth value or None anywhere raises NotImplementedError, and a Series with a label twice is converted again and again until RecursionError.

**C167 Reading files in threads is reading them one after the other** (proved).  Queue, threads, finished results and the loop as a transition system; invariant: reading the rest one by one gives the result of all; a measure that every step lowers, and no deadlock.
  Theorems: `parallel_reading`, `parallel_reading_ends`, `parallel_directory` (History/ParallelProps).
  Note: For threads (as in History). With processes, the default of ParallelHDF5Reader, which qtune does not use, arguments and results are pickled; this is not modelled.

**C168 Nearly linear devices are tuned with a maximal step size, too** (proved).  The composition of C125 with queued steps: between two evaluations the same Newton step is suggested again, so that the way is a multiple of it; at least half of the step is made or the full number of slices; contraction or decrease by a constant, induction.
  Theorems: `nearly_affine_device_is_tuned_in_slices`, `nearly_affine_device_is_tuned_in_slices_eventually` (EndToEnd/PropsSlice).
  Note: One-sided estimators, with steps of at most half of the maximal step size; errors of the evaluators are the same whenever the voltages are the same. The roughness has to be less than what a full number of slices gains.

**C169 The writer works in a process of its own, too** (partial).  Caller, feeder thread and worker process as a transition system; simulation by the model of thread mode as long as nothing is discarded; invariants: tasks that were called are executed, on the way or discarded, and stay counted; a measure that every step lowers.
  Theorems: `process_fifo`, `process_is_thread`, `process_complete`, `process_join_partial`, `process_join_without_failures`, `process_join_refuted` (Writer/ProcessProps).
  Finding / limit: Proved if all objects can be pickled: every execution is one of thread mode. Order and completeness after join() are proved for all objects. False otherwise: an object that cannot be pickled is discarded without an exception in the caller, and no later join() or restart() returns, in no schedule (unless the worker dies of a failed write before). The queue of multiprocessing is modelled as buffer, feeder and pipe that is never full; what was pickled can be unpickled.

**C170 Log messages do not change the tuning** (partial).  iterate with the two messages that look something up; invariant: after the first evaluation the first tuner knows the voltages of all gates, and each tuner the value of a parameter; refinement step by step; refutations for all devices.
  Theorems: `log_is_silent_partial`, `log_is_silent_subset_partial`, `log_keeps_voltages_from_being_set_refuted`, `log_of_distance_refuted` (Autotuner/LogProps).
  Finding / limit: Proved for new autotuners whose tuners know the value of at least one parameter; for SubsetTuners this is the case if some parameter has entries in all columns of the target that are used. False otherwise: with a tolerance for one parameter and a minimum for the other no values are kept (see C15), and whenever the parameters are not tuned the message with the distances raises KeyError, after the evaluation and before the state is saved. False for an autotuner that is created with voltages to set and a first tuner with last voltages of other gates: iterate raises KeyError forever. Labels are looked up as by pandas 0.24; newer versions raise KeyError if one of the labels is missing.

**C171 The log window shows the messages of qtune** (partial).  Loggers as a tree with levels, handlers and propagation (module logging), configure_logging with its loop, the list of levels; the loop removes the own handlers only; invariant of loggers and window; induction over messages and selections.
  Theorems: `log_window_opens`, `log_window_shows_partial`, `log_window_not_set_refuted`, `log_window_newest` (Gui/LogWindowProps).
  Finding / limit: Proved for the five levels from CRITICAL to DEBUG if setup_default_gui returns. False otherwise: it raises StopIteration exactly if a parent of the loggers, for example the root logger after logging.basicConfig(), has a handler (the loop that removes handlers also sees those of the parents). If NOTSET, the last entry of the list, is selected, then the level of the root logger counts, by default WARNING, so that fewer messages are shown than with INFO. A second gui takes all messages from the first.

**C172 Open windows follow the history** (partial).  History, open windows and queue of events as a transition system with interleaved steps of worker and main thread; invariant: a window is current, or its refresh is in the queue, or the signal is still to be emitted; frozen windows by induction.
  Theorems: `windows_follow_partial`, `raw_data_window_follows_refuted`, `silent_change_refuted` (Gui/FollowProps).
  Finding / limit: Proved for the windows with curves, parameters and gradients if the signal is emitted after the last change of the history. False for the windows with raw data, which are not connected with the signal: whatever happens, such a window goes on showing the evaluators that were known when it was opened. False if append_autotuner raises after it changed the history: no window shows the change. What a window draws is a parameter; windows whose drawing raises are excepted.

**C173 Evaluators of quadruple dots return a value for each parameter** (proved).  evaluate of the six classes with the results of MATLAB as arguments and the rules of pd.Series for values and labels; case distinction by the numbers of values and labels.
  Theorems: `qqd_one_quantity`, `qqd_several_quantities` (Evaluator/QqdEvalProps).
  Note: If MATLAB returns a single position, QQDCharge gives it to all parameters. QQDSensor1D and QQDSensor2D return NaN for all variances. The range checks of the first two are C93.

**C174 The gradient of a Kalman estimator stays a number** (partial).  The filter of filterpy and the estimator once more, for numbers that may be NaN, with NaN propagating sums and products; no entry becomes NaN, or all entries do and stay so, by induction over the calls; agreement with the model for numbers by computation.
  Theorems: `kalman_numbers_partial`, `kalman_numbers_refuted`, `nan_model_on_numbers`, `nan_update_on_numbers` (Kalman/NanProps).
  Finding / limit: Proved if the variances are numbers, too. False otherwise: the first update whose variance is NaN, at a point that is not closer than 1e-7 to the reference point, makes all entries of gradient and covariance NaN, and they stay NaN whatever is measured later, also after a restart. Evaluators that report NaN variances with numbers exist: QQDSensor1D and QQDSensor2D (C173). The last two theorems say that the model with NaN agrees on numbers with the model that C43 to C49 are about.

**C175 Stored objects are read back as objects of their class** (partial).  The table of classes as a dict, with definitions, imports and files that are read as steps of a session; invariants over all sessions.
  Theorems: `user_class_read_back_partial`, `package_class_read_back_partial`, `stored_classes_read_back_partial`, `quadruple_dot_class_lost_refuted`, `failed_definition_refuted` (Storage/ClassProps).
  Finding / limit: Proved for the main classes of the package in every session, and for classes of the user if no class of the same name is defined later and the name is not one of the package. False for the classes of sm_tune_qqd, which _import_all does not import: in a session that has not imported the module itself they are read as None with no more than a warning. False if the definition of a class fails because it has no to_hdf5 of its own: the failed class replaces the one with the same name all the same.

**C176 The minimal number of points determines the Jacobian matrix** (proved).  gradient_min_evaluations over lists of vectors with the matrix inverse; linear algebra for any number of gates, each row reduced to the gradient of one parameter.
  Theorems: `jacobian_exact_base`, `jacobian_exact_pairs`, `jacobian_wrong_number`, `rows_agree` (Gradient/JacobianProps).
  Note: rows_agree says that the rows of the matrix are the gradients of calculate_gradient_non_orthogonal (C38), for all devices. Points are arrays of the same size.

**C177 The sensing dot scan is around the present voltages and finds a point of it** (proved).  evaluate with two reads of the voltages, measurement and fit as unknown functions, on top of the model of process_raw_data of C94; index arithmetic for all sizes.
  Theorems: `sensing_dot_scan_returns`, `sensing_dot_scan_position`, `sensing_dot_scan_failure`, `sensing_dot_scan_unknown_gate` (Evaluator/Dot2DProps).
  Note: For a rising flank the slope is the smallest one, see C94. A scan with a single line or with lines of fewer than 25 points is never evaluated. The polynomials are whatever the fit returns; measurements return two-dimensional arrays without NaN.

**C178 A sensing dot is tuned from the data of its scans** (proved).  SensingDot2D of C177 as expensive evaluator of the hierarchy of C151, on a device with an arbitrary signal; the position found by the scan is steep up to the error of the fit, hence one adjustment is enough.
  Theorems: `scanned_dot_settles`, `scanned_dot_is_tuned` (EndToEnd/PropsScanned); `scanned_dot_is_tuned_fd` (EndToEnd/PropsScannedFD).
  Note: The cheap evaluator is one of the user, as SensingDot1D never returns (C130). Fits may deviate from the data by eps if the flank is steeper by 4 eps than necessary. The cost threshold is not below the minimum, so that a contrast that is too small always leads to a scan. Other tuners as in C151, with Kalman or finite difference estimators that know the gradients; without maximal step sizes at most 4 + 8K + K(K-1)/2 calls for K further tuners.

**C179 Small steps keep a device in its working region and still tune it** (proved).  Models of C158, C165 and C168; each part of a Newton step reduces the distance to the set points in proportion to its length, hence the length of the whole way is bounded.
  Theorems: `local_device_is_tuned_in_slices`, `double_dot_is_tuned_in_slices` (EndToEnd/PropsLocalSlice).
  Note: Assumptions as in C158, C165 and C168: the device is nearly affine in the region, the gradients are conditioned, fits are exact with positive widths, the maximal step size is at least twice the step of the finite differences. The radius of the region is explicit: the step of the finite differences and (B + (N+1) delta)/(sigma - 2 rho - kappa).

**C180 A sensing dot tuner reports the latest measurement of each parameter** (proved).  Histories of calls with the list of everything the evaluators returned; induction with the record as a function of this list.
  Theorems: `sensing_dot_reports_latest` (SensingDot/PropsRecord).
  Note: For all histories of calls, including calls in which evaluators raise. The evaluators of one group return different parameters, which the tuner knows, and the solver keeps its target.

**C181 Every solver can be restarted and given a new target** (partial).  Classes as lists of class bodies in which Python looks attributes up; the loops of restart and change_targets over hierarchies of solvers of any classes, induction over the hierarchy.
  Theorems: `restart_moves_solvers_partial`, `change_targets_reaches_solvers_partial`, `restart_nelder_mead_refuted`, `change_targets_nelder_mead_refuted` (Autotuner/PropsSolverClass).
  Finding / limit: False for NelderMeadSolver, which defines both properties again without setters: restart raises AttributeError and leaves the solvers from this one on where they were; change_targets raises AttributeError even if nothing is to be changed, after changing the tables before it, and does not start over.

**C182 The answer of is_tuned is about the recorded values** (partial).  is_tuned with the contents of the Series that update_after_step leaves behind; the answer is computed for all complete results of evaluators and all factors.
  Theorems: `judged_in_target_units_partial`, `judged_in_target_units_refuted`, `forwarding_unit_factors` (Tuner/PropsInPlace).
  Finding / limit: True for solvers that do not change the Series they get, such as NewtonSolver. False for ForwardingSolver, which multiplies the values with the factors in place before the tuner compares them: the tuner then judges the numbers as they were measured; both judgements agree if all factors are 1.

**C183 Objects do not influence each other through the Series they are constructed with** (partial).  Series as references into a heap and, separately, Series as values, with the same operations; simulation by induction over the operations, invariant: the references of the objects are distinct.
  Theorems: `objects_do_not_interfere_partial`, `objects_do_not_interfere_tutorial_partial`, `objects_do_not_interfere_kalman_refuted`, `objects_do_not_interfere_differences_refuted`, `objects_do_not_interfere_restart_refuted` (TestExperiment/PropsSharing).
  Finding / limit: True if experiment, solver and finite difference estimators were constructed with Series of their own (Kalman estimators may share one), and for the solver and Kalman estimators of the tutorial, which share one, if the solver is evaluated before it is restarted. This is a refinement between a model with references and the value semantics that all other files use. False otherwise: TestExperiment moves the position of a Kalman estimator that shares its Series, so that the first measurement never enters the filter; two symmetric finite difference estimators with one Series of NaN store different measurements; a restart before the first evaluation moves the estimators with the solver.

**C184 A hierarchy that begins with a sensing dot can be tuned with the evaluators of the package** (partial).  The autotuner with an arbitrary hierarchy whose first tuner is a SensingDotTuner with SensingDot1D; invariant over all operations: the autotuner is at the beginning and has no voltages to set. The positive part is the theorem of C178.
  Theorems: `sensing_dot_hierarchy_refuted`, `sensing_dot_scan_kept` (SensingDot/PropsDotHierarchy); `scanned_dot_is_tuned` (EndToEnd/PropsScanned).
  Finding / limit: False for every device, target, solver and rest of the hierarchy: SensingDot1D.evaluate always raises (C130), so every iterate raises, whatever the user does in between, and no gate voltage is ever set. True with a cheap evaluator that returns the contrast (C178).

**C185 The history records hierarchies in which several tuners share a parameter** (partial).  append_autotuner with the names of the parameters that each tuner contributes; invariant over all sessions: the table has no row. Without shared names it is the model of C138, induction over the appended autotuners.
  Theorems: `distinct_parameters_partial`, `evaluated_distinct_partial`, `shared_parameter_refuted` (History/PropsClash).
  Finding / limit: True if no parameter belongs to two tuners: then the histories are those of C60, C61 and C138. False otherwise: the Series of parameters has the name twice, building the row raises ValueError (TypeError before all gradients are known), and since the first row needs all tuners, the history stays empty for ever, whatever the user does.

**C186 All modules can be imported** (partial).  The import statements, bound names and lookups of all sixteen modules, extracted from their syntax trees, and an interpreter for import statements with sys.modules; a static check of the modules is proved sound for every state in which loaded modules are complete, induction over the depth of imports and the statements.
  Theorems: `import_succeeds_partial`, `tuning_modules_import_partial`, `needed_packages`, `missing_package_named`, `loaded_modules_complete`, `matlab_setups_import_refuted`, `gui_import_refuted` (Package/PropsImport); `needed_packages_exact` (Package/PropsInstall).
  Finding / limit: True for thirteen of the sixteen modules, gui only in IPython. False for sm, sm_tune_qqd and kalman_heuristics: the annotation in sm.py:228 mentions the name qtune, which sm does not import, so that in Python up to 3.13 every import raises NameError. False for gui outside of IPython (AttributeError). The properties of classes of sm and sm_tune_qqd hold for these classes once that annotation is corrected.

**C187 An installed package is complete** (partial).  The lists of setup.py and requirements.txt and the matching of package data; the packages that a module needs are computed for all modules from C186, the matching is proved for all listings of files.
  Theorems: `requirements_suffice_partial`, `setup_packages_refuted`, `python_files_installed`, `matlab_files_installed_refuted`, `only_python_files_installed`, `needed_packages_exact` (Package/PropsInstall).
  Finding / limit: True for the Python files, and for the packages of requirements.txt with the exceptions of C186 and mat2py. False for setup.py: the list of required packages lacks matplotlib, which all modules but mat2py import (in practice it is installed because filterpy requires it), and the pattern for the MATLAB files is relative to the folder of the package and matches none of them.

**C188 A measurement is stored with its name and options** (partial).  Measurements with their dict of options, sequences of changes, the dict that is stored and the constructor; induction over the changes and over permutations of the entries.
  Theorems: `measurement_reload_partial`, `option_called_name_refuted`, `option_called_self_refuted`, `qqd_measurement_refuted`, `qqd_measurement_made` (Storage/MeasurementProps).
  Finding / limit: True for Measurement if the program does not set the options name or self. An option name is lost without a message, with an option self the stored measurement cannot be loaded. False for QQDMeasurement: its constructor keeps neither name nor options, so that it cannot be stored at all.

**C189 read_files returns the stored objects** (partial).  The loops over files and entries with their outcomes, and list.sort with its effect and its value; induction over files and entries.
  Theorems: `read_files_refuted`, `read_files_checks_partial`, `sorted_list_is_wanted_partial` (History/ReadProps).
  Finding / limit: False: read_files returns the value of list.sort(), which is None. Proved: the list that is sorted and dropped has exactly the wanted entries in order, and files that cannot be read are reported.

**C190 Stored measurements can be evaluated again with MATLAB** (partial).  The loop over rows with the attributes of the cells of the table; case analysis of the first row.
  Theorems: `reevaluate_refuted`, `reevaluate_existing_refuted`, `reevaluate_unknown_partial` (History/ReadProps).
  Finding / limit: False: the table of the history contains dicts, not evaluators, so that the function raises AttributeError for every row that exists and never measures. Unknown evaluators and rows are reported.

**C191 Simulated sensing dots behave like a device** (partial).  The arrays of both simulations as functions of the voltages, and the axes of the evaluators; comparison point by point, and two scans of the same point with different data.
  Theorems: `line_simulation_partial`, `line_options_refuted`, `line_simulation_gates`, `grid_simulation_partial`, `grid_range_refuted`, `grid_device_refuted` (TestExperiment/ScanSimProps).
  Finding / limit: True up to the distance of two points for line scans of SDB2 by 4 mV in 1280 points, the default. False: all options are ignored; two-dimensional scans always cover 5 mV, but the evaluator takes the range of the options (15 mV in the tutorial), so that all distances are wrong by this factor; and they are not scans of any device, because the same voltages give other data if the scan starts elsewhere.

**C192 The state of a tuner shows its gradients** (partial).  The Jacobian with the columns that pandas keeps, and its labels; membership in both directions, and a split of the label at its last slash.
  Theorems: `state_entries`, `state_errors`, `state_names_partial`, `state_names_refuted`, `other_states_refuted` (Newton/StateProps).
  Finding / limit: Proved for Newton solvers: the state consists of exactly the derivatives that are known, and when it cannot be read. The names are unique if the names of gates contain no slash, not otherwise. False for the other solvers: NelderMeadSolver raises NotImplementedError, and state of ForwardingSolver is a method instead of a Series (no property decorator).

**C193 A file names the version that wrote it** (partial).  The questions to GitPython and git as functions of a machine with two repositories that may change between the questions, and the mark of a file; case analysis.
  Theorems: `version_partial`, `release_version_partial`, `store_succeeds_partial`, `version_working_directory_refuted`, `version_missing_refuted`, `store_fails_refuted`, `version_race_refuted`, `version_replaced_refuted` (Package/VersionProps).
  Finding / limit: True with GitPython, in a working directory inside of the repository of the package, and without a repository beside the package. False: git is asked about the working directory of the process instead of the package, so that a file names the commit of another repository or none; exceptions of GitPython for a damaged or empty repository prevent storing; a commit meanwhile gives a mixture; and every further object replaces the version (the test looks among the objects instead of the attributes).

**C194 Requests of finite differences concern the given gates only** (proved).  The estimator of C42; comparison of two estimators that agree on the given gates.
  Theorems: `require_gates`, `require_other_gates` (Gradient/FDOther).
  Note: For all estimators whose measurements mention all their gates.

**C195 Stored dicts keep their keys** (partial).  Names as paths, a file as a tree of groups; induction over the entries, with the invariant that no name in the tree contains a slash.
  Theorems: `plain_keys_partial`, `slash_keys_refuted`, `slash_key_nested_refuted`, `absolute_key_refuted`, `slash_key_clash_refuted`, `empty_key_refuted` (Storage/KeyProps).
  Finding / limit: True if no key contains a slash, is empty or a single dot. False otherwise: HDF5 takes names as paths, so that an entry whose key contains a slash is never found under its key again; it becomes a nested dict, leaves the dict, or prevents storing.

**C196 Files are named in the order in which they were saved** (partial).  The calendar of datetime microsecond by microsecond, the clock of the computer as an arbitrary function; independent count of microseconds since the beginning of the calendar; induction over the microseconds.
  Theorems: `time_of_name`, `names_in_order_partial`, `later_session_partial`, `clock_set_back_refuted` (Times/ClockProps).
  Finding / limit: Proved within a session, whatever the clock of the computer does, and for later sessions if the clock shows a later time at their start. False for sessions between which the clock is set back.

**C197 Scans do not share data files** (partial).  The names as prefix and time; comparison of the first characters, injectivity of time_string (C59) and C196.
  Theorems: `scan_files_differ`, `session_scan_files`, `scan_known`, `scan_options`, `scan_files_sessions_refuted` (Times/ScanNameProps).
  Finding / limit: Proved for the scans of a session more than a microsecond apart. False for two sessions: if the clock is set back in between, names can repeat.

**C198 Stored values are loaded as they were** (partial).  Types of numpy and HDF5, leaves with types, what h5py refuses; independent observers for kind, labels and values; case analysis over leaves, induction over columns and elements.
  Theorems: `stored_iff`, `loaded_values_partial`, `exact_iff`, `reload_stable`, `names_refuted`, `text_refuted`, `texts_refuted`, `object_array_refuted`, `mixed_frame_refuted`, `large_index_refuted` (Storage/LeafProps).
  Finding / limit: With h5py 2, every value that can be stored keeps its kind, labels and values, and what was loaded can be stored and loaded again without any difference; which values can be stored and which come back without any difference is characterised exactly. False in general: names of Series are lost, numbers of Python come back as numbers of numpy, arrays without dimensions as numbers, integer columns of mixed DataFrames as floats; arrays of texts, DataFrames with texts or with numbers and truth values, and large labels cannot be stored. With h5py 3, texts come back as the representation of bytes, and a Series of texts cannot be stored again after loading.

**C199 The resolution of the voltage source does not prevent the tuning** (proved).  Hierarchy on an experiment whose state is what the source was told, with the applied voltages as an arbitrary function within a distance; a request keeps a component along the unit vector that is orthogonal to the measurements so far, so that the applied displacements stay independent and the gradients are exact; reading back what was told is a nearly affine device (C125); invariant over the calls of iterate for complete tunings.
  Theorems: `read_back_source_is_tuned`, `told_source_is_tuned`, `complete_source_meets`, `coarse_source_refuted` (EndToEnd/PropsSource).
  Note: How fine the resolution must be is explicit: if the applied voltages are read back, a deviation is shorter than the steps of the estimators and changes no parameter by as much as its tolerance; otherwise a bound with the condition of the gradients. coarse_source_refuted is the limit for sources that are too coarse.

**C200 A device that drifts slowly is tuned** (proved).  The hierarchy of C126 whose measurements depend on the number of the evaluation, with a bound on the difference of two measurements that grows with the number of evaluations in between; the measured gradients carry the window of evaluations in which they were measured, contraction up to the drift of one evaluation. A source of finite resolution (C199) in front of such a device gives another such device with larger constants.
  Theorems: `drifting_device_is_tuned`, `drifting_device_is_tuned_eventually`, `drift_after_completion_unnoticed` (EndToEnd/PropsDrift); `coarse_drifting_device_is_tuned` (EndToEnd/PropsDriftSource); `drifts_away_bounded`, `fast_drift_never_tuned` (EndToEnd/PropsDriftFast).
  Note: The bounds are explicit: the drift of n evaluations enters the error of the gradients, the drift of one evaluation enters the distance to the set points that can be reached. That the tolerances have to exceed the drift of one evaluation is necessary: otherwise the tuning goes on forever (fast_drift_never_tuned).

**C201 Evaluators that share a measurement do not disturb each other** (partial).  Measurements as references into a session, evaluators with the references they were given; what a step may change, invariants over all sequences of creations and evaluations.
  Theorems: `dot_scans_as_asked_partial`, `scans_as_asked_partial`, `default_dots_disturb_nobody_partial`, `shared_line_scan_refuted`, `shared_2d_scan_refuted`, `class_scans_refuted` (Evaluator/ShareProps); `own_scans`, `offered_scans` (Evaluator/ShareOwnProps).
  Finding / limit: Proved for the scans of sensing dots in general, and for the other evaluators if no sensing dot shares their measurement, in particular if the sensing dots make their own measurements. False otherwise: SensingDot1D and SensingDot2D write gate and center into the shared object, so that other evaluators scan another gate or raise, even those of another experiment, because the scans of BasicDQD are class attributes.

**C202 A new target concerns the tuner it is given to** (partial).  DataFrames as references: every solver holds the number of a DataFrame, changes are made to the contents; refinement to tuners with a target each if the numbers are different, by induction over the operations.
  Theorems: `own_targets_partial`, `other_targets_unchanged_partial`, `shared_target_refuted`, `shared_change_targets_refuted`, `kept_frame_refuted` (Target/SharedProps).
  Finding / limit: Proved for solvers that are constructed with a DataFrame each, which nobody else writes to, and for tuners that hold other DataFrames than the one that is changed. False otherwise: the solvers keep the DataFrame without making a copy, and the setter assigns to its entries. Refuted for all solvers that share a DataFrame and for every DataFrame that the caller keeps.

**C203 The voltages that a tuner has recorded stay what they were** (partial).  Series as references: the tuner keeps the number of the Series it was called with, the experiment writes to its own one; refinement to the tuner of C17-C20 that keeps voltages, by induction over the operations, if read_gate_voltages makes new Series.
  Theorems: `tuner_keeps_voltages_partial`, `tuned_voltages_recorded_partial`, `recorded_voltages_refuted`, `recovery_refuted` (Tuner/RecordProps).
  Finding / limit: Proved for all experiments that return a new Series whenever their voltages are read, as the ones of the package do. False for experiments that return the Series in which they keep their voltages, which the interface allows: the tuner keeps this Series without a copy, so its records change with the voltages, and after a failed evaluation it suggests the same voltages again.

**C204 Tuners without an evaluator for a parameter are refused** (partial).  The constructor of SubsetTuner with its four checks (Tuner/Reload.lean); exact characterisation of the accepted arguments, invariant over all sequences of calls for a parameter that no evaluator returns.
  Theorems: `construct_iff_partial`, `complete_target_partial`, `missing_evaluator_refuted`, `unmeasured_never_tuned_refuted` (Tuner/PropsConstruct).
  Finding / limit: Duplicates are refused, and an evaluator is asked for if all six columns of the target have an entry for the parameter. False otherwise: dropna() removes all rows as soon as one column is not used (for instance without limits), so the check is void and a tuner is accepted without any evaluator. Such a tuner is never tuned: every evaluation raises or counts as failed, and the suggestion after a failed one raises IndexError.

**C205 A sensing dot tuner asks for every minimum of its target** (partial).  The constructor of SensingDotTuner with the checks of ParameterTuner; exact characterisation of the accepted arguments, decision of is_tuned from C23-C25, induction over sequences of evaluations for a parameter that is not measured cheaply.
  Theorems: `sensing_dot_construct_iff_partial`, `minimum_checked_partial`, `expensive_only_refuted` (SensingDot/PropsConstruct).
  Finding / limit: Proved for the parameters that the cheap evaluators measure. False otherwise: as soon as one column of the target is not used, which is usual for sensing dots, the constructor does not ask the cheap evaluators for any parameter. A parameter with a minimum that only the expensive evaluators measure is then never compared with it: is_tuned returns True in every evaluation with good cheap values, and its value stays NaN.

**C206 Views on MATLAB data give access to all of it** (partial).  Data of MATLAB as a tree, views as expressions that are evaluated when they are used; induction over the chain of attributes and indices.
  Theorems: `view_shows_data_partial`, `view_shows_present_data_partial`, `struct_view_iterates_partial`, `attribute_of_array_partial`, `cell_elements_refuted`, `large_cell_refuted`, `function_name_refuted`, `negative_index_refuted`, `missing_field_refuted` (Matlab/ViewProps).
  Finding / limit: Proved for structs, struct arrays and tables. False for cells: the index is sent as a text in quotation marks, so that no element of a cell with up to 47 elements can be reached. False for negative indices, which become the word end outside of an index, for variables with the name of a function, and for hasattr, which raises the exception of MATLAB.

**C207 Interrupting the tuning does no harm** (partial).  The states between the statements of iterate, restart and change_targets as lists (Autotuner.InterruptModel); an interrupted call ends in one of them. Invariants of all histories of interrupted and complete calls; the refutations hold for every hierarchy.
  Theorems: `uninterrupted_iterate`, `interrupted_completion_certificate_partial`, `interrupted_actions_founded_partial`, `interrupted_write_recovers`, `interrupted_suggestion_refuted`, `interrupted_targets_refuted` (Autotuner/PropsInterrupt).
  Finding / limit: The certificate of completeness holds for all interruptions but those of change_targets just after the assignment of the targets, after which a complete tuning is still reported complete. Suggestions are founded on evaluations unless iterate is interrupted between recording the suggested voltages and resetting the status: then tuner 0 is asked for voltages without having been evaluated at the new ones.

**C208 A setup script prepares special measure once** (partial).  Sessions of MATLAB with the base and the global variable, files that are scripts or functions (Matlab/SetupModel.lean); exact characterisation by cases.
  Theorems: `setup_iff_partial`, `setup_only_once`, `failed_setup_keeps_path`, `setup_script_refuted`, `setup_global_refuted`, `setup_missing_refuted` (Matlab/SetupProps).
  Finding / limit: Proved for functions with an output that create a variable in the base workspace. False for scripts and functions without output, which MATLAB refuses to call because the engine asks for an output; false for the global variable, which the functions that measure use but the check does not look at; and without a setup file the constructor does not notice that special measure is missing.

**C209 The limits of the voltage source do not prevent the tuning** (partial).  A source that maps the voltages into a region without moving away from any point of it (Limited in EndToEnd/LimitsSpec.lean; gates that are clipped are an instance); the Newton step and the source are projections, whose steps sum up to less than the distance at the start. If the experiment reads back what it has been told, what is told runs away from what is applied, and a dual quantity (gained in EndToEnd/ToldRun.lean) grows with every step and is bounded by the distance at the start. The refutations follow the six calls, and for voltages that are read back as told an invariant of all later states.
  Theorems: `limited_source_is_tuned_partial`, `complete_limited_meets`, `unreachable_never_complete` (EndToEnd/PropsLimitedSource); `limited_source_is_tuned_kalman`, `limited_source_is_tuned_found` (EndToEnd/PropsLimitedKnown); `limited_told_is_tuned_partial`, `clip_nearest` (EndToEnd/PropsLimitedTold); `limited_told_is_tuned_found` (EndToEnd/PropsToldKnown); `clip_limited` (EndToEnd/LimitsRun); `start_at_limit_refuted` (EndToEnd/PropsAtLimit); `told_start_at_limit_refuted` (EndToEnd/PropsToldAtLimit).
  Finding / limit: Proved if the first points that the estimators ask for are within the limits: every Newton step goes to the nearest solution and the source to the nearest permitted voltages, so that the distance from a permitted solution shrinks until the set points are met, also if long steps are made in slices because of a maximal step size. Estimators that know the gradients already (Kalman estimators or finite difference estimators that are done) measure nothing, and with them every start within the limits is fine, also at a limit. This needs an experiment that reads back what is applied; if it reads back what it has been told, the same is proved for sources that apply the nearest voltages of a convex region and estimators with equal steps or estimators that are done, with three more calls. False for starts at a limit: the estimator measures twice at the same voltages, and for every affine device with one gate there are limits for which the fourth call raises an EvaluationError and each call from the sixth on a RuntimeError; if the experiment reads back what it has been told, the estimate of the gradient is zero and the same voltages are suggested forever, without any exception.

**C210 install_matlab makes the MATLAB engine available** (partial).  A computer with an engine, the output of where and chcp, files and an installer as parameters (Package/MatlabInstallModel.lean); exact characterisation by cases, the refutations hold for every computer of the kind.
  Theorems: `install_iff_partial`, `installer_once`, `install_works_partial`, `install_works_refuted`, `installed_already_refuted`, `without_where_refuted`, `code_page_refuted` (Package/MatlabInstallProps).
  Finding / limit: Exactly characterised; after a success the engine can be imported if the return code of the installer can be trusted, and the installer is started at most once and only if the engine is missing. False: MATLAB is looked for before the engine, so that the command raises on computers with an engine where MATLAB is not found; it looks with the Windows command where, without which it raises FileNotFoundError; it takes the number of the code page for the name of an encoding, which fails for 65001; and it believes the return code.

**C211 The version of the distribution is the version of the package** (partial).  The regular expression as a search for the leftmost line that matches, on lists of characters; files as lists of statements with their texts and the value that Python assigns last (Package/Release*). Induction over the statements.
  Theorems: `release_version_partial`, `no_version_no_release`, `without_spaces_refuted`, `assigned_twice_refuted`, `quote_refuted`, `doc_refuted` (Package/ReleaseProps).
  Finding / limit: Proved if the version is assigned with one space on both sides of the equals sign, always with the same value, without quotes inside of the value, and if no text in three quotes has a line that begins with __version__; the file of the present release is of this kind. False: without the spaces no version is found; of two assignments the first is taken, while Python keeps the last; a value that contains the other kind of quotes is cut there; and a line of a text in three quotes is taken for the assignment.

**C212 A tuning that is interrupted can be completed** (partial).  Sequences of interrupted calls (Autotuner/InterruptModel.lean) on the end-to-end model; an invariant that holds between any two statements (EndToEnd/StoppedRun.lean), from which five calls complete the tuning; a simulation of the tuning without interruptions (StoppedSame.lean, StoppedRel.lean): a suggestion can be repeated without effect; for Kalman estimators an evaluation too (StoppedAgain.lean, StoppedTwice.lean). With a maximal step size an invariant that leaves the number of queued steps open (StoppedSteps.lean). The refutation follows the calls after one interruption for every device with one gate.
  Theorems: `stopped_tuning_is_tuned_kalman_partial`, `stopped_tuning_is_tuned_found_partial`, `stopped_tuning_completes_partial`, `stopped_tuning_completes_kalman_partial`, `stopped_tuning_is_tuned_partial`, `stopped_tuning_refuted` (EndToEnd/PropsStopped); `stopped_steps_are_tuned_kalman_partial`, `stopped_steps_are_tuned_found_partial` (EndToEnd/PropsStoppedSteps).
  Finding / limit: Proved for estimators that know the gradients (Kalman estimators that begin with them, finite differences that have found them), wherever the calls are interrupted: without a maximal step size five more calls are enough, with one some further calls. The rest without a maximal step size. For Kalman estimators that have to learn the gradients, wherever the calls are interrupted, and for finite differences that have to find them, if no call is interrupted between an evaluation and its note, proved that for every device one call more than without interruptions is enough. Otherwise false for finite differences: for every affine device with one gate, one Ctrl-C after the first evaluation and before it is noted makes the estimator measure twice at the start; the next call raises EvaluationError, and from the third on every call raises RuntimeError. A Ctrl-C during a measurement is an exception of the evaluator, which is harmless (C144); for interruptions inside of is_tuned and get_next_voltages see C213.

**C213 An evaluation or suggestion that is interrupted does no harm** (partial).  The states between the statements of is_tuned, get_next_voltages, update_after_step and KalmanGradientEstimator.update as lists (EndToEnd/InsideModel.lean); in all of them the tuner is ready for an evaluation (InsideRun.lean), so that the invariant of C212 is kept. The refutation computes the estimate after an update with new value and old position, for every device with one parameter; with one gate the estimate stays within a factor of two of the gradient, so that Newton steps contract (PropsTorn.lean).
  Theorems: `stopped_inside_is_tuned_kalman_partial`, `stopped_inside_is_tuned_found_partial`, `stopped_inside_steps_are_tuned_kalman_partial`, `stopped_inside_steps_are_tuned_found_partial`, `inside_is_tuned`, `inside_next`, `torn_update_refuted`, `torn_evaluation_refuted` (EndToEnd/PropsInside); `torn_one_gate_is_tuned_partial`, `torn_one_gate_is_tuned_finally_partial`, `torn_after_calls_is_tuned_partial` (EndToEnd/PropsTorn).
  Finding / limit: Proved for estimators that know the gradients (Kalman estimators that begin with them, finite differences that have found them): wherever calls are interrupted, also inside of the evaluations and suggestions, five more calls complete the tuning without a maximal step size, and some further calls with one. Exception: between the two assignments at the end of KalmanGradientEstimator.update the estimator has the new value and the old position; then it loses the gradient with the next evaluation, for every device and every step along which the value changes and the estimator is uncertain. With one gate and one parameter and without a maximal step size the tuning is completed nevertheless, if only one call is interrupted there: each Newton step reduces what is missing at least by the factor V / (V + r). Interruptions inside of filterpy are not modelled; for finite differences that have yet to find the gradients see C212.

**C214 With one gate a wrong initial gradient does not prevent tuning** (partial).  The end-to-end model with the Kalman estimator and one gate; an update reduces variance and error of the estimate by the same factor (EndToEnd/SignRun.lean), so that the ratio of estimate and gradient stays between its first value and 1 and the distance to 1 is a fixed multiple of the variance. Steps that are long enough to be learned from add a fixed amount to the inverse of the variance, so that after finitely many of them the Newton steps contract. The wrong sign becomes the right one in the same way if the estimate does not meet 0 (PropsAnyGradient.lean). The refutations compute the shortest least squares solution for the gradient 0, and the update of an estimator with the wrong sign.
  Theorems: `right_sign_is_tuned_partial`, `blind_estimator_refuted` (EndToEnd/PropsSign); `any_gradient_ends_or_is_blind`, `wrong_sign_refuted` (EndToEnd/PropsAnyGradient).
  Finding / limit: Proved for every initial gradient of the right sign, if the tolerance is at least what a step of 1e-7 changes with the estimated and with the true gradient: the estimator ignores shorter steps (gradient.py:353) and could not learn near the set point. For every initial gradient the tuning is completed unless the estimate is exactly 0 at some time while its variance is at most the limit. This can happen: refuted for the initial gradient 0, and for the negative of the gradient with starts at a certain distance; the Newton steps are then 0 and the tuning never ends.

## 4. Coverage of the source

| file | modelled | not modelled |
|---|---|---|
| `autotuner.py` | 37-84, 126-139, 141-219, 227-327 (`Autotuner`, `Naming`, `Ready`), interruptions between statements (`Autotuner/Interrupt*`) | `__getstate__`; of the log only the messages that may raise (`Autotuner.LogModel`) |
| `parameter_tuner.py` | 29-407 (`Tuner`, `SensingDot`) | logging |
| `solver.py` | 30-557 (`Target`, `Newton`, `NelderMead`; `state` and `jacobian` in `Newton.StateModel`) | |
| `gradient.py` | 32-460 (`Gradient`, `Kalman/Estimator`, `Kalman/NanModel`, `Naming`) | logging |
| `kalman_gradient.py` | 52-280 (`Kalman/Model`, `Kalman/Suggest`) | – |
| `util.py` | 35-41, 52-63 (`Times/Clock*`), 66-129, 133-157 (`Gradient/Jacobian*`), 160-208 (`Signal`, `Gradient/Util`, `Times`), 211-288 (`Gui/Picture*`), 291-324 (`Package/Version*`) | `static_vars` |
| `storage.py` | 38-71 (`Storage/Class*`), 41-45, 114-145 and 239-268 with types (`Storage/Leaf*`), 74-399 (`Storage`, `Writer` (thread mode and process mode), how objects get to the worker in process mode, and `ParallelHDF5Reader` with threads in `History/Parallel*`) | `ParallelHDF5Reader` with processes, rounding of floating point numbers, integers and floats of other sizes than 64 bits |
| `history.py` | 102-119 (`read_files`, `History/Read*`), 122-349, 412-453, 536-599 (`History`, also with missing gradients, raw data, `get_reload_path`, `load_directory`, `plot_evaluator_data`, `get_gradient_covariances`, `plot_tuning` and the functions it calls 351-410, 484-533, `Times`) | layout of plots |
| `gui.py` | 388-470, 608-626 (reload windows), 556-575, 685-776, raw data windows, 141-234 (plots of the history), `GradientWidget` (`History/TuningPlot*`), worker with autotuner and history (`Gui/Tune*`), single assignments of flags and buttons (`Gui/Button*`), pictures of raw data (`Gui/Picture*`), log window (`Gui/LogWindow*`), signal to the windows (`Gui/Follow*`) (`Gui`) | other widgets, colours and legends, formats of log lines |
| `evaluator.py` | constructors and `to_hdf5` of all classes, `LeadTransition`, `SensingDot1D.evaluate`, `SensingDot2D.evaluate`, `SensingDot2D.process_raw_data`, `AveragingEvaluator`, the four evaluators that fit curves and the functions they fit (`Evaluator`) | the fit routines `curve_fit` and `polyfit` (unknown functions with a specification), plots |
| `sm_tune_qqd.py` | `set_gate_voltages`, constructors and `to_hdf5` of all evaluators, `QQDLine`, `QQDLead`, `QQDResp`, `evaluate` of the others, `SMQQDPassThru`, `measure`, `pytune`, `tune` (`Matlab/Path*`), `QQDMeasurement`, `reevaluate_data_with_matlab` | MATLAB evaluations behind `pytune` |
| `sm.py` | `to_matlab`, `set_gate_voltages` of `LegacyDQDRefactored`, start and connection of engines (`Matlab/Engine*`), `measure` of `LegacyDQDRefactored` (`Matlab/Scan*`), `_add_qtune_to_path` (`Matlab/Path*`), `_init_special_measure` (`Matlab/Setup*`) | rounding in `to_matlab` |
| `mat2py.py` | index transformation and iteration (`Matlab/Index*`), function views (`Matlab/Call*`), views on structs, cells and tables (`Matlab/View*`) | arrays of more than one dimension in views, text of expressions |
| `basic_dqd.py` | `TestExperiment` 59-100 (`TestExperiment`), the simulated scans of sensing dots 114-127 (`TestExperiment/ScanSim*`), `transition_simulation` (`EndToEnd/Lead*`), the curves of `load_simulation` and `detune_simulation` (`EndToEnd/Dot*`; the call of `np.linspace` with a float number of points is left out), the scans of `BasicDQD` (`Evaluator/Share*`) | |
| `experiment.py` | `Measurement` (`Storage/Measurement*`), `get_file_name` (`Times/ScanName*`), interface of `Experiment`, sources with a finite resolution (`EndToEnd/Source*`) and with limits (`EndToEnd/Limits*`), noisy and drifting devices (`EndToEnd/Noise*`, `EndToEnd/Drift*`) | |
| `MATLAB/+qtune` | `set_qqd_gate_voltages`, `set_qqd_gate_voltages_abs_limit`, `set_gates_v_pretuned`, `read_gate_voltages`, `change_sensing_dot_gates`, `retune_qpc` (`Matlab/Volt*`), line scans, scans of the detuning, 2D scans, lead and load scans (`Matlab/Scan*`; `smrun` and `confSeqPython` are parameters) | fits |
| `kalman_heuristics.py` | import (`Package/Import*`) | imports a name that does not exist (`ChargeDiagram`), so that it cannot be loaded |
| import statements and lookups at import time of all modules | `Package/Import*` | |
| `setup.py`, `requirements.txt` | lists of packages, package data (`Package/Install*`), the command `install_matlab` (`Package/MatlabInstall*`), `get_version` (`Package/Release*`) | metadata |

## 5. Where code and model could disagree

* The model of the autotuner treats tuners, solvers and experiment as one mutable world `X` with arbitrary
  methods; sharing between tuners (the same estimator in two solvers) is therefore covered, threads inside the
  experiment are not.
* Crashes are modelled between calls and inside a call after the events of the log so far; a crash while the
  writer thread is inside HDF5 is modelled as "this file is not complete", not as a damaged file that loads.
* Series and DataFrames are values in all files but four: `TestExperiment/SharingModel.lean` models them as references and C183 shows when
  the difference is invisible; `Target/SharedModel.lean` does the same for the DataFrames of targets (C202), `Tuner/RecordModel.lean` for the voltages that a tuner keeps (C203), and `Tuner/InPlaceModel.lean` follows the one Series that is changed on its way between objects (C182).
* `sm.py` and `sm_tune_qqd.py` cannot be imported as they are (C186, an annotation mentions a name that is not bound). The models in `Verif/Matlab` and
  of the classes of quadruple dots describe the code as it is once this annotation is corrected or annotations are not evaluated (Python 3.14).
* `lstsq` with small singular values cut off by `rcond` is treated as exact rank.
* `time_string` distinguishes times that are more than 1 µs apart; when this is so is the subject of C196.

## 6. Mutation testing

Besides the edits written by hand, `seeded/LOG.jsonl` contains automatic edits (ids beginning with X): a generic operator (negated condition, `<` for `≤`,
±1, exchanged constants, another kind of exception, a dropped update of a field, a changed text) applied to a randomly chosen line of a randomly chosen
definition of the model. The build stops at the first theorem that fails, so that only this theorem is named; examples do not count.

`seeded/LOG.jsonl` has one line per wrong program that was tried: definition, edit, the claims that the edit
breaks, the theorems that no longer prove, and the theorems that were added or tightened because an edit went
unnoticed.  An edit counts as noticed only if a theorem listed for the broken claim fails.

## 7. Axioms per theorem

Output of `#print axioms` for every theorem in `MANIFEST.json`.

`Classical.choice`, `Quot.sound`, `propext` (605 theorems):
`Autotuner.Reload.construct_voltages`, `Autotuner.Reload.reload_partial`, `Autotuner.Reload.reload_path_refuted`, `Autotuner.completion_between_iterations_partial`, `Autotuner.log_is_silent_partial`, `Autotuner.log_is_silent_subset_partial`, `Autotuner.log_keeps_voltages_from_being_set_refuted`, `Autotuner.log_of_distance_refuted`, `Autotuner.restart_during_evaluation_refuted`, `Autotuner.written_between_iterations_partial`, `EndToEnd.affine_device_is_tuned`, `EndToEnd.affine_device_is_tuned_kalman`, `EndToEnd.affine_device_is_tuned_limited`, `EndToEnd.any_gradient_ends_or_is_blind`, `EndToEnd.blind_estimator_refuted`, `EndToEnd.caught_exceptions_are_harmless`, `EndToEnd.clip_limited`, `EndToEnd.clip_nearest`, `EndToEnd.coarse_drifting_device_is_tuned`, `EndToEnd.coarse_scan_is_never_tuned`, `EndToEnd.coarse_source_refuted`, `EndToEnd.complete_limited_meets`, `EndToEnd.complete_source_meets`, `EndToEnd.crashes_do_not_matter`, `EndToEnd.double_dot_is_tuned_in_slices`, `EndToEnd.double_dot_is_tuned_partial`, `EndToEnd.drift_after_completion_unnoticed`, `EndToEnd.drifting_device_is_tuned`, `EndToEnd.drifting_device_is_tuned_eventually`, `EndToEnd.drifts_away_bounded`, `EndToEnd.fast_drift_never_tuned`, `EndToEnd.first_failure_is_fatal`, `EndToEnd.flaky_device_is_tuned`, `EndToEnd.flaky_device_is_tuned_eventually`, `EndToEnd.flaky_device_is_tuned_kalman`, `EndToEnd.fresh_estimators_history_refuted`, `EndToEnd.hierarchy_from_scratch_partial`, `EndToEnd.hierarchy_from_scratch_refuted`, `EndToEnd.hierarchy_is_tuned`, `EndToEnd.hierarchy_is_tuned_fd`, `EndToEnd.increasing_device_is_tuned_partial`, `EndToEnd.increasing_device_is_tuned_refuted`, `EndToEnd.inside_is_tuned`, `EndToEnd.inside_next`, `EndToEnd.interrupted_call_changes_nothing`, `EndToEnd.interrupted_tuning_completes_partial`, `EndToEnd.interrupted_tuning_refuted`, `EndToEnd.kinked_continuous`, `EndToEnd.kinked_strictMono`, `EndToEnd.lead_transitions_are_tuned`, `EndToEnd.learns_and_tunes`, `EndToEnd.learns_and_tunes_finally`, `EndToEnd.limited_source_is_tuned_found`, `EndToEnd.limited_source_is_tuned_kalman`, `EndToEnd.limited_source_is_tuned_partial`, `EndToEnd.limited_told_is_tuned_found`, `EndToEnd.limited_told_is_tuned_partial`, `EndToEnd.local_device_is_tuned`, `EndToEnd.local_device_is_tuned_in_slices`, `EndToEnd.nearly_affine_device_is_tuned`, `EndToEnd.nearly_affine_device_is_tuned_eventually`, `EndToEnd.nearly_affine_device_is_tuned_in_slices`, `EndToEnd.negative_widths_are_never_tuned_refuted`, `EndToEnd.noisy_device_is_tuned`, `EndToEnd.noisy_device_is_tuned_eventually`, `EndToEnd.operator_may_intervene_fd_partial`, `EndToEnd.operator_may_intervene_partial`, `EndToEnd.operator_may_intervene_refuted`, `EndToEnd.queued_forever`, `EndToEnd.read_back_source_is_tuned`, `EndToEnd.request_keeps_tuned_parameters_partial`, `EndToEnd.request_keeps_tuned_parameters_refuted`, `EndToEnd.right_sign_is_tuned_partial`, `EndToEnd.rough_hierarchy_is_tuned`, `EndToEnd.rough_hierarchy_is_tuned_finally`, `EndToEnd.rows_measured_partial`, `EndToEnd.rows_measured_refuted`, `EndToEnd.scanned_dot_is_tuned`, `EndToEnd.scanned_dot_is_tuned_fd`, `EndToEnd.scanned_dot_settles`, `EndToEnd.sensed_hierarchy_crosstalk_refuted`, `EndToEnd.sensed_hierarchy_is_tuned`, `EndToEnd.sensed_hierarchy_is_tuned_fd`, `EndToEnd.slopes_within_factor_two_partial`, `EndToEnd.start_at_limit_refuted`, `EndToEnd.stopped_inside_is_tuned_found_partial`, `EndToEnd.stopped_inside_is_tuned_kalman_partial`, `EndToEnd.stopped_inside_steps_are_tuned_found_partial`, `EndToEnd.stopped_steps_are_tuned_found_partial`, `EndToEnd.stopped_steps_are_tuned_kalman_partial`, `EndToEnd.stopped_tuning_completes_kalman_partial`, `EndToEnd.stopped_tuning_completes_partial`, `EndToEnd.stopped_tuning_is_tuned_found_partial`, `EndToEnd.stopped_tuning_is_tuned_kalman_partial`, `EndToEnd.stopped_tuning_is_tuned_partial`, `EndToEnd.stopped_tuning_refuted`, `EndToEnd.symmetric_estimators_partial`, `EndToEnd.symmetric_estimators_refuted`, `EndToEnd.told_source_is_tuned`, `EndToEnd.told_start_at_limit_refuted`, `EndToEnd.torn_after_calls_is_tuned_partial`, `EndToEnd.torn_evaluation_refuted`, `EndToEnd.torn_one_gate_is_tuned_finally_partial`, `EndToEnd.torn_one_gate_is_tuned_partial`, `EndToEnd.torn_update_refuted`, `EndToEnd.tuned_despite_exceptions`, `EndToEnd.unreachable_never_complete`, `EndToEnd.wrong_sign_refuted`, `Evaluator.Fit.data_stored_partial`, `Evaluator.Fit.emphasis_edges_refuted`, `Evaluator.Fit.emphasis_partial`, `Evaluator.Fit.emphasis_refuted`, `Evaluator.Fit.failed_fit_partial`, `Evaluator.Fit.failed_fit_refuted`, `Evaluator.Fit.fit_names_partial`, `Evaluator.Fit.fit_names_refuted`, `Evaluator.Fit.fitted_times`, `Evaluator.Fit.lead_times_v1`, `Evaluator.Fit.lead_times_v2_partial`, `Evaluator.Fit.lead_times_v2_refuted`, `Evaluator.Fit.load_curve_of_exact_data`, `Evaluator.Fit.load_time_of_exact_data`, `Evaluator.Fit.nan_data_refuted`, `Evaluator.Fit.prefit_of_exact_data`, `Evaluator.Fit.prefit_true_times`, `Evaluator.Fit.recalculation_partial`, `Evaluator.Fit.recalculation_refuted`, `Evaluator.Fit.scan_of_exact_data`, `Evaluator.Fit.scan_true_times`, `Evaluator.Fit.tunnel_coupling_of_exact_data`, `Evaluator.Fit.tunnel_coupling_sign_refuted`, `Evaluator.Fit.tunnel_coupling_true_partial`, `Evaluator.Fit.tunnel_times_swapped_refuted`, `Evaluator.PassThru.file_names_recorded`, `Evaluator.PassThru.first_evaluation_partial`, `Evaluator.PassThru.interrupted_estimate_refuted`, `Evaluator.PassThru.line_first_refuted`, `Evaluator.PassThru.line_last_refuted`, `Evaluator.PassThru.pass_thru_lines_partial`, `Evaluator.PassThru.pass_thru_partial`, `Evaluator.PassThru.pass_thru_refuted`, `Evaluator.Reload.arguments_are_kept`, `Evaluator.Reload.reload_settings_partial`, `Evaluator.Share.class_scans_refuted`, `Evaluator.Share.default_dots_disturb_nobody_partial`, `Evaluator.Share.dot_scans_as_asked_partial`, `Evaluator.Share.offered_scans`, `Evaluator.Share.own_scans`, `Evaluator.Share.scans_as_asked_partial`, `Evaluator.Share.shared_2d_scan_refuted`, `Evaluator.Share.shared_line_scan_refuted`, `Evaluator.averaging`, `Evaluator.averaging_single`, `Evaluator.lead_transition_located_partial`, `Evaluator.lead_transition_names_partial`, `Evaluator.lead_transition_names_refuted`, `Evaluator.lead_transition_other_range_refuted`, `Evaluator.lead_transition_partial`, `Evaluator.lead_transition_positions`, `Evaluator.lead_transition_refuted`, `Evaluator.lead_transition_scaled_refuted`, `Evaluator.lead_transition_window`, `Evaluator.line_lead_range`, `Evaluator.qqd_one_quantity`, `Evaluator.qqd_several_quantities`, `Evaluator.resp_default_refuted`, `Evaluator.resp_number_refuted`, `Evaluator.resp_order_refuted`, `Evaluator.resp_partial`, `Evaluator.sensing_dot_1d_partial`, `Evaluator.sensing_dot_1d_refuted`, `Evaluator.sensing_dot_1d_signal_refuted`, `Evaluator.sensing_dot_2d_partial`, `Evaluator.sensing_dot_2d_refuted`, `Evaluator.sensing_dot_scan_failure`, `Evaluator.sensing_dot_scan_position`, `Evaluator.sensing_dot_scan_returns`, `Evaluator.sensing_dot_scan_unknown_gate`, `Gradient.covariance_base`, `Gradient.covariance_of_differences`, `Gradient.covariance_propagated_iff`, `Gradient.covariance_propagated_pairs`, `Gradient.covariance_propagated_partial`, `Gradient.covariance_propagated_refuted`, `Gradient.estimate_from_nan`, `Gradient.estimator_reload_partial`, `Gradient.estimator_reload_refuted`, `Gradient.exists_orth`, `Gradient.gradient_dependent_base`, `Gradient.gradient_dependent_pairs`, `Gradient.gradient_exact_base`, `Gradient.gradient_exact_pairs`, `Gradient.gradient_of_nan`, `Gradient.gradient_wrong_number`, `Gradient.jacobian_exact_base`, `Gradient.jacobian_exact_pairs`, `Gradient.jacobian_wrong_number`, `Gradient.one_sided_protocol`, `Gradient.request_first_refuted`, `Gradient.require_gates`, `Gradient.require_other_gates`, `Gradient.rows_agree`, `Gradient.subset_protocol_refuted`, `Gradient.symmetric_protocol_partial`, `Gradient.symmetric_protocol_refuted`, `Gui.Buttons.buttons_right_partial`, `Gui.Log.log_window_newest`, `Gui.Log.log_window_not_set_refuted`, `Gui.Log.log_window_opens`, `Gui.Log.log_window_shows_partial`, `Gui.Picture.averaging_figure_refuted`, `Gui.Picture.averaging_picture_partial`, `Gui.Picture.coupling_picture_partial`, `Gui.Picture.list_of_axes`, `Gui.Picture.load_time_picture_partial`, `Gui.Picture.load_time_window_refuted`, `Gui.Picture.other_names_refuted`, `Gui.Picture.sensing_dot_1d_figure_refuted`, `Gui.Picture.sensing_dot_1d_picture_partial`, `Gui.Picture.sensing_dot_2d_window_refuted`, `Gui.Picture.transition_picture_partial`, `Gui.Picture.transition_window_refuted`, `Gui.Picture.tunnel_times_picture_partial`, `Gui.Picture.tunnel_times_picture_refuted`, `Gui.Picture.two_points_refuted`, `Gui.Plot.plot_same_name_refuted`, `Gui.Plot.plot_shows_selection_partial`, `Gui.Raw.raw_window_partial`, `Gui.Reload.abandoned_window_refuted`, `Gui.Reload.last_row_is_current`, `Gui.Reload.neighbouring_rows_differ`, `Gui.Reload.new_window_refuted`, `Gui.Reload.others_abandoned`, `Gui.Reload.reload_state_partial`, `Gui.Reload.reload_voltages_partial`, `Gui.Reload.typed_number_has_row`, `Gui.buttons_refuted`, `Gui.close_refuted`, `Gui.start_completes`, `Gui.start_fresh_history_refuted`, `Gui.start_stops_at_exception`, `Gui.start_tunes`, `Gui.start_tunes_affine_device`, `Gui.start_tunes_double_dot`, `Gui.steps_at_most_ordered_partial`, `History.Figure.caller_list_refuted`, `History.Figure.drawn_by_name`, `History.Figure.empty_row_refuted`, `History.Figure.evaluator_figures_partial`, `History.Figure.unknown_neighbours_refuted`, `History.Parallel.parallel_directory`, `History.Parallel.parallel_reading`, `History.Parallel.parallel_reading_ends`, `History.Read.read_files_checks_partial`, `History.Read.read_files_refuted`, `History.Read.reevaluate_existing_refuted`, `History.Read.reevaluate_refuted`, `History.Read.sorted_list_is_wanted_partial`, `History.TuningPlot.documented_mode_refuted`, `History.TuningPlot.lead_times_refuted`, `History.TuningPlot.plot_tuning_partial`, `History.TuningPlot.single_gradient_refuted`, `History.TuningPlot.unknown_parameter_refuted`, `History.distinct_parameters_partial`, `History.evaluated_distinct_partial`, `History.get_gradient_covariances_labels_partial`, `History.get_gradient_covariances_refuted`, `History.get_gradient_covariances_sorted_partial`, `History.get_gradient_covariances_values`, `History.get_gradient_variances_partial`, `History.get_gradient_variances_refuted`, `History.get_gradients_partial`, `History.get_gradients_refuted`, `History.get_gradients_suffix_refuted`, `History.latest_recorded_partial`, `History.load_directory_partial`, `History.load_directory_refuted`, `History.load_directory_run_partial`, `History.no_covariances_refuted`, `History.raw_data_aligned_partial`, `History.reload_path_partial`, `History.reload_path_refuted`, `History.rows_are_runs`, `History.shared_parameter_refuted`, `Kalman.asks_again`, `Kalman.change_position_moves_refuted`, `Kalman.change_position_partial`, `Kalman.change_position_refuted`, `Kalman.correction_decreases_variance`, `Kalman.covariance_posSemidef`, `Kalman.exists_eigh`, `Kalman.exists_nullspace`, `Kalman.fading_error`, `Kalman.fading_forgets`, `Kalman.finite_difference_phase_partial`, `Kalman.infinite_limit_partial`, `Kalman.infinite_limit_refuted`, `Kalman.kalman_converges`, `Kalman.kalman_converges_along`, `Kalman.kalman_error`, `Kalman.kalman_error_bound`, `Kalman.kalman_numbers_partial`, `Kalman.kalman_numbers_refuted`, `Kalman.kalman_phase_partial`, `Kalman.kalman_reference`, `Kalman.kalman_reload`, `Kalman.kalman_request`, `Kalman.kalman_request_unknown_position`, `Kalman.kalman_residual_bound`, `Kalman.measurement_matrix`, `Kalman.nan_model_on_numbers`, `Kalman.nan_update_on_numbers`, `Kalman.never_forgets_refuted`, `Kalman.request_keeps_tuned_iff`, `Kalman.request_keeps_tuned_partial`, `Kalman.request_keeps_tuned_refuted`, `Kalman.requests_end`, `Kalman.requests_end_certain`, `Kalman.self_initialising_refuted`, `Kalman.silent_forever`, `Kalman.stays_uncoupled`, `Kalman.suggestion_partial`, `Kalman.suggestion_refuted`, `Kalman.tuned_request_bound_partial`, `Kalman.tuned_request_free_refuted`, `Kalman.tuned_request_partial`, `Kalman.tuned_request_refuted`, `Kalman.tuned_request_sound`, `Matlab.Path.own_files_are_used_partial`, `Matlab.Setup.setup_iff_partial`, `Matlab.Setup.setup_script_refuted`, `Matlab.Tune.numpy_text_refuted`, `Matlab.Tune.options_reach_tune_partial`, `Matlab.Tune.reserved_option_refuted`, `Matlab.Tune.unknown_measurement_rejected`, `Matlab.Views.attribute_of_array_partial`, `Matlab.Views.cell_elements_refuted`, `Matlab.Views.large_cell_refuted`, `Matlab.Views.missing_field_refuted`, `Matlab.Views.negative_index_refuted`, `Matlab.Views.struct_view_iterates_partial`, `Matlab.Views.view_shows_data_partial`, `Matlab.Views.view_shows_present_data_partial`, `Matlab.abs_limit_partial`, `Matlab.abs_limit_refuted`, `Matlab.call_arguments_partial`, `Matlab.call_arguments_refuted`, `Matlab.call_leaves_views_refuted`, `Matlab.calls_accumulate`, `Matlab.connect_finds_session_partial`, `Matlab.detune_scan_partial`, `Matlab.detune_scan_refuted`, `Matlab.dqd_limits_partial`, `Matlab.dqd_limits_refuted`, `Matlab.dqd_set_subset_partial`, `Matlab.dqd_set_subset_refuted`, `Matlab.failed_line_scan_stays`, `Matlab.failed_scan_refuted`, `Matlab.gates_stay_partial`, `Matlab.gates_stay_refuted`, `Matlab.index_partial`, `Matlab.index_tuple_partial`, `Matlab.lead_load_refuted`, `Matlab.line_scan_as_asked`, `Matlab.line_scan_axis`, `Matlab.nan_passes_limits_refuted`, `Matlab.nested_arrives_partial`, `Matlab.outcomes_stay_valid_partial`, `Matlab.qqd_limits_partial`, `Matlab.qqd_limits_refuted`, `Matlab.qqd_set_subset`, `Matlab.repeated_label_arrives_refuted`, `Matlab.retune_qpc_partial`, `Matlab.retune_qpc_refuted`, `Matlab.scan_2d_partial`, `Matlab.scan_2d_ramp`, `Matlab.scan_2d_refuted`, `Matlab.scan_needs_options`, `Matlab.sensing_dot_limits`, `Matlab.text_arrives_refuted`, `Matlab.transfer_1d`, `Matlab.transfer_2d`, `Matlab.transfer_refused`, `Matlab.tuple_arrives_refuted`, `Naming.mem_tunedParameters`, `Naming.ready_iff_coherent`, `Naming.restart_communicates_partial`, `Naming.restart_estimators_refuted`, `Naming.restart_voltages_agree_iff`, `Naming.restart_voltages_refuted`, `Naming.tuned_parameters_passed`, `NelderMead.back_to_reflection_partial`, `NelderMead.back_to_reflection_refuted`, `NelderMead.build_up_general_position`, `NelderMead.left_reachable_refuted`, `NelderMead.mirror_image_of_worst_refuted`, `NelderMead.mirror_image_refuted`, `NelderMead.moves_after_reflection`, `NelderMead.moves_end`, `NelderMead.nelder_mead_best_kept`, `NelderMead.nelder_mead_best_monotone`, `NelderMead.nelder_mead_never_raises`, `NelderMead.nelder_mead_use_and_reload_refuted`, `NelderMead.no_gates_bug`, `NelderMead.shrink_suggestions`, `Newton.construct_checks`, `Newton.constructor_checks`, `Newton.exists_lstsq`, `Newton.missing_gradient_refuted`, `Newton.missing_set_point_partial`, `Newton.missing_set_point_refuted`, `Newton.newton_step_after_update`, `Newton.newton_step_in_any_life`, `Newton.newton_step_meets_set_points`, `Newton.newton_step_without_requests`, `Newton.no_set_point_never_asked`, `Newton.own_value_and_variance_partial`, `Newton.own_variance_refuted`, `Newton.requests_have_priority`, `Newton.sound_forever`, `Newton.tuned_jacobian_rows`, `Package.Release.assigned_twice_refuted`, `Package.Release.doc_refuted`, `Package.Release.no_version_no_release`, `Package.Release.quote_refuted`, `Package.Release.release_version_partial`, `Package.Release.without_spaces_refuted`, `Package.gui_import_refuted`, `Package.import_succeeds_partial`, `Package.loaded_modules_complete`, `Package.matlab_files_installed_refuted`, `Package.matlab_setups_import_refuted`, `Package.missing_package_named`, `Package.needed_packages_exact`, `Package.only_python_files_installed`, `Package.python_files_installed`, `Package.requirements_suffice_partial`, `Package.setup_packages_refuted`, `Package.tuning_modules_import_partial`, `Ready.estimators_ready_partial`, `Ready.estimators_ready_raises_refuted`, `Ready.estimators_ready_refuted`, `Ready.query_effect_partial`, `Ready.query_effect_refuted`, `Ready.query_no_effect_kalman`, `Ready.ready_newton_step_fd`, `Ready.ready_newton_step_kalman`, `ScanSim.grid_device_refuted`, `ScanSim.grid_range_refuted`, `ScanSim.grid_simulation_partial`, `ScanSim.line_options_refuted`, `ScanSim.line_simulation_gates`, `ScanSim.line_simulation_partial`, `SensingDot.cheap_evaluator_raises`, `SensingDot.expensive_evaluator_raises`, `SensingDot.expensive_on_demand`, `SensingDot.expensive_only_refuted`, `SensingDot.failed_cheap_evaluation_partial`, `SensingDot.failed_expensive_evaluation_refuted`, `SensingDot.failed_expensive_evaluation_unnoticed`, `SensingDot.history_evaluators_partial`, `SensingDot.history_evaluators_refuted`, `SensingDot.minimum_checked_partial`, `SensingDot.sensing_dot_construct_iff_partial`, `SensingDot.sensing_dot_decision`, `SensingDot.sensing_dot_hierarchy_refuted`, `SensingDot.sensing_dot_next`, `SensingDot.sensing_dot_recovery`, `SensingDot.sensing_dot_reload_partial`, `SensingDot.sensing_dot_reload_refuted`, `SensingDot.sensing_dot_reports_latest`, `SensingDot.sensing_dot_scan_kept`, `Sharing.objects_do_not_interfere_differences_refuted`, `Sharing.objects_do_not_interfere_kalman_refuted`, `Sharing.objects_do_not_interfere_partial`, `Sharing.objects_do_not_interfere_restart_refuted`, `Sharing.objects_do_not_interfere_tutorial_partial`, `Signal.find_lead_data_partial`, `Signal.find_lead_data_refuted`, `Signal.find_lead_keeps_data_refuted`, `Signal.find_steepest_ok`, `Signal.last_step_refuted`, `Signal.lead_index_ok`, `Signal.lead_index_step_partial`, `Signal.lead_index_step_refuted`, `Signal.moving_average_one_point_refuted`, `Signal.moving_average_partial`, `Signal.moving_average_refuted`, `Signal.tanh_peaked`, `Signal.transition_found`, `SolverClass.change_targets_nelder_mead_refuted`, `SolverClass.change_targets_reaches_solvers_partial`, `SolverClass.restart_moves_solvers_partial`, `SolverClass.restart_nelder_mead_refuted`, `SolverState.other_states_refuted`, `SolverState.state_entries`, `SolverState.state_errors`, `SolverState.state_names_partial`, `SolverState.state_names_refuted`, `Storage.Keys.absolute_key_refuted`, `Storage.Keys.empty_key_refuted`, `Storage.Keys.plain_keys_partial`, `Storage.Keys.slash_key_clash_refuted`, `Storage.Keys.slash_key_nested_refuted`, `Storage.Keys.slash_keys_refuted`, `Storage.Leaf.exact_iff`, `Storage.Leaf.large_index_refuted`, `Storage.Leaf.loaded_values_partial`, `Storage.Leaf.mixed_frame_refuted`, `Storage.Leaf.names_refuted`, `Storage.Leaf.object_array_refuted`, `Storage.Leaf.reload_stable`, `Storage.Leaf.stored_iff`, `Storage.Leaf.text_refuted`, `Storage.Leaf.texts_refuted`, `Storage.Meas.measurement_reload_partial`, `Storage.Meas.option_called_name_refuted`, `Storage.Meas.option_called_self_refuted`, `Storage.Meas.qqd_measurement_made`, `Storage.Meas.qqd_measurement_refuted`, `Storage.background_file_process_partial`, `Storage.background_file_process_refuted`, `Storage.background_file_thread_partial`, `Storage.cycles_partial`, `Storage.cycles_refuted`, `Storage.instance_cycles_refuted`, `Storage.reserved_replaced`, `Storage.round_trip_partial`, `Storage.temporaries_refuted`, `TargetOps.Shared.kept_frame_refuted`, `TargetOps.Shared.other_targets_unchanged_partial`, `TargetOps.Shared.own_targets_partial`, `TargetOps.Shared.shared_change_targets_refuted`, `TargetOps.Shared.shared_target_refuted`, `TargetOps.forwarding_position`, `TargetOps.make_target_error`, `TargetOps.make_target_rescaling_refuted`, `TargetOps.make_target_table_partial`, `TargetOps.nan_factor_spoils_value`, `TargetOps.rescale_descale_inverse`, `TargetOps.rescale_entries`, `TargetOps.rescale_in_tuners`, `TargetOps.target_change_exact`, `TargetOps.target_change_unknown`, `TargetOps.targets_change_exact`, `TargetOps.targets_change_stops`, `TargetOps.targets_change_too_many`, `TestExperiment.initial_voltages_always_refuted`, `TestExperiment.initial_voltages_partial`, `TestExperiment.initial_voltages_refuted`, `TestExperiment.read_after_set`, `Times.clock_set_back_refuted`, `Times.later_session_partial`, `Times.load_order`, `Times.names_in_order_partial`, `Times.scan_files_differ`, `Times.scan_files_sessions_refuted`, `Times.scan_known`, `Times.scan_options`, `Times.session_scan_files`, `Times.time_of_name`, `Times.time_string_injective`, `Times.time_string_order`, `Tuner.FailedAt.keeps`, `Tuner.Record.recorded_voltages_refuted`, `Tuner.Record.recovery_refuted`, `Tuner.Record.tuned_voltages_recorded_partial`, `Tuner.Record.tuner_keeps_voltages_partial`, `Tuner.bounded_unevaluated_steps_partial`, `Tuner.bounded_unevaluated_steps_refuted`, `Tuner.complete_target_partial`, `Tuner.construct_iff_partial`, `Tuner.failed_evaluation_contained`, `Tuner.forwarding_unit_factors`, `Tuner.is_tuned_complete`, `Tuner.is_tuned_sound_partial`, `Tuner.is_tuned_sound_refuted`, `Tuner.is_tuned_sound_uniform_partial`, `Tuner.judged_in_target_units_partial`, `Tuner.judged_in_target_units_refuted`, `Tuner.lastValues_index_invariant`, `Tuner.missing_evaluator_refuted`, `Tuner.never_evaluated_again_refuted`, `Tuner.queued_steps_do_not_overshoot`, `Tuner.raising_evaluator_contained`, `Tuner.recovery_bisects`, `Tuner.recovery_converges`, `Tuner.recovery_without_good_point`, `Tuner.result_needs_all_evaluators`, `Tuner.step_size_limit`, `Tuner.subset_reload_impossible`, `Tuner.subset_reload_partial`, `Tuner.subset_reload_refuted`, `Tuner.unmeasured_never_tuned_refuted`, `Tuner.unnoticed_failure_refuted`, `Version.version_working_directory_refuted`, `Writer.Process.process_complete`, `Writer.Process.process_fifo`, `Writer.Process.process_join_partial`, `Writer.Process.process_join_refuted`, `Writer.Process.process_join_without_failures`, `Writer.join_partial`, `Writer.join_without_failures`, `Writer.writer_complete`, `Writer.writer_fifo`

` Classical.choice`, ` Quot.sound`, `propext` (2 theorems):
`EndToEnd.nearly_affine_device_is_tuned_in_slices_eventually`, `EndToEnd.stopped_inside_steps_are_tuned_kalman_partial`

`Quot.sound`, `propext` (67 theorems):
`Autotuner.change_targets_accepts`, `Autotuner.change_targets_reevaluates_partial`, `Autotuner.change_targets_reevaluates_refuted`, `Autotuner.completion_certificate`, `Autotuner.crash_recovery`, `Autotuner.failed_iterate_retry`, `Autotuner.hierarchy_order`, `Autotuner.interrupted_actions_founded_partial`, `Autotuner.interrupted_completion_certificate_partial`, `Autotuner.interrupted_suggestion_refuted`, `Autotuner.interrupted_targets_refuted`, `Autotuner.interrupted_write_recovers`, `Autotuner.log_truthful`, `Autotuner.nan_never_written`, `Autotuner.only_suggested_voltages_written`, `Autotuner.progress_all_tuned`, `Autotuner.progress_untuned`, `Autotuner.restart_during_suggestion_refuted`, `Autotuner.restart_reevaluates_partial`, `Autotuner.restart_reevaluates_refuted`, `Autotuner.uninterrupted_iterate`, `Gui.Follow.raw_data_window_follows_refuted`, `Gui.Follow.silent_change_refuted`, `Gui.Follow.windows_follow_partial`, `Gui.Raw.new_window_refuted`, `Gui.Raw.raw_window_refuted`, `Gui.Raw.windows_disagree`, `Gui.close_partial`, `Gui.close_returns_partial`, `Gui.pause_one_more`, `Gui.session_is_loop`, `Gui.step_after_end_exactly_one`, `Gui.step_exactly_one`, `History.Read.reevaluate_unknown_partial`, `History.TuningPlot.gradient_window_missing_refuted`, `History.TuningPlot.gradient_window_refuted`, `History.known_gradients_append`, `History.latest_recorded_refuted`, `History.raw_data_aligned_refuted`, `History.repeated_evaluation_refuted`, `History.run_append_ok`, `History.run_history`, `Matlab.Path.not_found_is_reported`, `Matlab.Path.own_files_are_found`, `Matlab.Setup.setup_global_refuted`, `Matlab.call_leaves_views_partial`, `Matlab.cleared_results_stay_invalid`, `Matlab.connect_reused_refuted`, `Matlab.connect_started_refuted`, `Matlab.index_refuted`, `Matlab.iterate_view`, `Matlab.results_stay_valid_partial`, `Naming.pending_unknown_gate`, `Package.Engine.install_iff_partial`, `Package.Engine.install_works_refuted`, `Package.Engine.installed_already_refuted`, `Package.Engine.installer_once`, `Package.needed_packages`, `Storage.Classes.failed_definition_refuted`, `Storage.Classes.package_class_read_back_partial`, `Storage.Classes.quadruple_dot_class_lost_refuted`, `Storage.Classes.stored_classes_read_back_partial`, `Storage.Classes.user_class_read_back_partial`, `Storage.reserved_required`, `Version.store_succeeds_partial`, `Writer.Process.process_is_thread`, `Writer.failed_writes`

`propext` (31 theorems):
`Autotuner.change_targets_failure_keeps_position`, `Autotuner.iterate_pure_error`, `Autotuner.nan_pending_resolved`, `Autotuner.nan_pending_stuck`, `Autotuner.one_action_per_iterate`, `Evaluator.Reload.classes_complete`, `Evaluator.Reload.reload_flank_refuted`, `Evaluator.Reload.reload_sample_rate_refuted`, `Gui.Buttons.lost_start_refuted`, `Gui.Plot.plot_missing_gradient_refuted`, `Gui.buttons_partial`, `Gui.step_lost_refuted`, `History.raw_data_shifted_refuted`, `Matlab.Path.missing_package_refuted`, `Matlab.Path.other_directories_stay`, `Matlab.Setup.failed_setup_keeps_path`, `Matlab.Setup.setup_missing_refuted`, `Matlab.Setup.setup_only_once`, `Matlab.Views.function_name_refuted`, `Matlab.results_stay_valid_refuted`, `Package.Engine.code_page_refuted`, `Package.Engine.without_where_refuted`, `Storage.cyclic_copy_refuted`, `Storage.round_trip_refuted`, `Version.release_version_partial`, `Version.store_fails_refuted`, `Version.version_missing_refuted`, `Version.version_partial`, `Version.version_race_refuted`, `Version.version_replaced_refuted`, `Writer.join_refuted`

No axioms (7 theorems):
`Autotuner.begin_end_eq_iterate`, `Autotuner.stale_file_recovery_refuted`, `Gui.Buttons.cannot_pause_refuted`, `Gui.Buttons.orders_partial`, `History.TuningPlot.parameter_texts_partial`, `History.TuningPlot.titles_refuted`, `Package.Engine.install_works_partial`

