{
 "claims": [
  {
   "property": "C01",
   "status": "proved",
   "theorems": [
    "Qtune.Autotuner.completion_certificate",
    "Qtune.Autotuner.log_truthful"
   ],
   "note": ""
  },
  {
   "property": "C02",
   "status": "proved",
   "theorems": [
    "Qtune.Autotuner.hierarchy_order",
    "Qtune.Autotuner.log_truthful"
   ],
   "note": ""
  },
  {
   "property": "C03",
   "status": "proved",
   "theorems": [
    "Qtune.Autotuner.one_action_per_iterate",
    "Qtune.Autotuner.only_suggested_voltages_written",
    "Qtune.Autotuner.log_truthful"
   ],
   "note": ""
  },
  {
   "property": "C04",
   "status": "proved",
   "theorems": [
    "Qtune.Autotuner.nan_never_written",
    "Qtune.Autotuner.nan_pending_stuck",
    "Qtune.Autotuner.nan_pending_resolved",
    "Qtune.Autotuner.log_truthful"
   ],
   "note": ""
  },
  {
   "property": "C05",
   "status": "proved",
   "theorems": [
    "Qtune.Autotuner.iterate_pure_error"
   ],
   "note": ""
  },
  {
   "property": "C06",
   "status": "proved",
   "theorems": [
    "Qtune.Autotuner.failed_iterate_retry"
   ],
   "note": ""
  },
  {
   "property": "C07",
   "status": "partial",
   "theorems": [
    "Qtune.Autotuner.restart_reevaluates_partial",
    "Qtune.Autotuner.restart_reevaluates_refuted"
   ],
   "note": "False when restart() is called right after a \"not tuned\" report: the status flag survives. Refuted for every hierarchy; proved in all other cases."
  },
  {
   "property": "C08",
   "status": "partial",
   "theorems": [
    "Qtune.Autotuner.change_targets_reevaluates_partial",
    "Qtune.Autotuner.change_targets_reevaluates_refuted",
    "Qtune.Autotuner.change_targets_failure_keeps_position",
    "Qtune.Autotuner.change_targets_accepts"
   ],
   "note": "False when change_targets() is called right after a \"not tuned\" report. Refuted for every hierarchy; proved in all other cases."
  },
  {
   "property": "C09",
   "status": "partial",
   "theorems": [
    "Qtune.Naming.restart_voltages_refuted",
    "Qtune.Naming.restart_voltages_agree_iff",
    "Qtune.Naming.restart_communicates_partial"
   ],
   "note": "False: the setter intersects the index with the values of the new voltages, so that nothing is assigned. Refuted for every tuner that has voltages; proved for tuners without voltages and for the positions of the solvers."
  },
  {
   "property": "C10",
   "status": "proved",
   "theorems": [
    "Qtune.Naming.tuned_parameters_passed",
    "Qtune.Naming.mem_tunedParameters",
    "Qtune.Autotuner.log_truthful"
   ],
   "note": ""
  },
  {
   "property": "C11",
   "status": "proved",
   "theorems": [
    "Qtune.Naming.ready_iff_coherent",
    "Qtune.Naming.pending_unknown_gate"
   ],
   "note": ""
  },
  {
   "property": "C12",
   "status": "proved",
   "theorems": [
    "Qtune.Autotuner.progress_all_tuned",
    "Qtune.Autotuner.progress_untuned"
   ],
   "note": ""
  },
  {
   "property": "C13",
   "status": "proved",
   "theorems": [
    "Qtune.Autotuner.crash_recovery"
   ],
   "note": ""
  },
  {
   "property": "C14",
   "status": "partial",
   "theorems": [
    "Qtune.Autotuner.Reload.reload_partial",
    "Qtune.Autotuner.Reload.reload_path_refuted"
   ],
   "note": "False: the storage path gets another time component with every reload. Proved for everything else, for any number of reloads."
  },
  {
   "property": "C15",
   "status": "partial",
   "theorems": [
    "Qtune.Tuner.is_tuned_sound_partial",
    "Qtune.Tuner.is_tuned_sound_uniform_partial",
    "Qtune.Tuner.is_tuned_sound_refuted",
    "Qtune.Tuner.unnoticed_failure_refuted",
    "Qtune.Tuner.lastValues_index_invariant"
   ],
   "note": "False for targets with partially filled columns: a NaN measurement of such a parameter counts as within tolerance. Proved for the parameters that have an entry in every used column."
  },
  {
   "property": "C16",
   "status": "proved",
   "theorems": [
    "Qtune.Tuner.is_tuned_complete"
   ],
   "note": ""
  },
  {
   "property": "C17",
   "status": "proved",
   "theorems": [
    "Qtune.Tuner.failed_evaluation_contained",
    "Qtune.Tuner.FailedAt.keeps",
    "Qtune.Tuner.raising_evaluator_contained",
    "Qtune.Tuner.result_needs_all_evaluators"
   ],
   "note": ""
  },
  {
   "property": "C18",
   "status": "proved",
   "theorems": [
    "Qtune.Tuner.recovery_bisects",
    "Qtune.Tuner.recovery_converges",
    "Qtune.Tuner.recovery_without_good_point"
   ],
   "note": ""
  },
  {
   "property": "C19",
   "status": "proved",
   "theorems": [
    "Qtune.Tuner.step_size_limit"
   ],
   "note": ""
  },
  {
   "property": "C20",
   "status": "partial",
   "theorems": [
    "Qtune.Tuner.bounded_unevaluated_steps_partial",
    "Qtune.Tuner.bounded_unevaluated_steps_refuted",
    "Qtune.Tuner.never_evaluated_again_refuted"
   ],
   "note": "False when the last queued step is shorter than the maximal step: the queue counter then never reaches zero. Proved while all queued steps are longer than the maximal step."
  },
  {
   "property": "C21",
   "status": "proved",
   "theorems": [
    "Qtune.Tuner.queued_steps_do_not_overshoot"
   ],
   "note": ""
  },
  {
   "property": "C22",
   "status": "proved",
   "theorems": [
    "Qtune.SensingDot.sensing_dot_decision"
   ],
   "note": ""
  },
  {
   "property": "C23",
   "status": "proved",
   "theorems": [
    "Qtune.SensingDot.expensive_on_demand"
   ],
   "note": ""
  },
  {
   "property": "C24",
   "status": "partial",
   "theorems": [
    "Qtune.SensingDot.failed_cheap_evaluation_partial",
    "Qtune.SensingDot.failed_expensive_evaluation_unnoticed",
    "Qtune.SensingDot.failed_expensive_evaluation_refuted"
   ],
   "note": "False: a NaN from the expensive evaluation is not noticed. Proved for the cheap evaluation."
  },
  {
   "property": "C25",
   "status": "partial",
   "theorems": [
    "Qtune.Tuner.subset_reload_partial",
    "Qtune.Tuner.subset_reload_impossible",
    "Qtune.Tuner.subset_reload_refuted",
    "Qtune.SensingDot.sensing_dot_reload_partial",
    "Qtune.SensingDot.sensing_dot_reload_refuted"
   ],
   "note": "False for both tuners: a SubsetTuner whose target has a partially filled row cannot be rebuilt at all; a SensingDotTuner loses its failure flag. Proved in all other cases."
  },
  {
   "property": "C26",
   "status": "proved",
   "theorems": [
    "Qtune.TargetOps.rescale_descale_inverse",
    "Qtune.TargetOps.rescale_entries",
    "Qtune.TargetOps.rescale_in_tuners"
   ],
   "note": ""
  },
  {
   "property": "C27",
   "status": "proved",
   "theorems": [
    "Qtune.TargetOps.forwarding_position"
   ],
   "note": ""
  },
  {
   "property": "C28",
   "status": "proved",
   "theorems": [
    "Qtune.Newton.newton_step_after_update",
    "Qtune.Newton.newton_step_in_any_life",
    "Qtune.Newton.newton_step_meets_set_points",
    "Qtune.Newton.exists_lstsq"
   ],
   "note": ""
  },
  {
   "property": "C29",
   "status": "partial",
   "theorems": [
    "Qtune.Newton.missing_set_point_partial",
    "Qtune.Newton.missing_set_point_refuted"
   ],
   "note": "False: the first order value of a parameter without set point after the step is 0 instead of its present value. Proved when the present value is 0 or missing."
  },
  {
   "property": "C30",
   "status": "proved",
   "theorems": [
    "Qtune.Newton.requests_have_priority",
    "Qtune.Newton.newton_step_without_requests",
    "Qtune.Newton.no_set_point_never_asked",
    "Qtune.Newton.tuned_jacobian_rows"
   ],
   "note": ""
  },
  {
   "property": "C31",
   "status": "partial",
   "theorems": [
    "Qtune.Newton.own_value_and_variance_partial",
    "Qtune.Newton.own_variance_refuted"
   ],
   "note": "False when the variances come in another order than the target: they are matched by position. Proved for variances in the order of the target and values in any order."
  },
  {
   "property": "C32",
   "status": "proved",
   "theorems": [
    "Qtune.NelderMead.nelder_mead_never_raises",
    "Qtune.NelderMead.no_gates_bug"
   ],
   "note": ""
  },
  {
   "property": "C33",
   "status": "proved",
   "theorems": [
    "Qtune.NelderMead.nelder_mead_best_monotone"
   ],
   "note": ""
  },
  {
   "property": "C34",
   "status": "partial",
   "theorems": [
    "Qtune.NelderMead.back_to_reflection_partial",
    "Qtune.NelderMead.back_to_reflection_refuted",
    "Qtune.NelderMead.left_reachable_refuted"
   ],
   "note": "False: after an expansion, contraction or shrink the solver never reflects again. Proved for iterations that end with accepting the reflected point."
  },
  {
   "property": "C35",
   "status": "partial",
   "theorems": [
    "Qtune.NelderMead.nelder_mead_use_and_reload_refuted"
   ],
   "note": "False: TypeError when used by a tuner, ValueError on reconstruction, in every state."
  },
  {
   "property": "C36",
   "status": "partial",
   "theorems": [
    "Qtune.TargetOps.make_target_table_partial",
    "Qtune.TargetOps.make_target_error",
    "Qtune.TargetOps.make_target_rescaling_refuted",
    "Qtune.TargetOps.nan_factor_spoils_value"
   ],
   "note": "False for the rescaling factor of parameters that a series of factors leaves out: it is NaN instead of 1."
  },
  {
   "property": "C37",
   "status": "proved",
   "theorems": [
    "Qtune.TargetOps.target_change_exact",
    "Qtune.TargetOps.targets_change_exact",
    "Qtune.TargetOps.targets_change_too_many",
    "Qtune.TargetOps.targets_change_stops",
    "Qtune.TargetOps.target_change_unknown"
   ],
   "note": ""
  },
  {
   "property": "C38",
   "status": "proved",
   "theorems": [
    "Qtune.Gradient.gradient_exact_base",
    "Qtune.Gradient.gradient_exact_pairs",
    "Qtune.Gradient.gradient_dependent_base",
    "Qtune.Gradient.gradient_dependent_pairs",
    "Qtune.Gradient.gradient_wrong_number",
    "Qtune.Gradient.gradient_of_nan",
    "Qtune.Gradient.estimate_from_nan"
   ],
   "note": ""
  },
  {
   "property": "C39",
   "status": "partial",
   "theorems": [
    "Qtune.Gradient.covariance_propagated_pairs",
    "Qtune.Gradient.covariance_propagated_partial",
    "Qtune.Gradient.covariance_base",
    "Qtune.Gradient.covariance_propagated_refuted",
    "Qtune.Gradient.covariance_of_differences",
    "Qtune.Gradient.covariance_propagated_iff"
   ],
   "note": "False for n+1 points with n >= 2: the error of the base point is treated as independent for each difference. covariance_propagated_iff decides it: the returned covariance is right exactly if there is at most one gate or the base value is exact. Proved for 2n points, for n = 1 and for an exact base point; covariance_base gives the exact deviation."
  },
  {
   "property": "C40",
   "status": "proved",
   "theorems": [
    "Qtune.Gradient.one_sided_protocol",
    "Qtune.Gradient.exists_orth"
   ],
   "note": ""
  },
  {
   "property": "C41",
   "status": "partial",
   "theorems": [
    "Qtune.Gradient.symmetric_protocol_partial",
    "Qtune.Gradient.symmetric_protocol_refuted"
   ],
   "note": "False when the estimator knows its position and is first updated there: EvaluationError after 2n updates in every dimension. Proved for the other two starts."
  },
  {
   "property": "C42",
   "status": "partial",
   "theorems": [
    "Qtune.Gradient.estimator_reload_partial",
    "Qtune.Gradient.estimator_reload_refuted"
   ],
   "note": "False as soon as a measurement is stored. Proved before that."
  },
  {
   "property": "C43",
   "status": "proved",
   "theorems": [
    "Qtune.Kalman.covariance_posSemidef"
   ],
   "note": ""
  },
  {
   "property": "C44",
   "status": "proved",
   "theorems": [
    "Qtune.Kalman.correction_decreases_variance"
   ],
   "note": ""
  },
  {
   "property": "C45",
   "status": "proved",
   "theorems": [
    "Qtune.Kalman.kalman_error",
    "Qtune.Kalman.kalman_error_bound",
    "Qtune.Kalman.kalman_residual_bound",
    "Qtune.Kalman.kalman_converges",
    "Qtune.Kalman.kalman_converges_along"
   ],
   "note": ""
  },
  {
   "property": "C46",
   "status": "proved",
   "theorems": [
    "Qtune.Kalman.measurement_matrix"
   ],
   "note": ""
  },
  {
   "property": "C47",
   "status": "proved",
   "theorems": [
    "Qtune.Kalman.kalman_request",
    "Qtune.Kalman.kalman_request_unknown_position",
    "Qtune.Kalman.exists_eigh"
   ],
   "note": ""
  },
  {
   "property": "C48",
   "status": "partial",
   "theorems": [
    "Qtune.Kalman.request_keeps_tuned_partial",
    "Qtune.Kalman.request_keeps_tuned_refuted",
    "Qtune.Kalman.request_keeps_tuned_iff",
    "Qtune.Kalman.tuned_request_sound",
    "Qtune.Kalman.exists_nullspace"
   ],
   "note": "False when the entries of epsilon differ: the direction is scaled gate by gate after it was chosen in the null space. Proved when epsilon is the same for all gates of the Jacobian."
  },
  {
   "property": "C49",
   "status": "proved",
   "theorems": [
    "Qtune.Kalman.kalman_reference"
   ],
   "note": ""
  },
  {
   "property": "C50",
   "status": "partial",
   "theorems": [
    "Qtune.Naming.restart_estimators_refuted",
    "Qtune.Naming.restart_communicates_partial"
   ],
   "note": "False for every estimator: the setter intersects the index with the values of the old position, so that nothing is assigned. Proved for the position of the solver."
  },
  {
   "property": "C51",
   "status": "partial",
   "theorems": [
    "Qtune.Kalman.finite_difference_phase_partial",
    "Qtune.Kalman.kalman_phase_partial",
    "Qtune.Kalman.self_initialising_refuted"
   ],
   "note": "Proved for the phase of finite differences, and for an estimator that is constructed with a Kalman estimator. False of the transition: a missing comma and a missing epsilon make every update raise TypeError from the completion of the finite differences on."
  },
  {
   "property": "C52",
   "status": "partial",
   "theorems": [
    "Qtune.Storage.round_trip_partial",
    "Qtune.Storage.round_trip_refuted"
   ],
   "note": "Proved for every acyclic graph except that plain arrays that are shared are loaded as separate arrays with the same contents (counterexample). Cyclic graphs: C55."
  },
  {
   "property": "C53",
   "status": "partial",
   "theorems": [
    "Qtune.Storage.temporaries_refuted",
    "Qtune.Storage.round_trip_partial"
   ],
   "note": "False: a temporary that gets the address of a freed one is stored as a reference to it. Proved if no address is used twice."
  },
  {
   "property": "C54",
   "status": "proved",
   "theorems": [
    "Qtune.Storage.reserved_replaced",
    "Qtune.Storage.reserved_required"
   ],
   "note": "For graphs whose objects have different addresses."
  },
  {
   "property": "C55",
   "status": "partial",
   "theorems": [
    "Qtune.Storage.cycles_partial",
    "Qtune.Storage.cycles_refuted",
    "Qtune.Storage.instance_cycles_refuted",
    "Qtune.Storage.cyclic_copy_refuted"
   ],
   "note": "False for cycles through instances: a file with any cycle of instances and tuples can never be loaded, whatever the recursion limit, and a cycle through an instance and a list is loaded as a different graph. Cycles of dicts, lists and tuples anywhere in the graph are rejected when saving."
  },
  {
   "property": "C56",
   "status": "proved",
   "theorems": [
    "Qtune.Writer.writer_fifo",
    "Qtune.Writer.writer_complete"
   ],
   "note": ""
  },
  {
   "property": "C57",
   "status": "partial",
   "theorems": [
    "Qtune.Writer.join_partial",
    "Qtune.Writer.join_without_failures",
    "Qtune.Writer.join_refuted"
   ],
   "note": "False if a write fails after join has found the worker alive: join waits forever (for every write that fails there is such a schedule). Proved for all fair schedules and all failing writes: this is the only way in which a program does not finish, and a join that finds the worker dead returns."
  },
  {
   "property": "C58",
   "status": "proved",
   "theorems": [
    "Qtune.Writer.failed_writes"
   ],
   "note": ""
  },
  {
   "property": "C59",
   "status": "proved",
   "theorems": [
    "Qtune.Times.time_string_order",
    "Qtune.Times.time_string_injective",
    "Qtune.Times.load_order"
   ],
   "note": "Times of year 1000 to 9999 (strftime); proved for all times, and for all orders of the directory listing."
  },
  {
   "property": "C60",
   "status": "proved",
   "theorems": [
    "Qtune.History.rows_are_runs",
    "Qtune.History.run_append_ok",
    "Qtune.History.run_history"
   ],
   "note": "For arbitrary sequences of autotuners appending may raise ValueError; then there is no row. In runs of the autotuner it never raises, if all gradients are known (see C138) and no parameter belongs to two tuners (see C185)."
  },
  {
   "property": "C61",
   "status": "partial",
   "theorems": [
    "Qtune.History.latest_recorded_partial",
    "Qtune.History.latest_recorded_refuted",
    "Qtune.History.repeated_evaluation_refuted"
   ],
   "note": "False: an evaluation repeated at the same voltages is not recorded. Proved if every change of the voltages moves the gates, also for gradients of estimators that several tuners share, as in the tutorial."
  },
  {
   "property": "C62",
   "status": "partial",
   "theorems": [
    "Qtune.History.get_gradients_partial",
    "Qtune.History.get_gradients_refuted",
    "Qtune.History.get_gradients_suffix_refuted"
   ],
   "note": "False: the name of the parameter is not anchored. Proved for names without special characters none of which ends with another."
  },
  {
   "property": "C63",
   "status": "proved",
   "theorems": [
    "Qtune.Gui.pause_one_more",
    "Qtune.Gui.step_exactly_one",
    "Qtune.Gui.step_after_end_exactly_one"
   ],
   "note": "All interleavings of the single reads and writes of the flags."
  },
  {
   "property": "C64",
   "status": "partial",
   "theorems": [
    "Qtune.Gui.close_partial",
    "Qtune.Gui.close_returns_partial",
    "Qtune.Gui.close_refuted"
   ],
   "note": "False in continuous mode (operator precedence in the loop condition). Proved otherwise."
  },
  {
   "property": "C65",
   "status": "partial",
   "theorems": [
    "Qtune.Gui.buttons_partial",
    "Qtune.Gui.buttons_refuted"
   ],
   "note": "False for names of loggers, the default. Proved for loggers."
  },
  {
   "property": "C66",
   "status": "partial",
   "theorems": [
    "Qtune.Evaluator.lead_transition_partial",
    "Qtune.Evaluator.lead_transition_refuted"
   ],
   "note": "False if a measurement raises: the gate stays displaced. Proved otherwise, for an ideal experiment."
  },
  {
   "property": "C67",
   "status": "partial",
   "theorems": [
    "Qtune.Signal.lead_index_ok",
    "Qtune.Signal.lead_index_step_partial",
    "Qtune.Signal.lead_index_step_refuted",
    "Qtune.Signal.last_step_refuted"
   ],
   "note": "Range, position of the maximum and failure conditions proved for all data. False for a step between the last two points; proved for all other clean steps."
  },
  {
   "property": "C68",
   "status": "partial",
   "theorems": [
    "Qtune.Signal.moving_average_partial",
    "Qtune.Signal.moving_average_refuted",
    "Qtune.Signal.moving_average_one_point_refuted"
   ],
   "note": "False for one point (fails although the width fits). Proved otherwise, for positive widths."
  },
  {
   "property": "C69",
   "status": "proved",
   "theorems": [
    "Qtune.Evaluator.averaging"
   ],
   "note": ""
  },
  {
   "property": "C70",
   "status": "partial",
   "theorems": [
    "Qtune.Evaluator.Reload.reload_settings_partial",
    "Qtune.Evaluator.Reload.arguments_are_kept",
    "Qtune.Evaluator.Reload.classes_complete",
    "Qtune.Evaluator.Reload.reload_flank_refuted",
    "Qtune.Evaluator.Reload.reload_sample_rate_refuted"
   ],
   "note": "False for four settings (flank of SensingDot1D/2D, sample rate of LeadTunnelTimePrefitVersion, transition width of LeadTransition). Proved for all other settings of all 16 evaluator classes."
  },
  {
   "property": "C71",
   "status": "partial",
   "theorems": [
    "Qtune.Evaluator.resp_partial",
    "Qtune.Evaluator.resp_default_refuted",
    "Qtune.Evaluator.resp_order_refuted",
    "Qtune.Evaluator.resp_number_refuted"
   ],
   "note": "False without an upper limit, for Series in another order and for other numbers of parameters than two. Proved otherwise."
  },
  {
   "property": "C72",
   "status": "partial",
   "theorems": [
    "Qtune.Matlab.index_partial",
    "Qtune.Matlab.index_tuple_partial",
    "Qtune.Matlab.index_refuted"
   ],
   "note": "False for negative integers, slices with a start, slices that stop behind the end, slices that run backwards to a given end. Proved for all other indices."
  },
  {
   "property": "C73",
   "status": "proved",
   "theorems": [
    "Qtune.Matlab.transfer_2d",
    "Qtune.Matlab.transfer_1d",
    "Qtune.Matlab.transfer_refused"
   ],
   "note": ""
  },
  {
   "property": "C74",
   "status": "partial",
   "theorems": [
    "Qtune.Matlab.qqd_set_subset",
    "Qtune.Matlab.dqd_set_subset_partial",
    "Qtune.Matlab.dqd_set_subset_refuted"
   ],
   "note": "Proved in full for SMTuneQQD. False for LegacyDQDRefactored: a refused call moves all gates to the pretuned point; everything else proved."
  },
  {
   "property": "C75",
   "status": "proved",
   "theorems": [
    "Qtune.EndToEnd.affine_device_is_tuned"
   ],
   "note": "Without a maximal step size; with one: C111."
  },
  {
   "property": "C76",
   "status": "partial",
   "theorems": [
    "Qtune.Autotuner.stale_file_recovery_refuted",
    "Qtune.Autotuner.crash_recovery"
   ],
   "note": "False for older files; crash_recovery is the version for the newest file."
  },
  {
   "property": "C77",
   "status": "proved",
   "theorems": [
    "Qtune.SensingDot.sensing_dot_recovery",
    "Qtune.SensingDot.sensing_dot_next"
   ],
   "note": "For every history of calls."
  },
  {
   "property": "C78",
   "status": "partial",
   "theorems": [
    "Qtune.Newton.missing_gradient_refuted"
   ],
   "note": "False: the unknown gradient is missing in the Jacobian and lstsq raises LinAlgError."
  },
  {
   "property": "C79",
   "status": "partial",
   "theorems": [
    "Qtune.Gradient.request_first_refuted"
   ],
   "note": "False in every dimension: the same point is requested n+1 times."
  },
  {
   "property": "C80",
   "status": "partial",
   "theorems": [
    "Qtune.Gradient.subset_protocol_refuted"
   ],
   "note": "False for every strict subset: ValueError after as many requests as there are gates in the subset."
  },
  {
   "property": "C81",
   "status": "proved",
   "theorems": [
    "Qtune.NelderMead.nelder_mead_best_kept"
   ],
   "note": ""
  },
  {
   "property": "C82",
   "status": "partial",
   "theorems": [
    "Qtune.NelderMead.mirror_image_refuted",
    "Qtune.NelderMead.mirror_image_of_worst_refuted"
   ],
   "note": "False in every dimension: the worst point is included in the mean. The theorem gives the suggested point."
  },
  {
   "property": "C83",
   "status": "proved",
   "theorems": [
    "Qtune.NelderMead.build_up_general_position"
   ],
   "note": ""
  },
  {
   "property": "C84",
   "status": "partial",
   "theorems": [
    "Qtune.Kalman.tuned_request_partial",
    "Qtune.Kalman.tuned_request_bound_partial",
    "Qtune.Kalman.tuned_request_refuted",
    "Qtune.Kalman.tuned_request_free_refuted"
   ],
   "note": "Proved for one free direction. With several, if nothing is requested, the variance is at most the limit times the sum of the squared lengths of the vectors of the null space. False of every Jacobian with two or more free directions: only the basis vectors of the null space are checked."
  },
  {
   "property": "C85",
   "status": "partial",
   "theorems": [
    "Qtune.Kalman.change_position_partial",
    "Qtune.Kalman.change_position_refuted",
    "Qtune.Kalman.change_position_moves_refuted"
   ],
   "note": "False: change_position keeps the value of the old position. Proved exactly when: the estimate stays if the new position has the same value, and it moves for every other change of the position unless the estimator is certain about the direction of the next step."
  },
  {
   "property": "C86",
   "status": "proved",
   "theorems": [
    "Qtune.Kalman.kalman_reload"
   ],
   "note": ""
  },
  {
   "property": "C87",
   "status": "partial",
   "theorems": [
    "Qtune.Kalman.infinite_limit_partial",
    "Qtune.Kalman.infinite_limit_refuted"
   ],
   "note": "Proved for gates that are not correlated with the others: they never cause a measurement, and if their variances differ from those of the others they are not moved either. False: correlations with other gates make the ignored gate count, and it is moved."
  },
  {
   "property": "C88",
   "status": "proved",
   "theorems": [
    "Qtune.Signal.find_steepest_ok"
   ],
   "note": ""
  },
  {
   "property": "C89",
   "status": "partial",
   "theorems": [
    "Qtune.Signal.find_lead_data_partial",
    "Qtune.Signal.find_lead_data_refuted",
    "Qtune.Signal.find_lead_keeps_data_refuted"
   ],
   "note": "False: the array is changed in place. Proved: the end of the array is kept and the result is that of the copying function."
  },
  {
   "property": "C90",
   "status": "proved",
   "theorems": [
    "Qtune.Evaluator.lead_transition_positions"
   ],
   "note": ""
  },
  {
   "property": "C91",
   "status": "partial",
   "theorems": [
    "Qtune.Evaluator.lead_transition_names_partial",
    "Qtune.Evaluator.lead_transition_names_refuted"
   ],
   "note": "False for the evaluators of the tutorial. Proved if the parameters are named after the shifting gates."
  },
  {
   "property": "C92",
   "status": "proved",
   "theorems": [
    "Qtune.Evaluator.averaging_single"
   ],
   "note": ""
  },
  {
   "property": "C93",
   "status": "proved",
   "theorems": [
    "Qtune.Evaluator.line_lead_range"
   ],
   "note": ""
  },
  {
   "property": "C94",
   "status": "partial",
   "theorems": [
    "Qtune.Evaluator.sensing_dot_2d_partial",
    "Qtune.Evaluator.sensing_dot_2d_refuted"
   ],
   "note": "False: the flanks are exchanged. Proved with exchanged flanks; fails exactly for lines with fewer than 25 points."
  },
  {
   "property": "C95",
   "status": "partial",
   "theorems": [
    "Qtune.Matlab.qqd_limits_partial",
    "Qtune.Matlab.qqd_limits_refuted",
    "Qtune.Matlab.nan_passes_limits_refuted"
   ],
   "note": "False for NaN, which passes all comparisons. Proved for all histories of calls without NaN."
  },
  {
   "property": "C96",
   "status": "partial",
   "theorems": [
    "Qtune.Matlab.dqd_limits_partial",
    "Qtune.Matlab.dqd_limits_refuted"
   ],
   "note": "False: the sensor gates have no lower limit. Proved for the dot gates and the upper limit of the sensor gates, for all histories."
  },
  {
   "property": "C97",
   "status": "partial",
   "theorems": [
    "Qtune.Matlab.abs_limit_partial",
    "Qtune.Matlab.abs_limit_refuted"
   ],
   "note": "False: the lower limit is compared with the step. Proved: the upper limit."
  },
  {
   "property": "C98",
   "status": "proved",
   "theorems": [
    "Qtune.Matlab.sensing_dot_limits"
   ],
   "note": ""
  },
  {
   "property": "C99",
   "status": "partial",
   "theorems": [
    "Qtune.Matlab.retune_qpc_partial",
    "Qtune.Matlab.retune_qpc_refuted"
   ],
   "note": "False for other gates than SDB2. Proved for SDB2."
  },
  {
   "property": "C100",
   "status": "partial",
   "theorems": [
    "Qtune.Matlab.iterate_view",
    "Qtune.Matlab.Views.struct_view_iterates_partial",
    "Qtune.Matlab.Views.cell_elements_refuted"
   ],
   "note": "The indices are right (iterate_view), and iterating over struct arrays gives their elements. False for cells, because the index is sent to MATLAB as a text in quotation marks."
  },
  {
   "property": "C101",
   "status": "proved",
   "theorems": [
    "Qtune.TestExperiment.read_after_set"
   ],
   "note": ""
  },
  {
   "property": "C102",
   "status": "partial",
   "theorems": [
    "Qtune.TestExperiment.initial_voltages_partial",
    "Qtune.TestExperiment.initial_voltages_refuted",
    "Qtune.TestExperiment.initial_voltages_always_refuted"
   ],
   "note": "False: the Series is changed in place. Proved for gates that are never set."
  },
  {
   "property": "C103",
   "status": "proved",
   "theorems": [
    "Qtune.Autotuner.Reload.construct_voltages"
   ],
   "note": ""
  },
  {
   "property": "C104",
   "status": "partial",
   "theorems": [
    "Qtune.SensingDot.history_evaluators_partial",
    "Qtune.SensingDot.history_evaluators_refuted"
   ],
   "note": "False after a failed scan that follows an expensive one: the flag survives. Proved for scans without NaN."
  },
  {
   "property": "C105",
   "status": "partial",
   "theorems": [
    "Qtune.EndToEnd.request_keeps_tuned_parameters_partial",
    "Qtune.EndToEnd.request_keeps_tuned_parameters_refuted"
   ],
   "note": "Proved if epsilon is the same for all gates of the solver. False otherwise: for all gradients that depend on both of two gates and all pairs of different step widths."
  },
  {
   "property": "C106",
   "status": "partial",
   "theorems": [
    "Qtune.Ready.estimators_ready_partial",
    "Qtune.Ready.ready_newton_step_kalman",
    "Qtune.Ready.ready_newton_step_fd",
    "Qtune.Ready.estimators_ready_refuted",
    "Qtune.Ready.estimators_ready_raises_refuted"
   ],
   "note": "Proved: if it is True, every Newton solver makes a Newton step next, for Kalman estimators also if parameters are tuned already. The other direction is false: parameters without set point are asked too, and estimators without a position raise. Proved if all parameters have set points."
  },
  {
   "property": "C107",
   "status": "partial",
   "theorems": [
    "Qtune.Ready.query_effect_partial",
    "Qtune.Ready.query_no_effect_kalman",
    "Qtune.Ready.query_effect_refuted"
   ],
   "note": "False for the requested measurements of finite difference estimators, which are saved. Proved for everything else, for all histories."
  },
  {
   "property": "C108",
   "status": "proved",
   "theorems": [
    "Qtune.NelderMead.moves_after_reflection",
    "Qtune.NelderMead.moves_end"
   ],
   "note": ""
  },
  {
   "property": "C109",
   "status": "proved",
   "theorems": [
    "Qtune.NelderMead.shrink_suggestions"
   ],
   "note": ""
  },
  {
   "property": "C110",
   "status": "proved",
   "theorems": [
    "Qtune.Newton.constructor_checks",
    "Qtune.Newton.construct_checks",
    "Qtune.Newton.sound_forever"
   ],
   "note": ""
  },
  {
   "property": "C111",
   "status": "proved",
   "theorems": [
    "Qtune.EndToEnd.affine_device_is_tuned_limited"
   ],
   "note": "The maximal step has to be at least twice the step of the finite differences: requests that are sliced are not covered (see C20)."
  },
  {
   "property": "C112",
   "status": "proved",
   "theorems": [
    "Qtune.EndToEnd.affine_device_is_tuned_kalman"
   ],
   "note": "For the same maximum covariance for all gates and a filter without process noise."
  },
  {
   "property": "C113",
   "status": "partial",
   "theorems": [
    "Qtune.Evaluator.Fit.failed_fit_partial",
    "Qtune.Evaluator.Fit.failed_fit_refuted",
    "Qtune.Evaluator.Fit.nan_data_refuted"
   ],
   "note": "False of the evaluators of the tunnel times, and of NaN in the data. Proved for InterDotTCByLineScan and NewLoadTime if the fit routine does not converge."
  },
  {
   "property": "C114",
   "status": "partial",
   "theorems": [
    "Qtune.Evaluator.Fit.fit_names_partial",
    "Qtune.Evaluator.Fit.fit_names_refuted"
   ],
   "note": "False: the names are fixed in the code. Proved for the default names."
  },
  {
   "property": "C115",
   "status": "partial",
   "theorems": [
    "Qtune.Evaluator.Fit.data_stored_partial",
    "Qtune.Evaluator.Fit.recalculation_partial",
    "Qtune.Evaluator.Fit.recalculation_refuted"
   ],
   "note": "False of NewLoadTime and the evaluators of the tunnel times. Proved for InterDotTCByLineScan."
  },
  {
   "property": "C116",
   "status": "partial",
   "theorems": [
    "Qtune.Evaluator.Fit.emphasis_partial",
    "Qtune.Evaluator.Fit.emphasis_refuted",
    "Qtune.Evaluator.Fit.emphasis_edges_refuted"
   ],
   "note": "False: the position is calculated with a wrong scale. Proved for transitions near the centre of a scan around 0."
  },
  {
   "property": "C117",
   "status": "partial",
   "theorems": [
    "Qtune.Evaluator.Fit.lead_times_v1",
    "Qtune.Evaluator.Fit.lead_times_v2_partial",
    "Qtune.Evaluator.Fit.lead_times_v2_refuted"
   ],
   "note": "Proved for func_lead_times_v1. func_lead_times_v2 jumps, and starts at the wrong level if the first edge is not at time 0."
  },
  {
   "property": "C118",
   "status": "proved",
   "theorems": [
    "Qtune.Evaluator.Fit.fitted_times"
   ],
   "note": "For fit routines that respect their bounds."
  },
  {
   "property": "C119",
   "status": "proved",
   "theorems": [
    "Qtune.EndToEnd.hierarchy_is_tuned",
    "Qtune.EndToEnd.hierarchy_is_tuned_fd"
   ],
   "note": "For Kalman estimators that know the gradients and finite difference estimators that have measured them. Without maximal step sizes within 4K + K(K-1)/2 iterations for K tuners."
  },
  {
   "property": "C120",
   "status": "proved",
   "theorems": [
    "Qtune.Kalman.requests_end",
    "Qtune.Kalman.requests_end_certain"
   ],
   "note": "Histories without restart()."
  },
  {
   "property": "C121",
   "status": "proved",
   "theorems": [
    "Qtune.EndToEnd.learns_and_tunes",
    "Qtune.EndToEnd.learns_and_tunes_finally"
   ],
   "note": "Without a maximal step size; common limit and step width."
  },
  {
   "property": "C122",
   "status": "proved",
   "theorems": [
    "Qtune.Kalman.fading_error",
    "Qtune.Kalman.fading_forgets",
    "Qtune.Kalman.never_forgets_refuted"
   ],
   "note": "Without process noise and with the identity as state transition; the refutation shows that the default filter has no such bound."
  },
  {
   "property": "C123",
   "status": "proved",
   "theorems": [
    "Qtune.Kalman.silent_forever",
    "Qtune.Kalman.asks_again"
   ],
   "note": "Common limit for all gates."
  },
  {
   "property": "C124",
   "status": "partial",
   "theorems": [
    "Qtune.Kalman.suggestion_partial",
    "Qtune.Kalman.stays_uncoupled",
    "Qtune.Kalman.suggestion_refuted"
   ],
   "note": "False for coupled errors of several values: the first part of the eigenvector that is not zero is returned, however small it is (`suggestion_refuted`)."
  },
  {
   "property": "C125",
   "status": "proved",
   "theorems": [
    "Qtune.EndToEnd.nearly_affine_device_is_tuned",
    "Qtune.EndToEnd.nearly_affine_device_is_tuned_eventually"
   ],
   "note": "Errors of the evaluators are the same whenever the voltages are the same; the estimators are one-sided."
  },
  {
   "property": "C126",
   "status": "proved",
   "theorems": [
    "Qtune.EndToEnd.noisy_device_is_tuned",
    "Qtune.EndToEnd.noisy_device_is_tuned_eventually"
   ],
   "note": "The evaluators return values in every evaluation; the estimators are one-sided."
  },
  {
   "property": "C127",
   "status": "proved",
   "theorems": [
    "Qtune.EndToEnd.flaky_device_is_tuned",
    "Qtune.EndToEnd.flaky_device_is_tuned_eventually",
    "Qtune.EndToEnd.flaky_device_is_tuned_kalman",
    "Qtune.EndToEnd.first_failure_is_fatal"
   ],
   "note": "An evaluation that fails returns NaN; exceptions of evaluators end `iterate` (C06)."
  },
  {
   "property": "C128",
   "status": "partial",
   "theorems": [
    "Qtune.EndToEnd.increasing_device_is_tuned_refuted",
    "Qtune.EndToEnd.increasing_device_is_tuned_partial",
    "Qtune.EndToEnd.slopes_within_factor_two_partial",
    "Qtune.EndToEnd.kinked_continuous",
    "Qtune.EndToEnd.kinked_strictMono"
   ],
   "note": "False: the gradient is measured once and never again, so that a kink at which the slope at least doubles makes the tuning oscillate for ever; refuted for all such slopes, set points, starts and tolerances. Proved for all devices whose steepest slope is less than twice the flattest one."
  },
  {
   "property": "C129",
   "status": "partial",
   "theorems": [
    "Qtune.Storage.background_file_thread_partial",
    "Qtune.Storage.background_file_process_partial",
    "Qtune.Storage.background_file_process_refuted"
   ],
   "note": "False in process mode (the default of the class; Autotuner uses thread mode): Experiment.__deepcopy__ returns an integer, pickle does not keep the identity of integers, so that the worker does not recognise the experiment and stores a number. Proved in thread mode for all graphs, and in process mode if no reserved object is an experiment."
  },
  {
   "property": "C130",
   "status": "partial",
   "theorems": [
    "Qtune.Evaluator.sensing_dot_1d_refuted",
    "Qtune.Evaluator.sensing_dot_1d_partial",
    "Qtune.Evaluator.sensing_dot_1d_signal_refuted"
   ],
   "note": "False: no evaluation returns, since the index of the current signal is a float (and np.polynomial has no poly1d). Proved: which exception it is, and that options, raw data and the steepest position are stored before; the stored signal is the best slope of the whole scan and need not be the one at that position."
  },
  {
   "property": "C131",
   "status": "partial",
   "theorems": [
    "Qtune.EndToEnd.interrupted_tuning_completes_partial",
    "Qtune.EndToEnd.interrupted_tuning_refuted",
    "Qtune.EndToEnd.crashes_do_not_matter"
   ],
   "note": "Proved with Kalman estimators. False with finite difference estimators: for every device of C75 no file that the autotuner writes can be loaded, the constructor of the estimator raises AssertionError (C42). Needed: columns of the target that are filled for all parameters or for none (C25)."
  },
  {
   "property": "C132",
   "status": "partial",
   "theorems": [
    "Qtune.EndToEnd.symmetric_estimators_partial",
    "Qtune.EndToEnd.symmetric_estimators_refuted"
   ],
   "note": "Proved if the estimators are created without a position, with and without maximal step size. False if they are created with the position at which the tuning starts, which the constructor offers as current_position: for every device, affine or not, exactly 6n - 3 calls succeed and the next raises EvaluationError (unless set points are met on the way)."
  },
  {
   "property": "C133",
   "status": "partial",
   "theorems": [
    "Qtune.EndToEnd.hierarchy_from_scratch_partial",
    "Qtune.EndToEnd.hierarchy_from_scratch_refuted"
   ],
   "note": "False for two or more tuners: for every such device, unless the first tuner is tuned within the steps of the finite differences, exactly 3n + 1 calls succeed and the next raises LinAlgError (the Jacobian has no rows for the parameters of the other tuners). Proved if the estimators of the other tuners have found their gradients."
  },
  {
   "property": "C134",
   "status": "proved",
   "theorems": [
    "Qtune.EndToEnd.rough_hierarchy_is_tuned",
    "Qtune.EndToEnd.rough_hierarchy_is_tuned_finally"
   ],
   "note": "With exact measurements (the estimators assume the reported variances). Unlike C119 the gradients are wrong, so that every Newton step and every requested measurement may disturb the other tuners; a requested measurement is only taken by the estimator that has asked for it if the tuners before are still tuned."
  },
  {
   "property": "C135",
   "status": "partial",
   "theorems": [
    "Qtune.EndToEnd.operator_may_intervene_partial",
    "Qtune.EndToEnd.operator_may_intervene_fd_partial",
    "Qtune.EndToEnd.operator_may_intervene_refuted",
    "Qtune.EndToEnd.queued_forever"
   ],
   "note": "Proved for tuners without maximal step size. False with a maximal step size: if the set point is changed while steps are queued so that the step to the new one is not longer than the maximal step size, the number of queued steps is never reduced again; nothing is evaluated any more and the voltages grow beyond all bounds without an exception (queued_forever: for every such tuner)."
  },
  {
   "property": "C136",
   "status": "partial",
   "theorems": [
    "Qtune.Matlab.call_arguments_partial",
    "Qtune.Matlab.call_arguments_refuted",
    "Qtune.Matlab.call_leaves_views_partial",
    "Qtune.Matlab.call_leaves_views_refuted",
    "Qtune.Matlab.results_stay_valid_partial",
    "Qtune.Matlab.outcomes_stay_valid_partial",
    "Qtune.Matlab.results_stay_valid_refuted",
    "Qtune.Matlab.cleared_results_stay_invalid",
    "Qtune.Matlab.calls_accumulate"
   ],
   "note": "Proved if no argument is a view that reads the variable temp, for all variables except temp, and until clear_all_temporary_data is called. False otherwise: plain arguments are passed through the variable temp of the base workspace, which overwrites it and makes a view on it show the wrong value; clearing the data of one function view invalidates the results of all. The data of every call stay in MATLAB, also of failed calls."
  },
  {
   "property": "C137",
   "status": "partial",
   "theorems": [
    "Qtune.Matlab.connect_finds_session_partial",
    "Qtune.Matlab.connect_started_refuted",
    "Qtune.Matlab.connect_reused_refuted"
   ],
   "note": "Proved for all histories in which the program does not start sessions itself and names are not used again. False for a session that the program has started (it is registered by its process id only, so that connecting by name raises) and for a name that is used again after the session has ended (the engine of the dead session is returned)."
  },
  {
   "property": "C138",
   "status": "partial",
   "theorems": [
    "Qtune.History.reload_path_partial",
    "Qtune.History.known_gradients_append",
    "Qtune.History.reload_path_refuted",
    "Qtune.EndToEnd.fresh_estimators_history_refuted"
   ],
   "note": "Proved if no append raises, which holds for runs of the autotuner if all gradients are known. False otherwise: while a gradient is missing append_autotuner raises TypeError after it has stored the path, so that every later row gets the file of an earlier point. With finite difference estimators that have measured nothing this happens to the first appends of every tuning (fresh_estimators_history_refuted: every device, every number of tuners)."
  },
  {
   "property": "C139",
   "status": "partial",
   "theorems": [
    "Qtune.Gui.Reload.reload_voltages_partial",
    "Qtune.Gui.Reload.reload_state_partial",
    "Qtune.Gui.Reload.typed_number_has_row",
    "Qtune.Gui.Reload.neighbouring_rows_differ",
    "Qtune.Gui.Reload.last_row_is_current",
    "Qtune.Gui.Reload.new_window_refuted",
    "Qtune.Gui.Reload.others_abandoned",
    "Qtune.Gui.Reload.abandoned_window_refuted"
   ],
   "note": "Proved for windows in which a number was typed, while no other window reloads a state. False otherwise: a new window shows 1 but acts on row 0, and after a state was reloaded in one window the others restart the abandoned autotuner, so that the current one overwrites the reloaded voltages with the ones it was about to set. Buttons pressed while the worker runs: see C142."
  },
  {
   "property": "C140",
   "status": "partial",
   "theorems": [
    "Qtune.History.load_directory_partial",
    "Qtune.History.load_directory_run_partial",
    "Qtune.History.load_directory_refuted"
   ],
   "note": "Proved without reloads. False otherwise: a reloaded autotuner saves into a new directory inside the old one (C14), and as soon as it has saved anything History(directory) raises, because a directory is not an HDF5 file. Assumes that all writes have succeeded."
  },
  {
   "property": "C141",
   "status": "partial",
   "theorems": [
    "Qtune.History.get_gradient_variances_partial",
    "Qtune.History.get_gradient_variances_refuted"
   ],
   "note": "False: the name of the parameter is not anchored, so that the variances of every parameter whose name ends with p are returned as well (for all such names). Proved for names none of which ends with another."
  },
  {
   "property": "C142",
   "status": "partial",
   "theorems": [
    "Qtune.Autotuner.completion_between_iterations_partial",
    "Qtune.Autotuner.written_between_iterations_partial",
    "Qtune.Autotuner.restart_during_evaluation_refuted",
    "Qtune.Autotuner.restart_during_suggestion_refuted",
    "Qtune.Autotuner.begin_end_eq_iterate"
   ],
   "note": "False, for every hierarchy: iterate increments the index or stores the new voltages after the restart, so that the tuning can be reported complete at voltages at which nothing was evaluated, or the voltages of the user are overwritten. Proved for all schedules in which the other threads act only while no call of iterate is running. Interruptions inside the two halves of iterate are not modelled."
  },
  {
   "property": "C143",
   "status": "partial",
   "theorems": [
    "Qtune.Evaluator.Fit.load_curve_of_exact_data",
    "Qtune.Evaluator.Fit.load_time_of_exact_data",
    "Qtune.Evaluator.Fit.tunnel_coupling_of_exact_data",
    "Qtune.Evaluator.Fit.prefit_of_exact_data",
    "Qtune.Evaluator.Fit.scan_of_exact_data",
    "Qtune.Evaluator.Fit.prefit_true_times",
    "Qtune.Evaluator.Fit.scan_true_times",
    "Qtune.Evaluator.Fit.tunnel_coupling_true_partial",
    "Qtune.Evaluator.Fit.tunnel_coupling_sign_refuted",
    "Qtune.Evaluator.Fit.tunnel_times_swapped_refuted"
   ],
   "note": "The load time is the true one if three different times were measured. The tunnel times are the true ones if at least two points lie before the rise of the response, nine between rise and fall and eight after the fall, for both evaluators of tunnel times. The width of a transition is the true one except for its sign if the scan has at least eight points. For shorter scans the reported numbers belong to a curve that agrees with all measured values. False of InterDotTCByLineScan: the sign of the width is not determined by the data and nothing in the code makes it positive, there is an exact fit routine that gives negative widths for all transitions. False of LeadTunnelTimePrefitVersion for scans that begin with the rise and last exactly one period: rise and fall may be exchanged."
  },
  {
   "property": "C144",
   "status": "proved",
   "theorems": [
    "Qtune.EndToEnd.caught_exceptions_are_harmless",
    "Qtune.EndToEnd.interrupted_call_changes_nothing",
    "Qtune.EndToEnd.tuned_despite_exceptions",
    "Qtune.SensingDot.cheap_evaluator_raises",
    "Qtune.SensingDot.expensive_evaluator_raises"
   ],
   "note": "For hierarchies of SubsetTuners with Newton solvers, any estimators and any lstsq. For a SensingDotTuner per call: the state is that of an interrupted call. Saving may fail too."
  },
  {
   "property": "C145",
   "status": "partial",
   "theorems": [
    "Qtune.Gui.Raw.raw_window_refuted",
    "Qtune.Gui.Raw.new_window_refuted",
    "Qtune.Gui.Raw.raw_window_partial",
    "Qtune.Gui.Raw.windows_disagree"
   ],
   "note": "False, for all histories with different data: the picture is the one of the row before the displayed number, and of the last row for the number 0. The reload window, which displays the same kind of number, acts on the row with this number. Proved: the picture belongs to some row, and every row can be shown."
  },
  {
   "property": "C146",
   "status": "partial",
   "theorems": [
    "Qtune.History.raw_data_aligned_partial",
    "Qtune.History.raw_data_aligned_refuted",
    "Qtune.History.raw_data_shifted_refuted"
   ],
   "note": "Proved if all tuners have the same evaluators with data in all appended autotuners and a tuner was evaluated whenever the voltages changed. False otherwise: an evaluator without column in the table raises KeyError, and a row for which nothing was evaluated has no row of raw data."
  },
  {
   "property": "C147",
   "status": "partial",
   "theorems": [
    "Qtune.EndToEnd.rows_measured_partial",
    "Qtune.EndToEnd.rows_measured_refuted"
   ],
   "note": "Proved for hierarchies of SubsetTuners without maximal step size whose tuners were not evaluated before. False with a maximal step size: a row that is added while steps are queued has the new voltages but the values of the voltages before."
  },
  {
   "property": "C148",
   "status": "partial",
   "theorems": [
    "Qtune.Matlab.gates_stay_partial",
    "Qtune.Matlab.gates_stay_refuted",
    "Qtune.Matlab.failed_scan_refuted",
    "Qtune.Matlab.failed_line_scan_stays"
   ],
   "note": "Proved for all gates but RFA and RFB, for all sequences of measurements that do not fail. False of RFA and RFB: line scans, scans of the detuning and lead scans set both to zero afterwards, although they are gates that can be tuned. A scan that fails leaves the swept gate where it is. smrun is assumed to move only the channels of the scan and to call the cleanup functions at the end."
  },
  {
   "property": "C149",
   "status": "partial",
   "theorems": [
    "Qtune.Matlab.line_scan_as_asked",
    "Qtune.Matlab.scan_needs_options",
    "Qtune.Matlab.line_scan_axis",
    "Qtune.Matlab.detune_scan_partial",
    "Qtune.Matlab.detune_scan_refuted",
    "Qtune.Matlab.scan_2d_partial",
    "Qtune.Matlab.scan_2d_ramp",
    "Qtune.Matlab.scan_2d_refuted",
    "Qtune.Matlab.lead_load_refuted"
   ],
   "note": "Proved for line scans and for scans of the detuning by the DecaDAC. False: a scan of the detuning by the AWG, the default of InterDotTCByLineScan, ignores center, range, number of points and time; every other value of AWGorDecaDAC raises; a 2D scan always sweeps SDB1 and SDB2 around their present voltages with a number of points that does not depend on the option; lead and load scans ignore their options."
  },
  {
   "property": "C150",
   "status": "partial",
   "theorems": [
    "Qtune.Evaluator.PassThru.pass_thru_partial",
    "Qtune.Evaluator.PassThru.first_evaluation_partial",
    "Qtune.Evaluator.PassThru.pass_thru_lines_partial",
    "Qtune.Evaluator.PassThru.file_names_recorded",
    "Qtune.Evaluator.PassThru.pass_thru_refuted",
    "Qtune.Evaluator.PassThru.line_last_refuted",
    "Qtune.Evaluator.PassThru.line_first_refuted",
    "Qtune.Evaluator.PassThru.interrupted_estimate_refuted"
   ],
   "note": "Proved if no measurement is a line, or all are, for an experiment that has get_last_file_name. False: SMTuneQQD has no such method, every evaluation raises AttributeError; line measurements together with others shift variances and residuals or drop values; if a measurement fails during the estimate of the variances, all later variances are NaN."
  },
  {
   "property": "C151",
   "status": "proved",
   "theorems": [
    "Qtune.EndToEnd.sensed_hierarchy_is_tuned",
    "Qtune.EndToEnd.sensed_hierarchy_is_tuned_fd",
    "Qtune.EndToEnd.sensed_hierarchy_crosstalk_refuted"
   ],
   "note": "Without maximal step sizes at most 3R + 1 + (5 + 3R)K + K(K - 1)/2 calls for K tuners above the dot. The last theorem shows that the condition on the gates of the dot is needed: a device where the set point can be met with a sensitive dot, but every step spoils it."
  },
  {
   "property": "C152",
   "status": "partial",
   "theorems": [
    "Qtune.Gui.Plot.plot_shows_selection_partial",
    "Qtune.Gui.Plot.plot_same_name_refuted",
    "Qtune.Gui.Plot.plot_missing_gradient_refuted"
   ],
   "note": "Proved for names of gates and parameters that differ and contain no #, no gate called err_bar, and a history that has tables of all gradients. False otherwise: a gate with the name of an unselected parameter is not shown, and a gradient that is missing stops the refresh although it is not selected. Colours and the legend are not modelled."
  },
  {
   "property": "C153",
   "status": "partial",
   "theorems": [
    "Qtune.Matlab.Path.own_files_are_used_partial",
    "Qtune.Matlab.Path.own_files_are_found",
    "Qtune.Matlab.Path.other_directories_stay",
    "Qtune.Matlab.Path.not_found_is_reported",
    "Qtune.Matlab.Path.missing_package_refuted"
   ],
   "note": "Proved if the directory of this installation contains the MATLAB files. False otherwise: the last check only asks whether some package qtune is found, so the construction ends well with the other files. addpath and the search of MATLAB are modelled by a list of directories."
  },
  {
   "property": "C154",
   "status": "partial",
   "theorems": [
    "Qtune.Matlab.Tune.options_reach_tune_partial",
    "Qtune.Matlab.Tune.unknown_measurement_rejected",
    "Qtune.Matlab.Tune.numpy_text_refuted",
    "Qtune.Matlab.Tune.reserved_option_refuted"
   ],
   "note": "Proved for options without complex numbers and text of numpy types that have an index. False: text of a numpy type raises ValueError after options before it have been converted; an option called measurement_name raises TypeError."
  },
  {
   "property": "C155",
   "status": "partial",
   "theorems": [
    "Qtune.History.Figure.evaluator_figures_partial",
    "Qtune.History.Figure.drawn_by_name",
    "Qtune.History.Figure.unknown_neighbours_refuted",
    "Qtune.History.Figure.empty_row_refuted",
    "Qtune.History.Figure.caller_list_refuted",
    "Qtune.Gui.Picture.averaging_figure_refuted"
   ],
   "note": "Proved if no two unknown names follow each other and every row has data. False: of two unknown names that follow each other the second stays in the list, which causes a KeyError; a row without data raises ValueError; unknown names are removed from the list of the caller. For averaging evaluators there is always a KeyError. What is drawn into the axes is the subject of C164."
  },
  {
   "property": "C156",
   "status": "partial",
   "theorems": [
    "Qtune.History.get_gradient_covariances_labels_partial",
    "Qtune.History.get_gradient_covariances_sorted_partial",
    "Qtune.History.get_gradient_covariances_values",
    "Qtune.History.get_gradient_covariances_refuted",
    "Qtune.History.no_covariances_refuted"
   ],
   "note": "The labels are proved for names as in C141. False for every history: the columns are looked up by the pairs of gates although they have other names, so that all values are NaN; without covariances there is a TypeError."
  },
  {
   "property": "C157",
   "status": "partial",
   "theorems": [
    "Qtune.Evaluator.lead_transition_located_partial",
    "Qtune.Evaluator.lead_transition_scaled_refuted",
    "Qtune.Evaluator.lead_transition_other_range_refuted",
    "Qtune.Evaluator.lead_transition_window",
    "Qtune.Signal.transition_found",
    "Qtune.Signal.tanh_peaked"
   ],
   "note": "Proved if all scans have the same range, center and number of points. False otherwise: the positions of all scans are read off the axis of the first scan, so that distances from the center are scaled by the ratio of the ranges."
  },
  {
   "property": "C158",
   "status": "proved",
   "theorems": [
    "Qtune.EndToEnd.local_device_is_tuned"
   ],
   "note": "What the evaluators do outside of the region does not matter: the proof compares with a device whose evaluators work everywhere. Evaluators do not move the gates."
  },
  {
   "property": "C159",
   "status": "proved",
   "theorems": [
    "Qtune.EndToEnd.lead_transitions_are_tuned",
    "Qtune.EndToEnd.coarse_scan_is_never_tuned"
   ],
   "note": "The scans of all transitions have the same settings apart from the gate (see C157). Combination of the models of LeadTransition, the index search, SubsetTuner, NewtonSolver, the finite difference estimator and Autotuner. transition_simulation with the default settings meets the hypotheses."
  },
  {
   "property": "C160",
   "status": "partial",
   "theorems": [
    "Qtune.History.TuningPlot.plot_tuning_partial",
    "Qtune.History.TuningPlot.single_gradient_refuted",
    "Qtune.History.TuningPlot.unknown_parameter_refuted",
    "Qtune.History.TuningPlot.lead_times_refuted",
    "Qtune.History.TuningPlot.parameter_texts_partial",
    "Qtune.History.TuningPlot.titles_refuted",
    "Qtune.History.TuningPlot.documented_mode_refuted",
    "Qtune.History.TuningPlot.gradient_window_refuted",
    "Qtune.History.TuningPlot.gradient_window_missing_refuted"
   ],
   "note": "Proved if the history has all columns, parameter_information has texts for all parameters and at least two gradients or none are asked for. False otherwise: a single gradient raises TypeError (subplots returns one axes, not an array), a parameter without text raises KeyError, among them the default names of the evaluators of lead tunnel times, the mode with_par_variences of the docstring is ignored, the window with one gradient is empty until the second refresh, and with a parameter without gradient it is always empty."
  },
  {
   "property": "C161",
   "status": "partial",
   "theorems": [
    "Qtune.Gui.session_is_loop",
    "Qtune.Gui.start_completes",
    "Qtune.Gui.start_stops_at_exception",
    "Qtune.Gui.start_tunes",
    "Qtune.Gui.start_tunes_affine_device",
    "Qtune.Gui.start_tunes_double_dot",
    "Qtune.Gui.start_fresh_history_refuted"
   ],
   "note": "Combination of the models of the worker, the autotuner, the history and (with C75 and C165) affine devices and double dots. False with a history and finite difference estimators that have measured nothing: append_autotuner raises in each of the first n calls (TypeError, see C138), so that each Start gives a single call of iterate. The scheduler gives the worker enough steps; iterate is one step of the worker."
  },
  {
   "property": "C162",
   "status": "partial",
   "theorems": [
    "Qtune.Gui.steps_at_most_ordered_partial",
    "Qtune.Gui.step_exactly_one",
    "Qtune.Gui.step_lost_refuted"
   ],
   "note": "At most one call for each press is proved for all schedules, exactly one if the worker is idle. False: a step that is ordered while the previous one is executed is lost, since the worker clears the flag at the end."
  },
  {
   "property": "C163",
   "status": "partial",
   "theorems": [
    "Qtune.Gui.Buttons.buttons_right_partial",
    "Qtune.Gui.Buttons.orders_partial",
    "Qtune.Gui.Buttons.cannot_pause_refuted",
    "Qtune.Gui.Buttons.lost_start_refuted"
   ],
   "note": "Proved if the worker does not call pause while the other thread executes a method. False otherwise: if Start is pressed while a step ends with an exception or completion, the worker may go on tuning with Pause disabled, or wait with Start and Step disabled. All reads of Qt are left out; the worker lives."
  },
  {
   "property": "C164",
   "status": "partial",
   "theorems": [
    "Qtune.Gui.Picture.coupling_picture_partial",
    "Qtune.Gui.Picture.tunnel_times_picture_partial",
    "Qtune.Gui.Picture.load_time_picture_partial",
    "Qtune.Gui.Picture.transition_picture_partial",
    "Qtune.Gui.Picture.sensing_dot_1d_picture_partial",
    "Qtune.Gui.Picture.averaging_picture_partial",
    "Qtune.Gui.Picture.tunnel_times_picture_refuted",
    "Qtune.Gui.Picture.load_time_window_refuted",
    "Qtune.Gui.Picture.transition_window_refuted",
    "Qtune.Gui.Picture.two_points_refuted",
    "Qtune.Gui.Picture.sensing_dot_1d_figure_refuted",
    "Qtune.Gui.Picture.sensing_dot_2d_window_refuted",
    "Qtune.Gui.Picture.averaging_figure_refuted",
    "Qtune.Gui.Picture.other_names_refuted",
    "Qtune.Gui.Picture.list_of_axes"
   ],
   "note": "Proved for InterDotTCByLineScan, LeadTunnelTimePrefitVersion, several line scans of LeadTransition (window and figure), NewLoadTime and SensingDot2D (figure), SensingDot1D and averaged couplings (window). False for all data: the curve of LeadTunnelTimeByLeadScan (TypeError, the wrong fit function is called), the windows of load times, of single line scans and of two-dimensional scans (one axes is not a list), the figures of SensingDot1D (an array of axes is not a list) and of all averaging evaluators (KeyError), scans with two points, and all evaluators with other names than the ten in the table."
  },
  {
   "property": "C165",
   "status": "partial",
   "theorems": [
    "Qtune.EndToEnd.double_dot_is_tuned_partial",
    "Qtune.EndToEnd.negative_widths_are_never_tuned_refuted"
   ],
   "note": "Proved for exact data and fit routines that find exact fits, with the additional assumption that the fits of detuning scans return positive widths. Without it false for every device: nothing in the code makes the width positive, and with a fit routine that returns the equally good negative width no tuning with a set point above the tolerance is ever complete. The curves of load_simulation, detune_simulation and transition_simulation meet the hypotheses."
  },
  {
   "property": "C166",
   "status": "partial",
   "theorems": [
    "Qtune.Matlab.nested_arrives_partial",
    "Qtune.Matlab.tuple_arrives_refuted",
    "Qtune.Matlab.text_arrives_refuted",
    "Qtune.Matlab.repeated_label_arrives_refuted"
   ],
   "note": "The values that arrive are characterised exactly: numbers, arrays of one or two dimensions of known types, and lists, sets, dicts and Series without repeated labels of these. False for all others: of a tuple only a generator is returned, a string, truth value or None anywhere raises NotImplementedError, and a Series with a label twice is converted again and again until RecursionError."
  },
  {
   "property": "C167",
   "status": "proved",
   "theorems": [
    "Qtune.History.Parallel.parallel_reading",
    "Qtune.History.Parallel.parallel_reading_ends",
    "Qtune.History.Parallel.parallel_directory"
   ],
   "note": "For threads (as in History). With processes, the default of ParallelHDF5Reader, which qtune does not use, arguments and results are pickled; this is not modelled."
  },
  {
   "property": "C168",
   "status": "proved",
   "theorems": [
    "Qtune.EndToEnd.nearly_affine_device_is_tuned_in_slices",
    "Qtune.EndToEnd.nearly_affine_device_is_tuned_in_slices_eventually"
   ],
   "note": "One-sided estimators, with steps of at most half of the maximal step size; errors of the evaluators are the same whenever the voltages are the same. The roughness has to be less than what a full number of slices gains."
  },
  {
   "property": "C169",
   "status": "partial",
   "theorems": [
    "Qtune.Writer.Process.process_fifo",
    "Qtune.Writer.Process.process_is_thread",
    "Qtune.Writer.Process.process_complete",
    "Qtune.Writer.Process.process_join_partial",
    "Qtune.Writer.Process.process_join_without_failures",
    "Qtune.Writer.Process.process_join_refuted"
   ],
   "note": "Proved if all objects can be pickled: every execution is one of thread mode. Order and completeness after join() are proved for all objects. False otherwise: an object that cannot be pickled is discarded without an exception in the caller, and no later join() or restart() returns, in no schedule (unless the worker dies of a failed write before). The queue of multiprocessing is modelled as buffer, feeder and pipe that is never full; what was pickled can be unpickled."
  },
  {
   "property": "C170",
   "status": "partial",
   "theorems": [
    "Qtune.Autotuner.log_is_silent_partial",
    "Qtune.Autotuner.log_is_silent_subset_partial",
    "Qtune.Autotuner.log_keeps_voltages_from_being_set_refuted",
    "Qtune.Autotuner.log_of_distance_refuted"
   ],
   "note": "Proved for new autotuners whose tuners know the value of at least one parameter; for SubsetTuners this is the case if some parameter has entries in all columns of the target that are used. False otherwise: with a tolerance for one parameter and a minimum for the other no values are kept (see C15), and whenever the parameters are not tuned the message with the distances raises KeyError, after the evaluation and before the state is saved. False for an autotuner that is created with voltages to set and a first tuner with last voltages of other gates: iterate raises KeyError forever. Labels are looked up as by pandas 0.24; newer versions raise KeyError if one of the labels is missing."
  },
  {
   "property": "C171",
   "status": "partial",
   "theorems": [
    "Qtune.Gui.Log.log_window_opens",
    "Qtune.Gui.Log.log_window_shows_partial",
    "Qtune.Gui.Log.log_window_not_set_refuted",
    "Qtune.Gui.Log.log_window_newest"
   ],
   "note": "Proved for the five levels from CRITICAL to DEBUG if setup_default_gui returns. False otherwise: it raises StopIteration exactly if a parent of the loggers, for example the root logger after logging.basicConfig(), has a handler (the loop that removes handlers also sees those of the parents). If NOTSET, the last entry of the list, is selected, then the level of the root logger counts, by default WARNING, so that fewer messages are shown than with INFO. A second gui takes all messages from the first."
  },
  {
   "property": "C172",
   "status": "partial",
   "theorems": [
    "Qtune.Gui.Follow.windows_follow_partial",
    "Qtune.Gui.Follow.raw_data_window_follows_refuted",
    "Qtune.Gui.Follow.silent_change_refuted"
   ],
   "note": "Proved for the windows with curves, parameters and gradients if the signal is emitted after the last change of the history. False for the windows with raw data, which are not connected with the signal: whatever happens, such a window goes on showing the evaluators that were known when it was opened. False if append_autotuner raises after it changed the history: no window shows the change. What a window draws is a parameter; windows whose drawing raises are excepted."
  },
  {
   "property": "C173",
   "status": "proved",
   "theorems": [
    "Qtune.Evaluator.qqd_one_quantity",
    "Qtune.Evaluator.qqd_several_quantities"
   ],
   "note": "If MATLAB returns a single position, QQDCharge gives it to all parameters. QQDSensor1D and QQDSensor2D return NaN for all variances. The range checks of the first two are C93."
  },
  {
   "property": "C174",
   "status": "partial",
   "theorems": [
    "Qtune.Kalman.kalman_numbers_partial",
    "Qtune.Kalman.kalman_numbers_refuted",
    "Qtune.Kalman.nan_model_on_numbers",
    "Qtune.Kalman.nan_update_on_numbers"
   ],
   "note": "Proved if the variances are numbers, too. False otherwise: the first update whose variance is NaN, at a point that is not closer than 1e-7 to the reference point, makes all entries of gradient and covariance NaN, and they stay NaN whatever is measured later, also after a restart. Evaluators that report NaN variances with numbers exist: QQDSensor1D and QQDSensor2D (C173). The last two theorems say that the model with NaN agrees on numbers with the model that C43 to C49 are about."
  },
  {
   "property": "C175",
   "status": "partial",
   "theorems": [
    "Qtune.Storage.Classes.user_class_read_back_partial",
    "Qtune.Storage.Classes.package_class_read_back_partial",
    "Qtune.Storage.Classes.stored_classes_read_back_partial",
    "Qtune.Storage.Classes.quadruple_dot_class_lost_refuted",
    "Qtune.Storage.Classes.failed_definition_refuted"
   ],
   "note": "Proved for the main classes of the package in every session, and for classes of the user if no class of the same name is defined later and the name is not one of the package. False for the classes of sm_tune_qqd, which _import_all does not import: in a session that has not imported the module itself they are read as None with no more than a warning. False if the definition of a class fails because it has no to_hdf5 of its own: the failed class replaces the one with the same name all the same."
  },
  {
   "property": "C176",
   "status": "proved",
   "theorems": [
    "Qtune.Gradient.jacobian_exact_base",
    "Qtune.Gradient.jacobian_exact_pairs",
    "Qtune.Gradient.jacobian_wrong_number",
    "Qtune.Gradient.rows_agree"
   ],
   "note": "rows_agree says that the rows of the matrix are the gradients of calculate_gradient_non_orthogonal (C38), for all devices. Points are arrays of the same size."
  },
  {
   "property": "C177",
   "status": "proved",
   "theorems": [
    "Qtune.Evaluator.sensing_dot_scan_returns",
    "Qtune.Evaluator.sensing_dot_scan_position",
    "Qtune.Evaluator.sensing_dot_scan_failure",
    "Qtune.Evaluator.sensing_dot_scan_unknown_gate"
   ],
   "note": "For a rising flank the slope is the smallest one, see C94. A scan with a single line or with lines of fewer than 25 points is never evaluated. The polynomials are whatever the fit returns; measurements return two-dimensional arrays without NaN."
  },
  {
   "property": "C178",
   "status": "proved",
   "theorems": [
    "Qtune.EndToEnd.scanned_dot_settles",
    "Qtune.EndToEnd.scanned_dot_is_tuned",
    "Qtune.EndToEnd.scanned_dot_is_tuned_fd"
   ],
   "note": "The cheap evaluator is one of the user, as SensingDot1D never returns (C130). Fits may deviate from the data by eps if the flank is steeper by 4 eps than necessary. The cost threshold is not below the minimum, so that a contrast that is too small always leads to a scan. Other tuners as in C151, with Kalman or finite difference estimators that know the gradients; without maximal step sizes at most 4 + 8K + K(K-1)/2 calls for K further tuners."
  },
  {
   "property": "C179",
   "status": "proved",
   "theorems": [
    "Qtune.EndToEnd.local_device_is_tuned_in_slices",
    "Qtune.EndToEnd.double_dot_is_tuned_in_slices"
   ],
   "note": "Assumptions as in C158, C165 and C168: the device is nearly affine in the region, the gradients are conditioned, fits are exact with positive widths, the maximal step size is at least twice the step of the finite differences. The radius of the region is explicit: the step of the finite differences and (B + (N+1) delta)/(sigma - 2 rho - kappa)."
  },
  {
   "property": "C180",
   "status": "proved",
   "theorems": [
    "Qtune.SensingDot.sensing_dot_reports_latest"
   ],
   "note": "For all histories of calls, including calls in which evaluators raise. The evaluators of one group return different parameters, which the tuner knows, and the solver keeps its target."
  },
  {
   "property": "C181",
   "status": "partial",
   "theorems": [
    "Qtune.SolverClass.restart_moves_solvers_partial",
    "Qtune.SolverClass.change_targets_reaches_solvers_partial",
    "Qtune.SolverClass.restart_nelder_mead_refuted",
    "Qtune.SolverClass.change_targets_nelder_mead_refuted"
   ],
   "note": "False for NelderMeadSolver, which defines both properties again without setters: restart raises AttributeError and leaves the solvers from this one on where they were; change_targets raises AttributeError even if nothing is to be changed, after changing the tables before it, and does not start over."
  },
  {
   "property": "C182",
   "status": "partial",
   "theorems": [
    "Qtune.Tuner.judged_in_target_units_partial",
    "Qtune.Tuner.judged_in_target_units_refuted",
    "Qtune.Tuner.forwarding_unit_factors"
   ],
   "note": "True for solvers that do not change the Series they get, such as NewtonSolver. False for ForwardingSolver, which multiplies the values with the factors in place before the tuner compares them: the tuner then judges the numbers as they were measured; both judgements agree if all factors are 1."
  },
  {
   "property": "C183",
   "status": "partial",
   "theorems": [
    "Qtune.Sharing.objects_do_not_interfere_partial",
    "Qtune.Sharing.objects_do_not_interfere_tutorial_partial",
    "Qtune.Sharing.objects_do_not_interfere_kalman_refuted",
    "Qtune.Sharing.objects_do_not_interfere_differences_refuted",
    "Qtune.Sharing.objects_do_not_interfere_restart_refuted"
   ],
   "note": "True if experiment, solver and finite difference estimators were constructed with Series of their own (Kalman estimators may share one), and for the solver and Kalman estimators of the tutorial, which share one, if the solver is evaluated before it is restarted. This is a refinement between a model with references and the value semantics that all other files use. False otherwise: TestExperiment moves the position of a Kalman estimator that shares its Series, so that the first measurement never enters the filter; two symmetric finite difference estimators with one Series of NaN store different measurements; a restart before the first evaluation moves the estimators with the solver."
  },
  {
   "property": "C184",
   "status": "partial",
   "theorems": [
    "Qtune.SensingDot.sensing_dot_hierarchy_refuted",
    "Qtune.SensingDot.sensing_dot_scan_kept",
    "Qtune.EndToEnd.scanned_dot_is_tuned"
   ],
   "note": "False for every device, target, solver and rest of the hierarchy: SensingDot1D.evaluate always raises (C130), so every iterate raises, whatever the user does in between, and no gate voltage is ever set. True with a cheap evaluator that returns the contrast (C178)."
  },
  {
   "property": "C185",
   "status": "partial",
   "theorems": [
    "Qtune.History.distinct_parameters_partial",
    "Qtune.History.evaluated_distinct_partial",
    "Qtune.History.shared_parameter_refuted"
   ],
   "note": "True if no parameter belongs to two tuners: then the histories are those of C60, C61 and C138. False otherwise: the Series of parameters has the name twice, building the row raises ValueError (TypeError before all gradients are known), and since the first row needs all tuners, the history stays empty for ever, whatever the user does."
  },
  {
   "property": "C186",
   "status": "partial",
   "theorems": [
    "Qtune.Package.import_succeeds_partial",
    "Qtune.Package.tuning_modules_import_partial",
    "Qtune.Package.needed_packages",
    "Qtune.Package.needed_packages_exact",
    "Qtune.Package.missing_package_named",
    "Qtune.Package.loaded_modules_complete",
    "Qtune.Package.matlab_setups_import_refuted",
    "Qtune.Package.gui_import_refuted"
   ],
   "note": "True for thirteen of the sixteen modules, gui only in IPython. False for sm, sm_tune_qqd and kalman_heuristics: the annotation in sm.py:228 mentions the name qtune, which sm does not import, so that in Python up to 3.13 every import raises NameError. False for gui outside of IPython (AttributeError). The properties of classes of sm and sm_tune_qqd hold for these classes once that annotation is corrected."
  },
  {
   "property": "C187",
   "status": "partial",
   "theorems": [
    "Qtune.Package.requirements_suffice_partial",
    "Qtune.Package.setup_packages_refuted",
    "Qtune.Package.python_files_installed",
    "Qtune.Package.matlab_files_installed_refuted",
    "Qtune.Package.only_python_files_installed",
    "Qtune.Package.needed_packages_exact"
   ],
   "note": "True for the Python files, and for the packages of requirements.txt with the exceptions of C186 and mat2py. False for setup.py: the list of required packages lacks matplotlib, which all modules but mat2py import (in practice it is installed because filterpy requires it), and the pattern for the MATLAB files is relative to the folder of the package and matches none of them."
  },
  {
   "property": "C188",
   "status": "partial",
   "theorems": [
    "Qtune.Storage.Meas.measurement_reload_partial",
    "Qtune.Storage.Meas.option_called_name_refuted",
    "Qtune.Storage.Meas.option_called_self_refuted",
    "Qtune.Storage.Meas.qqd_measurement_refuted",
    "Qtune.Storage.Meas.qqd_measurement_made"
   ],
   "note": "True for Measurement if the program does not set the options name or self. An option name is lost without a message, with an option self the stored measurement cannot be loaded. False for QQDMeasurement: its constructor keeps neither name nor options, so that it cannot be stored at all."
  },
  {
   "property": "C189",
   "status": "partial",
   "theorems": [
    "Qtune.History.Read.read_files_refuted",
    "Qtune.History.Read.read_files_checks_partial",
    "Qtune.History.Read.sorted_list_is_wanted_partial"
   ],
   "note": "False: read_files returns the value of list.sort(), which is None. Proved: the list that is sorted and dropped has exactly the wanted entries in order, and files that cannot be read are reported."
  },
  {
   "property": "C190",
   "status": "partial",
   "theorems": [
    "Qtune.History.Read.reevaluate_refuted",
    "Qtune.History.Read.reevaluate_existing_refuted",
    "Qtune.History.Read.reevaluate_unknown_partial"
   ],
   "note": "False: the table of the history contains dicts, not evaluators, so that the function raises AttributeError for every row that exists and never measures. Unknown evaluators and rows are reported."
  },
  {
   "property": "C191",
   "status": "partial",
   "theorems": [
    "Qtune.ScanSim.line_simulation_partial",
    "Qtune.ScanSim.line_options_refuted",
    "Qtune.ScanSim.line_simulation_gates",
    "Qtune.ScanSim.grid_simulation_partial",
    "Qtune.ScanSim.grid_range_refuted",
    "Qtune.ScanSim.grid_device_refuted"
   ],
   "note": "True up to the distance of two points for line scans of SDB2 by 4 mV in 1280 points, the default. False: all options are ignored; two-dimensional scans always cover 5 mV, but the evaluator takes the range of the options (15 mV in the tutorial), so that all distances are wrong by this factor; and they are not scans of any device, because the same voltages give other data if the scan starts elsewhere."
  },
  {
   "property": "C192",
   "status": "partial",
   "theorems": [
    "Qtune.SolverState.state_entries",
    "Qtune.SolverState.state_errors",
    "Qtune.SolverState.state_names_partial",
    "Qtune.SolverState.state_names_refuted",
    "Qtune.SolverState.other_states_refuted"
   ],
   "note": "Proved for Newton solvers: the state consists of exactly the derivatives that are known, and when it cannot be read. The names are unique if the names of gates contain no slash, not otherwise. False for the other solvers: NelderMeadSolver raises NotImplementedError, and state of ForwardingSolver is a method instead of a Series (no property decorator)."
  },
  {
   "property": "C193",
   "status": "partial",
   "theorems": [
    "Qtune.Version.version_partial",
    "Qtune.Version.release_version_partial",
    "Qtune.Version.store_succeeds_partial",
    "Qtune.Version.version_working_directory_refuted",
    "Qtune.Version.version_missing_refuted",
    "Qtune.Version.store_fails_refuted",
    "Qtune.Version.version_race_refuted",
    "Qtune.Version.version_replaced_refuted"
   ],
   "note": "True with GitPython, in a working directory inside of the repository of the package, and without a repository beside the package. False: git is asked about the working directory of the process instead of the package, so that a file names the commit of another repository or none; exceptions of GitPython for a damaged or empty repository prevent storing; a commit meanwhile gives a mixture; and every further object replaces the version (the test looks among the objects instead of the attributes)."
  },
  {
   "property": "C194",
   "status": "proved",
   "theorems": [
    "Qtune.Gradient.require_gates",
    "Qtune.Gradient.require_other_gates"
   ],
   "note": "For all estimators whose measurements mention all their gates."
  },
  {
   "property": "C195",
   "status": "partial",
   "theorems": [
    "Qtune.Storage.Keys.plain_keys_partial",
    "Qtune.Storage.Keys.slash_keys_refuted",
    "Qtune.Storage.Keys.slash_key_nested_refuted",
    "Qtune.Storage.Keys.absolute_key_refuted",
    "Qtune.Storage.Keys.slash_key_clash_refuted",
    "Qtune.Storage.Keys.empty_key_refuted"
   ],
   "note": "True if no key contains a slash, is empty or a single dot. False otherwise: HDF5 takes names as paths, so that an entry whose key contains a slash is never found under its key again; it becomes a nested dict, leaves the dict, or prevents storing."
  },
  {
   "property": "C196",
   "status": "partial",
   "theorems": [
    "Qtune.Times.time_of_name",
    "Qtune.Times.names_in_order_partial",
    "Qtune.Times.later_session_partial",
    "Qtune.Times.clock_set_back_refuted"
   ],
   "note": "Proved within a session, whatever the clock of the computer does, and for later sessions if the clock shows a later time at their start. False for sessions between which the clock is set back."
  },
  {
   "property": "C197",
   "status": "partial",
   "theorems": [
    "Qtune.Times.scan_files_differ",
    "Qtune.Times.session_scan_files",
    "Qtune.Times.scan_known",
    "Qtune.Times.scan_options",
    "Qtune.Times.scan_files_sessions_refuted"
   ],
   "note": "Proved for the scans of a session more than a microsecond apart. False for two sessions: if the clock is set back in between, names can repeat."
  },
  {
   "property": "C198",
   "status": "partial",
   "theorems": [
    "Qtune.Storage.Leaf.stored_iff",
    "Qtune.Storage.Leaf.loaded_values_partial",
    "Qtune.Storage.Leaf.exact_iff",
    "Qtune.Storage.Leaf.reload_stable",
    "Qtune.Storage.Leaf.names_refuted",
    "Qtune.Storage.Leaf.text_refuted",
    "Qtune.Storage.Leaf.texts_refuted",
    "Qtune.Storage.Leaf.object_array_refuted",
    "Qtune.Storage.Leaf.mixed_frame_refuted",
    "Qtune.Storage.Leaf.large_index_refuted"
   ],
   "note": "With h5py 2, every value that can be stored keeps its kind, labels and values, and what was loaded can be stored and loaded again without any difference; which values can be stored and which come back without any difference is characterised exactly. False in general: names of Series are lost, numbers of Python come back as numbers of numpy, arrays without dimensions as numbers, integer columns of mixed DataFrames as floats; arrays of texts, DataFrames with texts or with numbers and truth values, and large labels cannot be stored. With h5py 3, texts come back as the representation of bytes, and a Series of texts cannot be stored again after loading."
  },
  {
   "property": "C199",
   "status": "proved",
   "theorems": [
    "Qtune.EndToEnd.read_back_source_is_tuned",
    "Qtune.EndToEnd.told_source_is_tuned",
    "Qtune.EndToEnd.complete_source_meets",
    "Qtune.EndToEnd.coarse_source_refuted"
   ],
   "note": "How fine the resolution must be is explicit: if the applied voltages are read back, a deviation is shorter than the steps of the estimators and changes no parameter by as much as its tolerance; otherwise a bound with the condition of the gradients. coarse_source_refuted is the limit for sources that are too coarse."
  },
  {
   "property": "C200",
   "status": "proved",
   "theorems": [
    "Qtune.EndToEnd.drifting_device_is_tuned",
    "Qtune.EndToEnd.drifting_device_is_tuned_eventually",
    "Qtune.EndToEnd.drift_after_completion_unnoticed",
    "Qtune.EndToEnd.coarse_drifting_device_is_tuned",
    "Qtune.EndToEnd.drifts_away_bounded",
    "Qtune.EndToEnd.fast_drift_never_tuned"
   ],
   "note": "The bounds are explicit: the drift of n evaluations enters the error of the gradients, the drift of one evaluation enters the distance to the set points that can be reached. That the tolerances have to exceed the drift of one evaluation is necessary: otherwise the tuning goes on forever (fast_drift_never_tuned)."
  },
  {
   "property": "C201",
   "status": "partial",
   "theorems": [
    "Qtune.Evaluator.Share.dot_scans_as_asked_partial",
    "Qtune.Evaluator.Share.scans_as_asked_partial",
    "Qtune.Evaluator.Share.default_dots_disturb_nobody_partial",
    "Qtune.Evaluator.Share.own_scans",
    "Qtune.Evaluator.Share.offered_scans",
    "Qtune.Evaluator.Share.shared_line_scan_refuted",
    "Qtune.Evaluator.Share.shared_2d_scan_refuted",
    "Qtune.Evaluator.Share.class_scans_refuted"
   ],
   "note": "Proved for the scans of sensing dots in general, and for the other evaluators if no sensing dot shares their measurement, in particular if the sensing dots make their own measurements. False otherwise: SensingDot1D and SensingDot2D write gate and center into the shared object, so that other evaluators scan another gate or raise, even those of another experiment, because the scans of BasicDQD are class attributes."
  },
  {
   "property": "C202",
   "status": "partial",
   "theorems": [
    "Qtune.TargetOps.Shared.own_targets_partial",
    "Qtune.TargetOps.Shared.other_targets_unchanged_partial",
    "Qtune.TargetOps.Shared.shared_target_refuted",
    "Qtune.TargetOps.Shared.shared_change_targets_refuted",
    "Qtune.TargetOps.Shared.kept_frame_refuted"
   ],
   "note": "Proved for solvers that are constructed with a DataFrame each, which nobody else writes to, and for tuners that hold other DataFrames than the one that is changed. False otherwise: the solvers keep the DataFrame without making a copy, and the setter assigns to its entries. Refuted for all solvers that share a DataFrame and for every DataFrame that the caller keeps."
  },
  {
   "property": "C203",
   "status": "partial",
   "theorems": [
    "Qtune.Tuner.Record.tuner_keeps_voltages_partial",
    "Qtune.Tuner.Record.tuned_voltages_recorded_partial",
    "Qtune.Tuner.Record.recorded_voltages_refuted",
    "Qtune.Tuner.Record.recovery_refuted"
   ],
   "note": "Proved for all experiments that return a new Series whenever their voltages are read, as the ones of the package do. False for experiments that return the Series in which they keep their voltages, which the interface allows: the tuner keeps this Series without a copy, so its records change with the voltages, and after a failed evaluation it suggests the same voltages again."
  },
  {
   "property": "C204",
   "status": "partial",
   "theorems": [
    "Qtune.Tuner.construct_iff_partial",
    "Qtune.Tuner.complete_target_partial",
    "Qtune.Tuner.missing_evaluator_refuted",
    "Qtune.Tuner.unmeasured_never_tuned_refuted"
   ],
   "note": "Duplicates are refused, and an evaluator is asked for if all six columns of the target have an entry for the parameter. False otherwise: dropna() removes all rows as soon as one column is not used (for instance without limits), so the check is void and a tuner is accepted without any evaluator. Such a tuner is never tuned: every evaluation raises or counts as failed, and the suggestion after a failed one raises IndexError."
  },
  {
   "property": "C205",
   "status": "partial",
   "theorems": [
    "Qtune.SensingDot.sensing_dot_construct_iff_partial",
    "Qtune.SensingDot.minimum_checked_partial",
    "Qtune.SensingDot.expensive_only_refuted"
   ],
   "note": "Proved for the parameters that the cheap evaluators measure. False otherwise: as soon as one column of the target is not used, which is usual for sensing dots, the constructor does not ask the cheap evaluators for any parameter. A parameter with a minimum that only the expensive evaluators measure is then never compared with it: is_tuned returns True in every evaluation with good cheap values, and its value stays NaN."
  },
  {
   "property": "C206",
   "status": "partial",
   "theorems": [
    "Qtune.Matlab.Views.view_shows_data_partial",
    "Qtune.Matlab.Views.view_shows_present_data_partial",
    "Qtune.Matlab.Views.struct_view_iterates_partial",
    "Qtune.Matlab.Views.attribute_of_array_partial",
    "Qtune.Matlab.Views.cell_elements_refuted",
    "Qtune.Matlab.Views.large_cell_refuted",
    "Qtune.Matlab.Views.function_name_refuted",
    "Qtune.Matlab.Views.negative_index_refuted",
    "Qtune.Matlab.Views.missing_field_refuted"
   ],
   "note": "Proved for structs, struct arrays and tables. False for cells: the index is sent as a text in quotation marks, so that no element of a cell with up to 47 elements can be reached. False for negative indices, which become the word end outside of an index, for variables with the name of a function, and for hasattr, which raises the exception of MATLAB."
  },
  {
   "property": "C207",
   "status": "partial",
   "theorems": [
    "Qtune.Autotuner.uninterrupted_iterate",
    "Qtune.Autotuner.interrupted_completion_certificate_partial",
    "Qtune.Autotuner.interrupted_actions_founded_partial",
    "Qtune.Autotuner.interrupted_write_recovers",
    "Qtune.Autotuner.interrupted_suggestion_refuted",
    "Qtune.Autotuner.interrupted_targets_refuted"
   ],
   "note": "The certificate of completeness holds for all interruptions but those of change_targets just after the assignment of the targets, after which a complete tuning is still reported complete. Suggestions are founded on evaluations unless iterate is interrupted between recording the suggested voltages and resetting the status: then tuner 0 is asked for voltages without having been evaluated at the new ones."
  },
  {
   "property": "C208",
   "status": "partial",
   "theorems": [
    "Qtune.Matlab.Setup.setup_iff_partial",
    "Qtune.Matlab.Setup.setup_only_once",
    "Qtune.Matlab.Setup.failed_setup_keeps_path",
    "Qtune.Matlab.Setup.setup_script_refuted",
    "Qtune.Matlab.Setup.setup_global_refuted",
    "Qtune.Matlab.Setup.setup_missing_refuted"
   ],
   "note": "Proved for functions with an output that create a variable in the base workspace. False for scripts and functions without output, which MATLAB refuses to call because the engine asks for an output; false for the global variable, which the functions that measure use but the check does not look at; and without a setup file the constructor does not notice that special measure is missing."
  },
  {
   "property": "C209",
   "status": "partial",
   "theorems": [
    "Qtune.EndToEnd.limited_source_is_tuned_partial",
    "Qtune.EndToEnd.limited_source_is_tuned_kalman",
    "Qtune.EndToEnd.limited_source_is_tuned_found",
    "Qtune.EndToEnd.limited_told_is_tuned_partial",
    "Qtune.EndToEnd.limited_told_is_tuned_found",
    "Qtune.EndToEnd.clip_limited",
    "Qtune.EndToEnd.clip_nearest",
    "Qtune.EndToEnd.complete_limited_meets",
    "Qtune.EndToEnd.unreachable_never_complete",
    "Qtune.EndToEnd.start_at_limit_refuted",
    "Qtune.EndToEnd.told_start_at_limit_refuted"
   ],
   "note": "Proved if the first points that the estimators ask for are within the limits: every Newton step goes to the nearest solution and the source to the nearest permitted voltages, so that the distance from a permitted solution shrinks until the set points are met, also if long steps are made in slices because of a maximal step size. Estimators that know the gradients already (Kalman estimators or finite difference estimators that are done) measure nothing, and with them every start within the limits is fine, also at a limit. This needs an experiment that reads back what is applied; if it reads back what it has been told, the same is proved for sources that apply the nearest voltages of a convex region and estimators with equal steps or estimators that are done, with three more calls. False for starts at a limit: the estimator measures twice at the same voltages, and for every affine device with one gate there are limits for which the fourth call raises an EvaluationError and each call from the sixth on a RuntimeError; if the experiment reads back what it has been told, the estimate of the gradient is zero and the same voltages are suggested forever, without any exception."
  },
  {
   "property": "C210",
   "status": "partial",
   "theorems": [
    "Qtune.Package.Engine.install_iff_partial",
    "Qtune.Package.Engine.installer_once",
    "Qtune.Package.Engine.install_works_partial",
    "Qtune.Package.Engine.install_works_refuted",
    "Qtune.Package.Engine.installed_already_refuted",
    "Qtune.Package.Engine.without_where_refuted",
    "Qtune.Package.Engine.code_page_refuted"
   ],
   "note": "Exactly characterised; after a success the engine can be imported if the return code of the installer can be trusted, and the installer is started at most once and only if the engine is missing. False: MATLAB is looked for before the engine, so that the command raises on computers with an engine where MATLAB is not found; it looks with the Windows command where, without which it raises FileNotFoundError; it takes the number of the code page for the name of an encoding, which fails for 65001; and it believes the return code."
  },
  {
   "property": "C211",
   "status": "partial",
   "theorems": [
    "Qtune.Package.Release.release_version_partial",
    "Qtune.Package.Release.no_version_no_release",
    "Qtune.Package.Release.without_spaces_refuted",
    "Qtune.Package.Release.assigned_twice_refuted",
    "Qtune.Package.Release.quote_refuted",
    "Qtune.Package.Release.doc_refuted"
   ],
   "note": "Proved if the version is assigned with one space on both sides of the equals sign, always with the same value, without quotes inside of the value, and if no text in three quotes has a line that begins with __version__; the file of the present release is of this kind. False: without the spaces no version is found; of two assignments the first is taken, while Python keeps the last; a value that contains the other kind of quotes is cut there; and a line of a text in three quotes is taken for the assignment."
  },
  {
   "property": "C212",
   "status": "partial",
   "theorems": [
    "Qtune.EndToEnd.stopped_tuning_is_tuned_kalman_partial",
    "Qtune.EndToEnd.stopped_tuning_is_tuned_found_partial",
    "Qtune.EndToEnd.stopped_tuning_completes_partial",
    "Qtune.EndToEnd.stopped_tuning_completes_kalman_partial",
    "Qtune.EndToEnd.stopped_tuning_is_tuned_partial",
    "Qtune.EndToEnd.stopped_steps_are_tuned_kalman_partial",
    "Qtune.EndToEnd.stopped_steps_are_tuned_found_partial",
    "Qtune.EndToEnd.stopped_tuning_refuted"
   ],
   "note": "Proved for estimators that know the gradients (Kalman estimators that begin with them, finite differences that have found them), wherever the calls are interrupted: without a maximal step size five more calls are enough, with one some further calls. The rest without a maximal step size. For Kalman estimators that have to learn the gradients, wherever the calls are interrupted, and for finite differences that have to find them, if no call is interrupted between an evaluation and its note, proved that for every device one call more than without interruptions is enough. Otherwise false for finite differences: for every affine device with one gate, one Ctrl-C after the first evaluation and before it is noted makes the estimator measure twice at the start; the next call raises EvaluationError, and from the third on every call raises RuntimeError. A Ctrl-C during a measurement is an exception of the evaluator, which is harmless (C144); for interruptions inside of is_tuned and get_next_voltages see C213."
  },
  {
   "property": "C213",
   "status": "partial",
   "theorems": [
    "Qtune.EndToEnd.stopped_inside_is_tuned_kalman_partial",
    "Qtune.EndToEnd.stopped_inside_is_tuned_found_partial",
    "Qtune.EndToEnd.stopped_inside_steps_are_tuned_kalman_partial",
    "Qtune.EndToEnd.stopped_inside_steps_are_tuned_found_partial",
    "Qtune.EndToEnd.inside_is_tuned",
    "Qtune.EndToEnd.inside_next",
    "Qtune.EndToEnd.torn_update_refuted",
    "Qtune.EndToEnd.torn_evaluation_refuted",
    "Qtune.EndToEnd.torn_one_gate_is_tuned_partial",
    "Qtune.EndToEnd.torn_one_gate_is_tuned_finally_partial",
    "Qtune.EndToEnd.torn_after_calls_is_tuned_partial"
   ],
   "note": "Proved for estimators that know the gradients (Kalman estimators that begin with them, finite differences that have found them): wherever calls are interrupted, also inside of the evaluations and suggestions, five more calls complete the tuning without a maximal step size, and some further calls with one. Exception: between the two assignments at the end of KalmanGradientEstimator.update the estimator has the new value and the old position; then it loses the gradient with the next evaluation, for every device and every step along which the value changes and the estimator is uncertain. With one gate and one parameter and without a maximal step size the tuning is completed nevertheless, if only one call is interrupted there: each Newton step reduces what is missing at least by the factor V / (V + r). Interruptions inside of filterpy are not modelled; for finite differences that have yet to find the gradients see C212."
  },
  {
   "property": "C214",
   "status": "partial",
   "theorems": [
    "Qtune.EndToEnd.right_sign_is_tuned_partial",
    "Qtune.EndToEnd.any_gradient_ends_or_is_blind",
    "Qtune.EndToEnd.wrong_sign_refuted",
    "Qtune.EndToEnd.blind_estimator_refuted"
   ],
   "note": "Proved for every initial gradient of the right sign, if the tolerance is at least what a step of 1e-7 changes with the estimated and with the true gradient: the estimator ignores shorter steps (gradient.py:353) and could not learn near the set point. For every initial gradient the tuning is completed unless the estimate is exactly 0 at some time while its variance is at most the limit. This can happen: refuted for the initial gradient 0, and for the negative of the gradient with starts at a certain distance; the Newton steps are then 0 and the tuning never ends."
  }
 ]
}