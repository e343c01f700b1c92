{"id": "C01", "title": "Completion certificate", "statement": "Whenever Autotuner.is_tuning_complete() is true after a run that started at a fresh Autotuner (tuner index 0), every tuner of the hierarchy has reported is_tuned()=True, in hierarchy order, and between the first of these reports and now no voltages were written to the experiment and no restart()/change_targets() happened. In particular all of them reported tuned at one and the same voltage point, the one the experiment is at now.", "quantifier": "all hierarchies of any length, all sequences of iterate/restart/change_targets calls (including calls that raise), all evaluation outcomes; for the last sentence: evaluations leave the voltages as they found them and nobody else changes them", "why_tests_cant": "It is an invariant of every history of calls; a test exercises one scripted history.", "anchors": ["qtune/autotuner.py: Autotuner.iterate, is_tuning_complete, restart, change_targets"]}
{"id": "C02", "title": "Hierarchy order of evaluations", "statement": "Autotuner.iterate only evaluates tuner i if tuners 0..i-1 all reported tuned since the last voltage write, in order; a higher tuner is never evaluated on top of an untuned or unevaluated lower one.", "quantifier": "all hierarchies, all call sequences, all points of the run at which an evaluation happens", "why_tests_cant": "Must hold at each evaluation of every possible run.", "anchors": ["qtune/autotuner.py: Autotuner.iterate, get_current_tuner"]}
{"id": "C03", "title": "One action per iterate; only suggested voltages are written", "statement": "Every iterate() call that returns normally does exactly one of: write the pending voltages, evaluate one tuner, ask one tuner for the next voltages. The voltages written are exactly those returned by the last get_next_voltages call, each suggestion is successfully written at most once, and no evaluation happens between a suggestion and its write.", "quantifier": "all hierarchies and all sequences of iterate calls, with arbitrary exceptions raised by tuners or the experiment", "why_tests_cant": "Quantifies over all interleavings of outcomes and exceptions.", "anchors": ["qtune/autotuner.py: Autotuner.iterate"]}
{"id": "C04", "title": "NaN voltages never reach the experiment", "statement": "No iterate() call hands a voltage vector containing NaN to Experiment.set_gate_voltages; if the pending voltages contain a NaN the call raises RuntimeError, does not touch the experiment, and every further iterate() raises the same error until restart() or change_targets() is called.", "quantifier": "all states of the autotuner, all tuners (including ones that return NaN), all call sequences", "why_tests_cant": "The tuners are user classes; no finite set of them covers what may be returned.", "anchors": ["qtune/autotuner.py: Autotuner.iterate lines 256-258"]}
{"id": "C05", "title": "iterate on a complete or incoherent setup is a pure error", "statement": "If tuning is complete or ready_to_tune() is false, iterate() raises RuntimeError and has no effect: no evaluation, no voltage write, no save, no state change.", "quantifier": "all autotuner states", "why_tests_cant": "Absence of effects over all states.", "anchors": ["qtune/autotuner.py: Autotuner.iterate lines 250-254"]}
{"id": "C06", "title": "Failed iterate can be retried", "statement": "If is_tuned, get_next_voltages or set_gate_voltages raises inside iterate(), the tuner index, the evaluation flag and the pending voltages are unchanged, nothing is saved, and the next iterate() attempts the same action again.", "quantifier": "all states, all exceptions", "why_tests_cant": "Every possible exception point.", "anchors": ["qtune/autotuner.py: Autotuner.iterate"]}
{"id": "C07", "title": "restart starts over with an evaluation of the first tuner", "statement": "After Autotuner.restart() the next iterate() evaluates the first tuner of the hierarchy at the voltages now read from the experiment; it does not compute or write voltages from stale information.", "quantifier": "all autotuner states at the time of the restart() call", "why_tests_cant": "The state at which a user reconfigures manually is arbitrary.", "anchors": ["qtune/autotuner.py: Autotuner.restart, iterate"]}
{"id": "C08", "title": "change_targets starts over with an evaluation of the first tuner", "statement": "After Autotuner.change_targets() the next iterate() evaluates the first tuner against the new targets before any voltage is computed or written.", "quantifier": "all autotuner states and target changes", "why_tests_cant": "The state at the time of the call is arbitrary.", "anchors": ["qtune/autotuner.py: Autotuner.change_targets, iterate"]}
{"id": "C09", "title": "restart communicates the new voltages to the tuners", "statement": "After Autotuner.restart() each tuner's last_voltages equals the voltages read from the experiment on the gates the tuner knows.", "quantifier": "all hierarchies and voltages", "why_tests_cant": "All label sets and values.", "anchors": ["qtune/autotuner.py: Autotuner.restart", "qtune/parameter_tuner.py: ParameterTuner.last_voltages setter, restart"]}
{"id": "C10", "title": "tuned_parameters passed to a tuner", "statement": "When tuner i is asked for new voltages it is told exactly those parameters of the tuners 0..i-1 whose target row is completely specified in the columns the respective target uses; nothing of tuner i or above.", "quantifier": "all hierarchies, all targets", "why_tests_cant": "All NaN patterns of target tables.", "anchors": ["qtune/autotuner.py: Autotuner.tuned_parameters"]}
{"id": "C11", "title": "ready_to_tune detects naming incoherence", "statement": "ready_to_tune() returns True exactly if every gate named in last_voltages, in the solver positions and in the estimator positions is a gate of the experiment and the tunable gates of each SubsetTuner are covered by each of its gradient estimators; pending voltages with unknown gates raise AssertionError.", "quantifier": "all hierarchies whose solvers and estimators have positions, all gate sets", "why_tests_cant": "All label sets.", "anchors": ["qtune/autotuner.py: Autotuner.ready_to_tune"]}
{"id": "C12", "title": "Progress of the state machine", "statement": "If every tuner of an n-tuner hierarchy reports tuned, exactly n iterate() calls complete the tuning; in general after any evaluation that is not tuned exactly two further successful iterate() calls write the new voltages and return to tuner 0.", "quantifier": "all hierarchy lengths and runs", "why_tests_cant": "Unbounded n.", "anchors": ["qtune/autotuner.py: Autotuner.iterate"]}
{"id": "C13", "title": "Crash recovery from the last saved state", "statement": "If the process dies at any point and the autotuner is reloaded from the file saved by the last completed iterate(), continuing produces the same sequence of evaluations, suggestions and voltage writes as the uninterrupted run, except that the interrupted action is executed again from its beginning.", "quantifier": "all crash points inside an iterate (before the experiment is touched, after it, before/after the save) and any number of crashes, for measurements that depend only on the voltages and leave the experiment as they found it, and for voltages that may be written twice", "why_tests_cant": "Crash points cannot be enumerated by unit tests.", "anchors": ["qtune/autotuner.py: Autotuner.iterate, save_current_status, to_hdf5, load_auto_tuner"]}
{"id": "C14", "title": "Reloading an autotuner keeps its configuration", "statement": "Autotuner(**autotuner.to_hdf5()) has the same storage path, index, status, pending voltages and last save file as the original.", "quantifier": "all autotuner states and storage paths", "why_tests_cant": "Round trip for all states and repeated save/load cycles.", "anchors": ["qtune/autotuner.py: Autotuner.__init__, to_hdf5"]}
{"id": "C15", "title": "SubsetTuner.is_tuned is sound", "statement": "If SubsetTuner.is_tuned() returns True then all parameters that have a set point and a tolerance were measured (not NaN) in this very call and each differs from its set point by less than its tolerance.", "quantifier": "all targets (any NaN pattern), all measurement outcomes, all tuner states", "why_tests_cant": "All NaN patterns and values.", "anchors": ["qtune/parameter_tuner.py: SubsetTuner.is_tuned"]}
{"id": "C16", "title": "SubsetTuner.is_tuned is complete", "statement": "If no steps are queued, no evaluated parameter is NaN and every parameter with a set point lies strictly within its tolerance (or has none), is_tuned() returns True and the voltages are recorded as tuned voltages.", "quantifier": "all targets with positive tolerances, all values; the evaluators measure all parameters of the target and the solver accepts the result", "why_tests_cant": "All values.", "anchors": ["qtune/parameter_tuner.py: SubsetTuner.is_tuned"]}
{"id": "C17", "title": "Failed evaluation is contained", "statement": "If a relevant parameter evaluates to NaN, is_tuned() returns False, marks the evaluation as failed, and neither the solver nor any gradient estimator nor the lists of evaluatable/tuned voltages see the result. If an evaluator raises, is_tuned() raises the same exception, and they do not see anything either.", "quantifier": "all tuner states without queued steps and all outcomes with a NaN", "why_tests_cant": "All NaN patterns.", "anchors": ["qtune/parameter_tuner.py: SubsetTuner.is_tuned lines 240-247"]}
{"id": "C18", "title": "Recovery bisects back to the last good point", "statement": "After k consecutive failed evaluations the suggested voltages lie on the segment between the last evaluatable voltages and the point of the first failure, at distance 2^-k of the original distance; hence the tuner returns arbitrarily close to the last good point. Without any earlier good point get_next_voltages raises instead of moving.", "quantifier": "all k, all voltages", "why_tests_cant": "Unbounded number of consecutive failures.", "anchors": ["qtune/parameter_tuner.py: SubsetTuner.get_next_voltages lines 261-262"]}
{"id": "C19", "title": "Step size limit", "statement": "If a finite positive maximal_step_size is given, a suggestion that follows from the solver moves the voltages by at most maximal_step_size (Euclidean norm), in the direction of the solver's suggestion, and does not move gates the solver does not mention; steps within the limit are passed on unchanged.", "quantifier": "all solver suggestions, voltages and limits", "why_tests_cant": "All real vectors.", "anchors": ["qtune/parameter_tuner.py: SubsetTuner.get_next_voltages"]}
{"id": "C20", "title": "Bounded number of unevaluated steps", "statement": "A SubsetTuner takes at most maximal_step_number consecutive steps without evaluating its parameters.", "quantifier": "all sequences of solver suggestions and all maximal_step_number >= 1", "why_tests_cant": "Sequences of suggestions are unbounded.", "anchors": ["qtune/parameter_tuner.py: SubsetTuner.get_next_voltages, is_tuned"]}
{"id": "C21", "title": "Queued steps do not overshoot", "statement": "While a long step is executed in slices (solver suggestion unchanged relative to the position) the sum of the slices never exceeds the length of the full step.", "quantifier": "all steps, limits and slice numbers", "why_tests_cant": "All reals; floor arithmetic.", "anchors": ["qtune/parameter_tuner.py: SubsetTuner.get_next_voltages"]}
{"id": "C22", "title": "SensingDotTuner decision", "statement": "SensingDotTuner.is_tuned() returns True exactly if no cheaply measured parameter is NaN and none with a minimum is at or below it; then voltages are recorded as tuned.", "quantifier": "all targets and measurement outcomes", "why_tests_cant": "All NaN patterns and values.", "anchors": ["qtune/parameter_tuner.py: SensingDotTuner.is_tuned"]}
{"id": "C23", "title": "Expensive measurement only on demand", "statement": "The expensive evaluators run exactly if no cheaply measured parameter is NaN, some parameter is at or below its minimum and some parameter is at or below its cost threshold; the solver then receives the expensive results, otherwise the cheap ones.", "quantifier": "all targets and outcomes", "why_tests_cant": "All values.", "anchors": ["qtune/parameter_tuner.py: SensingDotTuner.is_tuned"]}
{"id": "C24", "title": "SensingDotTuner detects failed expensive measurements", "statement": "A NaN in the result of the expensive evaluation is treated as a failed evaluation like one in the cheap evaluation.", "quantifier": "all outcomes", "why_tests_cant": "All NaN patterns.", "anchors": ["qtune/parameter_tuner.py: SensingDotTuner.is_tuned lines 359-368"]}
{"id": "C25", "title": "Reloading a tuner keeps its recovery state", "statement": "A tuner rebuilt from to_hdf5() makes the same decisions as the original: same recovery point after a failed evaluation, same failure flag.", "quantifier": "all tuner states (SubsetTuner and SensingDotTuner)", "why_tests_cant": "All reachable states.", "anchors": ["qtune/parameter_tuner.py: SubsetTuner.to_hdf5, SensingDotTuner.to_hdf5"]}
{"id": "C26", "title": "rescale and descale are inverse", "statement": "Solver.descale_values after Solver.rescale_values restores values and variances, and vice versa, for nonzero factors; parameters without factor are untouched; NaN stays NaN.", "quantifier": "all targets and value series", "why_tests_cant": "All labels and values.", "anchors": ["qtune/solver.py: Solver.rescale_values, descale_values"]}
{"id": "C27", "title": "ForwardingSolver position", "statement": "After update_after_step the suggested position has, for each mapped measured value, that value in original units on the mapped gate, and the current voltage on every other gate.", "quantifier": "all mappings of parameters to different gates of the solver, targets, positions with all gates, and values", "why_tests_cant": "All label sets.", "anchors": ["qtune/solver.py: ForwardingSolver.update_after_step, suggest_next_position"]}
{"id": "C28", "title": "Newton step meets the set points to first order", "statement": "If no estimator requests a measurement and the Jacobian has full row rank, the suggested step changes the linearised parameters exactly to their set points, and it is the shortest such step.", "quantifier": "all Jacobians of full row rank, all positions, values and set points", "why_tests_cant": "All real matrices.", "anchors": ["qtune/solver.py: NewtonSolver.suggest_next_position"]}
{"id": "C29", "title": "Parameters without set point are left invariant by a Newton step", "statement": "A parameter whose desired value is NaN is not changed, to first order, by the Newton step (make_target: 'Parameters which should always be left invariant are appended with the desired value NaN').", "quantifier": "all Jacobians of full row rank, all values", "why_tests_cant": "All values and NaN patterns.", "anchors": ["qtune/solver.py: NewtonSolver.suggest_next_position line 232, make_target"]}
{"id": "C30", "title": "Measurement requests have priority", "statement": "NewtonSolver.suggest_next_position returns the request of the first estimator, in target order, that belongs to a parameter with a set point and requires a measurement; estimators of parameters without set point are never asked; a Newton step is made only if none requests one.", "quantifier": "all estimator states and targets", "why_tests_cant": "All combinations.", "anchors": ["qtune/solver.py: NewtonSolver.suggest_next_position"]}
{"id": "C31", "title": "Every estimator gets its own value and variance", "statement": "NewtonSolver.update_after_step forwards to the estimator of each parameter with set point the value and the variance measured for that parameter, whatever the order in which the series are given.", "quantifier": "all orders of the value and variance series", "why_tests_cant": "All permutations.", "anchors": ["qtune/solver.py: NewtonSolver.update_after_step"]}
{"id": "C32", "title": "Nelder-Mead never reaches its internal error", "statement": "Starting from NelderMeadSolver.from_scratch with at least one gate, any alternation of suggest_next_position and update_after_step keeps the simplex at no more than n+1 points and never raises the internal 'Bug' errors.", "quantifier": "all measurement outcomes, all lengths of the run", "why_tests_cant": "Unbounded runs.", "anchors": ["qtune/solver.py: NelderMeadSolver"]}
{"id": "C33", "title": "Nelder-Mead never loses its best point", "statement": "Once the simplex is complete it stays sorted by cost and the lowest cost in it never increases.", "quantifier": "all runs", "why_tests_cant": "Unbounded runs.", "anchors": ["qtune/solver.py: NelderMeadSolver.update_after_step"]}
{"id": "C34", "title": "Nelder-Mead starts each iteration with a reflection", "statement": "After an expansion, contraction or shrink has been completed the solver goes back to reflecting the worst point.", "quantifier": "all runs", "why_tests_cant": "Unbounded runs.", "anchors": ["qtune/solver.py: NelderMeadSolver.update_after_step"]}
{"id": "C35", "title": "Nelder-Mead works as solver of a SubsetTuner and can be reloaded", "statement": "NelderMeadSolver accepts the call made by SubsetTuner.get_next_voltages and NelderMeadSolver(**solver.to_hdf5()) rebuilds the solver.", "quantifier": "all solver states", "why_tests_cant": "All states.", "anchors": ["qtune/solver.py: NelderMeadSolver.suggest_next_position, to_hdf5", "qtune/parameter_tuner.py: SubsetTuner.get_next_voltages"]}
{"id": "C36", "title": "make_target table", "statement": "make_target gives each parameter one row with the given entries, NaN where nothing was given, rescaling factor 1 unless given; it raises RuntimeError if no column determines the names.", "quantifier": "all argument combinations", "why_tests_cant": "All label sets.", "anchors": ["qtune/solver.py: make_target"]}
{"id": "C37", "title": "Changing a target changes only what is named", "statement": "Assigning target changes modifies exactly the named entries of the named categories, and nothing else.", "quantifier": "all targets and consistent changes", "why_tests_cant": "All label sets.", "anchors": ["qtune/solver.py: Solver.target setter", "qtune/autotuner.py: Autotuner.change_targets"]}
{"id": "C38", "title": "Finite differences are exact on affine responses", "statement": "calculate_gradient_non_orthogonal returns the exact gradient of an affine function from n+1 or 2n points whose difference vectors are linearly independent, raises EvaluationError if they are dependent and RuntimeError for other numbers of points. If one of the measured values is NaN, no entry of the gradient is a number.", "quantifier": "all dimensions, point sets, affine functions", "why_tests_cant": "All dimensions.", "anchors": ["qtune/util.py: calculate_gradient_non_orthogonal, gradient_min_evaluations"]}
{"id": "C39", "title": "Gradient covariance is the propagated measurement error", "statement": "The covariance returned by calculate_gradient_non_orthogonal equals the linear propagation of independent measurement errors with the given variances.", "quantifier": "all dimensions, point sets, variances", "why_tests_cant": "All reals.", "anchors": ["qtune/util.py: calculate_gradient_non_orthogonal"]}
{"id": "C40", "title": "Finite difference protocol terminates with the gradient (one-sided)", "statement": "A one-sided FiniteDifferencesGradientEstimator that is updated with the current position and then with every requested position completes after exactly n+1 updates without error, and on an affine response its estimate is the exact gradient; it requests nothing afterwards.", "quantifier": "all dimensions n >= 1, all positive epsilons, all affine responses", "why_tests_cant": "All dimensions.", "anchors": ["qtune/gradient.py: FiniteDifferencesGradientEstimator.require_measurement, update"]}
{"id": "C41", "title": "Finite difference protocol terminates with the gradient (symmetric)", "statement": "The same for symmetric=True when driven by NewtonSolver/SubsetTuner, i.e. first updated with the evaluation at the current position and then with each requested position.", "quantifier": "all dimensions, epsilons, responses", "why_tests_cant": "All dimensions.", "anchors": ["qtune/gradient.py: FiniteDifferencesGradientEstimator.require_measurement, update"]}
{"id": "C42", "title": "Estimators can be saved while collecting measurements", "statement": "FiniteDifferencesGradientEstimator(**est.to_hdf5()) rebuilds the estimator at every stage of the measurement protocol.", "quantifier": "all stages", "why_tests_cant": "All stages.", "anchors": ["qtune/gradient.py: FiniteDifferencesGradientEstimator.__init__ lines 116-118"]}
{"id": "C43", "title": "Kalman covariance stays symmetric positive semidefinite", "statement": "For any sequence of KalmanGradient.update calls the covariance matrix remains symmetric positive semidefinite.", "quantifier": "all dimensions, update sequences, positive semidefinite initial covariances and noise matrices, fading factors", "why_tests_cant": "Unbounded update sequences.", "anchors": ["qtune/kalman_gradient.py: KalmanGradient.update"]}
{"id": "C44", "title": "A Kalman update never increases the uncertainty", "statement": "The correction step of KalmanGradient.update never increases the variance in any direction, and afterwards the variance of the measured difference is at most the measurement variance.", "quantifier": "all covariances, measurement vectors, positive measurement variances", "why_tests_cant": "All real matrices.", "anchors": ["qtune/kalman_gradient.py: KalmanGradient.update"]}
{"id": "C45", "title": "The Kalman filter does not leave the true gradient and converges to it", "statement": "With exact measurements of an affine response the true gradient is a fixed point, the estimation error after any number of updates is P_k P_0^-1 times the initial one, and it vanishes along persistently excited directions.", "quantifier": "all update sequences of a filter without process noise and fading memory that starts with a positive definite covariance", "why_tests_cant": "Unbounded sequences.", "anchors": ["qtune/kalman_gradient.py: KalmanGradient.update"]}
{"id": "C46", "title": "The measurement matrix maps the stacked gradient to value differences", "statement": "For any number of values, the matrix H built from a position difference d satisfies H x = grad d where grad is the gradient matrix reported for state x.", "quantifier": "all n_values, n_pos_dim, differences", "why_tests_cant": "All sizes.", "anchors": ["qtune/kalman_gradient.py: KalmanGradient.__createMatrixH, grad"]}
{"id": "C47", "title": "Kalman estimator requests a measurement iff some direction is too uncertain", "statement": "With a common maximum_covariance m, KalmanGradientEstimator.require_measurement(gates) returns None exactly if the variance of the gradient in every unit direction of the given gates is at most m, and otherwise a point displaced by epsilon along the most uncertain direction; other gates are not moved.", "quantifier": "all positive semidefinite covariance matrices, all m > 0, all gate subsets", "why_tests_cant": "All real matrices.", "anchors": ["qtune/gradient.py: KalmanGradientEstimator.require_measurement"]}
{"id": "C48", "title": "Measurement requests do not disturb tuned parameters", "statement": "If the Jacobian of already tuned parameters is given, the requested displacement does not change these parameters to first order.", "quantifier": "all Jacobians, epsilons", "why_tests_cant": "All real matrices and all epsilon vectors.", "anchors": ["qtune/gradient.py: KalmanGradientEstimator.require_measurement lines 311-328"]}
{"id": "C49", "title": "Kalman estimator reference point", "statement": "KalmanGradientEstimator.update uses differences to the last point marked as new; the first value after construction without value or after restart() only sets the reference and never enters the filter; moves shorter than 1e-7 do not enter the filter.", "quantifier": "all update/restart sequences with positive variances of the values", "why_tests_cant": "Unbounded sequences.", "anchors": ["qtune/gradient.py: KalmanGradientEstimator.update, restart"]}
{"id": "C50", "title": "Restart moves the estimators to the new position", "statement": "After NewtonSolver.restart(new_position) the current_position of every gradient estimator agrees with new_position on the common gates.", "quantifier": "all positions", "why_tests_cant": "All label sets.", "anchors": ["qtune/gradient.py: GradientEstimator.current_position setter, restart", "qtune/solver.py: NewtonSolver.restart"]}
{"id": "C51", "title": "Self initialising Kalman estimator hands over", "statement": "When the finite difference phase of SelfInitializingKalmanEstimator.from_scratch completes, the estimator continues with a Kalman estimator initialised at the finite difference gradient and covariance.", "quantifier": "all dimensions and measurement sequences", "why_tests_cant": "All sequences.", "anchors": ["qtune/gradient.py: SelfInitializingKalmanEstimator.update"]}
{"id": "C52", "title": "HDF5 round trip preserves structure and sharing", "statement": "from_hdf5(to_hdf5(x)) yields an object graph isomorphic to x: same nesting, same leaf values, and two positions hold the same object after loading exactly if they held the same object when saved.", "quantifier": "all finite object graphs of dicts, lists, tuples, serialisable objects and leaves without cycles, independent of the key order in which HDF5 enumerates groups", "why_tests_cant": "All object graphs.", "anchors": ["qtune/storage.py: _to_hdf5, _from_hdf5, to_hdf5, from_hdf5"]}
{"id": "C53", "title": "HDF5 round trip of temporaries", "statement": "The round trip is also correct for objects whose to_hdf5() returns newly created objects (e.g. KalmanGradient.to_hdf5 returns a fresh view of the gradient for each estimator).", "quantifier": "all object graphs and all allocations of addresses to temporaries", "why_tests_cant": "Depends on the memory allocator.", "anchors": ["qtune/storage.py: _to_hdf5 line 83", "qtune/kalman_gradient.py: KalmanGradient.to_hdf5"]}
{"id": "C54", "title": "Reserved objects are replaced on loading", "statement": "Every occurrence of a reserved object (the experiment) in the saved graph is the object given as reserved[key] on loading, and no other position of the graph is affected; loading without giving a reserved object raises KeyError.", "quantifier": "all acyclic object graphs and reserved dictionaries, independent of the key order in which HDF5 enumerates groups", "why_tests_cant": "All graphs.", "anchors": ["qtune/storage.py: to_hdf5, from_hdf5"]}
{"id": "C55", "title": "Cyclic structures", "statement": "Saving an object graph with a cycle either succeeds and can be loaded again, or raises an error when saving; it never produces a file that cannot be loaded.", "quantifier": "all cyclic graphs through serialisable objects", "why_tests_cant": "All graphs.", "anchors": ["qtune/storage.py: _to_hdf5, _from_hdf5"]}
{"id": "C56", "title": "Asynchronous writer is FIFO and lossless", "statement": "If no write fails, AsynchronousHDF5Writer executes the writes in the order of the write() calls, each with the object state at the time of the call, and after join() all of them are on disk.", "quantifier": "all interleavings of the caller and the worker thread", "why_tests_cant": "All schedules.", "anchors": ["qtune/storage.py: AsynchronousHDF5Writer, _writer_target"]}
{"id": "C57", "title": "join terminates", "statement": "AsynchronousHDF5Writer.join() terminates in every schedule.", "quantifier": "all schedules, including failing writes", "why_tests_cant": "All schedules.", "anchors": ["qtune/storage.py: AsynchronousHDF5Writer.join, _writer_target"]}
{"id": "C58", "title": "Writes after a failure are reported", "statement": "After a failed write, at most the writes issued before the worker died are lost; a write() call that finds the worker dead raises RuntimeError and nothing is queued. The first failed write stops the worker: nothing is written after it until restart().", "quantifier": "all schedules", "why_tests_cant": "All schedules.", "anchors": ["qtune/storage.py: AsynchronousHDF5Writer.write, _writer_target"]}
{"id": "C59", "title": "File name order is chronological", "statement": "For points in time t1 < t2 (years 1000-9999) time_string(t1) < time_string(t2) in the lexicographic order used by History.load_directory, and equal strings mean the same microsecond.", "quantifier": "all pairs of times", "why_tests_cant": "All dates.", "anchors": ["qtune/util.py: time_string", "qtune/history.py: History.load_directory"]}
{"id": "C60", "title": "History rows are voltage points", "statement": "History has one row per maximal run of consecutive appended autotuners with equal voltages, in chronological order, and get_reload_path(i) is the path of the last autotuner of run i.", "quantifier": "all sequences of appended autotuners that can be appended", "why_tests_cant": "Unbounded sequences.", "anchors": ["qtune/history.py: History.append_autotuner, number_of_stored_iterations, get_reload_path"]}
{"id": "C61", "title": "History records every evaluation", "statement": "The row of the current voltages contains, for each tuner evaluated at these voltages, the parameters of its latest evaluation.", "quantifier": "all runs of the autotuner that are appended after each iterate", "why_tests_cant": "Unbounded runs.", "anchors": ["qtune/history.py: History.append_autotuner, read_autotuner_to_data_frame"]}
{"id": "C62", "title": "get_gradients returns the columns of the parameter", "statement": "History.get_gradients(p) returns exactly the gradient columns of parameter p.", "quantifier": "all sets of parameter and gate names", "why_tests_cant": "All strings.", "anchors": ["qtune/history.py: History.get_gradients"]}
{"id": "C63", "title": "Pause takes effect after at most one iteration", "statement": "After pause() the worker thread starts at most one further iterate(); a step ordered while idle, or after the worker thread has ended, executes exactly one iterate().", "quantifier": "all interleavings of GUI thread and worker thread", "why_tests_cant": "All schedules.", "anchors": ["qtune/gui.py: GUI._work, start, step, pause"]}
{"id": "C64", "title": "Closing stops the worker", "statement": "After close() the worker thread terminates, starting at most one further iterate().", "quantifier": "all states and schedules", "why_tests_cant": "All schedules.", "anchors": ["qtune/gui.py: GUI._work, close, _join_worker"]}
{"id": "C65", "title": "The buttons work with the default logger", "statement": "GUI.start() and GUI.step() order the worker to iterate for every admissible logger argument (documented default: the name 'qtune').", "quantifier": "all logger arguments and GUI states", "why_tests_cant": "All states.", "anchors": ["qtune/gui.py: GUI.start, step, pause, _work"]}
{"id": "C66", "title": "LeadTransition restores the voltages", "statement": "LeadTransition.evaluate leaves the gate voltages as it found them, on success and on failure, and during the k-th measurement exactly the k-th shifting gate is displaced by -charge_diagram_width.", "quantifier": "all gates, widths, measurement outcomes including exceptions", "why_tests_cant": "All failure points.", "anchors": ["qtune/evaluator.py: LeadTransition.evaluate"]}
{"id": "C67", "title": "Lead transition index", "statement": "new_find_lead_transition_index returns an in-range index, half a window after the first position where |data[i]-data[i+w]| is maximal; for a clean step at k it is within one window of k; the caller's data is not modified.", "quantifier": "all data arrays and widths", "why_tests_cant": "All lengths and data.", "anchors": ["qtune/util.py: new_find_lead_transition_index"]}
{"id": "C68", "title": "Moving average", "statement": "moving_average_filter returns an array of the same length whose entries lie between the minimum and maximum of the data window and reproduces constant data; it fails exactly if the width exceeds the data length.", "quantifier": "all data arrays and widths", "why_tests_cant": "All lengths.", "anchors": ["qtune/util.py: moving_average_filter, nth_diff"]}
{"id": "C69", "title": "Averaging evaluator", "statement": "AveragingEvaluator.evaluate returns for each parameter the mean of the non-NaN repetitions (NaN iff all are NaN) with a nonnegative variance of the mean.", "quantifier": "all repetition numbers and outcomes", "why_tests_cant": "All values.", "anchors": ["qtune/evaluator.py: AveragingEvaluator.evaluate"]}
{"id": "C70", "title": "Evaluators keep their configuration through save and load", "statement": "Rebuilding SensingDot1D, SensingDot2D, LeadTunnelTimePrefitVersion from to_hdf5() preserves the settings that determine their results (flank, sample rate).", "quantifier": "all settings", "why_tests_cant": "All settings.", "anchors": ["qtune/evaluator.py: SensingDot1D.to_hdf5, SensingDot2D.to_hdf5, LeadTunnelTimePrefitVersion.to_hdf5"]}
{"id": "C71", "title": "Range check of the response evaluator", "statement": "QQDResp.evaluate passes on positions inside [min_position, max_position] and marks others as NaN; without given limits nothing is rejected.", "quantifier": "all positions and limits", "why_tests_cant": "All values.", "anchors": ["qtune/sm_tune_qqd.py: QQDResp"]}
{"id": "C72", "title": "Index transformation to MATLAB", "statement": "transform_index(idx) denotes in MATLAB the same elements as idx denotes in Python.", "quantifier": "all array lengths, integers, slices", "why_tests_cant": "All integers.", "anchors": ["qtune/mat2py.py: _transform_int, _transform_slice, transform_index"]}
{"id": "C73", "title": "Array transfer to MATLAB", "statement": "SpecialMeasureMatlab.to_matlab maps a C-ordered 2-D array to the MATLAB array with the same elements at the same (row, column), and a 1-D array to a row vector.", "quantifier": "all shapes and contents, all dtypes of the table of the function", "why_tests_cant": "All shapes.", "anchors": ["qtune/sm.py: SpecialMeasureMatlab.to_matlab"]}
{"id": "C74", "title": "Setting a subset of gates", "statement": "set_gate_voltages of LegacyDQDRefactored / SMTuneQQD with a subset of gates changes exactly these gates if it returns, and no gate if it raises.", "quantifier": "all voltages and subsets", "why_tests_cant": "All label sets.", "anchors": ["qtune/sm.py: LegacyDQDRefactored.set_gate_voltages", "qtune/sm_tune_qqd.py: SMTuneQQD.set_gate_voltages"]}
{"id": "C75", "title": "End-to-end convergence on an affine device", "statement": "A one-tuner Autotuner with NewtonSolver and one-sided finite difference estimators on a device with affine response of full row rank completes the tuning after a bounded number of iterate() calls, for every starting point, set point and positive tolerance.", "quantifier": "all dimensions, affine responses of full row rank, starting points, set points, positive tolerances and epsilons", "why_tests_cant": "Quantifies over all devices.", "anchors": ["qtune/autotuner.py: Autotuner.iterate", "qtune/parameter_tuner.py: SubsetTuner", "qtune/solver.py: NewtonSolver", "qtune/gradient.py: FiniteDifferencesGradientEstimator"]}
{"id": "C76", "title": "Recovery from an older file", "statement": "After a crash, reloading from any file saved earlier in the same run (the writer is asynchronous, so the newest complete file can lag behind) never leads to a completion report although a tuner is not tuned at the present voltages.", "quantifier": "all crash points and all files saved before", "why_tests_cant": "All crash points and writer delays.", "anchors": ["qtune/autotuner.py: Autotuner.save_current_status, load_auto_tuner, iterate", "qtune/storage.py: AsynchronousHDF5Writer"]}
{"id": "C77", "title": "SensingDotTuner recovery", "statement": "After a failed evaluation SensingDotTuner.get_next_voltages suggests the midpoint between the last tuned voltages and the present ones, raises IndexError if there are no tuned voltages, and does not ask the solver; after a successful evaluation it returns the solver's suggestion.", "quantifier": "all tuner states and solvers", "why_tests_cant": "All histories.", "anchors": ["qtune/parameter_tuner.py: SensingDotTuner.get_next_voltages"]}
{"id": "C78", "title": "Newton step with parameters that have no gradient yet", "statement": "NewtonSolver.suggest_next_position makes a suggestion (and raises no LinAlgError) when some parameters have no desired value and their finite difference estimators therefore have never been updated.", "quantifier": "all targets with missing desired values, all estimators", "why_tests_cant": "All combinations of missing desired values and estimator states.", "anchors": ["qtune/solver.py: NewtonSolver.suggest_next_position, jacobian, update_after_step"]}
{"id": "C79", "title": "Request-first finite differences (one-sided)", "statement": "A one-sided FiniteDifferencesGradientEstimator with a given position that is asked for a measurement before its first update completes after n+1 updates with the gradient.", "quantifier": "all dimensions, positions, epsilons, responses", "why_tests_cant": "All dimensions and responses.", "anchors": ["qtune/gradient.py: FiniteDifferencesGradientEstimator.require_measurement, update"]}
{"id": "C80", "title": "Finite differences on a subset of the gates", "statement": "A FiniteDifferencesGradientEstimator that is asked for measurements on a strict subset of its gates comes to an estimate without error.", "quantifier": "all dimensions, subsets, responses", "why_tests_cant": "All subsets and dimensions.", "anchors": ["qtune/gradient.py: FiniteDifferencesGradientEstimator.require_measurement, update", "qtune/solver.py: NewtonSolver.__init__"]}
{"id": "C81", "title": "Nelder-Mead keeps good measurements", "statement": "Every measured point has a point at least as good among the ones the Nelder-Mead solver still holds (its simplex, the points of a shrink in progress, and the reflected point while an expansion is awaited); the simplex contains only measured points.", "quantifier": "all runs, all measurement outcomes", "why_tests_cant": "Unbounded runs.", "anchors": ["qtune/solver.py: NelderMeadSolver.update_after_step"]}
{"id": "C82", "title": "Nelder-Mead mirrors the worst point", "statement": "When the Nelder-Mead solver reflects, it suggests the mirror image of the worst point in the centroid of the other points of the simplex.", "quantifier": "all complete simplices, all dimensions", "why_tests_cant": "All simplices.", "anchors": ["qtune/solver.py: NelderMeadSolver.suggest_next_position"]}
{"id": "C83", "title": "Nelder-Mead builds a simplex in general position", "statement": "If the suggestions are followed and all spans are positive, the first n measurements and the initial point form a simplex of n+1 affinely independent positions.", "quantifier": "all dimensions, initial points, positive spans, measured values", "why_tests_cant": "All dimensions and values.", "anchors": ["qtune/solver.py: NelderMeadSolver.from_scratch, suggest_next_position, update_after_step"]}
{"id": "C84", "title": "Requests of the Kalman estimator below tuned parameters", "statement": "With a common maximum_covariance and the Jacobian of tuned parameters, KalmanGradientEstimator.require_measurement returns None exactly if the variance of the gradient is at most the limit in every unit direction that leaves the tuned parameters unchanged to first order.", "quantifier": "all covariance matrices, Jacobians, limits", "why_tests_cant": "All real matrices.", "anchors": ["qtune/gradient.py: KalmanGradientEstimator.require_measurement lines 311-328"]}
{"id": "C85", "title": "Kalman estimator and change_position", "statement": "After KalmanGradientEstimator.change_position, exact measurements of an affine response do not move the estimate away from the true gradient.", "quantifier": "all positions and responses", "why_tests_cant": "All positions and responses.", "anchors": ["qtune/gradient.py: KalmanGradientEstimator.change_position, update"]}
{"id": "C86", "title": "Kalman filter and estimator survive a reload", "statement": "A KalmanGradient or KalmanGradientEstimator constructed from the to_hdf5 dict of another one has the same state (gradient, covariance, noise, reference point, limits).", "quantifier": "all states, all dimensions", "why_tests_cant": "All states and dimensions.", "anchors": ["qtune/kalman_gradient.py: KalmanGradient.to_hdf5, __init__", "qtune/gradient.py: KalmanGradientEstimator.to_hdf5, __init__"]}
{"id": "C87", "title": "Gates with infinite maximum covariance are ignored", "statement": "A gate whose maximum_covariance is inf does not influence whether KalmanGradientEstimator requests a measurement (documented: 'If inf the dimension is ignored').", "quantifier": "all covariance matrices and limits", "why_tests_cant": "All real matrices.", "anchors": ["qtune/gradient.py: KalmanGradientEstimator.__init__, require_measurement"]}
{"id": "C88", "title": "Steepest point of a sensing dot scan", "statement": "find_stepes_point_sensing_dot, given the number of points of the data, returns a position strictly inside the scanned range, and fails exactly for fewer than 200 points.", "quantifier": "all data arrays, all scan ranges of positive width", "why_tests_cant": "All data and lengths.", "anchors": ["qtune/util.py: find_stepes_point_sensing_dot, nth_diff, moving_average_filter"]}
{"id": "C89", "title": "find_lead_transition keeps the caller's data", "statement": "find_lead_transition does not change the data array it is given.", "quantifier": "all one-dimensional data arrays and widths", "why_tests_cant": "All data.", "anchors": ["qtune/util.py: find_lead_transition"]}
{"id": "C90", "title": "Positions returned by LeadTransition", "statement": "If no measurement raises and the scans have the number of points asked for, LeadTransition.evaluate returns one position for each shifting gate that has a measurement and nothing else, and each position is inside the range of the first measurement.", "quantifier": "all configurations, data and voltages; at least two points more than the window of the evaluator", "why_tests_cant": "All data and configurations.", "anchors": ["qtune/evaluator.py: LeadTransition.evaluate, process_raw_data"]}
{"id": "C91", "title": "LeadTransition returns its declared parameters", "statement": "LeadTransition.evaluate returns values for exactly the parameters it was declared with.", "quantifier": "all configurations", "why_tests_cant": "All configurations.", "anchors": ["qtune/evaluator.py: LeadTransition", "setup_tutorial.ipynb: lta_evaluator"]}
{"id": "C92", "title": "Averaging with a single valid repetition", "statement": "A parameter that exactly one repetition of AveragingEvaluator could measure is reported with this value and the variance 0 (so a consumer must not divide by the variance).", "quantifier": "all repetition numbers and outcomes", "why_tests_cant": "All values.", "anchors": ["qtune/evaluator.py: AveragingEvaluator.evaluate"]}
{"id": "C93", "title": "Range checks of QQDLine and QQDLead", "statement": "QQDLine.evaluate returns the mean of the analysed widths, QQDLead.evaluate the fitted time, exactly if it is a number inside [minimal_value, maximal_value], and NaN otherwise; without given limits nothing is rejected; the variance of QQDLine is the mean squared deviation of the widths divided by their number, and so not negative, and the variance of QQDLead is the given error times the sum of residuals, relative to the reference.", "quantifier": "all analysis results and limits", "why_tests_cant": "All values.", "anchors": ["qtune/sm_tune_qqd.py: QQDLine.process_raw_data, QQDLead.process_raw_data"]}
{"id": "C94", "title": "Steepest point of the two-dimensional sensing dot scan", "statement": "SensingDot2D returns a point of the scan that is not at the border; with rising_flank=True it is the point with the largest slope of the fitted signal, with rising_flank=False the one with the smallest.", "quantifier": "all scans, all fits", "why_tests_cant": "All data.", "anchors": ["qtune/evaluator.py: SensingDot2D.process_raw_data"]}
{"id": "C95", "title": "Voltage limits of the quadruple dot", "statement": "However often and with whatever voltages SMTuneQQD.set_gate_voltages is called, every gate stays within [-1.3 V, 0 V] and no call moves a gate by more than 10 mV.", "quantifier": "all sequences of calls, all voltages including NaN", "why_tests_cant": "Unbounded histories and all voltages.", "anchors": ["qtune/sm_tune_qqd.py: SMTuneQQD.set_gate_voltages", "qtune/MATLAB/+qtune/set_qqd_gate_voltages.m"]}
{"id": "C96", "title": "Voltage limits of the double dot", "statement": "However often and with whatever voltages LegacyDQDRefactored.set_gate_voltages is called, every gate stays within 30 mV of the pretuned point.", "quantifier": "all sequences of calls, all voltages", "why_tests_cant": "Unbounded histories and all voltages.", "anchors": ["qtune/sm.py: LegacyDQDRefactored.set_gate_voltages", "qtune/MATLAB/+qtune/set_gates_v_pretuned.m"]}
{"id": "C97", "title": "Absolute limits of the quadruple dot", "statement": "set_qqd_gate_voltages_abs_limit sets only voltages within [-1.3 V, -0.4 V]; a refused call changes nothing.", "quantifier": "all voltages", "why_tests_cant": "All voltages.", "anchors": ["qtune/MATLAB/+qtune/set_qqd_gate_voltages_abs_limit.m"]}
{"id": "C98", "title": "Steps of the sensing dot", "statement": "change_sensing_dot_gates moves SDB1 and SDB2 by exactly the given amounts if both are at most 21 mV and both gates end within 70 mV of the pretuned point; otherwise it fails and changes nothing.", "quantifier": "all voltages that are numbers", "why_tests_cant": "All voltages.", "anchors": ["qtune/MATLAB/+qtune/change_sensing_dot_gates.m"]}
{"id": "C99", "title": "Retuning the sensor", "statement": "retune_qpc leaves the retuned gate within 100 mV of its pretuned voltage, and at its pretuned voltage if it fails.", "quantifier": "all gates and voltages", "why_tests_cant": "All voltages.", "anchors": ["qtune/MATLAB/+qtune/retune_qpc.m"]}
{"id": "C100", "title": "Iterating over MATLAB data", "statement": "Iterating over a MATLABStructView or MATLABCellView requests every element once, in order, and no index outside of the array.", "quantifier": "all lengths", "why_tests_cant": "All lengths.", "anchors": ["qtune/mat2py.py: MATLABStructView.__iter__, MATLABCellView.__iter__, transform_index"]}
{"id": "C101", "title": "Voltages of the simulated experiment", "statement": "After TestExperiment.set_gate_voltages(new), read_gate_voltages() returns the values of new for its gates, the former ones for all others, sorted by name.", "quantifier": "all Series", "why_tests_cant": "All Series.", "anchors": ["qtune/basic_dqd.py: TestExperiment.set_gate_voltages, read_gate_voltages"]}
{"id": "C102", "title": "The simulated experiment keeps the caller's Series", "statement": "The Series of initial voltages given to TestExperiment is not changed by setting voltages.", "quantifier": "all sequences of calls", "why_tests_cant": "Unbounded histories.", "anchors": ["qtune/basic_dqd.py: TestExperiment.__init__, set_gate_voltages"]}
{"id": "C103", "title": "Voltages of the tuners after construction", "statement": "After the construction of an Autotuner every tuner has last_voltages: the ones it had, or else those read from the experiment; nothing else of the tuners changes.", "quantifier": "all hierarchies", "why_tests_cant": "All hierarchies.", "anchors": ["qtune/autotuner.py: Autotuner.__init__"]}
{"id": "C104", "title": "Raw data of the sensing dot in the history", "statement": "The evaluator data that the history stores after an evaluation of a SensingDotTuner contains the data of the expensive evaluators exactly if they were called in this evaluation.", "quantifier": "all sequences of evaluations", "why_tests_cant": "The stored selection depends on a flag that earlier evaluations leave behind.", "anchors": ["qtune/history.py: read_evaluator_data_from_autotuner", "qtune/parameter_tuner.py: SensingDotTuner.is_tuned"]}
{"id": "C105", "title": "Requests keep parameters that are tuned already", "statement": "If the parameters in tuned_parameters are tuned, NewtonSolver.suggest_next_position with Kalman estimators returns, whenever it requests a measurement, a displacement from the last voltages on the gates of the solver that does not change these parameters to first order.", "quantifier": "all estimator states, targets, sets of tuned parameters, update histories", "why_tests_cant": "All real gradients and covariances.", "anchors": ["qtune/solver.py: NewtonSolver.suggest_next_position lines 209-224", "qtune/gradient.py: KalmanGradientEstimator.require_measurement"]}
{"id": "C106", "title": "Meaning of all_estimators_ready", "statement": "Autotuner.all_estimators_ready is True exactly if every NewtonSolver of the hierarchy would make a Newton step instead of requesting a measurement, and it never raises.", "quantifier": "all hierarchies, all states of the estimators", "why_tests_cant": "All combinations of estimator states and targets.", "anchors": ["qtune/autotuner.py: Autotuner.all_estimators_ready"]}
{"id": "C107", "title": "all_estimators_ready is a query", "statement": "Reading Autotuner.all_estimators_ready any number of times at any moments has no effect on later suggestions, errors or stored data.", "quantifier": "all histories of calls with queries at any places", "why_tests_cant": "Unbounded histories.", "anchors": ["qtune/autotuner.py: Autotuner.all_estimators_ready lines 135-138", "qtune/gradient.py: FiniteDifferencesGradientEstimator.require_measurement"]}
{"id": "C108", "title": "Nelder-Mead moves after a reflection", "statement": "After a reflected point has been measured, the Nelder-Mead solver suggests the expansion if it is the best point so far, a contraction if it is not better than the second worst point (outside if it is better than the worst, inside otherwise), and otherwise puts it in place of the worst point and reflects again; of expanded and reflected point the better one replaces the worst point, a contracted point does if it is an improvement. The suggested points lie on the line from the worst point through the centroid of the simplex at factors 1 (reflection), 2, 1/2 and -1/2.", "quantifier": "all runs, simplices, dimensions and measured values", "why_tests_cant": "All real costs and positions, unbounded runs.", "anchors": ["qtune/solver.py: NelderMeadSolver.suggest_next_position, update_after_step"]}
{"id": "C109", "title": "Nelder-Mead shrinks towards the best point", "statement": "After a failed contraction the next n suggestions of the Nelder-Mead solver are the midpoints between the best point and each other point of the simplex, in order, whatever is measured meanwhile; then the simplex consists of the n+1 best of its former points and the n new ones.", "quantifier": "all runs, simplices, dimensions and measured values", "why_tests_cant": "All real costs and positions, unbounded runs.", "anchors": ["qtune/solver.py: NelderMeadSolver.suggest_next_position, update_after_step"]}
{"id": "C110", "title": "Newton solvers reject inconsistent set ups", "statement": "NewtonSolver(...) succeeds exactly if there is one estimator for each parameter, every estimator knows all gates of the initial position, there is at least one gate for each parameter and, if values are given, one for each parameter; otherwise it raises AssertionError. What was checked stays true, whatever calls follow.", "quantifier": "all targets, estimators, gates, values; all sequences of calls", "why_tests_cant": "Unbounded histories.", "anchors": ["qtune/solver.py: NewtonSolver.__init__, update_after_step, suggest_next_position"]}
{"id": "C111", "title": "End-to-end convergence with a maximal step size", "statement": "On a noise-free affine device with a reachable target, an Autotuner with one SubsetTuner, a NewtonSolver with finite differences and a maximal step size of at least twice the largest step of the finite differences never raises and completes its tuning within a number of iterations that grows linearly with the distance from the solution divided by the maximal step size; all parameters are then within their tolerances.", "quantifier": "all affine devices, dimensions, starts, targets, tolerances, maximal step sizes and numbers", "why_tests_cant": "Unbounded runs of the composed system.", "anchors": ["qtune/autotuner.py: Autotuner.iterate, slice_step", "qtune/parameter_tuner.py: SubsetTuner", "qtune/solver.py: NewtonSolver", "qtune/gradient.py: FiniteDifferencesGradientEstimator"]}
{"id": "C112", "title": "End-to-end convergence with Kalman estimators that know the gradients", "statement": "On a noise-free affine device with a reachable target, an Autotuner with one SubsetTuner and a NewtonSolver whose Kalman estimators know the gradients with an uncertainty below the maximum covariance never raises, makes no further measurements of gradients and completes its tuning after at most 4 iterations, or with a maximal step size after a number of iterations that grows linearly with the distance from the solution divided by it.", "quantifier": "all affine devices, dimensions, starts, targets, tolerances, positive variances, maximal step sizes and numbers", "why_tests_cant": "Unbounded runs of the composed system.", "anchors": ["qtune/autotuner.py: Autotuner.iterate", "qtune/parameter_tuner.py: SubsetTuner", "qtune/solver.py: NewtonSolver", "qtune/gradient.py: KalmanGradientEstimator", "qtune/kalman_gradient.py: KalmanGradient"]}
{"id": "C113", "title": "Failing fits are reported as NaN", "statement": "If the data of an evaluator cannot be fitted, evaluate() returns NaN for its parameters (which stops the tuning of these parameters, not the run) and does not raise.", "quantifier": "all measured data, all outcomes of the fit routine", "why_tests_cant": "All data and all fit results.", "anchors": ["qtune/evaluator.py: LeadTunnelTimePrefitVersion, LeadTunnelTimeByLeadScan, InterDotTCByLineScan, NewLoadTime (evaluate)"]}
{"id": "C114", "title": "Results are labelled by the parameters of the evaluator", "statement": "evaluate() of an evaluator that fits a curve returns values and errors labelled by the names in its property parameters.", "quantifier": "all names, all data, all outcomes of the fit routine", "why_tests_cant": "All names and all data.", "anchors": ["qtune/evaluator.py: LeadTunnelTimePrefitVersion, LeadTunnelTimeByLeadScan, InterDotTCByLineScan, NewLoadTime (evaluate)"]}
{"id": "C115", "title": "Recalculation from stored data", "statement": "After evaluate() has returned, process_raw_data applied to the stored raw_data of the evaluator gives the fit result of this evaluation again.", "quantifier": "all data, all fit routines", "why_tests_cant": "All data.", "anchors": ["qtune/evaluator.py: Evaluator.process_raw_data, Evaluator.raw_data and the four evaluators that fit curves"]}
{"id": "C116", "title": "The second fit emphasises the transition", "statement": "In the second, weighted fit the points around the transition that the first fit has found count most.", "quantifier": "all scan ranges, numbers of points and positions", "why_tests_cant": "All real positions.", "anchors": ["qtune/evaluator.py: InterDotTCByLineScan.process_raw_data lines 419-426, LeadTunnelTimePrefitVersion.process_raw_data lines 183-191"]}
{"id": "C117", "title": "Time constants of the fitted pulse response", "statement": "The functions that are fitted to the response to the pulse relax exponentially with the time constants t_rise and t_fall that are reported, between offset - height/2 and offset + height/2, without jumps if the edges are half a period apart.", "quantifier": "all fit parameters, all times", "why_tests_cant": "All real parameters.", "anchors": ["qtune/evaluator.py: func_lead_times_v1, func_lead_times_v2"]}
{"id": "C118", "title": "Ranges of fitted times", "statement": "The load time that NewLoadTime reports is NaN or between 2 and 300; tunnel times are never negative and their error is a fifth of them.", "quantifier": "all data, all fit routines that respect bounds", "why_tests_cant": "All data.", "anchors": ["qtune/evaluator.py: NewLoadTime, LeadTunnelTimePrefitVersion, LeadTunnelTimeByLeadScan"]}
{"id": "C119", "title": "End-to-end convergence of a hierarchy", "statement": "An Autotuner with several tuners whose Newton solvers share gradient estimators (the parameters of the other tuners have NaN as desired value, as in the tutorial) never raises and completes its tuning on every noise-free affine device whose gradients are known and independent on the gates of each tuner; the later tuners keep what the earlier ones have tuned, so that at the end all parameters are within their tolerances at the same voltages.", "quantifier": "all numbers of tuners, affine devices, dimensions, starts, targets, tolerances, maximal step sizes and numbers", "why_tests_cant": "Unbounded runs of the composed system.", "anchors": ["qtune/autotuner.py: Autotuner.iterate, ready_to_tune, is_tuned", "qtune/parameter_tuner.py: SubsetTuner", "qtune/solver.py: NewtonSolver.suggest_next_position", "setup_tutorial.ipynb: cd_target, par_target, shared gradient estimators"]}
{"id": "C120", "title": "The requests of a Kalman estimator come to an end", "statement": "If the measurements that a KalmanGradientEstimator (without process noise and fading memory, common maximum covariance and step width of at least 1e-7) requests are made, it requests only finitely many, whatever is measured besides and whatever the results are: at most the sum of the initial variances times (eps^2 m + r) / (eps^2 m^2), where m is the maximum covariance and r the largest variance of a result. After that the variance is at most m in every direction of the gates.", "quantifier": "all gradients, covariances, results, interleaved measurements, gates and Jacobians of tuned parameters", "why_tests_cant": "Unbounded histories over real matrices.", "anchors": ["qtune/gradient.py: KalmanGradientEstimator.require_measurement, update", "qtune/kalman_gradient.py: KalmanGradient.update"]}
{"id": "C121", "title": "End-to-end convergence while the gradients are learned", "statement": "An Autotuner with one tuner without maximal step size, whose NewtonSolver uses KalmanGradientEstimators that start with wrong gradients, never raises and completes its tuning on every noise-free affine device, if the limit of the covariances is small enough for the initial errors (measured by the covariances the estimators start with) and the smallest singular value of the Jacobian. The number of calls is bounded by the initial covariances, the step widths and the distance to the set points.", "quantifier": "all affine devices, dimensions, starts, targets, tolerances, reported variances, initial gradients and covariances", "why_tests_cant": "Unbounded runs of the composed system over the reals.", "anchors": ["qtune/autotuner.py: Autotuner.iterate", "qtune/parameter_tuner.py: SubsetTuner", "qtune/solver.py: NewtonSolver.suggest_next_position, update_after_step", "qtune/gradient.py: KalmanGradientEstimator"]}
{"id": "C122", "title": "A Kalman filter with fading memory follows the device", "statement": "With fading memory (alpha > 1) a KalmanGradient forgets: whatever was measured before, after a change of the device the error of the gradient shrinks with every exact measurement at least geometrically, with a constant that does not depend on the length of the history. Without fading memory (the default) the number of measurements needed grows without bound with the history.", "quantifier": "all histories, covariances, numbers of values and positions, all fading factors", "why_tests_cant": "Unbounded histories over real matrices.", "anchors": ["qtune/kalman_gradient.py: KalmanGradient.__init__ (alpha), update (predict), grad"]}
{"id": "C123", "title": "Renewed requests", "statement": "A KalmanGradientEstimator without process noise and fading memory that has no request for some gates never has one again, whatever is measured; with fading memory it asks again once the direction has not been probed for long enough.", "quantifier": "all histories of updates and restarts, all gates and covariances", "why_tests_cant": "Unbounded histories.", "anchors": ["qtune/gradient.py: KalmanGradientEstimator.require_measurement, update", "qtune/kalman_gradient.py: KalmanGradient.update"]}
{"id": "C124", "title": "Suggested differences", "statement": "sugg_diff_position returns a direction in which the gradient is known worst, if the errors of different values are not coupled; they stay uncoupled if the noise does not couple them.", "quantifier": "all numbers of values and positions, all covariances and histories", "why_tests_cant": "All real matrices.", "anchors": ["qtune/kalman_gradient.py: KalmanGradient.sugg_diff_position, update"]}
{"id": "C125", "title": "End-to-end convergence on devices that are not affine", "statement": "An Autotuner with one tuner without maximal step size, whose NewtonSolver uses one-sided finite difference estimators with a common step width, never raises and completes its tuning on every device whose responses deviate little enough from affine ones (by at most kappa times the length of a step plus a constant delta), although the measured gradients are wrong: each Newton step reduces what is missing by a factor below 1 up to delta. The tolerances have to exceed delta / (1 - a) where a is this factor; the number of calls is bounded.", "quantifier": "all responses (kinks, jumps, reproducible errors included), dimensions, starts, targets, tolerances, step widths", "why_tests_cant": "Unbounded runs of the composed system over the reals.", "anchors": ["qtune/autotuner.py: Autotuner.iterate", "qtune/parameter_tuner.py: SubsetTuner", "qtune/solver.py: NewtonSolver.suggest_next_position, update_after_step", "qtune/gradient.py: FiniteDifferencesGradientEstimator"]}
{"id": "C126", "title": "End-to-end convergence with noise", "statement": "An Autotuner with one tuner without maximal step size, whose NewtonSolver uses one-sided finite difference estimators with a common step width, never raises and completes its tuning on every nearly affine device although every evaluation returns values that are wrong in another way, by at most nu: adversarial noise, also at voltages visited again. The tolerances have to exceed (delta + 2 nu) / (1 - a); the number of calls is bounded in advance, and the true responses are at the end off the set points by less than tolerance plus nu.", "quantifier": "all noise sequences bounded by nu, all responses, dimensions, starts, targets, tolerances, step widths", "why_tests_cant": "Unbounded runs of the composed system over the reals against an adversary.", "anchors": ["qtune/autotuner.py: Autotuner.iterate", "qtune/parameter_tuner.py: SubsetTuner", "qtune/solver.py: NewtonSolver.suggest_next_position, update_after_step", "qtune/gradient.py: FiniteDifferencesGradientEstimator"]}
{"id": "C127", "title": "End-to-end convergence with failing evaluations", "statement": "If evaluations fail now and then (a relevant parameter is NaN), an Autotuner with one tuner without maximal step size, whose NewtonSolver uses one-sided finite difference estimators or Kalman estimators that know the gradients, still never raises and completes its tuning on every affine device with independent gradients, provided that the first evaluation works and never more than L evaluations in a row fail, however many fail altogether. The number of calls is bounded in advance, independently of which evaluations fail. If the very first evaluation fails the second call of iterate raises IndexError.", "quantifier": "all patterns of failures with at most L in a row, all affine devices, dimensions, starts, targets, tolerances, step widths", "why_tests_cant": "Unbounded runs of the composed system against an adversary that chooses the failures.", "anchors": ["qtune/autotuner.py: Autotuner.iterate", "qtune/parameter_tuner.py: SubsetTuner.is_tuned, SubsetTuner.get_next_voltages", "qtune/solver.py: NewtonSolver", "qtune/gradient.py: FiniteDifferencesGradientEstimator"]}
{"id": "C128", "title": "End-to-end convergence on a monotone device", "statement": "An Autotuner with one tuner, one gate and one parameter, whose NewtonSolver uses a one-sided finite difference estimator, completes its tuning on every device whose response is continuous and strictly increasing.", "quantifier": "all continuous, strictly increasing responses, all set points, starts, tolerances, step widths", "why_tests_cant": "Unbounded runs of the composed system over the reals.", "anchors": ["qtune/autotuner.py: Autotuner.iterate", "qtune/parameter_tuner.py: SubsetTuner", "qtune/solver.py: NewtonSolver.suggest_next_position, update_after_step", "qtune/gradient.py: FiniteDifferencesGradientEstimator.update (the gradient is measured once)"]}
{"id": "C129", "title": "Files written in the background refer to the reserved objects", "statement": "A file that AsynchronousHDF5Writer.write has written, in thread or in process mode, can be loaded with the experiment as reserved object: wherever the experiment was, the loaded objects refer to the given experiment; everything else is a copy.", "quantifier": "all graphs of objects, reserved objects, names and addresses, both modes", "why_tests_cant": "All object graphs and all memory addresses.", "anchors": ["qtune/storage.py: AsynchronousHDF5Writer.write, to_hdf5, from_hdf5", "qtune/experiment.py: Experiment.__deepcopy__"]}
{"id": "C130", "title": "SensingDot1D returns the steepest point", "statement": "SensingDot1D.evaluate returns the position in the scan, away from its borders, at which the fitted signal is steepest in the wanted direction, the slope there as optimal_signal, and the slope at the present voltage as current_signal.", "quantifier": "all voltages, data, fits, options and numbers of points", "why_tests_cant": "All real data and all fitted curves.", "anchors": ["qtune/evaluator.py: SensingDot1D.evaluate, SensingDot1D.process_raw_data"]}
{"id": "C131", "title": "A tuning survives any number of crashes", "statement": "The process that tunes may die at any point of any call of iterate, as often as it likes (also while voltages are being written). If it is started again each time with the autotuner that is loaded from the newest file, the file can be loaded, iterate does not raise, and the tuning is complete after a number of returned calls that does not depend on the crashes; the voltages then meet the set points.", "quantifier": "all crash points and numbers of crashes, all affine devices, set points, tolerances and starts", "why_tests_cant": "All interleavings of crashes with an unbounded run of the composed system, including the loading.", "anchors": ["qtune/autotuner.py: Autotuner.iterate, save_current_status, to_hdf5", "qtune/parameter_tuner.py: SubsetTuner.to_hdf5, ParameterTuner.__init__", "qtune/solver.py: NewtonSolver.to_hdf5, NewtonSolver.__init__", "qtune/gradient.py: KalmanGradientEstimator.to_hdf5, FiniteDifferencesGradientEstimator.__init__"]}
{"id": "C132", "title": "End-to-end convergence with symmetric finite differences", "statement": "An Autotuner with one tuner whose NewtonSolver uses symmetric finite difference estimators never raises and completes its tuning on every noise-free affine device with linearly independent gradients, within a number of calls that is known in advance (6 n + 4 for n gates without a maximal step size).", "quantifier": "all affine devices, dimensions, starts, targets, tolerances, step widths, maximal step sizes, estimators created with or without a position", "why_tests_cant": "Unbounded runs of the composed system over the reals.", "anchors": ["qtune/autotuner.py: Autotuner.iterate", "qtune/parameter_tuner.py: SubsetTuner", "qtune/solver.py: NewtonSolver.suggest_next_position, update_after_step", "qtune/gradient.py: FiniteDifferencesGradientEstimator.__init__, require_measurement, update (symmetric_calculation)"]}
{"id": "C133", "title": "End-to-end convergence of a hierarchy with finite differences", "statement": "An Autotuner with several tuners whose Newton solvers share fresh one-sided finite difference estimators (one for each parameter; the parameters of the other tuners have NaN as desired value) never raises and completes its tuning on every noise-free affine device whose gradients are independent on the gates of each tuner.", "quantifier": "all numbers of tuners, affine devices, dimensions, starts, targets, tolerances, step widths, maximal step sizes", "why_tests_cant": "Unbounded runs of the composed system over the reals.", "anchors": ["qtune/autotuner.py: Autotuner.iterate, tuned_parameters", "qtune/parameter_tuner.py: SubsetTuner", "qtune/solver.py: NewtonSolver.suggest_next_position, jacobian, update_after_step", "qtune/gradient.py: FiniteDifferencesGradientEstimator"]}
{"id": "C134", "title": "End-to-end convergence of a hierarchy with rough gradients", "statement": "An Autotuner with several tuners without maximal step sizes, whose Newton solvers share Kalman estimators with limits on their uncertainty, never raises and completes its tuning on every affine device with positive variances of the values, if (in units of the targets) the initial errors of the gradients are smaller than the smallest singular value of the Jacobian on the gates of each tuner divided by 1 + \u221aK (K the number of tuners), and if the requested test steps change the parameters by less than what a Newton step gains of the smallest tolerance; the number of calls is bounded by an explicit number.", "quantifier": "all numbers of tuners, affine devices, dimensions, starts, targets, tolerances, initial gradients and covariances, limits, step sizes, variances of the values, solutions of eigh and nullspace within their contracts", "why_tests_cant": "Unbounded runs of the composed system over the reals; steps and requests of one tuner disturb the others.", "anchors": ["qtune/autotuner.py: Autotuner.iterate, tuned_parameters", "qtune/parameter_tuner.py: SubsetTuner", "qtune/solver.py: NewtonSolver.suggest_next_position, jacobian, update_after_step", "qtune/gradient.py: KalmanGradientEstimator.require_measurement, update", "qtune/kalman_gradient.py: KalmanGradient.update"]}
{"id": "C135", "title": "An operator may intervene at any time", "statement": "While an Autotuner works, the operator may change the gate voltages by hand and call restart, and change desired values and tolerances with change_targets, at any time and as often as they like. No call raises; whenever the tuning is complete, the present voltages meet the present set points of all tuners; and if the operator leaves the Autotuner alone, the tuning is complete after a bounded number of calls (hierarchies of Newton solvers on an affine device with known gradients).", "quantifier": "all interleavings of iterate, restart after changes by hand and change_targets, all affine devices, numbers of tuners, dimensions, starts, targets, tolerances", "why_tests_cant": "All schedules of an unbounded session over the reals.", "anchors": ["qtune/autotuner.py: Autotuner.iterate, restart, change_targets", "qtune/parameter_tuner.py: SubsetTuner.is_tuned, SubsetTuner.get_next_voltages, ParameterTuner.restart, last_voltages", "qtune/solver.py: Solver.target, NewtonSolver.restart", "qtune/gradient.py: KalmanGradientEstimator.restart"]}
{"id": "C136", "title": "Calling MATLAB functions through views", "statement": "Calling a view on a MATLAB function calls this function with the values that the arguments have at the time of the call, in their order, and returns its result; the call changes no variable in the workspace of the user, and results that were returned as views stay valid.", "quantifier": "all functions, values, workspaces, arguments (views and plain values), all histories of calls", "why_tests_cant": "All workspaces and unbounded histories of calls; there is no MATLAB in the tests.", "anchors": ["qtune/mat2py.py: MATLABFunctionView.__call__, MATLABFunctionView.clear_all_temporary_data, MATLABView._eval"]}
{"id": "C137", "title": "Connections to MATLAB sessions", "statement": "SpecialMeasureMatlab(connect=name) returns the engine of the running MATLAB session that is shared under this name, also if the program is already connected to it (MATLAB refuses a second connection).", "quantifier": "all histories of constructions, dropped engines, sessions opened, shared and ended", "why_tests_cant": "All histories of a program and its environment; there is no MATLAB in the tests.", "anchors": ["qtune/sm.py: SpecialMeasureMatlab.__init__, _start_engine, _connect_to_engine, connected_engines"]}
{"id": "C138", "title": "Files of the rows of a history", "statement": "If an autotuner is appended to a history with the path of its file after each call of iterate, get_reload_path(k) is the path of the last file that shows the voltages of row k; appending does not raise, whatever the gradient estimators know.", "quantifier": "all sequences of appended autotuners and paths, all gradient estimators, all hierarchies, devices and starts", "why_tests_cant": "Unbounded sequences of autotuners whose estimators may know their gradients or not; exceptions are caught by the user interface and the session goes on.", "anchors": ["qtune/history.py: History.append_autotuner, History.get_reload_path, extract_gradients_from_hierarchy", "qtune/gui.py: Worker loop, ReloadWidget"]}
{"id": "C139", "title": "Reload windows", "statement": "'Reload Voltages' in a reload window sets the voltages of the tune run whose number the window shows, and the tuning goes on from there: the autotuner that the main window iterates is restarted with them. 'Reload Entire State' makes the main window go on with the autotuner that was stored for this tune run.", "quantifier": "all sessions: sequences of iterations, windows opened, numbers typed and buttons pressed in any window, all hierarchies, experiments and histories", "why_tests_cant": "Unbounded sequences of actions in any number of windows.", "anchors": ["qtune/gui.py: ReloadWidget, GUI.spawn_reload_window, GUI.load_auto_tuner_from_reload_widget", "qtune/history.py: History.get_gate_values, History.get_reload_path", "qtune/autotuner.py: Autotuner.restart, load_auto_tuner"]}
{"id": "C140", "title": "History of a directory", "statement": "History(directory) of the directory in which an autotuner saves its states is the history to which the autotuner was appended after each call of iterate, in whatever order the operating system lists the files, also if the autotuner was reloaded in between.", "quantifier": "all runs, states and times, all orders of the listing, all points at which the autotuner is reloaded", "why_tests_cant": "Unbounded sequences of files and all orders of the listing.", "anchors": ["qtune/history.py: History.load_directory, History.append_autotuner", "qtune/autotuner.py: Autotuner.__init__, save_current_status, load_auto_tuner", "qtune/util.py: time_string", "qtune/storage.py: ParallelHDF5Reader.read_iter"]}
{"id": "C141", "title": "get_gradient_variances returns the diagonal of the covariance", "statement": "History.get_gradient_variances(p) returns exactly the variances of the gradient of parameter p, by the names of the gates.", "quantifier": "all names of parameters and gates, all columns of a history", "why_tests_cant": "All texts as names.", "anchors": ["qtune/history.py: History.get_gradient_variances, History._unravel_gradient_covariance_matrix"]}
{"id": "C142", "title": "Restarting while the worker iterates", "statement": "The user may set voltages by hand and call Autotuner.restart() at any moment while another thread (the worker of the GUI) is inside iterate(): afterwards no voltages that were computed before the restart are written, and is_tuning_complete() is true only if all tuners have reported tuned since the restart.", "quantifier": "all hierarchies, experiments, starts and all schedules of the worker and of other threads", "why_tests_cant": "All interleavings of two threads.", "anchors": ["qtune/autotuner.py: Autotuner.iterate, restart, change_targets", "qtune/gui.py: GUI._work, ReloadWidget.reload_voltages"]}
{"id": "C143", "title": "Evaluators that fit a curve report the parameters of the curve that was measured", "statement": "If the measured data follow a curve of the fitted family exactly, and the fit routine finds curves that agree with the data whenever there are some within its bounds, evaluate() returns parameters of such a curve under the right names: the decay time for NewLoadTime, the width of the transition for InterDotTCByLineScan, the times of rise and fall for LeadTunnelTimePrefitVersion and LeadTunnelTimeByLeadScan. If the data determine the parameter, it is the true one.", "quantifier": "all data that follow such a curve, numbers of points, settings of the evaluators, fit routines that find exact fits", "why_tests_cant": "A unit test fits a few simulated curves; which row, which label and which entry of the fit result is used, and whether the data determine the parameter, concerns all curves.", "anchors": ["qtune/evaluator.py:NewLoadTime", "qtune/evaluator.py:InterDotTCByLineScan", "qtune/evaluator.py:LeadTunnelTimePrefitVersion", "qtune/evaluator.py:LeadTunnelTimeByLeadScan"]}
{"id": "C144", "title": "Exceptions that are caught do no harm", "statement": "If an evaluator, set_gate_voltages or the saving of the state raises during a call of iterate() and the user catches the exception and goes on calling iterate(), the tuning continues as if the interrupted call had not taken place: every reachable state is the state of a run without exceptions, up to values that are written before they are read, and a tuning that is complete within N calls is complete after N calls without exception, however many others are in between.", "quantifier": "all sequences of calls and exceptions, all evaluators that raise, gates left at any voltages by a failing write, all numbers of tuners, gates and parameters, estimators and devices", "why_tests_cant": "Exceptions at every point of runs of any length.", "anchors": ["qtune/autotuner.py: Autotuner.iterate", "qtune/parameter_tuner.py: SubsetTuner.is_tuned, SensingDotTuner.is_tuned", "qtune/solver.py: NewtonSolver"]}
{"id": "C145", "title": "A raw data window shows the data of the row whose number is displayed", "statement": "In the windows that show raw data, the picture that appears when the button of an evaluator is pressed is made from the raw data this evaluator recorded in the row of the history whose number is displayed.", "quantifier": "all histories, numbers typed, evaluators and previous states of the window", "why_tests_cant": "All lengths of histories and all numbers.", "anchors": ["qtune/gui.py: EvaluatorWidget", "qtune/history.py: History.plot_single_evaluator_data"]}
{"id": "C146", "title": "Raw data rows belong to the rows of the history", "statement": "History has one row of raw data per row of parameters, and row k of the raw data was recorded for the measurements of row k of the history.", "quantifier": "all sequences of appended autotuners, all hierarchies and evaluators", "why_tests_cant": "Unbounded sequences of appended autotuners.", "anchors": ["qtune/history.py: History.append_autotuner, read_evaluator_data_from_autotuner, plot_single_evaluator_data"]}
{"id": "C147", "title": "A row of a history belongs together", "statement": "If an autotuner is appended to a history after each call of iterate, all values and variances in a row were reported by the evaluators while the gates had the voltages of this row, or are NaN.", "quantifier": "all numbers of calls, hierarchies, estimators, devices and starts", "why_tests_cant": "Unbounded runs; the order of evaluation, voltage changes and recording matters.", "anchors": ["qtune/history.py: History.append_autotuner, read_from_autotuner", "qtune/autotuner.py: Autotuner.iterate", "qtune/parameter_tuner.py: SubsetTuner"]}
{"id": "C148", "title": "Measuring leaves the gates where they are", "statement": "After LegacyDQDRefactored.measure has returned, all gates have the voltages they had before, whichever gates were swept; also after any sequence of measurements.", "quantifier": "all voltages, measurements with all options, sequences of measurements, programs that run scans", "why_tests_cant": "The instrument is not there in a unit test; all voltages and sequences.", "anchors": ["qtune/sm.py: LegacyDQDRefactored.measure", "qtune/MATLAB/+qtune: PythonChargeLineScan, PythonLineScan, PythonQPCScan2D, LeadScan, LoadScan"]}
{"id": "C149", "title": "The scan that is performed is the scan that was asked for", "statement": "LegacyDQDRefactored.measure sweeps the gates that the options name, over the range, with the number of points, the time per point and the number of repetitions that they give; so the x-axis that an evaluator calculates from the options is the voltage of the gate at each point. A 2D scan never sweeps its fast gate faster than the speed to which the instrument limits it, and takes no more points than this needs, rounded up to a multiple of 256.", "quantifier": "all options, voltages and instruments", "why_tests_cant": "All options; the instrument is not there in a unit test.", "anchors": ["qtune/sm.py: LegacyDQDRefactored.measure", "qtune/MATLAB/+qtune: makePythonChargeLineScan, makePythonLineScan, makePythonQPCScan2D, make_lead_scan, LoadScan", "qtune/evaluator.py: SensingDot1D, SensingDot2D, LeadTransition, InterDotTCByLineScan"]}
{"id": "C150", "title": "Pass-through evaluators assign values and variances in order", "statement": "SMQQDPassThru.evaluate() returns for every parameter, in order, the value that the measurements returned for it, with the variance that belongs to it: the measured one for line measurements, otherwise the known variance scaled with the residuals of the measurement. If the variances are not known, the parameter is measured eight times and the variance is the sample variance of these values. Afterwards the evaluator has the names of the files of exactly the measurements of the last evaluation.", "quantifier": "all lists of measurements and parameters, results and known variances, exceptions of the measurements", "why_tests_cant": "All combinations of measurements with different numbers of values.", "anchors": ["qtune/sm_tune_qqd.py: SMQQDPassThru, SMTuneQQD"]}
{"id": "C151", "title": "A sensing dot is kept sensitive while the other parameters are tuned", "statement": "An autotuner whose first tuner is a SensingDotTuner with a ForwardingSolver completes after finitely many calls of iterate, with a sensitive sensing dot and all set points met, although the evaluators of the other tuners only work where the dot is sensitive: if at most R adjustments make the dot sensitive from everywhere, the other parameters respond linearly, their estimators know the gradients, and the gates of the dot do not affect them. No call raises. Without the last condition the tuning need not end.", "quantifier": "all numbers of gates, parameters and tuners, sensing dots, linear devices, starts, maximal step sizes, and behaviours of the evaluators where the dot is not sensitive", "why_tests_cant": "Unbounded runs of a hierarchy; the device and the solvers interact.", "anchors": ["qtune/autotuner.py: Autotuner.iterate", "qtune/parameter_tuner.py: SensingDotTuner, SubsetTuner", "qtune/solver.py: ForwardingSolver, NewtonSolver", "qtune/kalman_gradient.py: KalmanGradient"]}
{"id": "C152", "title": "The plot of the gui shows exactly what is selected", "statement": "After a refresh (button or change of the selection) the plot shows the selected voltages, parameters, components of gradients and their error bars with the data that the history has at this time, and nothing else; whatever was selected before and however earlier refreshs ended.", "quantifier": "all selections, histories and sequences of refreshs, including refreshs that raise", "why_tests_cant": "Unbounded sessions and all combinations of selected curves.", "anchors": ["qtune/gui.py: PlotOrganizer.refresh, PlotOrganizer._remove_plot, PlotOrganizer.plot_selection_change", "qtune/history.py: History.get_gradients, get_gradient_variances, get_parameter_values, get_gate_values"]}
{"id": "C153", "title": "MATLAB uses the files of this installation", "statement": "After SpecialMeasureMatlab has been constructed, the package qtune that MATLAB finds is the one of this installation, unless the user passed silently_overwrite_path=False and another one was on the path; if another one is replaced without permission having been given there is a warning; if the package cannot be found, a RuntimeError is raised. The other directories on the path stay there.", "quantifier": "all search paths of MATLAB, all values of silently_overwrite_path", "why_tests_cant": "MATLAB is not there in a unit test; all search paths.", "anchors": ["qtune/sm.py: SpecialMeasureMatlab._add_qtune_to_path", "qtune/MATLAB/+qtune/find_qtune.m"]}
{"id": "C154", "title": "The options of a measurement reach the tune program", "statement": "SMTuneQQD.measure calls tune.tune with the name and the index of the measurement and every other option as name and value, numbers as floats of the same value; the options of the measurement keep their meaning, so that the same call is made when it is used again. A measurement with a name that it does not know raises ValueError, and nothing is called.", "quantifier": "all measurements and options", "why_tests_cant": "All dictionaries of options with values of all types.", "anchors": ["qtune/sm_tune_qqd.py: SMTuneQQD.measure, pytune, tune", "qtune/sm.py: SpecialMeasureMatlab.to_matlab"]}
{"id": "C155", "title": "Figures of raw data show all evaluators that have data", "statement": "History.plot_evaluator_data returns one figure for each row that was asked for, and each figure shows all named evaluators that have data in this row, each with as many axes of its own as it has measurements; names of evaluators that are not in the history are ignored, rows without data give empty figures and the list of names that was passed is unchanged.", "quantifier": "all lists of names, histories and ranges of rows", "why_tests_cant": "All lists of names, with any number of unknown names at any positions.", "anchors": ["qtune/history.py: History.plot_evaluator_data"]}
{"id": "C156", "title": "get_gradient_covariances returns the covariances of the parameter", "statement": "History.get_gradient_covariances(parameter) returns, for every pair of gates for which the history has a covariance of the gradient of this parameter, the values of all rows, labelled by the two gates; a history without such covariances gives an empty table.", "quantifier": "all histories, parameters and gates", "why_tests_cant": "All names of parameters and gates and all contents.", "anchors": ["qtune/history.py: History.get_gradient_covariances"]}
{"id": "C157", "title": "LeadTransition reports where the transition is", "statement": "On a device whose line scans show a transition (a change of the signal that is the steeper the nearer the voltage is to the transition, for example a hyperbolic tangent of any height and width), LeadTransition.evaluate reports for each gate the voltage of the transition in the scan that belongs to the gate, measured with the shifting gate displaced, up to the distance of two points; if the transition is outside of the scan, it reports the end of the scan on this side, up to the width of the window.", "quantifier": "all devices, shapes of transitions, numbers of points, ranges, centers and numbers of gates", "why_tests_cant": "A unit test has one shape at one position.", "anchors": ["qtune/evaluator.py: LeadTransition.evaluate, LeadTransition.process_raw_data", "qtune/util.py: new_find_lead_transition_index", "qtune/basic_dqd.py: transition_simulation"]}
{"id": "C158", "title": "A device that only works near the start is tuned without leaving the region", "statement": "As for the nearly affine devices, but evaluators may raise or return anything for voltages farther than a radius R from the start, and the responses need be nearly affine only within this radius. If R is at least the step of the gradient estimators plus a length that follows from what is missing to the set points, gradients, errors and the number of Newton steps, an Autotuner with one tuner, a Newton solver and fresh finite difference estimators is complete after a known number of calls of iterate, none of which raises, with all set points met, and at no time do the gates have voltages farther away than R.", "quantifier": "all devices, responses, radii, numbers of gates and parameters, targets and tolerances that meet the bounds", "why_tests_cant": "The evaluators of real devices only work in a small part of the space of voltages; a test runs one device.", "anchors": ["qtune/autotuner.py: Autotuner.iterate", "qtune/parameter_tuner.py: SubsetTuner", "qtune/solver.py: NewtonSolver", "qtune/gradient.py: FiniteDifferencesGradientEstimator"]}
{"id": "C159", "title": "Lead transitions are tuned from the data of line scans", "statement": "An Autotuner with a tuner whose parameters are positions of lead transitions, evaluated by LeadTransition from line scans of a device, moves the transitions to their set points: if the transitions move linearly with the voltages near the start, their gradients are well conditioned and the distance of the points of a scan is small compared with the steps of the gradient estimators and the tolerances, the tuning is complete after a known number of calls, none of which raises, the transitions stay in the scans, and finally the true positions are at the set points up to tolerance and distance of the points. If no point of the scan is at the set point within the tolerance, the tuning is never complete.", "quantifier": "all devices and shapes of transitions, numbers of gates and transitions, ranges and numbers of points of the scans, targets and starts", "why_tests_cant": "The distance of the points makes the measured gradients wrong, and the number of calls depends on the data; tests simulate single scans.", "anchors": ["qtune/evaluator.py: LeadTransition", "qtune/util.py: new_find_lead_transition_index", "qtune/autotuner.py: Autotuner.iterate", "qtune/parameter_tuner.py: SubsetTuner", "qtune/solver.py: NewtonSolver", "qtune/gradient.py: FiniteDifferencesGradientEstimator", "qtune/basic_dqd.py: transition_simulation"]}
{"id": "C160", "title": "plot_tuning draws what it is asked for", "statement": "plot_tuning makes a figure for voltages, parameters and gradients exactly if they are asked for by names or by the mode, with one axes for each parameter and for each gradient, the right curves, the titles and units of the parameters and with error bars exactly if they are asked for; the gradient window shows the gradients of all parameters of the history.", "quantifier": "all histories, lists of names and modes", "why_tests_cant": "Depends on the number of names, on the columns of the history and on which substrings the mode has; a test plots one history.", "anchors": ["qtune/history.py: History.plot_tuning, plot_voltages, plot_parameters, plot_gradients, parameter_information", "qtune/gui.py: GradientWidget.refresh, QTuneMatplotWidget.get_clear_axes"]}
{"id": "C161", "title": "Start tunes the device", "statement": "Whatever buttons were pressed before, the worker of the window leads the autotuner through the states of a plain loop of iterate and calls iterate only while the tuning is not complete. After Start, if no further button is pressed, it calls iterate until the tuning is complete and then waits for orders: if N calls of iterate complete the tuning, then so does pressing Start, and the device is tuned in the same way. If iterate or append_autotuner raises, the worker pauses after this call.", "quantifier": "all autotuners, devices, sequences of buttons, schedules of the two threads and numbers of calls", "why_tests_cant": "The worker is a thread that runs as long as the tuning takes; tests would have to try all schedules.", "anchors": ["qtune/gui.py: GUI._work, start, step, pause, close", "qtune/autotuner.py: Autotuner.iterate, Autotuner.is_tuning_complete", "qtune/history.py: History.append_autotuner"]}
{"id": "C162", "title": "Each press of Step makes one call of iterate", "statement": "If Start is not pressed, the worker calls iterate exactly as often as Step was pressed, unless the tuning is complete or Pause is pressed.", "quantifier": "all sequences of buttons and schedules of the two threads", "why_tests_cant": "Depends on when the button is pressed relative to the steps of the worker.", "anchors": ["qtune/gui.py: GUI._work, GUI.start, GUI.step, GUI.pause"]}
{"id": "C163", "title": "The buttons show whether the worker was started", "statement": "Whenever neither of the two threads executes a method of a button, Pause can be pressed exactly if the worker calls iterate repeatedly, and Start and Step exactly if it does not; so a running tuning can always be paused.", "quantifier": "all sequences of clicks, of ends of iterations with and without pause, and all interleavings of the single assignments of the two threads", "why_tests_cant": "A race between two threads that change the same flags and buttons.", "anchors": ["qtune/gui.py: GUI._work, GUI.start, GUI.step, GUI.pause"]}
{"id": "C164", "title": "Pictures of raw data show the data and the reported result", "statement": "The window of the raw data of an evaluator, and the figure of plot_evaluator_data, show the data that was measured (averaged over repetitions) over the points of the scan; for evaluators that fit a curve also the curve with the parameters that were reported and the curve of the start values, for evaluators of positions a mark at the position that was reported, in one axes for each scan.", "quantifier": "all data, fits, names of evaluators, numbers of scans, for every kind of evaluator", "why_tests_cant": "Each kind of evaluator has a function of its own, which is called with a single axes, a list or an array of axes depending on the number of scans.", "anchors": ["qtune/history.py: plot_load_time, plot_inter_dot_tc, plot_lead_time, plot_transition, plot_1dim_sensing_dot_scan, plot_2dim_sensing_dot_scan, plot_average_evaluator, plot_function_matching", "qtune/util.py: plot_raw_data_fit, plot_raw_data_vertical_marks, plot_raw_data_2_dim_marks", "qtune/gui.py: MeasurementDataWidget.refresh, QTuneMatplotWidget.get_clear_axes"]}
{"id": "C165", "title": "A double dot is tuned from the data of its scans", "statement": "An Autotuner with a tuner whose parameters are the load time, the tunnel coupling and positions of lead transitions, evaluated by NewLoadTime, InterDotTCByLineScan and LeadTransition from the data of load scans, detuning scans and line scans, tunes the double dot: if the parameters depend nearly linearly on the voltages near the start with well conditioned gradients, and the scans show the curves that are fitted, the tuning is complete after a known number of calls, none of which raises, the voltages stay near the start, and finally the true load time, tunnel coupling and positions of the device are at the set points within the tolerances.", "quantifier": "all devices of this kind, numbers of gates and transitions, settings of the scans, start values and states of the evaluators, targets and starts", "why_tests_cant": "Three evaluators with fits, gradient estimation and the tuning loop have to work together for as many calls as the device needs; tests try single evaluators with single curves.", "anchors": ["qtune/evaluator.py: NewLoadTime, InterDotTCByLineScan, LeadTransition", "qtune/parameter_tuner.py: SubsetTuner, ParameterTuner.evaluate", "qtune/solver.py: NewtonSolver", "qtune/gradient.py: FiniteDifferencesGradientEstimator", "qtune/autotuner.py: Autotuner.iterate", "qtune/basic_dqd.py: load_simulation, detune_simulation, transition_simulation"]}
{"id": "C166", "title": "Values inside each other arrive in MATLAB", "statement": "SpecialMeasureMatlab.to_matlab turns every value that the options of a measurement can contain into the same value for MATLAB: the same numbers under the same keys and at the same places, for lists, tuples, sets, dicts and Series inside each other, and strings unchanged.", "quantifier": "all values, nested to any depth", "why_tests_cant": "Nesting is unbounded, and tests have no MATLAB engine.", "anchors": ["qtune/sm.py: SpecialMeasureMatlab.to_matlab"]}
{"id": "C167", "title": "Reading files in threads is reading them one after the other", "statement": "History(directory) reads the files in a pool of threads. However the threads are scheduled, and however many there are, it ends, and then the history is the one obtained by reading the sorted files one after the other; if that would raise, it raises the same exception. The same holds for every loop over ParallelHDF5Reader.read_iter with threads.", "quantifier": "all schedules, numbers of threads and files, contents of files and loop bodies", "why_tests_cant": "The order in which threads finish is not under the control of a test.", "anchors": ["qtune/storage.py: ParallelHDF5Reader", "qtune/history.py: History.load_directory"]}
{"id": "C168", "title": "Nearly linear devices are tuned with a maximal step size, too", "statement": "With a maximal step size and a maximal number of steps between two evaluations, repeated calls of Autotuner.iterate tune a device whose parameters depend nearly linearly on the voltages: the errors of the gradients, which are found from finite differences, only make it slower, and the tuning is complete after a known number of calls if the tolerances are larger than a multiple of the roughness of the device.", "quantifier": "all such devices, numbers of gates and parameters, starts, targets, tolerances, maximal step sizes and numbers of steps", "why_tests_cant": "A step is made in slices between which nothing is evaluated, and is cut off after some of them; whether the rest still converges depends on the device and on the whole history of steps.", "anchors": ["qtune/parameter_tuner.py: ParameterTuner.get_next_voltages, ParameterTuner.is_tuned", "qtune/solver.py: NewtonSolver.suggest_next_position", "qtune/gradient.py: FiniteDifferencesGradientEstimator", "qtune/autotuner.py: Autotuner.iterate"]}
{"id": "C169", "title": "The writer works in a process of its own, too", "statement": "AsynchronousHDF5Writer with multiprocess=True, the default, writes the objects in the order of the write() calls, each with its state at the time of the call; after join() all of them are on disk, and join() and restart() return.", "quantifier": "all programs that use the writer, states of the object, schedules of caller, feeder thread of the queue and worker process, objects that cannot be pickled and failing writes", "why_tests_cant": "Three actors run concurrently, and objects are pickled behind the back of the caller; tests see a few schedules only.", "anchors": ["qtune/storage.py: AsynchronousHDF5Writer, _writer_target"]}
{"id": "C170", "title": "Log messages do not change the tuning", "statement": "Autotuner.iterate writes to the log by how much the voltages are about to change and how far the parameters are from their set points. These messages never raise: for every sequence of calls the autotuner does the same, and returns or raises the same, as without them.", "quantifier": "all hierarchies of tuners, all sequences of calls of iterate, restart and change_targets with manual changes in between, all results and exceptions of tuners, experiment and writer", "why_tests_cant": "The messages look up labels in the last voltages of the first tuner and in the last values of the current one. Which labels are there depends on how the tuners were created and on what was evaluated before.", "anchors": ["qtune/autotuner.py: Autotuner.iterate", "qtune/parameter_tuner.py: ParameterTuner.__init__, ParameterTuner.last_voltages, ParameterTuner.last_parameters_and_variances"]}
{"id": "C171", "title": "The log window shows the messages of qtune", "statement": "After setup_default_gui the log window shows every message of qtune and its plots whose level is at least the one selected in the list, exactly once and in order, however often other levels are selected; at the beginning these are messages of level INFO and above.", "quantifier": "all trees of loggers with levels and handlers of other programs, all sequences of messages and selections, any number of guis", "why_tests_cant": "The loggers are global and shared with all other programs in the session; tests have no Qt and no other handlers.", "anchors": ["qtune/gui.py: GUI.configure_logging, LogLevelSelecter, FunctionHandler, setup_default_gui, GUI.log"]}
{"id": "C172", "title": "Open windows follow the history", "statement": "Whenever the worker has changed the history and the main thread has processed its events, every open window of the gui shows the current history, however the threads are scheduled and whichever windows are opened, closed or changed in between.", "quantifier": "all schedules of worker and main thread, all sequences of opened and closed windows, selections and changes of the history", "why_tests_cant": "The worker changes the history while the windows are drawn in another thread; tests have no Qt and no second thread.", "anchors": ["qtune/gui.py: GUI._work, GUI.spawn_plot_window, GUI.spawn_parameter_window, GUI.spawn_gradient_window, GUI.spawn_evaluator_window, GUI._close_child, PlotOrganizer, ParameterWidget, GradientWidget, EvaluatorWidget"]}
{"id": "C173", "title": "Evaluators of quadruple dots return a value for each parameter", "statement": "QQDLine.evaluate, QQDLead.evaluate and QQDDistTP.evaluate return the measured quantity and its variance under each of their parameters; QQDSensor1D.evaluate, QQDSensor2D.evaluate and QQDCharge.evaluate return the measured quantities in the order of their parameters, and raise ValueError exactly if the number of parameters does not fit.", "quantifier": "all lists of parameters and all results of the analysis in MATLAB, also NaN", "why_tests_cant": "The numbers of parameters and of analysed quantities are only compared at run time, with data from MATLAB, which tests do not have.", "anchors": ["qtune/sm_tune_qqd.py: QQDLine.evaluate, QQDLead.evaluate, QQDSensor1D.evaluate, QQDSensor2D.evaluate, QQDCharge.evaluate, QQDDistTP.evaluate"]}
{"id": "C174", "title": "The gradient of a Kalman estimator stays a number", "statement": "If the values handed to KalmanGradientEstimator.update are numbers, then estimate() and covariance() contain no NaN, after any sequence of updates, changes of the position and restarts.", "quantifier": "all numbers of gates, initial gradients and covariances that are numbers, all sequences of calls and their arguments", "why_tests_cant": "Evaluators may report a value without variance, and a single NaN may spread to all later estimates; tests use a few sequences with numbers only.", "anchors": ["qtune/gradient.py: KalmanGradientEstimator.update, KalmanGradientEstimator.restart, KalmanGradientEstimator.change_position", "qtune/kalman_gradient.py: KalmanGradient.update", "qtune/sm_tune_qqd.py: QQDSensor1D.evaluate, QQDSensor2D.evaluate"]}
{"id": "C175", "title": "Stored objects are read back as objects of their class", "statement": "An object of a class that is derived from HDF5Serializable and that from_hdf5 reads is an object of the class with the name that was stored, in the session that wrote it and in every later session.", "quantifier": "all sequences of class definitions, imports, and files that are read, in one session or several", "why_tests_cant": "The table of classes is filled by side effects of definitions and imports in whatever order a session performs them; tests fix one order.", "anchors": ["qtune/storage.py: HDF5Serializable, _import_all, from_hdf5, serializables"]}
{"id": "C176", "title": "The minimal number of points determines the Jacobian matrix", "statement": "gradient_min_evaluations returns the Jacobian matrix of an affine device exactly, for one point more than gates and for two points per gate, if the differences are linearly independent, and raises EvaluationError if they are not; for other numbers of points it raises RuntimeError.", "quantifier": "all numbers of gates and parameters, all affine devices and all voltage points", "why_tests_cant": "Exactness for all devices and point sets is an algebraic statement; tests evaluate a few matrices.", "anchors": ["qtune/util.py: gradient_min_evaluations"]}
{"id": "C177", "title": "The sensing dot scan is around the present voltages and finds a point of it", "statement": "SensingDot2D.evaluate scans around the voltages that its two gates have, returns positions that differ from them by no more than the range of the scan, with the extreme slope among all points that are not cut off at the borders, and keeps its last position if it fails.", "quantifier": "all voltages, ranges, sizes of the scan, data and fitted polynomials", "why_tests_cant": "The position is an index into a cut and flattened array; off-by-one errors only show for particular sizes and data.", "anchors": ["qtune/evaluator.py: SensingDot2D.evaluate, SensingDot2D.process_raw_data"]}
{"id": "C178", "title": "A sensing dot is tuned from the data of its scans", "statement": "If the first tuner of an autotuner is a SensingDotTuner whose expensive evaluator is a SensingDot2D, the gradient estimators of the others know the gradients, and every scan shows a flank on which the contrast is large enough, then iterate never raises and the tuning is complete after finitely many calls: the contrast is above its minimum, although the voltages of the dot are only found by scans, and the other parameters, which can only be measured with a sensitive dot, have their set points.", "quantifier": "all signals as functions of all gates, ranges, sizes and flanks of the scan, fits with an error, numbers of gates and tuners, start voltages", "why_tests_cant": "The path from the data of a scan to the voltages leads through evaluator, tuner, solver and autotuner; a test covers one device and one start.", "anchors": ["qtune/evaluator.py: SensingDot2D.evaluate", "qtune/parameter_tuner.py: SensingDotTuner.is_tuned", "qtune/solver.py: ForwardingSolver", "qtune/autotuner.py: Autotuner.iterate"]}
{"id": "C179", "title": "Small steps keep a device in its working region and still tune it", "statement": "If a device works only near the start, the tuner has a maximal step size and the region is as large as the way that the Newton steps can take, then the tuning is complete after a number of calls known in advance, no call raises and the gates, also between the evaluations, never leave the region. In particular a double dot is tuned in small steps from the data of its scans.", "quantifier": "all devices that are nearly affine in the region, numbers of gates and parameters, maximal step sizes and numbers of slices, start voltages and set points", "why_tests_cant": "The way depends on all measurements; a test follows one way of one device.", "anchors": ["qtune/parameter_tuner.py: SubsetTuner.get_next_voltages", "qtune/parameter_tuner.py: ParameterTuner.get_next_voltages", "qtune/solver.py: NewtonSolver.suggest_next_position", "qtune/autotuner.py: Autotuner.iterate"]}
{"id": "C180", "title": "A sensing dot tuner reports the latest measurement of each parameter", "statement": "After any history of calls last_parameter_values and last_parameters_variances of a SensingDotTuner hold, for each parameter, what an evaluator returned last for it in units of the target, no matter whether it is measured cheaply or expensively and whether later evaluators raised, and what they held at the start for parameters that were never measured.", "quantifier": "all histories of calls, measured values with NaN, targets and divisions of the parameters between the groups", "why_tests_cant": "The record mixes results of two groups of evaluators that are called at different times; tests look at one call.", "anchors": ["qtune/parameter_tuner.py: SensingDotTuner.is_tuned, SensingDotTuner.evaluate"]}
{"id": "C181", "title": "Every solver can be restarted and given a new target", "statement": "Autotuner.restart() and Autotuner.change_targets() work for hierarchies of all solvers of the package and of classes derived from them: restart puts every solver at the voltages that the experiment reports, change_targets changes exactly the entries of the target tables that are mentioned, and afterwards the autotuner starts over.", "quantifier": "all hierarchies, classes derived from the solvers of the package, voltages, changes of targets", "why_tests_cant": "The classes of solvers are open to extension, and hierarchies are arbitrary lists of them.", "anchors": ["qtune/autotuner.py: Autotuner.restart, Autotuner.change_targets", "qtune/solver.py: Solver.current_position, Solver.target, NelderMeadSolver.current_position, NelderMeadSolver.target"]}
{"id": "C182", "title": "The answer of is_tuned is about the recorded values", "statement": "For any solver SubsetTuner.is_tuned() compares the set points with the measured parameters in the units of the target, the same numbers that it records as last_parameter_values.", "quantifier": "all targets with factors, measured values, solvers of the package", "why_tests_cant": "The Series of values is handed from object to object and changed in place; a test with factor 1 cannot see it.", "anchors": ["qtune/parameter_tuner.py: SubsetTuner.is_tuned", "qtune/solver.py: Solver.rescale_values, Solver.descale_values, ForwardingSolver.update_after_step"]}
{"id": "C183", "title": "Objects do not influence each other through the Series they are constructed with", "statement": "An experiment, a solver and its gradient estimators that are constructed with the same Series of voltages behave as if each had a copy: moving gates, evaluating, slicing and restarting change the position of an object only through its own methods, and Series of the user that were not given to them never change.", "quantifier": "all sequences of moves, evaluations, slices and restarts, all numbers of estimators of both kinds, all contents of the Series", "why_tests_cant": "Whether two names denote one object is invisible in the values; a test sees it only for the sequence of calls it makes.", "anchors": ["qtune/basic_dqd.py: TestExperiment.__init__, TestExperiment.set_gate_voltages, TestExperiment.read_gate_voltages", "qtune/solver.py: Solver.current_position, NewtonSolver.__init__, NewtonSolver.update_after_step", "qtune/gradient.py: FiniteDifferencesGradientEstimator.change_position, FiniteDifferencesGradientEstimator.update, KalmanGradientEstimator.update"]}
{"id": "C184", "title": "A hierarchy that begins with a sensing dot can be tuned with the evaluators of the package", "statement": "If the first tuner of an autotuner is a SensingDotTuner whose cheap evaluator is a SensingDot1D and whose expensive evaluator is a SensingDot2D, as in the tutorial, then iterate evaluates the dot, tunes it where necessary and goes on to the other tuners.", "quantifier": "all devices, data of the scans, other tuners, targets, sequences of iterate, restart, change_targets and manual changes", "why_tests_cant": "The tests of the package use neither evaluator on an autotuner; a test covers one sequence of calls.", "anchors": ["setup_tutorial.ipynb", "qtune/evaluator.py: SensingDot1D.evaluate", "qtune/parameter_tuner.py: SensingDotTuner.is_tuned", "qtune/autotuner.py: Autotuner.iterate"]}
{"id": "C185", "title": "The history records hierarchies in which several tuners share a parameter", "statement": "If two tuners of a hierarchy tune the same parameter, for instance one coarsely and one finely, appending the autotuner to a history still records every evaluation, with the latest value of the parameter.", "quantifier": "all hierarchies, sequences of iterate, restart, change_targets and manual changes, and choices of the moments at which the autotuner is appended", "why_tests_cant": "The tests of the package append hierarchies with different parameters only; which tuners are read depends on the history of the run.", "anchors": ["qtune/history.py: History.append_autotuner, History.read_autotuner_to_data_frame, extract_parameters_from_hierarchy"]}
{"id": "C186", "title": "All modules can be imported", "statement": "A program can import every module of the package, in every order and repeatedly, also after an import that failed: if the packages that the module needs are installed then the import succeeds and all functions and classes of the module are there, otherwise the exception names a missing package. No module stays loaded half.", "quantifier": "all sequences of imports of modules of the package, all sets of installed packages, with and without IPython", "why_tests_cant": "The tests import six modules in one order on one machine; the modules for the setups with MATLAB and for the window are not imported by any test.", "anchors": ["qtune/sm.py: MatlabEvaluator", "qtune/sm_tune_qqd.py", "qtune/kalman_heuristics.py", "qtune/gui.py", "qtune/autotuner.py", "qtune/history.py", "qtune/experiment.py: __all__"]}
{"id": "C187", "title": "An installed package is complete", "statement": "After the package has been installed with setup.py (or the packages of requirements.txt have been installed beside it) the modules can be imported, and the files that the package needs at run time, the Python modules and the functions of the MATLAB backend, are installed.", "quantifier": "all modules, sequences of imports and contents of the folder of the package", "why_tests_cant": "Tests run from the repository, where all files are there, on a machine on which further packages are installed.", "anchors": ["setup.py", "requirements.txt", "qtune/sm.py: matlab_files_path", "qtune/util.py"]}
{"id": "C188", "title": "A measurement is stored with its name and options", "statement": "A measurement that is made with a name and options, whose options the program may change afterwards, has the same name and the same options after it has been stored and loaded. This holds for every class of measurements of the package.", "quantifier": "all names, options, values and sequences of changes of options, all orders in which a file gives the entries back", "why_tests_cant": "A test stores one measurement; names of options that collide with the arguments of the constructor do not occur.", "anchors": ["qtune/experiment.py: Measurement", "qtune/sm_tune_qqd.py: QQDMeasurement", "qtune/storage.py: from_hdf5"]}
{"id": "C189", "title": "read_files returns the stored objects", "statement": "history.read_files returns the entries of the given files whose names do not begin with #, with the objects that are stored there, sorted by name; if a file cannot be opened or an object not be built it raises.", "quantifier": "all lists of files, contents of files and orders of entries", "why_tests_cant": "read_files is not called by any test; a test fixes the files.", "anchors": ["qtune/history.py: read_files"]}
{"id": "C190", "title": "Stored measurements can be evaluated again with MATLAB", "statement": "reevaluate_data_with_matlab(experiment, history, evaluator_name, indices) makes the measurement of the evaluator once for each of the given rows of the history, with the file that was recorded in that row, and returns the results; unknown evaluators and rows are reported.", "quantifier": "all histories, evaluators, lists of rows and results of measurements", "why_tests_cant": "The function needs a history of a run with the MATLAB setup; no test has one.", "anchors": ["qtune/sm_tune_qqd.py: reevaluate_data_with_matlab", "qtune/history.py: read_evaluator_data_from_autotuner"]}
{"id": "C191", "title": "Simulated sensing dots behave like a device", "statement": "The simulated scans of sensing dots (ss1d_simulation, ss2d_simulation) are scans of a device: there is a signal as function of the gate voltages, and the datum of each point is this signal at the voltages that the evaluator assigns to the point, given the gates, the range and the number of points in the options of the measurement.", "quantifier": "all voltages, options and points of the scans", "why_tests_cant": "A test compares the results of an evaluator with expected numbers for one setting; whether the axes agree needs all options and points.", "anchors": ["qtune/basic_dqd.py: ss1d_simulation, ss2d_simulation", "qtune/evaluator.py: SensingDot1D.evaluate, SensingDot2D.evaluate"]}
{"id": "C192", "title": "The state of a tuner shows its gradients", "statement": "tuner.state is a Series with one entry for each parameter whose gradient is known and each gate of the solver, the derivative of this parameter with respect to this gate, and the name of each entry tells which parameter and gate it belongs to. It can be read for every solver; if no gradient is known, or a gate has none, this is reported.", "quantifier": "all targets, gradients, known or not, gates and kinds of solvers", "why_tests_cant": "No test reads the state; names and missing gradients vary with the setup.", "anchors": ["qtune/parameter_tuner.py: ParameterTuner.state", "qtune/solver.py: NewtonSolver.state, NewtonSolver.jacobian, ForwardingSolver.state, Solver.state"]}
{"id": "C193", "title": "A file names the version that wrote it", "statement": "Every file that is written with to_hdf5 has the attribute #version: the version of the package and, if the package is run from a git repository, the time and the hash of the commit of the package. Problems to determine the version do not prevent that objects are stored, and the attribute tells the version that wrote the objects of the file.", "quantifier": "all machines (with and without git, GitPython and repositories), working directories, commits of others meanwhile and sequences of objects", "why_tests_cant": "Tests run on one machine in the folder of the repository; the version is not checked by any of them.", "anchors": ["qtune/util.py: get_git_info, get_version", "qtune/storage.py: to_hdf5"]}
{"id": "C194", "title": "Requests of finite differences concern the given gates only", "statement": "FiniteDifferencesGradientEstimator.require_measurement(gates) returns, if it requests a measurement, a position of exactly the given gates, and this position depends on the voltages of these gates only: at which voltages the other gates are, at present or in the measurements so far, makes no difference.", "quantifier": "all estimators, gates, positions and measurements, one-sided and symmetric", "why_tests_cant": "Tests move all gates of one estimator; that other gates never matter is a statement about pairs of histories.", "anchors": ["qtune/gradient.py: FiniteDifferencesGradientEstimator.require_measurement"]}
{"id": "C195", "title": "Stored dicts keep their keys", "statement": "A dict with strings as keys (for example the options of a measurement) has the same keys with the same values after it has been stored with to_hdf5 and loaded with from_hdf5, and storing it does not change other objects of the file.", "quantifier": "all dicts with strings as keys, of any size", "why_tests_cant": "The tests store dicts with short names; the meaning that HDF5 gives to special characters shows up for other names only.", "anchors": ["qtune/storage.py: _to_hdf5, _from_hdf5"]}
{"id": "C196", "title": "Files are named in the order in which they were saved", "statement": "Of two files that are saved, the one saved later has the later name in the order in which History.load_directory loads files, even if the clock of the computer is changed meanwhile (end of summer time, correction by a time server).", "quantifier": "all start times, all behaviours of the clock of the computer, all times of saving more than a microsecond apart, all ways to round times to microseconds", "why_tests_cant": "Clock changes happen a few times a year and cannot be produced by a unit test of a function without arguments.", "anchors": ["qtune/util.py: high_res_datetime, time_string", "qtune/autotuner.py: Autotuner.save_current_status", "qtune/history.py: History.load_directory"]}
{"id": "C197", "title": "Scans do not share data files", "statement": "Every scan that LegacyDQDRefactored.measure starts gets a data file of its own: the names of two scans differ. A file name among the options of the measurement is replaced, the other options are passed on. Other measurements than line_scan, detune_scan, lead_scan, load_scan and 2d_scan are refused.", "quantifier": "all pairs of measurements and times, all behaviours of the clock of the computer, all options", "why_tests_cant": "Needs MATLAB and an instrument; a collision depends on the times of two calls.", "anchors": ["qtune/sm.py: LegacyDQDRefactored.measure", "qtune/experiment.py: Measurement.get_file_name", "qtune/util.py: time_string"]}
{"id": "C198", "title": "Stored values are loaded as they were", "statement": "A number, text, array, Series or DataFrame that is stored and loaded again is the same as before: the same kind of value, the same values, the same labels, the same types and names. What was loaded can be stored again. Every such value can be stored.", "quantifier": "all numbers, texts, arrays (of every type and shape), Series and DataFrames, both versions of h5py (2 and 3)", "why_tests_cant": "The tests store a few arrays and Series of floats; the differences show for other types, for names, for large labels and for another version of the library.", "anchors": ["qtune/storage.py: _get_dtype, _to_hdf5, _from_hdf5"]}
{"id": "C199", "title": "The resolution of the voltage source does not prevent the tuning", "statement": "Voltage sources apply the voltages that they are told only up to their resolution. An autotuner with a Newton solver and finite difference estimators still tunes every affine device with linearly independent gradients, if the resolution is fine compared to the steps of the estimators and to the tolerances: within the same number of iterations as with a perfect source if the experiment reads back the voltages that are applied, after finitely many iterations if it reads back the voltages that it was told. When the tuning is complete, the voltages that are applied meet the set points; if no voltages of the source meet them, the tuning is never complete.", "quantifier": "all numbers of gates and parameters, affine devices, start voltages, sources with any deviations up to a bound, choices of orthogonal vectors and least squares solutions", "why_tests_cant": "The simulations in the tests set exact voltages; a claim about all deviations of a source is about infinitely many instruments and runs of any length.", "anchors": ["qtune/autotuner.py: Autotuner.iterate", "qtune/experiment.py: Experiment.set_gate_voltages, read_gate_voltages", "qtune/gradient.py: FiniteDifferencesGradientEstimator", "qtune/solver.py: NewtonSolver.suggest_next_position"]}
{"id": "C200", "title": "A device that drifts slowly is tuned", "statement": "Devices drift: the same voltages give other parameters later. An autotuner with a Newton solver and finite difference estimators tunes every nearly affine device that drifts by a bounded amount from one evaluation to the next, in any direction and in the long run without limit, if the drift during the measurement of the gradients is small compared to the steps of the estimators and the drift of one evaluation small compared to the tolerances. The number of iterations does not depend on how the device drifts. When the tuning is complete the parameters measured in the last evaluation, at the present voltages, meet the set points. What the device does afterwards is not noticed: a complete tuning is never evaluated again. If a device drifts by more than a tolerance from one evaluation to the next, its tuning need not come to an end. The same holds if the voltage source has a finite resolution in addition, which counts like a deviation from an affine device.", "quantifier": "all numbers of gates and parameters, nearly affine devices, drifts bounded per evaluation, start voltages, choices of orthogonal vectors and least squares solutions", "why_tests_cant": "A test simulates one drift for a few iterations; the claim is about all drifts and runs of any length.", "anchors": ["qtune/autotuner.py: Autotuner.iterate", "qtune/gradient.py: FiniteDifferencesGradientEstimator", "qtune/solver.py: NewtonSolver.suggest_next_position", "qtune/parameter_tuner.py: ParameterTuner.is_tuned"]}
{"id": "C201", "title": "Evaluators that share a measurement do not disturb each other", "statement": "Measurements are objects which several evaluators may use, and the scans that experiments offer (BasicDQD.measurements) are made to be used. Every scan an evaluator starts is the one it was made for: SensingDot1D sweeps its gate around the present voltage, SensingDot2D the two gates of its measurement around their present voltages, and the other evaluators scan with the options that their measurement had when it was made, whatever other evaluators were evaluated before.", "quantifier": "all sequences in which measurements and evaluators are created, with measurements of their own or shared ones, and evaluated; all voltages and results of measurements", "why_tests_cant": "A test would have to combine evaluators, orders of evaluations and shared objects; the tests give each evaluator its own measurement.", "anchors": ["qtune/basic_dqd.py: BasicDQD", "qtune/evaluator.py: SensingDot1D.evaluate, SensingDot2D.evaluate, LeadTransition.evaluate, InterDotTCByLineScan.evaluate", "qtune/experiment.py: Measurement"]}
{"id": "C202", "title": "A new target concerns the tuner it is given to", "statement": "Assigning a target to a tuner, or calling Autotuner.change_targets, changes the targets of the tuners that are addressed by the given changes. The targets of all other tuners stay as they are, and so do the DataFrames of the caller that the solvers were constructed with; what the caller does with these DataFrames later does not change any target.", "quantifier": "all hierarchies, all ways in which solvers and caller share DataFrames, all sequences of changes, also ones that are refused", "why_tests_cant": "A test with one tuner or with freshly made targets cannot show it; it depends on which objects are shared.", "anchors": ["qtune/solver.py: Solver.target, NewtonSolver.__init__, NelderMeadSolver.__init__, ForwardingSolver.__init__", "qtune/parameter_tuner.py: ParameterTuner.target", "qtune/autotuner.py: Autotuner.change_targets"]}
{"id": "C203", "title": "The voltages that a tuner has recorded stay what they were", "statement": "ParameterTuner.tuned_voltages are the voltages at which is_tuned has returned True, in this order; what happens to the experiment later does not change them. After a failed evaluation, get_next_voltages returns the midpoint between the voltages of this evaluation and the voltages of the last successful one, whatever was set in between.", "quantifier": "all experiments that implement the interface, all solvers, all sequences of evaluations, suggestions, restarts and changes of the voltages, all results of evaluations including exceptions", "why_tests_cant": "A test uses one experiment; whether its Series are copies decides, and the records have to survive all later operations.", "anchors": ["qtune/parameter_tuner.py: ParameterTuner.tuned_voltages, SubsetTuner.is_tuned, SubsetTuner.get_next_voltages", "qtune/experiment.py: Experiment.read_gate_voltages", "qtune/basic_dqd.py: TestExperiment.read_gate_voltages, TestExperiment.set_gate_voltages"]}
{"id": "C204", "title": "Tuners without an evaluator for a parameter are refused", "statement": "A tuner can be constructed exactly if every parameter of its target is measured by one of its evaluators and no parameter by two of them; otherwise the constructor raises, so that no tuning is started that cannot be completed.", "quantifier": "all targets, also with columns that are not used, all sets of evaluators, all sequences of evaluations and suggestions afterwards", "why_tests_cant": "It depends on which entries of the target are NaN; a test has one target.", "anchors": ["qtune/parameter_tuner.py: ParameterTuner.__init__, ParameterTuner.evaluate, SubsetTuner.is_tuned, SubsetTuner.get_next_voltages"]}
{"id": "C205", "title": "A sensing dot tuner asks for every minimum of its target", "statement": "A SensingDotTuner can be constructed exactly if the evaluators measure every parameter of its target and the cheap evaluators every parameter with a minimum, none of them twice. When its is_tuned returns True, every parameter of the target that has a minimum has been measured above it.", "quantifier": "all targets, also with columns that are not used, all cheap and expensive evaluators, all sequences of evaluations", "why_tests_cant": "It depends on which entries of the target are NaN and on which evaluators measure what; a test has one target.", "anchors": ["qtune/parameter_tuner.py: SensingDotTuner.__init__, SensingDotTuner.is_tuned, ParameterTuner.__init__"]}
{"id": "C206", "title": "Views on MATLAB data give access to all of it", "statement": "make_view of the name of a variable, followed by attributes and indices, gives the data at this place in MATLAB: the fields of structs, the columns of tables, the elements of struct arrays and of cells, also with negative indices that count from the end. A view shows the data that MATLAB has when it is looked at. Iterating over a view gives each of its elements, an attribute of a struct array the attribute of each of its elements, and hasattr tells whether there is a field.", "quantifier": "all data in MATLAB, nested to any depth, all chains of attributes and indices, all changes of the variables between the construction of a view and its use", "why_tests_cant": "There is no MATLAB in the tests; the claim is about all shapes of nested data.", "anchors": ["qtune/mat2py.py: make_view, MATLABView, MATLABStructView, MATLABCellView, MATLABTableView, transform_index"]}
{"id": "C207", "title": "Interrupting the tuning does no harm", "statement": "The user may interrupt iterate, restart and change_targets with Ctrl-C at any time and go on with the same Autotuner. Whenever the tuning is then reported complete, all tuners have reported to be tuned at the present voltages and targets since the last write, restart or change of targets. A tuner is asked for voltages only after it has reported at the present voltages that it is not tuned, and only voltages suggested by a tuner are written. An interrupted write is repeated by the next iterate, which ends where the interrupted one would have ended.", "quantifier": "all tuning hierarchies, experiments and histories of calls, each interrupted between any two statements or not at all, any number of times", "why_tests_cant": "A test cannot interrupt a call at each of its statements in each state; the harm shows several calls later.", "anchors": ["qtune/autotuner.py: Autotuner.iterate, Autotuner.restart, Autotuner.change_targets, Autotuner.is_tuning_complete"]}
{"id": "C208", "title": "A setup script prepares special measure once", "statement": "SpecialMeasureMatlab(special_measure_setup_script=name) runs the given setup script if and only if special measure is not set up in the session yet, and exactly once. When the constructor returns, the data of special measure exists for the functions that measure; otherwise it raises and leaves the search path alone.", "quantifier": "all sessions of MATLAB, all files with the given name, scripts and functions, and all arguments", "why_tests_cant": "There is no MATLAB in the tests; the claim is about every session and every setup file.", "anchors": ["qtune/sm.py: SpecialMeasureMatlab.__init__, SpecialMeasureMatlab._init_special_measure, SpecialMeasureMatlab._add_qtune_to_path"]}
{"id": "C209", "title": "The limits of the voltage source do not prevent the tuning", "statement": "Voltage sources have limits: a gate that is told a voltage outside of them is set to the limit, and read_gate_voltages returns what is applied or what has been told. If some voltages within the limits meet the set points, the tuning that begins within the limits still comes to a complete state within a number of calls that can be stated in advance, without an exception, although single steps of the solver are cut at the limits. When the tuning is reported complete, the voltages that are applied are within the limits and meet the set points; if no voltages within the limits meet them, it is never reported complete.", "quantifier": "all affine devices, all convex regions to which a source limits the voltages, all starts, set points, tolerances, estimator steps and numbers of gates and parameters", "why_tests_cant": "A test has one device, one start and one set of limits; the steps that are cut depend on all of them, and the number of steps is not bounded by the number of gates.", "anchors": ["qtune/experiment.py: Experiment.set_gate_voltages, Experiment.read_gate_voltages", "qtune/autotuner.py: Autotuner.iterate", "qtune/solver.py: NewtonSolver.suggest_next_position, NewtonSolver.update_after_step", "qtune/gradient.py: FiniteDifferencesGradientEstimator"]}
{"id": "C210", "title": "install_matlab makes the MATLAB engine available", "statement": "When python setup.py install_matlab ends without an exception, the MATLAB engine can be imported. If it could be imported before, the command succeeds without installing anything. Otherwise it runs the installer of the MATLAB that is given with --matlabroot, or of the first one that the system finds, exactly once and in its own folder; if there is no MATLAB it raises RuntimeError(Could not locate matlab).", "quantifier": "all computers: engines, MATLABs, code pages, files, outcomes of the installer, and all options", "why_tests_cant": "The command cannot be tested without MATLAB and changes the computer; the claim is about every computer.", "anchors": ["setup.py: MatlabInstall.is_engine_installed, MatlabInstall.find_matlabroot, MatlabInstall.finalize_options, MatlabInstall.run"]}
{"id": "C211", "title": "The version of the distribution is the version of the package", "statement": "The version under which qtune is built and installed, which setup.py looks up in qtune/__init__.py, is the value that qtune.__version__ has after the import and that is written into files, for every way in which this file assigns the version. If the file assigns no version, nothing is built and a RuntimeError says so.", "quantifier": "all files of comments, texts in three quotes and assignments of texts to names, with and without spaces, in both kinds of quotes", "why_tests_cant": "A test reads the one file of the present release; the pattern must agree with Python for every later edit of the file.", "anchors": ["setup.py:get_version", "setup.py:read", "qtune/__init__.py:__version__"]}
{"id": "C212", "title": "A tuning that is interrupted can be completed", "statement": "A user who stops the tuning with Ctrl-C, at any place of iterate and any number of times, can go on with the same autotuner: further calls of iterate do not raise, and after as many calls that are not interrupted as the whole tuning would have needed, and a few more, it is complete at voltages that meet all set points.", "quantifier": "all affine devices with independent gradients, all starts, all sequences of calls of iterate with interruptions between any two statements, all kinds of estimators", "why_tests_cant": "The place at which Ctrl-C arrives depends on the clock; a test stops a tuning at one place.", "anchors": ["qtune/autotuner.py: Autotuner.iterate", "qtune/parameter_tuner.py: SubsetTuner.is_tuned", "qtune/gradient.py: FiniteDifferencesGradientEstimator.update, FiniteDifferencesGradientEstimator.require_measurement", "qtune/solver.py: NewtonSolver.suggest_next_position"]}
{"id": "C213", "title": "An evaluation or suggestion that is interrupted does no harm", "statement": "A user who stops the tuning with Ctrl-C while a tuner evaluates or suggests voltages, between any two statements of is_tuned, get_next_voltages and the methods that they call, can go on with the same autotuner: what the estimators know of the gradients stays true, further calls of iterate do not raise, and estimators that know the gradients complete the tuning with as many calls as without the interruptions and a few more, at voltages that meet all set points.", "quantifier": "all affine devices with independent gradients, all starts, all sequences of calls of iterate that end, or are interrupted between any two statements of iterate, of is_tuned, of get_next_voltages, of the update of the solver or of the updates of the estimators", "why_tests_cant": "The place at which Ctrl-C arrives depends on the clock; the statements between which the state is inconsistent take microseconds and no test meets them.", "anchors": ["qtune/parameter_tuner.py: SubsetTuner.is_tuned, SubsetTuner.get_next_voltages", "qtune/solver.py: NewtonSolver.update_after_step", "qtune/gradient.py: KalmanGradientEstimator.update", "qtune/autotuner.py: Autotuner.iterate"]}
{"id": "C214", "title": "With one gate a wrong initial gradient does not prevent tuning", "statement": "An autotuner with one tuner without maximal step size, a Newton solver and a Kalman estimator tunes one parameter with one gate, however wrong the gradient is with which the estimator begins: a gradient that is much too small or too large, or has the wrong sign, only costs some steps, and after finitely many calls of iterate, without an exception, the voltage meets the set point.", "quantifier": "all devices with one gate and one parameter that depends affinely on the voltage, all starts, all initial gradients and variances, all limits of the variance, all bounded variances of the measurements", "why_tests_cant": "A test begins with one wrong gradient; how long the first steps are and what the filter learns from them depends on the gradient, the variances and the start.", "anchors": ["qtune/gradient.py: KalmanGradientEstimator.update, KalmanGradientEstimator.require_measurement, KalmanGradientEstimator.estimate", "qtune/solver.py: NewtonSolver.suggest_next_position", "qtune/autotuner.py: Autotuner.iterate"]}
