/-!
# Model of the import of the modules of the package

`import qtune.m` executes the statements of the module `m` if it is not loaded yet.  Of these statements the model has the import statements, the
names that they and the assignments, functions and classes bind, and the names that are looked up while the module is executed: decorators, base
classes, metaclasses, default values and annotations of parameters and results, also of methods.  The lookups are extracted from the syntax trees
of the modules; names of the interpreter (`property`, `int`) and names that a class binds itself are left out, and a name that is looked up
several times appears once.  Simplifications: modules of the standard library are there, and the packages that are not part of it have the names
that are imported from them.  Annotations are evaluated with the statement `def`, as in Python up to 3.13.
-/

namespace Qtune.Package

/-- The modules of the package.  qtune/*.py. -/
inductive Mod
  | util | storage | experiment | kalman_gradient | gradient | solver | evaluator | parameter_tuner | autotuner | basic_dqd | history | gui
  | mat2py | sm | sm_tune_qqd | kalman_heuristics
deriving DecidableEq

/-- The statements at import time.  qtune/*.py. -/
inductive Stmt
  /-- import from the standard library, which binds these names -/
  | lib (names : List String)
  /-- import from another package -/
  | ext (package : String) (names : List String)
  /-- `import qtune.m` -/
  | imp (m : Mod)
  /-- `from qtune.m import names` -/
  | names (m : Mod) (names : List String)
  /-- `from qtune import m` -/
  | sub (m : Mod) (name : String)
  /-- an assignment, a function or a class binds a name -/
  | define (name : String)
  /-- a name is looked up -/
  | use (name : String)
  /-- `qtune.m.name` is looked up -/
  | attr (m : Mod) (name : String)
  /-- `IPython.get_ipython().magic(...)` -/
  | magic
deriving DecidableEq

/-- util.py:17-324. -/
def body_util : List Stmt :=
  [.lib ["itertools"], .lib ["datetime"], .lib ["time"], .lib ["os"], .lib ["subprocess"],
   .lib ["Iterable", "Any", "Callable", "Sequence", "Optional", "Dict"], .lib ["numbers"], .ext "matplotlib" ["matplotlib"],
   .ext "matplotlib" ["plt"], .ext "numpy" ["np"], .ext "sympy" ["sp"], .ext "pandas" ["pd"], .define "__all__", .define "EvaluationError",
   .use "Iterable", .use "Any", .define "nth", .use "Callable", .define "static_vars", .define "high_res_datetime", .use "time",
   .use "datetime", .define "time_string", .use "np", .define "new_find_lead_transition_index", .define "find_lead_transition",
   .define "nth_diff", .define "moving_average_filter", .define "find_stepes_point_sensing_dot", .define "gradient_min_evaluations",
   .use "Sequence", .define "calculate_gradient_non_orthogonal", .define "get_orthogonal_vector", .use "Optional", .use "Dict",
   .use "numbers", .use "matplotlib", .define "plot_raw_data_fit", .define "plot_raw_data_vertical_marks",
   .define "plot_raw_data_2_dim_marks", .define "get_git_info", .define "get_version"]

/-- storage.py:17-399. -/
def body_storage : List Stmt :=
  [.lib ["warnings"], .lib ["copy"], .lib ["itertools"], .lib ["logging"], .lib ["threading"], .lib ["queue"], .lib ["multiprocessing"],
   .lib ["Union", "Iterable", "Generator"], .ext "h5py" ["h5py"], .ext "numpy" ["np"], .ext "pandas" ["pd"],
   .names .util ["time_string", "get_version"], .define "__all__", .define "serializables", .define "_get_dtype", .define "_import_all",
   .define "HDF5Serializable", .use "h5py", .define "_to_hdf5", .use "Union", .define "to_hdf5", .define "_from_hdf5", .define "from_hdf5",
   .use "multiprocessing", .use "queue", .define "_writer_target", .define "AsynchronousHDF5Writer", .use "Iterable", .use "Generator",
   .define "ParallelHDF5Reader"]

/-- experiment.py:17-91. -/
def body_experiment : List Stmt :=
  [.lib ["Tuple", "Dict", "Any"], .ext "numpy" ["np"], .ext "pandas" ["pd"], .names .util ["time_string"],
   .names .storage ["HDF5Serializable"], .define "__all__", .define "GateIdentifier", .use "HDF5Serializable", .define "Measurement",
   .use "Tuple", .use "Measurement", .use "pd", .use "np", .define "Experiment"]

/-- kalman_gradient.py:17-280. -/
def body_kalman_gradient : List Stmt :=
  [.ext "numpy" ["np"], .ext "scipy" ["scipy"], .ext "filterpy" ["KalmanFilter"], .names .storage ["HDF5Serializable"],
   .use "HDF5Serializable", .define "KalmanGradient"]

/-- gradient.py:17-460. -/
def body_gradient : List Stmt :=
  [.lib ["Optional", "Union", "Sequence"], .ext "numpy" ["np"], .ext "pandas" ["pd"], .ext "sympy" ["sp"],
   .names .kalman_gradient ["KalmanGradient"], .names .storage ["HDF5Serializable"],
   .names .util ["get_orthogonal_vector", "calculate_gradient_non_orthogonal"], .lib ["logging"], .define "__all__",
   .use "HDF5Serializable", .use "pd", .use "Sequence", .use "Optional", .define "GradientEstimator", .use "GradientEstimator",
   .use "Union", .define "FiniteDifferencesGradientEstimator", .use "KalmanGradient", .define "KalmanGradientEstimator",
   .use "FiniteDifferencesGradientEstimator", .use "KalmanGradientEstimator", .define "SelfInitializingKalmanEstimator"]

/-- solver.py:17-557. -/
def body_solver : List Stmt :=
  [.lib ["Tuple", "Sequence", "Deque", "Callable", "Optional", "Dict"], .lib ["enum"], .lib ["math"], .lib ["logging"],
   .ext "numpy" ["np"], .ext "pandas" ["pd"], .names .gradient ["GradientEstimator"], .names .storage ["HDF5Serializable"],
   .names .util ["get_orthogonal_vector"], .use "np", .use "pd", .define "make_target", .use "HDF5Serializable", .use "Dict",
   .define "Solver", .use "Solver", .use "Sequence", .use "GradientEstimator", .define "NewtonSolver", .use "enum", .use "Tuple",
   .use "Optional", .use "Callable", .use "Deque", .define "NelderMeadSolver", .define "ForwardingSolver"]

/-- evaluator.py:17-813. -/
def body_evaluator : List Stmt :=
  [.names .experiment ["Experiment", "Measurement"], .lib ["Sequence", "Optional", "Tuple"], .ext "pandas" ["pd"], .ext "numpy" ["np"],
   .ext "scipy" ["optimize"], .imp .util, .ext "scipy" ["scipy"], .lib ["logging"], .names .storage ["HDF5Serializable"],
   .use "HDF5Serializable", .use "Experiment", .use "Sequence", .use "Measurement", .use "Tuple", .use "Optional", .use "np", .use "pd",
   .define "Evaluator", .use "Evaluator", .define "FittingEvaluator", .use "FittingEvaluator", .define "LeadTunnelTimePrefitVersion",
   .define "func_lead_times_v1", .define "LeadTunnelTimeByLeadScan", .define "func_lead_times_v2", .define "InterDotTCByLineScan",
   .define "func_inter_dot_coupling", .define "NewLoadTime", .define "func_load_time", .define "LeadTransition", .define "SensingDot1D",
   .define "SensingDot2D", .define "AveragingEvaluator"]

/-- parameter_tuner.py:17-407. -/
def body_parameter_tuner : List Stmt :=
  [.lib ["Sequence", "List", "Tuple", "Optional"], .ext "numpy" ["np"], .ext "pandas" ["pd"], .names .evaluator ["Evaluator"],
   .names .solver ["Solver", "NewtonSolver"], .names .storage ["HDF5Serializable"], .lib ["logging"], .use "HDF5Serializable",
   .use "Sequence", .use "Evaluator", .use "Solver", .use "Optional", .use "pd", .use "Tuple", .use "List", .define "ParameterTuner",
   .use "ParameterTuner", .use "np", .define "SubsetTuner", .define "SensingDotTuner"]

/-- autotuner.py:17-327. -/
def body_autotuner : List Stmt :=
  [.ext "h5py" ["h5py"], .lib ["os"], .lib ["os"], .ext "pandas" ["pd"], .names .util ["time_string"], .names .experiment ["Experiment"],
   .lib ["List", "Optional", "Dict"], .names .parameter_tuner ["ParameterTuner", "SubsetTuner"], .names .solver ["NewtonSolver"],
   .names .storage ["HDF5Serializable", "from_hdf5", "AsynchronousHDF5Writer"], .lib ["logging"], .use "HDF5Serializable",
   .use "Experiment", .use "List", .use "ParameterTuner", .use "Optional", .use "pd", .use "Dict", .define "Autotuner", .use "Autotuner",
   .define "load_auto_tuner"]

/-- basic_dqd.py:17-158. -/
def body_basic_dqd : List Stmt :=
  [.ext "pandas" ["pd"], .ext "numpy" ["np"], .lib ["Tuple", "Sequence"], .names .experiment ["Experiment", "Measurement"],
   .use "Experiment", .use "Measurement", .use "Tuple", .define "BasicDQD", .define "Simulator", .use "pd", .use "Sequence",
   .define "TestExperiment", .define "load_simulation", .define "ss1d_simulation", .define "ss2d_simulation", .define "detune_simulation",
   .define "transition_simulation"]

/-- history.py:17-680. -/
def body_history : List Stmt :=
  [.lib ["os"], .lib ["operator"], .lib ["re"], .lib ["Optional", "Set", "Dict", "Sequence", "Tuple", "List"], .ext "h5py" ["h5py"],
   .ext "pandas" ["pd"], .ext "numpy" ["np"], .ext "matplotlib" ["plt"], .ext "matplotlib" ["matplotlib"], .lib ["logging"], .imp .storage,
   .imp .autotuner, .imp .solver, .imp .gradient, .imp .parameter_tuner, .imp .util, .imp .evaluator, .define "parameter_information",
   .define "read_files", .use "Optional", .use "Set", .use "Dict", .use "pd", .attr .autotuner "Autotuner", .use "Sequence",
   .define "History", .define "plot_voltages", .use "matplotlib", .define "plot_parameters", .define "plot_gradients",
   .define "extract_voltages_from_hierarchy", .define "extract_parameters_from_hierarchy", .define "extract_gradients_from_hierarchy",
   .define "extract_diagonal_from_data_frame", .define "read_evaluator_data_from_autotuner", .define "plot_load_time",
   .define "plot_inter_dot_tc", .define "plot_lead_time", .define "plot_transition", .define "plot_1dim_sensing_dot_scan",
   .define "plot_2dim_sensing_dot_scan", .define "plot_average_evaluator", .use "plot_inter_dot_tc", .use "plot_load_time",
   .use "plot_transition", .use "plot_1dim_sensing_dot_scan", .use "plot_2dim_sensing_dot_scan", .use "plot_average_evaluator",
   .use "plot_lead_time", .define "plot_function_matching"]

/-- gui.py:17-808. -/
def body_gui : List Stmt :=
  [.lib ["Thread"], .lib ["time"], .lib ["logging"], .lib ["functools"], .ext "IPython" ["IPython"], .lib ["itertools"],
   .lib ["collections"], .ext "pyqtgraph" ["pg"], .ext "pyqtgraph" ["pyqtgraph"], .ext "pyqtgraph" ["MatplotlibWidget"],
   .ext "pyqtgraph" ["QtCore", "QtWidgets", "QtGui"], .ext "numpy" ["np"], .ext "pandas" ["pd"],
   .names .history ["History", "plot_parameters", "plot_gradients"], .imp .autotuner, .use "IPython", .magic, .define "log_exceptions",
   .use "logging", .define "FunctionHandler", .use "QtCore", .define "LogLevelSelecter", .use "pg", .use "History", .use "log_exceptions",
   .define "EvaluatorWidget", .define "PlotOrganizer", .use "MatplotlibWidget", .define "QTuneMatplotWidget", .use "QTuneMatplotWidget",
   .define "ParameterWidget", .define "GradientWidget", .define "MeasurementDataWidget", .define "ReloadWidget", .use "QtWidgets",
   .use "QtGui", .define "GUI", .define "setup_default_gui"]

/-- mat2py.py:17-255. -/
def body_mat2py : List Stmt :=
  [.lib ["re"], .lib ["io"], .lib ["uuid"], .lib ["datetime"], .ext "matlab" ["matlab"], .define "make_view", .define "size",
   .define "_get_item_array", .define "_get_item_cell", .define "_get_field", .define "_set_field", .define "_transform_int",
   .define "_get_id", .define "_transform_slice", .define "_transform_tuple", .define "transform_index", .use "re", .define "MATLABView",
   .use "MATLABView", .define "MATLABStructView", .define "MATLABCellView", .define "MATLABTableView", .define "MATLABFunctionView"]

/-- sm.py:19-239; `from qtune.experiment import *` with the names of experiment.py:25. -/
def body_sm : List Stmt :=
  [.lib ["warnings"], .lib ["io"], .lib ["functools"], .lib ["sys"], .lib ["Tuple", "Union", "List", "Dict", "Set"], .lib ["os"],
   .lib ["weakref"], .ext "matlab" ["matlab"], .ext "pandas" ["pd"], .ext "numpy" ["np"],
   .names .experiment ["Experiment", "Measurement", "GateIdentifier"], .names .util ["time_string"], .names .basic_dqd ["BasicDQD"],
   .names .evaluator ["Evaluator"], .define "redirect_output", .define "matlab_files_path", .use "weakref", .use "matlab", .use "Union",
   .define "SpecialMeasureMatlab", .use "BasicDQD", .use "SpecialMeasureMatlab", .use "Tuple", .use "pd", .use "Measurement", .use "np",
   .define "LegacyDQDRefactored", .use "Evaluator", .attr .sm "LegacyDQDRefactored", .define "MatlabEvaluator"]

/-- sm_tune_qqd.py:17-516. -/
def body_sm_tune_qqd : List Stmt :=
  [.ext "pandas" ["pd"], .ext "numpy" ["np"], .lib ["Tuple", "List", "Sequence"], .lib ["Number"], .lib ["count"],
   .names .experiment ["Experiment", "Measurement"], .names .evaluator ["Evaluator"], .names .sm ["SpecialMeasureMatlab"], .sub .mat2py "mat2py",
   .names .history ["History"], .use "Measurement", .define "QQDMeasurement", .use "Experiment", .use "SpecialMeasureMatlab", .use "Tuple",
   .use "pd", .use "np", .define "SMTuneQQD", .use "Evaluator", .use "SMTuneQQD", .use "List", .define "SMQQDPassThru", .define "QQDLine",
   .define "QQDLead", .define "QQDSensor1D", .define "QQDSensor2D", .define "QQDCharge", .define "QQDDistTP", .define "QQDResp",
   .use "History", .define "reevaluate_data_with_matlab"]

/-- kalman_heuristics.py:17-62. -/
def body_kalman_heuristics : List Stmt :=
  [.names .sm ["ChargeDiagram"], .ext "numpy" ["np"], .lib ["pickle"], .use "ChargeDiagram",
   .define "save_pickle_charge_diagram_histogram_position_gradient",
   .define "load_pickle_charge_diagram_gradient_covariance_noise_from_histogram"]

/-- The statements of a module.  qtune/*.py. -/
def body : Mod → List Stmt
  | .util => body_util
  | .storage => body_storage
  | .experiment => body_experiment
  | .kalman_gradient => body_kalman_gradient
  | .gradient => body_gradient
  | .solver => body_solver
  | .evaluator => body_evaluator
  | .parameter_tuner => body_parameter_tuner
  | .autotuner => body_autotuner
  | .basic_dqd => body_basic_dqd
  | .history => body_history
  | .gui => body_gui
  | .mat2py => body_mat2py
  | .sm => body_sm
  | .sm_tune_qqd => body_sm_tune_qqd
  | .kalman_heuristics => body_kalman_heuristics

/-- The machine: which packages are installed, and whether the program runs in IPython.  gui.py:21-35. -/
structure Env where
  installed : String → Bool
  ipython : Bool

/-- `ModuleNotFoundError`, `ImportError`, `NameError`, `AttributeError`, `RecursionError`.  For example sm.py:228, gui.py:35. -/
inductive Err
  | notInstalled (package : String)
  | cannotImport (name : String)
  | nameError (name : String)
  | attributeError
  | recursionError
deriving DecidableEq

/-- `sys.modules` with the names that are bound in each module, and the modules that are attributes of the package.  Used in history.py:29-35, 241. -/
structure State where
  mods : Mod → Option (List String)
  attrs : Mod → Bool

/-- Nothing is loaded.  qtune/__init__.py:1-4. -/
def State.new : State := ⟨fun _ => none, fun _ => false⟩

/-- The name is bound in the module.  For example autotuner.py:21-26. -/
def State.has (s : State) (m : Mod) (n : String) : Bool := ((s.mods m).getD []).contains n

/-- Names are bound in a module.  For example autotuner.py:17-30. -/
def State.bind (s : State) (m : Mod) (ns : List String) : State :=
  { s with mods := fun k => if k = m then (s.mods k).map (· ++ ns) else s.mods k }

/-- A statement of module `m`; `imp` imports a module.  Python; gui.py:35-36, sm.py:228. -/
def exec (env : Env) (imp : Mod → State → State × Option Err) (m : Mod) (s : State) : Stmt → State × Option Err
  | .lib ns => (s.bind m ns, none)
  | .ext p ns => if env.installed p then (s.bind m ns, none) else (s, some (.notInstalled p))
  | .imp k =>
    match imp k s with
    | (s, none) => (s.bind m ["qtune"], none)
    | (s, some e) => (s, some e)
  | .names k ns =>
    match imp k s with
    | (s, none) =>
      match ns.find? fun n => !s.has k n with
      | none => (s.bind m ns, none)
      | some n => (s, some (.cannotImport n))
    | (s, some e) => (s, some e)
  | .sub k n =>
    match imp k s with
    | (s, none) => (s.bind m [n], none)
    | (s, some e) => (s, some e)
  | .define n => (s.bind m [n], none)
  | .use n => (s, if s.has m n then none else some (.nameError n))
  | .attr k n =>
    (s, if s.has m "qtune" then if s.attrs k && s.has k n then none else some .attributeError else some (.nameError "qtune"))
  | .magic => (s, if env.ipython then none else some .attributeError)         -- `None` has no attribute `magic`

/-- The statements one after the other, up to the first exception.  Python. -/
def execAll (env : Env) (imp : Mod → State → State × Option Err) (m : Mod) : List Stmt → State → State × Option Err
  | [], s => (s, none)
  | c :: cs, s =>
    match exec env imp m s c with
    | (s, none) => execAll env imp m cs s
    | (s, some e) => (s, some e)

/-- `import qtune.m`: a module that is loaded, or being loaded, is not executed again; a module whose execution fails is removed from
`sys.modules`, and a module whose execution succeeds becomes an attribute of the package.  The number is how many imports inside each other the
interpreter still allows.  Python. -/
def importM (env : Env) : Nat → Mod → State → State × Option Err
  | 0, _, s => (s, some .recursionError)
  | n + 1, m, s =>
    if (s.mods m).isSome then (s, none)
    else
      match execAll env (importM env n) m (body m) { s with mods := fun k => if k = m then some [] else s.mods k } with
      | (s, none) => ({ s with attrs := fun k => if k = m then true else s.attrs k }, none)
      | (s, some e) => ({ s with mods := fun k => if k = m then none else s.mods k }, some e)

/-- A program that imports modules one after the other and goes on if an import fails.  Imports of qtune/*.py. -/
def session (env : Env) (depth : Nat) (ms : List Mod) : State := ms.foldl (fun s m => (importM env depth m s).1) .new

end Qtune.Package
