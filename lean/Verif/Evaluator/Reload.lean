import Verif.Base

/-!
# Constructors and `to_hdf5` of the evaluators

`storage.py` saves an object as the dictionary `obj.to_hdf5()` and rebuilds it as `cls(**kwargs)` (storage.py:103-112,
202-218).  Here every evaluator class is described by its constructor parameters with their defaults, the settings
that the object keeps, and the keys of `to_hdf5`.  That the values of the dictionary survive the file is the subject
of `Verif/Storage`.
-/

namespace Qtune.Evaluator.Reload

/-- The values of settings.  `obj n` is an opaque object (array, Series, measurement, infinity, string, type); `filled v`
is a Series that has the value `v` for every parameter.
Arguments of the constructors, evaluator.py:33-813, sm_tune_qqd.py:183-502. -/
inductive PV
  | none
  | bool (b : Bool)
  | num (x : Nat)
  | obj (n : Nat)
  | filled (v : PV)
deriving DecidableEq

/-- `bool(v)`; simplification: opaque objects are true.  Used in evaluator.py:600-603. -/
def PV.truthy : PV → Bool
  | .none => false
  | .bool b => b
  | .num x => x != 0
  | .obj _ => true
  | .filled _ => true

/-- The description of a class.  Constructors and `to_hdf5` of evaluator.py:28-813, sm_tune_qqd.py:178-502. -/
structure Cls where
  /-- name of the class -/
  name : String
  /-- the parameters of `__init__`, with default values unless required -/
  params : List (String × Option PV)
  /-- the settings kept by the object: constructor parameter, and what is made of the argument -/
  attrs : List (String × (PV → PV))
  /-- the keys of `to_hdf5`, with the value if it is a constant instead of the setting -/
  stored : List (String × Option PV)

/-- The argument that `__init__` sees for the parameter `a`.  storage.py:202-208. -/
def Cls.arg (c : Cls) (kw : List (String × PV)) (a : String) : PV :=
  (kw.lookup a).getD ((c.params.lookup a).join.getD .none)

/-- `cls(**kw)`: `TypeError` for an unexpected or a missing argument, else the settings of the object.
storage.py:208. -/
def Cls.construct (c : Cls) (kw : List (String × PV)) : Except PyErr (List (String × PV)) :=
  if kw.any (fun p => (c.params.lookup p.1).isNone) then .error .typeError
  else if c.params.any (fun p => p.2.isNone && (kw.lookup p.1).isNone) then .error .typeError
  else .ok (c.attrs.map fun a => (a.1, a.2 (c.arg kw a.1)))

/-- `obj.to_hdf5()`.  storage.py:109. -/
def Cls.toHdf5 (c : Cls) (o : List (String × PV)) : List (String × PV) :=
  c.stored.map fun k => (k.1, k.2.getD ((o.lookup k.1).getD .none))

/-- The object rebuilt from the dictionary.  storage.py:109, 202-208. -/
def Cls.reload (c : Cls) (o : List (String × PV)) : Except PyErr (List (String × PV)) := c.construct (c.toHdf5 o)

/-! ## What the constructors make of their arguments -/

/-- kept as it is.  As in evaluator.py:40-46. -/
def keep (v : PV) : PV := v

/-- `if v is None: v = <object d>`.  As in evaluator.py:524-529. -/
def orElse (d : Nat) : PV → PV
  | .none => .obj d
  | v => v

/-- `True if v is None else bool(v)` (evaluator.py:600-603, 685-688) -/
def flank : PV → PV
  | .none => .bool true
  | v => .bool v.truthy

/-- `None` gives a Series filled with the object `d`, a Series is kept, a number gives a Series filled with it
(sm_tune_qqd.py:190-195, 462-473). -/
def limits (d : Nat) : PV → PV
  | .none => .filled (.obj d)
  | .bool b => .filled (.bool b)
  | .num x => .filled (.num x)
  | .obj n => .obj n
  | .filled v => .filled v

/-- `pd.Series(data=v, index=parameters)` (sm_tune_qqd.py:460); simplification: a Series given has this index. -/
def asSeries : PV → PV
  | .filled v => .filled v
  | .obj n => .obj n
  | v => .filled v

/-! ## The classes -/

/-- The settings of `Evaluator` (evaluator.py:33-46) with the default `d` for the measurements. -/
def baseAttrs (d : Nat) : List (String × (PV → PV)) :=
  [("experiment", keep), ("measurements", orElse d), ("parameters", keep), ("raw_x_data", keep), ("raw_y_data", keep),
    ("name", keep)]

/-- Constructor parameters common to the classes of evaluator.py.  evaluator.py:33-39. -/
def baseParams : List (String × Option PV) :=
  [("experiment", none), ("measurements", some .none), ("parameters", some (.obj 1)), ("raw_x_data", some .none),
    ("raw_y_data", some .none), ("name", some (.obj 2))]

/-- Constructor parameters common to the classes of sm_tune_qqd.py.
sm_tune_qqd.py:183-186 and the other constructors. -/
def qqdParams : List (String × Option PV) :=
  [("experiment", none), ("measurements", none), ("parameters", none), ("name", none), ("raw_x_data", some (.obj 3)),
    ("raw_y_data", some (.obj 3)), ("last_file_names", some .none)]

/-- `Evaluator.to_hdf5` (evaluator.py:81-87) -/
def baseStored : List (String × Option PV) :=
  [("experiment", none), ("measurements", none), ("parameters", none), ("raw_x_data", none), ("raw_y_data", none),
    ("name", none)]

/-- `FittingEvaluator.to_hdf5` (evaluator.py:124-128) -/
def fitStored : List (String × Option PV) := baseStored ++ [("fit_results", none), ("initial_fit_arguments", none)]

/-- evaluator.py:131-151, 199-202 -/
def leadTunnelPrefit : Cls where
  name := "LeadTunnelTimePrefitVersion"
  params := baseParams ++ [("sample_rate", some (.num 100000000)), ("fit_results", some .none),
    ("evaluation_arguments", some .none), ("initial_fit_arguments", some .none)]
  attrs := baseAttrs 10 ++ [("sample_rate", keep), ("fit_results", keep), ("evaluation_arguments", orElse 11),
    ("initial_fit_arguments", keep)]
  stored := fitStored ++ [("evaluation_arguments", none)]

/-- evaluator.py:231-255, 311-314 -/
def leadTunnelScan : Cls where
  name := "LeadTunnelTimeByLeadScan"
  params := leadTunnelPrefit.params
  attrs := leadTunnelPrefit.attrs
  stored := fitStored ++ [("sample_rate", none), ("evaluation_arguments", none)]

/-- evaluator.py:349-372, 438-440 -/
def interDot : Cls where
  name := "InterDotTCByLineScan"
  params := baseParams ++ [("fit_results", some .none), ("initial_fit_arguments", some .none),
    ("intermediate_fit_arguments", some .none)]
  attrs := baseAttrs 12 ++ [("fit_results", keep), ("initial_fit_arguments", keep),
    ("intermediate_fit_arguments", orElse 13)]
  stored := fitStored ++ [("intermediate_fit_arguments", none)]

/-- evaluator.py:447-465, 498-500 -/
def loadTime : Cls where
  name := "NewLoadTime"
  params := baseParams ++ [("fit_results", some .none), ("initial_fit_arguments", some .none),
    ("initial_curvature", some (.num 30))]
  attrs := baseAttrs 14 ++ [("fit_results", keep), ("initial_fit_arguments", orElse 15), ("initial_curvature", keep)]
  stored := fitStored ++ [("initial_curvature", none)]

/-- evaluator.py:512-535, 572-577: `transition_width` is stored as a constant (object 16 is the number 0.2e-3), and
`sweeping_gates` is not kept. -/
def leadTransition : Cls where
  name := "LeadTransition"
  params := baseParams ++ [("shifting_gates", some (.obj 17)), ("sweeping_gates", some (.obj 18)),
    ("charge_diagram_width", some (.obj 19)), ("transition_positions", some (.obj 20)),
    ("transition_width", some (.obj 16))]
  attrs := baseAttrs 21 ++ [("shifting_gates", keep), ("charge_diagram_width", keep), ("transition_positions", keep),
    ("transition_width", keep)]
  stored := baseStored ++ [("transition_positions", none), ("shifting_gates", none), ("charge_diagram_width", none),
    ("transition_width", some (.obj 16))]

/-- evaluator.py:586-613, 659-664: the default of `rising_flank` is the type `Optional[bool]` (object 22). -/
def sensingDot1D : Cls where
  name := "SensingDot1D"
  params := baseParams ++ [("sweeping_gate", some (.obj 23)), ("current_signal", some .none),
    ("optimal_signal", some .none), ("optimal_position", some .none), ("rising_flank", some (.obj 22))]
  attrs := baseAttrs 24 ++ [("sweeping_gate", keep), ("current_signal", keep), ("optimal_signal", keep),
    ("optimal_position", keep), ("rising_flank", flank)]
  stored := baseStored ++ [("sweeping_gate", none), ("current_signal", none), ("optimal_signal", none),
    ("optimal_position", none)]

/-- evaluator.py:673-697, 764-768 -/
def sensingDot2D : Cls where
  name := "SensingDot2D"
  params := baseParams ++ [("sweeping_gates", some (.obj 25)), ("scan_range", some (.obj 26)),
    ("new_voltages", some (.obj 27)), ("rising_flank", some .none)]
  attrs := baseAttrs 28 ++ [("sweeping_gates", keep), ("scan_range", keep), ("new_voltages", keep),
    ("rising_flank", flank)]
  stored := baseStored ++ [("sweeping_gates", none), ("scan_range", none), ("new_voltages", none)]

/-- evaluator.py:771-784, 808-813 -/
def averaging : Cls where
  name := "AveragingEvaluator"
  params := [("evaluator", none), ("n_measurement_repetitions", none), ("raw_x_data", some .none),
    ("raw_y_data", some .none), ("name", some .none)]
  attrs := [("evaluator", keep), ("n_measurement_repetitions", keep), ("raw_x_data", orElse 29),
    ("raw_y_data", orElse 29), ("name", orElse 30)]
  stored := [("evaluator", none), ("n_measurement_repetitions", none), ("raw_x_data", none), ("raw_y_data", none),
    ("name", none)]

/-- The settings common to the classes of sm_tune_qqd.py.  sm_tune_qqd.py:183-197. -/
def qqdAttrs : List (String × (PV → PV)) :=
  [("experiment", keep), ("measurements", keep), ("parameters", keep), ("raw_x_data", keep), ("raw_y_data", keep),
    ("name", keep), ("last_file_names", keep)]

/-- The keys common to the classes of sm_tune_qqd.py.  sm_tune_qqd.py:271-275. -/
def qqdStored : List (String × Option PV) := baseStored ++ [("last_file_names", none)]

/-- sm_tune_qqd.py:183-197, 271-275 (object 31 is NaN) -/
def qqdPassThru : Cls where
  name := "SMQQDPassThru"
  params := qqdParams ++ [("error", some .none), ("reference_residual_sum", some .none)]
  attrs := qqdAttrs ++ [("error", keep), ("reference_residual_sum", limits 31)]
  stored := qqdStored ++ [("error", none), ("reference_residual_sum", none)]

/-- sm_tune_qqd.py:278-286, 310-314 (object 32 is infinity, 33 minus infinity) -/
def qqdLine : Cls where
  name := "QQDLine"
  params := qqdParams ++ [("maximal_value", some (.obj 32)), ("minimal_value", some (.obj 33))]
  attrs := qqdAttrs ++ [("maximal_value", keep), ("minimal_value", keep)]
  stored := qqdStored ++ [("maximal_value", none), ("minimal_value", none)]

/-- sm_tune_qqd.py:317-326, 342-348 -/
def qqdLead : Cls where
  name := "QQDLead"
  params := qqdParams ++ [("error", some (.num 1)), ("reference_residual_sum", some (.num 1)),
    ("maximal_value", some (.obj 32)), ("minimal_value", some (.obj 33))]
  attrs := qqdAttrs ++ [("error", keep), ("reference_residual_sum", keep), ("maximal_value", keep),
    ("minimal_value", keep)]
  stored := qqdStored ++ [("error", none), ("reference_residual_sum", none), ("maximal_value", none),
    ("minimal_value", none)]

/-- sm_tune_qqd.py:351-355, 370-372 -/
def qqdSensor1D : Cls := ⟨"QQDSensor1D", qqdParams, qqdAttrs, qqdStored⟩

/-- sm_tune_qqd.py:375-379, 395-397 -/
def qqdSensor2D : Cls := ⟨"QQDSensor2D", qqdParams, qqdAttrs, qqdStored⟩

/-- sm_tune_qqd.py:400-405, 421-424 -/
def qqdCharge : Cls :=
  ⟨"QQDCharge", qqdParams ++ [("error", some (.num 1))], qqdAttrs ++ [("error", keep)], qqdStored ++ [("error", none)]⟩

/-- sm_tune_qqd.py:427-432, 448-451 -/
def qqdDistTP : Cls :=
  ⟨"QQDDistTP", qqdParams ++ [("error", some (.num 1))], qqdAttrs ++ [("error", keep)], qqdStored ++ [("error", none)]⟩

/-- sm_tune_qqd.py:454-473, 496-502 -/
def qqdResp : Cls where
  name := "QQDResp"
  params := qqdParams ++ [("error", some (.num 1)), ("min_transition_height", some (.obj 33)),
    ("min_position", some .none), ("max_position", some .none)]
  attrs := qqdAttrs ++ [("error", asSeries), ("min_transition_height", keep), ("min_position", limits 33),
    ("max_position", limits 33)]
  stored := qqdStored ++ [("error", none), ("min_transition_height", none), ("min_position", none),
    ("max_position", none)]

/-- All evaluator classes of evaluator.py and sm_tune_qqd.py that can be instantiated.
evaluator.py:131-813, sm_tune_qqd.py:178-502. -/
def classes : List Cls :=
  [leadTunnelPrefit, leadTunnelScan, interDot, loadTime, leadTransition, sensingDot1D, sensingDot2D, averaging,
    qqdPassThru, qqdLine, qqdLead, qqdSensor1D, qqdSensor2D, qqdCharge, qqdDistTP, qqdResp]

/-! ## The theorems -/

/-- The settings that a reload loses, with their values afterwards. -/
def lost : List (String × String × PV) :=
  [("SensingDot1D", "rising_flank", .bool true), ("SensingDot2D", "rising_flank", .bool true),
    ("LeadTunnelTimePrefitVersion", "sample_rate", .num 100000000), ("LeadTransition", "transition_width", .obj 16)]

theorem lookup_map_snd {α β : Type} (l : List (String × α)) (f : String × α → β) (k : String) :
    (l.map fun a => (a.1, f a)).lookup k = (l.find? fun a => a.1 == k).map f := by
  induction l with
  | nil => rfl
  | cons a t ih =>
    by_cases h : k = a.1
    · subst h; simp
    · have h1 : (k == a.1) = false := by simp [h]
      have h2 : (a.1 == k) = false := by simp [Ne.symm h]
      simp [List.lookup_cons, h1, h2, ih]

/-- The keys of the dictionary are parameters, and the required parameters are keys. -/
def Cls.wellFormed (c : Cls) : Bool :=
  c.stored.all (fun k => (c.params.lookup k.1).isSome) &&
    c.params.all fun p => p.2.isSome || c.stored.any fun k => k.1 == p.1

theorem reload_eq {c : Cls} (hc : c.wellFormed = true) (o : List (String × PV)) :
    c.reload o = .ok (c.attrs.map fun a => (a.1, a.2 (c.arg (c.toHdf5 o) a.1))) := by
  unfold Cls.wellFormed at hc
  rw [Bool.and_eq_true, List.all_eq_true, List.all_eq_true] at hc
  unfold Cls.reload Cls.construct
  rw [if_neg, if_neg]
  · intro h
    obtain ⟨p, hp, h⟩ := List.any_eq_true.mp h
    rw [Bool.and_eq_true] at h
    have := hc.2 p hp
    rw [Bool.or_eq_true] at this
    rcases this with h1 | h1
    · rw [Option.isNone_iff_eq_none] at h; rw [h.1] at h1; cases h1
    · obtain ⟨k, hk, hkp⟩ := List.any_eq_true.mp h1
      have h2 := h.2
      unfold Cls.toHdf5 at h2
      rw [lookup_map_snd, Option.isNone_iff_eq_none, Option.map_eq_none_iff, List.find?_eq_none] at h2
      exact h2 k hk hkp
  · intro h
    obtain ⟨p, hp, h⟩ := List.any_eq_true.mp h
    obtain ⟨k, hk, rfl⟩ := List.mem_map.mp hp
    have := hc.1 k hk
    rw [Option.isNone_iff_eq_none] at h
    simp only at h
    rw [h] at this
    cases this

theorem construct_ok {c : Cls} {kw o : List (String × PV)} (h : c.construct kw = .ok o) :
    o = c.attrs.map fun a => (a.1, a.2 (c.arg kw a.1)) := by
  unfold Cls.construct at h
  split at h
  · cases h
  · split at h
    · cases h
    · exact (Except.ok.inj h).symm

/-- The value of setting `a` after a reload, if it is stored. -/
theorem reload_stored {c : Cls} (hc : c.wellFormed = true) {kw o o' : List (String × PV)}
    (h : c.construct kw = .ok o) (h' : c.reload o = .ok o') {a : String} {f : PV → PV}
    (ha : c.attrs.find? (fun x => x.1 == a) = some (a, f)) (hs : c.stored.find? (fun x => x.1 == a) = some (a, none))
    (hf : ∀ v, f (f v) = f v) : o'.lookup a = o.lookup a := by
  have ho : o.lookup a = some (f (c.arg kw a)) := by
    rw [construct_ok h, lookup_map_snd, ha]; rfl
  rw [reload_eq hc] at h'
  rw [← Except.ok.inj h', lookup_map_snd, ha, Option.map_some]
  unfold Cls.arg
  have : (c.toHdf5 o).lookup a = some (f (c.arg kw a)) := by
    unfold Cls.toHdf5
    rw [lookup_map_snd, hs]
    simp [ho]
  rw [this, ho]
  simp [hf]

/-- The value of setting `a` after a reload, if it is not stored or stored as a constant. -/
theorem reload_lost {c : Cls} (hc : c.wellFormed = true) {o o' : List (String × PV)} (h' : c.reload o = .ok o')
    {a : String} {f : PV → PV} (ha : c.attrs.find? (fun x => x.1 == a) = some (a, f)) :
    (∀ d, c.stored.find? (fun x => x.1 == a) = none → c.params.lookup a = some (some d) → o'.lookup a = some (f d)) ∧
    ∀ v, c.stored.find? (fun x => x.1 == a) = some (a, some v) → o'.lookup a = some (f v) := by
  rw [reload_eq hc] at h'
  rw [← Except.ok.inj h', lookup_map_snd, ha, Option.map_some]
  unfold Cls.arg Cls.toHdf5
  rw [lookup_map_snd]
  constructor
  · intro d hd hp; simp [hd, hp]
  · intro v hv; simp [hv]

theorem keep_idem (v : PV) : keep (keep v) = keep v := rfl
theorem orElse_idem (d : Nat) (v : PV) : orElse d (orElse d v) = orElse d v := by cases v <;> rfl
theorem flank_idem (v : PV) : flank (flank v) = flank v := by cases v <;> rfl
theorem limits_idem (d : Nat) (v : PV) : limits d (limits d v) = limits d v := by cases v <;> rfl
theorem asSeries_idem (v : PV) : asSeries (asSeries v) = asSeries v := by cases v <;> rfl

theorem wellFormed_classes : ∀ c ∈ classes, c.wellFormed = true := by
  intro c hc
  simp only [classes, List.mem_cons, List.not_mem_nil, or_false] at hc
  rcases hc with rfl | rfl | rfl | rfl | rfl | rfl | rfl | rfl | rfl | rfl | rfl | rfl | rfl | rfl | rfl | rfl <;> rfl

theorem idem_classes : ∀ c ∈ classes, ∀ a ∈ c.attrs, ∀ v, a.2 (a.2 v) = a.2 v := by
  intro c hc
  simp only [classes, List.mem_cons, List.not_mem_nil, or_false] at hc
  rcases hc with rfl | rfl | rfl | rfl | rfl | rfl | rfl | rfl | rfl | rfl | rfl | rfl | rfl | rfl | rfl | rfl <;>
    (intro a ha v
     simp only [leadTunnelPrefit, leadTunnelScan, interDot, loadTime, leadTransition, sensingDot1D, sensingDot2D,
       averaging, qqdPassThru, qqdLine, qqdLead, qqdSensor1D, qqdSensor2D, qqdCharge, qqdDistTP, qqdResp, baseAttrs,
       qqdAttrs, List.cons_append, List.nil_append, List.mem_cons, List.not_mem_nil, or_false] at ha
     repeat' first
       | (rcases ha with rfl | ha)
       | (subst ha)
     all_goals first
       | exact keep_idem v
       | exact orElse_idem _ v
       | exact flank_idem v
       | exact limits_idem _ v
       | exact asSeries_idem v)

/-- What happens to the setting `a` of class `c`: it is stored, or it is in the list `lost` with its later value. -/
def Cls.fate (c : Cls) (a : String × (PV → PV)) : Bool :=
  (match c.stored.find? fun x => x.1 == a.1 with
    | some (_, none) => !(lost.any fun l => l.1 == c.name && l.2.1 == a.1)
    | some (_, some v) => lost.contains (c.name, a.1, a.2 v)
    | none => match c.params.lookup a.1 with
      | some (some d) => lost.contains (c.name, a.1, a.2 d)
      | _ => false)

theorem fate_classes : ∀ c ∈ classes, c.attrs.all c.fate = true := by
  intro c hc
  simp only [classes, List.mem_cons, List.not_mem_nil, or_false] at hc
  rcases hc with rfl | rfl | rfl | rfl | rfl | rfl | rfl | rfl | rfl | rfl | rfl | rfl | rfl | rfl | rfl | rfl <;> rfl

theorem lost_unique {n a : String} {v v' : PV} (h : (n, a, v) ∈ lost) (h' : (n, a, v') ∈ lost) : v = v' := by
  simp only [lost, List.mem_cons, Prod.mk.injEq, List.not_mem_nil, or_false] at h h'
  rcases h with ⟨rfl, rfl, rfl⟩ | ⟨rfl, rfl, rfl⟩ | ⟨rfl, rfl, rfl⟩ | ⟨rfl, rfl, rfl⟩ <;> simp at h' <;> exact h'.symm

/-- C70 (partial): an evaluator of any class, constructed with any arguments, can be rebuilt from `to_hdf5()`, and the
rebuilt object has the same settings, except for the four settings in `lost`, which always have the value given
there.  Missing: these four, see `reload_flank_refuted`, `reload_sample_rate_refuted`. -/
theorem reload_settings_partial : ∀ c ∈ classes, ∀ kw o, c.construct kw = .ok o →
    ∃ o', c.reload o = .ok o' ∧ ∀ a,
      ((∀ v, (c.name, a, v) ∉ lost) → o'.lookup a = o.lookup a) ∧
      ∀ v, (c.name, a, v) ∈ lost → o'.lookup a = some v := by
  intro c hc kw o h
  have hwf := wellFormed_classes c hc
  refine ⟨_, reload_eq hwf o, fun a => ?_⟩
  have hrel := reload_eq hwf o
  generalize (c.attrs.map fun a => (a.1, a.2 (c.arg (c.toHdf5 o) a.1))) = o' at hrel
  cases hfind : c.attrs.find? fun x => x.1 == a with
  | none =>
    have h1 : o.lookup a = none := by rw [construct_ok h, lookup_map_snd, hfind]; rfl
    have h2 : o'.lookup a = none := by
      rw [reload_eq hwf] at hrel
      rw [← Except.ok.inj hrel, lookup_map_snd, hfind]; rfl
    refine ⟨fun _ => by rw [h1, h2], fun v hv => ?_⟩
    exfalso
    revert hfind hv
    clear h h1 h2 hrel hwf
    simp only [classes, List.mem_cons, List.not_mem_nil, or_false] at hc
    intro hfind hv
    simp only [lost, List.mem_cons, Prod.mk.injEq, List.not_mem_nil, or_false] at hv
    rcases hc with rfl | rfl | rfl | rfl | rfl | rfl | rfl | rfl | rfl | rfl | rfl | rfl | rfl | rfl | rfl | rfl <;>
      (rcases hv with ⟨h1, rfl, _⟩ | ⟨h1, rfl, _⟩ | ⟨h1, rfl, _⟩ | ⟨h1, rfl, _⟩ <;>
        first
          | exact absurd h1 (by decide)
          | exact absurd hfind (by intro hf; simp [List.find?_eq_none] at hf; revert hf;
                                   simp [leadTunnelPrefit, leadTransition, sensingDot1D, sensingDot2D, baseAttrs]))
  | some x =>
    obtain ⟨a', f⟩ := x
    have ha' : a' = a := by simpa using List.find?_some hfind
    subst ha'
    have hmem := List.mem_of_find?_eq_some hfind
    have hid := idem_classes c hc _ hmem
    have hfate := List.all_eq_true.mp (fate_classes c hc) _ hmem
    unfold Cls.fate at hfate
    dsimp only at hfate
    split at hfate
    · rename_i k hs
      have hk : k = a' := by simpa using List.find?_some hs
      subst hk
      refine ⟨fun _ => reload_stored hwf h hrel hfind hs hid, fun v hv => ?_⟩
      exfalso
      rw [Bool.not_eq_true', List.any_eq_false] at hfate
      exact hfate _ hv (by simp)
    · rename_i k v' hs
      have hk : k = a' := by simpa using List.find?_some hs
      subst hk
      have hin : (c.name, k, f v') ∈ lost := by simpa using hfate
      refine ⟨fun hno => absurd hin (hno _), fun v hv => ?_⟩
      rw [(reload_lost hwf hrel hfind).2 v' hs, lost_unique hin hv]
    · rename_i hs
      split at hfate
      · rename_i d hd
        have hin : (c.name, a', f d) ∈ lost := by simpa using hfate
        refine ⟨fun hno => absurd hin (hno _), fun v hv => ?_⟩
        rw [(reload_lost hwf hrel hfind).1 d hs hd, lost_unique hin hv]
      · cases hfate

/-- A sensing dot evaluator for the falling flank, as constructed. -/
example : ∃ o, sensingDot2D.construct [("experiment", .obj 100), ("rising_flank", .bool false)] = .ok o ∧
    o.lookup "rising_flank" = some (.bool false) := ⟨_, rfl, rfl⟩

/-- C70 is false: the flank of `SensingDot1D` and `SensingDot2D` is lost. -/
theorem reload_flank_refuted : ∀ c ∈ [sensingDot1D, sensingDot2D], ∃ kw o o',
    c.construct kw = .ok o ∧ c.reload o = .ok o' ∧ o.lookup "rising_flank" = some (.bool false) ∧
      o'.lookup "rising_flank" = some (.bool true) := by
  intro c hc
  simp only [List.mem_cons, List.not_mem_nil, or_false] at hc
  rcases hc with rfl | rfl <;>
    exact ⟨[("experiment", .obj 100), ("rising_flank", .bool false)], _, _, rfl, rfl, rfl, rfl⟩

/-- C70 is false: the sample rate of `LeadTunnelTimePrefitVersion` is lost, and every width of the transition other than
the default in `LeadTransition`. -/
theorem reload_sample_rate_refuted :
    (∃ kw o o', leadTunnelPrefit.construct kw = .ok o ∧ leadTunnelPrefit.reload o = .ok o' ∧
      o.lookup "sample_rate" = some (.num 50000000) ∧ o'.lookup "sample_rate" = some (.num 100000000)) ∧
    ∃ kw o o', leadTransition.construct kw = .ok o ∧ leadTransition.reload o = .ok o' ∧
      o'.lookup "transition_width" ≠ o.lookup "transition_width" :=
  ⟨⟨[("experiment", .obj 100), ("sample_rate", .num 50000000)], _, _, rfl, rfl, rfl, rfl⟩,
    ⟨[("experiment", .obj 100), ("transition_width", .num 1)], _, _, rfl, rfl, by decide⟩⟩

end Qtune.Evaluator.Reload
