import Verif.SensingDot.Reload

/-! # The constructor of `SensingDotTuner` -/

namespace Qtune.SensingDot

open _root_.Qtune.Tuner

variable {S ι : Type}

/-- The names of all parameters that the evaluators have, once each and sorted.  parameter_tuner.py:313-317. -/
def knownNames (cheap expensive : List String) : List String :=
  (cheap ++ expensive).dedup.mergeSort fun a b => decide (a ≤ b)

/-- `SensingDotTuner.__init__` without stored values and variances (parameter_tuner.py:293-331, 54-95); `cheap` and `expensive` are the parameters of
the evaluators.  Simplifications: the last voltages are given, tuned and evaluatable voltages are not. -/
def construct (I : SolverI S ι) (cheap expensive : List String) (solver : S) (lastVoltage : Volt ι) :
    Except PyErr (SDTuner S ι) :=
  let T := I.target solver
  let series : Series := (knownNames cheap expensive).map fun l => (l, none)                       -- lines 311-321
  if !(rowsNotEmpty T).all series.index.contains then .error .assertionError                       -- line 74
  else if !T.names.all series.index.contains then .error .assertionError                           -- line 85
  else if ¬ cheap.Nodup then .error .valueError                                                    -- lines 93-94
  else if !(rowsComplete T).all cheap.contains then .error .assertionError                         -- line 95
  else .ok
    { solver := solver
      tunedVoltages := []
      lastVoltage := lastVoltage
      lastValues := series
      lastVariances := series
      lastFailed := false
      evaluatable := []
      cheapOnly := true }

end Qtune.SensingDot
