import Verif.Series

/-!
# Model of `SMQQDPassThru` (sm_tune_qqd.py:178-275)

The experiment is a parameter with a state `ω`; `measure` returns an array of numbers or
raises.  Numbers are real numbers or NaN (`none`); a division by zero gives NaN.  Logging is
left out.
-/

namespace Qtune.Evaluator.PassThru

/-- The experiment: `measure`, and `get_last_file_name` if the class has this method.
Used in sm_tune_qqd.py:226-227. -/
structure Exp (ω μ : Type) where
  measure : ω → μ → ω × Except PyErr (List Val)
  lastFile : Option (ω → String)

/-- The evaluator, sm_tune_qqd.py:183-197 (`reference` after the constructor has made it a
Series). -/
structure PT (μ : Type) where
  params : List String
  measurements : List μ
  error : Option Series
  reference : Series
  files : List String
  count : Nat
  rawX : List Nat
  rawY : List Val

/-- The arrays that are filled in the loop, sm_tune_qqd.py:218-221. -/
structure Acc where
  values : List Val := []
  residuals : List Val := []
  variances : List Val := []

open Classical in
/-- The residual of a position of 'resp', sm_tune_qqd.py:239-243: numbers close to zero count
as NaN. -/
noncomputable def respResidual : Val → Val
  | none => none
  | some x => if |x| ≤ 1e-8 then none else some x

/-- The body of the loop for one measurement, sm_tune_qqd.py:228-247. -/
noncomputable def addResult (acc : Acc) (name : String) (r : List Val) : Except PyErr Acc :=
  if name = "lead" then
    match r.getLast? with
    | none => .error .indexError
    | some last =>
      .ok { acc with values := acc.values ++ r.dropLast
                     residuals := acc.residuals ++ List.replicate (r.length - 1) last }
  else if name = "line" then
    match r[0]?, r[1]? with
    | some a, some b =>
      .ok { values := acc.values ++ [a], variances := acc.variances ++ [b]
            residuals := acc.residuals ++ List.replicate r.length none }
    | _, _ => .error .indexError
  else if name = "resp" then
    match r[4]?, r[5]?, r[6]?, r[7]? with
    | some a, some b, some c, some d =>
      .ok { acc with values := acc.values ++ r.take 4
                     residuals := acc.residuals ++
                       [respResidual a, respResidual b, respResidual c, respResidual d] }
    | _, _, _, _ => .error .indexError
  else
    .ok { acc with values := acc.values ++ r
                   residuals := acc.residuals ++ List.replicate r.length none }

variable {ω μ : Type}

/-- The loop over the measurements, sm_tune_qqd.py:225-247.  The names of the files are
returned too, also if an exception is raised. -/
noncomputable def collect (name : μ → String) (x : Exp ω μ) :
    ω → List μ → Acc → List String → ω × List String × Except PyErr Acc
  | w, [], acc, files => (w, files, .ok acc)
  | w, m :: ms, acc, files =>
    match x.measure w m with
    | (w', .error e) => (w', files, .error e)
    | (w', .ok r) =>
      match x.lastFile with
      | none => (w', files, .error .attributeError)
      | some f =>
        match addResult acc (name m) r with
        | .error e => (w', files ++ [f w'], .error e)
        | .ok acc' => collect name x w' ms acc' (files ++ [f w'])

/-- `series[label] = value` for a label of the Series.  sm_tune_qqd.py:253-254, 257-265. -/
def put (s : Series) (l : String) (v : Val) : Series :=
  s.map fun p => if p.1 = l then (l, v) else p

/-- The variance of a parameter, sm_tune_qqd.py:259-265. -/
noncomputable def scaled (err ref : Series) (p : String) (res : Val) : Except PyErr Val :=
  match res with
  | none => match err.lookup p with
    | none => .error .keyError
    | some e => .ok e
  | some _ => match ref.lookup p with
    | none => .error .keyError
    | some none => match err.lookup p with
      | none => .error .keyError
      | some e => .ok e
    | some r => match err.lookup p with
      | none => .error .keyError
      | some e => .ok (Val.div (Val.mul e res) r)

/-- The loop of sm_tune_qqd.py:256-265. -/
noncomputable def deal (err ref : Series) :
    List String → List Val → List Val → Series → Series → Except PyErr (Series × Series)
  | p :: ps, v :: vs, r :: rs, result, error =>
    match scaled err ref p r with
    | .error e => .error e
    | .ok s => deal err ref ps vs rs (put result p v) (put error p s)
  | _, _, _, result, error => .ok (result, error)

/-- The loop of sm_tune_qqd.py:252-254. -/
def dealLine : List String → List Val → List Val → Series → Series → Series × Series
  | p :: ps, v :: vs, s :: ss, result, error => dealLine ps vs ss (put result p v) (put error p s)
  | _, _, _, result, error => (result, error)

/-- The part of `evaluate` after line 216, sm_tune_qqd.py:218-269.  Without measurements the
variable of line 251 does not exist. -/
noncomputable def run (name : μ → String) (x : Exp ω μ) (w : ω) (ev : PT μ) (err : Series) :
    ω × PT μ × Except PyErr (Series × Series) :=
  match collect name x w ev.measurements {} [] with
  | (w', files, .error e) => (w', { ev with files := files }, .error e)
  | (w', files, .ok acc) =>
    let nan : Series := ev.params.map fun p => (p, none)
    match ev.measurements.getLast? with
    | none => (w', { ev with files := files }, .error .nameError)
    | some m =>
      match (if name m = "line" then Except.ok (dealLine ev.params acc.values acc.variances nan nan)
        else deal err ev.reference ev.params acc.values acc.residuals nan nan) with
      | .error e => (w', { ev with files := files }, .error e)
      | .ok (result, error) =>
        (w', { ev with files := files, count := ev.count + 1, rawX := [ev.count],
                       rawY := result.map Prod.snd }, .ok (result, error))

/-- The mean of numbers.  Part of `df.var(0)`, sm_tune_qqd.py:209. -/
noncomputable def mean (l : List ℝ) : ℝ := l.sum / l.length

/-- `df.var(0)` for one column: NaN entries are skipped, the sum of squares is divided by the
number of entries minus one.  sm_tune_qqd.py:209. -/
noncomputable def columnVar (l : List Val) : Val :=
  let xs := l.filterMap id
  if xs.length ≤ 1 then none
  else some ((xs.map fun x => (x - mean xs) ^ 2).sum / (xs.length - 1))

/-- The loop of `evaluate_error`, sm_tune_qqd.py:204-206: `evaluate` is called with the NaN
Series of line 203 as error. -/
noncomputable def repeats (name : μ → String) (x : Exp ω μ) (err : Series) :
    Nat → ω → PT μ → List Series → ω × PT μ × Except PyErr (List Series)
  | 0, w, ev, acc => (w, ev, .ok acc)
  | n + 1, w, ev, acc =>
    match run name x w ev err with
    | (w', ev', .error e) => (w', ev', .error e)
    | (w', ev', .ok (result, _)) => repeats name x err n w' ev' (acc ++ [result])

/-- `evaluate_error`, sm_tune_qqd.py:199-209. -/
noncomputable def evaluateError (name : μ → String) (x : Exp ω μ) (w : ω) (ev : PT μ) :
    ω × PT μ × Except PyErr Unit :=
  let nan : Series := ev.params.map fun p => (p, none)
  match repeats name x nan 8 w { ev with error := some nan } [] with
  | (w', ev', .error e) => (w', ev', .error e)
  | (w', ev', .ok rows) =>
    (w', { ev' with error := some (ev.params.map fun p => (p, columnVar (rows.map fun r => r.val p))) },
      .ok ())

/-- `evaluate`, sm_tune_qqd.py:211-269. -/
noncomputable def evaluate (name : μ → String) (x : Exp ω μ) (w : ω) (ev : PT μ) :
    ω × PT μ × Except PyErr (Series × Series) :=
  match ev.error with
  | some err => run name x w ev err
  | none =>
    match evaluateError name x w ev with
    | (w', ev', .error e) => (w', ev', .error e)
    | (w', ev', .ok ()) => run name x w' ev' (ev'.error.getD [])

end Qtune.Evaluator.PassThru
