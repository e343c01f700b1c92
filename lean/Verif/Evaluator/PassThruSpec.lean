import Verif.Evaluator.PassThruModel

/-!
# What a pass-through evaluator should report
-/

namespace Qtune.Evaluator.PassThru

variable {ω μ : Type}

/-- The measurements `ms` are made one after the other and return `rs`. -/
inductive Ran (x : Exp ω μ) : ω → List μ → List (List Val) → ω → Prop
  | nil (w : ω) : Ran x w [] [] w
  | cons {w w' w'' : ω} {m : μ} {ms : List μ} {r : List Val} {rs : List (List Val)}
      (h : x.measure w m = (w', .ok r)) (hs : Ran x w' ms rs w'') :
      Ran x w (m :: ms) (r :: rs) w''

/-- The array that a measurement returns has enough entries. -/
def LongEnough (name : String) (r : List Val) : Prop :=
  (name = "lead" → 1 ≤ r.length) ∧ (name = "line" → 2 ≤ r.length) ∧ (name = "resp" → 8 ≤ r.length)

open Classical in
/-- The quality of a value: nothing, or the sum of residuals that belongs to it.  For 'resp'
a sum that is zero up to 1e-8 counts as nothing. -/
noncomputable def qualityOf (name : String) (r : List Val) (i : Nat) : Val :=
  if name = "lead" then (r[r.length - 1]?).join
  else if name = "resp" then (r[4 + i]?).join.filter fun q => 1e-8 < |q|
  else none

/-- The number of values in an array. -/
def numberOf (name : String) (r : List Val) : Nat :=
  if name = "lead" then r.length - 1 else if name = "line" then 1
  else if name = "resp" then 4 else r.length

/-- All values that were measured, in order, each with its quality. -/
noncomputable def readings (name : μ → String) (ms : List μ) (rs : List (List Val)) : List (Val × Val) :=
  ((ms.zip rs).map fun mr => (List.range (numberOf (name mr.1) mr.2)).map fun i =>
    ((mr.2[i]?).join, qualityOf (name mr.1) mr.2 i)).flatten

open Classical in
/-- The variance of a value: the known variance `e`, scaled with the sum of residuals if there
is one and a reference to compare it with. -/
noncomputable def varianceOf (e ref q : Val) : Val :=
  if q = none ∨ ref = none then e else Val.div (Val.mul e q) ref

/-- The values with their variances, for the parameters in order. -/
noncomputable def withVariances (err ref : Series) (params : List String)
    (readings : List (Val × Val)) : List (Val × Val) :=
  (params.zip readings).map fun x => (x.2.1, varianceOf (err.val x.1) (ref.val x.1) x.2.2)

/-- The measurements are made `n` times; `rss` are the results. -/
inductive RanTimes (x : Exp ω μ) (ms : List μ) : ω → List (List (List Val)) → ω → Prop
  | nil (w : ω) : RanTimes x ms w [] w
  | cons {w w' w'' : ω} {rs : List (List Val)} {rss : List (List (List Val))}
      (h : Ran x w ms rs w') (hs : RanTimes x ms w' rss w'') : RanTimes x ms w (rs :: rss) w''

/-- The sample variance of the numbers among `l`. -/
noncomputable def sampleVariance (l : List Val) : Val :=
  let xs := l.filterMap id
  if xs.length ≤ 1 then none
  else some ((xs.map fun x => (x - xs.sum / xs.length) ^ 2).sum / (xs.length - 1))

/-- What is to be reported: the parameters in order, with the values and variances in order;
parameters for which there is no value are NaN. -/
def ReportedAs (params : List String) (readings : List (Val × Val)) (result variances : Series) :
    Prop :=
  result.index = params ∧ variances.index = params ∧
  ∀ (i : Nat) (p : String), params[i]? = some p →
    result.val p = ((readings[i]?).map Prod.fst).join ∧
    variances.val p = ((readings[i]?).map Prod.snd).join

/-- `files` are the names of the files after each of the first measurements of `ms`, made one after the other
from `w` on; then the evaluation ends in `w'`, because the next measurement raises or for another reason. -/
inductive FilesOf (x : Exp ω μ) (f : ω → String) : ω → List μ → List String → ω → Prop
  | stop (w : ω) (ms : List μ) : FilesOf x f w ms [] w
  | failed {w w' : ω} {m : μ} {ms : List μ} {e : PyErr} (h : x.measure w m = (w', .error e)) :
      FilesOf x f w (m :: ms) [] w'
  | next {w w' w'' : ω} {m : μ} {ms : List μ} {r : List Val} {files : List String}
      (h : x.measure w m = (w', .ok r)) (hs : FilesOf x f w' ms files w'') :
      FilesOf x f w (m :: ms) (f w' :: files) w''

end Qtune.Evaluator.PassThru
