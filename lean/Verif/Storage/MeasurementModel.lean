import Verif.Base
import Mathlib.Data.List.Basic

/-!
# Model of measurements and how they are stored (experiment.py:30-55, sm_tune_qqd.py:33-43, storage.py:202-208)

`V` are the values of options; a dict is the list of its entries, keys differ.  Simplification: that a dict of such values survives the file is the
subject of `Model.lean` and `Props.lean`; here the file gives back the same entries in any order.
-/

namespace Qtune.Storage.Meas

variable {V : Type}

/-- A measurement: its attributes `_name` and `options`.  experiment.py:34-37. -/
structure Measurement (V : Type) where
  name : V
  options : List (String × V)

/-- `d[k] = v`: the entry is replaced, or added at the end.  Used for `options`, sm_tune_qqd.py:512. -/
def put (k : String) (v : V) : List (String × V) → List (String × V)
  | [] => [(k, v)]
  | e :: d => if e.1 = k then (k, v) :: d else e :: put k v d

/-- `Measurement(**kw)` (experiment.py:34-37): `TypeError` without `name` and for an entry `self`, which the call passes itself. -/
def construct (kw : List (String × V)) : Except PyErr (Measurement V) :=
  if kw.any (fun e => e.1 == "self") then .error .typeError
  else match kw.lookup "name" with
    | none => .error .typeError
    | some n => .ok ⟨n, kw.filter fun e => e.1 != "name"⟩

/-- `to_hdf5`: `dict(self.options, name=self.name)` (experiment.py:49-51). -/
def Measurement.toHdf5 (m : Measurement V) : List (String × V) := put "name" m.name m.options

/-- `m.options[k] = v`, as in sm_tune_qqd.py:512; `options` is a public attribute (experiment.py:37). -/
def Measurement.setOption (m : Measurement V) (k : String) (v : V) : Measurement V := { m with options := put k v m.options }

/-- `del m.options[k]` (experiment.py:37). -/
def Measurement.delOption (m : Measurement V) (k : String) : Except PyErr (Measurement V) :=
  if m.options.any (fun e => e.1 == k) then .ok { m with options := m.options.filter fun e => e.1 != k } else .error .keyError

/-- A `QQDMeasurement`: the constructor stores nothing but `data = None` and does not call that of `Measurement` (sm_tune_qqd.py:38-39). -/
structure QQDMeasurement where
  data : Option Unit

/-- `QQDMeasurement(**kw)` (sm_tune_qqd.py:38-39). -/
def constructQQD (kw : List (String × V)) : Except PyErr QQDMeasurement :=
  if kw.any (fun e => e.1 == "self") then .error .typeError
  else match kw.lookup "name" with
    | none => .error .typeError
    | some _ => .ok ⟨none⟩

/-- The attributes of a `QQDMeasurement` object, in its `__dict__` (sm_tune_qqd.py:39). -/
def QQDMeasurement.attrs (_ : QQDMeasurement) : List String := ["data"]

/-- `m.options` (sm_tune_qqd.py:42): `AttributeError` if the object has no such attribute. -/
def QQDMeasurement.options (m : QQDMeasurement) : Except PyErr (List (String × V)) :=
  if "options" ∈ m.attrs then .ok [] else .error .attributeError

/-- `m.name`, the property of the base class, which reads `self._name` (experiment.py:39-41). -/
def QQDMeasurement.name [Inhabited V] (m : QQDMeasurement) : Except PyErr V :=
  if "_name" ∈ m.attrs then .ok default else .error .attributeError

/-- `to_hdf5` (sm_tune_qqd.py:41-43). -/
def QQDMeasurement.toHdf5 [Inhabited V] (m : QQDMeasurement) : Except PyErr (List (String × V)) :=
  match (m.options : Except PyErr (List (String × V))) with
  | .error e => .error e
  | .ok o => match (m.name : Except PyErr V) with
    | .error e => .error e
    | .ok n => .ok (put "name" n o)

/-- What a program does with the options of a measurement.  experiment.py:37. -/
inductive Op (V : Type)
  | set (k : String) (v : V)
  | del (k : String)

/-- The operations one after the other; a `KeyError` leaves the options as they are.  experiment.py:37. -/
def Measurement.run (m : Measurement V) : List (Op V) → Measurement V
  | [] => m
  | .set k v :: ops => (m.setOption k v).run ops
  | .del k :: ops => (match m.delOption k with | .ok m' => m' | .error _ => m).run ops

end Qtune.Storage.Meas
