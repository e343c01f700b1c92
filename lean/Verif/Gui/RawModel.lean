import Verif.Gui.ReloadModel

/-!
# Model of the windows with the raw data (`EvaluatorWidget`, `MeasurementDataWidget`, gui.py:74-138, 359-385)

`δ` is the type of what is plotted.  The table with the raw data has the same number of rows as the history (C146).
-/

namespace Qtune.Gui.Raw

open Qtune.Gui.Reload

variable {δ : Type}

/-- A window: the number of the tune run (`_tune_run_number`), the text of its line edit, and the picture
(`bottom`): `none` as long as no button was clicked or if plotting raised; otherwise the evaluator and what is plotted
(`none`: empty axes).  gui.py:75-81, 98-102. -/
structure Window (δ : Type) where
  number : Int
  shown : Int
  picture : Option (String × Option δ)

/-- `EvaluatorWidget.__init__` (gui.py:75-81, 99). -/
def init : Window δ := ⟨0, 0, none⟩

/-- `refreh_tune_run_number` and the setter of `tune_run_number` (gui.py:112-117, 127-138); `none` for a text that is no
integer; `n` iterations are stored. -/
def edit (t : Option Int) (n : Nat) (w : Window δ) : Window δ :=
  { w with number := clampNumber t n, shown := clampNumber t n }

/-- `plot_raw_data` (gui.py:104-110) for the evaluator `e`: a new widget shows the data of row `number - 1`
(gui.py:369-385, history.py:458-463).  If there is no such row, `IndexError` is logged, and the widget that was there
before stays. -/
def click (e : String) (data : List (String → Option δ)) (w : Window δ) : Window δ :=
  match pyGet data (w.number - 1) with
  | none => w
  | some r => { w with picture := some (e, r e) }

end Qtune.Gui.Raw
