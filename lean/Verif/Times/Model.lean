import Verif.Base

/-! # Model of the names of the storage files (util.py:55-63, autotuner.py:227-238) -/

namespace Qtune.Times

/-- A `datetime.datetime`.  util.py:55-63. -/
structure DateTime where
  year : Nat
  month : Nat
  day : Nat
  hour : Nat
  minute : Nat
  second : Nat
  microsecond : Nat
  deriving DecidableEq

/-- The digit `d < 10`.  util.py:62-63. -/
def digit (d : Nat) : Char := Char.ofNat (48 + d)

/-- The number `n` with `w` digits, padded with zeros, as `strftime` writes it.  util.py:62-63. -/
def pad : Nat → Nat → List Char
  | 0, _ => []
  | w + 1, n => digit (n / 10 ^ w % 10) :: pad w n

/-- `time_string` (util.py:62-63): the format `%Y_%m_%d_%H_%M_%S_%f`. -/
def timeString (t : DateTime) : String :=
  String.ofList (pad 4 t.year ++ '_' :: (pad 2 t.month ++ '_' :: (pad 2 t.day ++ '_' :: (pad 2 t.hour ++
    '_' :: (pad 2 t.minute ++ '_' :: (pad 2 t.second ++ '_' :: pad 6 t.microsecond))))))

/-- The name of the file that is saved at a time (autotuner.py:235): the time string and an ending. -/
def fileName (ending : String) (t : DateTime) : String := timeString t ++ ending

/-- The order of the files in `History.load_directory` (history.py:334-335): `sorted(os.listdir(path))`. -/
def loadOrder (names : List String) : List String := names.mergeSort fun a b => decide (a ≤ b)

end Qtune.Times
