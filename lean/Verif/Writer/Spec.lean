import Verif.Writer.Model

/-! # What a user expects of the writer -/

namespace Qtune.Writer

variable {σ : Type}

/-- The accepted calls of `write`, in order, with the state of the object at the time of the call. -/
def called : List (Event σ) → List (Task σ) :=
  List.filterMap fun e => match e with | .called t => some t | _ => none

/-- What is on disk, in the order of writing. -/
def onDisk : List (Event σ) → List (Task σ) :=
  List.filterMap fun e => match e with | .written t => some t | _ => none

/-- The tasks the worker executed, successfully or not, in order. -/
def executed : List (Event σ) → List (Task σ) :=
  List.filterMap fun e => match e with | .written t => some t | .failed t => some t | _ => none

/-- Everything that happened. -/
def State.events (s : State σ) : List (Event σ) := s.past ++ s.log

/-- The calls of `write` a program makes, if the object is `obj` in the beginning. -/
def writesOf : σ → List (Cmd σ) → List (Task σ)
  | _, [] => []
  | _, .mutate v :: cmds => writesOf v cmds
  | obj, .write target :: cmds => ⟨target, obj⟩ :: writesOf obj cmds
  | obj, _ :: cmds => writesOf obj cmds

/-- The caller has executed all its commands. -/
def State.finished (s : State σ) : Prop := s.cmds = [] ∧ match s.pc with | .ready => True | _ => False

end Qtune.Writer
