import Verif.History.DiskModel

/-!
# Model of reading files in threads (storage.py:372-399, history.py:327-338)

`History.load_directory` reads the files of a directory in a pool of threads while it appends what has been read.  `F` is the type of
names, `β` of what is in a file, `σ` of what the loop works on.  Simplifications: the files do not change while they are read, and reading
one does not influence reading another (each call of `from_hdf5` has its own table of objects).
-/

namespace Qtune.History.Parallel

variable {F β σ : Type}

/-- The pool, `executor.map`, and the loop that takes the results.  `queue`: numbers of the files that no thread has taken;
`running`: those that are being read; `done`: what `from_hdf5` returned or raised; `next`: the number of the file whose
result the loop wants; `value`: what the loop has made; `outcome`: how the loop ended; `left`: the `with` block has been left.
storage.py:372-399, history.py:333-338. -/
structure State (β σ : Type) where
  queue : List Nat
  running : List Nat
  done : List (Nat × Except PyErr β)
  next : Nat
  value : σ
  outcome : Option (Except PyErr Unit)
  left : Bool

/-- The program: the files, `from_hdf5`, the body of the loop, and the number of threads.  storage.py:376-387, history.py:333-338. -/
structure Prog (F β σ : Type) where
  files : List F
  read : F → Except PyErr β
  use : σ → F → β → σ × Except PyErr Unit
  workers : Nat

/-- `executor.map` submits all files when the loop asks for the first result (storage.py:387). -/
def init (p : Prog F β σ) (v : σ) : State β σ := ⟨List.range p.files.length, [], [], 0, v, none, false⟩

/-- What can happen: a thread takes a file, a thread finishes reading a file, the thread of the caller goes on.
storage.py:387, history.py:336-338. -/
inductive Act
  | take
  | finish (i : Nat)
  | caller

/-- The loop goes on (history.py:336-338): the names are exhausted first; otherwise `next` waits for the result of the file, raises what
`from_hdf5` raised and cancels the files that no thread has taken, or the body is executed.  At the end the `with` block waits until
the threads have nothing to do (storage.py:389-396). -/
def callerStep (p : Prog F β σ) (s : State β σ) : State β σ :=
  match s.outcome with
  | some _ => if s.queue = [] ∧ s.running = [] then { s with left := true } else s
  | none =>
    match p.files[s.next]? with
    | none => { s with outcome := some (.ok ()) }
    | some f =>
      match s.done.lookup s.next with
      | none => s
      | some (.error e) => { s with outcome := some (.error e), queue := [] }
      | some (.ok b) =>
        match p.use s.value f b with
        | (v, .error e) => { s with value := v, outcome := some (.error e) }
        | (v, .ok ()) => { s with value := v, next := s.next + 1 }

/-- One step.  storage.py:387, history.py:336-338. -/
def step (p : Prog F β σ) (s : State β σ) : Act → State β σ
  | .take =>
    match s.queue with
    | [] => s
    | i :: q => if s.running.length < p.workers then { s with queue := q, running := i :: s.running } else s
  | .finish i =>
    match p.files[i]? with
    | none => s
    | some f =>
      if i ∈ s.running then { s with running := s.running.erase i, done := (i, p.read f) :: s.done } else s
  | .caller => callerStep p s

/-- An execution.  storage.py:387, history.py:336-338. -/
def run (p : Prog F β σ) (s : State β σ) (as : List Act) : State β σ := as.foldl (step p) s

/-- `load_directory` (history.py:327-338) for a directory with these entries: the names are sorted, a directory cannot be opened as a
file, and what is read is appended. -/
def directoryProg {S γ κ ρ π : Type} [DecidableEq γ] (view : S → View γ κ ρ) (full : String → π)
    (entries : List (String × Entry S)) (workers : Nat) : Prog (String × Entry S) S (Hist γ κ ρ π) where
  files := entries.mergeSort fun a b => decide (a.1 ≤ b.1)
  read := fun e =>
    match e.2 with
    | .file a => .ok a
    | .directory => .error osError
  use := fun h e a =>
    match append h (view a) (full e.1) with
    | .error err => (h, .error err)
    | .ok h' => (h', .ok ())
  workers := workers

end Qtune.History.Parallel
