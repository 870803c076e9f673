import Verif.Base.Py

/-!
# The best model of a training run (`demos/neurips20/balls.py`)

Validation errors are values of a linear order, or `none` for NaN.  Comparisons with NaN are false.
-/

namespace Verif.Checkpoint

variable {E : Type} [LE E] [DecidableRel (α := E) (· ≤ ·)]

/-- `a <= b` for floating point numbers; `none` is NaN. -/
def fle : Option E → Option E → Bool
  | some a, some b => decide (a ≤ b)
  | _, _ => false

/-- The state of a file: not there, being written, or the complete result of an epoch. -/
inductive File where
  | missing
  | broken
  | complete (epoch : Nat)
deriving DecidableEq, Repr

/-- The two files in `args.save_to`. -/
structure Disk where
  model : File
  stats : File
deriving DecidableEq, Repr

/-- The effects of saving: a file is opened (which empties it) and then filled. -/
inductive Write where
  | openModel
  | fillModel (epoch : Nat)
  | openStats
  | fillStats (epoch : Nat)
deriving DecidableEq, Repr

def Disk.apply (d : Disk) : Write → Disk
  | .openModel => { d with model := .broken }
  | .fillModel k => { d with model := .complete k }
  | .openStats => { d with stats := .broken }
  | .fillStats k => { d with stats := .complete k }

/-- `torch.save(model, ...)`, then `open(..., 'wb')` and `pickle.dump` (`balls.py:407-417`). -/
def save (k : Nat) : List Write := [.openModel, .fillModel k, .openStats, .fillStats k]

/-- The end of an epoch (`balls.py:401-417`): the best error afterwards and what is written. -/
def endEpoch (best : Option (Option E)) (k : Nat) (current : Option E) : Option (Option E) × List Write :=
  let best' := match best with
    | none => current
    | some b => b
  if fle current best' then (some current, save k) else (some best', [])

/-- All epochs (`balls.py:360-417`): the effects on the disk in order; `k` is the number of the next epoch. -/
def writes (best : Option (Option E)) (k : Nat) : List (Option E) → List Write
  | [] => []
  | e :: es => (endEpoch best k e).2 ++ writes (endEpoch best k e).1 (k + 1) es

/-- The directory of the results is new (`balls.py:320`: `exist_ok=False`), so the files do not exist before. -/
def fresh : Disk := ⟨.missing, .missing⟩

/-- `os.makedirs(args.save_to, exist_ok=False)`, then the run (`balls.py:320`); `none`: the directory exists and `FileExistsError` is raised before anything is trained. -/
def run (existing : Option Disk) (errors : List (Option E)) : Option (List Write) :=
  match existing with
  | some _ => none
  | none => some (writes none 0 errors)

/-- The disk when the process dies after `n` effects. -/
def crash (ws : List Write) (n : Nat) : Disk := (ws.take n).foldl Disk.apply fresh

/-- The disk at the end. -/
def final (ws : List Write) : Disk := ws.foldl Disk.apply fresh

/-- What a run leaves in the directory: nothing new if it is refused (`balls.py:320`). -/
def leave (d : Option Disk) (r : List (Option E) × Nat) : Option Disk :=
  match run d r.1 with
  | none => d
  | some ws => some (crash ws r.2)

/-- Runs of the program one after the other with the same `--save_to`; a run is given by its validation errors and the number of effects after which it stops or dies. -/
def session (d : Option Disk) (rs : List (List (Option E) × Nat)) : Option Disk := rs.foldl leave d

end Verif.Checkpoint
