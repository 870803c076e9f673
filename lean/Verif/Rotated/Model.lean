import Verif.Spheres.Model
import Verif.Masked.Model
import Verif.Assembly.Model

/-!
# The data of `rot.py`: `load_data` (`demos/neurips20/utils.py:13-28`), the loaders and `evaluate` (`rot.py:230-246, 302-306`)

The content of the `.mat` file is a tensor.  Not modelled: the file system (the path is relative to the directory of the script), types and devices.
-/

namespace Verif.Rotated
open Verif

variable {α I L : Type}

/-- `X.squeeze()`: dimensions of size one disappear. -/
def squeeze (x : Tensor α) : Tensor α := ⟨x.shape.filter (· ≠ 1), x.data⟩

/-- `x.view([-1] + s)` for sizes `s` without zero. -/
def viewRows (x : List α) (s : List Nat) : Py (Tensor α) := if x.length % vol s = 0 then .ok ⟨x.length / vol s :: s, x⟩ else .error .runtimeError

/-- `load_data` (`utils.py:23-28`); slicing a tensor without dimensions is an `IndexError`. -/
def loadData (file : Tensor α) : Py (Tensor α × Tensor α × Nat × Nat) :=
  match (squeeze file).shape with
  | [] => .error .indexError
  | _ :: s => do
    let tr ← Assembly.view (file.data.take (500 * vol s)) [500, 16, 1, 28, 28]
    let te ← viewRows (file.data.drop (500 * vol s)) [16, 1, 28, 28]
    .ok (tr, te, 500, 16)

/-- One pass over the training loader (`rot.py:304`): `order` are the positions in the order drawn by the sampler. -/
def trainingPass (order : List Nat) : Py (List (List Nat)) := Spheres.loader 25 false order

/-- `evaluate` (`rot.py:230-246`) with the test loader (line 306) for a list of sequences of images. -/
noncomputable def evaluate (T d : Nat) (iEval : Int) (enc : (Nat → I) → Nat → Nat → L) (dec : List L → List I) (sq : I → I → ℝ) (pix : Nat) (default : Nat → I) (seqs : List (Nat → I)) : Py (List ℝ × Nat) := do
  let batches ← Spheres.loader 25 false seqs
  let errors ← batches.mapM fun b => Masked.evalBatch T d b.length iEval enc dec sq pix fun n => b.getD n default
  .ok (errors.flatten, errors.flatten.length)

end Verif.Rotated
