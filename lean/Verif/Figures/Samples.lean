import Verif.Figures.Model
import Verif.Training.Model
import Mathlib.Algebra.Order.Floor.Ring

/-!
# The figures of `simple_functional_mapping_example.py` (`show_figure`, lines 375-423)

A figure is what is drawn: the samples with their targets, the predictions, a vertical line for each particle, and the limits of the axes.  Not modelled: colours, labels and fonts.
-/

namespace Verif.Figures
open Verif

/-- What `_show_figure` draws. -/
structure Samples (K : Type) where
  targets : List (K × K)
  predictions : List (K × K)
  lines : List K
  xlim : K × K
  ylim : K × K
  height : Int

/-- `ax.plot(x, y, marker)` for two lists of numbers (lines 393-394). -/
def marks {K : Type} (x y : List K) : Py (List (K × K)) := if x.length = y.length then .ok (x.zip y) else .error .valueError

/-- `for v in q1` (lines 404-408): `q1` is the tensor of the particles without the dimensions of size one; with a single particle nothing is left to loop over. -/
def particleLines {K : Type} (use : Bool) (q1 : Option (List K)) : Py (List K) :=
  if use then
    match q1 with
    | none => .ok []
    | some [_] => .error .typeError
    | some l => .ok l
  else .ok []

/-- The height of the figure (line 389).  `matplotlib` refuses a height that is not positive when the figure is created or saved; here always when it is created. -/
def figureHeight {K : Type} [Field K] [LinearOrder K] [FloorRing K] (lo hi xrange : K) : Py Int :=
  if 2 * xrange = 0 then .error .zeroDivision
  else if ⌈8 * ((hi - lo) / (2 * xrange))⌉ ≤ 0 then .error .valueError
  else .ok ⌈8 * ((hi - lo) / (2 * xrange))⌉

/-- `_show_figure` (lines 375-410) for a batch of single numbers; `q1` are the particles in `sblock.state_dict()`. -/
def samplesDrawing {K : Type} [Field K] [LinearOrder K] [FloorRing K] (kind : String) (xrange : K) (ins outs preds : List K) (use : Bool) (q1 : Option (List K)) : Py (Samples K) := do
  let r ← Training.plotRange kind xrange
  let h ← figureHeight r.1 r.2 xrange
  let a ← marks ins outs
  let b ← marks ins preds
  let l ← particleLines use q1
  .ok ⟨a, b, l, (-xrange, xrange), r, h⟩

/-- The figure is drawn and saved, between changing and resetting the settings (lines 416-420). -/
def saveSamples {F : Type} (env : Env) (a : Args) (itr : ℕ) (fig : Py F) (w : World F) : World F × Py Unit :=
  match fig with
  | .error e => (setup w, .error e)
  | .ok fig => seq (saveAll env a.dir (a.base ++ "-xcubed-iter-" ++ pad 4 itr) fig (setup w)) fun w' => (reset (previous w) w', .ok ())

/-- The figure is drawn and shown (lines 421-423). -/
def viewSamples {F : Type} (fig : Py F) (w : World F) : World F × Py Unit :=
  match fig with
  | .error e => (w, .error e)
  | .ok fig => ({ w with shown := w.shown ++ [fig] }, .ok ())

/-- `show_figure` (lines 413-423) -/
def showFigure {F : Type} (env : Env) (a : Args) (itr : ℕ) (fig : Py F) (w : World F) : World F × Py Unit :=
  seq (if a.save then saveSamples env a itr fig w else (w, .ok ())) fun w => if a.viz then viewSamples fig w else (w, .ok ())

/-- Is there a figure in this epoch (line 659)?  With a frequency of zero the remainder cannot be computed. -/
def figureAt (freq : Int) (niters itr : ℕ) : Py Bool := if freq = 0 then .error .zeroDivision else .ok (decide ((itr : Int) % freq = 0) || decide (itr = niters))

/-- The figures of the epochs in the list; `fig itr` is what `_show_figure` does in the epoch.  Lines 659-660 only: the training itself is in `Verif.Training`, and an earlier exception because of `--viz_freq 0` (line 632) is left out. -/
def figureRun {F : Type} (env : Env) (a : Args) (freq : Int) (niters : ℕ) (fig : ℕ → Py F) : List ℕ → World F → World F × Py Unit
  | [], w => (w, .ok ())
  | itr :: l, w =>
    if a.viz || a.save then
      match figureAt freq niters itr with
      | .error e => (w, .error e)
      | .ok true => seq (showFigure env a itr (fig itr) w) (figureRun env a freq niters fig l)
      | .ok false => figureRun env a freq niters fig l w
    else figureRun env a freq niters fig l w

end Verif.Figures
