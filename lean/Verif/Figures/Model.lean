import Verif.Figures.Names
import Verif.Latex.Model
import Verif.Base.Py
import Verif.Base.PDict
import Mathlib.Algebra.Group.Defs
import Mathlib.Algebra.Group.Prod

/-!
# Figures and animations (`vector_visualization.py`, `figure_utils.py:29-39`, `figure_settings.py:9-33`)

What is drawn is a value: the points of the lines, crosses and arrows.  Not modelled: titles, colours, sizes, the pixels; the function `visualize` (no program calls it).
A path is a pair (directory, name); two ways to write the same directory count as different.  A file or directory that cannot be created raises an `OSError`, rendered as `runtimeError`.
-/

namespace Verif.Figures
open Verif

/-- What a setting of `matplotlib` can be. -/
inductive Val where
  | text (s : String)
  | flag (b : Bool)
  | texts (l : List String)
  deriving DecidableEq, Repr

/-- What figures change: the backend and the settings of `matplotlib`, directories, files, what is shown on the screen, animations. -/
structure World (F : Type) where
  backend : String
  rc : String → Val
  dirs : List String
  files : PDict (String × String) F
  shown : List F
  gifs : PDict String (List F)

/-- The surroundings: which directories can be created, which files can be written, whether the program `convert` is installed. -/
structure Env where
  canMake : String → Bool
  canSave : String × String → Bool
  convert : Bool

variable {F R : Type}

/-- One thing after the other; an exception ends the program, with the changes made so far. -/
def seq (r : World F × Py Unit) (g : World F → World F × Py Unit) : World F × Py Unit :=
  match r with
  | (w, .error e) => (w, .error e)
  | (w, .ok _) => g w

/-- A loop. -/
def each {α : Type} (f : α → World F → World F × Py Unit) : List α → World F → World F × Py Unit
  | [], w => (w, .ok ())
  | a :: l, w => seq (f a w) (each f l)

/-! ## Settings and files -/

/-- `new_rcsettings` (`figure_settings.py:12-20`) -/
def newSettings : PDict String Val :=
  [("pgf.texsystem", .text "pdflatex"), ("font.family", .text "serif"), ("text.usetex", .flag true), ("pgf.rcfonts", .flag false),
   ("pgf.preamble", .texts ["\\usepackage{amsmath}", "\\usepackage{amssymb}"])]

/-- `matplotlib.rcParams.update(d)` -/
def updateSettings (d : PDict String Val) (w : World F) : World F := { w with rc := fun k => (d.get? k).getD (w.rc k) }

/-- `setup_pgf_plotting` (`figure_settings.py:9-29`): what it changes. -/
def setup (w : World F) : World F := updateSettings newSettings { w with backend := "pgf" }

/-- `setup_pgf_plotting` (`figure_settings.py:9-29`): what it returns, `previous_backend, previous_rcsettings`. -/
def previous (w : World F) : String × PDict String Val := (w.backend, newSettings.map fun e => (e.1, w.rc e.1))

/-- `reset_pgf_plotting` (`figure_settings.py:31-33`) -/
def reset (old : String × PDict String Val) (w : World F) : World F := updateSettings old.2 { w with backend := old.1 }

/-- `if not os.path.exists(d): os.mkdir(d)` (`figure_utils.py:31-32`, `vector_visualization.py:242-246`) -/
def makeDir (env : Env) (d : String) (w : World F) : World F × Py Unit :=
  if d ∈ w.dirs then (w, .ok ())
  else if env.canMake d then ({ w with dirs := w.dirs ++ [d] }, .ok ())
  else (w, .error .runtimeError)

/-- `plt.savefig` -/
def saveFig (env : Env) (fig : F) (path : String × String) (w : World F) : World F × Py Unit :=
  if env.canSave path then ({ w with files := w.files.set path fig }, .ok ()) else (w, .error .runtimeError)

/-- `save_all_formats` (`figure_utils.py:29-39`) -/
def saveAll (env : Env) (d name : String) (fig : F) (w : World F) : World F × Py Unit :=
  seq (makeDir env d w) (each (fun f => saveFig env fig (d, name ++ "." ++ f)) ["png", "pdf", "pgf"])

/-- The options `--viz`, `--save_figures`, `--output_directory`, `--output_basename`. -/
structure Args where
  viz : Bool
  save : Bool
  dir : String
  base : String
  deriving DecidableEq, Repr

/-- A figure is saved (`print`) or shown. -/
def put (env : Env) (print : Bool) (d name : String) (fig : F) (w : World F) : World F × Py Unit :=
  if print then saveAll env d name fig w else ({ w with shown := w.shown ++ [fig] }, .ok ())

/-- The frame of `_basic_visualize` and `_plot_temporal_data` (`vector_visualization.py:117-124, 170-171` and `380-387, 444-445`): the settings are changed before and reset after a figure is saved. -/
def framed (visualize print : Bool) (body : World F → World F × Py Unit) (w : World F) : World F × Py Unit :=
  if visualize && print then (w, .error .valueError)
  else if !visualize && !print then (w, .ok ())
  else seq (body (if print then setup w else w)) fun w' => (if print then reset (previous w) w' else w', .ok ())

/-- The functions `basic_visualize` and `plot_temporal_data` around these two (`vector_visualization.py:174-194, 448-455`). -/
def byArgs (body : Bool → Bool → World F → World F × Py Unit) (args : Option Args) (w : World F) : World F × Py Unit :=
  match args with
  | none => body true false w
  | some a => seq (if a.viz then body true false w else (w, .ok ())) fun w => if a.save then body false true w else (w, .ok ())

/-! ## Curves over time -/

/-- An array: shape and elements. -/
structure Arr (R : Type) where
  shape : List ℕ
  elem : List ℕ → R

/-- A number is an array without dimensions. -/
def scalar (x : R) : Arr R := ⟨[], fun _ => x⟩

/-- `np.asarray` of a list of arrays of the same shape (other lists are not modelled). -/
def stack [Inhabited R] (l : List (Arr R)) : Arr R :=
  ⟨l.length :: (l.head?.map Arr.shape).getD [], fun js => (l[js.headD 0]?.map fun a => a.elem js.tail).getD default⟩

/-- The place in an array that belongs to a place in the array without the dimensions of size one. -/
def unsqueeze : List ℕ → List ℕ → List ℕ
  | [], _ => []
  | a :: s, js => if a = 1 then 0 :: unsqueeze s js else js.headD 0 :: unsqueeze s js.tail

/-- `.squeeze()` -/
def squeeze (a : Arr R) : Arr R := ⟨a.shape.filter (· ≠ 1), fun js => a.elem (unsqueeze a.shape js)⟩

/-- `plt.plot(x, y)` for a list `x`: one line for each column of `y`. -/
def plotLines (x : List R) (y : Arr R) : Py (List (List (R × R))) :=
  match y.shape with
  | [] => if x.length = 1 then .ok [x.map fun a => (a, y.elem [])] else .error .valueError
  | [m] => if x.length = m then .ok [x.zipIdx.map fun a => (a.1, y.elem [a.2])] else .error .valueError
  | [m, c] => if x.length = m then .ok ((List.range c).map fun j => x.zipIdx.map fun a => (a.1, y.elem [a.2, j])) else .error .valueError
  | _ => .error .valueError

/-- The lines for one recorded quantity (`vector_visualization.py:422-428`). -/
def curves [Inhabited R] (t : List R) (vals : List (Arr R)) : Py (List (List (R × R))) :=
  let v := squeeze (stack vals)
  match v.shape with
  | [m, n, c] => ((List.range c).mapM fun d => plotLines t ⟨[m, n], fun js => v.elem (js ++ [d])⟩).map List.flatten
  | _ => plotLines t v

/-- A figure with lines over time: label of the vertical axis and lines. -/
structure Fig (R : Type) where
  label : List Char
  lines : List (List (R × R))

/-- `do_not_plot` (`vector_visualization.py:409`) -/
def doNotPlot : List String := ["t", "energy", "dot_state", "dot_costate", "dot_data"]

/-- `k.startswith(p)` -/
def startsWith (k p : String) : Bool := p.toList.isPrefixOf k.toList

/-- `not do_plotting` (`vector_visualization.py:414-417`) -/
def excluded (block k : String) : Bool := doNotPlot.any fun p => startsWith k p || startsWith k (block ++ "." ++ p)

/-- Recorded values under their names; numbers are arrays without dimensions.  `data[k]` is an empty list if there is no entry (`defaultdict`). -/
abbrev Data (R : Type) := PDict String (List (Arr R))

/-- `np.asarray(data[k])` for numbers. -/
def numbers (data : Data R) (k : String) : List R := ((data.get? k).getD []).map fun a => a.elem []

/-- One round of the loop (`vector_visualization.py:411-442`). -/
def plotEntry [Inhabited R] (env : Env) (print : Bool) (d base block : String) (t : List R) (e : String × List (Arr R)) (w : World (Fig R)) : World (Fig R) × Py Unit :=
  if excluded block e.1 then (w, .ok ())
  else
    match curves t e.2 with
    | .error err => (w, .error err)
    | .ok l => put env print d (base ++ "-" ++ e.1) ⟨if print then Latex.escape e.1.toList else e.1.toList, l⟩ w

/-- The energy (`vector_visualization.py:389-406`). -/
def plotEnergy [Inhabited R] (env : Env) (print : Bool) (d base : String) (data : Data R) (w : World (Fig R)) : World (Fig R) × Py Unit :=
  match plotLines (numbers data "t") (stack ((numbers data "energy").map scalar)) with
  | .error err => (w, .error err)
  | .ok l => put env print d (base ++ "-energy") ⟨"energy".toList, l⟩ w

/-- `_plot_temporal_data` (`vector_visualization.py:378-445`) -/
def plotTemporal [Inhabited R] (env : Env) (d base block : String) (data : Data R) (visualize print : Bool) (w : World (Fig R)) : World (Fig R) × Py Unit :=
  framed visualize print (fun w => seq (plotEnergy env print d base data w) (each (plotEntry env print d base block (numbers data "t")) data)) w

/-- `plot_temporal_data` (`vector_visualization.py:448-455`) -/
def plotTemporalData [Inhabited R] (env : Env) (block : String) (data : Data R) (args : Option Args) (w : World (Fig R)) : World (Fig R) × Py Unit :=
  byArgs (plotTemporal env ((args.map Args.dir).getD "") ((args.map Args.base).getD "") block data) args w

/-! ## Trajectories and particles -/

/-- An array with three dimensions. -/
structure Arr3 (R : Type) where
  n : ℕ
  m : ℕ
  d : ℕ
  elem : ℕ → ℕ → ℕ → R

/-- Values of such arrays over time: `[time, trajectory, 1, coordinate]`. -/
structure Series (R : Type) where
  len : ℕ
  n : ℕ
  m : ℕ
  d : ℕ
  elem : ℕ → ℕ → ℕ → ℕ → R

/-- `ax.plot(y[:, n, 0, 0], y[:, n, 0, 1])` -/
def path (y : Series R) (n : ℕ) : Py (List (R × R)) :=
  if n < y.n ∧ 0 < y.m ∧ 1 < y.d then .ok ((List.range y.len).map fun i => (y.elem i n 0 0, y.elem i n 0 1)) else .error .indexError

/-- The same for something that may be `None`. -/
def pathOf (y : Option (Series R)) (n : ℕ) : Py (List (R × R)) :=
  match y with
  | none => .error .typeError
  | some y => path y n

/-- Given and predicted paths (`vector_visualization.py:73-76` and `78-81`). -/
def both (y pred : Option (Series R)) : Py (List (List (R × R) × List (R × R))) :=
  match y with
  | none => .ok []
  | some y => (List.range y.n).mapM fun n => do
      let a ← path y n
      let b ← pathOf pred n
      .ok (a, b)

/-- What `plot_trajectories` draws (`vector_visualization.py:71-102`): for validation data and for training data. -/
def trajectories (val pred train trainPred : Option (Series R)) : Py (List (List (R × R) × List (R × R)) × List (List (R × R) × List (R × R))) := do
  let a ← both val pred
  let b ← both train trainPred
  .ok (a, b)

/-- What is drawn for a state: a cross at each particle and an arrow. -/
abbrev Arrows (R : Type) := List ((R × R) × (R × R))

/-- The first two coordinates of the particles and of the momenta; `q.min()` needs an element, `quiver` as many arrows as points. -/
def arrows (q p : Arr3 R) : Py (Arrows R) :=
  if 0 < q.m ∧ 0 < p.m ∧ 1 < q.d ∧ 1 < p.d then
    if 0 < q.n ∧ q.n = p.n then .ok ((List.range q.n).map fun i => ((q.elem i 0 0, q.elem i 0 1), (p.elem i 0 0, p.elem i 0 1)))
    else .error .valueError
  else .error .indexError

/-- `plot_particles` (`vector_visualization.py:13-27`) -/
def plotParticles (q p : Arr3 R) : Py (Arrows R) := arrows q p

/-- The row of a particle. -/
def row (q : Arr3 R) (i : ℕ) : List R := (List.range q.d).map fun j => q.elem i 0 j

/-- A principal component analysis with two components: from the rows to the projection `pca.transform` of a row. -/
abbrev Pca (R : Type) := List (List R) → List R → R × R

/-- `plot_higher_order_state` (`vector_visualization.py:29-68`).  Arrays of different shapes do not have a sum (broadcasting is not modelled). -/
def plotHigher [AddGroup R] (pca : Pca R) (q p : Arr3 R) : Py (Arrows R) :=
  if q.m ≠ 1 then .error .valueError
  else if p.m = 0 then .error .indexError
  else if 2 < q.d ∧ 1 < q.n then
    if q.n = p.n ∧ q.d = p.d then
      let f := pca ((List.range q.n).map (row q))
      .ok ((List.range q.n).map fun i => (f (row q i), f (List.zipWith (· + ·) (row q i) (row p i)) - f (row q i)))
    else .error .valueError
  else arrows q p

/-- A figure: paths for validation and training, arrows for `q1` and for `q2`. -/
structure Drawing (R : Type) where
  val : List (List (R × R) × List (R × R))
  train : List (List (R × R) × List (R × R))
  low : Option (Arrows R)
  high : Option (Arrows R)

/-- `d[k]` -/
def lookup (d : PDict String (Arr3 R)) (k : String) : Py (Arr3 R) :=
  match d.get? k with
  | none => .error .keyError
  | some v => .ok v

/-- The figure of `_basic_visualize` (`vector_visualization.py:126-160`); `sd` is `shooting_block.state_dict()`. -/
def basicDrawing [AddGroup R] (pca : Pca R) (sd : PDict String (Arr3 R)) (uses : Bool) (val pred train trainPred : Option (Series R)) : Py (Drawing R) := do
  let a ← trajectories val pred train trainPred
  if uses then
    let q1 ← lookup sd "q1"
    let p1 ← lookup sd "p_q1"
    let q2 ← lookup sd "q2"
    let p2 ← lookup sd "p_q2"
    let low ← plotParticles q1 p1
    let high ← plotHigher pca q2 p2
    .ok ⟨a.1, a.2, some low, some high⟩
  else .ok ⟨a.1, a.2, none, none⟩

/-- `_basic_visualize` (`vector_visualization.py:113-171`) with the name of the file (`:163-164`). -/
def basicFramed (env : Env) (d base : String) (itr : ℕ) (fig : Py F) (visualize print : Bool) (w : World F) : World F × Py Unit :=
  framed visualize print (fun w =>
    match fig with
    | .error err => (w, .error err)
    | .ok fig => put env print d ("basic-viz-" ++ base ++ "-iter-" ++ pad 4 itr) fig w) w

/-- `basic_visualize` (`vector_visualization.py:174-194`) -/
def basicVisualize [AddGroup R] (env : Env) (pca : Pca R) (sd : PDict String (Arr3 R)) (uses : Bool) (val pred train trainPred : Option (Series R)) (itr : ℕ) (args : Option Args)
    (w : World (Drawing R)) : World (Drawing R) × Py Unit :=
  byArgs (basicFramed env ((args.map Args.dir).getD "") ((args.map Args.base).getD "") itr (basicDrawing pca sd uses val pred train trainPred)) args w

/-! ## Animations -/

/-- A frame: the time and what is drawn. -/
structure Frame (R : Type) where
  time : R
  paths : List (List (R × R) × List (R × R))
  low : Arrows R
  high : Arrows R

/-- Recorded times and recorded arrays. -/
structure Record (R : Type) where
  t : List R
  data : PDict String (List (Arr3 R))

/-- `convert_list_of_np_arrays_into_np_array(data[k])` (`vector_visualization.py:196-206`); all arrays have the shape of the first one (others are not modelled). -/
def series (r : Record R) (k : String) : Py (List (Arr3 R)) :=
  match (r.data.get? k).getD [] with
  | [] => .error .indexError
  | a :: l => .ok (a :: l)

/-- `x[i,...]` -/
def at_ (l : List (Arr3 R)) (i : ℕ) : Py (Arr3 R) :=
  match l[i]? with
  | none => .error .indexError
  | some a => .ok a

/-- `data_q1[0:i+1,...]` -/
def upTo [Inhabited R] (l : List (Arr3 R)) (i : ℕ) : Series R :=
  ⟨(l.take (i + 1)).length, (l.head?.map Arr3.n).getD 0, (l.head?.map Arr3.m).getD 0, (l.head?.map Arr3.d).getD 0,
    fun k n a b => ((l.take (i + 1))[k]?.map fun x => x.elem n a b).getD default⟩

/-- The six recorded quantities (`vector_visualization.py:229-235`). -/
structure Six (R : Type) where
  q1 : List (Arr3 R)
  p1 : List (Arr3 R)
  q2 : List (Arr3 R)
  p2 : List (Arr3 R)
  x1 : List (Arr3 R)
  x2 : List (Arr3 R)

/-- They are looked up in this order. -/
def six (r : Record R) (block : String) : Py (Six R) := do
  let q1 ← series r (block ++ ".state.q1")
  let p1 ← series r (block ++ ".costate.p_q1")
  let q2 ← series r (block ++ ".state.q2")
  let p2 ← series r (block ++ ".costate.p_q2")
  let x1 ← series r (block ++ ".data.q1")
  let x2 ← series r (block ++ ".data.q2")
  .ok ⟨q1, p1, q2, p2, x1, x2⟩

/-- The body of the loop over the times up to the figure (`vector_visualization.py:256-267`); `t` is `t[i]`. -/
def frame [AddGroup R] [Inhabited R] (pca : Pca R) (val : Option (Series R)) (s : Six R) (t : R) (i : ℕ) : Py (Frame R) := do
  let q1 ← at_ s.q1 i
  let p1 ← at_ s.p1 i
  let q2 ← at_ s.q2 i
  let p2 ← at_ s.p2 i
  let paths ← trajectories val (some (upTo s.x1 i)) none none
  let low ← plotParticles q1 p1
  let high ← plotHigher pca q2 p2
  .ok ⟨t, paths.1, low, high⟩

/-- The name of a frame (`vector_visualization.py:270`). -/
def frameName (pre : String) (i : ℕ) : String := pre ++ "-" ++ pad 5 i ++ ".png"

/-- The pattern `prefix-*.png` of the shell. -/
def fitsPattern (pre name : String) : Bool :=
  (pre ++ "-").toList.isPrefixOf name.toList && ".png".toList.isSuffixOf (name.toList.drop (pre ++ "-").toList.length)

/-- The files the shell passes to `convert`: those that match, in alphabetical order. -/
def globbed (d pre : String) (files : PDict (String × String) F) : List String :=
  ((files.keys.filter fun p => decide (p.1 = d) && fitsPattern pre p.2).map Prod.snd).mergeSort fun a b => decide (a ≤ b)

/-- `create_animated_gif` (`vector_visualization.py:208-220`) -/
def animate (env : Env) (d pre out : String) (w : World F) : World F × Py Unit :=
  if env.convert then ({ w with gifs := w.gifs.set out ((globbed d pre w.files).filterMap fun n => w.files.get? (d, n)) }, .ok ())
  else (w, .ok ())

/-- One round of the loop if the figures are saved (`vector_visualization.py:248-273`). -/
def saveFrame [AddGroup R] [Inhabited R] (env : Env) (pca : Pca R) (val : Option (Series R)) (s : Six R) (d pre : String) (x : R × ℕ) (w : World (Frame R)) : World (Frame R) × Py Unit :=
  match frame pca val s x.1 x.2 with
  | .error err => (w, .error err)
  | .ok f => saveFig env f (d, frameName pre x.2) w

/-- The loop if the figures are shown (`vector_visualization.py:248-278`): it ends after the round in which the number `itr` has reached `max_display`. -/
def showFrames [AddGroup R] [Inhabited R] (pca : Pca R) (val : Option (Series R)) (s : Six R) (maxDisplay : ℕ) : List (R × ℕ) → World (Frame R) → World (Frame R) × Py Unit
  | [], w => (w, .ok ())
  | x :: l, w =>
    match frame pca val s x.1 x.2 with
    | .error err => (w, .error err)
    | .ok f =>
      if maxDisplay ≤ x.2 then ({ w with shown := w.shown ++ [f] }, .ok ())
      else showFrames pca val s maxDisplay l { w with shown := w.shown ++ [f] }

/-- `visualize_time_evolution` (`vector_visualization.py:222-282`) -/
def timeEvolution [AddGroup R] [Inhabited R] (env : Env) (pca : Pca R) (val : Option (Series R)) (r : Record R) (block : String) (maxDisplay : ℕ) (dir : Option String) (pre : String)
    (w : World (Frame R)) : World (Frame R) × Py Unit :=
  match six r block with
  | .error err => (w, .error err)
  | .ok s =>
    match dir with
    | none => showFrames pca val s maxDisplay r.t.zipIdx w
    | some d => seq (makeDir env d w) fun w => seq (each (saveFrame env pca val s d pre) r.t.zipIdx w) (animate env d pre ("animated-" ++ pre ++ ".gif"))

end Verif.Figures
