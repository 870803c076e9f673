import Verif.Base.Py
import Verif.Spheres.Model
import Mathlib.Algebra.Order.Field.Basic

/-!
# The training programs `demos/neurips20/simple_functional_mapping_example.py` and `spiral.py`

`K` are the numbers (floating point numbers in the program), `α` the samples, `G` gradients, `M` the state the optimizer keeps per parameter, `S` the state of the learning rate scheduler with
the learning rate.  A `NameError` is `Err.unboundLocal`.  Printing is not modelled, drawing a figure is an event.
-/

namespace Verif.Training
open Verif

variable {K α G M S : Type}

/-! ## Functions to learn -/

/-- `fcn` (`simple_functional_mapping_example.py:124-130`) -/
def fcn [Field K] (kind : String) (x : K) : Py K :=
  if kind = "cubic" then .ok (x ^ 3) else if kind = "quadratic" then .ok (x ^ 2 + 3 / (1 + x ^ 2)) else .error .valueError

/-- The inputs with the values of the function (lines 141-153). -/
def withValues [Field K] (kind : String) (xs : List K) : Py (List (K × K)) := xs.mapM fun x => (fcn kind x).map fun y => (x, y)

/-- `get_sample_batch` (lines 141-145); `us` are the results of `torch.rand`. -/
def sampleBatch [Field K] (maxX : K) (kind : String) (us : List K) : Py (List (K × K)) := withValues kind (us.map fun u => 2 * maxX * u - maxX)

/-- `torch.linspace(a, b, n)` -/
def linspace [Field K] (a b : K) (n : Nat) : List K := if n = 1 then [a] else (List.range n).map fun i : Nat => a + (b - a) / ((n : K) - 1) * (i : K)

/-- `get_uniform_sample_batch` (lines 147-152) -/
def uniformBatch [Field K] (maxX : K) (kind : String) (n : Nat) : Py (List (K × K)) := withValues kind (linspace (-maxX) maxX n)

/-- The vertical range of a figure (`_show_figure`, lines 378-387). -/
def plotRange [Field K] [LinearOrder K] (kind : String) (xrange : K) : Py (K × K) := do
  let l ← fcn kind (-xrange)
  let r ← fcn kind xrange
  let top := max |l| |r|
  if kind = "cubic" then .ok (-top, top) else if kind = "quadratic" then .ok (9 / 4, top) else .error .valueError

/-! ## Losses -/

/-- What `compute_loss` returns, without the prediction. -/
structure Losses (K : Type) where
  loss : K
  sim : K
  normLoss : K
  penalty : K
deriving DecidableEq, Repr

/-- `torch.mean` (batches are not empty). -/
def mean [Field K] (l : List K) : K := l.sum / (l.length : K)

/-- `compute_loss` (`simple_functional_mapping_example.py:334-372`) after the prediction; `penalty` is `get_norm_penalty()` after the forward pass. -/
def functionalLoss [Field K] (shooting noPenalty : Bool) (simWeight normWeight : K) (pred out : List K) (penalty : K) : Losses K :=
  let sim := simWeight * mean (List.zipWith (fun p y => (p - y) ^ 2) pred out)
  if shooting then
    let normLoss := if noPenalty then 0 else normWeight * penalty
    ⟨sim + normLoss, sim, normLoss, penalty⟩
  else ⟨sim, sim, normWeight * 0, 0⟩

/-- `compute_loss` (`spiral.py:437-462`) after the prediction: `pred` and `out` are the points of all trajectories at all times; `root` is the square root. -/
def spiralLoss [Field K] [LinearOrder K] (root : K → K) (norm : String) (noPenalty : Bool) (simWeight normWeight : K) (pred out : List (K × K)) (penalty : K) : Py (Losses K) := do
  let m ← if norm = "l1" then .ok (mean ((List.zipWith (fun p y => [|p.1 - y.1|, |p.2 - y.2|]) pred out).flatten))
    else if norm = "l2" then .ok (mean (List.zipWith (fun p y => root ((p.1 - y.1) ^ 2 + (p.2 - y.2) ^ 2)) pred out))
    else .error .valueError
  let normLoss := if noPenalty then 0 else normWeight * penalty
  .ok ⟨simWeight * m + normLoss, simWeight * m, normLoss, penalty⟩

/-! ## Parameters, optimizer and scheduler -/

/-- A parameter: its name, its entries, what the optimizer keeps for it, `requires_grad`. -/
structure Par (K M : Type) where
  name : String
  val : List K
  mom : M
  rg : Bool
deriving DecidableEq, Repr

/-- What happened so far. -/
inductive Event (K : Type) where
  /-- an optimizer step: epoch and number of the batch -/
  | step (epoch batch : Nat)
  /-- the loss on the evaluation data -/
  | evaluated (epoch : Nat)
  /-- `scheduler.step(loss)` -/
  | rate (epoch : Nat) (loss : K)
  | figure (epoch : Nat)
deriving DecidableEq, Repr

structure World (K M S : Type) where
  pars : List (Par K M)
  sched : S
  log : List (Event K)
deriving DecidableEq, Repr

/-- The values of all parameters. -/
def World.vals (w : World K M S) : List (String × List K) := w.pars.map fun p => (p.name, p.val)

/-- What is not modelled: the loss of the network with given parameters on a batch (`true`: `validation_mode`), the gradients after `loss.backward()` (`none` if a parameter does not enter the loss), the update rule
of the optimizer (with the learning rate in the state of the scheduler) and of the scheduler. -/
structure Env (K α G M S : Type) where
  loss : List (String × List K) → Bool → List α → Py (Losses K)
  grad : List (String × List K) → List α → String → Option G
  adam : S → M → G → List K → List K × M
  rate : K → S → S

/-- `optimizer.step()` on one parameter: nothing happens without a gradient, and parameters with `requires_grad = False` do not get one. -/
def update (env : Env K α G M S) (w : World K M S) (b : List α) (p : Par K M) : Par K M :=
  match (if p.rg then env.grad w.vals b p.name else none) with
  | none => p
  | some g => { p with val := (env.adam w.sched p.mom g p.val).1, mom := (env.adam w.sched p.mom g p.val).2 }

/-- One round of the training loop up to `optimizer.step()` (`simple_functional_mapping_example.py:600-621`, `spiral.py:559-569`). -/
def trainBatch (env : Env K α G M S) (e k : Nat) (b : List α) (w : World K M S) : World K M S × Py Unit :=
  match env.loss w.vals false b with
  | .error err => (w, .error err)
  | .ok _ => (⟨w.pars.map (update env w b), w.sched, w.log ++ [.step e k]⟩, .ok ())

/-- `tensor.clamp_(min=-x, max=x)` -/
def clampTo [Field K] [LinearOrder K] (x : K) (v : List K) : List K := v.map fun a => min (max a (-x)) x

/-- `named_parameters()` / `state_dict()` has the name. -/
def hasName (n : String) (ps : List (Par K M)) : Bool := ps.any fun p => p.name = n

/-- An operation on the parameter with a name (`state_dict()[n]`). -/
def modify (n : String) (f : Par K M → Par K M) (w : World K M S) : World K M S × Py Unit :=
  if hasName n w.pars then ({ w with pars := w.pars.map fun p => if p.name = n then f p else p }, .ok ()) else (w, .error .keyError)

/-- One statement after the other. -/
def andThen {A B : Type} (r : A × Py Unit) (f : A → B) (g : A → B × Py Unit) : B × Py Unit :=
  match r with
  | (w, .error err) => (f w, .error err)
  | (w, .ok ()) => g w

/-- A `for` loop. -/
def forLoop {A X : Type} (body : X → A → A × Py Unit) : List X → A → A × Py Unit
  | [], w => (w, .ok ())
  | x :: xs, w => andThen (body x w) id (forLoop body xs)

/-- `itr % f == 0` -/
def multiple (e : Nat) (f : Int) : Py Bool := if f = 0 then .error .zeroDivision else .ok (decide (f ∣ (e : Int)))

/-! ## Options -/

/-- The command line options that are used here. -/
structure Opts where
  batchSize : Int
  niters : Int
  testFreq : Int
  vizFreq : Int
  /-- `--custom_parameter_freezing` -/
  freezing : Bool
  unfreezeAt : Int
  /-- `--clamp_range` -/
  clamp : Bool
  viz : Bool
  saveFigures : Bool
  /-- `--use_particle_free_rnn_mode` -/
  freeRnn : Bool
  /-- `--use_particle_free_time_dependent_mode` -/
  freeTime : Bool
  useRnn : Bool
  useDoubleRnn : Bool
  useUpdown : Bool
  useSimple : Bool
  useDouble : Bool
  useOde : Bool
deriving DecidableEq, Repr

/-- `for itr in range(0, args.niters + 1)` -/
def epochs (o : Opts) : List Nat := List.range (o.niters + 1).toNat

/-- When the evaluation data are used (`simple_functional_mapping_example.py:632`, `spiral.py:572`); `or` stops at the first `True`. -/
def evaluates (o : Opts) (e : Nat) : Py Bool := do
  let a ← multiple e o.testFreq
  if a then .ok true else do
    let b ← multiple e o.vizFreq
    .ok (b || decide ((e : Int) = o.niters))

/-! ## The functional mapping program -/

/-- The network of a run (lines 499-529). -/
inductive Net where
  | rnn
  | doubleRnn
  | updown
  | simple
  | double
  | ode
  | shooting
deriving DecidableEq, Repr

/-- Lines 499-529, in the order of the tests. -/
def net (o : Opts) : Net :=
  if o.useRnn then .rnn else if o.useDoubleRnn then .doubleRnn else if o.useUpdown then .updown else if o.useSimple then .simple else if o.useDouble then .double else if o.useOde then .ode else .shooting

/-- `weight_decay` (lines 500-517, 570), where it is set. -/
def weightDecay [Field K] : Net → Option K
  | .rnn => some (1 / 10000)
  | .doubleRnn => some (1 / 40)
  | .updown => some (1 / 100)
  | .simple => some (1 / 10000)
  | .double => some (1 / 100)
  | .ode => none
  | .shooting => some 0

/-- `uses_particles` (line 559), where it is set: in the branch for shooting. -/
def usesParticles (o : Opts) : Option Bool := if net o = .shooting then some (!(o.freeRnn || o.freeTime)) else none

/-- The body of the inner loop (lines 590-629), with the clamping. -/
def mappingBatch [Field K] [LinearOrder K] (o : Opts) (xrange : K) (env : Env K α G M S) (e k : Nat) (b : List α) (w : World K M S) : World K M S × Py Unit :=
  andThen (trainBatch env e k b w) id fun w =>
    if o.clamp && decide (net o = .shooting) then modify "q1" (fun p => { p with val := clampTo xrange p.val }) w else (w, .ok ())

/-- The evaluation (lines 632-660): `scheduler.step()` without argument always fails, so the handler calls `scheduler.step(loss)`. -/
def mappingEval (o : Opts) (env : Env K α G M S) (e : Nat) (evalBatch : List α) (w : World K M S) : World K M S × Py Unit :=
  match evaluates o e with
  | .error err => (w, .error err)
  | .ok false => (w, .ok ())
  | .ok true =>
    match env.loss w.vals false evalBatch with
    | .error err => (w, .error err)
    | .ok l =>
      let w : World K M S := { w with log := w.log ++ [.evaluated e] }
      match multiple e o.testFreq with
      | .error err => (w, .error err)
      | .ok t =>
        let w : World K M S := if t then { w with sched := env.rate l.loss w.sched, log := w.log ++ [.rate e l.loss] } else w
        if o.viz || o.saveFigures then
          match multiple e o.vizFreq with
          | .error err => (w, .error err)
          | .ok v => (if v || decide ((e : Int) = o.niters) then { w with log := w.log ++ [.figure e] } else w, .ok ())
        else (w, .ok ())

/-- Lines 585-587: unfreezing; reading the name `uses_particles` fails if it was never set. -/
def mappingUnfreeze (o : Opts) (e : Nat) (w : World K M S) : World K M S × Py Unit :=
  match usesParticles o with
  | none => (w, .error .unboundLocal)
  | some u => if u && o.freezing && decide ((e : Int) = o.unfreezeAt) then modify "q1" (fun p => { p with rg := true }) w else (w, .ok ())

/-- One epoch (lines 583-660) with the batches of the epoch. -/
def mappingEpoch [Field K] [LinearOrder K] (o : Opts) (xrange : K) (env : Env K α G M S) (evalBatch : List α) (batches : Nat → List (List α)) (e : Nat) (w : World K M S) : World K M S × Py Unit :=
  andThen (mappingUnfreeze o e w) id fun w =>
    andThen (forLoop (fun (x : List α × Nat) => mappingBatch o xrange env e x.2 x.1) (batches e).zipIdx w) id (mappingEval o env e evalBatch)

/-- The numbers in the results file (lines 692-695). -/
structure Saved (K : Type) where
  testLoss : K
  simLoss : K
  normLoss : K
  normPenalty : K
deriving DecidableEq, Repr

/-- Lines 692-695: the last entry is `norm_loss` as well. -/
def saved (l : Losses K) : Saved K := ⟨l.loss, l.sim, l.normLoss, l.normLoss⟩

/-- The data of a run: the training samples in the order of each epoch, evaluation, test and figure data (the loaders of lines 182-200 have one batch for each of the latter). -/
structure Data (α : Type) where
  train : Nat → List α
  eval : List α
  test : List α
  show' : List α

/-- The batches of an epoch (lines 182-185: `drop_last=True`). -/
def trainBatches (size : Int) (train : Nat → List α) (e : Nat) : List (List α) :=
  match Spheres.loader size.toNat true (train e) with
  | .ok bs => bs
  | .error _ => []

/-- Lines 541-567 for shooting: particles are placed (`ss_sd['q1'].copy_(init_q1)`) and frozen. -/
def mappingSetup (o : Opts) (initQ : List K) (w : World K M S) : World K M S × Py Unit :=
  match usesParticles o with
  | some true => andThen (modify "q1" (fun p => { p with val := initQ }) w) id fun w =>
      if o.freezing then modify "q1" (fun p => { p with rg := false }) w else (w, .ok ())
  | _ => (w, .ok ())

/-- The end of the program (lines 674-731): test loss, loss on the figure data (shooting only), results file (only with `--save_figures`). -/
def mappingEnd (o : Opts) (env : Env K α G M S) (d : Data α) (w : World K M S) : World K M S × Py (Option (Saved K)) :=
  match env.loss w.vals false d.test with
  | .error err => (w, .error err)
  | .ok l =>
    match (if net o = .shooting then env.loss w.vals false d.show' else .ok l) with
    | .error err => (w, .error err)
    | .ok _ => (w, .ok (if o.saveFigures then some (saved l) else none))

/-- The main program (lines 425-731).  `w` has the parameters of the network when it has been created (for shooting: after the first forward pass); a batch size below 1 is an error of `DataLoader`.
The result is what is in the results file (`none`: there is no file). -/
def mapping [Field K] [LinearOrder K] (o : Opts) (xrange : K) (env : Env K α G M S) (d : Data α) (initQ : List K) (w : World K M S) : World K M S × Py (Option (Saved K)) :=
  if o.batchSize ≤ 0 then (w, .error .valueError)
  else
    match mappingSetup o initQ w with
    | (w, .error err) => (w, .error err)
    | (w, .ok ()) =>
      match (weightDecay (net o) : Option K) with
      | none => (w, .error .unboundLocal)
      | some _ =>
        match forLoop (mappingEpoch o xrange env d.eval (trainBatches o.batchSize d.train)) (epochs o) w with
        | (w, .error err) => (w, .error err)
        | (w, .ok ()) => mappingEnd o env d w

/-! ## The spiral program -/

/-- The state of the spiral program: the names `loss` and `losses_to_print` may not be set. -/
structure SWorld (K M S : Type) where
  w : World K M S
  lossSet : Bool
  printSet : Bool
deriving DecidableEq, Repr

/-- `uses_particles` (`spiral.py:522`) -/
def spiralUses (o : Opts) : Bool := !(o.freeRnn || o.freeTime)

/-- The body of the inner loop (`spiral.py:554-569`). -/
def spiralBatch (env : Env K α G M S) (e k : Nat) (b : List α) (s : SWorld K M S) : SWorld K M S × Py Unit :=
  match trainBatch env e k b s.w with
  | (w, .error err) => ({ s with w := w }, .error err)
  | (w, .ok ()) => ({ s with w := w, lossSet := true }, .ok ())

/-- Lines 572-600: the training losses are printed (both formats need `loss`), then evaluation and scheduler. -/
def spiralEval (o : Opts) (env : Env K α G M S) (e : Nat) (evalBatch : List α) (s : SWorld K M S) : SWorld K M S × Py Unit :=
  match evaluates o e with
  | .error err => (s, .error err)
  | .ok false => (s, .ok ())
  | .ok true =>
    if s.lossSet then
      match env.loss s.w.vals false evalBatch with
      | .error err => (s, .error err)
      | .ok l => ({ s with w := ⟨s.w.pars, env.rate l.loss s.w.sched, s.w.log ++ [.evaluated e, .rate e l.loss]⟩ }, .ok ())
    else (s, .error .unboundLocal)

/-- Lines 603-624: the figure with the validation data. -/
def spiralShow (o : Opts) (env : Env K α G M S) (e : Nat) (testBatch : List α) (s : SWorld K M S) : SWorld K M S × Py Unit :=
  match multiple e o.vizFreq with
  | .error err => (s, .error err)
  | .ok false => (s, .ok ())
  | .ok true =>
    match env.loss s.w.vals true testBatch with
    | .error err => (s, .error err)
    | .ok _ => ({ s with w := { s.w with log := s.w.log ++ [.figure e] }, printSet := true }, .ok ())

/-- Lines 548-551 -/
def spiralUnfreeze (o : Opts) (e : Nat) (s : SWorld K M S) : SWorld K M S × Py Unit :=
  if o.freezing && decide ((e : Int) = o.unfreezeAt) && spiralUses o then
    match modify "q1" (fun p => { p with rg := true }) s.w with
    | (w, r) => ({ s with w := w }, r)
  else (s, .ok ())

/-- One epoch (lines 546-624). -/
def spiralEpoch (o : Opts) (env : Env K α G M S) (d : Data α) (batches : Nat → List (List α)) (e : Nat) (s : SWorld K M S) : SWorld K M S × Py Unit :=
  andThen (spiralUnfreeze o e s) id fun s =>
    andThen (forLoop (fun (x : List α × Nat) => spiralBatch env e x.2 x.1) (batches e).zipIdx s) id fun s =>
      andThen (spiralEval o env e d.eval s) id (spiralShow o env e d.test)

/-- The results file of the spiral program (lines 649-652, 673-676): long range (if asked for) and short range. -/
structure SSaved (K : Type) where
  long : Option (Saved K)
  short : Saved K
deriving DecidableEq, Repr

/-- Lines 626-743 after the training; `d.show'` are the short range test data.  The loss functions are evaluated again at the end for the recordings, without effect on the file but for errors. -/
def spiralEnd (o : Opts) (longRange : Bool) (env : Env K α G M S) (d : Data α) (s : SWorld K M S) : SWorld K M S × Py (Option (SSaved K)) :=
  match (if longRange then (env.loss s.w.vals true d.test).map some else .ok none) with
  | .error err => (s, .error err)
  | .ok l =>
    if longRange && !s.printSet then (s, .error .unboundLocal)
    else
      match env.loss s.w.vals true d.show' with
      | .error err => (s, .error err)
      | .ok m => (s, .ok (if o.saveFigures then some ⟨l.map saved, saved m⟩ else none))

/-- Lines 522-541: placing the particles (only with `--custom_parameter_initialization`), freezing. -/
def spiralSetup (o : Opts) (initQ : Option (List K)) (w : World K M S) : World K M S × Py Unit :=
  if spiralUses o then
    andThen (match initQ with | none => (w, .ok ()) | some q => modify "q1" (fun p => { p with val := q }) w) id fun w =>
      if o.freezing then modify "q1" (fun p => { p with rg := false }) w else (w, .ok ())
  else (w, .ok ())

/-- The main program (`spiral.py:465-743`) with the data given. -/
def spiral (o : Opts) (longRange : Bool) (env : Env K α G M S) (d : Data α) (initQ : Option (List K)) (w : World K M S) : SWorld K M S × Py (Option (SSaved K)) :=
  if o.batchSize ≤ 0 then (⟨w, false, false⟩, .error .valueError)
  else
    match spiralSetup o initQ w with
    | (w, .error err) => (⟨w, false, false⟩, .error err)
    | (w, .ok ()) =>
      match forLoop (spiralEpoch o env d (trainBatches o.batchSize d.train)) (epochs o) ⟨w, false, false⟩ with
      | (s, .error err) => (s, .error err)
      | (s, .ok ()) => spiralEnd o longRange env d s

end Verif.Training
