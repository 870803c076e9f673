import Verif.Batches.Model

/-!
# Data sets and loaders of `/repo/demos/neurips20/spiral.py` and `simple_functional_mapping_example.py`

A trajectory is the list of its points (`Y`: a point with its row dimension).  Random numbers of numpy are a sequence `rng`; the position in it is part of the state, one number is used per drawn index
(numpy may use more of its raw numbers for one index).  The order in which a loader visits a data set is an argument: any order for `shuffle=True`, ascending otherwise.  Workers are not
modelled (`num_workers=0` everywhere).
-/

namespace Verif.Datasets
open Verif Verif.Batches

variable {Y τ A : Type}

/-! ## Indices and batches of a loader -/

/-- The batch sampler of a `DataLoader` with `drop_last=True`: full batches only. -/
def fullBatches (size : Nat) : List Nat → List Nat → List (List Nat)
  | [], _ => []
  | i :: is, cur => if (cur ++ [i]).length = size then (cur ++ [i]) :: fullBatches size is [] else fullBatches size is (cur ++ [i])

/-- `DataLoader(dataset, batch_size, drop_last=True)` visiting the data set in the given order.  A batch size that is not positive is refused. -/
def loaderBatches (size : Int) (order : List Nat) : Py (List (List Nat)) := if size ≤ 0 then .error .valueError else .ok (fullBatches size.toNat order [])

/-- `self.input[idx,...]` -/
def item (l : List A) (i : Nat) : Py A := match l[i]? with | some v => .ok v | none => .error .indexError

/-! ## Windows of a trajectory (`spiral.py`) -/

/-- The entries of `data_dict` that are used (`generate_data`, lines 242-261). -/
structure Traj (Y τ : Type) where
  y0 : Y
  t : List τ
  y : List Y
  uniform : List Nat
deriving DecidableEq, Repr

/-- The arguments of `FunctionDataset.__init__` (lines 280-294); `longRange` is `args.validate_with_long_range`. -/
structure SetOpts where
  n : Nat
  batchTime : Int
  distanceBased : Bool
  validation : Bool
  online : Bool
  longRange : Bool
deriving DecidableEq, Repr

/-- `self.y0`, `self.t`, `self.y`; in online mode all three are `None` at first and only `self.t` is set later. -/
structure Stored (Y τ : Type) where
  y0 : Option (List Y)
  t : Option (List τ)
  y : Option (List (List Y))
deriving DecidableEq, Repr

/-- `get_batch` with the next `k` random numbers. -/
def drawBatch (rng : Nat → Nat) (d : Traj Y τ) (batchTime : Int) (distanceBased : Bool) (k pos : Nat) : Nat × Py (List Y × List τ × List (List Y)) :=
  (pos + k, getBatch d.y d.t d.uniform batchTime distanceBased ((List.range k).map fun i => rng (pos + i)))

/-- `create_data`, lines 302-315: the position in the random numbers and the three tensors. -/
def createData (rng : Nat → Nat) (d : Traj Y τ) (o : SetOpts) (pos : Nat) : Nat × Py (List Y × List τ × List (List Y)) :=
  if o.validation && o.longRange then (pos, .ok ([d.y0], d.t, d.y.map fun p => [p])) else drawBatch rng d o.batchTime o.distanceBased o.n pos

/-- `FunctionDataset.__init__`, lines 280-300. -/
def newSet (rng : Nat → Nat) (d : Traj Y τ) (o : SetOpts) (pos : Nat) : Nat × Py (Stored Y τ) :=
  if o.online then (pos, .ok ⟨none, none, none⟩)
  else match createData rng d o pos with
    | (pos', .error e) => (pos', .error e)
    | (pos', .ok r) => (pos', .ok ⟨some r.1, some r.2.1, some r.2.2⟩)

/-- `y[:, idx, ...]` for a tensor with times in the first and samples in the second dimension. -/
def column (y : List (List Y)) (i : Nat) : Py (List Y) := y.mapM fun row => item row i

/-- `{'y0': y0[idx,...], 'y': y[:,idx,...]}` -/
def sampleAt (y0 : List Y) (y : List (List Y)) (i : Nat) : Py (Y × List Y) := do
  let a ← item y0 i
  let b ← column y i
  .ok (a, b)

/-- `__getitem__` with an integer, lines 320-340 (the samplers of a loader hand out integers).  `None[idx]` is a `TypeError`. -/
def getItem (rng : Nat → Nat) (d : Traj Y τ) (o : SetOpts) (i : Nat) (s : Stored Y τ × Nat) : (Stored Y τ × Nat) × Py (Y × List Y) :=
  if o.online then
    match drawBatch rng d o.batchTime o.distanceBased 1 s.2 with
    | (pos, .error e) => ((s.1, pos), .error e)
    | (pos, .ok r) => (({ s.1 with t := some r.2.1 }, pos), sampleAt r.1 r.2.2 0)
  else match s.1.y0, s.1.y with
    | some y0, some y => (s, sampleAt y0 y i)
    | _, _ => (s, .error .typeError)

/-- The samples of one batch, one after the other. -/
def getItems (rng : Nat → Nat) (d : Traj Y τ) (o : SetOpts) : List Nat → Stored Y τ × Nat → (Stored Y τ × Nat) × Py (List (Y × List Y))
  | [], s => (s, .ok [])
  | i :: is, s =>
    match getItem rng d o i s with
    | (s', .error e) => (s', .error e)
    | (s', .ok v) =>
      match getItems rng d o is s' with
      | (s'', .error e) => (s'', .error e)
      | (s'', .ok vs) => (s'', .ok (v :: vs))

/-- `batch['y'].transpose(0,1)` for samples of `T` points each: times in the first, samples in the second dimension. -/
def transposed (T : Nat) (ys : List (List Y)) : List (List Y) := (List.range T).map fun k => ys.filterMap fun y => y[k]?

/-- The default collation stacks the samples, which have to be of the same size; then lines 559-560: the initial values, `dataset.t` and the points with times first. -/
def collate (t : Option (List τ)) (b : List (Y × List Y)) : Py (List Y × Option (List τ) × List (List Y)) :=
  match b with
  | [] => .error .indexError
  | s :: _ => if b.all fun v => v.2.length = s.2.length then .ok (b.map Prod.fst, t, transposed s.2.length (b.map Prod.snd)) else .error .runtimeError

/-- `for itr_batch, sampled_batch in enumerate(loader)` with the first two statements of the body (lines 557-560); also `iter(loader).next()` for the loaders of one batch. -/
def visit (rng : Nat → Nat) (d : Traj Y τ) (o : SetOpts) :
    List (List Nat) → Stored Y τ × Nat → (Stored Y τ × Nat) × Py (List (List Y × Option (List τ) × List (List Y)))
  | [], s => (s, .ok [])
  | b :: bs, s =>
    match getItems rng d o b s with
    | (s', .error e) => (s', .error e)
    | (s', .ok vs) =>
      match collate s'.1.t vs with
      | .error e => (s', .error e)
      | .ok r =>
        match visit rng d o bs s' with
        | (s'', .error e) => (s'', .error e)
        | (s'', .ok rs) => (s'', .ok (r :: rs))

/-- The options that decide about the data (lines 42-44, 60, 86). -/
structure DataArgs where
  batchTime : Int
  batchSize : Int
  disableDistanceBased : Bool
  longRange : Bool
deriving DecidableEq, Repr

/-- Training data: line 354 (online mode). -/
def trainOpts (a : DataArgs) (n : Nat) : SetOpts := ⟨n, a.batchTime, !a.disableDistanceBased, false, true, a.longRange⟩
/-- Training evaluation data and short range data: lines 360 and 366. -/
def fixedOpts (a : DataArgs) (n : Nat) : SetOpts := ⟨n, a.batchTime, !a.disableDistanceBased, false, false, a.longRange⟩
/-- Test data: lines 350-351 and 373. -/
def testOpts (a : DataArgs) (n : Nat) : SetOpts := ⟨if a.longRange then 1 else n, a.batchTime, !a.disableDistanceBased, true, false, a.longRange⟩

/-- A loader: its data set and the batch size. -/
structure Loader (Y τ : Type) where
  opts : SetOpts
  stored : Stored Y τ
  size : Int
deriving DecidableEq, Repr

/-- `DataLoader(FunctionDataset(...), batch_size)` -/
def newLoader (rng : Nat → Nat) (d : Traj Y τ) (o : SetOpts) (size : Int) (pos : Nat) : Nat × Py (Loader Y τ) :=
  match newSet rng d o pos with
  | (pos', .error e) => (pos', .error e)
  | (pos', .ok s) => if size ≤ 0 then (pos', .error .valueError) else (pos', .ok ⟨o, s, size⟩)

/-- The four loaders in the order of the `return` statement. -/
structure Loaders (Y τ : Type) where
  train : Loader Y τ
  trainEval : Loader Y τ
  shortRange : Loader Y τ
  test : Loader Y τ
deriving DecidableEq, Repr

/-- `get_function_data_loaders`, lines 342-378 (the numbers of samples are parameters with the defaults 100, 100, 1000 and 100; `shuffle=True` needs a data set that is not empty). -/
def dataLoaders (rng : Nat → Nat) (d : Traj Y τ) (a : DataArgs) (nTrain nEval nShort nTest : Nat) (pos : Nat) : Nat × Py (Loaders Y τ) :=
  match newLoader rng d (trainOpts a nTrain) a.batchSize pos with
  | (p1, .error e) => (p1, .error e)
  | (p1, .ok l1) =>
    if nTrain = 0 then (p1, .error .valueError)
    else match newLoader rng d (fixedOpts a nEval) nEval p1 with
      | (p2, .error e) => (p2, .error e)
      | (p2, .ok l2) =>
        match newLoader rng d (fixedOpts a nShort) nShort p2 with
        | (p3, .error e) => (p3, .error e)
        | (p3, .ok l3) =>
          match newLoader rng d (testOpts a nTest) (testOpts a nTest).n p3 with
          | (p4, .error e) => (p4, .error e)
          | (p4, .ok l4) => (p4, .ok ⟨l1, l2, l3, l4⟩)

/-- One pass over a loader. -/
def pass (rng : Nat → Nat) (d : Traj Y τ) (l : Loader Y τ) (order : List Nat) (pos : Nat) : (Stored Y τ × Nat) × Py (List (List Y × Option (List τ) × List (List Y))) :=
  match loaderBatches l.size order with
  | .error e => ((l.stored, pos), .error e)
  | .ok bs => visit rng d l.opts bs (l.stored, pos)

/-- `iter(loader).next()` for a loader without shuffling. -/
def firstBatch (rng : Nat → Nat) (d : Traj Y τ) (l : Loader Y τ) (pos : Nat) : (Stored Y τ × Nat) × Py (List (List Y × Option (List τ) × List (List Y))) :=
  match loaderBatches l.size (List.range l.opts.n) with
  | .error e => ((l.stored, pos), .error e)
  | .ok bs => visit rng d l.opts (bs.take 1) (l.stored, pos)

/-! ## Values of a function (`simple_functional_mapping_example.py`) -/

/-- One batch of a loader over fixed samples (`__getitem__` and the collation, lines 171-178): the inputs with their outputs. -/
def fixedBatch (samples : List A) (b : List Nat) : Py (List A) := b.mapM (item samples)

/-- One pass over a loader of fixed samples (lines 182-198). -/
def fixedPass (samples : List A) (size : Int) (order : List Nat) : Py (List (List A)) :=
  match loaderBatches size order with
  | .error e => .error e
  | .ok bs => bs.mapM (fixedBatch samples)

end Verif.Datasets
