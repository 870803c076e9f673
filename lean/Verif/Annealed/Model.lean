import Verif.Base.Py
import Mathlib.Analysis.SpecialFunctions.Trigonometric.Basic

/-!
# Training with a cosine schedule (`demos/neurips20/rot.py`, `balls.py`, `cc.py`)

The network, its gradients and the optimizer are parameters of the model: what they do with their state `σ` (parameters, moments of the optimizer, statistics of the batch normalisation, random number generators).  The
optimizer gets the learning rates of its groups.  `torch.optim.lr_scheduler.CosineAnnealingLR` (with `eta_min = 0`) is not part of the repository; its recursive rule is what `torch` computes.  Exact arithmetic.
-/

namespace Verif.Annealed
open Verif

/-! ## The schedule -/

/-- The state of the schedule: `last_epoch`, and for every group of the optimizer the initial and the current learning rate. -/
structure Schedule where
  epoch : Nat
  groups : List (ℝ × ℝ)

/-- `CosineAnnealingLR(optimizer, T)` (`rot.py:229`, `balls.py:241`, `cc.py:396`) -/
def Schedule.new (rates : List ℝ) : Schedule := ⟨0, rates.map fun r => (r, r)⟩

/-- The current learning rates. -/
def Schedule.rates (s : Schedule) : List ℝ := s.groups.map Prod.snd

/-- The learning rate of a group in the next epoch `e`. -/
noncomputable def nextRate (T e : Nat) (g : ℝ × ℝ) : ℝ :=
  if ((e : ℤ) - 1 - T) % (2 * T) = 0 then g.2 + g.1 * (1 - Real.cos (Real.pi / T)) / 2
  else (1 + Real.cos (Real.pi * e / T)) / (1 + Real.cos (Real.pi * (e - 1) / T)) * g.2

/-- `scheduler.step()` (`rot.py:370`, `balls.py:393`, `cc.py:416`) -/
noncomputable def Schedule.step (T : Nat) (s : Schedule) : Py Schedule :=
  if T = 0 then .error .zeroDivision else .ok ⟨s.epoch + 1, s.groups.map fun g => (g.1, nextRate T (s.epoch + 1) g)⟩

/-! ## Training -/

/-- A program: the batches of an epoch in the order of the sampler, the losses of a training batch (similarity and norm penalty, weighted), the update of the parameters with the learning rates of the groups, and the
evaluation at the end of an epoch. -/
structure Program (σ B E : Type) where
  draw : σ → List B × σ
  forward : B → σ → Py ((ℝ × ℝ) × σ)
  update : List ℝ → B → σ → σ
  evaluate : σ → Py (E × σ)

variable {σ B E : Type}

/-- The training batches of an epoch (`rot.py:336-368`, `balls.py:370-391`): the losses of the batches. -/
def batches (p : Program σ B E) (rates : List ℝ) : List B → σ → Py (List (ℝ × ℝ) × σ)
  | [], s => .ok ([], s)
  | b :: bs, s => do
    let r ← p.forward b s
    let q ← batches p rates bs (p.update rates b r.2)
    .ok (r.1 :: q.1, q.2)

/-- What is recorded for an epoch (`rot.py:381-388`), or printed (`balls.py:419-425`). -/
structure Entry (E : Type) where
  it : Nat
  loss : ℝ
  sim : ℝ
  npe : ℝ
  eval : E

/-- `it_loss/len(trainset)` and the other two (`rot.py:332-334, 363-365, 374-386`): the loss of a batch is the sum of its two parts. -/
noncomputable def entry (it : Nat) (ls : List (ℝ × ℝ)) (e : E) : Py (Entry E) :=
  if ls.length = 0 then .error .zeroDivision
  else .ok ⟨it, (ls.map fun l => l.1 + l.2).sum / ls.length, (ls.map Prod.fst).sum / ls.length, (ls.map Prod.snd).sum / ls.length, e⟩

/-- The result of a run: `tracker`, `losses`, the schedule and the state. -/
structure Result (σ E : Type) where
  tracker : List (Entry E)
  losses : List (ℝ × ℝ)
  schedule : Schedule
  state : σ

/-- The loop over the epochs of `rot.py` (lines 330-388) and of `balls.py` (lines 362-425, without what is saved, see `Verif.Checkpoint`): `it` is the number of the epoch. -/
noncomputable def loop (p : Program σ B E) (T : Nat) : Nat → Nat → Schedule → σ → Py (Result σ E)
  | 0, _, c, s => .ok ⟨[], [], c, s⟩
  | k + 1, it, c, s => do
    let d := p.draw s
    let b ← batches p c.rates d.1 d.2
    let c' ← c.step T
    let v ← p.evaluate b.2
    let a ← entry it b.1 v.1
    let r ← loop p T k (it + 1) c' v.2
    .ok ⟨a :: r.tracker, b.1 ++ r.losses, r.schedule, r.state⟩

/-- `setup_optimizer_and_scheduler` and the loop (`rot.py:226-230, 324-388`, `balls.py:238-242, 354-425`): `niters` epochs. -/
noncomputable def run (p : Program σ B E) (rates : List ℝ) (niters : Nat) (s : σ) : Py (Result σ E) := loop p niters niters 0 (Schedule.new rates) s

/-- The loop of `cc.py` (lines 400-418): the loss has one part, there is a test and a recording after the training of an epoch (`evaluate`), then the schedule advances. -/
noncomputable def loopCc (p : Program σ B E) (T : Nat) : Nat → Nat → Schedule → σ → Py (Result σ E)
  | 0, _, c, s => .ok ⟨[], [], c, s⟩
  | k + 1, it, c, s => do
    let d := p.draw s
    let b ← batches p c.rates d.1 d.2
    let a ← entry it b.1 ()
    let v ← p.evaluate b.2
    let c' ← c.step T
    let r ← loopCc p T k (it + 1) c' v.2
    .ok ⟨⟨a.it, a.loss, a.sim, a.npe, v.1⟩ :: r.tracker, b.1 ++ r.losses, r.schedule, r.state⟩

/-- The optimizer and the loop of `cc.py` (lines 392-418): two groups (block and classifier) with the same learning rate. -/
noncomputable def runCc (p : Program σ B E) (rate : ℝ) (niters : Nat) (s : σ) : Py (Result σ E) := loopCc p niters niters 0 (Schedule.new [rate, rate]) s

end Verif.Annealed
