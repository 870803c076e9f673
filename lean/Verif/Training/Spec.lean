import Verif.Training.Model

/-!
# Specification of the training programs

A schedule of a run in terms of the options; nothing here refers to the programs.
-/

namespace Verif.Training
open Verif

/-- What happens in a run, without the losses. -/
inductive Tag where
  | step (epoch batch : Nat)
  | evaluated (epoch : Nat)
  | rate (epoch : Nat)
  | figure (epoch : Nat)
deriving DecidableEq, Repr

def Event.tag {K : Type} : Event K → Tag
  | .step e k => .step e k
  | .evaluated e => .evaluated e
  | .rate e _ => .rate e
  | .figure e => .figure e

/-- The optimizer steps of an epoch with `n` samples and batches of `size`. -/
def stepTags (n size e : Nat) : List Tag := (List.range (n / size)).map (Tag.step e)

/-- Functional mapping, one epoch: one optimizer step for each full batch; the evaluation data are used every `testFreq` and every `vizFreq` epochs and in the last one, the learning rate is adapted every `testFreq` epochs, figures
are drawn every `vizFreq` epochs and in the last one. -/
def mappingTags (n size : Nat) (testFreq vizFreq niters : Int) (figures : Bool) (e : Nat) : List Tag :=
  stepTags n size e ++
  (if testFreq ∣ (e : Int) ∨ vizFreq ∣ (e : Int) ∨ (e : Int) = niters then [Tag.evaluated e] else []) ++
  (if testFreq ∣ (e : Int) then [Tag.rate e] else []) ++
  (if figures = true ∧ (vizFreq ∣ (e : Int) ∨ (e : Int) = niters) then [Tag.figure e] else [])

/-- Spiral, one epoch: the learning rate is adapted whenever the evaluation data are used, and figures are drawn every `vizFreq` epochs. -/
def spiralTags (n size : Nat) (testFreq vizFreq niters : Int) (e : Nat) : List Tag :=
  stepTags n size e ++
  (if testFreq ∣ (e : Int) ∨ vizFreq ∣ (e : Int) ∨ (e : Int) = niters then [Tag.evaluated e, Tag.rate e] else []) ++
  (if vizFreq ∣ (e : Int) then [Tag.figure e] else [])

/-- The loss can always be computed. -/
def Total {K α G M S : Type} (env : Env K α G M S) : Prop := ∀ v b l, ∃ r, env.loss v b l = .ok r

/-! ## What is learned -/

section
variable {K α G M S : Type}

/-- Is a parameter trained in epoch `e`?  `frozen = some u`: the particles are frozen and become free in epoch `u` (never, if `u` is negative); all other parameters as they are. -/
def trained (frozen : Option Int) (e : Nat) (p : Par K M) : Bool :=
  match frozen with
  | none => p.rg
  | some u => if p.name = "q1" then decide (0 ≤ u ∧ u ≤ (e : Int)) else p.rg

/-- One training step: each parameter that is trained and has a gradient (at the present parameters, for this batch) is updated; then the particles are brought back into the range, if asked for. -/
def learnStep (grad : List (String × List K) → List α → String → Option G) (adam : M → G → List K → List K × M) (clamp : List K → List K) (frozen : Option Int) (e : Nat) (ps : List (Par K M)) (b : List α) : List (Par K M) :=
  ps.map fun p =>
    let new : List K × M :=
      if trained frozen e p then
        match grad (ps.map fun q => (q.name, q.val)) b p.name with
        | some g => adam p.mom g p.val
        | none => (p.val, p.mom)
      else (p.val, p.mom)
    { p with val := if p.name = "q1" then clamp new.1 else new.1, mom := new.2 }

/-- One epoch: the batches one after the other, then (in some epochs) the learning rate is adapted to the loss of the parameters reached. -/
def learnEpoch (grad : List (String × List K) → List α → String → Option G) (adam : S → M → G → List K → List K × M) (rate : K → S → S) (loss : List (String × List K) → K) (clamp : List K → List K) (frozen : Option Int)
    (adapt : Nat → Prop) [DecidablePred adapt] (batches : Nat → List (List α)) (st : List (Par K M) × S) (e : Nat) : List (Par K M) × S :=
  let ps := (batches e).foldl (learnStep grad (adam st.2) clamp frozen e) st.1
  (ps, if adapt e then rate (loss (ps.map fun q => (q.name, q.val))) st.2 else st.2)

/-- The particles are placed. -/
def place (q : List K) (ps : List (Par K M)) : List (Par K M) := ps.map fun p => if p.name = "q1" then { p with val := q } else p

end

end Verif.Training
