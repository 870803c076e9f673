import Verif.Annealed.Model

/-!
# Half a cosine wave, and training with given learning rates
-/

namespace Verif.Annealed
open Verif

/-- The learning rate in epoch `e` of `n`: half a cosine wave from `r` to zero. -/
noncomputable def cosineRate (n : Nat) (r : ℝ) (e : Nat) : ℝ := r * (1 + Real.cos (Real.pi * e / n)) / 2

variable {σ B E : Type}

/-- Every batch of the list is used once, in this order: its losses, then an update with the given learning rates. -/
inductive Steps (p : Program σ B E) (rates : List ℝ) : List B → σ → List (ℝ × ℝ) → σ → Prop
  | done (s) : Steps p rates [] s [] s
  | more {b bs s l s1 ls s'} (h : p.forward b s = .ok (l, s1)) (hr : Steps p rates bs (p.update rates b s1) ls s') : Steps p rates (b :: bs) s (l :: ls) s'

/-- Epochs from number `it` on, one after the other: batches are drawn, used with the learning rates of the epoch, and the network is evaluated.  The losses of the batches and the evaluation of every epoch. -/
inductive Epochs (p : Program σ B E) (rates : Nat → List ℝ) : Nat → σ → List (List (ℝ × ℝ) × E) → σ → Prop
  | done (it s) : Epochs p rates it s [] s
  | more {it s bs s1 l s2 e s' rest s''} (hd : p.draw s = (bs, s1)) (hb : Steps p (rates it) bs s1 l s2) (he : p.evaluate s2 = .ok (e, s')) (hr : Epochs p rates (it + 1) s' rest s'') : Epochs p rates it s ((l, e) :: rest) s''

/-- The mean of numbers. -/
noncomputable def mean (l : List ℝ) : ℝ := l.sum / l.length

end Verif.Annealed
