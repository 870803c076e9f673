import Verif.Gradcheck.Spec
import Verif.Gradcheck.Model

/-!
# Rules that go downhill
-/

namespace Verif.Descent
open Verif Verif.Gradcheck

/-- A rule of the form "value minus learning rate times direction" whose direction has the sign of the gradient. -/
def Downhill (up : ℝ → ℝ → ℝ → ℝ) : Prop := ∃ dir : ℝ → ℝ, (∀ lr x g, up lr x g = x - lr * dir g) ∧ dir 0 = 0 ∧ ∀ g, g ≠ 0 → 0 < g * dir g

/-- The gradients before a round: frozen parameters have none, the others have none or one of the right size. -/
def Fresh (frozen : String → Bool) (new : SDict String (List ℝ)) (g : Grads) : Prop :=
  List.Forall₂ (fun e d => e.1 = d.1 ∧ (frozen e.1 = true → e.2 = none) ∧ ∀ l, e.2 = some l → l.length = d.2.length) g new

/-- All entries are within the bounds. -/
def Inside (clip : String → Option ℝ) (ps : SDict String (List ℝ)) : Prop := ∀ e ∈ ps, ∀ b, clip e.1 = some b → ∀ x ∈ e.2, |x| ≤ b

end Verif.Descent
