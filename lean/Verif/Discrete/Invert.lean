import Verif.Discrete.Props
import Mathlib.Logic.Function.Iterate

/-!
# C56: the double network can be run backwards

The second state is updated with the new value of the first.  So a layer can be undone, and no information is lost in a network of such layers.
-/

namespace Verif.Discrete
open Verif Block

variable {β K L I M V : Type}

/-- The specification of one layer, in terms of what went in and what came out: the first state gets a function of the old second state,
the second state a function of the *new* first state. -/
def DoubleLayer [Fintype I] (p : Double I) (x y : (β × Unit → ℝ) × (β × I → ℝ)) : Prop :=
  (∀ b, y.1 (b, ()) = x.1 (b, ()) + (∑ i, p.l1.weight () i * max 0 (x.2 (b, i)) + (p.l1.bias.getD 0) ())) ∧
    ∀ b i, y.2 (b, i) = x.2 (b, i) + (p.l2.weight i () * max 0 (y.1 (b, ())) + (p.l2.bias.getD 0) i)

theorem apply_eq [Fintype K] (l : Linear K L) (x : β × K → ℝ) (b : β) (i : L) :
    l.apply x (b, i) = (∑ k, l.weight i k * x (b, k)) + (l.bias.getD 0) i := by
  unfold Linear.apply
  cases l.bias <;> rfl

/-- C56: what a layer of the double network returns. -/
theorem C56_double_layer [Fintype I] (p : Double I) (x y : (β × Unit → ℝ) × (β × I → ℝ)) : doubleBlock p x = y ↔ DoubleLayer p x y := by
  have h1 : ∀ b, (doubleBlock p x).1 (b, ()) = x.1 (b, ()) + (∑ i, p.l1.weight () i * max 0 (x.2 (b, i)) + (p.l1.bias.getD 0) ()) := by
    intro b
    show x.1 (b, ()) + p.l1.apply (relu x.2) (b, ()) = _
    rw [apply_eq]
    rfl
  have h2 : ∀ b i, (doubleBlock p x).2 (b, i) = x.2 (b, i) + (p.l2.weight i () * max 0 ((doubleBlock p x).1 (b, ())) + (p.l2.bias.getD 0) i) := by
    intro b i
    show x.2 (b, i) + p.l2.apply (relu (doubleBlock p x).1) (b, i) = _
    rw [apply_eq, Fintype.sum_unique]
    rfl
  constructor
  · rintro rfl
    exact ⟨h1, h2⟩
  · rintro ⟨g1, g2⟩
    have e1 : (doubleBlock p x).1 = y.1 := by
      funext ⟨b, u⟩
      exact (h1 b).trans (g1 b).symm
    refine Prod.ext e1 ?_
    funext ⟨b, i⟩
    rw [h2, g2, e1]

/-- C56: every layer of the double network, whatever its parameters, can be undone: different inputs give different outputs and every output is
reached. -/
theorem C56_double_invertible [Fintype I] (p : Double I) :
    Function.Bijective (doubleBlock p : (β × Unit → ℝ) × (β × I → ℝ) → (β × Unit → ℝ) × (β × I → ℝ)) := by
  refine Function.bijective_iff_has_inverse.2 ⟨fun y => (y.1 - p.l1.apply (relu (y.2 - p.l2.apply (relu y.1))), y.2 - p.l2.apply (relu y.1)), fun x => ?_, fun y => ?_⟩
  · simp [doubleBlock]
  · simp [doubleBlock]

/-- ... and so can the networks made of them, of every depth. -/
theorem C56_double_nets_invertible [Fintype I] (n : Nat) :
    (∀ mk : Nat → Double I, Function.Bijective (doubleResNetUpDown mk n : (β × Unit → ℝ) × (β × I → ℝ) → (β × Unit → ℝ) × (β × I → ℝ))) ∧
    ∀ p : Double I, Function.Bijective (doubleRNN p n : (β × Unit → ℝ) × (β × I → ℝ) → (β × Unit → ℝ) × (β × I → ℝ)) := by
  have h : ∀ (n : Nat) (mk : Nat → Double I),
      Function.Bijective (doubleResNetUpDown mk n : (β × Unit → ℝ) × (β × I → ℝ) → (β × Unit → ℝ) × (β × I → ℝ)) := by
    intro n
    induction n with
    | zero => intro mk; exact Function.bijective_id
    | succ n ih =>
      intro mk
      have e : (doubleResNetUpDown mk (n + 1) : (β × Unit → ℝ) × (β × I → ℝ) → _) =
          doubleResNetUpDown (fun i => mk (n + i)) 1 ∘ doubleResNetUpDown mk n := by
        funext x
        exact (C56_resnets n 1).2.2 mk x
      rw [e]
      refine Function.Bijective.comp ?_ (ih mk)
      exact C56_double_invertible (mk n)
  refine ⟨h n, fun p => ?_⟩
  have e : (doubleRNN p n : (β × Unit → ℝ) × (β × I → ℝ) → _) = doubleResNetUpDown (fun _ => p) n := by
    funext x
    exact ((C56_tied_nets (V := ℝ) n).1 p x).symm
  rw [e]
  exact h n _

/-- C56: the residual networks with one state do not have this property: with the weight `-1` everything positive is mapped to 0. -/
theorem C56_single_not_invertible : ∃ l1 : Linear Unit Unit, ¬ Function.Injective (resNet (fun _ => l1) 1 : (Unit × Unit → ℝ) → Unit × Unit → ℝ) := by
  refine ⟨⟨fun _ _ => -1, none⟩, fun h => ?_⟩
  have e : resNet (fun _ => ⟨fun _ _ => -1, none⟩) 1 (fun _ : Unit × Unit => (1 : ℝ)) = resNet (fun _ => ⟨fun _ _ => -1, none⟩) 1 (fun _ : Unit × Unit => (2 : ℝ)) := by
    funext i
    show (1 : ℝ) + ((∑ k : Unit, (-1) * max 0 1) + 0) = 2 + ((∑ k : Unit, (-1) * max 0 2) + 0)
    rw [Fintype.sum_unique, Fintype.sum_unique]
    norm_num
  have := congrFun (h e) ((), ())
  norm_num at this

/-- A layer with one hidden unit and identities: `(1, 2)` becomes `(1 + 2, 2 + 3)`. -/
example : doubleBlock (⟨identity, identity⟩ : Double Unit) (fun _ : Unit × Unit => 1, fun _ => 2) = (fun _ => 3, fun _ => 5) := by
  rw [C56_double_layer]
  constructor
  · intro b; simp [identity]; norm_num
  · intro b i; simp [identity]; norm_num

end Verif.Discrete
