import Verif.Shooting.Model
import Mathlib.Analysis.Calculus.Deriv.Pow

/-! # `tests/autodiff_tries.py`: a cubic differentiated automatically and by hand

A tensor of any size is a function on its positions `J`. -/

namespace Verif.Gradcheck
open Verif.Shooting

variable {J : Type} [Fintype J]

/-- `myFunction`, lines 17-19. -/
def myFunction (x : J → ℝ) : J → ℝ := fun j => x j ^ 3

/-- `myFunctionDiff`, lines 21-24. -/
def myFunctionDiff (x : J → ℝ) : J → ℝ := fun j => 3 * x j ^ 2

/-- `myFunction2Manual`, lines 26-27. -/
def myFunction2Manual (p x : J → ℝ) : J → ℝ := fun j => myFunctionDiff x j * p j

/-- `myFunction2AutoDiff`, lines 29-40. -/
noncomputable def myFunction2AutoDiff (p x : J → ℝ) : J → ℝ := autograd (fun x => ∑ j, p j * myFunction x j) x

/-- `myLoss`, lines 43-45. -/
noncomputable def myLoss (p x : J → ℝ) : ℝ := ∑ j, myFunction2AutoDiff p x j + ∑ j, p j * myFunction x j

/-- `myLossManual`, lines 47-49. -/
noncomputable def myLossManual (p x : J → ℝ) : ℝ := ∑ j, myFunction2Manual p x j + ∑ j, p j * myFunction x j

/-- C93, `tests/autodiff_tries.py`: for tensors of every size the automatic derivative is `3 p x²`, the loss is `∑ (3 p x² + p x³)` in both versions, and the gradients that are compared at the end are
both `6 p x + 3 p x²`; every printed difference is zero. -/
theorem C93_tries (p x : J → ℝ) :
    (∀ j, myFunction2AutoDiff p x j = 3 * p j * x j ^ 2) ∧
    myLoss p x = ∑ j, (3 * p j * x j ^ 2 + p j * x j ^ 3) ∧ myLossManual p x = myLoss p x ∧
    (∀ j, autograd (myLoss p) x j = 6 * p j * x j + 3 * p j * x j ^ 2) ∧
    ∑ j, (myFunction2AutoDiff p x j - myFunction2Manual p x j) ^ 2 = 0 ∧
    ∀ j, autograd (myLoss p) x j - autograd (myLossManual p) x j = 0 := by
  classical
  -- the derivative of a sum of functions of one entry each
  have key : ∀ (F : J → ℝ → ℝ) (F' : J → ℝ → ℝ), (∀ j s, HasDerivAt (F j) (F' j s) s) → ∀ (x : J → ℝ) j,
      autograd (fun x => ∑ j, F j (x j)) x j = F' j (x j) := by
    intro F F' hF x j
    unfold autograd
    have h1 : HasDerivAt (fun s => ∑ k, F k (Function.update x j s k)) (∑ k, if k = j then F' j (x j) else 0) (x j) := by
      refine HasDerivAt.fun_sum fun k _ => ?_
      by_cases hk : k = j
      · subst hk
        simp only [Function.update_self, if_true]
        exact hF k (x k)
      · simp only [Function.update_of_ne hk, if_neg hk]
        exact hasDerivAt_const _ _
    rw [Finset.sum_ite_eq' Finset.univ j, if_pos (Finset.mem_univ j)] at h1
    convert h1.deriv
  have cub : ∀ (a s : ℝ), HasDerivAt (fun s => a * s ^ 3) (a * (3 * s ^ 2)) s := by
    intro a s
    have := (hasDerivAt_pow 3 s).const_mul a
    simpa using this
  have sq : ∀ (a s : ℝ), HasDerivAt (fun s => 3 * a * s ^ 2) (3 * a * (2 * s)) s := by
    intro a s
    have := (hasDerivAt_pow 2 s).const_mul (3 * a)
    simpa using this
  have h1 : ∀ (x : J → ℝ) j, myFunction2AutoDiff p x j = 3 * p j * x j ^ 2 := by
    intro x j
    refine (key (fun j s => p j * s ^ 3) (fun j s => p j * (3 * s ^ 2)) (fun j s => cub (p j) s) x j).trans ?_
    ring
  have h2 : ∀ x : J → ℝ, myLoss p x = ∑ j, (3 * p j * x j ^ 2 + p j * x j ^ 3) := by
    intro x
    unfold myLoss
    rw [Finset.sum_add_distrib]
    exact congrArg₂ (· + ·) (Finset.sum_congr rfl fun j _ => h1 x j) rfl
  have h3 : ∀ (x : J → ℝ) j, myFunction2Manual p x j = myFunction2AutoDiff p x j := by
    intro x j
    rw [h1]
    unfold myFunction2Manual myFunctionDiff
    ring
  have h4 : myLossManual p = myLoss p := by
    funext x
    unfold myLossManual myLoss
    exact congrArg₂ (· + ·) (Finset.sum_congr rfl fun j _ => h3 x j) rfl
  refine ⟨h1 x, h2 x, congrFun h4 x, ?_, ?_, ?_⟩
  · intro j
    rw [show myLoss p = fun x => ∑ j, (3 * p j * x j ^ 2 + p j * x j ^ 3) from funext h2]
    refine (key (fun j s => 3 * p j * s ^ 2 + p j * s ^ 3) (fun j s => 3 * p j * (2 * s) + p j * (3 * s ^ 2))
      (fun j s => (sq (p j) s).add (cub (p j) s)) x j).trans ?_
    ring
  · simp [h3]
  · intro j
    rw [h4, sub_self]

/-- `C93_tries` with two entries. -/
example : myLoss (fun j : Bool => if j then 1 else 2) (fun _ => 1) = 12 := by
  rw [(C93_tries _ _).2.1]
  norm_num [Fintype.sum_bool]

end Verif.Gradcheck
