import Verif.Evolution.Model
import Verif.Evolution.Spec
import Verif.Models.Props

set_option linter.unusedSectionVars false

namespace Verif.Evolution
open Verif.Shooting

/-! ## Methods commute with linear maps that commute with the right-hand side -/

section Methods
variable {V V' : Type} [AddCommMonoid V] [Module ℝ V] [AddCommMonoid V'] [Module ℝ V']

theorem comb_map (L : V →ₗ[ℝ] V') (c : List ℝ) (ys : List V) : comb c (ys.map L) = L (comb c ys) := by
  induction c generalizing ys with
  | nil => simp [comb]
  | cons a c ih =>
    cases ys with
    | nil => simp [comb]
    | cons y ys =>
      have := ih ys
      simp only [comb] at this
      simp [comb, this]

theorem run_map (L : V →ₗ[ℝ] V') {f : ℝ → V → V} {f' : ℝ → V' → V'} (h : ∀ t v, f' t (L v) = L (f t v))
    (prog : List Instr) (ys : List V) : run f' prog (ys.map L) = (run f prog ys).map L := by
  induction prog generalizing ys with
  | nil => rfl
  | cons i prog ih =>
    have e : exec f' (ys.map L) i = (exec f ys i).map L := by
      cases i with
      | eval t c => simp [exec, comb_map, h]
      | lin c => simp [exec, comb_map]
    show run f' prog (exec f' (ys.map L) i) = (run f prog (exec f ys i)).map L
    rw [e, ih]

theorem euler_map (L : V →ₗ[ℝ] V') {f : ℝ → V → V} {f' : ℝ → V' → V'} (h : ∀ t v, f' t (L v) = L (f t v))
    (s t : ℝ) (n : ℕ) (y : V) : euler f' s t n (L y) = L (euler f s t n y) := by
  induction n generalizing t y with
  | zero => rfl
  | succ n ih =>
    have e : L y + s • f' t (L y) = L (y + s • f t y) := by simp [h]
    simp only [euler, e, ih]

theorem rk4_map (L : V →ₗ[ℝ] V') {f : ℝ → V → V} {f' : ℝ → V' → V'} (h : ∀ t v, f' t (L v) = L (f t v))
    (s t : ℝ) (n : ℕ) (y : V) : rk4 f' s t n (L y) = L (rk4 f s t n y) := by
  induction n generalizing t y with
  | zero => rfl
  | succ n ih =>
    have e : rk4Step f' s t (L y) = L (rk4Step f s t y) := by
      simp only [rk4Step, ← map_smul, ← map_add, h]
    simp only [rk4, e, ih]

end Methods

/-! ## Rows -/

variable {ι β β' K P : Type}

theorem rows_rows_symm (σ : Equiv.Perm ι) (x : ι × K → ℝ) : rows σ (rows σ.symm x) = x := by
  funext k
  simp [rows]

theorem rows_symm_rows (σ : Equiv.Perm ι) (x : ι × K → ℝ) : rows σ.symm (rows σ x) = x := by
  funext k
  simp [rows]

theorem autograd_rows (σ : Equiv.Perm ι) (F : (ι × K → ℝ) → ℝ) (x : ι × K → ℝ) :
    autograd (fun y => F (rows σ.symm y)) (rows σ x) = rows σ (autograd F x) := by
  funext k
  obtain ⟨i, k⟩ := k
  show deriv _ _ = deriv _ _
  refine congrArg (fun G => deriv G (x (σ i, k))) (funext fun s => congrArg F ?_)
  funext m
  obtain ⟨j, l⟩ := m
  by_cases hm : (j, l) = (σ i, k)
  · obtain ⟨rfl, rfl⟩ := Prod.mk.inj hm
    simp [rows]
  · have hm' : (σ.symm j, l) ≠ (i, k) := by
      intro hc
      obtain ⟨h1, h2⟩ := Prod.mk.inj hc
      apply hm
      rw [← h1, ← h2, Equiv.apply_symm_apply]
    refine Eq.trans (Eq.trans (@Function.update_of_ne _ _ (_) _ _ hm' _ _) ?_) (@Function.update_of_ne _ _ (_) _ (σ i, k) hm s x).symm
    simp [rows]

section
variable [Fintype ι] [Fintype K] [Fintype P]

theorem potential_rows {f : Class K P} (hf : Rowwise f) (σ : Equiv.Perm ι) (q p : ι × K → ℝ) (θ : P → ℝ) :
    potentialEnergy (f ι) (rows σ q) (rows σ p) θ = potentialEnergy (f ι) q p θ := by
  unfold potentialEnergy
  refine Finset.sum_congr rfl fun k _ => ?_
  rw [hf ι ι σ]
  congr 1
  exact Equiv.sum_comp σ fun i => p (i, k) * f ι θ q (i, k)

theorem direct_rows {f : Class K P} (hf : Rowwise f) (w : P → Option ℝ) (σ : Equiv.Perm ι) (θ0 : P → ℝ) (q p : ι × K → ℝ) :
    directParameters (f ι) w θ0 (rows σ q) (rows σ p) = directParameters (f ι) w θ0 q p := by
  unfold directParameters
  simp only [potential_rows hf]

theorem lagrangian_rows {f : Class K P} (hf : Rowwise f) (w : P → Option ℝ) (σ : Equiv.Perm ι) (q p : ι × K → ℝ) (θ : P → ℝ) :
    lagrangian (f ι) w (rows σ q) (rows σ p) θ = lagrangian (f ι) w q p θ := by
  unfold lagrangian
  rw [potential_rows hf]

theorem costate_rows {f : Class K P} (hf : Rowwise f) (w : P → Option ℝ) (σ : Equiv.Perm ι) (θ0 : P → ℝ) (q p : ι × K → ℝ) :
    costateRhs (f ι) w θ0 (rows σ q) (rows σ p) = rows σ (costateRhs (f ι) w θ0 q p) := by
  unfold costateRhs
  rw [← autograd_rows]
  congr 1
  funext y
  unfold reducedLagrangian
  have e : y = rows σ (rows σ.symm y) := (rows_rows_symm σ y).symm
  conv_lhs => rw [e]
  rw [direct_rows hf, lagrangian_rows hf]

theorem costateFixed_rows {f : Class K P} (hf : Rowwise f) (w : P → Option ℝ) (σ : Equiv.Perm ι) (θ : P → ℝ) (q p : ι × K → ℝ) :
    costateRhsFixed (f ι) w θ (rows σ q) (rows σ p) = rows σ (costateRhsFixed (f ι) w θ q p) := by
  unfold costateRhsFixed
  rw [← autograd_rows]
  congr 1
  funext y
  unfold reducedLagrangianFixed
  have e : y = rows σ (rows σ.symm y) := (rows_rows_symm σ y).symm
  conv_lhs => rw [e]
  rw [lagrangian_rows hf]

theorem costate_independent {rhs : Rhs (ι × K) P} (h : AffineInParams rhs) (w : P → Option ℝ) (θ0 θ1 : P → ℝ) (q p : ι × K → ℝ) :
    costateRhs rhs w θ0 q p = costateRhs rhs w θ1 q p := by
  unfold costateRhs reducedLagrangian
  congr 1
  funext y
  rw [C32_independent_of_initialisation h w θ0 θ1]

end

/-! ## Linear maps -/

def permuteL (σ : Equiv.Perm ι) : Sys ι β K →ₗ[ℝ] Sys ι β K where
  toFun := permute σ
  map_add' _ _ := rfl
  map_smul' _ _ := rfl

def selectL (g : β' → β) : Sys ι β K →ₗ[ℝ] Sys ι β' K where
  toFun := select g
  map_add' _ _ := rfl
  map_smul' _ _ := rfl

/-! ## The classes are row-wise -/

section
open Verif.Models
variable {C D E : Type} [Fintype C] [Fintype D] [Fintype E]

theorem rowwise_simple (nl : ℝ → ℝ) : Rowwise (K := C × D) fun _ => simple nl := fun _ _ _ _ _ => rfl

theorem rowwise_of_two {P : Type} {f : Class (Two C D E) P}
    (h1 : ∀ (κ κ' : Type) (g : κ → κ') θ x i c, f κ θ (rows g x) (i, .inl c) = f κ' θ x (g i, .inl c))
    (h2 : ∀ (κ κ' : Type) (g : κ → κ') θ x i c, f κ θ (rows g x) (i, .inr c) = f κ' θ x (g i, .inr c)) : Rowwise f := by
  intro κ κ' g θ x
  funext k
  rcases k with ⟨i, c | c⟩
  · exact h1 κ κ' g θ x i c
  · exact h2 κ κ' g θ x i c

theorem rowwise_upDown (nl : ℝ → ℝ) : Rowwise (K := Two C D E) fun _ => upDown nl :=
  rowwise_of_two (fun _ _ _ _ _ _ _ => rfl) (fun _ _ _ _ _ _ _ => rfl)
theorem rowwise_universal (nl : ℝ → ℝ) : Rowwise (K := Two C D E) fun _ => universal nl :=
  rowwise_of_two (fun _ _ _ _ _ _ _ => rfl) (fun _ _ _ _ _ _ _ => rfl)
theorem rowwise_general (nl : ℝ → ℝ) (damp : ℝ) : Rowwise (K := Two C D E) fun _ => general nl damp :=
  rowwise_of_two (fun _ _ _ _ _ _ _ => rfl) (fun _ _ _ _ _ _ _ => rfl)
theorem rowwise_periodic (nl : ℝ → ℝ) : Rowwise (K := Two C D E) fun _ => periodic nl :=
  rowwise_of_two (fun _ _ _ _ _ _ _ => rfl) (fun _ _ _ _ _ _ _ => rfl)
theorem rowwise_dampenedQ2 (nl : ℝ → ℝ) (damp : ℝ) : Rowwise (K := Two C D E) fun _ => dampenedQ2 nl damp :=
  rowwise_of_two (fun _ _ _ _ _ _ _ => rfl) (fun _ _ _ _ _ _ _ => rfl)
theorem rowwise_debugSimple (nl : ℝ → ℝ) : Rowwise (K := Two C D D) fun _ => debugSimple nl :=
  rowwise_of_two (fun _ _ _ _ _ _ _ => rfl) (fun _ _ _ _ _ _ _ => rfl)

theorem rowwise_symmetrized (nl : ℝ → ℝ) : Rowwise (K := Three C D E) fun _ => symmetrized nl := by
  intro κ κ' g θ x
  funext k
  rcases k with ⟨i, c | c | c⟩ <;> rfl

theorem rowwise_dampenedUpDown (nl : ℝ → ℝ) : Rowwise (K := Four C D E) fun _ => dampenedUpDown nl := by
  intro κ κ' g θ x
  funext k
  rcases k with ⟨i, (⟨c, d⟩ | ⟨c, d⟩) | c⟩ <;> rfl

end
end Verif.Evolution
