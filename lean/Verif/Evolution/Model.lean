import Verif.Models.Model
import Verif.Evolution.Spec

/-!
# Evolution of particles and data by fixed-step methods

The integrated vector contains the state and the costate of the particles and the data.  A system is a triple
`(q, p, x)`: `q, p : ι × K → ℝ` (particles `ι`) and `x : β × K → ℝ` (samples `β` of a batch).  The right-hand
sides of the model classes work for any index set in dimension 0, so a class is a family `f : ∀ κ, Rhs (κ × K) P`.
-/

namespace Verif.Evolution
open Verif.Shooting

variable {ι β K K' P : Type}

/-- State, costate and data (`assemble_tensor`, see `Verif.Assembly` for the vector itself). -/
abbrev Sys (ι β K : Type) := (ι × K → ℝ) × (ι × K → ℝ) × (β × K → ℝ)

/-- The same when a sample has other coordinates than a particle: the blocks for images have small particles (`particle_size`, `res_net.py:20, 103-122`) and larger data. -/
abbrev Sys2 (ι β K K' : Type) := (ι × K → ℝ) × (ι × K → ℝ) × (β × K' → ℝ)

/-- A model class: the same right-hand side for particles and for batches of any size
(`rhs_advect_state_dict_of_dicts` is called for both, `shooting_integrands.py:694-722, 520-522`). -/
abbrev Class (K P : Type) := ∀ κ : Type, Rhs (κ × K) P

/-- The right-hand side of a class treats every row of dimension 0 separately and in the same way. -/
def Rowwise (f : Class K P) : Prop := ∀ (κ κ' : Type) (g : κ → κ') (θ : P → ℝ) (x : κ' × K → ℝ), f κ θ (rows g x) = rows g (f κ' θ x)

/-- How parameters and costate derivative are obtained at an evaluation at time `t`. -/
structure Mode (ι K P : Type) where
  params : ℝ → (ι × K → ℝ) → (ι × K → ℝ) → P → ℝ
  cost : ℝ → (ι × K → ℝ) → (ι × K → ℝ) → (ι × K → ℝ)

/-- `compute_gradients_autodiff` without RNN mode (`shooting_integrands.py:689-739`).  `ρ t` holds the random initial
parameters of the two computations of the parameters (for the state equation and inside the reduced Lagrangian) at
time `t`. -/
noncomputable def autodiff [Fintype ι] [Fintype K] [Fintype P] (f : Class K P) (w : P → Option ℝ)
    (ρ : ℝ → (P → ℝ) × (P → ℝ)) : Mode ι K P where
  params t q p := directParameters (f ι) w (ρ t).1 q p
  cost t q p := costateRhs (f ι) w (ρ t).2 q p

/-- `compute_gradients_analytic` without RNN mode (`shooting_integrands.py:624-687`): hand-written formulas, the computed
parameters are also used for the costate. -/
noncomputable def analytic (par : (ι × K → ℝ) → (ι × K → ℝ) → P → ℝ)
    (cost : (P → ℝ) → (ι × K → ℝ) → (ι × K → ℝ) → (ι × K → ℝ)) (w : P → Option ℝ) : Mode ι K P where
  params _ q p := divideByWeight w (par q p)
  cost _ q p := cost (divideByWeight w (par q p)) q p

/-- RNN mode or external parameters (`shooting_integrands.py:640-656, 701-716`): the parameters at time `t` are given. -/
noncomputable def given [Fintype ι] [Fintype K] [Fintype P] (f : Class K P) (w : P → Option ℝ) (θ : ℝ → P → ℝ) :
    Mode ι K P where
  params t _ _ := θ t
  cost t q p := costateRhsFixed (f ι) w (θ t) q p

/-- `forward` (`shooting_integrands.py:781-816`): the derivative of state, costate and data. -/
def field (f : Class K P) (m : Mode ι K P) (t : ℝ) (s : Sys ι β K) : Sys ι β K :=
  let θ := m.params t s.1 s.2.1
  (f ι θ s.1, m.cost t s.1 s.2.1, f β θ s.2.2)

/-- The same when samples have other coordinates than particles: `g` is the right-hand side of the class for data, with the same parameters. -/
def field2 (f : Class K P) (g : Class K' P) (m : Mode ι K P) (t : ℝ) (s : Sys2 ι β K K') : Sys2 ι β K K' :=
  let θ := m.params t s.1 s.2.1
  (f ι θ s.1, m.cost t s.1 s.2.1, g β θ s.2.2)

/-! ## Fixed-step methods

Every explicit fixed-step method (Euler, midpoint, Runge-Kutta, Adams-Bashforth) on any grid of times is a list of two kinds of instructions
on the list of all vectors computed so far: evaluate the right-hand side at a time and a linear combination of earlier
vectors, or form a linear combination of earlier vectors.  The integrators (`torchdiffeq`) are not part of the repository;
`neuro_shooting/generic_integrator.py` passes the right-hand side to them. -/

inductive Instr where
  | eval (t : ℝ) (c : List ℝ)
  | lin (c : List ℝ)

variable {V : Type} [AddCommMonoid V] [Module ℝ V]

/-- The linear combination with the given coefficients (missing ones are 0). -/
def comb (c : List ℝ) (ys : List V) : V := (List.zipWith (· • ·) c ys).sum

def exec (f : ℝ → V → V) (ys : List V) : Instr → List V
  | .eval t c => ys ++ [f t (comb c ys)]
  | .lin c => ys ++ [comb c ys]

/-- All vectors after running a program from `ys`. -/
def run (f : ℝ → V → V) (prog : List Instr) (ys : List V) : List V := prog.foldl (exec f) ys

/-- Explicit Euler with step `h` from time `t`, `n` steps. -/
def euler (f : ℝ → V → V) (h t : ℝ) : ℕ → V → V
  | 0, y => y
  | n + 1, y => euler f h (t + h) n (y + h • f t y)

/-- One step of the classical fourth order Runge-Kutta method. -/
noncomputable def rk4Step (f : ℝ → V → V) (h t : ℝ) (y : V) : V :=
  let k1 := f t y
  let k2 := f (t + h / 2) (y + (h / 2) • k1)
  let k3 := f (t + h / 2) (y + (h / 2) • k2)
  let k4 := f (t + h) (y + h • k3)
  y + (h / 6) • (k1 + (2 : ℝ) • k2 + (2 : ℝ) • k3 + k4)

/-- `n` steps of it. -/
noncomputable def rk4 (f : ℝ → V → V) (h t : ℝ) : ℕ → V → V
  | 0, y => y
  | n + 1, y => rk4 f h (t + h) n (rk4Step f h t y)

end Verif.Evolution
