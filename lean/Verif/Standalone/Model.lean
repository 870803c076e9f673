import Verif.Base.Py
import Verif.Models.Model

/-!
# The stand-alone UpDown program (`tests/test_standalone_shooting_updown.py`)

A second implementation of the shooting equations of the UpDown class that does not use the library.  The dictionary of states
`q1, q2, p1, p2` is a pair of functions (states, costates) as in `Verif.Models`; tensors have shape `[particles, rows, features]`, the script has one row.
-/

namespace Verif.Standalone
open Verif Verif.Models

variable {ι C D E : Type} [Fintype ι] [Fintype C] [Fintype D] [Fintype E]

/-- The states `q1, q2` and `p1, p2`. -/
abbrev States (ι C D E : Type) := (ι × Two C D E → ℝ) × (ι × Two C D E → ℝ)

/-- The dictionary of parameters; the biases keep the dimension of the rows. -/
structure Params (C D E : Type) where
  l1 : D → E → ℝ
  l2 : E → D → ℝ
  bias1 : C → D → ℝ
  bias2 : C → E → ℝ

/-- `compute_parameters` (lines 6-22). -/
noncomputable def computeParameters (nl : ℝ → ℝ) (s : States ι C D E) : Params C D E :=
  let q2 := transpose12 (Models.q2 s.1)
  let p2 := transpose12 (Models.q2 s.2)
  { l1 := t (mean0 (bmm (map nl q2) (q1 s.2)))
    l2 := mean0 (bmm p2 (q1 s.1))
    bias2 := t (mean0 p2)
    bias1 := mean0 (q1 s.2) }

/-- `torch.sum(m**2)`. -/
def sumSq {A B : Type} [Fintype A] [Fintype B] (m : A → B → ℝ) : ℝ := ∑ a, ∑ b, m a b ^ 2

/-- `compute_energy` (lines 29-34): in the order in which the parameters were stored. -/
noncomputable def computeEnergy (nl : ℝ → ℝ) (s : States ι C D E) : ℝ :=
  let m := computeParameters nl s
  0 + 0.5 * sumSq m.l2 + 0.5 * sumSq m.l1 + 0.5 * sumSq m.bias2 + 0.5 * sumSq m.bias1

/-- `compute_rhs` (lines 47-72): derivatives of `q1, q2` and of `p1, p2`. -/
noncomputable def computeRhs (nl dnl : ℝ → ℝ) (s : States ι C D E) : States ι C D E :=
  let m := computeParameters nl s
  (join (fun i c d => matmul (map nl (Models.q2 s.1)) (t m.l1) i c d + m.bias1 c d)
      (fun i c e => matmul (q1 s.1) (t m.l2) i c e + m.bias2 c e),
    join (fun i c d => -matmul (Models.q2 s.2) m.l2 i c d)
      (fun i c e => -dnl (Models.q2 s.1 i c e) * matmul (q1 s.2) m.l1 i c e))

/-- `torch.sum(x * y)`. -/
def sumProd {A : Type} (x y : T3 ι C A) [Fintype A] : ℝ := ∑ i, ∑ c, ∑ a, x i c a * y i c a

/-- `compute_lagrangian` (lines 36-40). -/
noncomputable def computeLagrangian (nl dnl : ℝ → ℝ) (s : States ι C D E) : ℝ :=
  let rhs := computeRhs nl dnl s
  (sumProd (q1 s.2) (q1 rhs.1) + sumProd (Models.q2 s.2) (Models.q2 rhs.1)) / Fintype.card ι

/-- `compute_hamiltonian` (lines 24-27). -/
noncomputable def computeHamiltonian (nl dnl : ℝ → ℝ) (s : States ι C D E) : ℝ :=
  (computeLagrangian nl dnl s - computeEnergy nl s) * Fintype.card ι

/-- One round of the loop of `advect` (lines 88-93). -/
noncomputable def advectStep (nl dnl : ℝ → ℝ) (h : ℝ) (s : States ι C D E) : States ι C D E :=
  let temp := s + (0.5 * h) • computeRhs nl dnl s
  s + h • computeRhs nl dnl temp

/-- The loop of `advect` (lines 87-96): the states, and the recorded states, energies and Lagrangians (of the states the code records the entry
`[0,0,0]` of every tensor). -/
def advectLoop {V : Type} (step : V → V) (energy lagrangian : V → ℝ) : ℕ → V → List V → List ℝ → List ℝ → V × List V × List ℝ × List ℝ
  | 0, s, ss, es, ls => (s, ss, es, ls)
  | n + 1, s, ss, es, ls => advectLoop step energy lagrangian n (step s) (ss ++ [step s]) (es ++ [energy (step s)]) (ls ++ [lagrangian (step s)])

/-- `int(x)`: rounding towards zero. -/
noncomputable def truncate (x : ℝ) : ℤ := if 0 ≤ x then ⌊x⌋ else ⌈x⌉

/-- `advect(timestep, initial_states)` (lines 75-98): `range(n)` is empty for a negative number. -/
noncomputable def advect (nl dnl : ℝ → ℝ) (h : ℝ) (s : States ι C D E) : Py (States ι C D E × List (States ι C D E) × List ℝ × List ℝ) :=
  if h = 0 then .error .zeroDivision
  else .ok (advectLoop (advectStep nl dnl h) (computeEnergy nl) (computeLagrangian nl dnl) (truncate (1 / h)).toNat s [] [] [])

open Classical in
/-- `finite_differences` (lines 100-114) for the entries of a state `q1` or `q2`. -/
noncomputable def differencesState (nl dnl : ℝ → ℝ) (ε : ℝ) (s : States ι C D E) : ι × Two C D E → ℝ := fun j =>
  (computeHamiltonian nl dnl (Function.update s.1 j (s.1 j + ε), s.2) - computeHamiltonian nl dnl s) / ε

open Classical in
/-- `finite_differences` (lines 100-114) for the entries of a costate `p1` or `p2`. -/
noncomputable def differencesCostate (nl dnl : ℝ → ℝ) (ε : ℝ) (s : States ι C D E) : ι × Two C D E → ℝ := fun j =>
  (computeHamiltonian nl dnl (s.1, Function.update s.2 j (s.2 j + ε)) - computeHamiltonian nl dnl s) / ε

/-! ## `tests/autograd_versus_manualgrad.py`

The script writes the equations of `AutoShootingIntegrandModelSimple` by hand and prints the differences from and the ratios to those of the library.  Particle dimension 1 (one row). -/

/-- `At` (lines 134-137): the loop adds `(pi[i].t() * nl(qi[i])).t()`. -/
noncomputable def manualAt [Unique C] (nl : ℝ → ℝ) (q p : ι × (C × D) → ℝ) : D → D → ℝ := fun a b =>
  1 / ((Fintype.card D : ℝ) * Fintype.card ι) * ∑ i, outerRow (one p i) (map nl (one q) i) a b

/-- `bt` (line 138). -/
noncomputable def manualBt (p : ι × (C × D) → ℝ) : C → D → ℝ := fun c d =>
  1 / ((Fintype.card D : ℝ) * Fintype.card ι) * ∑ i, one p i c d

/-- `dot_qt` (line 141). -/
noncomputable def manualState [Unique C] (nl : ℝ → ℝ) (q p : ι × (C × D) → ℝ) : ι × (C × D) → ℝ :=
  single fun i c d => matmul (map nl (one q)) (manualAt nl q p) i c d + manualBt p c d

/-- `dot_pt` (lines 144-146). -/
noncomputable def manualCostate [Unique C] (nl dnl : ℝ → ℝ) (q p : ι × (C × D) → ℝ) : ι × (C × D) → ℝ :=
  single fun i c d => -dnl (one q i c d) * matmul (one p) (t (manualAt nl q p)) i c d

end Verif.Standalone
