import Verif.Evolution.Lemmas

/-!
# C51 and C52: order of the particles, independence of the samples

Index sets, states, costates, data, weights, nonlinearities, random initial parameters and the fixed-step
method (a list of instructions, or Euler and Runge-Kutta with any step and number of steps) are arbitrary.
-/

set_option linter.unusedSectionVars false

namespace Verif.Evolution
open Verif.Shooting Verif.Models

variable {ι β β' K P : Type} [Fintype ι] [Fintype K] [Fintype P]

/-! ## C51 -/

/-- C51, parameters and norm penalty do not depend on the order of the particles. -/
theorem C51_parameters {f : Class K P} (hf : Rowwise f) (ha : AffineInParams (f ι)) (w : P → Option ℝ) (σ : Equiv.Perm ι)
    (θ0 θ1 : P → ℝ) (q p : ι × K → ℝ) :
    directParameters (f ι) w θ1 (rows σ q) (rows σ p) = directParameters (f ι) w θ0 q p ∧
      kineticEnergy w (directParameters (f ι) w θ1 (rows σ q) (rows σ p)) = kineticEnergy w (directParameters (f ι) w θ0 q p) := by
  have h : directParameters (f ι) w θ1 (rows σ q) (rows σ p) = directParameters (f ι) w θ0 q p := by
    rw [direct_rows hf, C32_independent_of_initialisation ha w θ1 θ0]
  exact ⟨h, by rw [h]⟩

/-- C51, one evaluation: permuting the particles permutes the derivatives of state and costate and leaves the derivative of the data
unchanged, whatever the random initial parameters. -/
theorem C51_field {f : Class K P} (hf : Rowwise f) (ha : AffineInParams (f ι)) (w : P → Option ℝ) (ρ ρ' : ℝ → (P → ℝ) × (P → ℝ))
    (σ : Equiv.Perm ι) (t : ℝ) (s : Sys ι β K) :
    field f (autodiff f w ρ') t (permute σ s) = permute σ (field f (autodiff f w ρ) t s) := by
  have h := (C51_parameters hf ha w σ (ρ t).1 (ρ' t).1 s.1 s.2.1).1
  have hc : costateRhs (f ι) w (ρ' t).2 (rows σ s.1) (rows σ s.2.1) = rows σ (costateRhs (f ι) w (ρ t).2 s.1 s.2.1) := by
    rw [costate_rows hf, costate_independent ha w (ρ' t).2 (ρ t).2]
  simp only [field, autodiff, permute, h, hc, hf ι ι σ]

/-- C51, one evaluation with the hand-written formulas. -/
theorem C51_field_analytic {f : Class K P} (hf : Rowwise f) {par : (ι × K → ℝ) → (ι × K → ℝ) → P → ℝ}
    {cost : (P → ℝ) → (ι × K → ℝ) → (ι × K → ℝ) → (ι × K → ℝ)} (w : P → Option ℝ) (σ : Equiv.Perm ι)
    (hp : ∀ q p, par (rows σ q) (rows σ p) = par q p) (hc : ∀ θ q p, cost θ (rows σ q) (rows σ p) = rows σ (cost θ q p))
    (t : ℝ) (s : Sys ι β K) :
    field f (analytic par cost w) t (permute σ s) = permute σ (field f (analytic par cost w) t s) := by
  simp only [field, analytic, permute, hp, hc, hf ι ι σ]

/-- C51, one evaluation with given parameters (RNN mode, external parameters). -/
theorem C51_field_given {f : Class K P} (hf : Rowwise f) (w : P → Option ℝ) (θ : ℝ → P → ℝ)
    (σ : Equiv.Perm ι) (t : ℝ) (s : Sys ι β K) :
    field f (given f w θ) t (permute σ s) = permute σ (field f (given f w θ) t s) := by
  have hc := costateFixed_rows hf w σ (θ t) s.1 s.2.1
  simp only [field, given, permute, hc, hf ι ι σ]

/-- What C51 says of two runs of the same method: all vectors of the second are the permuted vectors of the first; in particular
the data are the same. -/
def SameUpToOrder (F F' : ℝ → Sys ι β K → Sys ι β K) (σ : Equiv.Perm ι) : Prop :=
  (∀ prog s, run F' prog [permute σ s] = (run F prog [s]).map (permute σ)) ∧
    (∀ prog s, (run F' prog [permute σ s]).map (fun v => v.2.2) = (run F prog [s]).map fun v => v.2.2) ∧
    (∀ h t n s, euler F' h t n (permute σ s) = permute σ (euler F h t n s)) ∧
    (∀ h t n s, (euler F' h t n (permute σ s)).2.2 = (euler F h t n s).2.2) ∧
    (∀ h t n s, rk4 F' h t n (permute σ s) = permute σ (rk4 F h t n s)) ∧
    (∀ h t n s, (rk4 F' h t n (permute σ s)).2.2 = (rk4 F h t n s).2.2)

omit [Fintype ι] [Fintype K] in
theorem sameUpToOrder_of_field {F F' : ℝ → Sys ι β K → Sys ι β K} {σ : Equiv.Perm ι}
    (h : ∀ t s, F' t (permute σ s) = permute σ (F t s)) : SameUpToOrder F F' σ := by
  have hr : ∀ prog s, run F' prog [permute σ s] = (run F prog [s]).map (permute σ) := fun prog s =>
    run_map (permuteL σ) h prog [s]
  have he : ∀ a t n s, euler F' a t n (permute σ s) = permute σ (euler F a t n s) := euler_map (permuteL σ) h
  have hk : ∀ a t n s, rk4 F' a t n (permute σ s) = permute σ (rk4 F a t n s) := rk4_map (permuteL σ) h
  refine ⟨hr, fun prog s => ?_, he, fun a t n s => ?_, hk, fun a t n s => ?_⟩
  · rw [hr, List.map_map]
    rfl
  · rw [he]
    rfl
  · rw [hk]
    rfl

/-- C51 for automatic differentiation. -/
theorem C51_evolution {f : Class K P} (hf : Rowwise f) (ha : AffineInParams (f ι)) (w : P → Option ℝ)
    (ρ ρ' : ℝ → (P → ℝ) × (P → ℝ)) (σ : Equiv.Perm ι) :
    SameUpToOrder (β := β) (field f (autodiff f w ρ)) (field f (autodiff f w ρ')) σ :=
  sameUpToOrder_of_field fun t s => C51_field hf ha w ρ ρ' σ t s

/-- C51 for given parameters.  In RNN mode these are the parameters at the initial time, which by `C51_parameters` do not
depend on the order either. -/
theorem C51_evolution_given {f : Class K P} (hf : Rowwise f) (w : P → Option ℝ) (θ : ℝ → P → ℝ) (σ : Equiv.Perm ι) :
    SameUpToOrder (β := β) (field f (given f w θ)) (field f (given f w θ)) σ :=
  sameUpToOrder_of_field fun t s => C51_field_given hf w θ σ t s

section Classes
variable {C D E : Type} [Fintype C] [Fintype D] [Fintype E]

/-- C51 for every vector class, automatic differentiation. -/
theorem C51_classes (nl : ℝ → ℝ) (damp : ℝ) (σ : Equiv.Perm ι) :
    (∀ w ρ ρ', SameUpToOrder (β := β) (K := C × D) (field (fun _ => simple nl) (autodiff (fun _ => simple nl) w ρ))
      (field (fun _ => simple nl) (autodiff (fun _ => simple nl) w ρ')) σ) ∧
    (∀ w ρ ρ', SameUpToOrder (β := β) (K := Two C D E) (field (fun _ => upDown nl) (autodiff (fun _ => upDown nl) w ρ))
      (field (fun _ => upDown nl) (autodiff (fun _ => upDown nl) w ρ')) σ) ∧
    (∀ w ρ ρ', SameUpToOrder (β := β) (K := Two C D E) (field (fun _ => universal nl) (autodiff (fun _ => universal nl) w ρ))
      (field (fun _ => universal nl) (autodiff (fun _ => universal nl) w ρ')) σ) ∧
    (∀ w ρ ρ', SameUpToOrder (β := β) (K := Two C D E) (field (fun _ => general nl damp) (autodiff (fun _ => general nl damp) w ρ))
      (field (fun _ => general nl damp) (autodiff (fun _ => general nl damp) w ρ')) σ) ∧
    (∀ w ρ ρ', SameUpToOrder (β := β) (K := Two C D E) (field (fun _ => periodic nl) (autodiff (fun _ => periodic nl) w ρ))
      (field (fun _ => periodic nl) (autodiff (fun _ => periodic nl) w ρ')) σ) ∧
    (∀ w ρ ρ', SameUpToOrder (β := β) (K := Two C D E) (field (fun _ => dampenedQ2 nl damp) (autodiff (fun _ => dampenedQ2 nl damp) w ρ))
      (field (fun _ => dampenedQ2 nl damp) (autodiff (fun _ => dampenedQ2 nl damp) w ρ')) σ) ∧
    (∀ w ρ ρ', SameUpToOrder (β := β) (K := Two C D D) (field (fun _ => debugSimple nl) (autodiff (fun _ => debugSimple nl) w ρ))
      (field (fun _ => debugSimple nl) (autodiff (fun _ => debugSimple nl) w ρ')) σ) ∧
    (∀ w ρ ρ', SameUpToOrder (β := β) (K := Three C D E) (field (fun _ => symmetrized nl) (autodiff (fun _ => symmetrized nl) w ρ))
      (field (fun _ => symmetrized nl) (autodiff (fun _ => symmetrized nl) w ρ')) σ) ∧
    (∀ w ρ ρ', SameUpToOrder (β := β) (K := Four C D E) (field (fun _ => dampenedUpDown nl) (autodiff (fun _ => dampenedUpDown nl) w ρ))
      (field (fun _ => dampenedUpDown nl) (autodiff (fun _ => dampenedUpDown nl) w ρ')) σ) :=
  ⟨fun w ρ ρ' => C51_evolution (rowwise_simple nl) (linear_simple nl).affine w ρ ρ' σ,
    fun w ρ ρ' => C51_evolution (rowwise_upDown nl) (linear_upDown nl).affine w ρ ρ' σ,
    fun w ρ ρ' => C51_evolution (rowwise_universal nl) (linear_universal nl).affine w ρ ρ' σ,
    fun w ρ ρ' => C51_evolution (rowwise_general nl damp) (affine_general nl damp) w ρ ρ' σ,
    fun w ρ ρ' => C51_evolution (rowwise_periodic nl) (linear_periodic nl).affine w ρ ρ' σ,
    fun w ρ ρ' => C51_evolution (rowwise_dampenedQ2 nl damp) (affine_dampenedQ2 nl damp) w ρ ρ' σ,
    fun w ρ ρ' => C51_evolution (rowwise_debugSimple nl) (linear_debugSimple nl).affine w ρ ρ' σ,
    fun w ρ ρ' => C51_evolution (rowwise_symmetrized nl) (linear_symmetrized nl).affine w ρ ρ' σ,
    fun w ρ ρ' => C51_evolution (rowwise_dampenedUpDown nl) (affine_dampenedUpDown nl) w ρ ρ' σ⟩

/-- Hand-written parameters that agree with automatic differentiation (C34) do not depend on the order of the particles. -/
theorem par_rows {f : Class K P} (hf : Rowwise f) {par : (ι × K → ℝ) → (ι × K → ℝ) → P → ℝ}
    (h : ∀ q p, directParameters (f ι) (fun _ => none) 0 q p = divideByWeight (fun _ => none) (par q p)) (σ : Equiv.Perm ι)
    (q p : ι × K → ℝ) : par (rows σ q) (rows σ p) = par q p := by
  have e : ∀ g : P → ℝ, divideByWeight (fun _ => none) g = g := fun g => rfl
  rw [← e (par _ _), ← h, direct_rows hf, h, e]

/-- C51 for the hand-written formulas, particle dimension 1. -/
theorem C51_analytic [Unique C] (nl dnl : ℝ → ℝ) (σ : Equiv.Perm ι) :
    (∀ w, SameUpToOrder (β := β) (K := C × D) (field (fun _ => simple nl) (analytic (simpleParams nl) (simpleCostate dnl) w))
      (field (fun _ => simple nl) (analytic (simpleParams nl) (simpleCostate dnl) w)) σ) ∧
    (∀ w, SameUpToOrder (β := β) (K := Two C D E) (field (fun _ => upDown nl) (analytic (upDownParams nl) (upDownCostate dnl) w))
      (field (fun _ => upDown nl) (analytic (upDownParams nl) (upDownCostate dnl) w)) σ) ∧
    (∀ w, SameUpToOrder (β := β) (K := Two C D E) (field (fun _ => universal nl) (analytic (universalParams nl) (universalCostate dnl) w))
      (field (fun _ => universal nl) (analytic (universalParams nl) (universalCostate dnl) w)) σ) ∧
    (∀ w, SameUpToOrder (β := β) (K := Two C D E) (field (fun _ => periodic nl) (analytic (periodicParams nl) (periodicCostate dnl) w))
      (field (fun _ => periodic nl) (analytic (periodicParams nl) (periodicCostate dnl) w)) σ) ∧
    (∀ w, SameUpToOrder (β := β) (K := Two C D E) (field (fun _ => general nl 0) (analytic (generalParams nl) (generalCostate dnl) w))
      (field (fun _ => general nl 0) (analytic (generalParams nl) (generalCostate dnl) w)) σ) := by
  refine ⟨fun w => sameUpToOrder_of_field fun t s => ?_, fun w => sameUpToOrder_of_field fun t s => ?_,
    fun w => sameUpToOrder_of_field fun t s => ?_, fun w => sameUpToOrder_of_field fun t s => ?_,
    fun w => sameUpToOrder_of_field fun t s => ?_⟩
  · refine C51_field_analytic (rowwise_simple nl) w σ (fun q p => ?_) (fun θ q p => ?_) t s
    on_goal 2 => rfl
    refine par_rows (rowwise_simple nl) (fun q p => ?_) σ q p
    rw [params_simple]
    exact direct_of_pairing_linear (pairing_simple nl q p) _ 0
  · refine C51_field_analytic (rowwise_upDown nl) w σ (fun q p => ?_) (fun θ q p => ?_) t s
    · refine par_rows (rowwise_upDown nl) (fun q p => ?_) σ q p
      rw [params_upDown]
      exact direct_of_pairing_linear (pairing_upDown nl q p) _ 0
    · funext k
      rcases k with ⟨i, c | c⟩ <;> rfl
  · refine C51_field_analytic (rowwise_universal nl) w σ (fun q p => ?_) (fun θ q p => ?_) t s
    · refine par_rows (rowwise_universal nl) (fun q p => ?_) σ q p
      rw [params_universal]
      exact direct_of_pairing_linear (pairing_universal nl q p) _ 0
    · funext k
      rcases k with ⟨i, c | c⟩ <;> rfl
  · refine C51_field_analytic (rowwise_periodic nl) w σ (fun q p => ?_) (fun θ q p => ?_) t s
    · refine par_rows (rowwise_periodic nl) (fun q p => ?_) σ q p
      rw [params_periodic]
      exact direct_of_pairing_linear (pairing_periodic nl q p) _ 0
    · funext k
      rcases k with ⟨i, c | c⟩ <;> rfl
  · refine C51_field_analytic (rowwise_general nl 0) w σ (fun q p => ?_) (fun θ q p => ?_) t s
    · refine par_rows (rowwise_general nl 0) (fun q p => ?_) σ q p
      rw [params_general]
      exact direct_of_pairing (pairing_general nl 0 q p) _ 0
    · funext k
      rcases k with ⟨i, c | c⟩ <;> rfl

end Classes

/-- Three particles, two samples, Runge-Kutta, swapping two particles: same predictions. -/
example (h t : ℝ) (n : ℕ) (s : Sys (Fin 3) Bool (Two Unit (Fin 2) (Fin 6))) :
    (rk4 (field (fun _ => upDown Real.tanh) (autodiff (fun _ => upDown Real.tanh) (fun _ => none) fun _ => (0, 0))) h t n
        (permute (Equiv.swap 0 1) s)).2.2 =
      (rk4 (field (fun _ => upDown Real.tanh) (autodiff (fun _ => upDown Real.tanh) (fun _ => none) fun _ => (1, 2))) h t n s).2.2 :=
  (C51_evolution (rowwise_upDown Real.tanh) (linear_upDown Real.tanh).affine (fun _ => none) (fun _ => (1, 2)) (fun _ => (0, 0))
    (Equiv.swap 0 1)).2.2.2.2.2 h t n s

/-! ## C52 -/

/-- C52, one evaluation in any mode: selecting rows of the batch before or after makes no difference. -/
theorem C52_field {f : Class K P} (hf : Rowwise f) (m : Mode ι K P) (g : β' → β) (t : ℝ) (s : Sys ι β K) :
    field f m t (select g s) = select g (field f m t s) := by
  simp only [field, select, hf β' β g]

/-- C52: evolving rows of a batch gives the rows of the evolved batch, for every fixed-step method and every mode of computing parameters. -/
theorem C52_evolution {f : Class K P} (hf : Rowwise f) (m : Mode ι K P) (g : β' → β) :
    (∀ prog s, run (field f m) prog [select g s] = (run (field f m) prog [s]).map (select g)) ∧
    (∀ h t n s, euler (field f m) h t n (select g s) = select g (euler (field f m) h t n s)) ∧
    (∀ h t n s, rk4 (field f m) h t n (select g s) = select g (rk4 (field f m) h t n s)) :=
  ⟨fun prog s => run_map (selectL g) (C52_field hf m g) prog [s], euler_map (selectL g) (C52_field hf m g),
    rk4_map (selectL g) (C52_field hf m g)⟩

/-- C52: evolving sample `b` alone gives sample `b` of the evolved batch. -/
theorem C52_single_sample {f : Class K P} (hf : Rowwise f) (m : Mode ι K P) (b : β) (prog : List Instr)
    (q p : ι × K → ℝ) (x : β × K → ℝ) :
    (run (field f m) prog [(q, p, fun k : Unit × K => x (b, k.2))]).map (fun v => fun k => v.2.2 ((), k)) =
      (run (field f m) prog [(q, p, x)]).map fun v => fun k => v.2.2 (b, k) := by
  have h := (C52_evolution hf m (fun _ : Unit => b)).1 prog (q, p, x)
  have e : (select (fun _ : Unit => b) (q, p, x) : Sys ι Unit K) = (q, p, fun k : Unit × K => x (b, k.2)) := rfl
  rw [e] at h
  rw [h, List.map_map]
  rfl

/-- C52: samples with the same data have the same prediction, in whatever batches. -/
theorem C52_same_sample {f : Class K P} (hf : Rowwise f) (m : Mode ι K P) (b : β) (b' : β') (prog : List Instr)
    (q p : ι × K → ℝ) (x : β × K → ℝ) (x' : β' × K → ℝ) (hx : ∀ k, x (b, k) = x' (b', k)) :
    ((run (field f m) prog [(q, p, x)]).map fun v => fun k => v.2.2 (b, k)) =
      (run (field f m) prog [(q, p, x')]).map fun v => fun k => v.2.2 (b', k) := by
  rw [← C52_single_sample hf m b, ← C52_single_sample hf m b']
  simp only [hx]

/-- C52: data never influence state and costate. -/
theorem C52_data_never_influence {f : Class K P} (hf : Rowwise f) (m : Mode ι K P) (prog : List Instr)
    (q p : ι × K → ℝ) (x : β × K → ℝ) (x' : β' × K → ℝ) :
    (run (field f m) prog [(q, p, x)]).map (fun v => (v.1, v.2.1)) =
      (run (field f m) prog [(q, p, x')]).map fun v => (v.1, v.2.1) := by
  have h1 := (C52_evolution hf m (Empty.elim : Empty → β)).1 prog (q, p, x)
  have h2 := (C52_evolution hf m (Empty.elim : Empty → β')).1 prog (q, p, x')
  have e : (select (Empty.elim : Empty → β) (q, p, x) : Sys ι Empty K) = select (Empty.elim : Empty → β') (q, p, x') := by
    simp only [select, Prod.mk.injEq, true_and]
    funext k
    exact k.1.elim
  rw [e, h2] at h1
  have := congrArg (List.map fun v : Sys ι Empty K => (v.1, v.2.1)) h1
  rw [List.map_map, List.map_map] at this
  exact this.symm

/-- C52 with automatic differentiation does not depend on the random initial parameters either. -/
theorem C52_randomness {f : Class K P} (ha : AffineInParams (f ι)) (w : P → Option ℝ) (ρ ρ' : ℝ → (P → ℝ) × (P → ℝ)) :
    (field f (autodiff f w ρ) : ℝ → Sys ι β K → Sys ι β K) = field f (autodiff f w ρ') := by
  funext t s
  simp only [field, autodiff, C32_independent_of_initialisation ha w (ρ t).1 (ρ' t).1, costate_independent ha w (ρ t).2 (ρ' t).2]

/-- All vector classes meet the hypothesis of the C52 theorems. -/
theorem C52_classes {C D E : Type} [Fintype C] [Fintype D] [Fintype E] (nl : ℝ → ℝ) (damp : ℝ) :
    Rowwise (K := C × D) (fun _ => simple nl) ∧ Rowwise (K := Two C D E) (fun _ => upDown nl) ∧
    Rowwise (K := Two C D E) (fun _ => universal nl) ∧ Rowwise (K := Two C D E) (fun _ => general nl damp) ∧
    Rowwise (K := Two C D E) (fun _ => periodic nl) ∧ Rowwise (K := Two C D E) (fun _ => dampenedQ2 nl damp) ∧
    Rowwise (K := Two C D D) (fun _ => debugSimple nl) ∧ Rowwise (K := Three C D E) (fun _ => symmetrized nl) ∧
    Rowwise (K := Four C D E) (fun _ => dampenedUpDown nl) :=
  ⟨rowwise_simple nl, rowwise_upDown nl, rowwise_universal nl, rowwise_general nl damp, rowwise_periodic nl,
    rowwise_dampenedQ2 nl damp, rowwise_debugSimple nl, rowwise_symmetrized nl, rowwise_dampenedUpDown nl⟩

example (q p : Fin 3 × Two Unit (Fin 2) (Fin 6) → ℝ) (x : Fin 100 × Two Unit (Fin 2) (Fin 6) → ℝ) (b : Fin 100) (prog : List Instr) :
    let m : Mode (Fin 3) (Two Unit (Fin 2) (Fin 6)) _ := autodiff (fun _ => upDown Real.tanh) (fun _ => none) 0
    (run (field (fun _ => upDown Real.tanh) m) prog [(q, p, fun k : Unit × _ => x (b, k.2))]).map (fun v => fun k => v.2.2 ((), k)) =
      (run (field (fun _ => upDown Real.tanh) m) prog [(q, p, x)]).map fun v => fun k => v.2.2 (b, k) :=
  C52_single_sample (rowwise_upDown _) _ b prog q p x

end Verif.Evolution
