import Verif.Standalone.Model
import Verif.Models.Props
import Verif.Converge.Lemmas
import Verif.Converge.Props
import Verif.Activation.Props
import Verif.Converge.Classes

/-!
# C74: the stand-alone UpDown program
-/

namespace Verif.Standalone
open Verif Verif.Models Verif.Shooting Verif.Activation Filter Topology Set

variable {ι C D E : Type} [Fintype ι] [Fintype C] [Fintype D] [Fintype E]

/-- The parameters of the script as parameters of the two layers of the library. -/
def Params.layers [Unique C] (m : Params C D E) : UpDownPar D E → ℝ
  | .inl (d, some e) => m.l1 d e
  | .inl (d, none) => m.bias1 default d
  | .inr (e, some d) => m.l2 e d
  | .inr (e, none) => m.bias2 default e

omit [Fintype C] [Fintype D] [Fintype E] in
theorem layers_eq [Unique C] (m : Params C D E) : m.layers = Sum.elim (layer m.l1 m.bias1) (layer m.l2 m.bias2) := by
  funext r
  rcases r with ⟨d, _ | e⟩ | ⟨e, _ | d⟩ <;> rfl

/-- **C74.** The parameters of the script are those the library computes from the state and the costate, whatever the parameters of the library were before. -/
theorem C74_parameters [Unique C] (nl : ℝ → ℝ) (s : States ι C D E) (θ0 : UpDownPar D E → ℝ) :
    (computeParameters nl s).layers = directParameters (upDown nl) (fun _ => none) θ0 s.1 s.2 := by
  have e : directParameters (upDown nl) (fun _ => none) θ0 s.1 s.2 = divideByWeight (fun _ => none) (upDownParams nl s.1 s.2) := by
    rw [params_upDown]
    exact direct_of_pairing_linear (pairing_upDown nl s.1 s.2) _ θ0
  rw [e, layers_eq]
  rfl

theorem rhs_eq [Unique C] (nl dnl : ℝ → ℝ) (s : States ι C D E) :
    computeRhs nl dnl s = (upDown nl (computeParameters nl s).layers s.1, upDownCostate dnl (computeParameters nl s).layers s.1 s.2) := by
  refine Prod.ext (funext fun k => ?_) (funext fun k => ?_)
  · rcases k with ⟨i, ⟨c, d⟩ | ⟨c, e⟩⟩
    · rw [Subsingleton.elim c default]
      rfl
    · rw [Subsingleton.elim c default]
      rfl
  · rcases k with ⟨i, ⟨c, d⟩ | ⟨c, e⟩⟩ <;> rfl

/-- **C74.** The right-hand side of the script is the one of the library: for the states with the computed parameters, for the costates the differentiated Lagrangian.
(With relu no entry of `q2` may be exactly zero.) -/
theorem C74_rhs [Nonempty ι] [Unique C] {nl dnl : ℝ → ℝ} (s : States ι C D E) (h : ∀ i c e, HasDerivAt nl (dnl (Models.q2 s.1 i c e)) (Models.q2 s.1 i c e))
    (θ0 : UpDownPar D E → ℝ) :
    computeRhs nl dnl s = (upDown nl (directParameters (upDown nl) (fun _ => none) θ0 s.1 s.2) s.1, costateRhs (upDown nl) (fun _ => none) θ0 s.1 s.2) := by
  rw [rhs_eq, C74_parameters nl s θ0, ((C34_upDown_costate h (fun _ => by norm_num [weight]) θ0 s.2).1)]

/-- Not zero: the right-hand side at the initial states of the script (all states 1) with relu. -/
example (p : Fin 7 × Two Unit (Fin 1) (Fin 5) → ℝ) (θ0 : UpDownPar (Fin 1) (Fin 5) → ℝ) :
    computeRhs relu drelu (fun _ => 1, p) = (upDown relu (directParameters (upDown relu) (fun _ => none) θ0 (fun _ => 1) p) (fun _ => 1),
      costateRhs (upDown relu) (fun _ => none) θ0 (fun _ => 1) p) :=
  C74_rhs (fun _ => 1, p) (fun _ _ _ => hasDerivAt_relu (by norm_num [Models.q2])) θ0

/-! ## Energies -/

theorem energy_eq [Unique C] (nl : ℝ → ℝ) (s : States ι C D E) : computeEnergy nl s = kineticEnergy (fun _ => none) (computeParameters nl s).layers := by
  unfold computeEnergy kineticEnergy sumSq
  simp only [weight, Option.getD_none, one_mul, Fintype.sum_sum_type, Fintype.sum_prod_type, Fintype.sum_option, Params.layers, Finset.sum_add_distrib]
  have e1 : ∀ {A : Type} [Fintype A] (m : C → A → ℝ), ∑ c, ∑ a, m c a ^ 2 = ∑ a, m default a ^ 2 := fun m => Fintype.sum_unique _
  rw [e1, e1]
  ring

theorem lagrangian_eq_potential [Unique C] (nl dnl : ℝ → ℝ) (s : States ι C D E) :
    computeLagrangian nl dnl s = potentialEnergy (upDown nl) s.1 s.2 (computeParameters nl s).layers := by
  rw [potentialEnergy_eq]
  unfold computeLagrangian
  dsimp only
  congr 1
  rw [rhs_eq]
  dsimp only
  unfold upDown
  rw [sum_join]
  rfl

/-- **C74.** What the script calls Lagrangian is twice what it calls energy (so its two plots differ by this factor), and its Hamiltonian is the number of particles times the energy.
The energy is the kinetic energy of the library, the Hamiltonian is minus the reduced Lagrangian of the library. -/
theorem C74_energies [Unique C] (nl dnl : ℝ → ℝ) (s : States ι C D E) (θ0 : UpDownPar D E → ℝ) :
    computeLagrangian nl dnl s = 2 * computeEnergy nl s ∧
      computeHamiltonian nl dnl s = Fintype.card ι * computeEnergy nl s ∧
      computeEnergy nl s = kineticEnergy (fun _ => none) (directParameters (upDown nl) (fun _ => none) θ0 s.1 s.2) ∧
      computeHamiltonian nl dnl s = - reducedLagrangian (upDown nl) (fun _ => none) θ0 s.1 s.2 := by
  have h1 := lagrangian_direct_linear (linear_upDown (ι := ι) (C := C) nl) (fun _ => none) (fun _ : UpDownPar D E => by norm_num [weight]) θ0 s.1 s.2
  have h2 : computeLagrangian nl dnl s = 2 * computeEnergy nl s := by
    rw [lagrangian_eq_potential, energy_eq, C74_parameters nl s θ0]
    unfold lagrangian at h1
    linarith
  have h3 : computeEnergy nl s = kineticEnergy (fun _ => none) (directParameters (upDown nl) (fun _ => none) θ0 s.1 s.2) := by
    rw [energy_eq, C74_parameters nl s θ0]
  have h4 : computeHamiltonian nl dnl s = Fintype.card ι * computeEnergy nl s := by
    unfold computeHamiltonian
    rw [h2]
    ring
  refine ⟨h2, h4, h3, ?_⟩
  unfold reducedLagrangian
  rw [h1, ← h3, h4]
  ring

/-- The energy is not always zero. -/
example : computeEnergy relu ((fun _ => 1, fun _ => 1) : States (Fin 1) (Fin 1) (Fin 1) (Fin 1)) = 2 := by
  norm_num [computeEnergy, computeParameters, sumSq, mean0, Models.t, bmm, Models.map, transpose12, q1, Models.q2, relu]

/-! ## Hamilton's equations -/

/-- **C74.** For every class affine in its parameters: the derivative of the state is minus the gradient of the reduced Lagrangian with respect to the costate (with the derivative of the costate, `C34_costate_gradient`,
these are Hamilton's equations). -/
theorem C74_state_gradient [Nonempty ι] {K P : Type} [Fintype K] [Fintype P] {rhs : Rhs (ι × K) P} (h : AffineInParams rhs) (w : P → Option ℝ) (hw : ∀ r, weight w r ≠ 0)
    (θ0 : P → ℝ) {q : ι × K → ℝ} (p : ι × K → ℝ) (hd : ∀ θ j, DifferentiableAt ℝ (fun q' => rhs θ q' j) q) :
    HasGrad (fun p' => reducedLagrangian rhs w θ0 q p') (fun k => - rhs (directParameters rhs w θ0 q p) q k) p := by
  obtain ⟨D, hD, hv⟩ := hasFDerivAt_pairing p (hd (directParameters rhs w θ0 q p))
  have h1 := hasFDerivAt_reduced h w hw θ0 p hd
  rw [hD.fderiv] at h1
  have h2 : HasFDerivAt (fun p' : ι × K → ℝ => (q, p'))
      ((0 : (ι × K → ℝ) →L[ℝ] (ι × K → ℝ)).prod (ContinuousLinearMap.id ℝ (ι × K → ℝ))) p :=
    (hasFDerivAt_const q p).prodMk (hasFDerivAt_id p)
  have h3 := HasFDerivAt.comp p (f := fun p' : ι × K → ℝ => (q, p'))
    (g := fun y : (ι × K → ℝ) × (ι × K → ℝ) => reducedLagrangian rhs w θ0 y.1 y.2) h1 h2
  refine h3.congr_fderiv ?_
  ext u
  rw [grad_apply]
  have : (0 : (ι × K → ℝ) →L[ℝ] (ι × K → ℝ)).prod (ContinuousLinearMap.id ℝ (ι × K → ℝ)) u = (0, u) := rfl
  simp only [ContinuousLinearMap.comp_apply, neg_apply, this, hv]
  simp [mul_comm]

/-- **C74.** Hamilton's equations for the script: the derivative of the states is the gradient of the Hamiltonian with respect to the costates, the derivative of the costates is minus the
gradient with respect to the states. -/
theorem C74_hamilton [Nonempty ι] [Unique C] {nl dnl : ℝ → ℝ} (s : States ι C D E) (h : ∀ i c e, HasDerivAt nl (dnl (Models.q2 s.1 i c e)) (Models.q2 s.1 i c e)) :
    HasGrad (fun p => computeHamiltonian nl dnl (s.1, p)) (computeRhs nl dnl s).1 s.2 ∧
      HasGrad (fun q => computeHamiltonian nl dnl (q, s.2)) (fun k => - (computeRhs nl dnl s).2 k) s.1 := by
  have hd := fun θ => diff_upDown (fun i c e => (h i c e).differentiableAt) θ
  rw [C74_rhs s h 0]
  have hw : ∀ r : UpDownPar D E, weight (fun _ => none) r ≠ 0 := fun _ => by norm_num [weight]
  constructor
  · refine (C74_state_gradient (linear_upDown nl).affine _ hw 0 s.2 hd).neg.congr (fun p => ?_) fun k => by simp
    exact (C74_energies nl dnl (s.1, p) 0).2.2.2
  · have h1 := hasGrad_reduced (linear_upDown nl).affine _ hw 0 s.2 hd
    have h2 : costateRhs (upDown nl) (fun _ => none) 0 s.1 s.2 = _ := h1.autograd_eq
    rw [← h2] at h1
    refine h1.neg.congr (fun q => ?_) fun k => rfl
    exact (C74_energies nl dnl (q, s.2) 0).2.2.2

theorem tendsto_differences {J : Type} [Fintype J] {F : (J → ℝ) → ℝ} {g x : J → ℝ} (h : HasGrad F g x) (j : J) :
    Tendsto (fun ε => open Classical in (F (Function.update x j (x j + ε)) - F x) / ε) (𝓝[≠] 0) (𝓝 (g j)) := by
  classical
  have hc : ∀ k, HasDerivAt (fun s => Function.update x j s k) (if k = j then 1 else 0 : ℝ) (x j) := by
    intro k
    by_cases hk : k = j
    · subst hk
      simpa using hasDerivAt_id' (x k)
    · simpa [Function.update_of_ne hk, hk] using hasDerivAt_const (x j) (x k)
  have h1 := h.comp_curve (c := fun s => Function.update x j s) (s := x j) (by simp) hc
  simp only [mul_ite, mul_one, mul_zero, Finset.sum_ite_eq', Finset.mem_univ, if_true] at h1
  rw [hasDerivAt_iff_tendsto_slope_zero] at h1
  refine h1.congr fun ε => ?_
  rw [Function.update_eq_self, smul_eq_mul, div_eq_inv_mul]

/-- **C74.** The finite differences that the script prints tend to the derivatives it compares with: those with respect to a costate to the derivative of the state, and those with respect to
a state to minus the derivative of the costate (so the printed sum tends to zero). -/
theorem C74_finite_differences [Nonempty ι] [Unique C] {nl dnl : ℝ → ℝ} (s : States ι C D E)
    (h : ∀ i c e, HasDerivAt nl (dnl (Models.q2 s.1 i c e)) (Models.q2 s.1 i c e)) :
    Tendsto (fun ε => differencesCostate nl dnl ε s) (𝓝[≠] 0) (𝓝 (computeRhs nl dnl s).1) ∧
      Tendsto (fun ε => differencesState nl dnl ε s + (computeRhs nl dnl s).2) (𝓝[≠] 0) (𝓝 0) := by
  obtain ⟨h1, h2⟩ := C74_hamilton s h
  constructor
  · rw [tendsto_pi_nhds]
    intro j
    refine (tendsto_differences h1 j).congr fun ε => ?_
    unfold differencesCostate
    congr!
  · rw [tendsto_pi_nhds]
    intro j
    have := (tendsto_differences h2 j).add_const ((computeRhs nl dnl s).2 j)
    rw [neg_add_cancel] at this
    refine this.congr fun ε => ?_
    rw [Pi.add_apply]
    unfold differencesState
    congr!

/-- The check at the end of the script. -/
example (p : Fin 7 × Two Unit (Fin 1) (Fin 5) → ℝ) :
    Tendsto (fun ε => differencesState relu drelu ε (fun _ => 1, p) + (computeRhs relu drelu (fun _ => 1, p)).2) (𝓝[≠] 0) (𝓝 0) :=
  (C74_finite_differences (fun _ => 1, p) fun _ _ _ => hasDerivAt_relu (by norm_num [Models.q2])).2

/-! ## `advect` -/

theorem advectLoop_eq {V : Type} (f : V → V) (e l : V → ℝ) (n : ℕ) (s : V) (ss : List V) (es ls : List ℝ) :
    advectLoop f e l n s ss es ls = (f^[n] s, ss ++ (List.range n).map (fun i => f^[i + 1] s), es ++ (List.range n).map (fun i => e (f^[i + 1] s)),
      ls ++ (List.range n).map (fun i => l (f^[i + 1] s))) := by
  induction n generalizing s ss es ls with
  | zero => simp [advectLoop]
  | succ n ih =>
    rw [advectLoop, ih, List.range_succ_eq_map]
    simp [Function.comp_def, Function.iterate_succ_apply]

theorem truncate_toNat (x : ℝ) : (truncate x).toNat = ⌊x⌋₊ := by
  unfold truncate
  split
  · rfl
  · rename_i h
    rw [Int.toNat_of_nonpos (Int.ceil_le.2 (by simpa using (not_le.1 h).le)), Nat.floor_of_nonpos (not_le.1 h).le]

/-- **C74.** `advect`: a timestep of zero is an error; otherwise as many midpoint steps as fit into the interval of length one are made, and states, energy and Lagrangian are recorded after
every step (not at the beginning). -/
theorem C74_advect (nl dnl : ℝ → ℝ) (h : ℝ) (s : States ι C D E) :
    (h = 0 → advect nl dnl h s = .error .zeroDivision) ∧
      (h ≠ 0 → ∃ (n : ℕ) (y : ℕ → States ι C D E), y 0 = s ∧
        (∀ i, y (i + 1) = y i + h • computeRhs nl dnl (y i + (h / 2) • computeRhs nl dnl (y i))) ∧
        advect nl dnl h s = .ok (y n, (List.range n).map (fun i => y (i + 1)), (List.range n).map (fun i => computeEnergy nl (y (i + 1))),
          (List.range n).map (fun i => computeLagrangian nl dnl (y (i + 1)))) ∧
        (h < 0 → n = 0) ∧ (0 < h → n * h ≤ 1 ∧ 1 < (n + 1) * h)) := by
  constructor
  · intro h0
    exact if_pos h0
  · intro h0
    refine ⟨⌊1 / h⌋₊, fun i => (advectStep nl dnl h)^[i] s, rfl, fun i => ?_, ?_, fun hn => ?_, fun hp => ⟨?_, ?_⟩⟩
    · have e : (0.5 * h : ℝ) = h / 2 := by ring
      simp only [Function.iterate_succ_apply', advectStep, e]
    · unfold advect
      rw [if_neg h0, advectLoop_eq, truncate_toNat]
      simp
    · exact Nat.floor_of_nonpos (div_nonpos_of_nonneg_of_nonpos zero_le_one hn.le)
    · have := Nat.floor_le (div_nonneg zero_le_one hp.le : (0 : ℝ) ≤ 1 / h)
      rwa [le_div_iff₀ hp] at this
    · have := Nat.lt_floor_add_one (1 / h)
      rwa [div_lt_iff₀ hp] at this

/-- **C74.** The end of the interval is reached exactly when the timestep divides it; with a timestep above one nothing happens at all. -/
theorem C74_end_time {h : ℝ} (hp : 0 < h) {n : ℕ} (h1 : n * h ≤ 1) (h2 : 1 < (n + 1) * h) :
    (n * h = 1 ↔ ∃ k : ℕ, h = 1 / k) ∧ (1 < h → n = 0) := by
  refine ⟨⟨fun e => ⟨n, ?_⟩, ?_⟩, fun h3 => ?_⟩
  · have : (n : ℝ) ≠ 0 := by rintro h0; rw [h0] at e; simp at e
    field_simp
    linarith
  · rintro ⟨k, rfl⟩
    have hk : (0 : ℝ) < k := by simpa using hp
    rw [mul_one_div, div_le_one hk] at h1
    rw [mul_one_div, one_lt_div hk] at h2
    have a : n ≤ k := by exact_mod_cast h1
    have b : k < n + 1 := by exact_mod_cast h2
    rw [show n = k by omega]
    field_simp
  · by_contra hn
    have : (1 : ℝ) ≤ n := by exact_mod_cast Nat.one_le_iff_ne_zero.2 hn
    nlinarith

example : (50 : ℕ) * (0.02 : ℝ) = 1 := by norm_num
example : ¬ ∃ k : ℕ, (0.3 : ℝ) = 1 / k := by
  rw [← (C74_end_time (n := 3) (by norm_num) (by norm_num) (by norm_num)).1]
  norm_num

/-! ## Convergence -/

theorem contDiff_computeRhs {nl dnl : ℝ → ℝ} (h1 : ContDiff ℝ 1 nl) (h2 : ContDiff ℝ 1 dnl) : ContDiff ℝ 1 fun s : States ι C D E => computeRhs nl dnl s := by
  have a : ∀ k : ι × Two C D E, ContDiff ℝ 1 fun s : States ι C D E => s.1 k := fun k => (contDiff_apply ℝ ℝ k).comp contDiff_fst
  have b : ∀ k : ι × Two C D E, ContDiff ℝ 1 fun s : States ι C D E => s.2 k := fun k => (contDiff_apply ℝ ℝ k).comp contDiff_snd
  have l1 : ∀ d e, ContDiff ℝ 1 fun s : States ι C D E => (computeParameters nl s).l1 d e := fun d e =>
    (ContDiff.sum fun i _ => ContDiff.sum fun c _ => (h1.comp (a (i, .inr (c, e)))).mul (b (i, .inl (c, d)))).div_const _
  have l2 : ∀ e d, ContDiff ℝ 1 fun s : States ι C D E => (computeParameters nl s).l2 e d := fun e d =>
    (ContDiff.sum fun i _ => ContDiff.sum fun c _ => (b (i, .inr (c, e))).mul (a (i, .inl (c, d)))).div_const _
  have b1 : ∀ c d, ContDiff ℝ 1 fun s : States ι C D E => (computeParameters nl s).bias1 c d := fun c d =>
    (ContDiff.sum fun i _ => b (i, .inl (c, d))).div_const _
  have b2 : ∀ c e, ContDiff ℝ 1 fun s : States ι C D E => (computeParameters nl s).bias2 c e := fun c e =>
    (ContDiff.sum fun i _ => b (i, .inr (c, e))).div_const _
  refine ContDiff.prodMk (contDiff_pi.2 ?_) (contDiff_pi.2 ?_)
  · rintro ⟨i, ⟨c, d⟩ | ⟨c, e⟩⟩
    · exact (ContDiff.sum fun e _ => (h1.comp (a (i, .inr (c, e)))).mul (l1 d e)).add (b1 c d)
    · exact (ContDiff.sum fun d _ => (a (i, .inl (c, d))).mul (l2 e d)).add (b2 c e)
  · rintro ⟨i, ⟨c, d⟩ | ⟨c, e⟩⟩
    · exact (ContDiff.sum fun e _ => (b (i, .inr (c, e))).mul (l2 e d)).neg
    · exact (h2.comp (a (i, .inr (c, e)))).neg.mul (ContDiff.sum fun d _ => (b (i, .inl (c, d))).mul (l1 d e))

theorem gridValues_uniform {V : Type} [AddCommGroup V] [Module ℝ V] (Φ : ℝ → ℝ → V → V) (hΦ : ∀ h t t' x, Φ h t x = Φ h t' x) (h : ℝ) (n k : ℕ) (x : V) :
    Converge.gridValues Φ (k * h) x ((List.range' (k + 1) n).map fun i : ℕ => (i : ℝ) * h) = (List.range (n + 1)).map fun i => (fun y => y + h • Φ h 0 y)^[i] x := by
  induction n generalizing k x with
  | zero => simp [Converge.gridValues]
  | succ n ih =>
    rw [List.range'_succ, List.map_cons, Converge.gridValues, List.range_succ_eq_map]
    have e : ((k + 1 : ℕ) : ℝ) * h - k * h = h := by push_cast; ring
    rw [e, hΦ h _ 0, ih (k + 1)]
    simp [Function.comp_def, Function.iterate_succ_apply]

theorem mesh_uniform {h : ℝ} (hp : 0 < h) (n k : ℕ) : Converge.Mesh h (k * h) ((List.range' (k + 1) n).map fun i : ℕ => (i : ℝ) * h) := by
  induction n generalizing k with
  | zero => simp [Converge.Mesh]
  | succ n ih =>
    rw [List.range'_succ, List.map_cons]
    refine ⟨?_, ?_, ih (k + 1)⟩
    · push_cast; nlinarith
    · push_cast; nlinarith

/-- **C74.** With a smooth activation (not relu) the states of `advect` are as close to the exact solution as desired: the distance is at most a constant times the timestep, at the time
that was reached and at all the recorded times. -/
theorem C74_converges {nl dnl : ℝ → ℝ} (h1 : ContDiff ℝ 1 nl) (h2 : ContDiff ℝ 1 dnl) {y : ℝ → States ι C D E}
    (hy : Converge.Solves (fun _ => computeRhs nl dnl) 0 1 y) :
    ∃ A h₀ : ℝ, 0 ≤ A ∧ 0 < h₀ ∧ ∀ h, 0 < h → h ≤ h₀ → ∃ final states energies lagrangians, advect nl dnl h (y 0) = .ok (final, states, energies, lagrangians) ∧
      ‖final - y (states.length * h)‖ ≤ A * h ∧ ∀ (i : ℕ) (hi : i < states.length), ‖states[i] - y ((i + 1) * h)‖ ≤ A * h := by
  have hf : ContDiff ℝ 1 fun z : ℝ × States ι C D E => (fun _ : ℝ => computeRhs nl dnl) z.1 z.2 := (contDiff_computeRhs h1 h2).comp contDiff_snd
  obtain ⟨L, M, hb⟩ := Converge.exists_bounds (Converge.contDiff_increment Converge.midpoint hf)
    (fun t x => Converge.increment_zero Converge.C68_methods.2.1 _ t x) hy
  have hM := hb.M0
  have hpos : 0 < (1 + M) * Real.exp (L * (1 - 0)) := by positivity
  refine ⟨(1 + M) * Real.exp (L * (1 - 0)), min 1 (1 / ((1 + M) * Real.exp (L * (1 - 0)))), by positivity, by positivity, fun h h0 hle => ?_⟩
  have hC : (1 + M) * h * Real.exp (L * (1 - 0)) ≤ 1 := by
    have := hle.trans (min_le_right _ _)
    rw [le_div_iff₀ hpos] at this
    linarith
  obtain ⟨n, z, z0, zs, ha, _, hn⟩ := (C74_advect nl dnl h (y 0)).2 h0.ne'
  obtain ⟨hn1, _⟩ := hn h0
  refine ⟨_, _, _, _, ha, ?_⟩
  have hstep : ∀ x : States ι C D E, x + h • Converge.increment Converge.midpoint (fun _ => computeRhs nl dnl) h 0 x = x + h • computeRhs nl dnl (x + (h / 2) • computeRhs nl dnl x) :=
    fun x => (Converge.C68_steps (fun _ => computeRhs nl dnl) h 0 x).2.1
  have hz : ∀ i, z i = (fun x => x + h • Converge.increment Converge.midpoint (fun _ => computeRhs nl dnl) h 0 x)^[i] (y 0) := by
    intro i
    induction i with
    | zero => exact z0
    | succ i ih => rw [zs, Function.iterate_succ_apply', hstep, ← ih]
  have hg := Converge.grid_error (fun t x => Converge.increment_zero Converge.C68_methods.2.1 _ t x) hy hb h0.le (hle.trans (min_le_left _ _)) hC 0 le_rfl (y 0) (by simp)
    ((List.range' (0 + 1) n).map fun i : ℕ => (i : ℝ) * h) (by simpa using mesh_uniform h0 n 0) (by
      intro s hs
      rcases List.mem_cons.1 hs with rfl | hs
      · exact zero_le_one
      · obtain ⟨i, hi, rfl⟩ := List.mem_map.1 hs
        have : i ≤ n := by have := List.mem_range'_1.1 hi; omega
        have : (i : ℝ) ≤ n := by exact_mod_cast this
        nlinarith)
  have hinv : ∀ (h t t' : ℝ) (x : States ι C D E), Converge.increment Converge.midpoint (fun _ : ℝ => computeRhs nl dnl) h t x =
      Converge.increment Converge.midpoint (fun _ : ℝ => computeRhs nl dnl) h t' x := fun h t t' x => rfl
  have hu := gridValues_uniform (Converge.increment Converge.midpoint (fun _ : ℝ => computeRhs nl dnl)) hinv h n 0 (y 0)
  rw [Nat.cast_zero, zero_mul] at hu
  rw [hu] at hg
  have key : ∀ i ≤ n, ‖z i - y (i * h)‖ ≤ (1 + M) * Real.exp (L * (1 - 0)) * h := by
    intro i hi
    have hl : i < ((List.range (n + 1)).map fun i => (fun x => x + h • Converge.increment Converge.midpoint (fun _ => computeRhs nl dnl) h 0 x)^[i] (y 0)).length := by
      simpa using Nat.lt_succ_of_le hi
    have hr : i < (0 :: (List.range' (0 + 1) n).map fun i : ℕ => (i : ℝ) * h).length := by simpa using Nat.lt_succ_of_le hi
    have e := hg.get hl hr
    simp only [List.get_eq_getElem, List.getElem_map, List.getElem_range] at e
    have e2 : (0 :: (List.range' (0 + 1) n).map fun i : ℕ => (i : ℝ) * h)[i] = i * h := by
      cases i with
      | zero => simp
      | succ i => simp [List.getElem_range', add_comm]
    rw [e2, ← hz] at e
    refine e.trans ?_
    have hi1 : (i : ℝ) * h ≤ 1 := by
      have : (i : ℝ) ≤ n := by exact_mod_cast hi
      nlinarith
    have hx : Real.exp (L * (i * h - 0)) ≤ Real.exp (L * (1 - 0)) := Real.exp_le_exp.2 (mul_le_mul_of_nonneg_left (by linarith) hb.L0)
    have : 0 ≤ (1 + M) * h := by positivity
    nlinarith [mul_le_mul_of_nonneg_left hx this]
  constructor
  · simpa using key n le_rfl
  · intro i hi
    have := key (i + 1) (by simpa using hi)
    simpa using this

/-- A solution of the equations of the script: the first state grows at unit speed. -/
def moving : ℝ → States Unit Unit Unit Unit := fun t => (join (fun _ _ _ => t) 0, join (fun _ _ _ => 1) 0)

theorem moving_solves : Converge.Solves (fun _ => computeRhs Real.tanh dtanh) 0 1 moving := by
  intro t _
  have e : computeRhs Real.tanh dtanh (moving t) = (join (fun _ _ _ => 1) 0, 0) := by
    refine Prod.ext (funext ?_) (funext ?_)
    · rintro ⟨_, ⟨_, _⟩ | ⟨_, _⟩⟩ <;> simp [computeRhs, computeParameters, moving, Models.join, matmul, mean0, bmm, Models.t, Models.map, transpose12, q1, Models.q2]
    · rintro ⟨_, ⟨_, _⟩ | ⟨_, _⟩⟩ <;> simp [computeRhs, computeParameters, moving, Models.join, matmul, mean0, bmm, Models.t, Models.map, transpose12, q1, Models.q2]
  dsimp only
  rw [e]
  refine HasDerivAt.hasDerivWithinAt (HasDerivAt.prodMk (hasDerivAt_pi.2 ?_) (hasDerivAt_const _ _))
  rintro ⟨_, ⟨_, _⟩ | ⟨_, _⟩⟩
  · exact hasDerivAt_id' t
  · exact hasDerivAt_const t _

example : ∃ A h₀ : ℝ, 0 ≤ A ∧ 0 < h₀ ∧ ∀ h, 0 < h → h ≤ h₀ → ∃ final states energies lagrangians,
    advect Real.tanh dtanh h (moving 0) = .ok (final, states, energies, lagrangians) ∧ ‖final - moving (states.length * h)‖ ≤ A * h ∧
      ∀ (i : ℕ) (hi : i < states.length), ‖states[i] - moving ((i + 1) * h)‖ ≤ A * h :=
  C74_converges (by exact_mod_cast Converge.contDiff_tanh (n := 1)) (contDiff_const.sub ((by exact_mod_cast Converge.contDiff_tanh (n := 1) : ContDiff ℝ 1 Real.tanh).pow 2)) moving_solves

/-! ## The manual equations -/

/-- **C74.** The hand-written equations of `autograd_versus_manualgrad.py` divide by the number of features too, which the library does not do: matrix, bias and both derivatives are those of
the library divided by the number of features (so the printed ratios are 1/3 with the three features of the script). -/
theorem C74_manual [Nonempty ι] [Unique C] {nl dnl : ℝ → ℝ} (q p : ι × (C × D) → ℝ) (h : ∀ i c d, HasDerivAt nl (dnl (one q i c d)) (one q i c d))
    {w : Layer D D → Option ℝ} (hw : ∀ r, weight w r = 1) (θ0 : Layer D D → ℝ) :
    (∀ o j, t (manualAt nl q p) o j = directParameters (simple nl) w θ0 q p (o, some j) / Fintype.card D) ∧
      (∀ c o, manualBt p c o = directParameters (simple nl) w θ0 q p (o, none) / Fintype.card D) ∧
      (∀ k, manualState nl q p k = simple nl (directParameters (simple nl) w θ0 q p) q k / Fintype.card D) ∧
      ∀ k, manualCostate nl dnl q p k = costateRhs (simple nl) w θ0 q p k / Fintype.card D := by
  obtain ⟨e1, e2⟩ := C34_simple h (fun r => by rw [hw]; exact one_ne_zero) θ0 p
  have e3 : divideByWeight w (simpleParams nl q p) = simpleParams nl q p := by
    funext r
    rw [divideByWeight_eq, hw, div_one]
  rw [e3] at e1 e2
  have hA : ∀ o j, t (manualAt nl q p) o j = simpleParams nl q p (o, some j) / Fintype.card D := by
    intro o j
    simp only [t, manualAt, simpleParams, layer]
    rw [one_div_mul_eq_div, one_div_mul_eq_div, mul_comm, div_div]
  have hB : ∀ c o, manualBt p c o = simpleParams nl q p (o, none) / Fintype.card D := by
    intro c o
    rw [Subsingleton.elim c default]
    simp only [manualBt, simpleParams, layer]
    rw [one_div_mul_eq_div, one_div_mul_eq_div, mul_comm, div_div]
  refine ⟨fun o j => by rw [e1, hA], fun c o => by rw [e1, hB], ?_, ?_⟩
  · rintro ⟨i, c, d⟩
    rw [e1]
    have hA' : ∀ j, manualAt nl q p j d = simpleParams nl q p (d, some j) / Fintype.card D := hA d
    simp only [manualState, simple, single, linear, matmul, hA', hB, add_div, Finset.sum_div, mul_div_assoc]
  · rintro ⟨i, c, d⟩
    rw [e2]
    simp only [manualCostate, simpleCostate, single, matmul, hA, weightOf, mul_div_assoc, Finset.sum_div]

/-- **C74.** So the check of the script fails for more than one feature, unless the library's derivatives are zero. -/
theorem C74_manual_false [Nonempty ι] [Unique C] {nl dnl : ℝ → ℝ} (q p : ι × (C × D) → ℝ) (h : ∀ i c d, HasDerivAt nl (dnl (one q i c d)) (one q i c d))
    {w : Layer D D → Option ℝ} (hw : ∀ r, weight w r = 1) (θ0 : Layer D D → ℝ) (hD : 1 < Fintype.card D) (k : ι × (C × D)) :
    (manualState nl q p k = simple nl (directParameters (simple nl) w θ0 q p) q k ↔ simple nl (directParameters (simple nl) w θ0 q p) q k = 0) ∧
      (manualCostate nl dnl q p k = costateRhs (simple nl) w θ0 q p k ↔ costateRhs (simple nl) w θ0 q p k = 0) := by
  obtain ⟨_, _, h3, h4⟩ := C74_manual q p h hw θ0
  rw [h3, h4]
  have hc : (1 : ℝ) < Fintype.card D := by exact_mod_cast hD
  have key : ∀ x : ℝ, x / Fintype.card D = x ↔ x = 0 := by
    intro x
    rw [div_eq_iff (by linarith)]
    constructor
    · intro e
      have : x * (Fintype.card D - 1) = 0 := by linarith
      rcases mul_eq_zero.1 this with h | h
      · exact h
      · linarith
    · rintro rfl
      simp
  exact ⟨key _, key _⟩

/-- The sizes of the script. -/
example (q p : Fin 4 × (Unit × Fin 3) → ℝ) (k : Fin 4 × (Unit × Fin 3)) : manualCostate Real.tanh dtanh q p k = costateRhs (simple Real.tanh) (fun _ => some 1) 0 q p k / 3 := by
  have := (C74_manual q p (fun _ _ _ => hasDerivAt_tanh _) (w := fun _ => some 1) (fun _ => rfl) 0).2.2.2 k
  simpa using this

end Verif.Standalone
