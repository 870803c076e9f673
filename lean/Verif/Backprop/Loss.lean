import Verif.Backprop.Lemmas

/-!
# The derivative of a loss of the results of a fixed-grid solver
-/

namespace Verif.Backprop
open Set Metric Filter Topology Verif.Converge Verif.Adjoint Verif.Evolution

variable {X E : Type} [NormedAddCommGroup X] [NormedSpace ℝ X] [NormedAddCommGroup E] [NormedSpace ℝ E] [FiniteDimensional ℝ X] [FiniteDimensional ℝ E]

omit [FiniteDimensional ℝ X] [FiniteDimensional ℝ E] in
theorem pi_bound {n : ℕ} {v v' : Fin n → X →L[ℝ] E} {e : ℝ} (he : 0 ≤ e) (h : ∀ i, ‖v i - v' i‖ ≤ e) : ‖ContinuousLinearMap.pi v - ContinuousLinearMap.pi v'‖ ≤ e := by
  refine ContinuousLinearMap.opNorm_le_bound _ he fun x => (pi_norm_le_iff_of_nonneg (by positivity)).2 fun i => ?_
  exact ((v i - v' i).le_opNorm x).trans (mul_le_mul_of_nonneg_right (h i) (norm_nonneg x))

/-- The grid `G` for the times `τ` consists of steps of at most `h`. -/
def Fits (h : ℝ) {n : ℕ} (τ : Fin (n + 1) → ℝ) (g : List ℝ) : Prop := (τ 0 :: g).getLast? = some (τ (Fin.last n)) ∧ Mesh h (τ 0) g

/-- The derivative of the loss is near the result of the backward pass along the exact solution if the derivative of the loss with respect to the values is near. -/
theorem loss_error {f : ℝ → E → E} (hf : ContDiff ℝ 2 fun z : ℝ × E => f z.1 z.2) {T : Tableau} (hT : T.Consistent) {a b : ℝ} {y : ℝ → E} (hy : Solves f a b y) {x₀ : X} {u : X → E} {u' : X →L[ℝ] E}
    (hua : u x₀ = y a) (hu : HasFDerivAt u u' x₀) {n : ℕ} {τ : Fin (n + 1) → ℝ} (hτ : StrictMono τ) (h0 : τ 0 = a) (hb : τ (Fin.last n) ≤ b) {L : (Fin (n + 1) → E) → ℝ} (hL : Differentiable ℝ L)
    {ℓ : Fin (n + 1) → E →L[ℝ] ℝ} (hℓ : fderiv ℝ L (fun i => y (τ i)) = total ℓ) {g : E →L[ℝ] ℝ} (hg : Backward f y (List.ofFn fun i => (τ i, ℓ i)) g) :
    ∃ A h₀ : ℝ, 0 ≤ A ∧ 0 < h₀ ∧ ∀ h, 0 < h → h ≤ h₀ → ∀ grid : List ℝ, Fits h τ grid →
      ∃ N : X → Fin (n + 1) → E, (∀ x, u x :: outputs (increment T f) a (u x) grid (List.ofFn τ).tail = List.ofFn (N x)) ∧ ‖N x₀ - fun i => y (τ i)‖ ≤ A * h ∧
        ∃ D, HasFDerivAt (fun x => L (N x)) D x₀ ∧ ‖D - g.comp u'‖ ≤ A * (‖fderiv ℝ L (N x₀) - fderiv ℝ L fun i => y (τ i)‖ + h) := by
  have hab : a ≤ b := h0 ▸ (hτ.monotone (Fin.zero_le _)).trans hb
  have hmem : ∀ i, τ i ∈ Icc a b := fun i => ⟨h0 ▸ hτ.monotone (Fin.zero_le i), (hτ.monotone (Fin.le_last i)).trans hb⟩
  obtain ⟨V, hVa, hV⟩ := exists_variation (hf.of_le (by norm_num)) hab hy.continuousOn u'
  have hG : (total ℓ).comp (ContinuousLinearMap.pi fun i => V (τ i)) = g.comp u' := by
    have := backward_variation hV hg a (by simp [h0]) (by
      simp only [List.mem_ofFn]
      rintro p ⟨i, rfl⟩
      exact hmem i) (by
      rw [List.pairwise_ofFn]
      exact fun i j hij => hτ.monotone hij.le)
    rw [List.map_ofFn, List.sum_ofFn, hVa] at this
    rw [← this]
    ext x
    simp [total]
  obtain ⟨C, h₀, hC, hp, key⟩ := derivative_error hf hT hy hV (u := u) ⟨hua, by rw [hVa]; exact hu⟩
  refine ⟨C + (‖ContinuousLinearMap.pi fun i => V (τ i)‖ + C * h₀) + ‖fderiv ℝ L fun i => y (τ i)‖ * C, h₀, by positivity, hp, fun h hh hle grid hfit => ?_⟩
  have hτs : List.ofFn τ = a :: (List.ofFn τ).tail := by rw [List.ofFn_succ, h0, List.tail_cons]
  have hlast : (a :: grid).getLast? = (a :: (List.ofFn τ).tail).getLast? := by
    rw [← hτs, ← h0, hfit.1, List.getLast?_eq_getElem?]
    simp [Fin.last, -List.ofFn_succ]
  obtain ⟨us, h1, h2⟩ := key h hh hle (List.ofFn τ).tail grid (by
      rw [← hτs, List.pairwise_ofFn]
      exact fun i j hij => hτ hij) hlast (h0 ▸ hfit.2) (by
      rw [← hτs]
      simp only [List.mem_ofFn]
      rintro p ⟨i, rfl⟩
      exact (hmem i).2)
  rw [← hτs] at h2
  have hlen : us.length = n + 1 := by rw [h2.length_eq, List.length_ofFn]
  have h3 : ∀ i : Fin (n + 1), ∃ v', HasFDerivAt (us[i.1]'(by omega)) v' x₀ ∧ ‖(us[i.1]'(by omega)) x₀ - y (τ i)‖ ≤ C * h ∧ ‖v' - V (τ i)‖ ≤ C * h := fun i => by
    have := h2.get (i := i.1) (by omega) (by rw [List.length_ofFn]; exact i.2)
    simpa [-List.ofFn_succ] using this
  choose v' hv1 hv2 hv3 using h3
  have hCh : 0 ≤ C * h := by positivity
  refine ⟨fun x i => (us[i.1]'(by omega)) x, fun x => ?_, ?_, (fderiv ℝ L fun i => (us[i.1]'(by omega)) x₀).comp (ContinuousLinearMap.pi v'), ?_, ?_⟩
  · rw [h1 x]
    refine List.ext_getElem (by simp [hlen]) fun i hi _ => by simp [-List.ofFn_succ]
  · refine ((pi_norm_le_iff_of_nonneg hCh).2 hv2).trans (mul_le_mul_of_nonneg_right ?_ hh.le)
    have : 0 ≤ ‖ContinuousLinearMap.pi fun i => V (τ i)‖ + C * h₀ + ‖fderiv ℝ L fun i => y (τ i)‖ * C := by positivity
    linarith
  · exact (hL _).hasFDerivAt.comp x₀ (hasFDerivAt_pi.2 hv1)
  · rw [← hG, ← hℓ]
    have hpi := pi_bound hCh hv3
    generalize (fderiv ℝ L fun i : Fin (n + 1) => (us[i.1]'(by omega)) x₀) = P
    generalize (fderiv ℝ L fun i : Fin (n + 1) => y (τ i)) = Q at *
    generalize (ContinuousLinearMap.pi fun i => V (τ i)) = W at *
    generalize ContinuousLinearMap.pi v' = Z at *
    have e : P.comp Z - Q.comp W = (P - Q).comp Z + Q.comp (Z - W) := by
      rw [ContinuousLinearMap.sub_comp, ContinuousLinearMap.comp_sub]
      abel
    have hZ : ‖Z‖ ≤ ‖W‖ + C * h₀ := by
      have : Z = W + (Z - W) := by abel
      rw [this]
      refine (norm_add_le _ _).trans (add_le_add le_rfl (hpi.trans (mul_le_mul_of_nonneg_left hle hC)))
    rw [e]
    refine (norm_add_le _ _).trans ((add_le_add ((P - Q).opNorm_comp_le Z) (Q.opNorm_comp_le (Z - W))).trans ?_)
    have i1 : ‖P - Q‖ * ‖Z‖ ≤ ‖P - Q‖ * (‖W‖ + C * h₀) := mul_le_mul_of_nonneg_left hZ (norm_nonneg _)
    have i2 : ‖Q‖ * ‖Z - W‖ ≤ ‖Q‖ * (C * h) := mul_le_mul_of_nonneg_left hpi (norm_nonneg _)
    have n1 := norm_nonneg (P - Q)
    have n2 : 0 ≤ ‖P - Q‖ * C := by positivity
    have n3 : 0 ≤ ‖P - Q‖ * (‖Q‖ * C) := by positivity
    have n4 : 0 ≤ (‖W‖ + C * h₀) * h := by positivity
    nlinarith

/-- Twice continuously differentiable losses: the error is at most a constant times the step size. -/
theorem loss_rate {f : ℝ → E → E} (hf : ContDiff ℝ 2 fun z : ℝ × E => f z.1 z.2) {T : Tableau} (hT : T.Consistent) {a b : ℝ} {y : ℝ → E} (hy : Solves f a b y) {x₀ : X} {u : X → E} {u' : X →L[ℝ] E}
    (hua : u x₀ = y a) (hu : HasFDerivAt u u' x₀) {n : ℕ} {τ : Fin (n + 1) → ℝ} (hτ : StrictMono τ) (h0 : τ 0 = a) (hb : τ (Fin.last n) ≤ b) {L : (Fin (n + 1) → E) → ℝ} (hL : ContDiff ℝ 2 L)
    {ℓ : Fin (n + 1) → E →L[ℝ] ℝ} (hℓ : fderiv ℝ L (fun i => y (τ i)) = total ℓ) {g : E →L[ℝ] ℝ} (hg : Backward f y (List.ofFn fun i => (τ i, ℓ i)) g) :
    ∃ C h₀ : ℝ, 0 ≤ C ∧ 0 < h₀ ∧ ∀ h, 0 < h → h ≤ h₀ → ∀ grid : List ℝ, Fits h τ grid →
      ∃ N : X → Fin (n + 1) → E, (∀ x, u x :: outputs (increment T f) a (u x) grid (List.ofFn τ).tail = List.ofFn (N x)) ∧
        ∃ D, HasFDerivAt (fun x => L (N x)) D x₀ ∧ ‖D - g.comp u'‖ ≤ C * h := by
  obtain ⟨A, h₀, hA, hp, key⟩ := loss_error hf hT hy hua hu hτ h0 hb (hL.differentiable (by norm_num)) hℓ hg
  have hd : ContDiff ℝ 1 (fderiv ℝ L) := hL.fderiv_right (by norm_num)
  obtain ⟨K, s, hs, hK⟩ := hd.contDiffAt.exists_lipschitzOnWith (x := fun i => y (τ i))
  obtain ⟨r, hr, hball⟩ := Metric.mem_nhds_iff.1 hs
  refine ⟨A * (K * A + 1), min h₀ (r / (A + 1) / 2), by positivity, by positivity, fun h hh hle grid hfit => ?_⟩
  obtain ⟨N, h1, h2, D, h3, h4⟩ := key h hh (hle.trans (min_le_left _ _)) grid hfit
  refine ⟨N, h1, D, h3, h4.trans ?_⟩
  have h5 : dist (N x₀) (fun i => y (τ i)) < r := by
    rw [dist_eq_norm]
    refine h2.trans_lt ?_
    have h6 := hle.trans (min_le_right _ _)
    have h7 : h * 2 * (A + 1) ≤ r := by
      rw [le_div_iff₀ (by norm_num), le_div_iff₀ (by positivity)] at h6
      exact h6
    nlinarith
  have h6 := hK.dist_le_mul (N x₀) (hball h5) (fun i => y (τ i)) (mem_of_mem_nhds hs)
  rw [dist_eq_norm, dist_eq_norm] at h6
  have h7 : ‖fderiv ℝ L (N x₀) - fderiv ℝ L fun i => y (τ i)‖ ≤ K * (A * h) := h6.trans (mul_le_mul_of_nonneg_left h2 K.2)
  calc A * (‖fderiv ℝ L (N x₀) - fderiv ℝ L fun i => y (τ i)‖ + h) ≤ A * (K * (A * h) + h) := mul_le_mul_of_nonneg_left (by linarith) hA
    _ = A * (K * A + 1) * h := by ring

/-- Continuously differentiable losses. -/
theorem loss_limit {f : ℝ → E → E} (hf : ContDiff ℝ 2 fun z : ℝ × E => f z.1 z.2) {T : Tableau} (hT : T.Consistent) {a b : ℝ} {y : ℝ → E} (hy : Solves f a b y) {x₀ : X} {u : X → E} {u' : X →L[ℝ] E}
    (hua : u x₀ = y a) (hu : HasFDerivAt u u' x₀) {n : ℕ} {τ : Fin (n + 1) → ℝ} (hτ : StrictMono τ) (h0 : τ 0 = a) (hb : τ (Fin.last n) ≤ b) {L : (Fin (n + 1) → E) → ℝ} (hL : ContDiff ℝ 1 L)
    {ℓ : Fin (n + 1) → E →L[ℝ] ℝ} (hℓ : fderiv ℝ L (fun i => y (τ i)) = total ℓ) {g : E →L[ℝ] ℝ} (hg : Backward f y (List.ofFn fun i => (τ i, ℓ i)) g) {ε : ℝ} (hε : 0 < ε) :
    ∃ h₀ : ℝ, 0 < h₀ ∧ ∀ h, 0 < h → h ≤ h₀ → ∀ grid : List ℝ, Fits h τ grid →
      ∃ N : X → Fin (n + 1) → E, (∀ x, u x :: outputs (increment T f) a (u x) grid (List.ofFn τ).tail = List.ofFn (N x)) ∧
        ∃ D, HasFDerivAt (fun x => L (N x)) D x₀ ∧ ‖D - g.comp u'‖ ≤ ε := by
  obtain ⟨A, h₀, hA, hp, key⟩ := loss_error hf hT hy hua hu hτ h0 hb (hL.differentiable (by norm_num)) hℓ hg
  have hc : Continuous (fderiv ℝ L) := hL.continuous_fderiv (by norm_num)
  obtain ⟨r, hr, hball⟩ := Metric.continuousAt_iff.1 (hc.continuousAt (x := fun i => y (τ i))) (ε / (2 * (A + 1))) (by positivity)
  refine ⟨min h₀ (min (r / (A + 1) / 2) (ε / (2 * (A + 1)))), by positivity, fun h hh hle grid hfit => ?_⟩
  obtain ⟨N, h1, h2, D, h3, h4⟩ := key h hh (hle.trans (min_le_left _ _)) grid hfit
  refine ⟨N, h1, D, h3, h4.trans ?_⟩
  have h5 : dist (N x₀) (fun i => y (τ i)) < r := by
    rw [dist_eq_norm]
    refine h2.trans_lt ?_
    have h6 := hle.trans ((min_le_right _ _).trans (min_le_left _ _))
    have h7 : h * 2 * (A + 1) ≤ r := by
      rw [le_div_iff₀ (by norm_num), le_div_iff₀ (by positivity)] at h6
      exact h6
    nlinarith
  have h6 := hball h5
  rw [dist_eq_norm] at h6
  have h8 := hle.trans ((min_le_right _ _).trans (min_le_right _ _))
  calc A * (‖fderiv ℝ L (N x₀) - fderiv ℝ L fun i => y (τ i)‖ + h) ≤ (A + 1) * (ε / (2 * (A + 1)) + ε / (2 * (A + 1))) :=
        mul_le_mul (by linarith) (by linarith) (by positivity) (by positivity)
    _ = ε := by field_simp; ring

end Verif.Backprop
