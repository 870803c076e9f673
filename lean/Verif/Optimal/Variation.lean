import Verif.Optimal.Spec
import Verif.Optimal.Gronwall
import Verif.Optimal.Taylor

/-!
# How the final state reacts to other parameters

`p` solves the adjoint equation along states `q` driven by `θ`.  Then the pairing of `p` with the change of the final state is, up to second order in the change of the
parameters, the integral of the pairing with the coefficients of the parameters.
-/

namespace Verif.Optimal
open Set MeasureTheory Verif.Shooting Verif.Converge

variable {ι K P : Type} [Fintype ι] [Fintype K] [Fintype P]

omit [Fintype P] in
theorem Driven.hasDeriv {J : Type} [Fintype J] {f : Rhs J P} {θ : ℝ → P → ℝ} {q : ℝ → J → ℝ} {a b : ℝ} (h : Driven f θ q a b) {t : ℝ} (ht : t ∈ Icc a b) :
    HasDerivWithinAt q (f (θ t) (q t)) (Icc a b) t := hasDerivWithinAt_pi.2 (h.state t ht)

omit [Fintype P] in
theorem Driven.continuous_params {J : Type} [Fintype J] {f : Rhs J P} {θ : ℝ → P → ℝ} {q : ℝ → J → ℝ} {a b : ℝ} (h : Driven f θ q a b) : ContinuousOn θ (Icc a b) :=
  continuousOn_pi.2 h.cont

omit [Fintype P] in
theorem Driven.continuous_state {J : Type} [Fintype J] {f : Rhs J P} {θ : ℝ → P → ℝ} {q : ℝ → J → ℝ} {a b : ℝ} (h : Driven f θ q a b) : ContinuousOn q (Icc a b) :=
  fun _ ht => (h.hasDeriv ht).continuousWithinAt

omit [Fintype P] in
theorem Driven.mono {J : Type} [Fintype J] {f : Rhs J P} {θ : ℝ → P → ℝ} {q : ℝ → J → ℝ} {a b s c : ℝ} (h : Driven f θ q a b) (hs : a ≤ s) (hc : c ≤ b) : Driven f θ q s c :=
  ⟨fun r => (h.cont r).mono (Icc_subset_Icc hs hc), fun t ht j => (h.state t ⟨hs.trans ht.1, ht.2.trans hc⟩ j).mono (Icc_subset_Icc hs hc)⟩

/-- `p` solves the adjoint equation along `q` and `θ`. -/
def Adjoint (f : Rhs (ι × K) P) (θ : ℝ → P → ℝ) (q p : ℝ → ι × K → ℝ) (a b : ℝ) : Prop :=
  ∀ t ∈ Icc a b, HasDerivWithinAt p (costGrad f (θ t) (q t) (p t)) (Icc a b) t

/-- A bound for all states that start on `q` and are driven by parameters near `θ` (in the square mean). -/
theorem exists_radius {f : Rhs (ι × K) P} (ha : AffineInParams f) (hg : Growth f) {θ : ℝ → P → ℝ} {q : ℝ → ι × K → ℝ} {a b : ℝ} (hq : Driven f θ q a b) (M : ℝ) :
    ∃ R, (∀ t ∈ Icc a b, ‖q t‖ ≤ R) ∧ ∀ s c, a ≤ s → s ≤ c → c ≤ b → ∀ θ' q', Driven f θ' q' s c → q' s = q s → ∫ t in s..c, ‖θ' t - θ t‖ ^ 2 ≤ M → ∀ t ∈ Icc s c, ‖q' t‖ ≤ R := by
  obtain ⟨A, hA⟩ := isCompact_Icc.exists_bound_of_continuousOn hq.continuous_params
  obtain ⟨R0, hR0⟩ := isCompact_Icc.exists_bound_of_continuousOn hq.continuous_state
  obtain ⟨G, hG0, hG⟩ := growth_both ha hg
  have hkey : ∀ s c, a ≤ s → s ≤ c → c ≤ b → ∀ θ' q', Driven f θ' q' s c → q' s = q s → ∫ t in s..c, ‖θ' t - θ t‖ ^ 2 ≤ M → ∀ t ∈ Icc s c,
      ‖q' t‖ ≤ Real.exp (G * ((2 + A) * (b - a) + M)) * (R0 + G * ((2 + A) * (b - a) + M)) := by
    intro s c hs hsc hc θ' q' hd he hM t ht
    have hsI : s ∈ Icc a b := ⟨hs, hsc.trans hc⟩
    have hA0 : 0 ≤ A := (norm_nonneg _).trans (hA s hsI)
    have hsub : Icc s c ⊆ Icc a b := Icc_subset_Icc hs hc
    have hθ' := hd.continuous_params
    have hδ : ContinuousOn (fun t => ‖θ' t - θ t‖ ^ 2) (Icc s c) := ((hθ'.sub (hq.continuous_params.mono hsub)).norm).pow 2
    have hk : ContinuousOn (fun t => G * (1 + ‖θ' t‖)) (Icc s c) := continuousOn_const.mul (continuousOn_const.add hθ'.norm)
    have hk0 : ∀ t ∈ Icc s c, 0 ≤ G * (1 + ‖θ' t‖) := fun t _ => by positivity
    have hgr := gronwall (x0 := R0) hk hk hk0 hk0 (fun t ht => hd.hasDeriv ht) (by rw [he]; exact hR0 s hsI) (fun t _ => hG (θ' t) (q' t)) t ht
    have hint : ∫ u in s..t, G * (1 + ‖θ' u‖) ≤ G * ((2 + A) * (b - a) + M) := by
      have hcI : c ∈ Icc s c := ⟨hsc, le_rfl⟩
      have hsI' : s ∈ Icc s c := ⟨le_rfl, hsc⟩
      have h1 : ∫ u in s..t, G * (1 + ‖θ' u‖) ≤ ∫ u in s..c, G * (1 + ‖θ' u‖) := by
        have := intervalIntegral.integral_add_adjacent_intervals (integrable_Icc hk hsI' ht) (integrable_Icc hk ht hcI)
        have h3 : 0 ≤ ∫ u in t..c, G * (1 + ‖θ' u‖) := intervalIntegral.integral_nonneg ht.2 fun u _ => by positivity
        linarith
      have h2 : ∫ u in s..c, G * (1 + ‖θ' u‖) ≤ ∫ u in s..c, (G * (2 + A) + G * ‖θ' u - θ u‖ ^ 2) := by
        refine intervalIntegral.integral_mono_on hsc (integrable_Icc hk hsI' hcI) (integrable_Icc (continuousOn_const.add (continuousOn_const.mul hδ)) hsI' hcI) fun u hu => ?_
        have h4 : ‖θ' u‖ ≤ A + ‖θ' u - θ u‖ := by
          have h5 := hA u (hsub hu)
          have h6 : θ' u = (θ' u - θ u) + θ u := by abel
          have h7 := norm_add_le (θ' u - θ u) (θ u)
          rw [← h6] at h7
          linarith
        have h5 : ‖θ' u - θ u‖ ≤ 1 + ‖θ' u - θ u‖ ^ 2 := by nlinarith [sq_nonneg (‖θ' u - θ u‖ - 1 / 2)]
        have : G * (1 + ‖θ' u‖) ≤ G * ((2 + A) + ‖θ' u - θ u‖ ^ 2) := mul_le_mul_of_nonneg_left (by linarith) hG0
        linarith
      have i1 : IntervalIntegrable (fun _ => G * (2 + A)) volume s c := integrable_Icc continuousOn_const hsI' hcI
      have i2 : IntervalIntegrable (fun u => G * ‖θ' u - θ u‖ ^ 2) volume s c := integrable_Icc (continuousOn_const.mul hδ) hsI' hcI
      rw [intervalIntegral.integral_add i1 i2, intervalIntegral.integral_const_mul G (fun u => ‖θ' u - θ u‖ ^ 2), intervalIntegral.integral_const, smul_eq_mul] at h2
      have h3 : (c - s) * (G * (2 + A)) ≤ (b - a) * (G * (2 + A)) := mul_le_mul_of_nonneg_right (by linarith) (by positivity)
      have h4 := mul_le_mul_of_nonneg_left hM hG0
      linarith
    have h0 : 0 ≤ ∫ u in s..t, G * (1 + ‖θ' u‖) := integral_nonneg_Icc hk0 ht
    have hR00 : 0 ≤ R0 := (norm_nonneg _).trans (hR0 s hsI)
    exact hgr.trans (mul_le_mul (Real.exp_le_exp.2 hint) (by linarith) (by linarith) (Real.exp_pos _).le)
  refine ⟨max R0 (Real.exp (G * ((2 + A) * (b - a) + M)) * (R0 + G * ((2 + A) * (b - a) + M))), fun t ht => (hR0 t ht).trans (le_max_left _ _), ?_⟩
  intro s c hs hsc hc θ' q' hd he hM t ht
  exact (hkey s c hs hsc hc θ' q' hd he hM t ht).trans (le_max_right _ _)

/-- The estimate everything else rests on. -/
theorem variation {f : Rhs (ι × K) P} (ha : AffineInParams f) (hs : SmoothRhs (1 + 1) f) (hg : Growth f) {θ : ℝ → P → ℝ} {q p : ℝ → ι × K → ℝ} {a b : ℝ}
    (hq : Driven f θ q a b) (hp : Adjoint f θ q p a b) (M : ℝ) :
    ∃ C, 0 ≤ C ∧ ∀ s c, a ≤ s → s ≤ c → c ≤ b → ∀ θ' q', Driven f θ' q' s c → q' s = q s → ∫ t in s..c, ‖θ' t - θ t‖ ^ 2 ≤ M →
      ‖q' c - q c‖ ≤ C * ∫ t in s..c, ‖θ' t - θ t‖ ∧
      |(∑ j, p c j * (q' c j - q c j)) - ∫ t in s..c, ∑ r, (∑ j, p t j * coeff f (q t) j r) * (θ' t r - θ t r)| ≤ C * (c - s) * ∫ t in s..c, ‖θ' t - θ t‖ ^ 2 := by
  obtain ⟨R, hR, hR'⟩ := exists_radius ha hg hq M
  obtain ⟨A, hA⟩ := isCompact_Icc.exists_bound_of_continuousOn hq.continuous_params
  have hpc : ContinuousOn p (Icc a b) := fun t ht => (hp t ht).continuousWithinAt
  obtain ⟨B, hB⟩ := isCompact_Icc.exists_bound_of_continuousOn hpc
  obtain ⟨C1, hC1, hc0, hc1⟩ := exists_bounds_rhs hs R
  have hA' : ∀ t ∈ Icc a b, ‖θ t‖ ≤ |A| := fun t ht => (hA t ht).trans (le_abs_self _)
  have hB' : ∀ t ∈ Icc a b, ‖p t‖ ≤ |B| := fun t ht => (hB t ht).trans (le_abs_self _)
  generalize hLdef : C1 * (1 + Fintype.card P * |A|) = L
  have hL0 : 0 ≤ L := by rw [← hLdef]; positivity
  generalize hndef : (Fintype.card P : ℝ) * C1 = n
  have hn0 : 0 ≤ n := by rw [← hndef]; positivity
  generalize hXdef : Real.exp (L * |b - a|) * n = X
  have hX0 : 0 ≤ X := by rw [← hXdef]; positivity
  generalize hmdef : (Fintype.card (ι × K) : ℝ) * |B| = m
  have hm0 : 0 ≤ m := by rw [← hmdef]; positivity
  refine ⟨X + (m * L * X ^ 2 * |b - a| + m * n * X), by positivity, ?_⟩
  intro s c has hsc hcb θ' q' hd he hM
  have hsub : Icc s c ⊆ Icc a b := Icc_subset_Icc has hcb
  have hsI : s ∈ Icc s c := ⟨le_rfl, hsc⟩
  have hcI : c ∈ Icc s c := ⟨hsc, le_rfl⟩
  have hba : c - s ≤ |b - a| := (by linarith : c - s ≤ b - a).trans (le_abs_self _)
  have hq2 := hq.mono has hcb
  have hδ : ContinuousOn (fun t => θ' t - θ t) (Icc s c) := hd.continuous_params.sub hq2.continuous_params
  have hδn : ContinuousOn (fun t => ‖θ' t - θ t‖) (Icc s c) := hδ.norm
  have hδ2 : ContinuousOn (fun t => ‖θ' t - θ t‖ ^ 2) (Icc s c) := hδn.pow 2
  have hrad := hR' s c has hsc hcb θ' q' hd he hM
  have I0 : ∀ t ∈ Icc s c, 0 ≤ ∫ u in s..t, ‖θ' u - θ u‖ := fun t ht => integral_nonneg_Icc (fun u _ => norm_nonneg _) ht
  have Imono : ∀ t ∈ Icc s c, ∫ u in s..t, ‖θ' u - θ u‖ ≤ ∫ u in s..c, ‖θ' u - θ u‖ := fun t ht => by
    have := intervalIntegral.integral_add_adjacent_intervals (integrable_Icc hδn hsI ht) (integrable_Icc hδn ht hcI)
    have h3 : 0 ≤ ∫ u in t..c, ‖θ' u - θ u‖ := intervalIntegral.integral_nonneg ht.2 fun u _ => norm_nonneg _
    linarith
  -- the change of the state
  have hdiff : ∀ t ∈ Icc s c, ‖q' t - q t‖ ≤ X * ∫ u in s..t, ‖θ' u - θ u‖ := by
    intro t ht
    have hsp : ∀ t ∈ Icc s c, ‖f (θ' t) (q' t) - f (θ t) (q t)‖ ≤ L * ‖q' t - q t‖ + n * ‖θ' t - θ t‖ := by
      intro t ht
      refine (speed_difference ha hC1 hc0 hc1 (θ t) (θ' t) (hR t (hsub ht)) (hrad t ht)).trans ?_
      rw [hndef]
      refine add_le_add_left (mul_le_mul_of_nonneg_right ?_ (norm_nonneg _)) _
      rw [← hLdef]
      have := hA' t (hsub ht)
      gcongr
    have h := gronwall (x := fun t => q' t - q t) (k := fun _ => L) (g := fun t => n * ‖θ' t - θ t‖) (x0 := 0) continuousOn_const (continuousOn_const.mul hδn) (fun _ _ => hL0)
      (fun t _ => by positivity) (fun t ht => (hd.hasDeriv ht).sub (hq2.hasDeriv ht)) (by simp [he]) hsp t ht
    rw [intervalIntegral.integral_const, intervalIntegral.integral_const_mul, smul_eq_mul, zero_add] at h
    refine h.trans ?_
    rw [← hXdef, ← mul_assoc]
    refine mul_le_mul_of_nonneg_right (mul_le_mul_of_nonneg_right (Real.exp_le_exp.2 ?_) hn0) (I0 t ht)
    rw [mul_comm]
    exact mul_le_mul_of_nonneg_left (by linarith [ht.2]) hL0
  generalize hI : (∫ u in s..c, ‖θ' u - θ u‖) = I at *
  have hI0 : 0 ≤ I := hI ▸ I0 c hcI
  have hend : ‖q' c - q c‖ ≤ X * I := hI ▸ hdiff c hcI
  refine ⟨hend.trans (mul_le_mul_of_nonneg_right (by have : 0 ≤ m * L * X ^ 2 * |b - a| + m * n * X := by positivity
                                                     linarith) hI0), ?_⟩
  -- the pairing
  have hco : ContinuousOn (fun t => ∑ r, (∑ j, p t j * coeff f (q t) j r) * (θ' t r - θ t r)) (Icc s c) := by
    refine continuousOn_finsetSum _ fun r _ => ContinuousOn.mul (continuousOn_finsetSum _ fun j _ => ContinuousOn.mul ?_ ?_) (continuousOn_pi.1 hδ r)
    · exact continuousOn_pi.1 (hpc.mono hsub) j
    · exact (hs.coeff j r).continuous.comp_continuousOn hq2.continuous_state
  have hΨ : ∀ t ∈ Icc s c, HasDerivWithinAt (fun t => (∑ j, p t j * (q' t j - q t j)) - ∫ u in s..t, ∑ r, (∑ j, p u j * coeff f (q u) j r) * (θ' u r - θ u r))
      ((∑ j, p t j * (f (θ' t) (q' t) j - f (θ t) (q t) j)) + (∑ k, costGrad f (θ t) (q t) (p t) k * (q' t k - q t k)) -
        ∑ r, (∑ j, p t j * coeff f (q t) j r) * (θ' t r - θ t r)) (Icc s c) t := by
    intro t ht
    refine HasDerivWithinAt.sub ?_ (hasDeriv_integral hco ht)
    rw [← Finset.sum_add_distrib]
    refine HasDerivWithinAt.fun_sum fun j _ => ?_
    have h1 : HasDerivWithinAt (fun t => p t j) (costGrad f (θ t) (q t) (p t) j) (Icc s c) t := (hasDerivWithinAt_pi.1 (hp t (hsub ht)) j).mono hsub
    have h2 := h1.mul ((hd.state t ht j).sub (hq2.state t ht j))
    refine h2.congr_deriv ?_
    simp only [Pi.sub_apply]
    ring
  have hbound : ∀ t ∈ Icc s c, ‖(∑ j, p t j * (f (θ' t) (q' t) j - f (θ t) (q t) j)) + (∑ k, costGrad f (θ t) (q t) (p t) k * (q' t k - q t k)) -
        ∑ r, (∑ j, p t j * coeff f (q t) j r) * (θ' t r - θ t r)‖ ≤ m * L * (X * I) ^ 2 + m * n * (X * I) * ‖θ' t - θ t‖ := by
    intro t ht
    have h := pairing_difference ha hc0 hc1 (θ t) (θ' t) (p t) (hR t (hsub ht)) (hrad t ht)
    have hd1 : ‖q' t - q t‖ ≤ X * I := (hdiff t ht).trans (mul_le_mul_of_nonneg_left (Imono t ht) hX0)
    have hm1 : (Fintype.card (ι × K) : ℝ) * ‖p t‖ ≤ m := by
      rw [← hmdef]
      exact mul_le_mul_of_nonneg_left (hB' t (hsub ht)) (Nat.cast_nonneg _)
    have hL1 : C1 * (1 + Fintype.card P * ‖θ t‖) ≤ L := by
      rw [← hLdef]
      have := hA' t (hsub ht)
      gcongr
    refine (Real.norm_eq_abs _).le.trans (h.trans ?_)
    calc _ = (Fintype.card (ι × K) * ‖p t‖) * (C1 * (1 + Fintype.card P * ‖θ t‖)) * ‖q' t - q t‖ ^ 2 + (Fintype.card (ι × K) * ‖p t‖) * (Fintype.card P * C1) * ‖q' t - q t‖ * ‖θ' t - θ t‖ := by ring
      _ ≤ m * L * (X * I) ^ 2 + m * n * (X * I) * ‖θ' t - θ t‖ := by
        rw [hndef]
        gcongr
  have hBd : ∀ t ∈ Icc s c, HasDerivWithinAt (fun t => m * L * (X * I) ^ 2 * (t - s) + m * n * (X * I) * ∫ u in s..t, ‖θ' u - θ u‖)
      (m * L * (X * I) ^ 2 + m * n * (X * I) * ‖θ' t - θ t‖) (Icc s c) t := by
    intro t ht
    have h1 := ((((hasDerivAt_id' t).sub_const s).const_mul (m * L * (X * I) ^ 2)).hasDerivWithinAt (s := Icc s c)).add ((hasDeriv_integral hδn ht).const_mul (m * n * (X * I)))
    rwa [mul_one] at h1
  have hfin := image_norm_le_of_norm_deriv_right_le_deriv_boundary' (fun t ht => (hΨ t ht).continuousWithinAt) (fun t ht => right_deriv ht (hΨ t (Ico_subset_Icc_self ht)))
    (B := fun t => m * L * (X * I) ^ 2 * (t - s) + m * n * (X * I) * ∫ u in s..t, ‖θ' u - θ u‖) (by simp [he]) (fun t ht => (hBd t ht).continuousWithinAt)
    (fun t ht => right_deriv ht (hBd t (Ico_subset_Icc_self ht))) (fun t ht => hbound t (Ico_subset_Icc_self ht)) hcI
  rw [Real.norm_eq_abs, hI] at hfin
  refine hfin.trans ?_
  have hCS := sq_integral_le hsc hδn
  rw [hI] at hCS
  have hE : 0 ≤ (c - s) * ∫ t in s..c, ‖θ' t - θ t‖ ^ 2 := (sq_nonneg _).trans hCS
  have hcs : 0 ≤ c - s := by linarith
  calc m * L * (X * I) ^ 2 * (c - s) + m * n * (X * I) * I = (m * L * X ^ 2 * (c - s) + m * n * X) * I ^ 2 := by ring
    _ ≤ (X + (m * L * X ^ 2 * |b - a| + m * n * X)) * ((c - s) * ∫ t in s..c, ‖θ' t - θ t‖ ^ 2) := by
      refine mul_le_mul ?_ hCS (sq_nonneg _) (by positivity)
      have : m * L * X ^ 2 * (c - s) ≤ m * L * X ^ 2 * |b - a| := mul_le_mul_of_nonneg_left hba (by positivity)
      linarith
    _ = _ := by ring

end Verif.Optimal
