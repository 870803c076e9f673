import Verif.Sensitivity.Classes
import Verif.Converge.Forward
import Verif.Ordering.Instance
import Mathlib.Analysis.Calculus.Deriv.MeanValue
import Mathlib.Analysis.SpecialFunctions.ExpDeriv

/-!
# C104: the norm penalty limits how sensitive a network is
-/

set_option linter.unusedSectionVars false

namespace Verif.Sensitivity
open Set Verif Verif.Tensor Verif.Shooting Verif.Evolution Verif.Models Verif.Converge Verif.Whole Verif.Assembly Verif.Flow Verif.Activation

variable {ι β K K' P H D Θ Rb : Type} [Fintype ι] [Fintype β] [Fintype K] [Fintype K'] [Fintype P]

/-! ## Exact solutions -/

/-- Differences whose derivative is at most proportional to them grow and shrink at most exponentially. -/
theorem growth {J : Type} [Fintype J] {d d' : ℝ → J → ℝ} {a b M : ℝ} (hM : 0 ≤ M) (hd : ∀ t ∈ Icc a b, ∀ j, HasDerivWithinAt (fun τ => d τ j) (d' t j) (Icc a b) t)
    (h : ∀ t ∈ Icc a b, ∑ j, d' t j ^ 2 ≤ M ^ 2 * ∑ j, d t j ^ 2) {s t : ℝ} (hs : s ∈ Icc a b) (ht : t ∈ Icc a b) : √(∑ j, d t j ^ 2) ≤ Real.exp (M * |t - s|) * √(∑ j, d s j ^ 2) := by
  obtain ⟨E, hE⟩ : ∃ E : ℝ → ℝ, E = fun τ => ∑ j, d τ j ^ 2 := ⟨_, rfl⟩
  have hE0 : ∀ τ, 0 ≤ E τ := fun τ => by rw [hE]; exact Finset.sum_nonneg fun _ _ => sq_nonneg _
  have hE1 : ∀ τ ∈ Icc a b, HasDerivWithinAt E (∑ j, 2 * (d τ j * d' τ j)) (Icc a b) τ := by
    intro τ hτ
    rw [hE]
    refine HasDerivWithinAt.fun_sum fun j _ => ?_
    have := (hd τ hτ j).pow 2
    refine HasDerivWithinAt.congr_deriv this ?_
    norm_num
    ring
  have hE2 : ∀ τ ∈ Icc a b, |∑ j, 2 * (d τ j * d' τ j)| ≤ 2 * M * E τ := by
    intro τ hτ
    rw [← Finset.mul_sum, abs_mul, abs_two, mul_assoc]
    refine mul_le_mul_of_nonneg_left (abs_le_of_sq_le_sq ?_ (mul_nonneg hM (hE0 τ))) zero_le_two
    refine (Finset.sum_mul_sq_le_sq_mul_sq _ _ _).trans ?_
    have h1 := h τ hτ
    have h2 := hE0 τ
    have h3 : ∑ j, d τ j ^ 2 = E τ := by rw [hE]
    rw [h3] at h1 ⊢
    nlinarith
  have key : ∀ σ : ℝ, |σ| = 1 → ∀ τ ∈ Icc a b, HasDerivWithinAt (fun τ => E τ * Real.exp (σ * (2 * M * τ)))
      ((∑ j, 2 * (d τ j * d' τ j) + σ * (2 * M) * E τ) * Real.exp (σ * (2 * M * τ))) (Icc a b) τ := by
    intro σ _ τ hτ
    have h1 : HasDerivWithinAt (fun τ : ℝ => Real.exp (σ * (2 * M * τ))) (Real.exp (σ * (2 * M * τ)) * (σ * (2 * M))) (Icc a b) τ := by
      have : HasDerivAt (fun τ : ℝ => σ * (2 * M * τ)) (σ * (2 * M)) τ := by simpa using ((hasDerivAt_id τ).const_mul (2 * M)).const_mul σ
      exact this.exp.hasDerivWithinAt
    refine HasDerivWithinAt.congr_deriv ((hE1 τ hτ).mul h1) ?_
    ring
  have cont : ∀ σ : ℝ, |σ| = 1 → ContinuousOn (fun τ => E τ * Real.exp (σ * (2 * M * τ))) (Icc a b) := fun σ hσ τ hτ => (key σ hσ τ hτ).continuousWithinAt
  have diff : ∀ σ : ℝ, |σ| = 1 → ∀ τ ∈ interior (Icc a b), HasDerivAt (fun τ => E τ * Real.exp (σ * (2 * M * τ)))
      ((∑ j, 2 * (d τ j * d' τ j) + σ * (2 * M) * E τ) * Real.exp (σ * (2 * M * τ))) τ := by
    intro σ hσ τ hτ
    rw [interior_Icc] at hτ
    exact (key σ hσ τ (Ioo_subset_Icc_self hτ)).hasDerivAt (Icc_mem_nhds hτ.1 hτ.2)
  have anti : AntitoneOn (fun τ => E τ * Real.exp (-1 * (2 * M * τ))) (Icc a b) := by
    refine antitoneOn_of_deriv_nonpos (convex_Icc a b) (cont (-1) (by norm_num)) (fun τ hτ => (diff (-1) (by norm_num) τ hτ).differentiableAt.differentiableWithinAt) fun τ hτ => ?_
    rw [(diff (-1) (by norm_num) τ hτ).deriv]
    have := (abs_le.1 (hE2 τ (interior_subset hτ))).2
    exact mul_nonpos_of_nonpos_of_nonneg (by linarith) (Real.exp_pos _).le
  have mono : MonotoneOn (fun τ => E τ * Real.exp (1 * (2 * M * τ))) (Icc a b) := by
    refine monotoneOn_of_deriv_nonneg (convex_Icc a b) (cont 1 (by norm_num)) (fun τ hτ => (diff 1 (by norm_num) τ hτ).differentiableAt.differentiableWithinAt) fun τ hτ => ?_
    rw [(diff 1 (by norm_num) τ hτ).deriv]
    have := (abs_le.1 (hE2 τ (interior_subset hτ))).1
    exact mul_nonneg (by linarith) (Real.exp_pos _).le
  have main : E t ≤ Real.exp (M * |t - s|) ^ 2 * E s := by
    rw [pow_two, ← Real.exp_add]
    rcases le_total s t with hst | hst
    · have h1 : E t * Real.exp (-1 * (2 * M * t)) ≤ E s * Real.exp (-1 * (2 * M * s)) := anti hs ht hst
      have h2 := mul_le_mul_of_nonneg_right h1 (Real.exp_pos (2 * M * t)).le
      rw [mul_assoc (E t), mul_assoc (E s), ← Real.exp_add, ← Real.exp_add, show -1 * (2 * M * t) + 2 * M * t = 0 by ring, Real.exp_zero, mul_one] at h2
      rw [abs_of_nonneg (sub_nonneg.2 hst), mul_comm]
      refine h2.trans (le_of_eq ?_)
      ring_nf
    · have h1 : E t * Real.exp (1 * (2 * M * t)) ≤ E s * Real.exp (1 * (2 * M * s)) := mono ht hs hst
      have h2 := mul_le_mul_of_nonneg_right h1 (Real.exp_pos (-(2 * M * t))).le
      rw [mul_assoc (E t), mul_assoc (E s), ← Real.exp_add, ← Real.exp_add, show 1 * (2 * M * t) + -(2 * M * t) = 0 by ring, Real.exp_zero, mul_one] at h2
      rw [abs_of_nonpos (sub_nonpos.2 hst), mul_comm]
      refine h2.trans (le_of_eq ?_)
      ring_nf
  have hs' : ∑ j, d s j ^ 2 = E s := by rw [hE]
  have ht' : ∑ j, d t j ^ 2 = E t := by rw [hE]
  rw [hs', ht']
  refine Real.sqrt_le_iff.2 ⟨by positivity, ?_⟩
  rw [mul_pow, Real.sq_sqrt (hE0 s)]
  exact main

/-- C104, all ways of obtaining parameters: while the Euclidean norm of the parameters of the network is at most `M`, the distance of two samples changes at most by the factor `exp (c M)` per unit of time, in
both directions. -/
theorem C104_parameters {f : Class K P} {g : Class K' P} {c : ℝ} (hc : 0 ≤ c) (hg : Controlled c g) (m : Mode ι K P) {a b : ℝ} {y : ℝ → Sys2 ι β K K'} (hy : Solves (Evolution.field2 f g m) a b y)
    {M : ℝ} (hM : 0 ≤ M) (hp : ∀ t ∈ Icc a b, ∑ r, m.params t (y t).1 (y t).2.1 r ^ 2 ≤ M ^ 2) (i i' : β) {s t : ℝ} (hs : s ∈ Icc a b) (ht : t ∈ Icc a b) :
    dist2 (y t).2.2 i i' ≤ Real.exp (c * M * |t - s|) * dist2 (y s).2.2 i i' := by
  refine growth (d := fun τ k => (y τ).2.2 (i, k) - (y τ).2.2 (i', k))
    (d' := fun τ k => g β (m.params τ (y τ).1 (y τ).2.1) (y τ).2.2 (i, k) - g β (m.params τ (y τ).1 (y τ).2.1) (y τ).2.2 (i', k)) (mul_nonneg hc hM) ?_ ?_ hs ht
  · intro τ hτ k
    have h1 := hasFDerivAt_snd.comp_hasDerivWithinAt τ (hasFDerivAt_snd.comp_hasDerivWithinAt τ (hy τ hτ))
    have h2 := hasDerivWithinAt_pi.1 h1
    exact (h2 (i, k)).sub (h2 (i', k))
  · intro τ hτ
    refine (hg β _ _ i i').trans ?_
    rw [mul_pow]
    exact mul_le_mul_of_nonneg_right (mul_le_mul_of_nonneg_left (hp τ hτ) (sq_nonneg c)) (Finset.sum_nonneg fun _ _ => sq_nonneg _)

/-- The norm of parameters with a given norm penalty. -/
theorem norm_le_penalty (w : P → Option ℝ) {m : ℝ} (hm : 0 < m) (hw : ∀ r, m ≤ weight w r) (θ : P → ℝ) : ∑ r, θ r ^ 2 ≤ √(2 * kineticEnergy w θ / m) ^ 2 := by
  rw [kineticEnergy_eq]
  have h0 : 0 ≤ ∑ r, weight w r / 2 * θ r ^ 2 := Finset.sum_nonneg fun r _ => mul_nonneg (div_nonneg (hm.le.trans (hw r)) zero_le_two) (sq_nonneg _)
  rw [Real.sq_sqrt (by positivity), le_div_iff₀ hm, Finset.sum_mul, Finset.mul_sum]
  refine Finset.sum_le_sum fun r _ => ?_
  nlinarith [hw r, sq_nonneg (θ r)]

/-- C104: the distance of two samples in the exact network changes at most by a factor that depends only on the norm penalty (the recorded one, at the initial particles and costates), the time and the smallest
weight, in both directions. -/
theorem C104_distance [Nonempty ι] {f : Class K P} (hf : Regular f) {g : Class K' P} {c : ℝ} (hc : 0 ≤ c) (hg : Controlled c g) (w : P → Option ℝ) {m : ℝ} (hm : 0 < m) (hw : ∀ r, m ≤ weight w r)
    (ρ : ℝ → (P → ℝ) × (P → ℝ)) {a b : ℝ} {y : ℝ → Sys2 ι β K K'} (hy : Solves (Evolution.field2 f g (Evolution.autodiff f w ρ)) a b y) (i i' : β) {s t : ℝ} (hs : s ∈ Icc a b) (ht : t ∈ Icc a b) :
    dist2 (y t).2.2 i i' ≤ Real.exp (c * √(2 * kineticEnergy w (directParameters (f ι) w 0 (y a).1 (y a).2.1) / m) * |t - s|) * dist2 (y s).2.2 i i' := by
  have hw' : ∀ r, weight w r ≠ 0 := fun r => (hm.trans_le (hw r)).ne'
  have hy0 : Solves (Evolution.field2 f g (Evolution.autodiff f w fun _ => (0, 0))) a b y := by
    rw [← field2_randomness (hf.linear ι).affine g w ρ fun _ => (0, 0)]
    exact hy
  refine C104_parameters hc hg _ hy0 (Real.sqrt_nonneg _) (fun τ hτ => ?_) i i' hs ht
  have := C35_norm_penalty_constant (hf.linear ι) w hw' (fun θ q j => (smooth_one hf ι).differentiable θ j q) hy0.trajectory hτ
  have h2 := norm_le_penalty w hm hw (directParameters (f ι) w 0 (y τ).1 (y τ).2.1)
  rw [this] at h2
  exact h2

/-- C104: a network that changes the distance of two samples by the factor `e` (from below or above) has at least a certain norm penalty. -/
theorem C104_penalty [Nonempty ι] {f : Class K P} (hf : Regular f) {g : Class K' P} {c : ℝ} (hc : 0 < c) (hg : Controlled c g) (w : P → Option ℝ) {m : ℝ} (hm : 0 < m) (hw : ∀ r, m ≤ weight w r)
    (ρ : ℝ → (P → ℝ) × (P → ℝ)) {a b : ℝ} (hab : a < b) {y : ℝ → Sys2 ι β K K'} (hy : Solves (Evolution.field2 f g (Evolution.autodiff f w ρ)) a b y) (i i' : β) {e : ℝ} (he : 0 < e)
    (hd : 0 < dist2 (y a).2.2 i i') (h : dist2 (y b).2.2 i i' = e * dist2 (y a).2.2 i i') :
    m / 2 * (Real.log e / (c * (b - a))) ^ 2 ≤ kineticEnergy w (directParameters (f ι) w 0 (y a).1 (y a).2.1) := by
  have ha := left_mem_Icc.2 hab.le
  have hb := right_mem_Icc.2 hab.le
  have h1 := C104_distance hf hc.le hg w hm hw ρ hy i i' ha hb
  have h2 := C104_distance hf hc.le hg w hm hw ρ hy i i' hb ha
  have hE : 0 ≤ kineticEnergy w (directParameters (f ι) w 0 (y a).1 (y a).2.1) := by
    rw [kineticEnergy_eq]
    exact Finset.sum_nonneg fun r _ => mul_nonneg (div_nonneg (hm.le.trans (hw r)) zero_le_two) (sq_nonneg _)
  generalize kineticEnergy w (directParameters (f ι) w 0 (y a).1 (y a).2.1) = F at *
  rw [h, abs_of_pos (sub_pos.2 hab)] at h1
  rw [h, abs_sub_comm, abs_of_pos (sub_pos.2 hab), ← mul_assoc] at h2
  have hR := Real.sqrt_nonneg (2 * F / m)
  have hba := sub_pos.2 hab
  have g1 : Real.log e ≤ c * √(2 * F / m) * (b - a) := by
    rw [Real.log_le_iff_le_exp he]
    exact le_of_mul_le_mul_right h1 hd
  have g2 : -(c * √(2 * F / m) * (b - a)) ≤ Real.log e := by
    rw [Real.le_log_iff_exp_le he, Real.exp_neg]
    have : 1 ≤ Real.exp (c * √(2 * F / m) * (b - a)) * e := le_of_mul_le_mul_right (by linarith) hd
    rw [inv_le_iff_one_le_mul₀ (Real.exp_pos _)]
    linarith
  have g3 : (Real.log e / (c * (b - a))) ^ 2 ≤ √(2 * F / m) ^ 2 := by
    refine sq_le_sq' ?_ ?_
    · rw [le_div_iff₀ (by positivity)]
      nlinarith
    · rw [div_le_iff₀ (by positivity)]
      nlinarith
  rw [Real.sq_sqrt (by positivity), le_div_iff₀ hm] at g3
  linarith

/-! ## Forward passes -/

/-- An entry of two samples differs by at most their distance. -/
theorem entry_le (x : β × K → ℝ) (i i' : β) (k : K) : |x (i, k) - x (i', k)| ≤ dist2 x i i' := by
  refine Real.abs_le_sqrt ?_
  exact Finset.single_le_sum (f := fun k => (x (i, k) - x (i', k)) ^ 2) (fun _ _ => sq_nonneg _) (Finset.mem_univ k)

/-- Close to a solution, predictions differ by what the solution differs. -/
theorem differ_of_near {L : Lay K'} {n B : Nat} {key : String} {ε a b F : ℝ} (hab : a ≤ b) {y : ℝ → Sys2 (Fin n) (Fin B) K K'} {t : Tensor ℝ} {w : Block.When ℝ} {ts : List ℝ} (hw : w.times = a :: ts)
    (hinc : (a :: ts).Pairwise (· < ·)) (hb : ∀ τ ∈ a :: ts, τ ≤ b)
    (h : ∀ i i' τ, τ ∈ Icc a b → dist2 (y τ).2.2 i i' ≤ Real.exp (F * |τ - a|) * dist2 (y a).2.2 i i') (hn : Near (L := L) key ε y t w) :
    Differ L key (fun i i' τ => Real.exp (F * (τ - a)) * dist2 (y a).2.2 i i' + 2 * ε) t w := by
  have hτ : ∀ τ ∈ a :: ts, τ ∈ Icc a b := fun τ hm => ⟨by
    rcases List.mem_cons.1 hm with rfl | hm
    · exact le_rfl
    · exact ((List.pairwise_cons.1 hinc).1 τ hm).le, hb τ hm⟩
  have key : ∀ τ ∈ a :: ts, ∀ i i' k v v', |v - (y τ).2.2 (i, k)| ≤ ε → |v' - (y τ).2.2 (i', k)| ≤ ε → |v - v'| ≤ Real.exp (F * (τ - a)) * dist2 (y a).2.2 i i' + 2 * ε := by
    intro τ hm i i' k v v' g1 g2
    have h1 := h i i' τ (hτ τ hm)
    rw [abs_of_nonneg (sub_nonneg.2 (hτ τ hm).1)] at h1
    have h2 := entry_le (y τ).2.2 i i' k
    have h3 := h2.trans h1
    rw [abs_le] at *
    constructor <;> linarith
  cases w with
  | upTo e =>
    intro i i' k hk
    obtain ⟨v, g1, g2⟩ := hn i k hk
    obtain ⟨v', g1', g2'⟩ := hn i' k hk
    exact ⟨v, v', g1, g1', key e (by rw [← hw]; simp [Block.When.times]) i i' k v v' g2 g2'⟩
  | vector vs =>
    intro j hj i i' k hk
    have hv : vs = a :: ts := hw
    obtain ⟨v, g1, g2⟩ := hn j hj i k hk
    obtain ⟨v', g1', g2'⟩ := hn j hj i' k hk
    exact ⟨v, v', g1, g1', key vs[j] (by rw [← hv]; exact List.getElem_mem hj) i i' k v v' g2 g2'⟩

theorem Differ.mono {L : Lay K'} {B : Nat} {key : String} {b₁ b₂ : Fin B → Fin B → ℝ → ℝ} (h : ∀ i i' τ, b₁ i i' τ ≤ b₂ i i' τ) {t : Tensor ℝ} {w : Block.When ℝ} (hd : Differ L key b₁ t w) : Differ L key b₂ t w := by
  cases w with
  | upTo e =>
    intro i i' k hk
    obtain ⟨v, v', g1, g2, g3⟩ := hd i i' k hk
    exact ⟨v, v', g1, g2, g3.trans (h _ _ _)⟩
  | vector vs =>
    intro j hj i i' k hk
    obtain ⟨v, v', g1, g2, g3⟩ := hd j hj i i' k hk
    exact ⟨v, v', g1, g2, g3.trans (h _ _ _)⟩

/-- C104 for forward passes: for all particles, costates, batches and weights and every tolerance there is a step size such that with a fixed-step method and steps that are not longer every entry of the
predictions of two samples differs by at most their distance times a factor that depends only on the norm penalty, the time and the smallest weight, and the tolerance. -/
theorem C104_forward {L : Lay K} (hL : L.Ok) {L' : Lay K'} (hL' : L'.Ok) {f : Class K P} (hf : Regular f) {g : Class K' P} (hg : Regular g) {c : ℝ} (hc : 0 ≤ c) (hgc : Controlled c g) (wt : P → Option ℝ) {m : ℝ}
    (hm : 0 < m) (hw : ∀ r, m ≤ weight wt r) {n B : Nat} (hn : 0 < n)
    (q p : Fin n × K → ℝ) (x : Fin B × K' → ℝ) {T : Tableau} (hT : T.Consistent) {a b : ℝ} (hab : a ≤ b) {ε : ℝ} (hε : 0 < ε) :
    ∃ h₀ : ℝ, 0 < h₀ ∧ ∀ h, 0 < h → h ≤ h₀ → ∀ (G : List ℝ → List ℝ)
      (icfg : Θ → Nat → Integrand.Cfg ℝ (Trip ℝ) (Par P (P → ℝ)) (Concat.TDicts ℝ) ℝ (P → ℝ) H D) (s0 : Integrand.St ℝ (Par P (P → ℝ)) ℝ H D × (Nat → (P → ℝ) × (P → ℝ)))
      (cfg : Block.Cfg ℝ ℝ Θ Rb),
      IsBlock ((autodiffCls L f wt).withData L' g) (solver T G) icfg s0 cfg → s0.1.useRnn = false → s0.1.external = false →
      ∀ (s : Block.St ℝ ℝ Θ), DimOk L' s.dataDim → ∀ (w : Block.When ℝ) (ts : List ℝ), Block.Is s w → w.times = a :: ts →
      (a :: ts).Pairwise (· < ·) → (∀ τ ∈ a :: ts, τ ≤ b) → Suits h G a ts →
      s.state = some (enc L "" n q) → s.costate = some (enc L "p_" n p) →
      ∀ X : Tensor ℝ, cfg.initialData X = .ok (enc L' "" B x) → ∀ r,
      ∃ o t, (Block.forward cfg r ⟨some X, none, none, none⟩ s).2 = .ok o ∧ o.result = .tensor t ∧
        Differ L' cfg.outKey (fun i i' τ => Real.exp (c * √(2 * kineticEnergy wt (directParameters (f (Fin n)) wt 0 q p) / m) * (τ - a)) * dist2 x i i' + ε) t w := by
  have : Nonempty (Fin n) := ⟨⟨0, hn⟩⟩
  obtain ⟨y, hy, hya, C, h₀, h1, h2, key⟩ := C68_forward_sizes (H := H) (D := D) (Θ := Θ) (Rb := Rb) hL hL' hf hg wt (fun r => hm.trans_le (hw r)) hn q p x hT hab
  obtain ⟨h₁, k1, k2, k3⟩ := Ordering.small_step h1 h2 hε
  refine ⟨h₁, k1, fun h hh hle G icfg s0 cfg hb hu he s hdd w ts hwi hwt hinc hts hgr hq hp X hX r => ?_⟩
  obtain ⟨o, t, e1, e2, e3⟩ := key h hh (hle.trans k2) G icfg s0 cfg hb hu he s hdd w ts hwi hwt hinc hts hgr hq hp X hX r
  refine ⟨o, t, e1, e2, ?_⟩
  have hd := differ_of_near hab hwt hinc hts (fun i i' τ hτ => C104_distance hf hc hgc wt hm hw _ hy i i' (left_mem_Icc.2 hab) hτ) e3
  rw [hya] at hd
  exact hd.mono fun i i' τ => by linarith [k3 h hle]

/-- C104 for forward passes in RNN mode: the parameters are those at the initial particles and costates. -/
theorem C104_forward_rnn {L : Lay K} (hL : L.Ok) {L' : Lay K'} (hL' : L'.Ok) {f : Class K P} (hf : Regular f) {g : Class K' P} (hg : Regular g) {c : ℝ} (hc : 0 ≤ c) (hgc : Controlled c g) (wt : P → Option ℝ)
    {n B : Nat} (hn : 0 < n) (q p : Fin n × K → ℝ) (x : Fin B × K' → ℝ) {T : Tableau} (hT : T.Consistent) {a b : ℝ} (hab : a ≤ b) {ε : ℝ} (hε : 0 < ε) :
    ∃ h₀ : ℝ, 0 < h₀ ∧ ∀ h, 0 < h → h ≤ h₀ → ∀ (G : List ℝ → List ℝ)
      (icfg : Θ → Nat → Integrand.Cfg ℝ (Trip ℝ) (Par P (P → ℝ)) (Concat.TDicts ℝ) ℝ (P → ℝ) H D) (s0 : Integrand.St ℝ (Par P (P → ℝ)) ℝ H D × (Nat → (P → ℝ) × (P → ℝ)))
      (cfg : Block.Cfg ℝ ℝ Θ Rb),
      IsBlock ((rnnCls L f wt).withData L' g) (solver T G) icfg s0 cfg → s0.1.useRnn = true → s0.1.external = false → s0.1.cache = none →
      ∀ (s : Block.St ℝ ℝ Θ), DimOk L' s.dataDim → ∀ (w : Block.When ℝ) (ts : List ℝ), Block.Is s w → w.times = a :: ts →
      (a :: ts).Pairwise (· < ·) → (∀ τ ∈ a :: ts, τ ≤ b) → Suits h G a ts →
      s.state = some (enc L "" n q) → s.costate = some (enc L "p_" n p) →
      ∀ X : Tensor ℝ, cfg.initialData X = .ok (enc L' "" B x) → ∀ r,
      ∃ o t, (Block.forward cfg r ⟨some X, none, none, none⟩ s).2 = .ok o ∧ o.result = .tensor t ∧
        Differ L' cfg.outKey (fun i i' τ => Real.exp (c * √(∑ j, directParameters (f (Fin n)) wt 0 q p j ^ 2) * (τ - a)) * dist2 x i i' + ε) t w := by
  obtain ⟨y, hy, hya, C, h₀, h1, h2, key⟩ := C68_forward_rnn_sizes (H := H) (D := D) (Θ := Θ) (Rb := Rb) hL hL' hf hg wt hn q p x hT hab
  obtain ⟨h₁, k1, k2, k3⟩ := Ordering.small_step h1 h2 hε
  refine ⟨h₁, k1, fun h hh hle G icfg s0 cfg hb hu he hca s hdd w ts hwi hwt hinc hts hgr hq hp X hX r => ?_⟩
  obtain ⟨o, t, e1, e2, e3⟩ := key h hh (hle.trans k2) G icfg s0 cfg hb hu he hca s hdd w ts hwi hwt hinc hts hgr hq hp X hX r
  refine ⟨o, t, e1, e2, ?_⟩
  have hd := differ_of_near hab hwt hinc hts (fun i i' τ hτ => C104_parameters hc hgc _ hy (M := √(∑ j, directParameters (f (Fin n)) wt 0 q p j ^ 2)) (Real.sqrt_nonneg _)
    (fun τ' _ => by rw [Real.sq_sqrt (par_nonneg _)]; exact le_rfl) i i' (left_mem_Icc.2 hab) hτ) e3
  rw [hya] at hd
  exact hd.mono fun i i' τ => by linarith [k3 h hle]

/-! ## Classes and nonlinearities -/

/-- C104: the nonlinearities of the package change differences of numbers by at most a factor of 1, `softmax` by at most 2. -/
theorem C104_nonlinearities (s : Option (List Char)) (n : Name) (hs : choose s = .ok n) : ∃ f g, getNonlinearity s = .ok (f, g) ∧ ∀ u v, |f u - f v| ≤ (if n = .softmax then 2 else 1) * |u - v| :=
  ⟨(Activation.pair n).1, (Activation.pair n).2, by unfold getNonlinearity; rw [hs]; rfl, lip_pair n⟩

/-- C104: with a nonlinearity that changes differences by at most the factor `L ≥ 1`, the distance of two samples changes at most with the norm of the parameters times `L`, for the general class times
`√(1 + L²)`. -/
theorem C104_classes {C D E : Type} [Fintype C] [Fintype D] [Fintype E] {nl : ℝ → ℝ} {L : ℝ} (hn : ∀ u v, |nl u - nl v| ≤ L * |u - v|) (hL : 1 ≤ L) :
    Controlled L (fun _ => simple nl : Class (C × D) _) ∧ Controlled L (fun _ => upDown nl : Class (Two C D E) _) ∧ Controlled L (fun _ => secondOrder nl : Class (Two C D D) _) ∧
    Controlled L (fun _ => universal nl : Class (Two C D E) _) ∧ Controlled L (fun _ => periodic nl : Class (Two C D E) _) ∧ Controlled (√(1 + L ^ 2)) (fun _ => general nl 0 : Class (Two C D E) _) ∧
    Controlled L (fun _ => debugSimple nl : Class (Two C D D) _) ∧ Controlled L (fun _ => symmetrized nl : Class (Three C D E) _) := by
  have h1 : 1 ≤ L ^ 2 := by nlinarith
  exact ⟨controlled_simple hn le_rfl, controlled_upDown hn h1 le_rfl, controlled_upDown hn h1 le_rfl, controlled_universal hn h1 le_rfl, controlled_periodic hn h1 le_rfl,
    controlled_general hn (by rw [Real.sq_sqrt (by positivity)]), controlled_debugSimple hn le_rfl, controlled_symmetrized hn h1 le_rfl⟩

/-! ## Instances -/

theorem controlled_line : Controlled 1 (fun _ => simple Real.tanh : Class (Fin 1 × Fin 1) _) := (C104_classes (E := Fin 1) (L := 1) (lip_pair .tanh) le_rfl).1

/-- `C104_parameters` with the nonlinearity `relu` and parameters that depend on time: two samples of a batch. -/
example (B : ℕ) (y : ℝ → Sys (Fin 3) (Fin B) (Two (Fin 1) (Fin 2) (Fin 6)))
    (hy : Solves (Evolution.field2 (fun _ => upDown relu) (fun _ => upDown relu) (Evolution.given (fun _ => upDown relu) (fun _ => none) fun t r => if r = .inl (0, none) then t else 0)) 0 1 y) (i i' : Fin B) :
    dist2 (y 1).2.2 i i' ≤ Real.exp (1 * 1 * |1 - 0|) * dist2 (y 0).2.2 i i' :=
  C104_parameters zero_le_one (C104_classes (C := Fin 1) (D := Fin 2) (E := Fin 6) (L := 1) (lip_pair .relu) le_rfl).2.1 _ hy (M := 1) zero_le_one (fun t ht => by
    have : (∑ r : UpDownPar (Fin 2) (Fin 6), (if r = .inl (0, none) then t else 0) ^ 2) = t ^ 2 := by
      rw [Finset.sum_eq_single (Sum.inl (0, none) : UpDownPar (Fin 2) (Fin 6))] <;> simp +contextual
    exact this.le.trans (by nlinarith [ht.1, ht.2])) i i' (by norm_num) (by norm_num)

/-- `C104_distance` and `C104_penalty`: three particles, a batch of any size, a solution from any start in which two samples differ; `e` is the factor by which their distance changes. -/
example (B : ℕ) (z : Sys (Fin 3) (Fin B) (Fin 1 × Fin 1)) (ρ) (s s' : Fin B) (h : z.2.2 (s, 0, 0) < z.2.2 (s', 0, 0)) :
    ∃ y, Solves (Evolution.field2 (fun _ => simple Real.tanh) (fun _ => simple Real.tanh) (Evolution.autodiff (fun _ => simple Real.tanh) (fun _ => none) ρ)) 0 1 y ∧ y 0 = z ∧
      dist2 (y 1).2.2 s s' ≤ Real.exp (1 * √(2 * kineticEnergy (fun _ => none) (directParameters (simple Real.tanh) (fun _ => none) 0 (y 0).1 (y 0).2.1) / 1) * |1 - 0|) * dist2 (y 0).2.2 s s' ∧
      ∃ e, 0 < e ∧ dist2 (y 1).2.2 s s' = e * dist2 z.2.2 s s' ∧
        1 / 2 * (Real.log e / (1 * (1 - 0))) ^ 2 ≤ kineticEnergy (fun _ => none) (directParameters (simple Real.tanh) (fun _ => none) 0 z.1 z.2.1) := by
  have hw : ∀ r : Layer (Fin 1) (Fin 1), 1 ≤ weight (fun _ => none) r := fun _ => by norm_num [weight]
  obtain ⟨y, hy, hya, _⟩ := C69_global_sizes Ordering.regular_line Ordering.regular_line (fun _ => none) (fun r => zero_lt_one.trans_le (hw r)) ρ zero_le_one z
  have h1 := Ordering.C102_order Ordering.regular_line Ordering.regular_line (rowwise_simple _) _ (fun r => (zero_lt_one.trans_le (hw r)).ne') ρ hy s s' (0, 0) ⟨le_rfl, zero_le_one⟩ (by rw [hya]; exact h) 1 ⟨zero_le_one, le_rfl⟩
  have hpos : ∀ x : Fin B × (Fin 1 × Fin 1) → ℝ, x (s, 0, 0) < x (s', 0, 0) → 0 < dist2 x s s' := fun x hx =>
    lt_of_lt_of_le (abs_pos.2 (sub_ne_zero.2 hx.ne)) (entry_le x s s' (0, 0))
  have h2 := hpos _ h1
  have h3 := hpos _ h
  refine ⟨y, hy, hya, C104_distance Ordering.regular_line zero_le_one controlled_line _ zero_lt_one hw ρ hy s s' (by norm_num) (by norm_num), dist2 (y 1).2.2 s s' / dist2 z.2.2 s s', by positivity, by field_simp, ?_⟩
  have := C104_penalty Ordering.regular_line zero_lt_one controlled_line _ zero_lt_one hw ρ zero_lt_one hy s s' (e := dist2 (y 1).2.2 s s' / dist2 z.2.2 s s') (by positivity) (by rw [hya]; exact h3) (by rw [hya]; field_simp)
  rw [hya] at this
  exact this

/-- `C104_forward` for a batch of any numbers, with the tolerance 1/100. -/
example (ρ) (q p : Fin 3 × (Fin 1 × Fin 1) → ℝ) (x : List ℝ) : ∃ h₀ : ℝ, 0 < h₀ ∧ ∀ h, 0 < h → h ≤ h₀ →
    ∃ o t, (Block.forward (Ordering.lineCfg (autodiffCls (layOne 1 1) (fun _ => simple Real.tanh) fun _ => none) false ρ (solver Converge.rk4 (stepGrid h))) () ⟨some (demoInput x), none, none, none⟩ (Ordering.lineSt q p)).2 = .ok o ∧
      o.result = .tensor t ∧ Differ (layOne 1 1) "q1" (fun i i' τ => Real.exp (1 * √(2 * kineticEnergy (fun _ => none) (directParameters (simple Real.tanh) (fun _ => none) 0 q p) / 1) * (τ - 0)) *
        dist2 (fun k : Fin x.length × (Fin 1 × Fin 1) => x[k.1]) i i' + 1 / 100) t (.upTo 1) := by
  have hw : ∀ r : Layer (Fin 1) (Fin 1), 1 ≤ weight (fun _ => none) r := fun _ => by norm_num [weight]
  have hinc : [(0 : ℝ), 1].Pairwise (· < ·) := by simp
  obtain ⟨h₀, h0, key⟩ := C104_forward (H := Unit) (D := Unit) (Θ := Unit) (Rb := Unit) (layOne_ok 1 1) (layOne_ok 1 1) Ordering.regular_line Ordering.regular_line zero_le_one controlled_line (fun _ => none) zero_lt_one hw (n := 3) (by norm_num) q p
    (fun k : Fin x.length × (Fin 1 × Fin 1) => x[k.1]) C68_methods.2.2.1 (a := 0) (b := 1) zero_le_one (ε := 1 / 100) (by norm_num)
  exact ⟨h₀, h0, fun h hh hle => key h hh hle (stepGrid h) _ _ _ (Ordering.line_isBlock (autodiffCls (layOne 1 1) (fun _ => simple Real.tanh) fun _ => none) rfl rfl false ρ _) rfl rfl (Ordering.lineSt q p)
    ((C67_layouts 1 1 1).2 2 le_rfl).1 (.upTo 1) [1] ⟨rfl, rfl⟩ rfl hinc (by simp) (stepGrid_suits hh 0 [1] hinc) rfl rfl (demoInput x) (Ordering.line_initial _ _ _ _ _) ()⟩

/-- `C104_forward_rnn` for a batch of any numbers. -/
example (ρ) (q p : Fin 3 × (Fin 1 × Fin 1) → ℝ) (x : List ℝ) : ∃ h₀ : ℝ, 0 < h₀ ∧ ∀ h, 0 < h → h ≤ h₀ →
    ∃ o t, (Block.forward (Ordering.lineCfg (rnnCls (layOne 1 1) (fun _ => simple Real.tanh) fun _ => none) true ρ (solver Converge.rk4 (stepGrid h))) () ⟨some (demoInput x), none, none, none⟩ (Ordering.lineSt q p)).2 = .ok o ∧
      o.result = .tensor t ∧ Differ (layOne 1 1) "q1" (fun i i' τ => Real.exp (1 * √(∑ j, directParameters (simple Real.tanh) (fun _ => none) 0 q p j ^ 2) * (τ - 0)) *
        dist2 (fun k : Fin x.length × (Fin 1 × Fin 1) => x[k.1]) i i' + 1 / 100) t (.upTo 1) := by
  have hinc : [(0 : ℝ), 1].Pairwise (· < ·) := by simp
  obtain ⟨h₀, h0, key⟩ := C104_forward_rnn (H := Unit) (D := Unit) (Θ := Unit) (Rb := Unit) (layOne_ok 1 1) (layOne_ok 1 1) Ordering.regular_line Ordering.regular_line zero_le_one controlled_line (fun _ => none) (n := 3) (by norm_num) q p
    (fun k : Fin x.length × (Fin 1 × Fin 1) => x[k.1]) C68_methods.2.2.1 (a := 0) (b := 1) zero_le_one (ε := 1 / 100) (by norm_num)
  exact ⟨h₀, h0, fun h hh hle => key h hh hle (stepGrid h) _ _ _ (Ordering.line_isBlock (rnnCls (layOne 1 1) (fun _ => simple Real.tanh) fun _ => none) rfl rfl true ρ _) rfl rfl rfl (Ordering.lineSt q p)
    ((C67_layouts 1 1 1).2 2 le_rfl).1 (.upTo 1) [1] ⟨rfl, rfl⟩ rfl hinc (by simp) (stepGrid_suits hh 0 [1] hinc) rfl rfl (demoInput x) (Ordering.line_initial _ _ _ _ _) ()⟩

/-- `C104_nonlinearities` for `tanh` and `softmax`. -/
example : ∃ f g, getNonlinearity (some "Tanh".toList) = .ok (f, g) ∧ ∀ u v, |f u - f v| ≤ 1 * |u - v| := C104_nonlinearities _ .tanh (by decide)
example : ∃ f g, getNonlinearity (some "softmax".toList) = .ok (f, g) ∧ ∀ u v, |f u - f v| ≤ 2 * |u - v| := C104_nonlinearities _ .softmax (by decide)

end Verif.Sensitivity
