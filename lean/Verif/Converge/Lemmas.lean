import Verif.Converge.Spec
import Mathlib.Analysis.Calculus.MeanValue
import Mathlib.Analysis.Calculus.ContDiff.RCLike
import Mathlib.Analysis.Calculus.ContDiff.Operations
import Mathlib.Topology.Algebra.MetricSpace.Lipschitz
import Mathlib.Topology.MetricSpace.Thickening
import Mathlib.Analysis.SpecialFunctions.Exp

/-!
# Convergence of one-step methods
-/

namespace Verif.Converge
open Set Metric

variable {E : Type} [NormedAddCommGroup E] [NormedSpace ℝ E]

/-! ## One-step methods -/

/-- A number with which everything can be bounded near a solution. -/
structure Bounds (f : ℝ → E → E) (Φ : ℝ → ℝ → E → E) (a b : ℝ) (y : ℝ → E) (L M : ℝ) : Prop where
  L0 : 0 ≤ L
  M0 : 0 ≤ M
  /-- the method does not change faster than `L` in a tube around the solution -/
  lip : ∀ h ∈ Icc (0 : ℝ) 1, ∀ h' ∈ Icc (0 : ℝ) 1, ∀ t ∈ Icc a b, ∀ t' ∈ Icc a b, ∀ s ∈ Icc a b, ∀ x x', ‖x - y s‖ ≤ 1 → ‖x' - y t'‖ ≤ 1 →
    ‖Φ h t x - Φ h' t' x'‖ ≤ L * max |h - h'| (max |t - t'| ‖x - x'‖)
  /-- the solution is not faster than `M` -/
  speed : ∀ t ∈ Icc a b, ‖f t (y t)‖ ≤ M

theorem Solves.continuousOn {f : ℝ → E → E} {a b : ℝ} {y : ℝ → E} (hy : Solves f a b y) : ContinuousOn y (Icc a b) :=
  fun t ht => (hy t ht).continuousWithinAt

theorem exists_bounds [ProperSpace E] {f : ℝ → E → E} {Φ : ℝ → ℝ → E → E} (hΦ : ContDiff ℝ 1 fun z : ℝ × ℝ × E => Φ z.1 z.2.1 z.2.2)
    (h0 : ∀ t x, Φ 0 t x = f t x) {a b : ℝ} {y : ℝ → E} (hy : Solves f a b y) : ∃ L M, Bounds f Φ a b y L M := by
  have hyc := hy.continuousOn
  have hK : IsCompact (cthickening 1 (y '' Icc a b)) := (isCompact_Icc.image_of_continuousOn hyc).cthickening
  have hS : IsCompact (Icc (0 : ℝ) 1 ×ˢ (Icc a b ×ˢ cthickening 1 (y '' Icc a b))) := isCompact_Icc.prod (isCompact_Icc.prod hK)
  obtain ⟨L, hL⟩ := (hΦ.locallyLipschitz.locallyLipschitzOn (s := Icc (0 : ℝ) 1 ×ˢ (Icc a b ×ˢ cthickening 1 (y '' Icc a b)))).exists_lipschitzOnWith_of_compact hS
  have hfc : ContinuousOn (fun t => f t (y t)) (Icc a b) := by
    have : (fun t => f t (y t)) = fun t => (fun z : ℝ × ℝ × E => Φ z.1 z.2.1 z.2.2) (0, t, y t) := by
      funext t
      exact (h0 t (y t)).symm
    rw [this]
    exact hΦ.continuous.comp_continuousOn (continuousOn_const.prodMk (continuousOn_id.prodMk hyc))
  obtain ⟨M, hM⟩ := isCompact_Icc.exists_bound_of_continuousOn hfc
  have hin : ∀ s ∈ Icc a b, ∀ x, ‖x - y s‖ ≤ 1 → x ∈ cthickening 1 (y '' Icc a b) := by
    intro s hs x hx
    exact mem_cthickening_of_dist_le x (y s) 1 _ (mem_image_of_mem y hs) (by rwa [dist_eq_norm])
  refine ⟨L, max M 0, L.2, le_max_right _ _, ?_, fun t ht => (hM t ht).trans (le_max_left _ _)⟩
  intro h hh h' hh' t ht t' ht' s hs x x' hx hx'
  have := hL.dist_le_mul (h, t, x) ⟨hh, ht, hin s hs x hx⟩ (h', t', x') ⟨hh', ht', hin t' ht' x' hx'⟩
  rw [dist_eq_norm] at this
  refine this.trans (le_of_eq ?_)
  rw [Prod.dist_eq, Prod.dist_eq, Real.dist_eq, Real.dist_eq, dist_eq_norm]

variable {f : ℝ → E → E} {Φ : ℝ → ℝ → E → E} {a b : ℝ} {y : ℝ → E} {L M : ℝ}

theorem speed_le (hy : Solves f a b y) (hb : Bounds f Φ a b y L M) {s t : ℝ} (hs : s ∈ Icc a b) (ht : t ∈ Icc a b) : ‖y t - y s‖ ≤ M * |t - s| :=
  (convex_Icc a b).norm_image_sub_le_of_norm_hasDerivWithin_le hy hb.speed hs ht

/-- One step from a point of the solution. -/
theorem local_error (h0 : ∀ t x, Φ 0 t x = f t x) (hy : Solves f a b y) (hb : Bounds f Φ a b y L M) {t t' : ℝ} (ht : a ≤ t) (htt : t < t') (ht' : t' ≤ b)
    (h1 : t' - t ≤ 1) : ‖y t' - (y t + (t' - t) • Φ (t' - t) t (y t))‖ ≤ L * (1 + M) * (t' - t) * (t' - t) := by
  have hsub : Icc t t' ⊆ Icc a b := Icc_subset_Icc ht ht'
  have htm : t ∈ Icc a b := ⟨ht, htt.le.trans ht'⟩
  have hd : ∀ s ∈ Icc t t', HasDerivWithinAt (fun s => y s - s • Φ (t' - t) t (y t)) (f s (y s) - Φ (t' - t) t (y t)) (Icc t t') s := by
    intro s hs
    have h1 := (hy s (hsub hs)).mono hsub
    have h2 : HasDerivWithinAt (fun s : ℝ => s • Φ (t' - t) t (y t)) ((1 : ℝ) • Φ (t' - t) t (y t)) (Icc t t') s := (hasDerivWithinAt_id s _).smul_const _
    rw [one_smul] at h2
    exact h1.sub h2
  have hbound : ∀ s ∈ Icc t t', ‖f s (y s) - Φ (t' - t) t (y t)‖ ≤ L * (1 + M) * (t' - t) := by
    intro s hs
    rw [← h0]
    have hl := hb.lip 0 ⟨le_rfl, zero_le_one⟩ (t' - t) ⟨by linarith, h1⟩ s (hsub hs) t htm s (hsub hs) (y s) (y t) (by simp) (by simp)
    refine hl.trans ?_
    rw [mul_assoc]
    refine mul_le_mul_of_nonneg_left ?_ hb.L0
    have hsp := speed_le hy hb htm (hsub hs)
    have hst : |s - t| ≤ t' - t := by rw [abs_of_nonneg (by linarith [hs.1])]; linarith [hs.2]
    have hM := hb.M0
    have e1 : |0 - (t' - t)| = t' - t := by rw [zero_sub, abs_neg, abs_of_pos (by linarith)]
    rw [e1]
    refine max_le ?_ (max_le ?_ ?_)
    · nlinarith
    · nlinarith
    · refine hsp.trans ?_
      nlinarith [mul_le_mul_of_nonneg_left hst hM]
  have hm := Convex.norm_image_sub_le_of_norm_hasDerivWithin_le hd hbound (convex_Icc t t') (left_mem_Icc.2 htt.le) (right_mem_Icc.2 htt.le)
  rw [Real.norm_of_nonneg (by linarith)] at hm
  refine le_trans (le_of_eq ?_) hm
  congr 1
  rw [sub_smul]
  abel

/-- The error on a grid. -/
theorem grid_error (h0 : ∀ t x, Φ 0 t x = f t x) (hy : Solves f a b y) (hb : Bounds f Φ a b y L M) {h : ℝ} (hh : 0 ≤ h) (h1 : h ≤ 1)
    (hC : (1 + M) * h * Real.exp (L * (b - a)) ≤ 1) (t : ℝ) (ht : a ≤ t) (x : E) (hx : ‖x - y t‖ ≤ (1 + M) * h * (Real.exp (L * (t - a)) - 1)) (ts : List ℝ)
    (hm : Mesh h t ts) (hts : ∀ s ∈ t :: ts, s ≤ b) :
    List.Forall₂ (fun Y s => ‖Y - y s‖ ≤ (1 + M) * h * (Real.exp (L * (s - a)) - 1)) (gridValues Φ t x ts) (t :: ts) := by
  induction ts generalizing t x with
  | nil => exact .cons hx .nil
  | cons t' ts ih =>
    refine .cons hx (ih t' (ht.trans hm.1.le) _ ?_ hm.2.2 fun s hs => hts s (List.mem_cons_of_mem _ hs))
    have htb : t ≤ b := hts t (by simp)
    have htb' : t' ≤ b := hts t' (by simp)
    have hL := hb.L0
    have hM := hb.M0
    have hk : t' - t ≤ h := by linarith [hm.2.1]
    have hk0 : 0 < t' - t := by linarith [hm.1]
    have hle := local_error h0 hy hb ht hm.1 htb' (hk.trans h1)
    have htm : t ∈ Icc a b := ⟨ht, htb⟩
    have hx1 : ‖x - y t‖ ≤ 1 := by
      refine hx.trans (le_trans ?_ hC)
      refine mul_le_mul_of_nonneg_left ?_ (by positivity)
      have : Real.exp (L * (t - a)) ≤ Real.exp (L * (b - a)) := Real.exp_le_exp.2 (mul_le_mul_of_nonneg_left (by linarith) hL)
      linarith
    have hl := hb.lip (t' - t) ⟨hk0.le, hk.trans h1⟩ (t' - t) ⟨hk0.le, hk.trans h1⟩ t htm t htm t htm x (y t) hx1 (by simp)
    rw [sub_self, sub_self, abs_zero, max_eq_right (by positivity), max_eq_right (norm_nonneg _)] at hl
    have e : x + (t' - t) • Φ (t' - t) t x - y t' =
        (x - y t) + (t' - t) • (Φ (t' - t) t x - Φ (t' - t) t (y t)) - (y t' - (y t + (t' - t) • Φ (t' - t) t (y t))) := by
      rw [smul_sub]; abel
    rw [e]
    refine (norm_sub_le _ _).trans ?_
    refine (add_le_add ((norm_add_le _ _).trans (add_le_add le_rfl (norm_smul_le _ _))) hle).trans ?_
    rw [Real.norm_of_nonneg hk0.le]
    have hexp : (1 + L * (t' - t)) * Real.exp (L * (t - a)) ≤ Real.exp (L * (t' - a)) := by
      have h2 : Real.exp (L * (t' - a)) = Real.exp (L * (t' - t)) * Real.exp (L * (t - a)) := by
        rw [← Real.exp_add]; congr 1; ring
      rw [h2]
      refine mul_le_mul_of_nonneg_right ?_ (Real.exp_pos _).le
      linarith [Real.add_one_le_exp (L * (t' - t))]
    have h3 : ‖x - y t‖ + (t' - t) * ‖Φ (t' - t) t x - Φ (t' - t) t (y t)‖ ≤ (1 + L * (t' - t)) * ((1 + M) * h * (Real.exp (L * (t - a)) - 1)) := by
      have h4 := mul_le_mul_of_nonneg_left hl hk0.le
      have h5 := mul_le_mul_of_nonneg_left hx (show 0 ≤ 1 + L * (t' - t) by positivity)
      nlinarith
    have h6 : L * (1 + M) * (t' - t) * (t' - t) ≤ (1 + M) * h * (L * (t' - t)) := by
      have : 0 ≤ L * (1 + M) * (t' - t) := by positivity
      nlinarith
    have h7 : (1 + M) * h * ((1 + L * (t' - t)) * Real.exp (L * (t - a))) ≤ (1 + M) * h * Real.exp (L * (t' - a)) :=
      mul_le_mul_of_nonneg_left hexp (by positivity)
    nlinarith

/-- The values between two grid points. -/
theorem between_error (hy : Solves f a b y) (hb : Bounds f Φ a b y L M) {h e t t' τ : ℝ} (ht : a ≤ t) (hτ : t ≤ τ) (hτ' : τ ≤ t') (ht' : t' ≤ b) (hm : t' ≤ t + h)
    {x x' : E} (hx : ‖x - y t‖ ≤ e) (hx' : ‖x' - y t'‖ ≤ e) : ‖between t t' x x' τ - y τ‖ ≤ e + M * h := by
  have hM := hb.M0
  have hh : 0 ≤ h := by linarith
  have hτm : τ ∈ Icc a b := ⟨ht.trans hτ, hτ'.trans ht'⟩
  have e1 : ‖x - y τ‖ ≤ e + M * h := by
    have h1 := speed_le hy hb hτm (⟨ht, hτ.trans (hτ'.trans ht')⟩ : t ∈ Icc a b)
    have h2 : |t - τ| ≤ h := by rw [abs_le]; constructor <;> linarith
    have h3 : x - y τ = (x - y t) + (y t - y τ) := by abel
    rw [h3]
    exact (norm_add_le _ _).trans (add_le_add hx (h1.trans (mul_le_mul_of_nonneg_left h2 hM)))
  have e2 : ‖x' - y τ‖ ≤ e + M * h := by
    have h1 := speed_le hy hb hτm (⟨ht.trans (hτ.trans hτ'), ht'⟩ : t' ∈ Icc a b)
    have h2 : |t' - τ| ≤ h := by rw [abs_le]; constructor <;> linarith
    have h3 : x' - y τ = (x' - y t') + (y t' - y τ) := by abel
    rw [h3]
    exact (norm_add_le _ _).trans (add_le_add hx' (h1.trans (mul_le_mul_of_nonneg_left h2 hM)))
  unfold between
  by_cases h1 : τ = t
  · rw [if_pos h1]; exact e1
  · by_cases h2 : τ = t'
    · rw [if_neg h1, if_pos h2]; exact e2
    · rw [if_neg h1, if_neg h2]
      have hlt : 0 < t' - t := by
        have : t < τ := lt_of_le_of_ne hτ (Ne.symm h1)
        linarith
      have l0 : 0 ≤ (τ - t) / (t' - t) := div_nonneg (by linarith) hlt.le
      have l1 : (τ - t) / (t' - t) ≤ 1 := (div_le_one hlt).2 (by linarith)
      have h3 : x + ((τ - t) / (t' - t)) • (x' - x) - y τ = (1 - (τ - t) / (t' - t)) • (x - y τ) + ((τ - t) / (t' - t)) • (x' - y τ) := by
        rw [sub_smul, one_smul, smul_sub, smul_sub, smul_sub]; abel
      rw [h3]
      refine (norm_add_le _ _).trans ?_
      rw [norm_smul, norm_smul, Real.norm_of_nonneg l0, Real.norm_of_nonneg (by linarith)]
      nlinarith

/-- The error at the requested times. -/
theorem output_error (h0 : ∀ t x, Φ 0 t x = f t x) (hy : Solves f a b y) (hb : Bounds f Φ a b y L M) {h : ℝ} (hh : 0 ≤ h) (h1 : h ≤ 1)
    (hC : (1 + M) * h * Real.exp (L * (b - a)) ≤ 1) (t : ℝ) (ht : a ≤ t) (x : E) (hx : ‖x - y t‖ ≤ (1 + M) * h * (Real.exp (L * (t - a)) - 1)) (ts : List ℝ)
    (hm : Mesh h t ts) (hts : ∀ s ∈ t :: ts, s ≤ b) (req : List ℝ) (hs : req.Pairwise (· < ·)) (hr : ∀ τ ∈ req, t ≤ τ ∧ ∃ l ∈ (ts.getLast?), τ ≤ l) :
    List.Forall₂ (fun Y τ => ‖Y - y τ‖ ≤ (1 + M) * h * Real.exp (L * (b - a)) + M * h) (outputs Φ t x ts req) req := by
  induction ts generalizing t x req with
  | nil =>
    cases req with
    | nil => exact .nil
    | cons τ req => exact absurd (hr τ (by simp)).2 (by simp)
  | cons t' ts ih =>
    rw [outputs]
    have hg := grid_error h0 hy hb hh h1 hC t ht x hx [t'] ⟨hm.1, hm.2.1, trivial⟩ fun s hs => hts s (by
      rcases List.mem_cons.1 hs with rfl | hs
      · simp
      · simp [List.mem_singleton.1 hs])
    obtain ⟨_, hg⟩ := List.forall₂_cons.1 hg
    obtain ⟨hx', _⟩ := List.forall₂_cons.1 hg
    have htb : t ≤ b := hts t (by simp)
    have htb' : t' ≤ b := hts t' (by simp)
    have hM := hb.M0
    have hmono : ∀ s, s ≤ b → (1 + M) * h * (Real.exp (L * (s - a)) - 1) ≤ (1 + M) * h * Real.exp (L * (b - a)) := by
      intro s hs
      refine mul_le_mul_of_nonneg_left ?_ (by positivity)
      have : Real.exp (L * (s - a)) ≤ Real.exp (L * (b - a)) := Real.exp_le_exp.2 (mul_le_mul_of_nonneg_left (by linarith) hb.L0)
      linarith
    conv => rhs; rw [← List.takeWhile_append_dropWhile (p := fun τ => decide (τ ≤ t')) (l := req)]
    refine List.rel_append ?_ (ih t' (ht.trans hm.1.le) _ hx' hm.2.2 (fun s hs => hts s (List.mem_cons_of_mem _ hs)) _ (hs.sublist (List.dropWhile_sublist _)) ?_)
    · rw [List.forall₂_map_left_iff, List.forall₂_same]
      intro τ hτ
      have h2 : τ ≤ t' := by simpa using List.all_eq_true.1 List.all_takeWhile τ hτ
      exact between_error hy hb ht (hr τ ((List.takeWhile_sublist _).mem hτ)).1 h2 htb' hm.2.1 (hx.trans (hmono t htb)) (hx'.trans (hmono t' htb'))
    · intro τ hτ
      have hτ0 := (List.dropWhile_sublist _).mem hτ
      have hgt : t' < τ := by
        have hs' : (req.dropWhile fun τ => decide (τ ≤ t')).Pairwise (· < ·) := hs.sublist (List.dropWhile_sublist _)
        have hne : req.dropWhile (fun τ => decide (τ ≤ t')) ≠ [] := List.ne_nil_of_mem hτ
        have hh := List.head_dropWhile_not (p := fun τ => decide (τ ≤ t')) hne
        simp only [decide_eq_false_iff_not, not_le] at hh
        obtain ⟨u, us, hu⟩ := List.exists_cons_of_ne_nil hne
        rw [hu] at hτ hs'
        have hhu : t' < u := by simpa [hu] using hh
        rcases List.mem_cons.1 hτ with rfl | hτ
        · exact hhu
        · exact hhu.trans ((List.pairwise_cons.1 hs').1 τ hτ)
      refine ⟨hgt.le, ?_⟩
      obtain ⟨l, hl, hle⟩ := (hr τ hτ0).2
      cases ts with
      | nil =>
        simp at hl
        linarith
      | cons u us =>
        rw [List.getLast?_cons_cons] at hl
        exact ⟨l, hl, hle⟩

/-! ## Runge-Kutta methods -/

omit [NormedAddCommGroup E] [NormedSpace ℝ E] in
theorem comb_replicate [AddCommMonoid E] [Module ℝ E] (c : List ℝ) (n : Nat) (hc : c.length ≤ n) (v : E) : Evolution.comb c (List.replicate n v) = c.sum • v := by
  unfold Evolution.comb
  induction c generalizing n with
  | nil => simp
  | cons x c ih =>
    cases n with
    | zero => simp at hc
    | succ n =>
      rw [List.replicate_succ, List.zipWith_cons_cons, List.sum_cons, ih n (by simpa using hc), List.sum_cons, add_smul]

theorem slopes_zero (f : ℝ → E → E) (t : ℝ) (x : E) (ss : List (ℝ × List ℝ)) (n : Nat) :
    slopes f 0 t x ss (List.replicate n (f t x)) = List.replicate (n + ss.length) (f t x) := by
  induction ss generalizing n with
  | nil => rfl
  | cons s ss ih =>
    rw [slopes, mul_zero, add_zero, zero_smul, add_zero]
    have : List.replicate n (f t x) ++ [f t x] = List.replicate (n + 1) (f t x) := by rw [List.replicate_succ']
    rw [this, ih, List.length_cons]
    congr 1
    omega

/-- Without step size a consistent method is the right-hand side. -/
theorem increment_zero {T : Tableau} (hT : T.Consistent) (f : ℝ → E → E) (t : ℝ) (x : E) : increment T f 0 t x = f t x := by
  unfold increment
  have := slopes_zero f t x T.stages 0
  rw [List.replicate_zero, Nat.zero_add] at this
  rw [this, comb_replicate _ _ hT.1.le, hT.2, one_smul]

theorem contDiff_comb {m : WithTop ℕ∞} {X : Type} [NormedAddCommGroup X] [NormedSpace ℝ X] (c : List ℝ) (ks : List (X → E)) (hk : ∀ k ∈ ks, ContDiff ℝ m k) :
    ContDiff ℝ m fun x => Evolution.comb c (ks.map fun k => k x) := by
  unfold Evolution.comb
  induction c generalizing ks with
  | nil => simpa using contDiff_const
  | cons a c ih =>
    cases ks with
    | nil => simpa using contDiff_const
    | cons k ks =>
      simp only [List.map_cons, List.zipWith_cons_cons, List.sum_cons]
      exact (contDiff_const.smul (hk k (by simp))).add (ih ks fun k' h' => hk k' (by simp [h']))

theorem contDiff_slopes {m : WithTop ℕ∞} {f : ℝ → E → E} (hf : ContDiff ℝ m fun z : ℝ × E => f z.1 z.2) (ss : List (ℝ × List ℝ)) (ks : List (ℝ × ℝ × E → E))
    (hk : ∀ k ∈ ks, ContDiff ℝ m k) : ∃ ls : List (ℝ × ℝ × E → E), (∀ l ∈ ls, ContDiff ℝ m l) ∧
      ∀ z : ℝ × ℝ × E, slopes f z.1 z.2.1 z.2.2 ss (ks.map fun k => k z) = ls.map fun l => l z := by
  induction ss generalizing ks with
  | nil => exact ⟨ks, hk, fun z => rfl⟩
  | cons s ss ih =>
    have hnew : ContDiff ℝ m fun z : ℝ × ℝ × E => f (z.2.1 + s.1 * z.1) (z.2.2 + z.1 • Evolution.comb s.2 (ks.map fun k => k z)) := by
      have h1 : ContDiff ℝ m fun z : ℝ × ℝ × E => z.2.1 + s.1 * z.1 := by fun_prop
      have h2 : ContDiff ℝ m fun z : ℝ × ℝ × E => z.2.2 + z.1 • Evolution.comb s.2 (ks.map fun k => k z) :=
        contDiff_snd.snd.add (contDiff_fst.smul (contDiff_comb s.2 ks hk))
      exact hf.comp (h1.prodMk h2)
    obtain ⟨ls, h1, h2⟩ := ih (ks ++ [fun z => f (z.2.1 + s.1 * z.1) (z.2.2 + z.1 • Evolution.comb s.2 (ks.map fun k => k z))])
      (by
        intro k h
        rcases List.mem_append.1 h with h | h
        · exact hk k h
        · rw [List.mem_singleton.1 h]; exact hnew)
    refine ⟨ls, h1, fun z => ?_⟩
    rw [← h2 z, slopes, List.map_append]
    rfl

theorem contDiff_increment {m : WithTop ℕ∞} (T : Tableau) {f : ℝ → E → E} (hf : ContDiff ℝ m fun z : ℝ × E => f z.1 z.2) :
    ContDiff ℝ m fun z : ℝ × ℝ × E => increment T f z.1 z.2.1 z.2.2 := by
  obtain ⟨ls, h1, h2⟩ := contDiff_slopes hf T.stages [] (by simp)
  have : (fun z : ℝ × ℝ × E => increment T f z.1 z.2.1 z.2.2) = fun z => Evolution.comb T.weights (ls.map fun l => l z) := by
    funext z
    unfold increment
    rw [← h2 z]
    rfl
  rw [this]
  exact contDiff_comb _ _ h1

end Verif.Converge
