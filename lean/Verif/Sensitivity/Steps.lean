import Verif.Sensitivity.Props

/-!
# C104 for the steps of the integration

In RNN mode the parameters stay what they are at the initial particles and costates.  Then every step of a fixed-step method moves two samples apart at most by a factor that depends only on the norm of the parameters, the
length of the step and the method: whatever the step size is, whether or not the nonlinearity is smooth, and for hand-written formulas as well.
-/

set_option linter.unusedSectionVars false

namespace Verif.Sensitivity
open Set Verif Verif.Tensor Verif.Shooting Verif.Evolution Verif.Models Verif.Converge Verif.Whole Verif.Assembly Verif.Flow Verif.Activation

/-! ## Specification -/

/-- How large the slopes of the stages can be if the right-hand side is at most proportional to the value and `z` is the factor times the step size (relative to that factor times the value). -/
def largest (z : ℝ) : List (ℝ × List ℝ) → List ℝ → List ℝ
  | [], ks => ks
  | s :: ss, ks => largest z ss (ks ++ [1 + z * comb (s.2.map (|·|)) ks])

/-- How large a step can make the value. -/
def factor (T : Tableau) (z : ℝ) : ℝ := 1 + z * comb (T.weights.map (|·|)) (largest z T.stages [])

/-- A step of a method is not worse than `e` to the power of `A` times the step size times the factor of proportionality. -/
def Amplifies (T : Tableau) (A : ℝ) : Prop := 0 ≤ A ∧ ∀ z, 0 ≤ z → factor T z ≤ Real.exp (A * z)

/-! ## Steps -/

section
variable {V E : Type} [AddCommGroup V] [Module ℝ V] [NormedAddCommGroup E] [NormedSpace ℝ E] (G : V →ₗ[ℝ] E)

theorem norm_comb {C : ℝ} (c : List ℝ) {ks : List V} {bs : List ℝ} (h : List.Forall₂ (fun k b => ‖G k‖ ≤ C * b) ks bs) : ‖G (comb c ks)‖ ≤ C * comb (c.map (|·|)) bs := by
  unfold comb
  induction h generalizing c with
  | nil => simp
  | cons h0 _ ih =>
    cases c with
    | nil => simp
    | cons a c =>
      simp only [List.map_cons, List.zipWith_cons_cons, List.sum_cons, map_add, map_smul, smul_eq_mul]
      refine (norm_add_le _ _).trans ?_
      rw [norm_smul, Real.norm_eq_abs, mul_add]
      refine add_le_add ?_ (ih c)
      calc _ ≤ |a| * (C * _) := mul_le_mul_of_nonneg_left h0 (abs_nonneg a)
        _ = _ := by ring

variable {G} {f : ℝ → V → V} {F : ℝ}

theorem norm_slopes (hf : ∀ t z, ‖G (f t z)‖ ≤ F * ‖G z‖) (hF : 0 ≤ F) {h : ℝ} (hh : 0 ≤ h) (t : ℝ) (y : V) (ss : List (ℝ × List ℝ)) {ks : List V} {bs : List ℝ}
    (hk : List.Forall₂ (fun k b => ‖G k‖ ≤ F * ‖G y‖ * b) ks bs) : List.Forall₂ (fun k b => ‖G k‖ ≤ F * ‖G y‖ * b) (slopes f h t y ss ks) (largest (F * h) ss bs) := by
  induction ss generalizing ks bs with
  | nil => exact hk
  | cons s ss ih =>
    rw [slopes, largest]
    refine ih (List.rel_append hk (.cons ?_ .nil))
    refine (hf _ _).trans ?_
    rw [mul_assoc]
    refine mul_le_mul_of_nonneg_left ?_ hF
    rw [map_add, map_smul]
    refine (norm_add_le _ _).trans ?_
    rw [norm_smul, Real.norm_eq_abs, abs_of_nonneg hh]
    have := mul_le_mul_of_nonneg_left (norm_comb G s.2 hk) hh
    nlinarith

/-- One step of a method. -/
theorem norm_step (hf : ∀ t z, ‖G (f t z)‖ ≤ F * ‖G z‖) (hF : 0 ≤ F) (T : Tableau) {h : ℝ} (hh : 0 ≤ h) (t : ℝ) (y : V) : ‖G (y + h • increment T f h t y)‖ ≤ factor T (F * h) * ‖G y‖ := by
  have h1 := norm_comb G T.weights (norm_slopes hf hF hh t y T.stages (ks := []) (bs := []) .nil)
  unfold factor increment
  rw [map_add, map_smul]
  refine (norm_add_le _ _).trans ?_
  rw [norm_smul, Real.norm_eq_abs, abs_of_nonneg hh]
  have := mul_le_mul_of_nonneg_left h1 hh
  nlinarith

theorem norm_between {t t' τ : ℝ} (ht : t ≤ τ) (ht' : τ ≤ t') {y y' : V} {e : ℝ} (hy : ‖G y‖ ≤ e) (hy' : ‖G y'‖ ≤ e) : ‖G (between t t' y y' τ)‖ ≤ e := by
  unfold between
  split_ifs with h1 h2
  · exact hy
  · exact hy'
  · have h3 : t < τ := lt_of_le_of_ne ht (Ne.symm h1)
    have h4 : 0 < t' - t := by linarith
    obtain ⟨l, hl⟩ : ∃ l, l = (τ - t) / (t' - t) := ⟨_, rfl⟩
    have l0 : 0 ≤ l := hl ▸ div_nonneg (by linarith) h4.le
    have l1 : l ≤ 1 := by rw [hl, div_le_one h4]; linarith
    rw [← hl, show y + l • (y' - y) = (1 - l) • y + l • y' by module, map_add, map_smul, map_smul]
    refine (norm_add_le _ _).trans ?_
    rw [norm_smul, norm_smul, Real.norm_eq_abs, Real.norm_eq_abs, abs_of_nonneg l0, abs_of_nonneg (by linarith : (0 : ℝ) ≤ 1 - l)]
    nlinarith

/-- The values at the requested times. -/
theorem norm_outputs {Φ : ℝ → ℝ → V → V} {M : ℝ} (hM : 0 ≤ M) (hΦ : ∀ t t' y, t < t' → ‖G (y + (t' - t) • Φ (t' - t) t y)‖ ≤ Real.exp (M * (t' - t)) * ‖G y‖) {h a b N : ℝ} (hN : 0 ≤ N) (t : ℝ) (x : V)
    (hx : ‖G x‖ ≤ Real.exp (M * (t - a)) * N) (ts : List ℝ) (hm : Mesh h t ts) (hts : ∀ s ∈ ts, s ≤ b) (req : List ℝ) (hs : req.Pairwise (· < ·)) (hr : ∀ τ ∈ req, t ≤ τ ∧ ∃ l ∈ ts.getLast?, τ ≤ l) :
    List.Forall₂ (fun Y τ => ‖G Y‖ ≤ Real.exp (M * (min (τ + h) b - a)) * N) (outputs Φ t x ts req) req := by
  induction ts generalizing t x req with
  | nil =>
    cases req with
    | nil => exact .nil
    | cons τ req => exact absurd (hr τ (by simp)).2 (by simp)
  | cons t' ts ih =>
    rw [outputs]
    have hx' : ‖G (x + (t' - t) • Φ (t' - t) t x)‖ ≤ Real.exp (M * (t' - a)) * N := by
      refine (hΦ t t' x hm.1).trans ?_
      refine (mul_le_mul_of_nonneg_left hx (Real.exp_pos _).le).trans (le_of_eq ?_)
      rw [← mul_assoc, ← Real.exp_add]
      ring_nf
    conv => rhs; rw [← List.takeWhile_append_dropWhile (p := fun τ => decide (τ ≤ t')) (l := req)]
    refine List.rel_append ?_ (ih t' _ hx' hm.2.2 (fun s hs => hts s (List.mem_cons_of_mem _ hs)) _ (hs.sublist (List.dropWhile_sublist _)) ?_)
    · rw [List.forall₂_map_left_iff, List.forall₂_same]
      intro τ hτ
      have h2 : τ ≤ t' := by simpa using List.all_eq_true.1 List.all_takeWhile τ hτ
      have h1 := (hr τ ((List.takeWhile_sublist _).mem hτ)).1
      have h3 : t' ≤ min (τ + h) b := le_min (by linarith [hm.2.1]) (hts t' (by simp))
      have mono : ∀ s, s ≤ t' → Real.exp (M * (s - a)) * N ≤ Real.exp (M * (min (τ + h) b - a)) * N := fun s hs =>
        mul_le_mul_of_nonneg_right (Real.exp_le_exp.2 (mul_le_mul_of_nonneg_left (by linarith) hM)) hN
      exact norm_between h1 h2 (hx.trans (mono t hm.1.le)) (hx'.trans (mono t' le_rfl))
    · intro τ hτ
      have hτ0 := (List.dropWhile_sublist _).mem hτ
      have hgt : t' < τ := by
        have hs' : (req.dropWhile fun τ => decide (τ ≤ t')).Pairwise (· < ·) := hs.sublist (List.dropWhile_sublist _)
        have hne : req.dropWhile (fun τ => decide (τ ≤ t')) ≠ [] := List.ne_nil_of_mem hτ
        have hh := List.head_dropWhile_not (p := fun τ => decide (τ ≤ t')) hne
        simp only [decide_eq_false_iff_not, not_le] at hh
        obtain ⟨u, us, hu⟩ := List.exists_cons_of_ne_nil hne
        rw [hu] at hτ hs'
        have hhu : t' < u := by simpa [hu] using hh
        rcases List.mem_cons.1 hτ with rfl | hτ
        · exact hhu
        · exact hhu.trans ((List.pairwise_cons.1 hs').1 τ hτ)
      refine ⟨hgt.le, ?_⟩
      obtain ⟨l, hl, hle⟩ := (hr τ hτ0).2
      cases ts with
      | nil =>
        simp at hl
        linarith
      | cons u us =>
        rw [List.getLast?_cons_cons] at hl
        exact ⟨l, hl, hle⟩

end

variable {ι β K K' P R H D Θ Rb : Type} [Fintype ι] [Fintype β] [Fintype K] [Fintype K'] [Fintype P]

/-- The difference of two samples. -/
noncomputable def gap (i i' : β) : Sys2 ι β K K' →ₗ[ℝ] EuclideanSpace ℝ K' where
  toFun z := WithLp.toLp 2 fun k => z.2.2 (i, k) - z.2.2 (i', k)
  map_add' z z' := by
    ext k
    show z.2.2 (i, k) + z'.2.2 (i, k) - (z.2.2 (i', k) + z'.2.2 (i', k)) = (z.2.2 (i, k) - z.2.2 (i', k)) + (z'.2.2 (i, k) - z'.2.2 (i', k))
    ring
  map_smul' a z := by
    ext k
    show a * z.2.2 (i, k) - a * z.2.2 (i', k) = a * (z.2.2 (i, k) - z.2.2 (i', k))
    ring

theorem norm_gap (i i' : β) (z : Sys2 ι β K K') : ‖gap i i' z‖ = dist2 z.2.2 i i' := by
  rw [EuclideanSpace.norm_eq]
  unfold dist2
  simp only [Real.norm_eq_abs, sq_abs]
  rfl

theorem gap_field {f : Class K P} {g : Class K' P} {c : ℝ} (hc : 0 ≤ c) (hg : Controlled c g) (m : Mode ι K P) {θ : P → ℝ} (hm : ∀ t q p, m.params t q p = θ) (i i' : β) (t : ℝ) (z : Sys2 ι β K K') :
    ‖gap i i' (Evolution.field2 f g m t z)‖ ≤ c * √(∑ r, θ r ^ 2) * ‖gap i i' z‖ := by
  rw [norm_gap, norm_gap]
  unfold dist2 Evolution.field2
  dsimp only
  rw [hm]
  refine (Real.sqrt_le_sqrt (hg β θ z.2.2 i i')).trans (le_of_eq ?_)
  rw [Real.sqrt_mul (mul_nonneg (sq_nonneg c) (Finset.sum_nonneg fun _ _ => sq_nonneg _)), Real.sqrt_mul (sq_nonneg c), Real.sqrt_sq hc]

/-- C104: a step of a method with the same parameters throughout. -/
theorem C104_step {f : Class K P} {g : Class K' P} {c : ℝ} (hc : 0 ≤ c) (hg : Controlled c g) (m : Mode ι K P) {θ : P → ℝ} (hm : ∀ t q p, m.params t q p = θ) (T : Tableau) {h : ℝ} (hh : 0 ≤ h) (t : ℝ)
    (y : Sys2 ι β K K') (i i' : β) : dist2 (y + h • increment T (Evolution.field2 f g m) h t y).2.2 i i' ≤ factor T (c * √(∑ r, θ r ^ 2) * h) * dist2 y.2.2 i i' := by
  rw [← norm_gap, ← norm_gap]
  exact norm_step (fun t z => gap_field hc hg m hm i i' t z) (by positivity) T hh t y

/-- Euler's method, the midpoint rule and the classical method of Runge and Kutta amplify no more than the exact solution can; the 3/8 rule by the power 3/2 more. -/
theorem C104_methods : Amplifies Converge.euler 1 ∧ Amplifies Converge.midpoint 1 ∧ Amplifies Converge.rk4 1 ∧ Amplifies Converge.rk38 (3 / 2) := by
  have key : ∀ z : ℝ, 0 ≤ z → 1 + z + z ^ 2 / 2 + z ^ 3 / 6 + z ^ 4 / 24 ≤ Real.exp z := by
    intro z hz
    have := Real.sum_le_exp_of_nonneg hz 5
    simp only [Finset.sum_range_succ, Finset.sum_range_zero, Nat.factorial] at this
    norm_num at this
    linarith
  refine ⟨⟨zero_le_one, fun z hz => ?_⟩, ⟨zero_le_one, fun z hz => ?_⟩, ⟨zero_le_one, fun z hz => ?_⟩, ⟨by norm_num, fun z hz => ?_⟩⟩
  · refine le_trans ?_ (key (1 * z) (by linarith))
    have h2 := pow_nonneg hz 2
    have h3 := pow_nonneg hz 3
    have h4 := pow_nonneg hz 4
    simp only [factor, Converge.euler, largest, comb, List.map_nil, List.map_cons, List.zipWith_nil_left, List.zipWith_cons_cons, List.nil_append, List.sum_nil, List.sum_cons, smul_eq_mul]
    norm_num
    nlinarith
  · refine le_trans ?_ (key (1 * z) (by linarith))
    have h2 := pow_nonneg hz 2
    have h3 := pow_nonneg hz 3
    have h4 := pow_nonneg hz 4
    simp only [factor, Converge.midpoint, largest, comb, List.map_nil, List.map_cons, List.zipWith_nil_left, List.zipWith_cons_cons, List.nil_append, List.cons_append, List.sum_nil, List.sum_cons, smul_eq_mul]
    norm_num [abs_of_pos]
    nlinarith
  · refine le_trans ?_ (key (1 * z) (by linarith))
    simp only [factor, Converge.rk4, largest, comb, List.map_nil, List.map_cons, List.zipWith_nil_left, List.zipWith_cons_cons, List.nil_append, List.cons_append, List.sum_nil, List.sum_cons, smul_eq_mul]
    norm_num [abs_of_pos]
    nlinarith
  · refine le_trans ?_ (key (3 / 2 * z) (by linarith))
    have h2 := pow_nonneg hz 2
    have h3 := pow_nonneg hz 3
    have h4 := pow_nonneg hz 4
    simp only [factor, Converge.rk38, largest, comb, List.map_nil, List.map_cons, List.zipWith_nil_left, List.zipWith_cons_cons, List.nil_append, List.cons_append, List.sum_nil, List.sum_cons, smul_eq_mul]
    norm_num [abs_of_pos]
    nlinarith

/-! ## Forward passes -/

theorem report_differ (L : Lay K) {L' : Lay K'} (hL' : L'.Ok) (nm : String) {key : String} {sh : List Nat} (hkey : (key, sh) ∈ L'.names) {n B : Nat} (s : Block.St ℝ ℝ Θ) (w : Block.When ℝ) {a : ℝ}
    {ts : List ℝ} (hw : w.times = a :: ts) {bd : Fin B → Fin B → ℝ → ℝ} {ys : List (Sys2 (Fin n) (Fin B) K K')}
    (h : List.Forall₂ (fun Y τ => ∀ i i', dist2 Y.2.2 i i' ≤ bd i i' τ) ys (a :: ts)) :
    ∃ o t, (report L L' nm key sh s w (.ok ys)).2 = .ok o ∧ o.result = .tensor t ∧ Differ L' key bd t w := by
  cases w with
  | upTo e =>
    obtain ⟨rfl, rfl⟩ : 0 = a ∧ [e] = ts := List.cons.inj hw
    obtain ⟨Y₀, l, _, h1, rfl⟩ := List.forall₂_cons_right_iff.1 h
    obtain ⟨Y, l', h2, h3, rfl⟩ := List.forall₂_cons_right_iff.1 h1
    cases h3
    refine ⟨outEnd L L' nm key sh Y, _, rfl, rfl, fun i i' k hk => ?_⟩
    obtain ⟨t, g1, _, g3⟩ := (C67_output L hL' nm hkey (n := n) i k hk).1 Y
    obtain rfl := Block.Result.tensor.inj g1
    obtain ⟨t', g1', _, g3'⟩ := (C67_output L hL' nm hkey (n := n) i' k hk).1 Y
    obtain rfl := Block.Result.tensor.inj g1'
    exact ⟨_, _, g3, g3', (entry_le _ i i' k).trans (h2 i i')⟩
  | vector v =>
    have hv : v = a :: ts := hw
    subst hv
    refine ⟨outTimes L L' nm key sh ys, _, rfl, rfl, fun j hj i i' k hk => ?_⟩
    obtain ⟨t, g1, _, g3⟩ := (C67_output L hL' nm hkey (n := n) i k hk).2 ys
    obtain rfl := Block.Result.tensor.inj g1
    obtain ⟨t', g1', _, g3'⟩ := (C67_output L hL' nm hkey (n := n) i' k hk).2 ys
    obtain rfl := Block.Result.tensor.inj g1'
    have hj' : j < ys.length := by rw [h.length_eq]; exact hj
    exact ⟨_, _, g3 j hj', g3' j hj', (entry_le _ i i' k).trans (h.get hj' hj i i')⟩

theorem Differ.mono_on {L : Lay K} {B : Nat} {key : String} {b₁ b₂ : Fin B → Fin B → ℝ → ℝ} {t : Tensor ℝ} {w : Block.When ℝ} {a : ℝ} {ts : List ℝ} (hw : w.times = a :: ts) (h : ∀ i i' τ, τ ∈ a :: ts → b₁ i i' τ ≤ b₂ i i' τ)
    (hd : Differ L key b₁ t w) : Differ L key b₂ t w := by
  cases w with
  | upTo e =>
    obtain ⟨rfl, rfl⟩ : 0 = a ∧ [e] = ts := List.cons.inj hw
    intro i i' k hk
    obtain ⟨v, v', g1, g2, g3⟩ := hd i i' k hk
    exact ⟨v, v', g1, g2, g3.trans (h _ _ _ (by simp))⟩
  | vector vs =>
    have hv : vs = a :: ts := hw
    subst hv
    intro j hj i i' k hk
    obtain ⟨v, v', g1, g2, g3⟩ := hd j hj i i' k hk
    exact ⟨v, v', g1, g2, g3.trans (h _ _ _ (List.getElem_mem hj))⟩

theorem le_last {l : List ℝ} (hi : l.Pairwise (· < ·)) {b : ℝ} (hl : l.getLast? = some b) : ∀ s ∈ l, s ≤ b := by
  induction l with
  | nil => simp
  | cons t l ih =>
    intro s hs
    cases l with
    | nil =>
      rw [List.mem_singleton.1 hs]
      exact (Option.some.inj hl).le
    | cons u l =>
      rw [List.getLast?_cons_cons] at hl
      rcases List.mem_cons.1 hs with rfl | hs
      · exact ((List.pairwise_cons.1 hi).1 u (by simp)).le.trans (ih (List.pairwise_cons.1 hi).2 hl u (by simp))
      · exact ih (List.pairwise_cons.1 hi).2 hl s hs

/-- C104 for forward passes in RNN mode, with any step size, any nonlinearity and automatic differentiation or hand-written formulas: every entry of the predictions of two samples differs at most by their distance times a
factor that depends only on the norm of the parameters at the initial particles and costates, the time (up to the end of the step in which it lies) and the method. -/
theorem C104_steps {c : Cls K K' P R} (hL : c.lay.Ok) (hL' : c.dataLay.Ok) {k : ℝ} (hk : 0 ≤ k) (hg : Controlled k c.dataRhs) {T : Tableau} (hT : T.Consistent) {A : ℝ} (hA : Amplifies T A) {G : List ℝ → List ℝ}
    {icfg : Θ → Nat → Integrand.Cfg ℝ (Trip ℝ) (Par P R) (Concat.TDicts ℝ) ℝ R H D} {s0 : Integrand.St ℝ (Par P R) ℝ H D × (Nat → R × R)} {cfg : Block.Cfg ℝ ℝ Θ Rb} (hb : IsBlock c (solver T G) icfg s0 cfg)
    (hu : s0.1.useRnn = true) (he : s0.1.external = false) (hn : s0.1.cache = none) {s : Block.St ℝ ℝ Θ} (hdd : DimOk c.dataLay s.dataDim) {w : Block.When ℝ} (hw : Block.Is s w) {a b : ℝ} {ts : List ℝ}
    (hwt : w.times = a :: ts) (hinc : (a :: ts).Pairwise (· < ·)) (hb' : (a :: ts).getLast? = some b) {h : ℝ} (hh : 0 ≤ h) (hgr : Suits h G a ts) {n B : Nat} {q p : Fin n × K → ℝ} {x : Fin B × K' → ℝ}
    (hq : s.state = some (enc c.lay "" n q)) (hp : s.costate = some (enc c.lay "p_" n p)) {X : Tensor ℝ} (hX : cfg.initialData X = .ok (enc c.dataLay "" B x)) (r : Rb) :
    ∃ o t, (Block.forward cfg r ⟨some X, none, none, none⟩ s).2 = .ok o ∧ o.result = .tensor t ∧
      Differ c.dataLay cfg.outKey (fun i i' τ => Real.exp (A * (k * √(∑ j, c.par n (s0.2 0).1 q p j ^ 2)) * (min (τ + h) b - a)) * dist2 x i i') t w := by
  obtain ⟨sh, hkey⟩ := hb.key
  obtain ⟨g, e1, e2, hm⟩ := hgr
  have hM : 0 ≤ A * (k * √(∑ j, c.par n (s0.2 0).1 q p j ^ 2)) := mul_nonneg hA.1 (by positivity)
  rw [C67_forward_rnn hL hL' hb hu he hn hdd hw hq hp hX hkey r (c.par n (s0.2 0).1 q p, (s0.2 0).1) ?_, hwt, run_solver _ T G a ts g _ ((increasing_iff _).2 hinc) e1 e2]
  · refine report_differ _ hL' _ hkey s w hwt (.cons ?_ ?_)
    · intro i i'
      have hab : 0 ≤ min (a + h) b - a := sub_nonneg.2 (le_min (by linarith) (le_last hinc hb' a (by simp)))
      have h1 : 1 ≤ Real.exp (A * (k * √(∑ j, c.par n (s0.2 0).1 q p j ^ 2)) * (min (a + h) b - a)) := Real.one_le_exp (mul_nonneg hM hab)
      exact le_mul_of_one_le_left (Real.sqrt_nonneg _) h1
    · have hr : ∀ τ ∈ ts, a ≤ τ ∧ ∃ l ∈ g.getLast?, τ ≤ l := fun τ hτ => by
        refine ⟨((List.pairwise_cons.1 hinc).1 τ hτ).le, ?_⟩
        have hlt : a < b := ((List.pairwise_cons.1 hinc).1 τ hτ).trans_le (le_last hinc hb' τ (List.mem_cons_of_mem _ hτ))
        cases g with
        | nil =>
          rw [hb'] at e2
          exact absurd (Option.some.inj e2) hlt.ne
        | cons u g =>
          rw [List.getLast?_cons_cons, hb'] at e2
          exact ⟨b, e2, le_last hinc hb' τ (List.mem_cons_of_mem _ hτ)⟩
      have hgb : ∀ s ∈ g, s ≤ b := fun s hs => (hm.le_last s (List.mem_cons_of_mem _ hs)).trans (le_of_eq (by
        rw [List.getLast?_eq_some_getLast (by simp), hb'] at e2
        exact Option.some.inj e2))
      have hl := (norm_outputs (G := (0 : Sys2 (Fin n) (Fin B) K K' →ₗ[ℝ] ℝ)) (Φ := increment T (Evolution.field2 c.rhs c.dataRhs (modeAt c n (c.par n (s0.2 0).1 q p, (s0.2 0).1)))) hM
        (fun _ _ _ _ => by simp) (a := a) le_rfl a (q, p, x) (by simp) g hm hgb ts (List.pairwise_cons.1 hinc).2 hr).length_eq
      refine List.forall₂_iff_get.2 ⟨hl, fun j h1 h2 i i' => ?_⟩
      have := norm_outputs (G := gap i i') (Φ := increment T (Evolution.field2 c.rhs c.dataRhs (modeAt c n (c.par n (s0.2 0).1 q p, (s0.2 0).1)))) hM (fun t t' y ht => ?_) (a := a) (norm_nonneg (gap i i' (q, p, x))) a (q, p, x)
        (by simp) g hm hgb ts (List.pairwise_cons.1 hinc).2 hr
      · have h3 := (List.forall₂_iff_get.1 this).2 j h1 h2
        rw [norm_gap, norm_gap] at h3
        exact h3
      · have h3 := norm_step (fun t z => gap_field hk hg (modeAt c n (c.par n (s0.2 0).1 q p, (s0.2 0).1)) (fun _ _ _ => rfl) i i' t z) (by positivity) T (sub_pos.2 ht).le t y (f := Evolution.field2 c.rhs c.dataRhs _)
        refine h3.trans (mul_le_mul_of_nonneg_right ((hA.2 _ (mul_nonneg (by positivity) (sub_pos.2 ht).le)).trans (le_of_eq ?_)) (norm_nonneg _))
        rw [mul_assoc A]
  · intro z hz
    rw [firstEval_solver hT G _ _ z hz]

/-- The same in terms of the norm penalty of the parameters. -/
theorem C104_steps_penalty {L : Lay K} (hL : L.Ok) {L' : Lay K'} (hL' : L'.Ok) (f : Class K P) {g : Class K' P} {k : ℝ} (hk : 0 ≤ k) (hg : Controlled k g) (wt : P → Option ℝ) {m : ℝ} (hm : 0 < m) (hw : ∀ r, m ≤ weight wt r)
    {T : Tableau} (hT : T.Consistent) {A : ℝ} (hA : Amplifies T A) {G : List ℝ → List ℝ}
    {icfg : Θ → Nat → Integrand.Cfg ℝ (Trip ℝ) (Par P (P → ℝ)) (Concat.TDicts ℝ) ℝ (P → ℝ) H D} {s0 : Integrand.St ℝ (Par P (P → ℝ)) ℝ H D × (Nat → (P → ℝ) × (P → ℝ))} {cfg : Block.Cfg ℝ ℝ Θ Rb}
    (hb : IsBlock ((rnnCls L f wt).withData L' g) (solver T G) icfg s0 cfg) (hu : s0.1.useRnn = true) (he : s0.1.external = false) (hn : s0.1.cache = none) {s : Block.St ℝ ℝ Θ} (hdd : DimOk L' s.dataDim)
    {w : Block.When ℝ} (hwi : Block.Is s w) {a b : ℝ} {ts : List ℝ} (hwt : w.times = a :: ts) (hinc : (a :: ts).Pairwise (· < ·)) (hb' : (a :: ts).getLast? = some b) {h : ℝ} (hh : 0 ≤ h) (hgr : Suits h G a ts)
    {n B : Nat} {q p : Fin n × K → ℝ} {x : Fin B × K' → ℝ} (hq : s.state = some (enc L "" n q)) (hp : s.costate = some (enc L "p_" n p)) {X : Tensor ℝ} (hX : cfg.initialData X = .ok (enc L' "" B x)) (r : Rb) :
    ∃ o t, (Block.forward cfg r ⟨some X, none, none, none⟩ s).2 = .ok o ∧ o.result = .tensor t ∧
      Differ L' cfg.outKey (fun i i' τ => Real.exp (A * (k * √(2 * kineticEnergy wt (directParameters (f (Fin n)) wt (s0.2 0).1 q p) / m)) * (min (τ + h) b - a)) * dist2 x i i') t w := by
  obtain ⟨o, t, h1, h2, h3⟩ := C104_steps (c := (rnnCls L f wt).withData L' g) hL hL' hk hg hT hA hb hu he hn hdd hwi hwt hinc hb' hh hgr hq hp hX r
  refine ⟨o, t, h1, h2, h3.mono_on hwt fun i i' τ hτ => ?_⟩
  have hab : 0 ≤ min (τ + h) b - a := by
    have h4 : a ≤ τ := by
      rcases List.mem_cons.1 hτ with rfl | hτ
      · exact le_rfl
      · exact ((List.pairwise_cons.1 hinc).1 τ hτ).le
    exact sub_nonneg.2 (le_min (by linarith) (le_last hinc hb' a (by simp)))
  refine mul_le_mul_of_nonneg_right (Real.exp_le_exp.2 (mul_le_mul_of_nonneg_right (mul_le_mul_of_nonneg_left (mul_le_mul_of_nonneg_left ?_ hk) hA.1) hab)) (Real.sqrt_nonneg _)
  exact (Real.sqrt_le_left (Real.sqrt_nonneg _)).2 (norm_le_penalty wt hm hw _)

/-! ## Instances -/

/-- `C104_step`: a long step (of length 7) of Euler's method with `relu` and parameters of norm 3. -/
example (y : Sys (Fin 2) (Fin 5) (Two (Fin 1) (Fin 2) (Fin 6))) (i i' : Fin 5) :
    dist2 (y + (7 : ℝ) • increment Converge.euler (Evolution.field2 (fun _ => upDown relu) (fun _ => upDown relu) (Evolution.given (fun _ => upDown relu) (fun _ => none) fun _ r => if r = .inl (0, none) then 3 else 0)) 7 0 y).2.2 i i' ≤
      22 * dist2 y.2.2 i i' := by
  have h := C104_step (f := fun _ => upDown relu) (c := 1) zero_le_one (C104_classes (C := Fin 1) (D := Fin 2) (E := Fin 6) (L := 1) (lip_pair .relu) le_rfl).2.1
    (Evolution.given (fun _ => upDown relu : Class (Two (Fin 1) (Fin 2) (Fin 6)) _) (fun _ => none) fun _ r => if r = .inl (0, none) then 3 else 0) (fun _ _ _ => rfl) Converge.euler (h := 7) (by norm_num) 0 y i i'
  have e : (∑ r : UpDownPar (Fin 2) (Fin 6), (if r = .inl (0, none) then (3 : ℝ) else 0) ^ 2) = 3 ^ 2 := by
    rw [Finset.sum_eq_single (Sum.inl (0, none) : UpDownPar (Fin 2) (Fin 6))] <;> simp +contextual
  rw [e, Real.sqrt_sq (by norm_num)] at h
  refine h.trans (mul_le_mul_of_nonneg_right (le_of_eq ?_) (Real.sqrt_nonneg _))
  norm_num [factor, Converge.euler, largest, comb]

/-- `C104_steps` and `C104_steps_penalty`: a batch of any numbers, the nonlinearity `relu`, Euler's method with any step size. -/
example (ρ) (q p : Fin 3 × (Fin 1 × Fin 1) → ℝ) (x : List ℝ) {h : ℝ} (hh : 0 < h) :
    ∃ o t, (Block.forward (Ordering.lineCfg (rnnCls (layOne 1 1) (fun _ => simple relu) fun _ => none) true ρ (solver Converge.euler (stepGrid h))) () ⟨some (demoInput x), none, none, none⟩ (Ordering.lineSt q p)).2 = .ok o ∧
      o.result = .tensor t ∧ Differ (layOne 1 1) "q1" (fun i i' τ => Real.exp (1 * (1 * √(2 * kineticEnergy (fun _ => none) (directParameters (simple relu) (fun _ => none) (ρ 0).1 q p) / 1)) * (min (τ + h) 1 - 0)) *
        dist2 (fun k : Fin x.length × (Fin 1 × Fin 1) => x[k.1]) i i') t (.upTo 1) := by
  have hw : ∀ r : Layer (Fin 1) (Fin 1), 1 ≤ weight (fun _ => none) r := fun _ => by norm_num [weight]
  have hinc : [(0 : ℝ), 1].Pairwise (· < ·) := by simp
  exact C104_steps_penalty (layOne_ok 1 1) (layOne_ok 1 1) (fun _ => simple relu) zero_le_one (C104_classes (C := Fin 1) (D := Fin 1) (E := Fin 1) (L := 1) (lip_pair .relu) le_rfl).1 (fun _ => none) zero_lt_one hw C68_methods.1 C104_methods.1
    (Ordering.line_isBlock (rnnCls (layOne 1 1) (fun _ => simple relu) fun _ => none) rfl rfl true ρ _) rfl rfl rfl ((C67_layouts 1 1 1).2 2 le_rfl).1 (w := .upTo 1) ⟨rfl, rfl⟩ (ts := [1]) rfl hinc rfl hh.le
    (stepGrid_suits hh 0 [1] hinc) rfl rfl (Ordering.line_initial _ _ _ _ _) ()

end Verif.Sensitivity
