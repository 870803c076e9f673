import Verif.Descent.Lemmas

/-!
# C101: a small step of the training loop lowers the loss
-/

namespace Verif.Descent
open Verif Verif.Tensor Verif.Gradcheck Verif.Whole Verif.Shooting Verif.Evolution Verif.Converge Verif.Assembly Verif.Flow Verif.Models
open scoped Topology

variable {K K' P R H D Θ Rb : Type}

/-! ## One round -/

/-- C101: for a loss that is a differentiable function of particles and costates, one round of the loop with a small learning rate either changes nothing or lowers the loss.  It lowers the loss if some
parameter that is neither frozen nor cut off has a gradient that is not identically zero.  Frozen parameters keep their values, and what is cut off stays within its bound. -/
theorem C101_round [Fintype K] {L : Lay K} (hL : L.Ok) (ha : Apart L) {n : Nat} {loss : (Fin n × K → ℝ) → (Fin n × K → ℝ) → Py ℝ} {ℓ : (Fin n × K → ℝ) × (Fin n × K → ℝ) → ℝ} (hℓ : Differentiable ℝ ℓ)
    (hok : ∀ q p, loss q p = .ok (ℓ (q, p))) {up : ℝ → ℝ → ℝ → ℝ} (hup : Downhill up) (frozen : String → Bool) (clip : String → Option ℝ) {q p : Fin n × K → ℝ} (hin : Inside clip (values L q p)) {g : Grads}
    (hg : Fresh frozen (derivatives L (fun q p => ℓ (q, p)) q p) g) :
    ∃ η₀ : ℝ, 0 < η₀ ∧ ∀ η, 0 < η → η < η₀ → ∃ g' q' p', oneRound L (up η) frozen clip loss q p g = .ok (g', values L q' p') ∧ Inside clip (values L q' p') ∧
      List.Forall₂ (fun e e' => frozen e.1 = true → e = e') (values L q p) (values L q' p') ∧
      ((q', p') = (q, p) ∨ ℓ (q', p') < ℓ (q, p)) ∧
      ((∃ d ∈ derivatives L (fun q p => ℓ (q, p)) q p, frozen d.1 = false ∧ clip d.1 = none ∧ Moves d.2) → ℓ (q', p') < ℓ (q, p)) := by
  have hval : (fun q p => valueOr (loss q p)) = fun q p => ℓ (q, p) := by
    funext q p
    rw [hok]
    rfl
  have hq' : (fun q' => valueOr (loss q' p)) = fun q' => ℓ (q', p) := funext fun q' => congrFun (congrFun hval q') p
  have hp' : (fun p' => valueOr (loss q p')) = fun p' => ℓ (q, p') := congrFun hval q
  obtain ⟨i1, i2⟩ := (inside_values hL q p).1 hin
  choose dq a1 a2 a3 using fun j => step1_small hup (frozen ("" ++ L.key j.2)) (clip ("" ++ L.key j.2)) (q j) (autograd (fun q' => ℓ (q', p)) q j) (i1 j)
  choose dp b1 b2 b3 using fun j => step1_small hup (frozen ("p_" ++ L.key j.2)) (clip ("p_" ++ L.key j.2)) (p j) (autograd (fun p' => ℓ (q, p')) p j) (i2 j)
  have hnn : ∀ {x d : ℝ}, (d ≠ 0 → 0 < x * d) → 0 ≤ x * d := by
    intro x d h
    by_cases hd : d = 0
    · rw [hd, mul_zero]
    · exact (h hd).le
  have hcase : (dq = 0 ∧ dp = 0) ∨ 0 < fderiv ℝ ℓ (q, p) (dq, dp) := by
    rw [along hℓ]
    by_cases h1 : dq = 0
    · by_cases h2 : dp = 0
      · exact .inl ⟨h1, h2⟩
      · obtain ⟨j, hj⟩ := Function.ne_iff.1 h2
        exact .inr (add_pos_of_nonneg_of_pos (Finset.sum_nonneg fun j _ => hnn (a1 j)) (Finset.sum_pos' (fun j _ => hnn (b1 j)) ⟨j, Finset.mem_univ j, b1 j hj⟩))
    · obtain ⟨j, hj⟩ := Function.ne_iff.1 h1
      exact .inr (add_pos_of_pos_of_nonneg (Finset.sum_pos' (fun j _ => hnn (a1 j)) ⟨j, Finset.mem_univ j, a1 j hj⟩) (Finset.sum_nonneg fun j _ => hnn (b1 j)))
  have hev : ∀ᶠ η : ℝ in 𝓝[>] 0, (∀ j, step1 (up η) (frozen ("" ++ L.key j.2)) (clip ("" ++ L.key j.2)) (q j) (autograd (fun q' => ℓ (q', p)) q j) = q j - η * dq j) ∧
      (∀ j, step1 (up η) (frozen ("p_" ++ L.key j.2)) (clip ("p_" ++ L.key j.2)) (p j) (autograd (fun p' => ℓ (q, p')) p j) = p j - η * dp j) ∧
      ((dq = 0 ∧ dp = 0) ∨ ℓ ((q, p) - η • (dq, dp)) < ℓ (q, p)) := by
    refine (Filter.eventually_all.2 a3).and ((Filter.eventually_all.2 b3).and ?_)
    rcases hcase with h | h
    · exact Filter.Eventually.of_forall fun _ => .inl h
    · exact (falls (hℓ (q, p)).hasFDerivAt h).mono fun _ h => .inr h
  obtain ⟨η₀, h0, hη⟩ := mem_nhdsGT_iff_exists_Ioo_subset.1 hev
  refine ⟨η₀, h0, fun η hp0 hlt => ?_⟩
  obtain ⟨e1, e2, e3⟩ := hη ⟨hp0, hlt⟩
  have hrun := oneRound_eq hL ha (up η) frozen clip (hok q p) (g := g) (by rw [hval]; exact hg)
  rw [hq', hp', hval] at hrun
  refine ⟨_, _, _, hrun, (inside_values hL _ _).2 ⟨fun j b hb => ?_, fun j b hb => ?_⟩, ?_, ?_, ?_⟩
  · rw [hb]
    exact step1_inside _ _ _ _ _ (i1 j b hb)
  · rw [hb]
    exact step1_inside _ _ _ _ _ (i2 j b hb)
  · have hfix : ∀ (pre : String) (x d : Fin n × K → ℝ), (∀ j b, clip (pre ++ L.key j.2) = some b → |x j| ≤ b) →
        List.Forall₂ (fun e e' => frozen e.1 = true → e = e') ((enc L pre n x).map fun e => (e.1, e.2.data))
          ((enc L pre n fun j => step1 (up η) (frozen (pre ++ L.key j.2)) (clip (pre ++ L.key j.2)) (x j) (d j)).map fun e => (e.1, e.2.data)) := by
      intro pre x d hx
      unfold enc
      rw [List.map_map, List.map_map, List.forall₂_map_left_iff, List.forall₂_map_right_iff, List.forall₂_same]
      intro e he hf
      simp only [Function.comp] at hf ⊢
      congr 1
      simp only [tab, tabData_eq]
      refine List.map_congr_left fun idx hi => ?_
      obtain ⟨i, k, h1, h2⟩ := value_at hL he hi
      rw [h2, h2]
      dsimp only
      have hf' : frozen (pre ++ L.key k) = true := by rw [h1]; exact hf
      rw [hf']
      cases hc : clip (pre ++ L.key k) with
      | none => simp [step1]
      | some b =>
        have := abs_le.1 (hx (i, k) b hc)
        simp [step1, max_eq_left this.1, min_eq_left this.2]
    unfold values
    rw [List.map_append, List.map_append]
    exact List.rel_append (hfix "" q _ i1) (hfix "p_" p _ i2)
  all_goals
    rw [show (fun j => step1 (up η) (frozen ("" ++ L.key j.2)) (clip ("" ++ L.key j.2)) (q j) (autograd (fun q' => ℓ (q', p)) q j)) = fun j => q j - η * dq j from funext e1,
      show (fun j => step1 (up η) (frozen ("p_" ++ L.key j.2)) (clip ("p_" ++ L.key j.2)) (p j) (autograd (fun p' => ℓ (q, p')) p j)) = fun j => p j - η * dp j from funext e2]
  · rcases e3 with ⟨h1, h2⟩ | h
    · left
      simp [h1, h2]
    · exact .inr h
  · rintro ⟨d, hd, hf, hc, y, hy, hy0⟩
    have hmove : ¬ (dq = 0 ∧ dp = 0) := by
      rintro ⟨h1, h2⟩
      unfold derivatives at hd
      rw [List.map_append, List.mem_append] at hd
      rcases hd with hd | hd
      · obtain ⟨e, he, rfl⟩ := mem_enc hd
        obtain ⟨idx, hi, rfl⟩ := List.mem_map.1 hy
        obtain ⟨i, k, k1, k2⟩ := value_at hL he hi
        rw [k2] at hy0
        dsimp only at hf hc
        rw [← k1] at hf hc
        exact a2 (i, k) hf hc hy0 (congrFun h1 _)
      · obtain ⟨e, he, rfl⟩ := mem_enc hd
        obtain ⟨idx, hi, rfl⟩ := List.mem_map.1 hy
        obtain ⟨i, k, k1, k2⟩ := value_at hL he hi
        rw [k2] at hy0
        dsimp only at hf hc
        rw [← k1] at hf hc
        exact b2 (i, k) hf hc hy0 (congrFun h2 _)
    exact e3.resolve_left hmove

/-! ## The optimizers -/

/-- C101: gradient descent and the first step of Adam are such rules. -/
theorem C101_rules {β₁ β₂ ε : ℝ} (h1 : β₁ ≠ 1) (h2 : β₂ < 1) (hε : 0 < ε) : Downhill sgd ∧ Downhill (adamFirst β₁ β₂ ε) := by
  refine ⟨⟨id, fun _ _ _ => rfl, rfl, fun g hg => mul_self_pos.2 hg⟩, fun g => g / (|g| + ε), fun lr x g => ?_, by simp, fun g hg => ?_⟩
  · have e1 : (1 - β₁) ≠ 0 := sub_ne_zero.2 (Ne.symm h1)
    have e2 : (1 - β₂) ≠ 0 := sub_ne_zero.2 (ne_of_gt h2)
    unfold adamFirst adam
    simp only [mul_zero, zero_add, pow_one]
    rw [mul_div_cancel_left₀ _ e1, mul_div_cancel_left₀ _ e2, Real.sqrt_sq_eq_abs]
  · rw [← mul_div_assoc]
    exact div_pos (mul_self_pos.2 hg) (by positivity)

/-- C101 says nothing about later steps of Adam, and rightly so: whatever the learning rate, a step after a gradient of 1 follows that gradient even if the new one has the opposite sign. -/
theorem C101_momentum {lr : ℝ} (hlr : 0 < lr) : ∃ m v g x : ℝ, (∃ x₀, m = (adam lr 0.9 0.999 1e-8 1 0 0 x₀ 1).2.1 ∧ v = (adam lr 0.9 0.999 1e-8 1 0 0 x₀ 1).2.2) ∧ g < 0 ∧ (adam lr 0.9 0.999 1e-8 2 m v x g).1 < x := by
  refine ⟨_, _, -0.1, 0, ⟨0, rfl, rfl⟩, by norm_num, ?_⟩
  unfold adam
  simp only
  have hs : 0 < Real.sqrt ((0.999 * (0.999 * 0 + (1 - 0.999) * 1 ^ 2) + (1 - 0.999) * (-0.1) ^ 2) / (1 - 0.999 ^ 2)) + 1e-8 := by positivity
  have : 0 < (0.9 * (0.9 * 0 + (1 - 0.9) * 1) + (1 - 0.9) * (-0.1) : ℝ) / (1 - 0.9 ^ 2) := by norm_num
  have := mul_pos hlr (div_pos this hs)
  linarith

end Verif.Descent
