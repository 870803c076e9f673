import Verif.Spheres.Model
import Mathlib.Tactic.NormNum
import Mathlib.Tactic.Linarith
import Mathlib.Tactic.FieldSimp
import Mathlib.Tactic.Positivity
import Mathlib.Tactic.Ring

/-!
# C72: the concentric-spheres experiment and the image data loaders
-/

namespace Verif.Spheres
open Verif

/-! ## Points -/

theorem distance_mem (dim : Nat) (lo hi u : ℝ) (h : lo ≤ hi) (hu0 : 0 ≤ u) (hu1 : u < 1) : lo ≤ distance dim lo hi u ∧ distance dim lo hi u ≤ hi := by
  unfold distance
  have h0 : 0 ≤ u ^ (1 / (dim : ℝ)) := Real.rpow_nonneg hu0 _
  have h1 : u ^ (1 / (dim : ℝ)) ≤ 1 := Real.rpow_le_one hu0 hu1.le (by positivity)
  constructor <;> nlinarith

theorem norm2_scale {dim : Nat} (c : ℝ) (hc : 0 ≤ c) (x : Fin dim → ℝ) : norm2 (fun i => c * x i) = c * norm2 x := by
  unfold norm2
  simp only [mul_pow]
  rw [← Finset.mul_sum, Real.sqrt_mul (by positivity), Real.sqrt_sq hc]

theorem norm2_unit {dim : Nat} (x : Fin dim → ℝ) (h : norm2 x ≠ 0) : norm2 (fun i => x i / norm2 x) = 1 := by
  have e : (fun i => x i / norm2 x) = fun i => (norm2 x)⁻¹ * x i := by
    funext i
    rw [div_eq_inv_mul]
  have hn : 0 ≤ norm2 x := Real.sqrt_nonneg _
  rw [e, norm2_scale _ (inv_nonneg.2 hn), inv_mul_cancel₀ h]

/-- C72: a random point lies on the sphere with the drawn radius, and that radius is in the requested range. -/
theorem C72_radius (dim : Nat) (hdim : dim ≠ 0) (lo hi u : ℝ) (hlo : 0 ≤ lo) (h : lo ≤ hi) (hu0 : 0 ≤ u) (hu1 : u < 1) (dir : Fin dim → ℝ) (hdir : norm2 dir ≠ 0) :
    ∃ x, randomPoint dim lo hi u dir = .ok (some x) ∧ norm2 x = distance dim lo hi u ∧ lo ≤ norm2 x ∧ norm2 x ≤ hi := by
  have hm := distance_mem dim lo hi u h hu0 hu1
  have hn : norm2 (fun i => distance dim lo hi u * (dir i / norm2 dir)) = distance dim lo hi u := by
    rw [norm2_scale _ (hlo.trans hm.1), norm2_unit dir hdir, mul_one]
  refine ⟨_, by rw [randomPoint, if_neg hdim, if_neg hdir], hn, ?_, ?_⟩ <;> rw [hn]
  · exact hm.1
  · exact hm.2

example : norm2 (fun _ : Fin 2 => (1 : ℝ)) ≠ 0 := by
  unfold norm2
  rw [Real.sqrt_ne_zero']
  simp

/-- C72: in dimension zero an exception is raised; a zero direction gives NaN. -/
theorem C72_degenerate (lo hi u : ℝ) : (∀ dir, randomPoint 0 lo hi u dir = .error .zeroDivision) ∧ ∀ dim, dim ≠ 0 → randomPoint dim lo hi u (fun _ => 0) = .ok none := by
  refine ⟨fun _ => rfl, fun dim h => ?_⟩
  rw [randomPoint, if_neg h, if_pos]
  simp [norm2]

/-- C72: how the radius is distributed: for a uniform `u`, the radius is at most `r` with probability `((r - lo)/(hi - lo))^dim`. -/
theorem C72_distribution (dim : Nat) (hdim : dim ≠ 0) (lo hi u r : ℝ) (h : lo < hi) (hu0 : 0 ≤ u) (hr : lo ≤ r) : distance dim lo hi u ≤ r ↔ u ≤ ((r - lo) / (hi - lo)) ^ dim := by
  unfold distance
  have hd : 0 < hi - lo := by linarith
  have hq : 0 ≤ (r - lo) / (hi - lo) := div_nonneg (by linarith) hd.le
  have h1 : (hi - lo) * u ^ (1 / (dim : ℝ)) + lo ≤ r ↔ u ^ (1 / (dim : ℝ)) ≤ (r - lo) / (hi - lo) := by
    rw [le_div_iff₀ hd]
    constructor <;> intro h <;> linarith
  rw [h1, one_div, Real.rpow_inv_le_iff_of_pos hu0 hq (by positivity), Real.rpow_natCast]

/-- C72: the inner ball is filled uniformly (the probability of radius at most `r` is the share of the volume); the outer shell is not: with the ranges of `cc.py` a quarter of the points lies within radius `5/4`,
where nine twentieths of the area are. -/
theorem C72_uniform :
    (∀ (dim : Nat) (hi u r : ℝ), dim ≠ 0 → 0 < hi → 0 ≤ u → 0 ≤ r → (distance dim 0 hi u ≤ r ↔ u ≤ r ^ dim / hi ^ dim)) ∧
      (∀ u : ℝ, 0 ≤ u → (distance 2 1 (3 / 2) u ≤ 5 / 4 ↔ u ≤ 1 / 4)) ∧ ((5 / 4 : ℝ) ^ 2 - 1 ^ 2) / ((3 / 2) ^ 2 - 1 ^ 2) = 9 / 20 := by
  refine ⟨fun dim hi u r hd hh hu hr => ?_, fun u hu => ?_, by norm_num⟩
  · rw [C72_distribution dim hd 0 hi u r hh hu hr, sub_zero, sub_zero, div_pow]
  · rw [C72_distribution 2 (by norm_num) 1 (3 / 2) u (5 / 4) (by norm_num) hu (by norm_num)]
    norm_num

/-! ## The data set -/

theorem spherePoints_ok (dim : Nat) (hdim : dim ≠ 0) (range : ℝ × ℝ) (hlo : 0 ≤ range.1) (h : range.1 ≤ range.2) (label start n : Nat) (draw : Nat → ℝ × (Fin dim → ℝ))
    (hu : ∀ k, 0 ≤ (draw k).1 ∧ (draw k).1 < 1) (hdir : ∀ k, norm2 (draw k).2 ≠ 0) :
    ∃ l, spherePoints dim range label start n draw = .ok l ∧ l.length = n ∧ ∀ p ∈ l, p.2 = label ∧ ∃ x, p.1 = some x ∧ range.1 ≤ norm2 x ∧ norm2 x ≤ range.2 := by
  unfold spherePoints
  have key : ∀ ks : List Nat, ∃ l, (ks.mapM fun k => (randomPoint dim range.1 range.2 (draw (start + k)).1 (draw (start + k)).2).map fun x => (x, label)) = .ok l ∧ l.length = ks.length ∧
      ∀ p ∈ l, p.2 = label ∧ ∃ x, p.1 = some x ∧ range.1 ≤ norm2 x ∧ norm2 x ≤ range.2 := by
    intro ks
    induction ks with
    | nil => exact ⟨[], rfl, rfl, by simp⟩
    | cons k ks ih =>
      obtain ⟨l, hl, hlen, hmem⟩ := ih
      obtain ⟨x, hx, _, h1, h2⟩ := C72_radius dim hdim range.1 range.2 (draw (start + k)).1 hlo h (hu _).1 (hu _).2 (draw (start + k)).2 (hdir _)
      refine ⟨(some x, label) :: l, ?_, by simp [hlen], ?_⟩
      · rw [List.mapM_cons, hx, hl]
        rfl
      · intro p hp
        rcases List.mem_cons.1 hp with rfl | hp
        · exact ⟨rfl, x, rfl, h1, h2⟩
        · exact hmem p hp
  simpa using key (List.range n)

/-- C72: the data set has the requested numbers of points, the inner ones first with label 0, then the outer ones with label 1, each with its radius in the range of its label. -/
theorem C72_dataset (dim : Nat) (hdim : dim ≠ 0) (inner outer : ℝ × ℝ) (hi0 : 0 ≤ inner.1) (hi : inner.1 ≤ inner.2) (ho0 : 0 ≤ outer.1) (ho : outer.1 ≤ outer.2) (nInner nOuter : Nat)
    (draw : Nat → ℝ × (Fin dim → ℝ)) (hu : ∀ k, 0 ≤ (draw k).1 ∧ (draw k).1 < 1) (hdir : ∀ k, norm2 (draw k).2 ≠ 0) :
    ∃ l, concentric dim inner outer nInner nOuter draw = .ok l ∧ l.map Prod.snd = List.replicate nInner 0 ++ List.replicate nOuter 1 ∧
      ∀ p ∈ l, ∃ x, p.1 = some x ∧ (p.2 = 0 ∧ inner.1 ≤ norm2 x ∧ norm2 x ≤ inner.2 ∨ p.2 = 1 ∧ outer.1 ≤ norm2 x ∧ norm2 x ≤ outer.2) := by
  obtain ⟨a, ha, hal, ham⟩ := spherePoints_ok dim hdim inner hi0 hi 0 0 nInner draw hu hdir
  obtain ⟨b, hb, hbl, hbm⟩ := spherePoints_ok dim hdim outer ho0 ho 1 nInner nOuter draw hu hdir
  refine ⟨a ++ b, ?_, ?_, ?_⟩
  · unfold concentric
    rw [ha, hb]
    rfl
  · rw [List.map_append]
    congr 1
    · exact List.eq_replicate_iff.2 ⟨by simp [hal], fun x hx => by obtain ⟨p, hp, rfl⟩ := List.mem_map.1 hx; exact (ham p hp).1⟩
    · exact List.eq_replicate_iff.2 ⟨by simp [hbl], fun x hx => by obtain ⟨p, hp, rfl⟩ := List.mem_map.1 hx; exact (hbm p hp).1⟩
  · intro p hp
    rcases List.mem_append.1 hp with h | h
    · obtain ⟨h1, x, h2, h3⟩ := ham p h
      exact ⟨x, h2, Or.inl ⟨h1, h3⟩⟩
    · obtain ⟨h1, x, h2, h3⟩ := hbm p h
      exact ⟨x, h2, Or.inr ⟨h1, h3⟩⟩

/-- C72: when there is a gap between the ranges, the radius alone tells the labels apart: any threshold in the gap is a perfect classifier. -/
theorem C72_separable (dim : Nat) (hdim : dim ≠ 0) (inner outer : ℝ × ℝ) (hi0 : 0 ≤ inner.1) (hi : inner.1 ≤ inner.2) (ho : outer.1 ≤ outer.2) (r : ℝ) (h1 : inner.2 < r) (h2 : r ≤ outer.1) (nInner nOuter : Nat)
    (draw : Nat → ℝ × (Fin dim → ℝ)) (hu : ∀ k, 0 ≤ (draw k).1 ∧ (draw k).1 < 1) (hdir : ∀ k, norm2 (draw k).2 ≠ 0) :
    ∃ l, concentric dim inner outer nInner nOuter draw = .ok l ∧ ∀ p ∈ l, ∃ x, p.1 = some x ∧ (p.2 = 0 ↔ norm2 x < r) ∧ (p.2 = 1 ↔ r ≤ norm2 x) := by
  obtain ⟨l, hl, _, hm⟩ := C72_dataset dim hdim inner outer hi0 hi (by linarith) ho nInner nOuter draw hu hdir
  refine ⟨l, hl, fun p hp => ?_⟩
  obtain ⟨x, hx, h | h⟩ := hm p hp
  · refine ⟨x, hx, ⟨fun _ => by linarith [h.2.2], fun _ => h.1⟩, ⟨fun h' => absurd (h.1.symm.trans h') (by decide), fun h' => by linarith [h.2.2]⟩⟩
  · refine ⟨x, hx, ⟨fun h' => absurd (h.1.symm.trans h') (by decide), fun h' => by linarith [h.2.1]⟩, ⟨fun _ => by linarith [h.2.1], fun _ => h.1⟩⟩

example : ∃ draw : Nat → ℝ × (Fin 2 → ℝ), (∀ k, 0 ≤ (draw k).1 ∧ (draw k).1 < 1) ∧ ∀ k, norm2 (draw k).2 ≠ 0 :=
  ⟨fun _ => (1 / 2, fun _ => 1), fun _ => by norm_num, fun _ => by unfold norm2; rw [Real.sqrt_ne_zero']; simp⟩

/-- C72: the training data and the test data of the program have 1000 points of label 0 followed by 2000 of label 1 each, and in both of them a point has label 0 exactly if its distance from the centre is at most 1/2, and label 1
exactly if it is at least 1. -/
theorem C72_generate_data (draw : Nat → ℝ × (Fin 2 → ℝ)) (hu : ∀ k, 0 ≤ (draw k).1 ∧ (draw k).1 < 1) (hdir : ∀ k, norm2 (draw k).2 ≠ 0) :
    ∃ r, generateData draw = .ok r ∧ ∀ l ∈ [r.1, r.2], l.map Prod.snd = List.replicate 1000 0 ++ List.replicate 2000 1 ∧
      ∀ p ∈ l, ∃ x, p.1 = some x ∧ norm2 x ≤ 3 / 2 ∧ (p.2 = 0 ↔ norm2 x ≤ 1 / 2) ∧ (p.2 = 1 ↔ 1 ≤ norm2 x) := by
  have key : ∀ p : Option (Fin 2 → ℝ) × Nat, (∃ x, p.1 = some x ∧ (p.2 = 0 ∧ (0 : ℝ) ≤ norm2 x ∧ norm2 x ≤ 1 / 2 ∨ p.2 = 1 ∧ 1 ≤ norm2 x ∧ norm2 x ≤ 3 / 2)) →
      ∃ x, p.1 = some x ∧ norm2 x ≤ 3 / 2 ∧ (p.2 = 0 ↔ norm2 x ≤ 1 / 2) ∧ (p.2 = 1 ↔ 1 ≤ norm2 x) := by
    rintro p ⟨x, hx, ⟨h0, _, h2⟩ | ⟨h0, h1, h2⟩⟩
    · exact ⟨x, hx, by linarith, ⟨fun _ => h2, fun _ => h0⟩, ⟨fun h => absurd (h0.symm.trans h) (by decide), fun h => by linarith⟩⟩
    · exact ⟨x, hx, h2, ⟨fun h => absurd (h.symm.trans h0) (by decide), fun h => by linarith⟩, ⟨fun _ => h1, fun _ => h0⟩⟩
  obtain ⟨a, ha, hal, ham⟩ := C72_dataset 2 (by decide) (0, 1 / 2) (1, 3 / 2) le_rfl (by norm_num) (by norm_num) (by norm_num) 1000 2000 draw hu hdir
  obtain ⟨b, hb, hbl, hbm⟩ := C72_dataset 2 (by decide) (0, 1 / 2) (1, 3 / 2) le_rfl (by norm_num) (by norm_num) (by norm_num) 1000 2000 (fun k => draw (3000 + k)) (fun k => hu _) fun k => hdir _
  refine ⟨(a, b), by unfold generateData; rw [ha, hb]; rfl, fun l hl => ?_⟩
  simp only [List.mem_cons, List.not_mem_nil, or_false] at hl
  rcases hl with rfl | rfl
  · exact ⟨hal, fun p hp => key p (ham p hp)⟩
  · exact ⟨hbl, fun p hp => key p (hbm p hp)⟩

/-! ## Sampling -/

theorem positions_mem (targets : List Nat) (c j : Nat) : j ∈ positions targets c ↔ targets[j]? = some c := by
  unfold positions
  simp only [List.mem_map, List.mem_filter, decide_eq_true_eq]
  constructor
  · rintro ⟨⟨t, i⟩, ⟨hm, hc⟩, rfl⟩
    obtain ⟨hlt, he⟩ := List.mem_zipIdx' hm
    dsimp only at *
    rw [List.getElem?_eq_getElem hlt, ← he, hc]
  · intro h
    exact ⟨(c, j), ⟨List.mem_zipIdx_iff_getElem?.2 h, rfl⟩, rfl⟩

theorem pick_ok (idx draws : List Nat) (h : ∀ j ∈ draws, j < idx.length) : ∃ l, pick idx draws = .ok l ∧ l.length = draws.length ∧ ∀ v ∈ l, v ∈ idx := by
  unfold pick
  induction draws with
  | nil => exact ⟨[], rfl, rfl, by simp⟩
  | cons j js ih =>
    obtain ⟨l, hl, hlen, hm⟩ := ih fun k hk => h k (by simp [hk])
    have hj := h j (by simp)
    refine ⟨idx[j] :: l, ?_, by simp [hlen], ?_⟩
    · rw [List.mapM_cons, List.getElem?_eq_getElem hj, hl]
      rfl
    · intro v hv
      rcases List.mem_cons.1 hv with rfl | hv
      · exact List.getElem_mem _
      · exact hm v hv

/-- C72: a balanced sample: `2N` positions (not `N`), the first `N` with label 1, the others with label 0.  `N` may be as large as the whole data set; positions can repeat. -/
theorem C72_sample (targets : List Nat) (N : Nat) (draws0 draws1 : List Nat) (hN : N ≤ targets.length) (h01 : ∀ t ∈ targets, t = 0 ∨ t = 1) (h0 : 0 ∈ targets) (h1 : 1 ∈ targets)
    (hl0 : draws0.length = N) (hl1 : draws1.length = N) (hd0 : ∀ j ∈ draws0, j < targets.count 1) (hd1 : ∀ j ∈ draws1, j < targets.count 0) :
    ∃ a b, sample targets N draws0 draws1 = .ok (a ++ b) ∧ a.length = N ∧ b.length = N ∧ (∀ i ∈ a, targets[i]? = some 1) ∧ ∀ i ∈ b, targets[i]? = some 0 := by
  have hcount : ∀ c, (positions targets c).length = targets.count c := by
    intro c
    unfold positions
    rw [List.length_map, ← List.countP_eq_length_filter, List.count_eq_countP]
    have : targets.countP (fun x => x == c) = (targets.zipIdx.map Prod.fst).countP (fun x => x == c) := by rw [List.zipIdx_map_fst]
    rw [this, List.countP_map]
    refine List.countP_congr fun p _ => ?_
    simp
  obtain ⟨a, ha, hal, ham⟩ := pick_ok (positions targets 1) draws0 (by rw [hcount]; exact hd0)
  obtain ⟨b, hb, hbl, hbm⟩ := pick_ok (positions targets 0) draws1 (by rw [hcount]; exact hd1)
  refine ⟨a, b, ?_, by omega, by omega, fun i hi => (positions_mem _ _ _).1 (ham i hi), fun i hi => (positions_mem _ _ _).1 (hbm i hi)⟩
  have hdd : targets.dedup.length = 2 := by
    have hp : targets.dedup.Perm [0, 1] := by
      refine (List.perm_ext_iff_of_nodup (List.nodup_dedup _) (by decide)).2 fun t => ?_
      rw [List.mem_dedup]
      constructor
      · intro h
        rcases h01 t h with rfl | rfl <;> simp
      · intro h
        simp only [List.mem_cons, List.not_mem_nil, or_false] at h
        rcases h with rfl | rfl <;> assumption
    simpa using hp.length_eq
  unfold sample
  rw [if_neg (by omega), if_neg (by simp [hdd]), ha, hb]
  rfl

example : sample [0, 0, 1, 1, 1] 2 [2, 2] [0, 1] = .ok [4, 4, 0, 1] := by decide +kernel

/-- C72: a data set with one class only, or fewer than `N` points, is refused. -/
theorem C72_sample_refused (targets : List Nat) (N : Nat) (draws0 draws1 : List Nat) (h : targets.length < N ∨ ∃ c, ∀ t ∈ targets, t = c) :
    sample targets N draws0 draws1 = .error .assertionError := by
  unfold sample
  split
  · rfl
  · rename_i hN
    rcases h with h | ⟨c, hc⟩
    · exact absurd h hN
    · rw [if_pos]
      have : targets.dedup.length ≤ 1 := by
        have hs : targets.dedup ⊆ [c] := fun t ht => by simp [hc t (List.mem_dedup.1 ht)]
        exact (List.Nodup.subperm (List.nodup_dedup _) hs).length_le
      omega

/-! ## Testing and training -/

theorem round_sigmoid (x : ℝ) : roundEven (sigmoid x) = if 0 < x then 1 else 0 := by
  have hpos : 0 < Real.exp (-x) := Real.exp_pos _
  have h0 : 0 < sigmoid x := by unfold sigmoid; positivity
  have h1 : sigmoid x < 1 := by
    unfold sigmoid
    rw [div_lt_one (by positivity)]
    linarith
  have hf : ⌊sigmoid x⌋ = 0 := Int.floor_eq_zero_iff.2 ⟨h0.le, h1⟩
  have hhalf : 1 / 2 < sigmoid x ↔ 0 < x := by
    unfold sigmoid
    rw [div_lt_div_iff₀ (by norm_num) (by positivity)]
    have : Real.exp (-x) < 1 ↔ 0 < x := by rw [Real.exp_lt_one_iff]; constructor <;> intro h <;> linarith
    rw [← this]
    constructor <;> intro h <;> linarith
  unfold roundEven
  rw [hf]
  simp only [Int.cast_zero, sub_zero, zero_add]
  by_cases hx : 0 < x
  · have := hhalf.2 hx
    rw [if_neg (by linarith), if_pos this, if_pos hx]
  · have : ¬ 1 / 2 < sigmoid x := fun h => hx (hhalf.1 h)
    rw [if_neg this, if_neg hx]
    simp

/-- C72: the reported test figures do not depend on how the test data are cut into batches: the mean loss over all samples, and the percentage of samples whose output is positive exactly if the label is 1
(an output of zero counts as label 0). -/
theorem C72_test (loss : ℝ → ℕ → ℝ) (batches : List Batch) (hne : batches.flatten ≠ []) :
    test loss batches.flatten.length batches = .ok ((batches.flatten.map fun p => loss p.1 p.2).sum / batches.flatten.length,
      100 * (batches.flatten.countP fun p => p.2 = if 0 < p.1 then 1 else 0 : ℕ) / batches.flatten.length) := by
  have hlen : batches.flatten.length ≠ 0 := fun h => hne (List.length_eq_zero_iff.1 h)
  have e1 : ∀ bs : List Batch, (bs.map fun b => (b.map fun p => loss p.1 p.2).sum).sum = (bs.flatten.map fun p => loss p.1 p.2).sum := by
    intro bs
    induction bs with
    | nil => simp
    | cons b bs ih => simp [ih]
  have e2 : ∀ bs : List Batch, (bs.map correct).sum = bs.flatten.countP fun p => p.2 = if 0 < p.1 then 1 else 0 := by
    intro bs
    induction bs with
    | nil => simp
    | cons b bs ih =>
      rw [List.map_cons, List.sum_cons, ih, List.flatten_cons, List.countP_append]
      congr 1
      refine List.countP_congr fun p _ => ?_
      rw [round_sigmoid]
      simp only [decide_eq_true_eq]
      split <;> constructor <;> intro h <;> omega
  unfold test
  rw [if_neg hlen, e1, e2]

example : [[((1 : ℝ), 1), (-1, 0)], [(0, 1)]].flatten ≠ [] := by simp

/-- C72: the accuracy is a percentage. -/
theorem C72_percentage (loss : ℝ → ℕ → ℝ) (batches : List Batch) (r : ℝ × ℝ) (h : test loss batches.flatten.length batches = .ok r) : 0 ≤ r.2 ∧ r.2 ≤ 100 := by
  by_cases hne : batches.flatten = []
  · rw [hne] at h
    cases h
  · rw [C72_test loss batches hne] at h
    cases h
    have hlen : 0 < (batches.flatten.length : ℝ) := by exact_mod_cast List.length_pos_iff.2 hne
    have hc : ((batches.flatten.countP fun p => p.2 = if 0 < p.1 then 1 else 0 : ℕ) : ℝ) ≤ batches.flatten.length := by exact_mod_cast List.countP_le_length
    constructor
    · dsimp only
      positivity
    · dsimp only
      rw [div_le_iff₀ hlen]
      linarith

/-- C72: with batches of equal size the reported training loss is the weighted mean over the samples. -/
theorem C72_train_partial (weight : ℝ) (batches : List (List ℝ)) (size : Nat) (hs : size ≠ 0) (hne : batches ≠ []) (h : ∀ b ∈ batches, b.length = size) :
    trainLoss weight batches = .ok (weight * (batches.flatten.sum / batches.flatten.length)) := by
  have hlen : batches.length ≠ 0 := fun e => hne (List.length_eq_zero_iff.1 e)
  have e : ∀ bs : List (List ℝ), (∀ b ∈ bs, b.length = size) → (bs.map fun b => weight * (b.sum / b.length)).sum = weight * (bs.flatten.sum / size) ∧ bs.flatten.length = bs.length * size := by
    intro bs
    induction bs with
    | nil => intro _; simp
    | cons b bs ih =>
      intro hb
      obtain ⟨i1, i2⟩ := ih fun c hc => hb c (by simp [hc])
      have hb0 := hb b (by simp)
      constructor
      · rw [List.map_cons, List.sum_cons, i1, hb0, List.flatten_cons, List.sum_append]
        ring
      · rw [List.flatten_cons, List.length_append, i2, hb0, List.length_cons]
        ring
  obtain ⟨e1, e2⟩ := e batches h
  unfold trainLoss
  rw [if_neg hlen, e1, e2]
  congr 1
  have h1 : (batches.length : ℝ) ≠ 0 := by exact_mod_cast hlen
  have h2 : (size : ℝ) ≠ 0 := by exact_mod_cast hs
  push_cast
  field_simp

example : ∀ b ∈ [[(1 : ℝ), 2], [3, 5]], b.length = 2 := by simp

/-- C72: with a smaller last batch it is not: the samples of that batch weigh more. -/
theorem C72_train_uneven : ∃ batches : List (List ℝ), trainLoss 1 batches = .ok (7 / 4) ∧ batches.flatten.sum / batches.flatten.length = 4 / 3 :=
  ⟨[[1, 0], [3]], by unfold trainLoss; norm_num, by norm_num⟩

/-! ## Data loaders -/

theorem chunks_flatten {α : Type} (size : Nat) (hs : size ≠ 0) : ∀ (fuel : Nat) (l : List α), l.length ≤ fuel → (chunks size fuel l).flatten = l ∧
    ((chunks size fuel l).filter fun b => b.length = size).flatten = l.take (l.length / size * size) := by
  intro fuel
  induction fuel with
  | zero =>
    intro l h
    have : l = [] := List.length_eq_zero_iff.1 (by omega)
    subst this
    simp [chunks]
  | succ fuel ih =>
    intro l h
    cases l with
    | nil => simp [chunks]
    | cons x xs =>
      have hd : ((x :: xs).drop size).length ≤ fuel := by
        rw [List.length_drop]
        simp only [List.length_cons] at h ⊢
        omega
      obtain ⟨i1, i2⟩ := ih _ hd
      rw [chunks]
      refine ⟨by rw [List.flatten_cons, i1, List.take_append_drop], ?_⟩
      by_cases hlt : (x :: xs).length < size
      · have h1 : ((x :: xs).take size).length ≠ size := by rw [List.length_take]; omega
        rw [List.filter_cons_of_neg (by simpa using h1), i2, List.drop_eq_nil_of_le hlt.le, Nat.div_eq_of_lt hlt]
        simp
      · have h1 : ((x :: xs).take size).length = size := by rw [List.length_take]; omega
        rw [List.filter_cons_of_pos (by simpa using h1), List.flatten_cons, i2, List.length_drop]
        have : (x :: xs).length / size * size = size + ((x :: xs).length - size) / size * size := by
          rw [Nat.div_eq (x :: xs).length, if_pos ⟨Nat.pos_of_ne_zero hs, by omega⟩]
          ring
        rw [this, List.take_add]

/-- C72: one pass over a loader shows the samples in order, each once; with `drop_last` the last `len % size` samples are never shown. -/
theorem C72_loader {α : Type} (size : Nat) (hs : size ≠ 0) (l : List α) :
    (∃ bs, loader size false l = .ok bs ∧ bs.flatten = l) ∧
      ∃ bs, loader size true l = .ok bs ∧ bs.flatten = l.take (l.length - l.length % size) ∧ ∀ b ∈ bs, b.length = size := by
  obtain ⟨h1, h2⟩ := chunks_flatten size hs l.length l le_rfl
  refine ⟨⟨_, by rw [loader, if_neg hs]; rfl, h1⟩, ⟨_, by rw [loader, if_neg hs], ?_, ?_⟩⟩
  · rw [if_pos rfl, h2]
    congr 1
    have := Nat.div_add_mod l.length size
    rw [Nat.mul_comm] at this
    omega
  · intro b hb
    rw [if_pos rfl, List.mem_filter] at hb
    simpa using hb.2

/-- C72: the image loaders: an unknown name or a batch size of zero is refused; otherwise the test and training-evaluation batches show every sample exactly if the batch size divides their number. -/
theorem C72_image_loaders {α : Type} (name : String) (aug : Bool) (size : Nat) (trainData testData : List α) :
    (name ≠ "MNIST" ∧ name ≠ "CIFAR10" ∧ name ≠ "CIFAR100" → getDataLoaders name aug size trainData testData = .error .valueError) ∧
      (size = 0 → getDataLoaders name aug size trainData testData = .error .valueError) ∧
      ∀ r, getDataLoaders name aug size trainData testData = .ok r →
        r.test.flatten = testData.take (testData.length - testData.length % size) ∧ r.trainEval.flatten = trainData.take (trainData.length - trainData.length % size) ∧
        (r.test.flatten = testData ↔ size ∣ testData.length) ∧ r.classes = (if name = "CIFAR100" then 100 else 10) := by
  have hby : ∀ s, byName name = .ok s → s.classes = if name = "CIFAR100" then 100 else 10 := by
    intro s hs
    unfold byName at hs
    split at hs <;> cases hs <;> decide
  refine ⟨fun ⟨h1, h2, h3⟩ => ?_, fun h => ?_, fun r hr => ?_⟩
  · have : byName name = .error .valueError := by
      unfold byName
      split <;> simp_all
    rw [getDataLoaders, this]
    rfl
  · subst h
    have : byName name = .error .valueError ∨ ∃ s, byName name = .ok s := by
      unfold byName
      split
      · exact Or.inr ⟨_, rfl⟩
      · exact Or.inr ⟨_, rfl⟩
      · exact Or.inr ⟨_, rfl⟩
      · exact Or.inl rfl
    rcases this with h | ⟨s, h⟩ <;> rw [getDataLoaders, h] <;> rfl
  · cases hb : byName name with
    | error e => rw [getDataLoaders, hb] at hr; cases hr
    | ok s =>
      by_cases hs : size = 0
      · subst hs
        rw [getDataLoaders, hb] at hr
        cases hr
      · obtain ⟨e, he, hef, _⟩ := (C72_loader size hs trainData).2
        obtain ⟨t, ht, htf, _⟩ := (C72_loader size hs testData).2
        rw [getDataLoaders, hb, he, ht] at hr
        cases hr
        refine ⟨htf, hef, ?_, hby s hb⟩
        dsimp only
        rw [htf]
        constructor
        · intro h
          have := congrArg List.length h
          rw [List.length_take] at this
          have hm := Nat.mod_lt testData.length (Nat.pos_of_ne_zero hs)
          have hmle := Nat.mod_le testData.length size
          exact Nat.dvd_of_mod_eq_zero (by omega)
        · intro h
          rw [Nat.mod_eq_zero_of_dvd h]
          simp

example : ∃ r : Loaders Nat, getDataLoaders "MNIST" false 2 [1, 2, 3] [7, 8, 9, 10] = .ok r ∧ r.test = [[7, 8], [9, 10]] ∧ r.trainEval = [[1, 2]] := ⟨_, rfl, by decide +kernel, by decide +kernel⟩

/-- C72: with the default test batch size of 1000 no test image is dropped for the three sets (10000 test images each, 60000 or 50000 training images); with 128, for instance, 16 are. -/
theorem C72_dropped (testData : List Nat) (h : testData.length = 10000) (trainData : List Nat) :
    (∀ r, getDataLoaders "MNIST" false 1000 trainData testData = .ok r → r.test.flatten = testData) ∧
      ∀ r, getDataLoaders "MNIST" false 128 trainData testData = .ok r → r.test.flatten.length = 9984 := by
  refine ⟨fun r hr => ?_, fun r hr => ?_⟩
  · exact ((C72_image_loaders "MNIST" false 1000 trainData testData).2.2 r hr).2.2.1.2 (by rw [h]; decide)
  · rw [((C72_image_loaders "MNIST" false 128 trainData testData).2.2 r hr).1, List.length_take, h]
    rfl

/-- C72: with augmentation the CIFAR training images are smaller than the images used for testing (the crop size 28 is that of MNIST); without, or for MNIST, the sizes agree. -/
theorem C72_sizes {α : Type} (name : String) (aug : Bool) (size : Nat) (trainData testData : List α) (r : Loaders α) (h : getDataLoaders name aug size trainData testData = .ok r) :
    r.trainSide = r.testSide ↔ aug = false ∨ name = "MNIST" := by
  unfold getDataLoaders at h
  cases he : loader size true trainData with
  | error e => rw [he] at h; cases hb : byName name <;> rw [hb] at h <;> cases h
  | ok e =>
    cases ht : loader size true testData with
    | error e => rw [he, ht] at h; cases hb : byName name <;> rw [hb] at h <;> cases h
    | ok t =>
      rw [he, ht] at h
      unfold byName at h
      split at h <;> cases h <;> cases aug <;> simp [ImageSet.side]

/-! ## Seeds -/

/-- C72: given the data, a seed fixes the rest of a run of `cc.py`, whatever state the random number generators were in. -/
theorem C72_seed_partial {σ D R : Type} (generate : σ → D × σ) (seeded : Int → σ) (rest : D → σ → R) (seed : Int) (hs : seed ≠ -1) (s s' : σ) (hd : (generate s).1 = (generate s').1) :
    mainProgram generate seeded rest seed s = mainProgram generate seeded rest seed s' := by
  unfold mainProgram
  rw [if_neg hs, if_neg hs, hd]

/-- C72: but the data are generated before the seed is set: two runs with the same seed work on different data. -/
theorem C72_seed_data : ∃ (generate : Nat → Nat × Nat) (seeded : Int → Nat) (rest : Nat → Nat → Nat) (s s' : Nat), ∀ seed,
    (mainProgram generate seeded rest seed s).1 ≠ (mainProgram generate seeded rest seed s').1 :=
  ⟨fun n => (n, n + 1), Int.toNat, fun d n => d + n, 0, 1, fun _ => by simp [mainProgram]⟩

end Verif.Spheres
