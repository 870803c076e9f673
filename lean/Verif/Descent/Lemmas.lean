import Verif.Descent.Model
import Verif.Descent.Spec
import Verif.Gradcheck.Props

/-!
# Lemmas for one step of the training loop
-/

namespace Verif.Descent
open Verif Verif.Tensor Verif.Gradcheck Verif.Whole Verif.Shooting
open scoped Topology

variable {K : Type}

/-! ## Functions -/

/-- A differentiable function falls along a direction in which its derivative is positive, walked backwards. -/
theorem falls {V : Type} [NormedAddCommGroup V] [NormedSpace ℝ V] {ℓ : V → ℝ} {A : V →L[ℝ] ℝ} {v d : V} (h : HasFDerivAt ℓ A v) (hd : 0 < A d) : ∀ᶠ η : ℝ in 𝓝[>] 0, ℓ (v - η • d) < ℓ v := by
  have h1 : HasDerivAt (fun η : ℝ => v - η • d) (-d) 0 := by
    have := ((hasDerivAt_id (0 : ℝ)).smul_const d).const_sub v
    simpa using this
  have h2 : HasDerivAt (fun η : ℝ => ℓ (v - η • d)) (A (-d)) 0 := by
    have h3 : HasFDerivAt ℓ A (v - (0 : ℝ) • d) := by simpa using h
    exact h3.comp_hasDerivAt (0 : ℝ) h1
  have h4 := hasDerivAt_iff_tendsto_slope.1 h2
  have h5 : ∀ᶠ η : ℝ in 𝓝[≠] 0, slope (fun η : ℝ => ℓ (v - η • d)) 0 η < 0 := h4.eventually (gt_mem_nhds (by simpa using hd))
  have h6 : ∀ᶠ η : ℝ in 𝓝[>] 0, slope (fun η : ℝ => ℓ (v - η • d)) 0 η < 0 := h5.filter_mono (nhdsWithin_mono _ fun x hx => ne_of_gt hx)
  filter_upwards [h6, self_mem_nhdsWithin] with η hη hp
  have hp' : (0 : ℝ) < η := hp
  rw [slope_def_field] at hη
  simp only [zero_smul, sub_zero] at hη
  have := (div_neg_iff.1 hη).resolve_left fun h => absurd h.2 (not_lt.2 hp'.le)
  linarith [this.1]

/-- A step on one number. -/
noncomputable def step1 (up : ℝ → ℝ → ℝ) (fr : Bool) (cl : Option ℝ) (x g : ℝ) : ℝ :=
  (cl.map fun b => min (max (if fr then x else up x g) (-b)) b).getD (if fr then x else up x g)

theorem small_lt {c d : ℝ} (hc : 0 < c) : ∀ᶠ η : ℝ in 𝓝[>] 0, η * d < c := by
  have h : Filter.Tendsto (fun η : ℝ => η * d) (𝓝[>] 0) (𝓝 0) := by
    have : Filter.Tendsto (fun η : ℝ => η * d) (𝓝 0) (𝓝 (0 * d)) := (continuous_id.mul continuous_const).tendsto 0
    rw [zero_mul] at this
    exact this.mono_left nhdsWithin_le_nhds
  exact h.eventually (gt_mem_nhds hc)

/-- With a small learning rate a number moves against the gradient, or stays where it is. -/
theorem step1_small {up : ℝ → ℝ → ℝ → ℝ} (hup : Downhill up) (fr : Bool) (cl : Option ℝ) (x g : ℝ) (hx : ∀ b, cl = some b → |x| ≤ b) :
    ∃ d : ℝ, (d ≠ 0 → 0 < g * d) ∧ (fr = false → cl = none → g ≠ 0 → d ≠ 0) ∧ ∀ᶠ η : ℝ in 𝓝[>] 0, step1 (up η) fr cl x g = x - η * d := by
  obtain ⟨dir, h1, h2, h3⟩ := hup
  have hs : ∀ g', dir g' ≠ 0 → 0 < g' * dir g' := fun g' h => h3 g' fun e => h (by rw [e, h2])
  cases fr with
  | true =>
    refine ⟨0, fun h => absurd rfl h, fun h => (by cases h), Filter.Eventually.of_forall fun η => ?_⟩
    cases cl with
    | none => simp [step1]
    | some b =>
      have := abs_le.1 (hx b rfl)
      simp [step1, max_eq_left this.1, min_eq_left this.2]
  | false =>
    cases cl with
    | none =>
      refine ⟨dir g, hs g, fun _ _ hg h => ?_, Filter.Eventually.of_forall fun η => by simp [step1, h1]⟩
      have := h3 g hg
      rw [h, mul_zero] at this
      exact absurd this (lt_irrefl _)
    | some b =>
      have hb := abs_le.1 (hx b rfl)
      rcases lt_trichotomy (dir g) 0 with hd | hd | hd
      · by_cases he : x = b
        · refine ⟨0, fun h => absurd rfl h, fun _ h => (by cases h), ?_⟩
          filter_upwards [self_mem_nhdsWithin] with η hη
          have hη' : (0 : ℝ) < η := hη
          have : 0 ≤ η * -dir g := mul_nonneg hη'.le (by linarith)
          simp only [step1, h1, Option.map_some, Option.getD_some, Bool.false_eq_true, if_false]
          rw [max_eq_left (by linarith), min_eq_right (by linarith)]
          linarith
        · have hlt : x < b := lt_of_le_of_ne hb.2 he
          refine ⟨dir g, hs g, fun _ h => (by cases h), ?_⟩
          filter_upwards [self_mem_nhdsWithin, small_lt (d := -dir g) (sub_pos.2 hlt)] with η hη hs
          have hη' : (0 : ℝ) < η := hη
          have : 0 ≤ η * -dir g := mul_nonneg hη'.le (by linarith)
          simp only [step1, h1, Option.map_some, Option.getD_some, Bool.false_eq_true, if_false]
          rw [max_eq_left (by linarith), min_eq_left (by linarith)]
      · refine ⟨0, fun h => absurd rfl h, fun _ h => (by cases h), Filter.Eventually.of_forall fun η => ?_⟩
        simp only [step1, h1, hd, Option.map_some, Option.getD_some, Bool.false_eq_true, if_false, mul_zero, sub_zero]
        rw [max_eq_left hb.1, min_eq_left hb.2]
      · by_cases he : x = -b
        · refine ⟨0, fun h => absurd rfl h, fun _ h => (by cases h), ?_⟩
          filter_upwards [self_mem_nhdsWithin] with η hη
          have hη' : (0 : ℝ) < η := hη
          have : 0 ≤ η * dir g := mul_nonneg hη'.le hd.le
          simp only [step1, h1, Option.map_some, Option.getD_some, Bool.false_eq_true, if_false]
          rw [max_eq_right (by linarith), min_eq_left (by linarith)]
          linarith
        · have hlt : -b < x := lt_of_le_of_ne hb.1 (Ne.symm he)
          refine ⟨dir g, hs g, fun _ h => (by cases h), ?_⟩
          filter_upwards [self_mem_nhdsWithin, small_lt (d := dir g) (show 0 < x + b by linarith)] with η hη hs
          have hη' : (0 : ℝ) < η := hη
          have : 0 ≤ η * dir g := mul_nonneg hη'.le hd.le
          simp only [step1, h1, Option.map_some, Option.getD_some, Bool.false_eq_true, if_false]
          rw [max_eq_left (by linarith), min_eq_left (by linarith)]

theorem step1_inside (up : ℝ → ℝ → ℝ) (fr : Bool) (b x g : ℝ) (hx : |x| ≤ b) : |step1 up fr (some b) x g| ≤ b := by
  have hb : 0 ≤ b := (abs_nonneg x).trans hx
  rw [abs_le]
  unfold step1
  simp only [Option.map_some, Option.getD_some]
  exact ⟨le_min (le_max_right _ _) (by linarith), min_le_right _ _⟩

/-! ## Tensors -/

theorem value_at {L : Lay K} (hL : L.Ok) {n : Nat} {e : String × List Nat} (he : e ∈ L.names) {idx : List Nat} (hi : idx ∈ indices (n :: e.2)) :
    ∃ (i : Fin n) (k : K), L.key k = e.1 ∧ ∀ x : Fin n × K → ℝ, value L n x e.1 idx = x (i, k) := by
  rw [Whole.indices_cons, List.mem_flatMap] at hi
  obtain ⟨i, hin, hi⟩ := hi
  obtain ⟨idx', hm, rfl⟩ := List.mem_map.1 hi
  obtain ⟨k, h1, h2, _⟩ := hL.onto e he idx' ((Whole.mem_indices _ _).1 hm)
  refine ⟨⟨i, List.mem_range.1 hin⟩, k, h2, fun x => ?_⟩
  simp only [value, dif_pos (List.mem_range.1 hin), h1, Option.map_some, Option.getD_some]

/-- Every coordinate is an entry of a tensor. -/
theorem value_of {L : Lay K} (hL : L.Ok) {n : Nat} (i : Fin n) (k : K) : ∃ s, (L.key k, s) ∈ L.names ∧ ∃ idx ∈ indices (n :: s), ∀ x : Fin n × K → ℝ, value L n x (L.key k) idx = x (i, k) := by
  obtain ⟨s, h1, h2, h3⟩ := hL.into k
  refine ⟨s, h1, i.1 :: L.idx k, ?_, fun x => ?_⟩
  · rw [Whole.indices_cons, List.mem_flatMap]
    exact ⟨i.1, List.mem_range.2 i.2, List.mem_map_of_mem ((Whole.mem_indices _ _).2 h2)⟩
  · simp only [value, dif_pos i.2, h3, Option.map_some, Option.getD_some]

theorem zipWith_maps {α : Type} (up : ℝ → ℝ → ℝ) (a b : α → ℝ) (l : List α) : List.zipWith up (l.map a) (l.map b) = l.map fun i => up (a i) (b i) := by
  induction l with
  | nil => rfl
  | cons i l ih => simp only [List.map_cons, List.zipWith_cons_cons, ih]

/-- A round of the loop in coordinates. -/
theorem round_enc {L : Lay K} (hL : L.Ok) {n : Nat} (pre : String) (up : ℝ → ℝ → ℝ) (frozen : String → Bool) (clip : String → Option ℝ) {G : Grads} (x g : Fin n × K → ℝ)
    (hG : ∀ e ∈ L.names, gradOf G (pre ++ e.1) = if frozen (pre ++ e.1) then none else some (tab (n :: e.2) (value L n g e.1)).data) :
    cutOff clip (optStep up G ((enc L pre n x).map fun e => (e.1, e.2.data))) =
      (enc L pre n fun j => step1 up (frozen (pre ++ L.key j.2)) (clip (pre ++ L.key j.2)) (x j) (g j)).map fun e => (e.1, e.2.data) := by
  unfold cutOff optStep enc
  simp only [List.map_map]
  refine List.map_congr_left fun e he => ?_
  simp only [Function.comp]
  rw [hG e he]
  congr 1
  simp only [tab, tabData_eq]
  have hv : ((((if frozen (pre ++ e.1) then none else some ((indices (n :: e.2)).map (value L n g e.1))).map fun l => List.zipWith up ((indices (n :: e.2)).map (value L n x e.1)) l).getD
      ((indices (n :: e.2)).map (value L n x e.1)))) =
      (indices (n :: e.2)).map fun idx => if frozen (pre ++ e.1) then value L n x e.1 idx else up (value L n x e.1 idx) (value L n g e.1 idx) := by
    cases frozen (pre ++ e.1) with
    | true => simp
    | false => simp
  rw [hv]
  have key : ∀ (fr : Bool) (cl : Option ℝ), fr = frozen (pre ++ e.1) → cl = clip (pre ++ e.1) →
      (indices (n :: e.2)).map (fun idx => step1 up fr cl (value L n x e.1 idx) (value L n g e.1 idx)) =
      (indices (n :: e.2)).map (value L n (fun j => step1 up (frozen (pre ++ L.key j.2)) (clip (pre ++ L.key j.2)) (x j) (g j)) e.1) := by
    rintro fr cl rfl rfl
    refine List.map_congr_left fun idx hi => ?_
    obtain ⟨i, k, h1, h2⟩ := value_at hL he hi
    rw [h2, h2, h2]
    dsimp only
    rw [h1]
  rw [← key _ _ rfl rfl]
  cases clip (pre ++ e.1) with
  | none => simp [step1]
  | some b => simp [step1, Training.clampTo, Function.comp_def]

/-! ## Gradients -/

theorem get?_filter_frozen {new : SDict String (List ℝ)} (hn : new.keys.Nodup) (frozen : String → Bool) {d : String × List ℝ} (hd : d ∈ new) :
    SDict.get? (new.filter fun d => !frozen d.1 : SDict String (List ℝ)) d.1 = if frozen d.1 then none else some d.2 := by
  have hn' : SDict.keys (new.filter fun d => !frozen d.1 : SDict String (List ℝ)) |>.Nodup := by
    unfold SDict.keys at hn ⊢
    exact List.Nodup.sublist (List.Sublist.map _ List.filter_sublist) hn
  cases hf : frozen d.1 with
  | false => exact SDict.get?_eq_some_of_mem hn' (List.mem_filter.2 ⟨hd, by simp [hf]⟩)
  | true =>
    simp only [if_true]
    rw [SDict.get?_eq_none_iff]
    intro hm
    obtain ⟨x, hx, he⟩ := List.mem_map.1 hm
    have := (List.mem_filter.1 hx).2
    rw [he, hf] at this
    simp at this

theorem accumulate_fresh {new : SDict String (List ℝ)} (hn : new.keys.Nodup) (frozen : String → Bool) {g : Grads} (h : Fresh frozen new g) :
    accumulate (new.filter fun d => !frozen d.1) (zeroGrads g) = new.map fun d => (d.1, if frozen d.1 then none else some d.2) := by
  unfold accumulate zeroGrads
  rw [List.map_map]
  have step : ∀ (g : Grads) (d : SDict String (List ℝ)), Fresh frozen d g → (∀ x ∈ d, x ∈ new) →
      g.map ((fun e => (e.1, ((SDict.get? (new.filter fun d => !frozen d.1 : SDict String (List ℝ)) e.1).map fun l => addTo l e.2).getD e.2)) ∘ fun e : String × Option (List ℝ) => (e.1, e.2.map fun l => l.map fun _ => (0 : ℝ))) =
        d.map fun d => (d.1, if frozen d.1 then none else some d.2) := by
    intro g d h hm
    unfold Fresh at h
    induction h with
    | nil => rfl
    | @cons e x g d he _ ih =>
      rw [List.map_cons, List.map_cons, ih fun y hy => hm y (List.mem_cons_of_mem _ hy)]
      congr 1
      simp only [Function.comp]
      rw [he.1, get?_filter_frozen hn frozen (hm x (by simp))]
      cases hf : frozen x.1 with
      | true => simp [he.2.1 (by rw [he.1, hf])]
      | false =>
        simp only [Bool.false_eq_true, if_false, Option.map_some, Option.getD_some]
        cases he2 : e.2 with
        | none => rfl
        | some l => simp only [Option.map_some, addTo, zipWith_zero _ _ (he.2.2 l he2)]
  exact step g new h fun _ h => h

theorem gradOf_accumulated {new : SDict String (List ℝ)} (hn : new.keys.Nodup) (frozen : String → Bool) {d : String × List ℝ} (hd : d ∈ new) :
    gradOf (new.map fun d => (d.1, if frozen d.1 then none else some d.2)) d.1 = if frozen d.1 then none else some d.2 := by
  unfold gradOf
  rw [SDict.get?_eq_some_of_mem (v := if frozen d.1 then none else some d.2)]
  · rfl
  · simpa [SDict.keys, Function.comp_def] using hn
  · exact List.mem_map.2 ⟨d, hd, rfl⟩

/-- The round in coordinates: what it does to particles and costates. -/
theorem oneRound_eq {L : Lay K} (hL : L.Ok) (ha : Apart L) {n : Nat} (up : ℝ → ℝ → ℝ) (frozen : String → Bool) (clip : String → Option ℝ) {loss : (Fin n × K → ℝ) → (Fin n × K → ℝ) → Py ℝ} {q p : Fin n × K → ℝ} {v : ℝ}
    (hok : loss q p = .ok v) {g : Grads} (hg : Fresh frozen (derivatives L (fun q p => valueOr (loss q p)) q p) g) :
    oneRound L up frozen clip loss q p g =
      .ok ((derivatives L (fun q p => valueOr (loss q p)) q p).map fun d => (d.1, if frozen d.1 then none else some d.2),
        values L (fun j => step1 up (frozen ("" ++ L.key j.2)) (clip ("" ++ L.key j.2)) (q j) (autograd (fun q' => valueOr (loss q' p)) q j))
          (fun j => step1 up (frozen ("p_" ++ L.key j.2)) (clip ("p_" ++ L.key j.2)) (p j) (autograd (fun p' => valueOr (loss q p')) p j))) := by
  unfold oneRound
  simp only [bind, Except.bind, hok]
  have hn := derivatives_nodup hL ha (fun q p => valueOr (loss q p)) q p
  rw [accumulate_fresh hn frozen hg]
  congr 2
  have hG := fun d hd => gradOf_accumulated hn frozen (d := d) hd
  unfold values
  rw [List.map_append, List.map_append]
  have hsplit : ∀ G a b, cutOff clip (optStep up G (a ++ b)) = cutOff clip (optStep up G a) ++ cutOff clip (optStep up G b) := by
    intro G a b
    simp [cutOff, optStep]
  rw [hsplit]
  congr 1
  · refine round_enc hL "" up frozen clip q _ fun e he => ?_
    have := hG ("" ++ e.1, (tab (n :: e.2) (value L n (autograd (fun q' => valueOr (loss q' p)) q) e.1)).data) (by
      unfold derivatives
      rw [List.map_append, List.mem_append]
      exact .inl (List.mem_map.2 ⟨_, List.mem_map.2 ⟨e, he, rfl⟩, rfl⟩))
    exact this
  · refine round_enc hL "p_" up frozen clip p _ fun e he => ?_
    have := hG ("p_" ++ e.1, (tab (n :: e.2) (value L n (autograd (fun p' => valueOr (loss q p')) p) e.1)).data) (by
      unfold derivatives
      rw [List.map_append, List.mem_append]
      exact .inr (List.mem_map.2 ⟨_, List.mem_map.2 ⟨e, he, rfl⟩, rfl⟩))
    exact this

/-- The entries of the tensors of one kind. -/
theorem mem_enc {L : Lay K} {n : Nat} {pre : String} {x : Fin n × K → ℝ} {d : String × List ℝ} (h : d ∈ (enc L pre n x).map fun e => (e.1, e.2.data)) :
    ∃ e ∈ L.names, d = (pre ++ e.1, (indices (n :: e.2)).map (value L n x e.1)) := by
  obtain ⟨y, hy, rfl⟩ := List.mem_map.1 h
  obtain ⟨e, he, rfl⟩ := List.mem_map.1 hy
  exact ⟨e, he, by simp only [tab, tabData_eq]⟩

/-- Bounds on the entries are bounds on the coordinates. -/
theorem inside_coord {L : Lay K} (hL : L.Ok) {n : Nat} {clip : String → Option ℝ} (pre : String) (x : Fin n × K → ℝ) :
    Inside clip ((enc L pre n x).map fun e => (e.1, e.2.data)) ↔ ∀ j b, clip (pre ++ L.key j.2) = some b → |x j| ≤ b := by
  constructor
  · rintro h ⟨i, k⟩ b hb
    obtain ⟨s, h1, idx, h2, h3⟩ := value_of hL i k
    rw [← h3 x]
    refine h (pre ++ L.key k, (indices (n :: s)).map (value L n x (L.key k))) ?_ b hb _ (List.mem_map_of_mem h2)
    exact List.mem_map.2 ⟨_, List.mem_map.2 ⟨_, h1, rfl⟩, by simp only [tab, tabData_eq]⟩
  · intro h d hd b hb y hy
    obtain ⟨e, he, rfl⟩ := mem_enc hd
    obtain ⟨idx, hi, rfl⟩ := List.mem_map.1 hy
    obtain ⟨i, k, h1, h2⟩ := value_at hL he hi
    rw [h2]
    exact h (i, k) b (by dsimp only; rw [h1]; exact hb)

theorem inside_values {L : Lay K} (hL : L.Ok) {n : Nat} {clip : String → Option ℝ} (q p : Fin n × K → ℝ) :
    Inside clip (values L q p) ↔ (∀ j b, clip ("" ++ L.key j.2) = some b → |q j| ≤ b) ∧ ∀ j b, clip ("p_" ++ L.key j.2) = some b → |p j| ≤ b := by
  rw [← inside_coord hL "" q, ← inside_coord hL "p_" p]
  unfold values Inside
  rw [List.map_append]
  constructor
  · exact fun h => ⟨fun e he => h e (List.mem_append_left _ he), fun e he => h e (List.mem_append_right _ he)⟩
  · exact fun h e he => (List.mem_append.1 he).elim (h.1 e) (h.2 e)

/-- The derivative of a function of particles and costates along a direction. -/
theorem along [Fintype K] {n : Nat} {ℓ : (Fin n × K → ℝ) × (Fin n × K → ℝ) → ℝ} (hℓ : Differentiable ℝ ℓ) (q p dq dp : Fin n × K → ℝ) :
    fderiv ℝ ℓ (q, p) (dq, dp) = (∑ j, autograd (fun q' => ℓ (q', p)) q j * dq j) + ∑ j, autograd (fun p' => ℓ (q, p')) p j * dp j := by
  obtain ⟨h1, h2⟩ := C93_gradient hℓ q p
  have e1 : HasFDerivAt (fun q' => ℓ (q', p)) ((fderiv ℝ ℓ (q, p)).comp (ContinuousLinearMap.inl ℝ _ _)) q :=
    (hℓ (q, p)).hasFDerivAt.comp q (hasFDerivAt_prodMk_left q p)
  have e2 : HasFDerivAt (fun p' => ℓ (q, p')) ((fderiv ℝ ℓ (q, p)).comp (ContinuousLinearMap.inr ℝ _ _)) p :=
    (hℓ (q, p)).hasFDerivAt.comp p (hasFDerivAt_prodMk_right q p)
  have f1 := congrArg (fun A => A dq) (HasFDerivAt.unique h1 e1)
  have f2 := congrArg (fun A => A dp) (HasFDerivAt.unique h2 e2)
  rw [grad_apply] at f1 f2
  rw [f1, f2]
  simp only [ContinuousLinearMap.comp_apply, ContinuousLinearMap.inl_apply, ContinuousLinearMap.inr_apply]
  rw [← map_add]
  simp

end Verif.Descent
