import Verif.Symmetry.Lemmas

/-!
# C60, C61, C62: copies of particles, data that start at particles, costates that are zero

Index sets, states, costates, data, weights, nonlinearities, random initial parameters and the fixed-step
method are arbitrary, as for C51 and C52.
-/

set_option linter.unusedSectionVars false

namespace Verif.Symmetry
open Verif.Shooting Verif.Models Verif.Evolution

variable {ι ι' β K P : Type} [Fintype ι] [Fintype ι'] [DecidableEq ι] [Fintype K] [Fintype P]

/-! ## C60 -/

/-- C60, parameters and norm penalty: having every particle `n` times instead of once changes neither. -/
theorem C60_parameters {f : Class K P} (hf : Rowwise f) (ha : ∀ κ : Type, [Fintype κ] → AffineInParams (f κ)) (w : P → Option ℝ)
    {g : ι' → ι} {n : ℕ} (hg : EachTimes g n) (hn : n ≠ 0) (θ0 θ1 : P → ℝ) (q p : ι × K → ℝ) :
    directParameters (f ι') w θ1 (rows g q) (rows g p) = directParameters (f ι) w θ0 q p ∧
      kineticEnergy w (directParameters (f ι') w θ1 (rows g q) (rows g p)) =
        kineticEnergy w (directParameters (f ι) w θ0 q p) := by
  have h : directParameters (f ι') w θ1 (rows g q) (rows g p) = directParameters (f ι) w θ0 q p := by
    rw [direct_copies hf w hg hn, C32_independent_of_initialisation (ha ι) w θ1 θ0]
  exact ⟨h, by rw [h]⟩

/-- C60, one evaluation: the copies of a particle all get that particle's derivatives, the derivative of the data is the same. -/
theorem C60_field [Nonempty ι] {f : Class K P} (hf : Rowwise f) (hd : DiffRow f) (ha : ∀ κ : Type, [Fintype κ] → AffineInParams (f κ))
    (w : P → Option ℝ) (hw : ∀ r, weight w r ≠ 0) (ρ ρ' : ℝ → (P → ℝ) × (P → ℝ)) {g : ι' → ι} {n : ℕ} (hg : EachTimes g n) (hn : n ≠ 0)
    (t : ℝ) (s : Sys ι β K) :
    field f (autodiff f w ρ') t (copyParticles g s) = copyParticles g (field f (autodiff f w ρ) t s) := by
  have : Nonempty ι' := by
    obtain ⟨i⟩ := ‹Nonempty ι›
    have h1 : 0 < (Finset.univ.filter fun i' => g i' = i).card := by rw [hg i]; omega
    obtain ⟨i', _⟩ := Finset.card_pos.1 h1
    exact ⟨i'⟩
  have h := (C60_parameters hf ha w hg hn (ρ t).1 (ρ' t).1 s.1 s.2.1).1
  have hc : costateRhs (f ι') w (ρ' t).2 (rows g s.1) (rows g s.2.1) = rows g (costateRhs (f ι) w (ρ t).2 s.1 s.2.1) := by
    funext m
    obtain ⟨i', k⟩ := m
    rw [costate_row hf hd (ha ι') w hw, (C60_parameters hf ha w hg hn (ρ t).2 (ρ' t).2 s.1 s.2.1).1]
    show _ = costateRhs (f ι) w (ρ t).2 s.1 s.2.1 (g i', k)
    rw [costate_row hf hd (ha ι) w hw]
    rfl
  simp only [field, autodiff, copyParticles, h, hc, hf ι' ι g]

/-- What C60 says of two runs of the same method: all vectors of the run with copies are the copied vectors of the run without; in
particular the data are the same. -/
def SameWithCopies (F : ℝ → Sys ι β K → Sys ι β K) (F' : ℝ → Sys ι' β K → Sys ι' β K) (g : ι' → ι) : Prop :=
  (∀ prog s, run F' prog [copyParticles g s] = (run F prog [s]).map (copyParticles g)) ∧
    (∀ prog s, (run F' prog [copyParticles g s]).map (fun v => v.2.2) = (run F prog [s]).map fun v => v.2.2) ∧
    (∀ h t n s, euler F' h t n (copyParticles g s) = copyParticles g (euler F h t n s)) ∧
    (∀ h t n s, (euler F' h t n (copyParticles g s)).2.2 = (euler F h t n s).2.2) ∧
    (∀ h t n s, rk4 F' h t n (copyParticles g s) = copyParticles g (rk4 F h t n s)) ∧
    (∀ h t n s, (rk4 F' h t n (copyParticles g s)).2.2 = (rk4 F h t n s).2.2)

omit [Fintype ι] [Fintype ι'] [DecidableEq ι] [Fintype K] in
theorem sameWithCopies_of_field {F : ℝ → Sys ι β K → Sys ι β K} {F' : ℝ → Sys ι' β K → Sys ι' β K} {g : ι' → ι}
    (h : ∀ t s, F' t (copyParticles g s) = copyParticles g (F t s)) : SameWithCopies F F' g := by
  have hr : ∀ prog s, run F' prog [copyParticles g s] = (run F prog [s]).map (copyParticles g) := fun prog s =>
    run_map (copyL g) h prog [s]
  have he : ∀ a t n s, euler F' a t n (copyParticles g s) = copyParticles g (euler F a t n s) := euler_map (copyL g) h
  have hk : ∀ a t n s, rk4 F' a t n (copyParticles g s) = copyParticles g (rk4 F a t n s) := rk4_map (copyL g) h
  refine ⟨hr, fun prog s => ?_, he, fun a t n s => ?_, hk, fun a t n s => ?_⟩
  · rw [hr, List.map_map]
    rfl
  · rw [he]
    rfl
  · rw [hk]
    rfl

/-- C60: only the distribution of the particles matters.  If every particle is present `n` times, all its copies evolve like the single
particle and all predictions are the same. -/
theorem C60_evolution [Nonempty ι] {f : Class K P} (hf : Rowwise f) (hd : DiffRow f) (ha : ∀ κ : Type, [Fintype κ] → AffineInParams (f κ))
    (w : P → Option ℝ) (hw : ∀ r, weight w r ≠ 0) (ρ ρ' : ℝ → (P → ℝ) × (P → ℝ)) {g : ι' → ι} {n : ℕ} (hg : EachTimes g n) (hn : n ≠ 0) :
    SameWithCopies (β := β) (field f (autodiff f w ρ)) (field f (autodiff f w ρ')) g :=
  sameWithCopies_of_field fun t s => C60_field hf hd ha w hw ρ ρ' hg hn t s

/-- C60 with given parameters (RNN mode, external parameters): here `g` may copy the particles in any way, because the parameters do not
depend on the particles. -/
theorem C60_evolution_given [Nonempty ι] [Nonempty ι'] {f : Class K P} (hf : Rowwise f) (hd : DiffRow f) (w : P → Option ℝ)
    (θ : ℝ → P → ℝ) (g : ι' → ι) : SameWithCopies (β := β) (field f (given f w θ)) (field f (given f w θ)) g := by
  refine sameWithCopies_of_field fun t s => ?_
  have hc : costateRhsFixed (f ι') w (θ t) (rows g s.1) (rows g s.2.1) = rows g (costateRhsFixed (f ι) w (θ t) s.1 s.2.1) := by
    funext m
    obtain ⟨i', k⟩ := m
    rw [costateFixed_row hf hd]
    show _ = costateRhsFixed (f ι) w (θ t) s.1 s.2.1 (g i', k)
    rw [costateFixed_row hf hd]
    rfl
  simp only [field, given, copyParticles, hc, hf ι' ι g]

section Classes
variable {C D E : Type} [Fintype C] [Fintype D] [Fintype E] {h w : Nat}

/-- What the theorems of this file need of a class. -/
structure Fits (f : Class K P) : Prop where
  rowwise : Rowwise f
  diff : DiffRow f
  affine : ∀ κ : Type, [Fintype κ] → AffineInParams (f κ)

/-- Every class of the repository meets the hypotheses, with every differentiable nonlinearity. -/
theorem C60_classes {nl : ℝ → ℝ} (hnl : Differentiable ℝ nl) (damp : ℝ) {ε : ℝ} (hε : 0 < ε) :
    Fits (K := C × D) (fun _ => simple nl) ∧ Fits (K := Two C D E) (fun _ => upDown nl) ∧
    Fits (K := Two C D E) (fun _ => universal nl) ∧ Fits (K := Two C D E) (fun _ => general nl damp) ∧
    Fits (K := Two C D E) (fun _ => periodic nl) ∧ Fits (K := Two C D E) (fun _ => dampenedQ2 nl damp) ∧
    Fits (K := Two C D D) (fun _ => debugSimple nl) ∧ Fits (K := Three C D E) (fun _ => symmetrized nl) ∧
    Fits (K := Four C D E) (fun _ => dampenedUpDown nl) ∧
    Fits (K := Conv.Imgs C E h w) (fun _ => Conv.upDownConv nl) ∧ Fits (K := Conv.Imgs C C h w) (fun _ => Conv.convBatch nl ε) :=
  ⟨⟨rowwise_simple nl, diffRow_of fun θ _ j => diff_simple (fun _ _ _ => hnl _) θ j, fun _ => (linear_simple nl).affine⟩,
    ⟨rowwise_upDown nl, diffRow_of fun θ _ j => diff_upDown (fun _ _ _ => hnl _) θ j, fun _ => (linear_upDown nl).affine⟩,
    ⟨rowwise_universal nl, diffRow_of fun θ _ j => diff_universal (fun _ _ _ => hnl _) θ j, fun _ => (linear_universal nl).affine⟩,
    ⟨rowwise_general nl damp, diffRow_of fun θ _ j => diff_general (fun _ _ _ => hnl _) (fun _ _ _ => hnl _) damp θ j,
      fun _ => affine_general nl damp⟩,
    ⟨rowwise_periodic nl, diffRow_of fun θ _ j => diff_periodic (fun _ _ _ => hnl _) θ j, fun _ => (linear_periodic nl).affine⟩,
    ⟨rowwise_dampenedQ2 nl damp, diffRow_of fun θ _ j => diff_dampenedQ2 (fun _ _ _ => hnl _) damp θ j,
      fun _ => affine_dampenedQ2 nl damp⟩,
    ⟨rowwise_debugSimple nl, diffRow_of fun θ _ j => diff_debugSimple (fun _ _ _ => hnl _) (fun _ _ _ => hnl _) θ j,
      fun _ => (linear_debugSimple nl).affine⟩,
    ⟨rowwise_symmetrized nl, diffRow_of fun θ _ j => diff_symmetrized (fun _ _ _ => hnl _) (fun _ _ _ => hnl _) θ j,
      fun _ => (linear_symmetrized nl).affine⟩,
    ⟨rowwise_dampenedUpDown nl, diffRow_of fun θ q j => diff_dampenedUpDown hnl θ q j, fun _ => affine_dampenedUpDown nl⟩,
    ⟨Conv.rowwise_upDownConv nl, diffRow_of fun θ _ j => Conv.diff_upDownConv (fun _ _ _ => hnl _) θ j,
      fun _ => (Conv.linear_upDownConv nl).affine⟩,
    ⟨Conv.rowwise_convBatch nl ε, diffRow_of fun θ _ j => Conv.diff_convBatch hε (fun _ _ _ => hnl _) θ j,
      fun _ => (Conv.linear_convBatch nl ε).affine⟩⟩

end Classes

/-- Three particles, each given twice: same predictions. -/
example (h t : ℝ) (n : ℕ) (s : Sys (Fin 3) Bool (Two Unit (Fin 2) (Fin 6))) :
    (rk4 (field (fun _ => upDown Real.tanh) (autodiff (fun _ => upDown Real.tanh) (fun _ => none) fun _ => (0, 0))) h t n
        (copyParticles (fun x : Fin 3 × Bool => x.1) s)).2.2 =
      (rk4 (field (fun _ => upDown Real.tanh) (autodiff (fun _ => upDown Real.tanh) (fun _ => none) fun _ => (1, 2))) h t n s).2.2 := by
  have hF := (C60_classes (C := Unit) (D := Fin 2) (E := Fin 6) (h := 1) (w := 1) (nl := Real.tanh)
    (fun x => (Activation.hasDerivAt_tanh x).differentiableAt) 0 one_pos).2.1
  exact (C60_evolution hF.rowwise hF.diff hF.affine (fun _ => none) (fun _ => by norm_num [weight]) (fun _ => (1, 2)) (fun _ => (0, 0))
    (g := fun x : Fin 3 × Bool => x.1) (n := 2) (by unfold EachTimes; decide) two_ne_zero).2.2.2.2.2 h t n s

/-- `dot_q = θ q` for one number per particle. -/
def growthOn (κ : Type) : Rhs (κ × Unit) Unit := fun θ q j => θ () * q j

theorem growthOn_linear (κ : Type) [Fintype κ] : LinearInParams (growthOn κ) := fun q j => ⟨fun _ => q j, fun θ => by simp [growthOn, mul_comm]⟩

/-- Copying only some of the particles does change the parameters: the copies must be uniform. -/
theorem C60_uniform_needed : ∃ (q p : Bool × Unit → ℝ) (g : Fin 3 → Bool), Function.Surjective g ∧
    directParameters (growthOn (Fin 3)) (fun _ => none) 0 (rows g q) (rows g p) ≠
      directParameters (growthOn Bool) (fun _ => none) 0 q p := by
  refine ⟨fun m => cond m.1 1 0, fun _ => 1, ![true, true, false], by decide, fun h => ?_⟩
  have h1 := congrFun h ()
  rw [directParameters_eq (growthOn_linear _).affine, directParameters_eq (growthOn_linear _).affine] at h1
  simp only [potCoeff, coeff, growthOn, weight, rows, Fintype.sum_prod_type, Fin.sum_univ_three, Fintype.sum_bool] at h1
  have e : (![true, true, false] : Fin 3 → Bool) 2 = false := rfl
  norm_num [e] at h1

/-! ## C61 -/

/-- C61: a data sample that starts at the state of a particle stays at the state of this particle, at every stage of every fixed-step
method and in every mode of computing parameters and costates. -/
theorem C61_data_follow {f : Class K P} (hf : Rowwise f) (m : Mode ι K P) (g : β → ι) (prog : List Instr) (s : Sys ι β K)
    (hs : AtParticles g s) : ∀ v ∈ run (field f m) prog [s], AtParticles g v := by
  have e : s = followL g (s.1, s.2.1, fun k => k.1.elim) := by
    refine Prod.ext rfl (Prod.ext rfl ?_)
    funext k
    exact hs k.1 k.2
  have h : ∀ t (v : Sys ι Empty K), field f m t (followL g v) = followL g (field f m t v) := by
    intro t v
    exact Prod.ext rfl (Prod.ext rfl (hf β ι g _ _))
  rw [e, show [followL g (s.1, s.2.1, fun k : Empty × K => k.1.elim)] = [(s.1, s.2.1, fun k : Empty × K => k.1.elim)].map (followL g) from rfl,
    run_map (followL g) h]
  intro v hv
  obtain ⟨u, _, rfl⟩ := List.mem_map.1 hv
  intro b k
  rfl

/-- C61 for Euler and Runge-Kutta steps. -/
theorem C61_steps {f : Class K P} (hf : Rowwise f) (m : Mode ι K P) (g : β → ι) (a t : ℝ) (n : ℕ) (s : Sys ι β K)
    (hs : AtParticles g s) : AtParticles g (euler (field f m) a t n s) ∧ AtParticles g (rk4 (field f m) a t n s) := by
  have e : s = followL g (s.1, s.2.1, fun k => k.1.elim) := by
    refine Prod.ext rfl (Prod.ext rfl ?_)
    funext k
    exact hs k.1 k.2
  have h : ∀ t (v : Sys ι Empty K), field f m t (followL g v) = followL g (field f m t v) := by
    intro t v
    exact Prod.ext rfl (Prod.ext rfl (hf β ι g _ _))
  rw [e, euler_map (followL g) h, rk4_map (followL g) h]
  exact ⟨fun b k => rfl, fun b k => rfl⟩

/-- C61: in particular two samples, or a sample and a particle, that are at the same place are never separated. -/
theorem C61_never_separated {f : Class K P} (hf : Rowwise f) (m : Mode ι K P) (i j : ι) (prog : List Instr) (q p : ι × K → ℝ) (x : β × K → ℝ)
    (hq : ∀ k, q (i, k) = q (j, k)) : ∀ v ∈ run (field f m) prog [(q, p, x)], ∀ k, v.1 (i, k) = v.1 (j, k) := by
  have h1 := C61_data_follow hf m (fun b : Bool => if b then i else j) prog (q, p, fun k => q (if k.1 then i else j, k.2)) (fun b k => rfl)
  have h2 := C61_data_follow hf m (fun b : Bool => i) prog (q, p, fun k => q (if k.1 then i else j, k.2)) (fun b k => by
    show q _ = q _
    cases b
    · exact (hq k).symm
    · rfl)
  have h3 := C52_data_never_influence hf m prog q p x (fun k : Bool × K => q (if k.1 then i else j, k.2))
  intro v hv k
  have : (v.1, v.2.1) ∈ (run (field f m) prog [(q, p, fun k : Bool × K => q (if k.1 then i else j, k.2))]).map fun v => (v.1, v.2.1) := by
    rw [← h3]
    exact List.mem_map_of_mem hv
  obtain ⟨u, hu, hue⟩ := List.mem_map.1 this
  have h4 : u.1 = v.1 := congrArg Prod.fst hue
  have h5 := h1 u hu false k
  have h6 := h2 u hu false k
  rw [h6, h4] at h5
  exact h5

/-- Three particles and two samples of the up-down model, the samples at the last and the first particle: the hypothesis of `C61_steps`
holds and the samples end where these particles end. -/
example (h t : ℝ) (n : ℕ) (q p : Fin 3 × Two Unit (Fin 2) (Fin 6) → ℝ) (m : Mode (Fin 3) (Two Unit (Fin 2) (Fin 6)) (UpDownPar (Fin 2) (Fin 6)))
    (k : Two Unit (Fin 2) (Fin 6)) :
    let v := rk4 (field (fun _ => upDown Real.tanh) m) h t n (q, p, fun x : Bool × _ => q (bif x.1 then 2 else 0, x.2))
    v.2.2 (true, k) = v.1 (2, k) ∧ v.2.2 (false, k) = v.1 (0, k) := by
  have h1 := (C61_steps (rowwise_upDown Real.tanh) m (fun b => bif b then 2 else 0) h t n
    (q, p, fun x : Bool × _ => q (bif x.1 then 2 else 0, x.2)) fun b k => rfl).2
  exact ⟨h1 true k, h1 false k⟩

/-! ## C62 -/

/-- With costate zero the parameters are zero: nothing to transport. -/
theorem direct_zero (rhs : Rhs (ι × K) P) (w : P → Option ℝ) (θ0 : P → ℝ) (q : ι × K → ℝ) :
    directParameters rhs w θ0 q 0 = 0 := by
  have h : (fun θ => potentialEnergy rhs q 0 θ) = fun _ => 0 := by
    funext θ
    simp [potentialEnergy]
  unfold directParameters
  rw [h]
  funext r
  rw [divideByWeight_eq]
  simp [autograd]

/-- C62, one evaluation: if all costates are zero, parameters, norm penalty, costate derivative and (for right-hand sides linear in the
parameters) the derivatives of state and data are zero. -/
theorem C62_field {f : Class K P} (hf : Rowwise f) (hl : LinearInParams (f Unit)) (w : P → Option ℝ) (ρ : ℝ → (P → ℝ) × (P → ℝ)) (t : ℝ)
    (q : ι × K → ℝ) (x : β × K → ℝ) :
    directParameters (f ι) w (ρ t).1 q 0 = 0 ∧ kineticEnergy w (directParameters (f ι) w (ρ t).1 q 0) = 0 ∧
      field f (autodiff f w ρ) t (q, 0, x) = 0 := by
  have h0 := direct_zero (f ι) w (ρ t).1 q
  have hz : ∀ (κ : Type) (y : κ × K → ℝ), f κ 0 y = 0 := by
    intro κ y
    funext j
    rw [rhs_eq_row hf κ 0 y j.1 j.2]
    obtain ⟨m, hm⟩ := hl (fun m => y (j.1, m.2)) ((), j.2)
    show f Unit 0 (fun m => y (j.1, m.2)) ((), j.2) = 0
    rw [hm]
    simp
  have hc : costateRhs (f ι) w (ρ t).2 q 0 = 0 := by
    have e : (fun q' => reducedLagrangian (f ι) w (ρ t).2 q' 0) = fun _ => 0 := by
      funext q'
      unfold reducedLagrangian lagrangian
      rw [direct_zero]
      simp [kineticEnergy, potentialEnergy]
    unfold costateRhs
    rw [e]
    funext j
    simp [autograd]
  refine ⟨h0, by rw [h0]; simp [kineticEnergy], ?_⟩
  simp only [field, autodiff, h0, hz, hc]
  rfl

/-- Runs that start where the right-hand side vanishes on a whole line. -/
theorem run_rest {V : Type} [AddCommGroup V] [Module ℝ V] {F : ℝ → V → V} {s : V} (h : ∀ t (a : ℝ), F t (a • s) = 0) (prog : List Instr) :
    ∀ ys : List V, (∀ v ∈ ys, ∃ a : ℝ, v = a • s) → ∀ v ∈ run F prog ys, ∃ a : ℝ, v = a • s := by
  have hcomb : ∀ (c : List ℝ) (ys : List V), (∀ v ∈ ys, ∃ a : ℝ, v = a • s) → ∃ a : ℝ, comb c ys = a • s := by
    intro c
    induction c with
    | nil => exact fun ys _ => ⟨0, by simp [comb]⟩
    | cons b c ih =>
      intro ys hys
      cases ys with
      | nil => exact ⟨0, by simp [comb]⟩
      | cons y ys =>
        obtain ⟨a, ha⟩ := hys y (by simp)
        obtain ⟨a', ha'⟩ := ih ys fun v hv => hys v (by simp [hv])
        refine ⟨b * a + a', ?_⟩
        have : comb (b :: c) (y :: ys) = b • y + comb c ys := by simp [comb]
        rw [this, ha, ha', add_smul, mul_smul]
  induction prog with
  | nil => exact fun ys hys => hys
  | cons i prog ih =>
    intro ys hys
    apply ih
    intro v hv
    cases i with
    | eval t c =>
      rcases List.mem_append.1 hv with h1 | h1
      · exact hys v h1
      · obtain ⟨a, ha⟩ := hcomb c ys hys
        refine ⟨0, ?_⟩
        rw [List.mem_singleton.1 h1, ha, h, zero_smul]
    | lin c =>
      rcases List.mem_append.1 hv with h1 | h1
      · exact hys v h1
      · rw [List.mem_singleton.1 h1]
        exact hcomb c ys hys

/-- C62: with zero costates nothing moves.  Euler and Runge-Kutta steps return the initial vector, and every stage of any fixed-step method
is a multiple of it. -/
theorem C62_rest {f : Class K P} (hf : Rowwise f) (hl : LinearInParams (f Unit)) (w : P → Option ℝ) (ρ : ℝ → (P → ℝ) × (P → ℝ))
    (q : ι × K → ℝ) (x : β × K → ℝ) :
    (∀ a t n, euler (field f (autodiff f w ρ)) a t n (q, 0, x) = (q, 0, x)) ∧
    (∀ a t n, rk4 (field f (autodiff f w ρ)) a t n (q, 0, x) = (q, 0, x)) ∧
    (∀ prog, ∀ v ∈ run (field f (autodiff f w ρ)) prog [(q, 0, x)], ∃ a : ℝ, v = a • ((q, 0, x) : Sys ι β K)) := by
  have h : ∀ t (a : ℝ), field f (autodiff f w ρ) t (a • ((q, 0, x) : Sys ι β K)) = 0 := by
    intro t a
    have e : a • ((q, 0, x) : Sys ι β K) = (a • q, 0, a • x) := by
      refine Prod.ext rfl (Prod.ext ?_ rfl)
      exact smul_zero a
    rw [e]
    exact (C62_field hf hl w ρ t (a • q) (a • x)).2.2
  have h1 : ∀ t, field f (autodiff f w ρ) t ((q, 0, x) : Sys ι β K) = 0 := fun t => by
    have := h t 1
    rwa [one_smul] at this
  refine ⟨fun a t n => ?_, fun a t n => ?_, fun prog => ?_⟩
  · induction n generalizing t with
    | zero => rfl
    | succ n ih => rw [euler, h1, smul_zero, add_zero, ih]
  · induction n generalizing t with
    | zero => rfl
    | succ n ih =>
      have e : rk4Step (field f (autodiff f w ρ)) a t ((q, 0, x) : Sys ι β K) = (q, 0, x) := by
        simp only [rk4Step, h1, smul_zero, add_zero]
      rw [rk4, e, ih]
  · exact run_rest h prog _ fun v hv => ⟨1, by rw [List.mem_singleton.1 hv, one_smul]⟩

/-- C62: a single particle whose costate is zero gets a zero costate derivative (automatic differentiation and given parameters), whatever
the others do. -/
theorem C62_single_particle [Nonempty ι] {f : Class K P} (hf : Rowwise f) (hd : DiffRow f) (ha : AffineInParams (f ι)) (w : P → Option ℝ)
    (hw : ∀ r, weight w r ≠ 0) (θ0 : P → ℝ) (q p : ι × K → ℝ) (i : ι) (hp : ∀ k, p (i, k) = 0) (k : K) :
    costateRhs (f ι) w θ0 q p (i, k) = 0 ∧ ∀ θ, costateRhsFixed (f ι) w θ q p (i, k) = 0 := by
  constructor
  · rw [costate_row hf hd ha w hw]
    simp [rowPull, hp]
  · intro θ
    rw [costateFixed_row hf hd]
    simp [rowPull, hp]

/-- C62 for whole runs: a particle with zero costate keeps it at every stage of every fixed-step method. -/
theorem C62_stays_zero [Nonempty ι] {f : Class K P} (hf : Rowwise f) (hd : DiffRow f) (ha : AffineInParams (f ι)) (w : P → Option ℝ)
    (hw : ∀ r, weight w r ≠ 0) (ρ : ℝ → (P → ℝ) × (P → ℝ)) (i : ι) (prog : List Instr) (s : Sys ι β K) (hs : ∀ k, s.2.1 (i, k) = 0) :
    ∀ v ∈ run (field f (autodiff f w ρ)) prog [s], ∀ k, v.2.1 (i, k) = 0 := by
  have hcomb : ∀ (c : List ℝ) (ys : List (Sys ι β K)), (∀ v ∈ ys, ∀ k, v.2.1 (i, k) = 0) → ∀ k, (comb c ys).2.1 (i, k) = 0 := by
    intro c
    induction c with
    | nil => intro ys _ k; rfl
    | cons b c ih =>
      intro ys hys k
      cases ys with
      | nil => rfl
      | cons y ys =>
        have h1 : comb (b :: c) (y :: ys) = b • y + comb c ys := by simp [comb]
        rw [h1]
        show b * y.2.1 (i, k) + (comb c ys).2.1 (i, k) = 0
        rw [hys y (by simp), ih ys fun v hv => hys v (by simp [hv])]
        simp
  have main : ∀ (prog : List Instr) (ys : List (Sys ι β K)), (∀ v ∈ ys, ∀ k, v.2.1 (i, k) = 0) →
      ∀ v ∈ run (field f (autodiff f w ρ)) prog ys, ∀ k, v.2.1 (i, k) = 0 := by
    intro prog
    induction prog with
    | nil => exact fun ys h => h
    | cons ins prog ih =>
      intro ys hys
      apply ih
      intro v hv
      cases ins with
      | eval t c =>
        rcases List.mem_append.1 hv with h1 | h1
        · exact hys v h1
        · rw [List.mem_singleton.1 h1]
          intro k
          exact (C62_single_particle hf hd ha w hw (ρ t).2 _ _ i (hcomb c ys hys) k).1
      | lin c =>
        rcases List.mem_append.1 hv with h1 | h1
        · exact hys v h1
        · rw [List.mem_singleton.1 h1]
          exact hcomb c ys hys
  exact main prog [s] fun v hv => by rw [List.mem_singleton.1 hv]; exact hs

/-- The universal model with tanh meets the hypotheses of both parts: at rest with zero costates, and one of three particles without
costate. -/
example (h t : ℝ) (n : ℕ) (q p : Fin 3 × Two Unit (Fin 2) (Fin 6) → ℝ) (x : Bool × Two Unit (Fin 2) (Fin 6) → ℝ) (prog : List Instr) :
    rk4 (field (fun _ => universal Real.tanh) (autodiff (fun _ => universal Real.tanh) (fun _ => some 3) fun _ => (1, 2))) h t n (q, 0, x) =
      (q, 0, x) ∧
    ∀ v ∈ run (field (fun _ => universal Real.tanh) (autodiff (fun _ => universal Real.tanh) (fun _ => some 3) fun _ => (1, 2))) prog
      [(q, fun m => if m.1 = 1 then 0 else p m, x)], ∀ k, v.2.1 (1, k) = 0 := by
  have hf := (C60_classes (C := Unit) (D := Fin 2) (E := Fin 6) (h := 0) (w := 0)
    (fun x => (Activation.hasDerivAt_tanh x).differentiableAt) 0 zero_lt_one).2.2.1
  exact ⟨(C62_rest hf.rowwise (linear_universal Real.tanh) _ _ q x).2.1 h t n,
    C62_stays_zero hf.rowwise hf.diff (hf.affine (Fin 3)) _ (fun _ => by norm_num [weight]) _ 1 prog _ fun k => by simp⟩

end Verif.Symmetry
