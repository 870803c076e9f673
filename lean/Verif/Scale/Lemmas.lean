import Verif.Scale.Spec
import Verif.Converge.Global

/-!
# Lemmas for C75
-/

namespace Verif.Scale
open Set Verif Verif.Shooting Verif.Evolution Verif.Converge

variable {ι β K K' P : Type}

/-! ## Energies and derivatives -/

theorem rhs_smul [Fintype P] {J : Type} {f : Rhs J P} (hf : LinearInParams f) (c : ℝ) (θ : P → ℝ) (q : J → ℝ) : f (c • θ) q = c • f θ q := by
  funext j
  obtain ⟨m, hm⟩ := hf q j
  rw [hm, Pi.smul_apply, hm, smul_eq_mul, Finset.mul_sum]
  exact Finset.sum_congr rfl fun r _ => by rw [Pi.smul_apply, smul_eq_mul]; ring

theorem autograd_mul {J : Type} (c : ℝ) (F : (J → ℝ) → ℝ) (x : J → ℝ) : autograd (fun y => c * F y) x = c • autograd F x := by
  funext j
  unfold autograd
  rw [Pi.smul_apply, smul_eq_mul]
  exact deriv_const_mul_field c

variable [Fintype ι] [Fintype K] [Fintype K'] [Fintype P]

omit [Fintype P] in
theorem potential_smul_costate (f : Rhs (ι × K) P) (c : ℝ) (q p : ι × K → ℝ) (θ : P → ℝ) : potentialEnergy f q (c • p) θ = c * potentialEnergy f q p θ := by
  unfold potentialEnergy
  rw [Finset.mul_sum]
  refine Finset.sum_congr rfl fun k _ => ?_
  rw [← mul_div_assoc, Finset.mul_sum]
  refine congrArg (fun s : ℝ => s / Fintype.card ι) (Finset.sum_congr rfl fun i _ => ?_)
  rw [Pi.smul_apply, smul_eq_mul]
  ring

theorem potential_smul_params {f : Rhs (ι × K) P} (hf : LinearInParams f) (c : ℝ) (q p : ι × K → ℝ) (θ : P → ℝ) : potentialEnergy f q p (c • θ) = c * potentialEnergy f q p θ := by
  unfold potentialEnergy
  rw [Finset.mul_sum]
  refine Finset.sum_congr rfl fun k _ => ?_
  rw [← mul_div_assoc, Finset.mul_sum]
  refine congrArg (fun s : ℝ => s / Fintype.card ι) (Finset.sum_congr rfl fun i _ => ?_)
  rw [rhs_smul hf, Pi.smul_apply, smul_eq_mul]
  ring

omit [Fintype ι] [Fintype K] in
theorem kinetic_smul (w : P → Option ℝ) (c : ℝ) (θ : P → ℝ) : kineticEnergy w (c • θ) = c ^ 2 * kineticEnergy w θ := by
  rw [kineticEnergy_eq, kineticEnergy_eq, Finset.mul_sum]
  refine Finset.sum_congr rfl fun r _ => ?_
  rw [Pi.smul_apply, smul_eq_mul]
  ring

omit [Fintype P] in
theorem direct_smul (f : Rhs (ι × K) P) (w : P → Option ℝ) (θ0 : P → ℝ) (c : ℝ) (q p : ι × K → ℝ) :
    directParameters f w θ0 q (c • p) = c • directParameters f w θ0 q p := by
  unfold directParameters
  simp only [potential_smul_costate]
  rw [autograd_mul]
  funext r
  rw [divideByWeight_eq, Pi.smul_apply, Pi.smul_apply, divideByWeight_eq, smul_eq_mul, smul_eq_mul, mul_div_assoc]

theorem lagrangian_smul {f : Rhs (ι × K) P} (hf : LinearInParams f) (w : P → Option ℝ) (c : ℝ) (q p : ι × K → ℝ) (θ : P → ℝ) :
    lagrangian f w q (c • p) (c • θ) = c ^ 2 * lagrangian f w q p θ := by
  unfold lagrangian
  rw [kinetic_smul, potential_smul_costate, potential_smul_params hf]
  ring

theorem costate_smul {f : Rhs (ι × K) P} (hf : LinearInParams f) (w : P → Option ℝ) (θ0 : P → ℝ) (c : ℝ) (q p : ι × K → ℝ) :
    costateRhs f w θ0 q (c • p) = c ^ 2 • costateRhs f w θ0 q p := by
  unfold costateRhs
  rw [← autograd_mul]
  refine congrArg (fun F => autograd F q) (funext fun q' => ?_)
  unfold reducedLagrangian
  rw [direct_smul, lagrangian_smul hf]
  ring

theorem costateFixed_smul {f : Rhs (ι × K) P} (hf : LinearInParams f) (w : P → Option ℝ) (θ : P → ℝ) (c : ℝ) (q p : ι × K → ℝ) :
    costateRhsFixed f w (c • θ) q (c • p) = c ^ 2 • costateRhsFixed f w θ q p := by
  unfold costateRhsFixed
  rw [← autograd_mul]
  refine congrArg (fun F => autograd F q) (funext fun q' => ?_)
  unfold reducedLagrangianFixed
  rw [lagrangian_smul hf]
  ring

/-! ## Scaling is linear -/

section
omit [Fintype ι] [Fintype K] [Fintype K']

theorem scale_add (c : ℝ) (z z' : Sys2 ι β K K') : scaleCostate c (z + z') = scaleCostate c z + scaleCostate c z' := by
  unfold scaleCostate
  rw [Prod.fst_add, Prod.snd_add, Prod.fst_add, Prod.snd_add, smul_add]
  rfl

theorem scale_smul (c a : ℝ) (z : Sys2 ι β K K') : scaleCostate c (a • z) = a • scaleCostate c z := by
  unfold scaleCostate
  rw [Prod.smul_fst, Prod.smul_snd, Prod.smul_fst, Prod.smul_snd, smul_comm]
  rfl

theorem scale_sub (c : ℝ) (z z' : Sys2 ι β K K') : scaleCostate c (z - z') = scaleCostate c z - scaleCostate c z' := by
  unfold scaleCostate
  rw [Prod.fst_sub, Prod.snd_sub, Prod.fst_sub, Prod.snd_sub, smul_sub]
  rfl

theorem scale_zero (c : ℝ) : scaleCostate c (0 : Sys2 ι β K K') = 0 := by
  unfold scaleCostate
  rw [Prod.fst_zero, Prod.snd_zero, Prod.fst_zero, Prod.snd_zero, smul_zero]
  rfl

theorem scale_comb (c : ℝ) (cs : List ℝ) (zs : List (Sys2 ι β K K')) : comb cs (zs.map (scaleCostate c)) = scaleCostate c (comb cs zs) := by
  unfold comb
  induction cs generalizing zs with
  | nil => exact (scale_zero c).symm
  | cons a cs ih =>
    cases zs with
    | nil => exact (scale_zero c).symm
    | cons z zs =>
      rw [List.map_cons, List.zipWith_cons_cons, List.zipWith_cons_cons, List.sum_cons, List.sum_cons, ih, scale_add, scale_smul]

theorem comb_smul (c : ℝ) (cs : List ℝ) (zs : List (Sys2 ι β K K')) : comb cs (zs.map fun z => c • z) = c • comb cs zs := by
  unfold comb
  induction cs generalizing zs with
  | nil => exact (smul_zero c).symm
  | cons a cs ih =>
    cases zs with
    | nil => exact (smul_zero c).symm
    | cons z zs =>
      rw [List.map_cons, List.zipWith_cons_cons, List.zipWith_cons_cons, List.sum_cons, List.sum_cons, ih, smul_add, smul_comm a c]

theorem scale_scale (c d : ℝ) (z : Sys2 ι β K K') : scaleCostate c (scaleCostate d z) = scaleCostate (c * d) z := by
  unfold scaleCostate
  rw [smul_smul]

theorem scale_one (z : Sys2 ι β K K') : scaleCostate 1 z = z := by
  unfold scaleCostate
  rw [one_smul]
end

/-! ## Steps -/

section
omit [Fintype ι] [Fintype K] [Fintype K']
variable {F G : ℝ → Sys2 ι β K K' → Sys2 ι β K K'} {c : ℝ}

theorem slopes_scale (H : ∀ t z, G t (scaleCostate c z) = c • scaleCostate c (F (c * t) z)) (h t : ℝ) (y : Sys2 ι β K K') (ss : List (ℝ × List ℝ)) (ks : List (Sys2 ι β K K')) :
    slopes G h t (scaleCostate c y) ss (ks.map fun k => c • scaleCostate c k) = (slopes F (c * h) (c * t) y ss ks).map fun k => c • scaleCostate c k := by
  induction ss generalizing ks with
  | nil => rfl
  | cons s ss ih =>
    rw [slopes, slopes, ← ih, List.map_append, List.map_singleton]
    have e1 : comb s.2 (ks.map fun k => c • scaleCostate c k) = c • scaleCostate c (comb s.2 ks) := by
      rw [← scale_comb, ← comb_smul, List.map_map]
      rfl
    have e2 : scaleCostate c y + h • comb s.2 (ks.map fun k => c • scaleCostate c k) = scaleCostate c (y + (c * h) • comb s.2 ks) := by
      rw [e1, scale_add, scale_smul, smul_smul, mul_comm h c]
    have e3 : c * (t + s.1 * h) = c * t + s.1 * (c * h) := by ring
    rw [e2, H, e3]

theorem increment_scale (H : ∀ t z, G t (scaleCostate c z) = c • scaleCostate c (F (c * t) z)) (T : Tableau) (h t : ℝ) (y : Sys2 ι β K K') :
    increment T G h t (scaleCostate c y) = c • scaleCostate c (increment T F (c * h) (c * t) y) := by
  unfold increment
  have := slopes_scale H h t y T.stages []
  rw [List.map_nil] at this
  rw [this, ← scale_comb, ← comb_smul, List.map_map]
  rfl

theorem step_scale (H : ∀ t z, G t (scaleCostate c z) = c • scaleCostate c (F (c * t) z)) (T : Tableau) (t t' : ℝ) (y : Sys2 ι β K K') :
    scaleCostate c y + (t' - t) • increment T G (t' - t) t (scaleCostate c y) = scaleCostate c (y + (c * t' - c * t) • increment T F (c * t' - c * t) (c * t) y) := by
  rw [increment_scale H, scale_add, scale_smul, smul_smul, mul_comm (t' - t) c, mul_sub]

theorem between_scale (hc : 0 < c) (t t' τ : ℝ) (y y' : Sys2 ι β K K') :
    between t t' (scaleCostate c y) (scaleCostate c y') τ = scaleCostate c (between (c * t) (c * t') y y' (c * τ)) := by
  unfold between
  have e : (c * τ - c * t) / (c * t' - c * t) = (τ - t) / (t' - t) := by
    rw [← mul_sub, ← mul_sub, mul_div_mul_left _ _ hc.ne']
  rw [e]
  by_cases h1 : τ = t
  · rw [if_pos h1, if_pos (by rw [h1])]
  · rw [if_neg h1, if_neg (fun h => h1 (mul_left_cancel₀ hc.ne' h))]
    by_cases h2 : τ = t'
    · rw [if_pos h2, if_pos (by rw [h2])]
    · rw [if_neg h2, if_neg (fun h => h2 (mul_left_cancel₀ hc.ne' h)), scale_add, scale_smul, scale_sub]

theorem outputs_scale (H : ∀ t z, G t (scaleCostate c z) = c • scaleCostate c (F (c * t) z)) (hc : 0 < c) (T : Tableau) (grid : List ℝ) (t : ℝ) (y : Sys2 ι β K K') (req : List ℝ) :
    outputs (increment T G) t (scaleCostate c y) grid req = (outputs (increment T F) (c * t) y (grid.map (c * ·)) (req.map (c * ·))).map (scaleCostate c) := by
  induction grid generalizing t y req with
  | nil => rfl
  | cons t' grid ih =>
    have hle : ∀ τ, (decide (c * τ ≤ c * t') : Bool) = decide (τ ≤ t') := fun τ => by
      rw [decide_eq_decide]
      exact mul_le_mul_iff_right₀ hc
    rw [List.map_cons, outputs, outputs, step_scale H, ih, List.map_append, List.takeWhile_map, List.dropWhile_map, List.map_map, List.map_map]
    congr 1
    · have : ((fun x => decide (x ≤ c * t')) ∘ fun x => c * x) = fun τ : ℝ => decide (τ ≤ t') := funext hle
      rw [this]
      refine List.map_congr_left fun τ _ => ?_
      exact between_scale hc t t' τ y _
    · have : ((fun x => decide (x ≤ c * t')) ∘ fun x => c * x) = fun τ : ℝ => decide (τ ≤ t') := funext hle
      rw [this]
end

/-! ## Solutions -/

theorem solves_scale [Fintype β] {F G : ℝ → Sys2 ι β K K' → Sys2 ι β K K'} {c s a b a' b' : ℝ} (H : ∀ t z, G t (scaleCostate c z) = c • scaleCostate c (F (s + c * t) z))
    (hm : MapsTo (fun t : ℝ => s + c * t) (Icc a' b') (Icc a b)) {y : ℝ → Sys2 ι β K K'} (hy : Solves F a b y) :
    Solves G a' b' fun t => scaleCostate c (y (s + c * t)) := by
  intro t ht
  have h1 : HasDerivWithinAt (fun t : ℝ => s + c * t) c (Icc a' b') t := by
    simpa using ((hasDerivWithinAt_id t (Icc a' b')).const_mul c).const_add s
  have h2 := (hy _ (hm ht)).scomp t h1 hm
  rw [H, ← scale_smul]
  have e1 := hasFDerivAt_fst.comp_hasDerivWithinAt t h2
  have e2 := hasFDerivAt_snd.comp_hasDerivWithinAt t h2
  have e3 := hasFDerivAt_fst.comp_hasDerivWithinAt t e2
  have e4 := hasFDerivAt_snd.comp_hasDerivWithinAt t e2
  exact e1.prodMk ((e3.const_smul c).prodMk e4)

omit [Fintype P] in
/-- The particles of a solution alone. -/
theorem solves_particles [Fintype β] {f : Class K P} {g : Class K' P} {m : Mode ι K P} {a b : ℝ} {y : ℝ → Sys2 ι β K K'} (hy : Solves (field2 f g m) a b y) :
    Solves (field2 f g m) a b fun t => ((y t).1, (y t).2.1, (fun k => k.1.elim : Empty × K' → ℝ)) := by
  intro t ht
  have e1 := hasFDerivAt_fst.comp_hasDerivWithinAt t (hy t ht)
  have e2 := hasFDerivAt_snd.comp_hasDerivWithinAt t (hy t ht)
  have e3 := hasFDerivAt_fst.comp_hasDerivWithinAt t e2
  exact e1.prodMk (e3.prodMk (hasDerivWithinAt_pi.2 fun k => k.1.elim))

end Verif.Scale
