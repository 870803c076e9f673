import Verif.Order.Chain
import Mathlib.Analysis.Calculus.FDeriv.Symmetric
import Mathlib.Analysis.Calculus.ContDiff.Deriv

/-!
# Derivatives of the slopes with respect to the step size
-/

namespace Verif.Order
open Set Verif Verif.Converge

variable {E : Type} [NormedAddCommGroup E] [NormedSpace ℝ E]

/-! ## Weighted sums -/

omit [NormedSpace ℝ E] in
theorem comb_smul_vector [Module ℝ E] {α : Type} (c : List ℝ) (l : List α) (F : α → ℝ) (v : E) : Evolution.comb c (l.map fun n => F n • v) = Evolution.comb c (l.map F) • v := by
  unfold Evolution.comb
  induction c generalizing l with
  | nil => simp
  | cons a c ih =>
    cases l with
    | nil => simp
    | cons n l => simp only [List.map_cons, List.zipWith_cons_cons, List.sum_cons, ih l, add_smul, smul_smul, smul_eq_mul]

omit [NormedSpace ℝ E] in
theorem comb_add [Module ℝ E] {α : Type} (c : List ℝ) (l : List α) (F G : α → E) :
    Evolution.comb c (l.map fun n => F n + G n) = Evolution.comb c (l.map F) + Evolution.comb c (l.map G) := by
  unfold Evolution.comb
  induction c generalizing l with
  | nil => simp
  | cons a c ih =>
    cases l with
    | nil => simp
    | cons n l =>
      simp only [List.map_cons, List.zipWith_cons_cons, List.sum_cons, ih l, smul_add]
      abel

theorem comb_mul_left {α : Type} (c : List ℝ) (l : List α) (r : ℝ) (F : α → ℝ) : Evolution.comb c (l.map fun n => r * F n) = r * Evolution.comb c (l.map F) := by
  have := comb_smul_vector c l F r
  simp only [smul_eq_mul] at this
  rw [mul_comm, ← this]
  congr 2
  funext n
  ring

/-- The weighted sum of functions of the step size together with their derivatives. -/
def combine (c : List ℝ) (us : List (ℕ → ℝ → E)) : ℕ → ℝ → E := fun k h => Evolution.comb c (us.map fun u => u k h)

/-- Every function is the derivative of the one before. -/
def Chain (m : ℕ) (u : ℕ → ℝ → E) : Prop := ∀ k < m, ∀ h, HasDerivAt (u k) (u (k + 1) h) h

theorem chain_combine {m : ℕ} (c : List ℝ) (us : List (ℕ → ℝ → E)) (hu : ∀ u ∈ us, Chain m u) : Chain m (combine c us) := by
  intro k hk h
  unfold combine Evolution.comb
  induction c generalizing us with
  | nil => simpa using hasDerivAt_const h (0 : E)
  | cons a c ih =>
    cases us with
    | nil => simpa using hasDerivAt_const h (0 : E)
    | cons u us =>
      simp only [List.map_cons, List.zipWith_cons_cons, List.sum_cons]
      exact ((hu u (by simp) k hk h).const_smul a).add (ih us fun u hu' => hu u (by simp [hu']))

/-- The points `x + h w(h)` together with their derivatives. -/
def curve (x : E) (w : ℕ → ℝ → E) : ℕ → ℝ → E
  | 0, h => x + h • w 0 h
  | k + 1, h => ((k + 1 : ℕ) : ℝ) • w k h + h • w (k + 1) h

theorem chain_curve {m : ℕ} (x : E) {w : ℕ → ℝ → E} (hw : Chain m w) : Chain m (curve x w) := by
  intro k hk h
  have h1 : HasDerivAt (fun h : ℝ => h • w k h) (h • w (k + 1) h + (1 : ℝ) • w k h) h := (hasDerivAt_id h).smul (hw k hk h)
  rw [one_smul] at h1
  cases k with
  | zero =>
    have := h1.const_add x
    refine this.congr_deriv ?_
    simp [curve, add_comm]
  | succ k =>
    have h2 := ((hw k (by omega) h).const_smul ((k + 1 : ℕ) : ℝ)).add h1
    refine h2.congr_deriv ?_
    simp only [curve]
    push_cast
    module

/-! ## One stage -/

/-- The slope at the points of a curve together with its derivatives. -/
noncomputable def stage (g : E → E) (c : ℕ → ℝ → E) : ℕ → ℝ → E
  | 0 => fun h => g (c 0 h)
  | 1 => fun h => fderiv ℝ g (c 0 h) (c 1 h)
  | 2 => fun h => fderiv ℝ (fderiv ℝ g) (c 0 h) (c 1 h) (c 1 h) + fderiv ℝ g (c 0 h) (c 2 h)
  | 3 => fun h => ((fderiv ℝ (fderiv ℝ (fderiv ℝ g)) (c 0 h) (c 1 h) (c 1 h) + fderiv ℝ (fderiv ℝ g) (c 0 h) (c 2 h)) (c 1 h) + fderiv ℝ (fderiv ℝ g) (c 0 h) (c 1 h) (c 2 h)) +
      (fderiv ℝ (fderiv ℝ g) (c 0 h) (c 1 h) (c 2 h) + fderiv ℝ g (c 0 h) (c 3 h))
  | _ => fun h => deriv (fun h => ((fderiv ℝ (fderiv ℝ (fderiv ℝ g)) (c 0 h) (c 1 h) (c 1 h) + fderiv ℝ (fderiv ℝ g) (c 0 h) (c 2 h)) (c 1 h) + fderiv ℝ (fderiv ℝ g) (c 0 h) (c 1 h) (c 2 h)) +
      (fderiv ℝ (fderiv ℝ g) (c 0 h) (c 1 h) (c 2 h) + fderiv ℝ g (c 0 h) (c 3 h))) h

theorem smooth1 {g : E → E} (hg : ContDiff ℝ (4 + 1 : ℕ) g) : ContDiff ℝ (4 : ℕ) (fderiv ℝ g) := hg.fderiv_right (by norm_cast)
theorem smooth2 {g : E → E} (hg : ContDiff ℝ (4 + 1 : ℕ) g) : ContDiff ℝ (3 : ℕ) (fderiv ℝ (fderiv ℝ g)) := (smooth1 hg).fderiv_right (by norm_cast)
theorem smooth3 {g : E → E} (hg : ContDiff ℝ (4 + 1 : ℕ) g) : ContDiff ℝ (2 : ℕ) (fderiv ℝ (fderiv ℝ (fderiv ℝ g))) := (smooth2 hg).fderiv_right (by norm_cast)

theorem chain_stage {g : E → E} (hg : ContDiff ℝ (4 + 1 : ℕ) g) {c : ℕ → ℝ → E} (hc : Chain 4 c) : Chain 4 (stage g c) := by
  have d0 : ∀ h, HasDerivAt (fun h => g (c 0 h)) (fderiv ℝ g (c 0 h) (c 1 h)) h := fun h =>
    (hg.differentiable (by norm_num) (c 0 h)).hasFDerivAt.comp_hasDerivAt h (hc 0 (by omega) h)
  have d1 : ∀ h, HasDerivAt (fun h => fderiv ℝ g (c 0 h)) (fderiv ℝ (fderiv ℝ g) (c 0 h) (c 1 h)) h := fun h =>
    ((smooth1 hg).differentiable (by norm_num) (c 0 h)).hasFDerivAt.comp_hasDerivAt h (hc 0 (by omega) h)
  have d2 : ∀ h, HasDerivAt (fun h => fderiv ℝ (fderiv ℝ g) (c 0 h)) (fderiv ℝ (fderiv ℝ (fderiv ℝ g)) (c 0 h) (c 1 h)) h := fun h =>
    ((smooth2 hg).differentiable (by norm_num) (c 0 h)).hasFDerivAt.comp_hasDerivAt h (hc 0 (by omega) h)
  have d3 : ∀ h, DifferentiableAt ℝ (fun h => fderiv ℝ (fderiv ℝ (fderiv ℝ g)) (c 0 h)) h := fun h =>
    (((smooth3 hg).differentiable (by norm_num) (c 0 h)).hasFDerivAt.comp_hasDerivAt h (hc 0 (by omega) h)).differentiableAt
  intro k hk h
  match k, hk with
  | 0, _ => exact d0 h
  | 1, _ => exact (d1 h).clm_apply (hc 1 (by omega) h)
  | 2, _ => exact (((d2 h).clm_apply (hc 1 (by omega) h)).clm_apply (hc 1 (by omega) h)).add ((d1 h).clm_apply (hc 2 (by omega) h))
  | 3, _ =>
    have e1 := (hc 1 (by omega) h).differentiableAt
    have e2 := (hc 2 (by omega) h).differentiableAt
    have e3 := (hc 3 (by omega) h).differentiableAt
    have f2 := (d2 h).differentiableAt
    have f1 := (d1 h).differentiableAt
    exact ((((((d3 h).clm_apply e1).clm_apply e1).add (f2.clm_apply e2)).clm_apply e1).add ((f2.clm_apply e1).clm_apply e2)).add
      (((f2.clm_apply e1).clm_apply e2).add (f1.clm_apply e3)) |>.hasDerivAt

/-- The slope and its derivatives at step size 0, for a stage with the node `n`. -/
structure AtZero (g : E → E) (x : E) (n : Node) (u : ℕ → ℝ → E) : Prop where
  chain : Chain 4 u
  zero : u 0 0 = g x
  one : u 1 0 = n.c • fderiv ℝ g x (g x)
  two : u 2 0 = (n.c ^ 2) • fderiv ℝ (fderiv ℝ g) x (g x) (g x) + (2 * n.ac) • fderiv ℝ g x (fderiv ℝ g x (g x))
  three : u 3 0 = (n.c ^ 3) • fderiv ℝ (fderiv ℝ (fderiv ℝ g)) x (g x) (g x) (g x) + (6 * (n.c * n.ac)) • fderiv ℝ (fderiv ℝ g) x (g x) (fderiv ℝ g x (g x)) +
    (3 * n.acc) • fderiv ℝ g x (fderiv ℝ (fderiv ℝ g) x (g x) (g x)) + (6 * n.aac) • fderiv ℝ g x (fderiv ℝ g x (fderiv ℝ g x (g x)))

theorem combine_atZero (c : List ℝ) {ns : List Node} {us : List (ℕ → ℝ → E)} {R : Node → (ℕ → ℝ → E) → Prop} (h : List.Forall₂ R ns us) (k : ℕ) (F : Node → E) (hF : ∀ n u, R n u → u k 0 = F n) :
    combine c us k 0 = Evolution.comb c (ns.map F) := by
  unfold combine
  congr 1
  induction h with
  | nil => rfl
  | cons h _ ih => rw [List.map_cons, List.map_cons, ih, hF _ _ h]

theorem second_symm {g : E → E} (hg : ContDiff ℝ (4 + 1 : ℕ) g) (x u v : E) : fderiv ℝ (fderiv ℝ g) x u v = fderiv ℝ (fderiv ℝ g) x v u :=
  (hg.contDiffAt (x := x)).isSymmSndFDerivAt (by rw [minSmoothness_of_isRCLikeNormedField]; norm_cast) u v

section
variable {g : E → E} {x : E} {ns : List Node} {us : List (ℕ → ℝ → E)}

theorem comb_one (c : List ℝ) (hc : c.length ≤ ns.length) (v : E) : Evolution.comb c (ns.map fun _ => v) = c.sum • v := by
  rw [List.map_const']
  exact comb_replicate c _ hc v

theorem combine_values (c : List ℝ) (hc : c.length ≤ ns.length) (h : List.Forall₂ (AtZero g x) ns us) :
    combine c us 0 0 = c.sum • g x ∧
    combine c us 1 0 = Evolution.comb c (ns.map Node.c) • fderiv ℝ g x (g x) ∧
    combine c us 2 0 = Evolution.comb c (ns.map fun n => n.c ^ 2) • fderiv ℝ (fderiv ℝ g) x (g x) (g x) + (2 * Evolution.comb c (ns.map Node.ac)) • fderiv ℝ g x (fderiv ℝ g x (g x)) ∧
    combine c us 3 0 = Evolution.comb c (ns.map fun n => n.c ^ 3) • fderiv ℝ (fderiv ℝ (fderiv ℝ g)) x (g x) (g x) (g x) +
      (6 * Evolution.comb c (ns.map fun n => n.c * n.ac)) • fderiv ℝ (fderiv ℝ g) x (g x) (fderiv ℝ g x (g x)) +
      (3 * Evolution.comb c (ns.map Node.acc)) • fderiv ℝ g x (fderiv ℝ (fderiv ℝ g) x (g x) (g x)) + (6 * Evolution.comb c (ns.map Node.aac)) • fderiv ℝ g x (fderiv ℝ g x (fderiv ℝ g x (g x))) := by
  refine ⟨?_, ?_, ?_, ?_⟩
  · rw [combine_atZero c h 0 _ fun n u hu => hu.zero, comb_one c hc]
  · rw [combine_atZero c h 1 _ fun n u hu => hu.one, comb_smul_vector]
  · rw [combine_atZero c h 2 _ fun n u hu => hu.two, comb_add, comb_smul_vector, comb_smul_vector, comb_mul_left]
  · rw [combine_atZero c h 3 _ fun n u hu => hu.three, comb_add, comb_add, comb_add, comb_smul_vector, comb_smul_vector, comb_smul_vector, comb_smul_vector, comb_mul_left, comb_mul_left,
      comb_mul_left]

/-- A further stage. -/
theorem atZero_stage (hg : ContDiff ℝ (4 + 1 : ℕ) g) (h : List.Forall₂ (AtZero g x) ns us) (s : ℝ × List ℝ) (hl : s.2.length ≤ ns.length) (hs : s.2.sum = s.1) :
    AtZero g x ⟨s.1, Evolution.comb s.2 (ns.map Node.c), Evolution.comb s.2 (ns.map fun n => n.c ^ 2), Evolution.comb s.2 (ns.map Node.ac)⟩ (stage g (curve x (combine s.2 us))) := by
  have hch : ∀ u ∈ us, Chain 4 u := by
    intro u hu
    obtain ⟨i, hi, rfl⟩ := List.getElem_of_mem hu
    exact (List.forall₂_iff_get.1 h).2 i (by rw [h.length_eq]; exact hi) hi |>.chain
  obtain ⟨v0, v1, v2, _⟩ := combine_values s.2 hl h
  have hcu := chain_curve x (chain_combine s.2 us hch)
  have c0 : curve x (combine s.2 us) 0 0 = x := by simp [curve]
  have c1 : curve x (combine s.2 us) 1 0 = s.1 • g x := by simp [curve, v0, hs]
  have c2 : curve x (combine s.2 us) 2 0 = (2 * Evolution.comb s.2 (ns.map Node.c)) • fderiv ℝ g x (g x) := by
    simp only [curve, v1, smul_smul, zero_smul, add_zero]
    norm_num
  have c3 : curve x (combine s.2 us) 3 0 = (3 * Evolution.comb s.2 (ns.map fun n => n.c ^ 2)) • fderiv ℝ (fderiv ℝ g) x (g x) (g x) +
      (6 * Evolution.comb s.2 (ns.map Node.ac)) • fderiv ℝ g x (fderiv ℝ g x (g x)) := by
    simp only [curve, v2, zero_smul, add_zero, smul_add, smul_smul]
    push_cast
    module
  refine ⟨chain_stage hg hcu, ?_, ?_, ?_, ?_⟩
  · simp only [stage, c0]
  · simp only [stage, c0, c1, map_smul]
  · simp only [stage, c0, c1, c2, map_smul, smul_apply, smul_smul]
    congr 2
    ring
  · simp only [stage, c0, c1, c2, c3, map_smul, map_add, smul_apply, add_apply, smul_smul, smul_add]
    rw [second_symm hg x (fderiv ℝ g x (g x)) (g x)]
    module

/-- All stages. -/
theorem atZero_slopes (hg : ContDiff ℝ (4 + 1 : ℕ) g) (ss : List (ℝ × List ℝ)) (h : List.Forall₂ (AtZero g x) ns us) (hr : RowSums ss ns.length) :
    ∃ us', List.Forall₂ (AtZero g x) (nodes ss ns) us' ∧ ∀ h t, slopes (fun _ => g) h t x ss (us.map fun u => u 0 h) = us'.map fun u => u 0 h := by
  induction ss generalizing ns us with
  | nil => exact ⟨us, h, fun _ _ => rfl⟩
  | cons s ss ih =>
    obtain ⟨hl, hs, hr⟩ := hr
    obtain ⟨us', h1, h2⟩ := ih (List.rel_append h (.cons (atZero_stage hg h s hl hs) .nil)) (by simpa using hr)
    refine ⟨us', h1, fun r t => ?_⟩
    rw [← h2 r t, slopes, List.map_append]
    rfl

theorem nodes_length (ss : List (ℝ × List ℝ)) (ns : List Node) : (nodes ss ns).length = ns.length + ss.length := by
  induction ss generalizing ns with
  | nil => rfl
  | cons s ss ih =>
    rw [nodes, ih]
    simp
    omega

end

/-! ## The derivatives of a solution -/

theorem lie_one (g : E → E) (x : E) : lie g 1 x = g x := by simp [lie]

theorem lie_two (g : E → E) (x : E) : lie g 2 x = fderiv ℝ g x (g x) := by
  have : lie g 1 = g := funext (lie_one g)
  rw [lie, this]

theorem lie_three {g : E → E} (hg : ContDiff ℝ (4 + 1 : ℕ) g) (x : E) :
    lie g 3 x = fderiv ℝ (fderiv ℝ g) x (g x) (g x) + fderiv ℝ g x (fderiv ℝ g x (g x)) := by
  have e : lie g 2 = fun x => fderiv ℝ g x (g x) := funext (lie_two g)
  rw [lie, e]
  beta_reduce
  rw [fderiv_clm_apply ((smooth1 hg).differentiable (by norm_num) x) (hg.differentiable (by norm_num) x)]
  simp [add_comm]

theorem lie_four {g : E → E} (hg : ContDiff ℝ (4 + 1 : ℕ) g) (x : E) :
    lie g 4 x = fderiv ℝ (fderiv ℝ (fderiv ℝ g)) x (g x) (g x) (g x) + (3 : ℝ) • fderiv ℝ (fderiv ℝ g) x (g x) (fderiv ℝ g x (g x)) +
      fderiv ℝ g x (fderiv ℝ (fderiv ℝ g) x (g x) (g x)) + fderiv ℝ g x (fderiv ℝ g x (fderiv ℝ g x (g x))) := by
  have e : lie g 3 = fun x => fderiv ℝ (fderiv ℝ g) x (g x) (g x) + fderiv ℝ g x (fderiv ℝ g x (g x)) := funext (lie_three hg)
  have g0 := (hg.differentiable (by norm_num) x).hasFDerivAt
  have g1 := ((smooth1 hg).differentiable (by norm_num) x).hasFDerivAt
  have g2 := ((smooth2 hg).differentiable (by norm_num) x).hasFDerivAt
  have hd := ((g2.clm_apply g0).clm_apply g0).fun_add (g1.clm_apply (g1.clm_apply g0))
  rw [← e] at hd
  rw [lie]
  beta_reduce
  rw [hd.fderiv]
  simp only [add_apply, ContinuousLinearMap.comp_apply, ContinuousLinearMap.flip_apply, map_add]
  rw [second_symm hg x (fderiv ℝ g x (g x)) (g x)]
  module

/-! ## The step -/

/-- The value after a step of a Runge-Kutta method for `y' = g(y)`. -/
noncomputable def stepOf (T : Tableau) (g : E → E) : ℝ × E → E := fun z => z.2 + z.1 • increment T (fun _ => g) z.1 0 z.2

/-- A method of order `p` has the right derivatives. -/
theorem order_derivatives {T : Tableau} {p : ℕ} (hT : HasOrder T p) {g : E → E} (hg : ContDiff ℝ (4 + 1 : ℕ) g) (hS : ContDiff ℝ (4 + 1 : ℕ) (stepOf T g)) (x : E) :
    ∀ k ≤ p, (dh^[k] (stepOf T g)) (0, x) = lie g k x := by
  obtain ⟨us, h1, h2⟩ := atZero_slopes (x := x) hg T.stages (ns := []) (us := []) .nil hT.rows
  have hlen : T.weights.length ≤ (nodes T.stages []).length := by rw [nodes_length, hT.consistent.1]; simp
  obtain ⟨v0, v1, v2, v3⟩ := combine_values T.weights hlen h1
  have hch : ∀ u ∈ us, Chain 4 u := by
    intro u hu
    obtain ⟨i, hi, rfl⟩ := List.getElem_of_mem hu
    exact (List.forall₂_iff_get.1 h1).2 i (by rw [h1.length_eq]; exact hi) hi |>.chain
  have key := dh_eq (x := x) (p := 4) hS (curve x (combine T.weights us)) (fun h => by
    have := h2 h 0
    rw [List.map_nil] at this
    simp only [stepOf, increment, this]
    rfl) (chain_curve x (chain_combine T.weights us hch))
  intro k hk
  rw [key k (hk.trans hT.le4) 0]
  have hp := hT.le4
  match k, hk.trans hp with
  | 0, _ => simp [curve, lie]
  | 1, _ => simp [curve, v0, hT.consistent.2, lie_one]
  | 2, _ =>
    have := hT.two hk
    unfold weighted at this
    rw [lie_two]
    simp only [curve, v1, this, zero_smul, add_zero, smul_smul]
    norm_num
  | 3, _ =>
    obtain ⟨e1, e2⟩ := hT.three hk
    unfold weighted at e1 e2
    rw [lie_three hg]
    simp only [curve, v2, e1, e2, zero_smul, add_zero, smul_smul, smul_add]
    norm_num
  | 4, _ =>
    obtain ⟨e1, e2, e3, e4⟩ := hT.four hk
    unfold weighted at e1 e2 e3 e4
    rw [lie_four hg]
    simp only [curve, v3, e1, e2, e3, e4, zero_smul, add_zero, smul_smul, smul_add]
    norm_num

end Verif.Order
