import Verif.Converge.Grid
import Verif.Adjoint.Props
import Mathlib.Analysis.Calculus.Deriv.Mul

/-!
# The derivative of the results of a fixed-grid solver

The derivative of a Runge-Kutta step is a Runge-Kutta step of the equations together with their linearisation, so that the convergence of the values carries over to the derivatives.
-/

namespace Verif.Backprop
open Set Metric Filter Topology Verif.Converge Verif.Adjoint Verif.Evolution

variable {X E : Type} [NormedAddCommGroup X] [NormedSpace ℝ X] [NormedAddCommGroup E] [NormedSpace ℝ E]

/-- The equations together with their linearisation. -/
noncomputable def tangent (f : ℝ → E → E) (t : ℝ) (p : E × (X →L[ℝ] E)) : E × (X →L[ℝ] E) := (f t p.1, (fderiv ℝ (f t) p.1).comp p.2)

/-- Value and derivative of a function at a point. -/
def Follows (x₀ : X) (u : X → E) (p : E × (X →L[ℝ] E)) : Prop := u x₀ = p.1 ∧ HasFDerivAt u p.2 x₀

theorem Follows.add {x₀ : X} {u v : X → E} {p q : E × (X →L[ℝ] E)} (h : Follows x₀ u p) (h' : Follows x₀ v q) : Follows x₀ (fun x => u x + v x) (p + q) :=
  ⟨by simp [h.1, h'.1], h.2.add h'.2⟩

theorem Follows.sub {x₀ : X} {u v : X → E} {p q : E × (X →L[ℝ] E)} (h : Follows x₀ u p) (h' : Follows x₀ v q) : Follows x₀ (fun x => u x - v x) (p - q) :=
  ⟨by simp [h.1, h'.1], h.2.sub h'.2⟩

theorem Follows.smul {x₀ : X} {u : X → E} {p : E × (X →L[ℝ] E)} (h : Follows x₀ u p) (c : ℝ) : Follows x₀ (fun x => c • u x) (c • p) :=
  ⟨by simp [h.1], h.2.const_smul c⟩

theorem Follows.comb {x₀ : X} (c : List ℝ) {ks : List (X → E)} {ps : List (E × (X →L[ℝ] E))} (h : List.Forall₂ (Follows x₀) ks ps) :
    Follows x₀ (fun x => Evolution.comb c (ks.map fun k => k x)) (Evolution.comb c ps) := by
  unfold Evolution.comb
  induction c generalizing ks ps with
  | nil => exact ⟨by simp, by simpa using hasFDerivAt_const (0 : E) x₀⟩
  | cons a c ih =>
    cases h with
    | nil => exact ⟨by simp, by simpa using hasFDerivAt_const (0 : E) x₀⟩
    | cons h hs => simpa using (h.smul a).add (ih hs)

theorem Follows.field {f : ℝ → E → E} (hf : ∀ t, Differentiable ℝ (f t)) (t : ℝ) {x₀ : X} {u : X → E} {p : E × (X →L[ℝ] E)} (h : Follows x₀ u p) :
    Follows x₀ (fun x => f t (u x)) (tangent f t p) := by
  refine ⟨by simp [tangent, h.1], ?_⟩
  have h1 := (hf t (u x₀)).hasFDerivAt.comp x₀ h.2
  rw [h.1] at h1
  exact h1

theorem follows_slopes {f : ℝ → E → E} (hf : ∀ t, Differentiable ℝ (f t)) (h t : ℝ) {x₀ : X} {u : X → E} {p : E × (X →L[ℝ] E)} (hu : Follows x₀ u p) (ss : List (ℝ × List ℝ))
    {ks : List (X → E)} {ps : List (E × (X →L[ℝ] E))} (hk : List.Forall₂ (Follows x₀) ks ps) :
    ∃ ls : List (X → E), List.Forall₂ (Follows x₀) ls (slopes (tangent f) h t p ss ps) ∧ ∀ x, slopes f h t (u x) ss (ks.map fun k => k x) = ls.map fun l => l x := by
  induction ss generalizing ks ps with
  | nil => exact ⟨ks, hk, fun x => rfl⟩
  | cons s ss ih =>
    have hnew := (hu.add ((Follows.comb s.2 hk).smul h)).field hf (t + s.1 * h)
    obtain ⟨ls, h1, h2⟩ := ih (List.rel_append hk (.cons hnew .nil))
    refine ⟨ls, h1, fun x => ?_⟩
    rw [slopes, ← h2 x, List.map_append]
    rfl

theorem Follows.increment {f : ℝ → E → E} (hf : ∀ t, Differentiable ℝ (f t)) (T : Tableau) (h t : ℝ) {x₀ : X} {u : X → E} {p : E × (X →L[ℝ] E)} (hu : Follows x₀ u p) :
    Follows x₀ (fun x => Converge.increment T f h t (u x)) (Converge.increment T (tangent f) h t p) := by
  obtain ⟨ls, h1, h2⟩ := follows_slopes hf h t hu T.stages (ks := []) .nil
  have := Follows.comb T.weights h1
  unfold Converge.increment
  simp only [List.map_nil] at h2
  simp only [h2]
  exact this

theorem Follows.between {x₀ : X} {u v : X → E} {p q : E × (X →L[ℝ] E)} (h : Follows x₀ u p) (h' : Follows x₀ v q) (t t' τ : ℝ) :
    Follows x₀ (fun x => Converge.between t t' (u x) (v x) τ) (Converge.between t t' p q τ) := by
  unfold Converge.between
  by_cases h1 : τ = t
  · simpa [h1] using h
  · by_cases h2 : τ = t'
    · subst h2
      simpa [h1] using h'
    · simp only [if_neg h1, if_neg h2]
      exact h.add ((h'.sub h).smul _)

/-- The results as functions of `x`, and their derivatives. -/
theorem follows_outputs {f : ℝ → E → E} (hf : ∀ t, Differentiable ℝ (f t)) (T : Tableau) {x₀ : X} (g : List ℝ) (t : ℝ) {u : X → E} {p : E × (X →L[ℝ] E)} (hu : Follows x₀ u p) (req : List ℝ) :
    ∃ us : List (X → E), List.Forall₂ (Follows x₀) us (outputs (increment T (tangent f)) t p g req) ∧ ∀ x, outputs (increment T f) t (u x) g req = us.map fun v => v x := by
  induction g generalizing t u p req with
  | nil => exact ⟨[], .nil, fun x => rfl⟩
  | cons t' g ih =>
    have hn := hu.add ((hu.increment hf T (t' - t) t).smul (t' - t))
    obtain ⟨us, h1, h2⟩ := ih t' hn (req.dropWhile (· ≤ t'))
    refine ⟨(req.takeWhile (· ≤ t')).map (fun τ x => Converge.between t t' (u x) (u x + (t' - t) • Converge.increment T f (t' - t) t (u x)) τ) ++ us, ?_, fun x => ?_⟩
    · refine List.rel_append ?_ h1
      rw [List.forall₂_map_left_iff, List.forall₂_map_right_iff, List.forall₂_same]
      exact fun τ _ => hu.between hn t t' τ
    · rw [outputs, h2 x, List.map_append, List.map_map]
      rfl

theorem contDiff_tangent {f : ℝ → E → E} (hf : ContDiff ℝ 2 fun z : ℝ × E => f z.1 z.2) : ContDiff ℝ 1 fun z : ℝ × (E × (X →L[ℝ] E)) => tangent f z.1 z.2 := by
  have h1 : ContDiff ℝ 1 fun z : ℝ × (E × (X →L[ℝ] E)) => f z.1 z.2.1 :=
    (hf.of_le (by norm_num)).comp (by fun_prop : ContDiff ℝ 1 fun z : ℝ × (E × (X →L[ℝ] E)) => (z.1, z.2.1))
  have h2 : ContDiff ℝ 1 fun z : ℝ × (E × (X →L[ℝ] E)) => fderiv ℝ (f z.1) z.2.1 :=
    ContDiff.fderiv (f := fun (z : ℝ × (E × (X →L[ℝ] E))) (x : E) => f z.1 x) (g := fun z => z.2.1) (n := 1)
      (hf.comp (by fun_prop : ContDiff ℝ 2 fun p : (ℝ × (E × (X →L[ℝ] E))) × E => (p.1.1, p.2))) (by fun_prop) (by norm_num)
  exact h1.prodMk (h2.clm_comp (by fun_prop))

/-- The linearisation along a solution has a solution with any initial value. -/
theorem exists_variation [FiniteDimensional ℝ X] [FiniteDimensional ℝ E] {f : ℝ → E → E} (hf : ContDiff ℝ 1 fun z : ℝ × E => f z.1 z.2) {y : ℝ → E} {a b : ℝ} (hab : a ≤ b) (hy : ContinuousOn y (Icc a b))
    (v : X →L[ℝ] E) : ∃ V : ℝ → X →L[ℝ] E, V a = v ∧ ∀ t ∈ Icc a b, HasDerivWithinAt V ((fderiv ℝ (f t) (y t)).comp (V t)) (Icc a b) t := by
  have hA : ContinuousOn (fun t => fderiv ℝ (f t) (y t)) (Icc a b) := (continuous_partial hf).comp_continuousOn (continuousOn_id.prodMk hy)
  obtain ⟨C, hC⟩ := isCompact_Icc.exists_bound_of_continuousOn hA
  have hb : ∀ t ∈ Icc a b, ∀ x : X →L[ℝ] E, ‖(fderiv ℝ (f t) (y t)).comp x‖ ≤ |C| * ‖x‖ := fun t ht x => by
    refine (ContinuousLinearMap.opNorm_comp_le _ _).trans ?_
    exact mul_le_mul_of_nonneg_right ((hC _ ht).trans (le_abs_self C)) (norm_nonneg _)
  obtain ⟨R, hR⟩ := bound_of_growth a b v |C|
  have : ProperSpace (X →L[ℝ] E) := FiniteDimensional.proper ℝ _
  obtain ⟨V, hV, hVa⟩ := exists_of_lipschitz (f := fun t x => (fderiv ℝ (f t) (y t)).comp x) hab (z := v) (R := R) (N := |C| * (|R| + 1)) (L := ⟨|C|, abs_nonneg C⟩)
    (fun x => hA.clm_comp continuousOn_const)
    (fun t ht x hx => (hb t ht x).trans (mul_le_mul_of_nonneg_left (by
      have h2 : ‖x‖ ≤ R + 1 := by simpa using hx
      linarith [le_abs_self R]) (abs_nonneg C)))
    (fun t ht => LipschitzOnWith.of_dist_le_mul fun x _ x' _ => by
      rw [dist_eq_norm, dist_eq_norm, ← ContinuousLinearMap.comp_sub]
      exact hb t ht _)
    (fun c hc y hy hya t ht => hR c hc y _ hy hya (fun t ht => (hb t ⟨ht.1, ht.2.trans hc.2⟩ _).trans (by linarith [abs_nonneg C])) t ht)
  exact ⟨V, hVa, hV⟩

/-- The backward pass and the linearisation: the result of the backward pass is the sum over all times of the derivatives of the loss, applied to the derivatives of the values. -/
theorem backward_variation {f : ℝ → E → E} {y : ℝ → E} {a b : ℝ} {V : ℝ → X →L[ℝ] E} (hV : ∀ t ∈ Icc a b, HasDerivWithinAt V ((fderiv ℝ (f t) (y t)).comp (V t)) (Icc a b) t) {l : List (ℝ × (E →L[ℝ] ℝ))}
    {g : E →L[ℝ] ℝ} (hg : Backward f y l g) : ∀ t, l.head?.map Prod.fst = some t → (∀ p ∈ l, p.1 ∈ Icc a b) → l.Pairwise (fun p q => p.1 ≤ q.1) →
      (l.map fun p => p.2.comp (V p.1)).sum = g.comp (V t) := by
  induction hg with
  | last t ℓ =>
    intro t' h _ _
    obtain rfl : t = t' := by simpa using h
    simp
  | @step t u ℓ ℓ' r α later sweep ih =>
    intro t' h hm hp
    obtain rfl : t = t' := by simpa using h
    have htu : t ≤ u := (List.pairwise_cons.1 hp).1 (u, ℓ') (by simp)
    have hsub : Icc t u ⊆ Icc a b := Icc_subset_Icc (hm (t, ℓ) (by simp)).1 (hm (u, ℓ') (by simp)).2
    have hd : ∀ s ∈ Icc t u, HasDerivWithinAt (fun s => (α s).comp (V s)) 0 (Icc t u) s := fun s hs => by
      have h1 := (sweep s hs).clm_comp ((hV s (hsub hs)).mono hsub)
      refine h1.congr_deriv ?_
      rw [ContinuousLinearMap.neg_comp, ContinuousLinearMap.comp_assoc, neg_add_cancel]
    have hc := (convex_Icc t u).norm_image_sub_le_of_norm_hasDerivWithin_le (C := 0) hd (fun s _ => by simp) (left_mem_Icc.2 htu) (right_mem_Icc.2 htu)
    simp only [zero_mul, norm_le_zero_iff, sub_eq_zero] at hc
    have h1 := ih u rfl (fun p hp => hm p (List.mem_cons_of_mem _ hp)) hp.of_cons
    rw [List.map_cons, List.sum_cons, h1, ContinuousLinearMap.add_comp, hc]

/-- The results of a method and their derivatives, near those of the exact solutions. -/
theorem derivative_error [FiniteDimensional ℝ X] [FiniteDimensional ℝ E] {f : ℝ → E → E} (hf : ContDiff ℝ 2 fun z : ℝ × E => f z.1 z.2) {T : Tableau} (hT : T.Consistent) {a b : ℝ} {y : ℝ → E} (hy : Solves f a b y)
    {V : ℝ → X →L[ℝ] E} (hV : ∀ t ∈ Icc a b, HasDerivWithinAt V ((fderiv ℝ (f t) (y t)).comp (V t)) (Icc a b) t) {x₀ : X} {u : X → E} (hu : Follows x₀ u (y a, V a)) :
    ∃ C h₀ : ℝ, 0 ≤ C ∧ 0 < h₀ ∧ ∀ h, 0 < h → h ≤ h₀ → ∀ ts g : List ℝ, (a :: ts).Pairwise (· < ·) → (a :: g).getLast? = (a :: ts).getLast? → Mesh h a g → (∀ τ ∈ a :: ts, τ ≤ b) →
      ∃ us : List (X → E), (∀ x, u x :: outputs (increment T f) a (u x) g ts = us.map fun v => v x) ∧
        List.Forall₂ (fun v τ => ∃ v', HasFDerivAt v v' x₀ ∧ ‖v x₀ - y τ‖ ≤ C * h ∧ ‖v' - V τ‖ ≤ C * h) us (a :: ts) := by
  have : ProperSpace (E × (X →L[ℝ] E)) := FiniteDimensional.proper ℝ _
  have hyV : Solves (tangent f) a b fun t => (y t, V t) := fun t ht => (hy t ht).prodMk (hV t ht)
  obtain ⟨L, M, hb⟩ := exists_bounds (contDiff_increment T (contDiff_tangent (X := X) hf)) (fun t x => increment_zero hT (tangent f) t x) hyV
  have hM := hb.M0
  have hpos : 0 < (1 + M) * Real.exp (L * (b - a)) := by positivity
  refine ⟨(1 + M) * Real.exp (L * (b - a)) + M, min 1 (1 / ((1 + M) * Real.exp (L * (b - a)))), by positivity, by positivity, fun h h0 hle ts g hi hl hm hts => ?_⟩
  have hC : (1 + M) * h * Real.exp (L * (b - a)) ≤ 1 := by
    have := hle.trans (min_le_right _ _)
    rw [le_div_iff₀ hpos] at this
    linarith
  have he := outputs_error hT hyV hb h0 (hle.trans (min_le_left _ _)) hC hi hl hm hts
  obtain ⟨us, h1, h2⟩ := follows_outputs (differentiable_slice (hf.of_le (by norm_num))) T g a hu ts
  refine ⟨u :: us, fun x => by rw [h2 x, List.map_cons], ?_⟩
  have h3 : List.Forall₂ (Follows x₀) (u :: us) ((y a, V a) :: outputs (increment T (tangent f)) a (y a, V a) g ts) := .cons hu h1
  generalize (y a, V a) :: outputs (increment T (tangent f)) a (y a, V a) g ts = ps at h3 he
  generalize u :: us = ws at h3
  generalize a :: ts = τs at he
  clear hts hi hl
  induction h3 generalizing τs with
  | nil => cases he; exact .nil
  | @cons w p ws ps hw _ ih =>
    cases he with
    | @cons _ τ _ τs hp hs =>
      refine .cons ⟨p.2, hw.2, ?_, ?_⟩ (ih τs hs)
      · rw [hw.1]
        exact (norm_fst_le (p - (y τ, V τ))).trans hp
      · exact (norm_snd_le (p - (y τ, V τ))).trans hp

end Verif.Backprop
