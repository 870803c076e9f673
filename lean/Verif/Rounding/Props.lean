import Verif.Rounding.Steps
import Verif.Order.Forward

/-!
# C96: rounding errors
-/

namespace Verif.Rounding
open Set Verif Verif.Tensor Verif.Assembly Verif.Flow Verif.Whole Verif.Evolution Verif.Converge Verif.Order

variable {ι β K K' P R H D Θ Rb : Type} [Fintype ι] [Fintype β] [Fintype K] [Fintype K']

/-! ## Exact arithmetic -/

/-- C96: for every method, the run without errors is the run of the model, and no other. -/
theorem C96_exact (fld : ℝ → Sys2 ι β K K' → Sys2 ι β K K') (M : Method ℝ ℝ) (zs : List (Sys2 ι β K K')) (res : Py (List (Sys2 ι β K K'))) :
    Inexact fld 0 0 M zs res ↔ res = runSys fld M zs := by
  have h0 : ∀ {E : Type} [NormedAddCommGroup E] (x y : E), ‖x - y‖ ≤ 0 ↔ x = y := fun x y => by rw [norm_le_zero_iff, sub_eq_zero]
  induction M generalizing zs res with
  | done outs =>
    constructor
    · intro h
      cases h with
      | done h =>
        rw [runSys]
        congr 1
        induction h with
        | nil => rfl
        | cons h _ ih => rw [List.map_cons, ← ih, (h0 _ _).1 h]
    · rintro rfl
      rw [runSys]
      refine .done ?_
      rw [List.forall₂_map_right_iff, List.forall₂_same]
      intro g _
      simp
  | fail e =>
    constructor
    · intro h; cases h; rfl
    · rintro rfl; exact .fail
  | eval t g next ih =>
    rw [runSys]
    constructor
    · intro h
      cases h with
      | eval x k hx hk h =>
        obtain rfl := (h0 _ _).1 hx
        obtain rfl := (h0 _ _).1 hk
        exact (ih _ _).1 h
    · intro h
      exact .eval _ _ ((h0 _ _).2 rfl) ((h0 _ _).2 rfl) ((ih _ _).2 h)
  | test q next ih =>
    rw [runSys]
    constructor
    · intro h
      cases h with
      | test s hs h =>
        obtain rfl : s = _ := sub_eq_zero.1 (abs_nonpos_iff.1 hs)
        exact (ih _ _ _).1 h
    · intro h
      exact .test _ (by simp) ((ih _ _ _).2 h)

theorem rounded_outputs {E : Type} [NormedAddCommGroup E] [NormedSpace ℝ E] (T : Tableau) (f : ℝ → E → E) {δ ρ : ℝ} (hδ : 0 ≤ δ) (hρ : 0 ≤ ρ) (grid : List ℝ) (t : ℝ) (z : E) (req : List ℝ) :
    Rounded T f δ ρ t z grid req (outputs (increment T f) t z grid req) := by
  have hs : ∀ (h t : ℝ) (z : E) (ss : List (ℝ × List ℝ)) (ks : List E), RSlopes f δ ρ h t z ss ks (slopes f h t z ss ks) := by
    intro h t z ss
    induction ss with
    | nil => exact fun _ => .nil
    | cons s ss ih => exact fun ks => .cons _ _ (by rw [sub_self, norm_zero]; exact hρ) (by rw [sub_self, norm_zero]; exact hδ) (ih _)
  induction grid generalizing t z req with
  | nil => exact .stop
  | cons t' grid ih =>
    rw [outputs]
    refine .step _ (z + (t' - t) • increment T f (t' - t) t z) (hs _ _ _ _ _) (by unfold increment; rw [sub_self, norm_zero]; exact hρ) ?_ (ih _ _ _)
    rw [List.forall₂_map_left_iff, List.forall₂_same]
    intro τ _
    rw [sub_self, norm_zero]
    exact hρ

/-- C96: without errors the arithmetic step by step is what the solver of the model computes, and nothing else. -/
theorem C96_exact_steps {fld : ℝ → Sys2 ι β K K' → Sys2 ι β K K'} {T : Tableau} {h : ℝ} {G : List ℝ → List ℝ} {a : ℝ} {ts : List ℝ} (hi : (a :: ts).Pairwise (· < ·)) (hg : Suits h G a ts)
    (z : Sys2 ι β K K') (Ys : List (Sys2 ι β K K')) : RoundedRun T fld 0 0 z (G (a :: ts)) (a :: ts) Ys ↔ runSys fld (solver T G (a :: ts)) [z] = .ok Ys := by
  constructor
  · intro hr
    have := rounded_run le_rfl hi hg hr
    rw [mul_zero, C96_exact] at this
    exact this.symm
  · intro hr
    obtain ⟨g, hg1, hg2, hm⟩ := hg
    rw [run_solver fld T G a ts g z ((increasing_iff _).2 hi) hg1 hg2] at hr
    exact ⟨a, g, ts, _, hg1, rfl, (Except.ok.inj hr).symm, rounded_outputs T fld le_rfl le_rfl g a z ts⟩

/-! ## Stability -/

/-- C96 for systems of coordinates: the equations are continuously differentiable, `y` is an exact solution.  Then there are constants such that for every grid with at most the given step size, every
list of times, every initial vector close to that of the solution and errors below a bound, every inexact run succeeds and its results differ from those of exact arithmetic by at most a constant times the errors. -/
theorem C96_stable {fld : ℝ → Sys2 ι β K K' → Sys2 ι β K K'} (hf : ContDiff ℝ 1 fun z : ℝ × Sys2 ι β K K' => fld z.1 z.2) {T : Tableau} (hT : T.Consistent) {a b : ℝ}
    {y : ℝ → Sys2 ι β K K'} (hy : Solves fld a b y) : ∃ C h₀ r₀ : ℝ, 0 ≤ C ∧ 0 < h₀ ∧ 0 < r₀ ∧ ∀ h, 0 < h → h ≤ h₀ → ∀ δ η, 0 ≤ δ → δ ≤ r₀ → 0 ≤ η → η ≤ r₀ →
      ∀ (G : List ℝ → List ℝ) (ts : List ℝ), (a :: ts).Pairwise (· < ·) → (∀ τ ∈ a :: ts, τ ≤ b) → Suits h G a ts → ∀ z, ‖z - y a‖ ≤ max δ η →
      ∃ ys, runSys fld (solver T G (a :: ts)) [y a] = .ok ys ∧
        ∀ res, Inexact fld δ η (solver T G (a :: ts)) [z] res → ∃ Ys, res = .ok Ys ∧ List.Forall₂ (fun Y Y' => ‖Y - Y'‖ ≤ C * max δ η) Ys ys := by
  obtain ⟨L, hL, hlip⟩ := exists_lip hf hT hy
  obtain ⟨L', M, hb⟩ := exists_bounds (contDiff_increment T hf) (fun t x => increment_zero hT fld t x) hy
  have hM := hb.M0
  have hpos : 0 < (1 + M) * Real.exp (L' * (b - a)) := by positivity
  refine ⟨1 + 2 * Real.exp (L * (b - a)), min 1 (1 / (2 * ((1 + M) * Real.exp (L' * (b - a))))), min 1 (1 / (4 * Real.exp (L * (b - a)))), by positivity, by positivity, by positivity,
    fun h h0 hle δ η hδ hδ0 hη hη0 G ts hi hts hg z hz => ?_⟩
  obtain ⟨g, hg1, hg2, hm⟩ := hg
  refine ⟨_, run_solver fld T G a ts g (y a) ((increasing_iff _).2 hi) hg1 hg2, fun res hres => ?_⟩
  have h1 : h ≤ 1 := hle.trans (min_le_left _ _)
  have hC : (1 + M) * h * Real.exp (L' * (b - a)) ≤ 1 / 2 := by
    have := hle.trans (min_le_right _ _)
    rw [le_div_iff₀ (by positivity)] at this
    linarith
  have hr0 : 0 ≤ max δ η := hδ.trans (le_max_left _ _)
  have hr1 : max δ η ≤ 1 := max_le (hδ0.trans (min_le_left _ _)) (hη0.trans (min_le_left _ _))
  have hre : max δ η * (2 * Real.exp (L * (b - a))) ≤ 1 / 2 := by
    have := (max_le hδ0 hη0).trans (min_le_right _ _)
    rw [le_div_iff₀ (by positivity)] at this
    linarith
  have hlast : (a :: g).getLast (by simp) = (a :: ts).getLast (by simp) := by
    rw [List.getLast?_eq_some_getLast (by simp), List.getLast?_eq_some_getLast (by simp)] at hg2
    exact Option.some.inj hg2
  have hgb : ∀ s ∈ a :: g, s ≤ b := fun s hs => (hm.le_last s hs).trans (hlast ▸ hts _ (List.getLast_mem _))
  have hab : a ≤ b := hts a (by simp)
  have hgrid := grid_error (fun t x => increment_zero hT fld t x) hy hb h0.le h1 (hC.trans (by norm_num)) a le_rfl (y a) (by simp) g hm hgb
  have hu : List.Forall₂ (fun Y s => ‖Y - y s‖ ≤ 1 / 2) (gridValues (increment T fld) a (y a) g) (a :: g) := by
    rw [List.forall₂_iff_get] at hgrid ⊢
    refine ⟨hgrid.1, fun i h1 h2 => (hgrid.2 i h1 h2).trans (le_trans ?_ hC)⟩
    have hs : (a :: g).get ⟨i, h2⟩ ≤ b := hgb _ (List.get_mem _ _)
    have : Real.exp (L' * ((a :: g).get ⟨i, h2⟩ - a)) ≤ Real.exp (L' * (b - a)) := Real.exp_le_exp.2 (mul_le_mul_of_nonneg_left (by linarith) hb.L0)
    exact mul_le_mul_of_nonneg_left (by linarith) (by positivity)
  unfold solver at hres
  dsimp only at hres
  rw [if_neg (by simp [(increasing_iff _).2 hi]), hg1, if_neg (by simp [hg2])] at hres
  have hc : Holds (fun rs => rs.getD 0 0) [z] z := holds_get [] z
  have he1 : 1 ≤ Real.exp (L * (b - a)) := Real.one_le_exp (mul_nonneg hL (by linarith))
  obtain ⟨Ys, e, hY⟩ := inexact_loop hL hlip hδ hη (le_max_left _ _) (le_max_right _ _) hr1 hre h1 g a le_rfl hm hgb z (y a) (by
      rw [sub_self, mul_zero, Real.exp_zero, show (2 * 1 - 1 : ℝ) = 1 by norm_num, mul_one]
      exact hz) hu _ ts (List.pairwise_cons.1 hi).2
    (fun τ hτ => (within_grid hi hg2 τ hτ).1) (fun τ hτ => (within_grid hi hg2 τ hτ).2) [fun rs => rs.getD 0 0] [z] [y a] hc
    (.cons ⟨z, hc, hz.trans (by nlinarith)⟩ .nil) hres
  refine ⟨Ys, e, hY.imp fun Y Y' h => h.trans ?_⟩
  have : η ≤ max δ η := le_max_right _ _
  linarith

/-- C96 for arithmetic step by step: an error of at most `ρ` in every vector that is computed and of at most `δ` in every value of the right-hand side changes the results by at most a constant times
`δ + ρ ·` (number of grid points). -/
theorem C96_steps {fld : ℝ → Sys2 ι β K K' → Sys2 ι β K K'} (hf : ContDiff ℝ 1 fun z : ℝ × Sys2 ι β K K' => fld z.1 z.2) {T : Tableau} (hT : T.Consistent) {a b : ℝ}
    {y : ℝ → Sys2 ι β K K'} (hy : Solves fld a b y) : ∃ C h₀ r₀ : ℝ, 0 ≤ C ∧ 0 < h₀ ∧ 0 < r₀ ∧ ∀ h, 0 < h → h ≤ h₀ → ∀ (G : List ℝ → List ℝ) (ts : List ℝ),
      (a :: ts).Pairwise (· < ·) → (∀ τ ∈ a :: ts, τ ≤ b) → Suits h G a ts → ∀ δ ρ, 0 ≤ δ → δ ≤ r₀ → 0 ≤ ρ → ((G (a :: ts)).length : ℝ) * ρ ≤ r₀ →
      ∃ ys, runSys fld (solver T G (a :: ts)) [y a] = .ok ys ∧
        ∀ Ys, RoundedRun T fld δ ρ (y a) (G (a :: ts)) (a :: ts) Ys → List.Forall₂ (fun Y Y' => ‖Y - Y'‖ ≤ C * (δ + (G (a :: ts)).length * ρ)) Ys ys := by
  obtain ⟨C, h₀, r₀, hC, hh, hr, key⟩ := C96_stable hf hT hy
  refine ⟨C, h₀, r₀, hC, hh, hr, fun h h0 hle G ts hi hts hg δ ρ hδ hδ0 hρ hρ0 => ?_⟩
  obtain ⟨ys, e, H⟩ := key h h0 hle δ _ hδ hδ0 (by positivity) hρ0 G ts hi hts hg (y a) (by rw [sub_self, norm_zero]; exact hδ.trans (le_max_left _ _))
  refine ⟨ys, e, fun Ys hY => ?_⟩
  obtain ⟨Ys', e', h'⟩ := H _ (rounded_run hρ hi hg hY)
  obtain rfl := Except.ok.inj e'
  refine h'.imp fun Y Y' h => h.trans (mul_le_mul_of_nonneg_left ?_ hC)
  exact max_le (by linarith [show 0 ≤ ((G (a :: ts)).length : ℝ) * ρ by positivity]) (by linarith)

theorem forall₂_near {E : Type} [NormedAddCommGroup E] {Ys ys : List E} {ts : List ℝ} {e : ℝ} (h1 : List.Forall₂ (fun Y Y' => ‖Y - Y'‖ ≤ e) Ys ys)
    {Q : E → ℝ → Prop} (h2 : List.Forall₂ Q ys ts) {Q' : E → ℝ → Prop} (h : ∀ Y Y' τ, ‖Y - Y'‖ ≤ e → Q Y' τ → Q' Y τ) : List.Forall₂ Q' Ys ts := by
  induction h1 generalizing ts with
  | nil => cases h2; exact .nil
  | cons hh _ ih =>
    cases h2 with
    | cons h3 h4 => exact .cons (h _ _ _ hh h3) (ih h4)

/-- C96: the error of a method of order `p` with rounding: at a requested time on the grid at most a constant times `h ^ p + δ + ρ ·` (number of grid points), at any other one with `h ^ 2` in addition. -/
theorem C96_converge {fld : ℝ → Sys2 ι β K K' → Sys2 ι β K K'} (hf : ContDiff ℝ 5 fun z : ℝ × Sys2 ι β K K' => fld z.1 z.2) {T : Tableau} {p : ℕ} (hT : HasOrder T p) {a b : ℝ}
    {y : ℝ → Sys2 ι β K K'} (hy : Solves fld a b y) : ∃ C h₀ r₀ : ℝ, 0 ≤ C ∧ 0 < h₀ ∧ 0 < r₀ ∧ ∀ h, 0 < h → h ≤ h₀ → ∀ (G : List ℝ → List ℝ) (ts : List ℝ),
      (a :: ts).Pairwise (· < ·) → (∀ τ ∈ a :: ts, τ ≤ b) → Suits h G a ts → ∀ δ ρ, 0 ≤ δ → δ ≤ r₀ → 0 ≤ ρ → ((G (a :: ts)).length : ℝ) * ρ ≤ r₀ →
      ∀ Ys, RoundedRun T fld δ ρ (y a) (G (a :: ts)) (a :: ts) Ys →
        List.Forall₂ (fun Y τ => ‖Y - y τ‖ ≤ C * (h ^ p + h ^ 2 + δ + (G (a :: ts)).length * ρ) ∧ (τ ∈ G (a :: ts) → ‖Y - y τ‖ ≤ C * (h ^ p + δ + (G (a :: ts)).length * ρ))) Ys (a :: ts) := by
  obtain ⟨C, h₀, r₀, hC, hh, hr, key⟩ := C96_steps (hf.of_le (by norm_num)) hT.consistent hy
  obtain ⟨C', h₀', hC', hh', key'⟩ := C94_converge hf hT hy
  refine ⟨max C C', min h₀ h₀', r₀, hC.trans (le_max_left _ _), by positivity, hr, fun h h0 hle G ts hi hts hg δ ρ hδ hδ0 hρ hρ0 Ys hY => ?_⟩
  obtain ⟨ys, e, H⟩ := key h h0 (hle.trans (min_le_left _ _)) G ts hi hts hg δ ρ hδ hδ0 hρ hρ0
  obtain ⟨ys', e', H'⟩ := key' h h0 (hle.trans (min_le_right _ _)) G ts hi hts hg
  rw [e] at e'
  obtain rfl := Except.ok.inj e'
  have hq : 0 ≤ δ + ((G (a :: ts)).length : ℝ) * ρ := by positivity
  have hl := mul_le_mul_of_nonneg_right (le_max_left C C') hq
  have hr : ∀ q : ℝ, 0 ≤ q → C' * q ≤ max C C' * q := fun q h => mul_le_mul_of_nonneg_right (le_max_right C C') h
  refine forall₂_near (H Ys hY) H' fun Y Y' τ h1 h2 => ⟨(norm_trans h1 h2.1).trans ?_, fun hτ => (norm_trans h1 (h2.2 hτ)).trans ?_⟩
  · have := hr (h ^ p + h ^ 2) (by positivity)
    linarith
  · have := hr (h ^ p) (by positivity)
    linarith

/-! ## The number of steps -/

/-- C96: the grid of a step size `h` has at most `(e - a) / h + 2` points, so that the rounding errors contribute a constant times `δ + ρ / h`. -/
theorem C96_number {h : ℝ} (hh : 0 < h) (a : ℝ) (ts : List ℝ) (e : ℝ) (he : (a :: ts).getLast? = some e) (hae : a < e) : ((stepGrid h (a :: ts)).length : ℝ) ≤ (e - a) / h + 2 := by
  obtain ⟨k, h1, h2, _⟩ := C68_grid hh a ts e he hae
  rw [h1]
  have : (k : ℝ) ≤ (e - a) / h := by
    rw [le_div_iff₀ hh]
    linarith
  simp only [List.length_append, List.length_map, List.length_range, List.length_singleton]
  push_cast
  linarith

/-- C96: the errors can add up.  For the equation `y' = 0`, whose solutions every method computes without error, there are for every grid errors of size `ρ` per step with which the last value is off by
`ρ ·` (number of steps). -/
theorem C96_adds_up {E : Type} [NormedAddCommGroup E] [NormedSpace ℝ E] (T : Tableau) {ρ : ℝ} (hρ : 0 ≤ ρ) (v : E) (hv : ‖v‖ = ρ) (z : E) (grid : List ℝ) (t e : ℝ) {h : ℝ} (hm : Mesh h t grid)
    (he : grid.getLast? = some e) : Rounded T (fun _ _ => (0 : E)) 0 ρ t z grid [e] [z + grid.length • v] := by
  have hs : ∀ (h t : ℝ) (z : E) (ss : List (ℝ × List ℝ)) (n : ℕ), RSlopes (fun _ _ => (0 : E)) 0 ρ h t z ss (List.replicate n 0) (List.replicate (n + ss.length) 0) := by
    intro h t z ss
    induction ss with
    | nil => exact fun n => .nil
    | cons s ss ih =>
      intro n
      refine .cons _ 0 (by rw [sub_self, norm_zero]; exact hρ) (by simp) ?_
      rw [← List.replicate_succ', List.length_cons, show n + (ss.length + 1) = n + 1 + ss.length by omega]
      exact ih _
  have hcomb : ∀ (c : List ℝ) (n : ℕ), comb c (List.replicate n (0 : E)) = 0 := by
    intro c
    induction c with
    | nil => intro n; simp [comb]
    | cons x c ih =>
      intro n
      cases n with
      | zero => simp [comb]
      | succ n =>
        have := ih n
        unfold comb at this ⊢
        rw [List.replicate_succ, List.zipWith_cons_cons, List.sum_cons, this, smul_zero, add_zero]
  induction grid generalizing t z with
  | nil => cases he
  | cons t' grid ih =>
    have hz' : ‖z + v - (z + (t' - t) • comb T.weights (List.replicate (0 + T.stages.length) (0 : E)))‖ ≤ ρ := by
      rw [hcomb, smul_zero, add_zero, add_sub_cancel_left, hv]
    cases grid with
    | nil =>
      obtain rfl : t' = e := by simpa using he
      have : Rounded T (fun _ _ => (0 : E)) 0 ρ t z [t'] [t'] ([z + 1 • v] ++ []) := by
        refine .step _ (z + v) (hs _ _ _ _ 0) hz' ?_ .stop
        rw [List.takeWhile_cons_of_pos (by simp), List.takeWhile_nil]
        refine .cons ?_ .nil
        rw [one_smul]
        unfold between
        rw [if_neg (by linarith [hm.1] : ¬ t' = t), if_pos rfl, sub_self, norm_zero]
        exact hρ
      simpa using this
    | cons t'' grid =>
      have hlt : t' < e := mesh_lt hm.2.2 e (List.mem_of_getLast? (by rwa [List.getLast?_cons_cons] at he))
      have := Rounded.step (T := T) (f := fun _ _ => (0 : E)) (δ := 0) (ρ := ρ) (z := z) (outs := []) (req := [e]) _ (z + v) (hs (t' - t) t z _ 0) hz' (by
        rw [List.takeWhile_cons_of_neg (by simpa using hlt)]
        exact .nil) (by
        rw [List.dropWhile_cons_of_neg (by simpa using hlt)]
        exact ih (z + v) t' hm.2.2 (by rwa [List.getLast?_cons_cons] at he))
      rw [List.nil_append] at this
      rw [List.length_cons, succ_nsmul', ← add_assoc]
      exact this

end Verif.Rounding
