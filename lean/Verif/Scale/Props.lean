import Verif.Scale.Lemmas
import Verif.Converge.Instance

/-!
# C75: the time of integration and the size of the costates; running backwards
-/

namespace Verif.Scale
open Set Verif Verif.Shooting Verif.Evolution Verif.Models Verif.Tensor Verif.Assembly Verif.Flow Verif.Whole Verif.Converge

variable {ι β K K' P : Type} [Fintype ι] [Fintype K] [Fintype K'] [Fintype P]

/-- C75: `c` times the costates give `c` times the parameters and `c²` times the norm penalty, for every class whose right-hand side is linear in the parameters, whatever the parameters
start from. -/
theorem C75_parameters {f : Rhs (ι × K) P} (hf : LinearInParams f) (w : P → Option ℝ) (θ0 θ0' : P → ℝ) (c : ℝ) (q p : ι × K → ℝ) :
    directParameters f w θ0 q (c • p) = c • directParameters f w θ0' q p ∧
    kineticEnergy w (directParameters f w θ0 q (c • p)) = c ^ 2 * kineticEnergy w (directParameters f w θ0' q p) := by
  have h : directParameters f w θ0 q (c • p) = c • directParameters f w θ0' q p := by
    rw [direct_smul, C32_independent_of_initialisation hf.affine w θ0 θ0']
  exact ⟨h, by rw [h, kinetic_smul]⟩

omit [Fintype K'] in
/-- C75: `c` times the costates make state and data move `c` times as fast and the costate `c²` times as fast: `c` times as fast, measured in its new size. -/
theorem C75_field {f : Class K P} {g : Class K' P} (hf : LinearInParams (f ι)) (hf' : LinearInParams (g β)) (w : P → Option ℝ) (ρ ρ' : ℝ → (P → ℝ) × (P → ℝ)) (c t t' : ℝ)
    (q p : ι × K → ℝ) (x : β × K' → ℝ) :
    ∃ dq dp dx, field2 f g (autodiff f w ρ) t (q, p, x) = (dq, dp, dx) ∧ field2 f g (autodiff f w ρ') t' (q, c • p, x) = (c • dq, c ^ 2 • dp, c • dx) := by
  refine ⟨_, _, _, rfl, ?_⟩
  have h := C32_independent_of_initialisation hf.affine w (ρ' t').1 (ρ t).1 q p
  have h2 := costate_independent hf.affine w (ρ' t').2 (ρ t).2 q p
  simp only [field2, autodiff, direct_smul, rhs_smul hf, rhs_smul hf', costate_smul hf, h, h2]

omit [Fintype K'] in
/-- C75 in RNN mode or with external parameters: with `c` times the parameters too. -/
theorem C75_field_given {f : Class K P} {g : Class K' P} (hf : LinearInParams (f ι)) (hf' : LinearInParams (g β)) (w : P → Option ℝ) (θ : ℝ → P → ℝ) (c t : ℝ)
    (q p : ι × K → ℝ) (x : β × K' → ℝ) :
    ∃ dq dp dx, field2 f g (given f w θ) (c * t) (q, p, x) = (dq, dp, dx) ∧ field2 f g (given f w fun t => c • θ (c * t)) t (q, c • p, x) = (c • dq, c ^ 2 • dp, c • dx) := by
  refine ⟨_, _, _, rfl, ?_⟩
  simp only [field2, given, rhs_smul hf, rhs_smul hf', costateFixed_smul hf]

omit [Fintype K'] in
theorem scaled_field {f : Class K P} {g : Class K' P} (hf : LinearInParams (f ι)) (hf' : LinearInParams (g β)) (w : P → Option ℝ) (ρ ρ' : ℝ → (P → ℝ) × (P → ℝ)) (c t t' : ℝ) (z : Sys2 ι β K K') :
    field2 f g (autodiff f w ρ') t (scaleCostate c z) = c • scaleCostate c (field2 f g (autodiff f w ρ) t' z) := by
  obtain ⟨dq, dp, dx, h1, h2⟩ := C75_field hf hf' w ρ ρ' c t' t z.1 z.2.1 z.2.2
  have h1 : field2 f g (autodiff f w ρ) t' z = (dq, dp, dx) := h1
  rw [h1]
  refine h2.trans ?_
  unfold scaleCostate
  rw [sq, mul_smul]
  rfl

omit [Fintype K'] in
theorem scaled_field_given {f : Class K P} {g : Class K' P} (hf : LinearInParams (f ι)) (hf' : LinearInParams (g β)) (w : P → Option ℝ) (θ : P → ℝ) (c t t' : ℝ) (z : Sys2 ι β K K') :
    field2 f g (given f w fun _ => c • θ) t (scaleCostate c z) = c • scaleCostate c (field2 f g (given f w fun _ => θ) t' z) := by
  obtain ⟨dq, dp, dx, h1, h2⟩ := C75_field_given hf hf' w (fun _ => θ) c t z.1 z.2.1 z.2.2
  have h1 : field2 f g (given f w fun _ => θ) t' z = (dq, dp, dx) := h1
  rw [h1]
  refine h2.trans ?_
  unfold scaleCostate
  rw [sq, mul_smul]
  rfl

/-! ## Exact solutions -/

/-- C75: from a solution up to the time `c b` one gets a solution up to the time `b` for `c` times the costates. -/
theorem C75_solution [Fintype β] {f : Class K P} {g : Class K' P} (hf : LinearInParams (f ι)) (hf' : LinearInParams (g β)) (w : P → Option ℝ) (ρ ρ' : ℝ → (P → ℝ) × (P → ℝ)) {c : ℝ} (hc : 0 < c)
    {a b : ℝ} {y : ℝ → Sys2 ι β K K'} (hy : Solves (field2 f g (autodiff f w ρ)) (c * a) (c * b) y) :
    Solves (field2 f g (autodiff f w ρ')) a b fun t => ((y (c * t)).1, c • (y (c * t)).2.1, (y (c * t)).2.2) := by
  have hm : MapsTo (fun t : ℝ => 0 + c * t) (Icc a b) (Icc (c * a) (c * b)) := fun t ht => by
    simp only [zero_add]
    exact ⟨mul_le_mul_of_nonneg_left ht.1 hc.le, mul_le_mul_of_nonneg_left ht.2 hc.le⟩
  have := solves_scale (F := field2 f g (autodiff f w ρ)) (G := field2 f g (autodiff f w ρ')) (c := c) (s := 0) (fun t z => scaled_field hf hf' w ρ ρ' c t _ z) hm hy
  simp only [zero_add] at this
  exact this

/-- C75: running backwards is running forwards with the opposite costates. -/
theorem C75_reverse_solution [Fintype β] {f : Class K P} {g : Class K' P} (hf : LinearInParams (f ι)) (hf' : LinearInParams (g β)) (w : P → Option ℝ) (ρ ρ' : ℝ → (P → ℝ) × (P → ℝ))
    {a b : ℝ} {y : ℝ → Sys2 ι β K K'} (hy : Solves (field2 f g (autodiff f w ρ)) a b y) :
    Solves (field2 f g (autodiff f w ρ')) a b fun t => ((y (a + b - t)).1, - (y (a + b - t)).2.1, (y (a + b - t)).2.2) := by
  have hm : MapsTo (fun t : ℝ => (a + b) + (-1) * t) (Icc a b) (Icc a b) := fun t ht => ⟨by linarith [ht.2], by linarith [ht.1]⟩
  have := solves_scale (F := field2 f g (autodiff f w ρ)) (G := field2 f g (autodiff f w ρ')) (c := -1) (s := a + b) (fun t z => scaled_field hf hf' w ρ ρ' (-1) t _ z) hm hy
  have e : (fun t => scaleCostate (-1) (y (a + b + -1 * t))) = fun t => ((y (a + b - t)).1, - (y (a + b - t)).2.1, (y (a + b - t)).2.2) := by
    funext t
    unfold scaleCostate
    rw [neg_one_mul, ← sub_eq_add_neg, neg_one_smul]
  rwa [e] at this

variable [Fintype β]

theorem smooth_field [Nonempty ι] {f : Class K P} (hf : Regular f) {g : Class K' P} (hg : Regular g) (w : P → Option ℝ) (hw : ∀ r, weight w r ≠ 0) (ρ : ℝ → (P → ℝ) × (P → ℝ)) :
    ContDiff ℝ 1 fun z : ℝ × Sys2 ι β K K' => field2 f g (autodiff f w ρ) z.1 z.2 :=
  contDiff_autodiff (n := 1) (hf.linear ι).affine (smooth_one hf ι) (hg.linear β).affine (smooth_one hg β).less w hw ρ

/-- C75: with costates `c p` a network reaches at every time `t` the state and the data that it reaches at the time `c t` with costates `p`. -/
theorem C75_time [Nonempty ι] {f : Class K P} (hf : Regular f) {g : Class K' P} (hg : Regular g) (w : P → Option ℝ) (hw : ∀ r, weight w r ≠ 0) (ρ ρ' : ℝ → (P → ℝ) × (P → ℝ)) {c : ℝ} (hc : 0 < c) {b : ℝ}
    {q p : ι × K → ℝ} {x : β × K' → ℝ} {y y' : ℝ → Sys2 ι β K K'} (hy : Solves (field2 f g (autodiff f w ρ)) 0 (c * b) y) (h0 : y 0 = (q, p, x))
    (hy' : Solves (field2 f g (autodiff f w ρ')) 0 b y') (h0' : y' 0 = (q, c • p, x)) :
    ∀ t ∈ Icc 0 b, (y' t).1 = (y (c * t)).1 ∧ (y' t).2.1 = c • (y (c * t)).2.1 ∧ (y' t).2.2 = (y (c * t)).2.2 := by
  intro t ht
  have hs := C75_solution (hf.linear ι) (hg.linear β) w ρ ρ' hc (a := 0) (by simpa using hy)
  have := C68_unique (smooth_field hf hg w hw ρ') hy' hs (by simp [h0, h0']) t ht
  rw [this]
  exact ⟨rfl, rfl, rfl⟩

/-- C75: from the final state, the opposite of the final costate and the final data a network runs back to the initial state, the opposite of the initial costate and the initial data, and
passes the same states on the way. -/
theorem C75_reverse [Nonempty ι] {f : Class K P} (hf : Regular f) {g : Class K' P} (hg : Regular g) (w : P → Option ℝ) (hw : ∀ r, weight w r ≠ 0) (ρ ρ' : ℝ → (P → ℝ) × (P → ℝ)) {a b : ℝ}
    {y y' : ℝ → Sys2 ι β K K'} (hy : Solves (field2 f g (autodiff f w ρ)) a b y) (hy' : Solves (field2 f g (autodiff f w ρ')) a b y')
    (h0 : y' a = ((y b).1, - (y b).2.1, (y b).2.2)) :
    ∀ t ∈ Icc a b, y' t = ((y (a + b - t)).1, - (y (a + b - t)).2.1, (y (a + b - t)).2.2) :=
  C68_unique (smooth_field hf hg w hw ρ') hy' (C75_reverse_solution (hf.linear ι) (hg.linear β) w ρ ρ' hy) (by rw [h0]; simp)

/-- The particles do not depend on the data. -/
theorem same_particles {β' : Type} [Fintype β'] [Nonempty ι] {f : Class K P} (hf : Regular f) {g : Class K' P} (hg : Regular g) (w : P → Option ℝ) (hw : ∀ r, weight w r ≠ 0) (ρ : ℝ → (P → ℝ) × (P → ℝ)) {a b : ℝ}
    {y : ℝ → Sys2 ι β K K'} {y' : ℝ → Sys2 ι β' K K'} (hy : Solves (field2 f g (autodiff f w ρ)) a b y) (hy' : Solves (field2 f g (autodiff f w ρ)) a b y') {t : ℝ} (ht : t ∈ Icc a b)
    (h : (y t).1 = (y' t).1 ∧ (y t).2.1 = (y' t).2.1) : ∀ s ∈ Icc a b, (y s).1 = (y' s).1 ∧ (y s).2.1 = (y' s).2.1 := by
  intro s hs
  have e := C69_backwards (smooth_field (β := Empty) hf hg w hw ρ) (solves_particles hy) (solves_particles hy') ht (by rw [h.1, h.2]) s hs
  exact ⟨congrArg (fun z : Sys2 ι Empty K K' => z.1) e, congrArg (fun z : Sys2 ι Empty K K' => z.2.1) e⟩

/-- C75: a network is a one-to-one map of the data onto all data: whatever should come out at the time `b`, there is exactly one input for which it does. -/
theorem C75_bijective [Nonempty ι] {f : Class K P} (hf : Regular f) {g : Class K' P} (hg : Regular g) (w : P → Option ℝ) (hw : ∀ r, 0 < weight w r) (ρ : ℝ → (P → ℝ) × (P → ℝ)) {a b : ℝ} (hab : a ≤ b)
    (q p : ι × K → ℝ) (x' : β × K' → ℝ) :
    ∃! x, ∃ y, Solves (field2 f g (autodiff f w ρ)) a b y ∧ y a = (q, p, x) ∧ (y b).2.2 = x' := by
  have hw' : ∀ r, weight w r ≠ 0 := fun r => (hw r).ne'
  have ha : a ∈ Icc a b := ⟨le_rfl, hab⟩
  have hb : b ∈ Icc a b := ⟨hab, le_rfl⟩
  obtain ⟨y0, h1, h2, _⟩ := C69_global_sizes (β := Empty) hf hg w hw ρ hab (q, p, fun k => k.1.elim)
  obtain ⟨z, h3, h4, _⟩ := C69_global_sizes (β := β) hf hg w hw ρ hab ((y0 b).1, - (y0 b).2.1, x')
  have h5 := C75_reverse_solution (hf.linear ι) (hg.linear β) w ρ ρ h3
  have h6 := same_particles hf hg w hw' ρ h5 h1 hb (by simp [h4])
  refine ⟨(z b).2.2, ⟨_, h5, ?_, ?_⟩, ?_⟩
  · obtain ⟨e1, e2⟩ := h6 a ha
    rw [h2] at e1 e2
    simp only [add_sub_cancel_left] at e1 e2 ⊢
    rw [e1, e2]
  · simp [h4]
  · rintro x ⟨y, h7, h8, h9⟩
    have h10 := same_particles hf hg w hw' ρ h7 h1 ha (by rw [h8, h2]; exact ⟨rfl, rfl⟩) b hb
    have h11 := C69_backwards (smooth_field hf hg w hw' ρ) h7 h5 hb (by simp [h4, ← h9, ← h10.1, ← h10.2]) a ha
    rw [h8] at h11
    have := congrArg (fun z : Sys2 ι β K K' => z.2.2) h11
    simpa using this

/-! ## Fixed-grid solvers -/

omit [Fintype ι] [Fintype K] [Fintype K'] [Fintype P] [Fintype β] in
theorem increasing_map {c : ℝ} (hc : 0 < c) (ts : List ℝ) : increasing (ts.map (c * ·)) = increasing ts := by
  have e : increasing (ts.map (c * ·)) = true ↔ increasing ts = true := by
    rw [increasing_iff, increasing_iff, List.pairwise_map]
    exact List.Pairwise.iff fun {a b} => mul_lt_mul_iff_right₀ hc
  cases h : increasing ts <;> cases h' : increasing (ts.map (c * ·)) <;> simp_all

omit [Fintype ι] [Fintype K] [Fintype K'] [Fintype P] [Fintype β] in
theorem solver_bad (T : Tableau) (G : List ℝ → List ℝ) (t : ℝ) (ts : List ℝ)
    (h : increasing (t :: ts) = true → (G (t :: ts)).head? ≠ some t ∨ (G (t :: ts)).getLast? ≠ (t :: ts).getLast?) :
    solver T G (t :: ts) = .fail .assertionError := by
  unfold solver
  dsimp only
  by_cases hi : increasing (t :: ts) = false
  · rw [if_pos hi]
  · rw [if_neg hi, if_pos (h (by simpa using hi))]

omit [Fintype P] in
theorem run_scale {F F' : ℝ → Sys2 ι β K K' → Sys2 ι β K K'} {c : ℝ} (hc : 0 < c) (H : ∀ t z, F' t (scaleCostate c z) = c • scaleCostate c (F (c * t) z)) (T : Tableau)
    (G G' : List ℝ → List ℝ) (ts : List ℝ) (hG : G (ts.map (c * ·)) = (G' ts).map (c * ·)) (z : Sys2 ι β K K') :
    runSys F' (solver T G' ts) [scaleCostate c z] = (runSys F (solver T G (ts.map (c * ·))) [z]).map (List.map (scaleCostate c)) := by
  cases ts with
  | nil => rfl
  | cons t ts =>
    have hinj : Function.Injective (fun s : ℝ => c * s) := fun _ _ h => mul_left_cancel₀ hc.ne' h
    have hinc : increasing (c * t :: ts.map (c * ·)) = increasing (t :: ts) := increasing_map hc (t :: ts)
    have e : G (c * t :: ts.map (c * ·)) = (G' (t :: ts)).map (c * ·) := hG
    have e2 : (c * t :: ts.map (c * ·)).getLast? = Option.map (c * ·) (t :: ts).getLast? := by rw [← List.getLast?_map]; rfl
    by_cases hg : increasing (t :: ts) = true ∧ (G' (t :: ts)).head? = some t ∧ (G' (t :: ts)).getLast? = (t :: ts).getLast?
    · obtain ⟨hi, hg1, hg2⟩ := hg
      cases hG' : G' (t :: ts) with
      | nil => rw [hG'] at hg1; cases hg1
      | cons t0 g =>
        rw [hG'] at hg1 hg2
        obtain rfl : t0 = t := Option.some.inj hg1
        rw [hG', List.map_cons] at e
        rw [run_solver _ T G' t0 ts g _ hi hG' hg2, List.map_cons, run_solver _ T G (c * t0) _ (g.map (c * ·)) _ (hinc.trans hi) e ?_, outputs_scale H hc]
        · rfl
        · rw [e2, ← hg2, ← List.getLast?_map]
          rfl
    · rw [List.map_cons, solver_bad T G' t ts ?_, solver_bad T G (c * t) _ ?_]
      · rfl
      · intro hi
        rw [hinc] at hi
        rw [e, e2, List.head?_map, List.getLast?_map]
        by_contra hh
        push Not at hh
        exact hg ⟨hi, Option.map_injective hinj hh.1, Option.map_injective hinj hh.2⟩
      · intro hi
        by_contra hh
        push Not at hh
        exact hg ⟨hi, hh.1, hh.2⟩

/-- C75: the same for a Runge-Kutta method on a grid, step by step and without an error: `c` times the costates on a grid and the costates on the grid with `c` times the times give the same
states and data at corresponding times, and the same exceptions. -/
theorem C75_steps {f : Class K P} {g : Class K' P} (hf : LinearInParams (f ι)) (hf' : LinearInParams (g β)) (w : P → Option ℝ) (ρ ρ' : ℝ → (P → ℝ) × (P → ℝ)) {c : ℝ} (hc : 0 < c) (T : Tableau)
    (G G' : List ℝ → List ℝ) (ts : List ℝ) (hG : G (ts.map (c * ·)) = (G' ts).map (c * ·)) (q p : ι × K → ℝ) (x : β × K' → ℝ) :
    runSys (field2 f g (autodiff f w ρ')) (solver T G' ts) [(q, c • p, x)] =
      (runSys (field2 f g (autodiff f w ρ)) (solver T G (ts.map (c * ·))) [(q, p, x)]).map (List.map fun y => (y.1, c • y.2.1, y.2.2)) :=
  run_scale hc (fun t z => scaled_field hf hf' w ρ ρ' c t _ z) T G G' ts hG (q, p, x)

/-- C75 in RNN mode, where the parameters are computed once, from the initial state. -/
theorem C75_steps_rnn {f : Class K P} {g : Class K' P} (hf : LinearInParams (f ι)) (hf' : LinearInParams (g β)) (w : P → Option ℝ) (θ0 θ0' : P → ℝ) {c : ℝ} (hc : 0 < c) (T : Tableau)
    (G G' : List ℝ → List ℝ) (ts : List ℝ) (hG : G (ts.map (c * ·)) = (G' ts).map (c * ·)) (q p : ι × K → ℝ) (x : β × K' → ℝ) :
    runSys (field2 f g (given f w fun _ => directParameters (f ι) w θ0' q (c • p))) (solver T G' ts) [(q, c • p, x)] =
      (runSys (field2 f g (given f w fun _ => directParameters (f ι) w θ0 q p)) (solver T G (ts.map (c * ·))) [(q, p, x)]).map (List.map fun y => (y.1, c • y.2.1, y.2.2)) := by
  rw [(C75_parameters hf w θ0' θ0 c q p).1]
  exact run_scale hc (fun t z => scaled_field_given hf hf' w _ c t _ z) T G G' ts hG (q, p, x)

omit [Fintype ι] [Fintype K] [Fintype K'] [Fintype P] [Fintype β] in
/-- C75: for `c` times the times and `c` times the step size the grid has `c` times the points. -/
theorem C75_grid {c : ℝ} (hc : 0 < c) (h : ℝ) (ts : List ℝ) : stepGrid (c * h) (ts.map (c * ·)) = (stepGrid h ts).map (c * ·) := by
  cases ts with
  | nil => rfl
  | cons t ts =>
    rw [List.map_cons]
    unfold stepGrid
    dsimp only
    have e : (c * t :: ts.map (c * ·)).getLast (by simp) = c * (t :: ts).getLast (by simp) := by
      have := List.getLast_map (f := fun s : ℝ => c * s) (l := t :: ts) (by simp)
      exact this
    generalize (t :: ts).getLast (by simp) = l at e
    rw [e, ← mul_sub, mul_div_mul_left _ _ hc.ne']
    have e2 : ((List.range ⌈(l - t) / h + 1⌉.toNat).map fun i : ℕ => (i : ℝ) * (c * h) + c * t) =
        ((List.range ⌈(l - t) / h + 1⌉.toNat).map fun i : ℕ => (i : ℝ) * h + t).map (c * ·) := by
      rw [List.map_map]
      refine List.map_congr_left fun i _ => ?_
      simp only [Function.comp]
      ring
    rw [e2, List.getLast?_map]
    generalize (List.range ⌈(l - t) / h + 1⌉.toNat).map (fun i : ℕ => (i : ℝ) * h + t) = g
    cases g.getLast? with
    | none => rfl
    | some m =>
      simp only [Option.map_some]
      by_cases hlt : l < m
      · rw [if_pos hlt, if_pos ((mul_lt_mul_iff_right₀ hc).2 hlt), List.map_append, List.map_dropLast]
        rfl
      · rw [if_neg hlt, if_neg (fun hh => hlt ((mul_lt_mul_iff_right₀ hc).1 hh))]

/-! ## Forward passes -/

/-- `c` times the times of a setting. -/
def scaleWhen (c : ℝ) : Block.When ℝ → Block.When ℝ
  | .upTo e => .upTo (c * e)
  | .vector v => .vector (v.map (c * ·))

theorem scaleWhen_times (c : ℝ) (w : Block.When ℝ) : (scaleWhen c w).times = w.times.map (c * ·) := by
  cases w with
  | upTo e => show [0, c * e] = [c * 0, c * e]; rw [mul_zero]
  | vector v => rfl

/-- The same names and shapes, `c` times the elements. -/
def Times (c : ℝ) (d d' : TDicts ℝ) : Prop :=
  List.Forall₂ (fun b b' => b.1 = b'.1 ∧ List.Forall₂ (fun e e' => e.1 = e'.1 ∧ e.2.shape = e'.2.shape ∧ e.2.data = e'.2.data.map (c * ·)) b.2 b'.2) d d'

/-- Two forward passes raise the same exceptions or return the same output, state and data, and the costate of the first is `c` times that of the second. -/
def SameOutput (c : ℝ) (o o' : Py (Block.Out ℝ)) : Prop :=
  (∀ e, o = .error e ↔ o' = .error e) ∧ ∀ u, o = .ok u → ∃ u', o' = .ok u' ∧ u.result = u'.result ∧ u.state = u'.state ∧ u.data = u'.data ∧ Times c u.costate u'.costate

theorem tabData_mul (c : ℝ) (s : List Nat) (F : List Nat → ℝ) : tabData s (fun idx => c * F idx) = (tabData s F).map (c * ·) := by
  induction s generalizing F with
  | nil => rfl
  | cons n s ih => simp only [tabData, ih, List.map_flatMap]

omit [Fintype K] in
theorem value_mul (L : Lay K) (n : Nat) (c : ℝ) (x : Fin n × K → ℝ) (nm : String) (idx : List Nat) : value L n (c • x) nm idx = c * value L n x nm idx := by
  cases idx with
  | nil => exact (mul_zero c).symm
  | cons i idx =>
    unfold value
    dsimp only
    by_cases h : i < n
    · rw [dif_pos h, dif_pos h]
      cases L.coord nm idx with
      | none => exact (mul_zero c).symm
      | some k => rfl
    · rw [dif_neg h, dif_neg h, mul_zero]

omit [Fintype K] in
theorem times_enc (L : Lay K) (nm pre : String) (n : Nat) (c : ℝ) (x : Fin n × K → ℝ) : Times c [(nm, enc L pre n (c • x))] [(nm, enc L pre n x)] := by
  refine .cons ⟨rfl, ?_⟩ .nil
  unfold enc
  rw [List.forall₂_map_left_iff, List.forall₂_map_right_iff, List.forall₂_same]
  refine fun e _ => ⟨rfl, rfl, ?_⟩
  show tabData _ (value L n (c • x) e.1) = _
  rw [funext (value_mul L n c x e.1), tabData_mul]
  rfl

omit [Fintype K] in
theorem times_encTimes (L : Lay K) (nm pre : String) (n : Nat) (c : ℝ) (xs : List (Fin n × K → ℝ)) :
    Times c [(nm, encTimes L pre n (xs.map fun x => c • x))] [(nm, encTimes L pre n xs)] := by
  refine .cons ⟨rfl, ?_⟩ .nil
  unfold encTimes
  rw [List.forall₂_map_left_iff, List.forall₂_map_right_iff, List.forall₂_same]
  refine fun e _ => ⟨rfl, by rw [List.length_map]; rfl, ?_⟩
  show tabData _ _ = (tabData _ _).map _
  rw [List.length_map, ← tabData_mul]
  congr 1
  funext idx
  rw [List.getElem?_map]
  cases xs[idx.headD 0]? with
  | none => exact (mul_zero c).symm
  | some x => exact value_mul L n c x e.1 _

variable {H D Θ Rb R : Type}

omit [Fintype ι] [Fintype K] [Fintype K'] [Fintype P] [Fintype β] in
theorem report_scale (L : Lay K) (L' : Lay K') (nm key : String) (sh : List Nat) (s s' : Block.St ℝ ℝ Θ) (w : Block.When ℝ) (c : ℝ) {n B : Nat} (ys : Py (List (Sys2 (Fin n) (Fin B) K K'))) :
    SameOutput c (report L L' nm key sh s w (ys.map (List.map (scaleCostate c)))).2 (report L L' nm key sh s' (scaleWhen c w) ys).2 := by
  cases ys with
  | error e => exact ⟨fun e' => Iff.rfl, fun u h => by cases h⟩
  | ok ys =>
    cases w with
    | upTo e =>
      show SameOutput c (report L L' nm key sh s (.upTo e) (.ok (ys.map (scaleCostate c)))).2 (report L L' nm key sh s' (.upTo (c * e)) (.ok ys)).2
      unfold report
      dsimp only
      rw [List.getLast?_map]
      cases ys.getLast? with
      | none => exact ⟨fun e' => Iff.rfl, fun u h => by cases h⟩
      | some y =>
        refine ⟨fun e' => ⟨nofun, nofun⟩, fun u h => ⟨_, rfl, ?_⟩⟩
        cases h
        exact ⟨rfl, rfl, rfl, times_enc L nm "p_" n c y.2.1⟩
    | vector v =>
      refine ⟨fun e' => ⟨nofun, nofun⟩, fun u h => ⟨_, rfl, ?_⟩⟩
      cases h
      show (outTimes L L' nm key sh (ys.map (scaleCostate c))).result = (outTimes L L' nm key sh ys).result ∧ (outTimes L L' nm key sh (ys.map (scaleCostate c))).state = (outTimes L L' nm key sh ys).state ∧
        (outTimes L L' nm key sh (ys.map (scaleCostate c))).data = (outTimes L L' nm key sh ys).data ∧
        Times c (outTimes L L' nm key sh (ys.map (scaleCostate c))).costate (outTimes L L' nm key sh ys).costate
      have := times_encTimes L nm "p_" n c (ys.map fun y => y.2.1)
      rw [List.map_map] at this
      unfold outTimes
      simp only [List.length_map, List.map_map, List.getElem?_map, Option.map_map]
      exact ⟨rfl, rfl, rfl, this⟩

omit [Fintype ι] [Fintype β] in
/-- C75 for forward passes: a block with costates `c p` returns for every batch exactly what the block with costates `p` returns when its times (final time or vector of times) and the step
size are multiplied by `c`; and it raises exactly the same exceptions.  The second block differs in nothing else. -/
theorem C75_forward {L : Lay K} (hL : L.Ok) {L' : Lay K'} (hL' : L'.Ok) {f : Class K P} {g : Class K' P} (hf : ∀ n, LinearInParams (f (Fin n))) (hg : ∀ n, LinearInParams (g (Fin n))) (wt : P → Option ℝ) {c : ℝ} (hc : 0 < c) (T : Tableau) (h : ℝ)
    {icfg : Θ → Nat → Integrand.Cfg ℝ (Trip ℝ) (Par P (P → ℝ)) (TDicts ℝ) ℝ (P → ℝ) H D} {s0 : Integrand.St ℝ (Par P (P → ℝ)) ℝ H D × (Nat → (P → ℝ) × (P → ℝ))}
    {cfg cfg' : Block.Cfg ℝ ℝ Θ Rb} (hb : IsBlock ((autodiffCls L f wt).withData L' g) (solver T (stepGrid h)) icfg s0 cfg) (hb' : IsBlock ((autodiffCls L f wt).withData L' g) (solver T (stepGrid (c * h))) icfg s0 cfg')
    (hname : cfg'.name = cfg.name) (hout : cfg'.outKey = cfg.outKey) (hinit : cfg'.initialData = cfg.initialData)
    (hu : s0.1.useRnn = false) (he : s0.1.external = false) {s s' : Block.St ℝ ℝ Θ} (hdd : DimOk L' s.dataDim) (hdd' : DimOk L' s'.dataDim)
    {w : Block.When ℝ} (hw : Block.Is s w) (hw' : Block.Is s' (scaleWhen c w)) {n B : Nat} {q p : Fin n × K → ℝ} {x : Fin B × K' → ℝ}
    (hq : s.state = some (enc L "" n q)) (hp : s.costate = some (enc L "p_" n (c • p))) (hq' : s'.state = some (enc L "" n q)) (hp' : s'.costate = some (enc L "p_" n p))
    {X : Tensor ℝ} (hX : cfg.initialData X = .ok (enc L' "" B x)) (r r' : Rb) :
    SameOutput c (Block.forward cfg r ⟨some X, none, none, none⟩ s).2 (Block.forward cfg' r' ⟨some X, none, none, none⟩ s').2 := by
  obtain ⟨sh, hkey⟩ := hb.key
  rw [C67_forward_sizes hL hL' g (fun n => (hf n).affine) wt hb hu he hdd hw hq hp hX hkey r (fun _ => (0, 0)),
    C67_forward_sizes hL hL' g (fun n => (hf n).affine) wt hb' hu he hdd' hw' hq' hp' (by rw [hinit]; exact hX) (sh := sh) (by rw [hout]; exact hkey) r' (fun _ => (0, 0)),
    scaleWhen_times, hname, hout, C75_steps (hf n) (hg B) wt (fun _ => (0, 0)) (fun _ => (0, 0)) hc T (stepGrid (c * h)) (stepGrid h) w.times (C75_grid hc h w.times) q p x]
  exact report_scale L L' _ _ sh s s' w c _

omit [Fintype ι] [Fintype β] in
/-- C75 for forward passes in RNN mode. -/
theorem C75_forward_rnn {L : Lay K} (hL : L.Ok) {L' : Lay K'} (hL' : L'.Ok) {f : Class K P} {g : Class K' P} (hf : ∀ n, LinearInParams (f (Fin n))) (hg : ∀ n, LinearInParams (g (Fin n))) (wt : P → Option ℝ) {c : ℝ} (hc : 0 < c) {T : Tableau} (hT : T.Consistent) (h : ℝ)
    {icfg : Θ → Nat → Integrand.Cfg ℝ (Trip ℝ) (Par P (P → ℝ)) (TDicts ℝ) ℝ (P → ℝ) H D} {s0 : Integrand.St ℝ (Par P (P → ℝ)) ℝ H D × (Nat → (P → ℝ) × (P → ℝ))}
    {cfg cfg' : Block.Cfg ℝ ℝ Θ Rb} (hb : IsBlock ((rnnCls L f wt).withData L' g) (solver T (stepGrid h)) icfg s0 cfg) (hb' : IsBlock ((rnnCls L f wt).withData L' g) (solver T (stepGrid (c * h))) icfg s0 cfg')
    (hname : cfg'.name = cfg.name) (hout : cfg'.outKey = cfg.outKey) (hinit : cfg'.initialData = cfg.initialData)
    (hu : s0.1.useRnn = true) (he : s0.1.external = false) (hn : s0.1.cache = none) {s s' : Block.St ℝ ℝ Θ} (hdd : DimOk L' s.dataDim) (hdd' : DimOk L' s'.dataDim)
    {w : Block.When ℝ} (hw : Block.Is s w) (hw' : Block.Is s' (scaleWhen c w)) {n B : Nat} {q p : Fin n × K → ℝ} {x : Fin B × K' → ℝ}
    (hq : s.state = some (enc L "" n q)) (hp : s.costate = some (enc L "p_" n (c • p))) (hq' : s'.state = some (enc L "" n q)) (hp' : s'.costate = some (enc L "p_" n p))
    {X : Tensor ℝ} (hX : cfg.initialData X = .ok (enc L' "" B x)) (r r' : Rb) :
    SameOutput c (Block.forward cfg r ⟨some X, none, none, none⟩ s).2 (Block.forward cfg' r' ⟨some X, none, none, none⟩ s').2 := by
  obtain ⟨sh, hkey⟩ := hb.key
  rw [C67_forward_rnn (c := (rnnCls L f wt).withData L' g) hL hL' hb hu he hn hdd hw hq hp hX hkey r (directParameters (f (Fin n)) wt (s0.2 0).1 q (c • p), (s0.2 0).1)
      (fun z hz => by rw [firstEval_solver hT _ _ _ z hz]; rfl),
    C67_forward_rnn (c := (rnnCls L f wt).withData L' g) hL hL' hb' hu he hn hdd' hw' hq' hp' (by rw [hinit]; exact hX) (sh := sh) (by rw [hout]; exact hkey) r'
      (directParameters (f (Fin n)) wt (s0.2 0).1 q p, (s0.2 0).1) (fun z hz => by rw [firstEval_solver hT _ _ _ z hz]; rfl), scaleWhen_times, hname, hout]
  have := C75_steps_rnn (hf n) (hg B) wt (s0.2 0).1 (s0.2 0).1 hc T (stepGrid (c * h)) (stepGrid h) w.times (C75_grid hc h w.times) q p x
  show SameOutput c (report L L' _ _ sh s w (runSys (field2 f g (given f wt fun _ => directParameters (f (Fin n)) wt (s0.2 0).1 q (c • p))) (solver T (stepGrid h) w.times) [(q, c • p, x)])).2 _
  rw [this]
  exact report_scale L L' _ _ sh s s' w c _

omit [Fintype ι] [Fintype β] in
/-- C75 for forward passes with hand-written formulas, where these are exact. -/
theorem C75_forward_analytic {L : Lay K} (hL : L.Ok) {f : Class K P} (hf : ∀ n, LinearInParams (f (Fin n))) (wt : P → Option ℝ) {c : ℝ} (hc : 0 < c) (T : Tableau) (h : ℝ)
    (par : ∀ n, (Fin n × K → ℝ) → (Fin n × K → ℝ) → P → ℝ) (cost : ∀ n, (P → ℝ) → (Fin n × K → ℝ) → (Fin n × K → ℝ) → Fin n × K → ℝ) {n : Nat} (hx : Exact f wt n (par n) (cost n))
    {icfg : Θ → Nat → Integrand.Cfg ℝ (Trip ℝ) (Par P R) (TDicts ℝ) ℝ R H D} {s0 : Integrand.St ℝ (Par P R) ℝ H D × (Nat → R × R)}
    {cfg cfg' : Block.Cfg ℝ ℝ Θ Rb} (hb : IsBlock (analyticCls L f par cost wt) (solver T (stepGrid h)) icfg s0 cfg)
    (hb' : IsBlock (analyticCls L f par cost wt) (solver T (stepGrid (c * h))) icfg s0 cfg')
    (hname : cfg'.name = cfg.name) (hout : cfg'.outKey = cfg.outKey) (hinit : cfg'.initialData = cfg.initialData)
    (hu : s0.1.useRnn = false) (he : s0.1.external = false) {s s' : Block.St ℝ ℝ Θ} (hdd : DimOk L s.dataDim) (hdd' : DimOk L s'.dataDim)
    {w : Block.When ℝ} (hw : Block.Is s w) (hw' : Block.Is s' (scaleWhen c w)) {B : Nat} {q p : Fin n × K → ℝ} {x : Fin B × K → ℝ}
    (hq : s.state = some (enc L "" n q)) (hp : s.costate = some (enc L "p_" n (c • p))) (hq' : s'.state = some (enc L "" n q)) (hp' : s'.costate = some (enc L "p_" n p))
    {X : Tensor ℝ} (hX : cfg.initialData X = .ok (enc L "" B x)) (r r' : Rb) :
    SameOutput c (Block.forward cfg r ⟨some X, none, none, none⟩ s).2 (Block.forward cfg' r' ⟨some X, none, none, none⟩ s').2 := by
  obtain ⟨sh, hkey⟩ := hb.key
  have em : Evolution.analytic (par n) (cost n) wt = Evolution.autodiff f wt fun _ => (0, 0) := by
    unfold Evolution.analytic Evolution.autodiff
    congr 1
    · funext _ q p
      exact (hx q p).1.symm
    · funext _ q p
      exact (hx q p).2.symm
  have steps := C75_steps (hf n) (hf B) wt (fun _ => (0, 0)) (fun _ => (0, 0)) hc T (stepGrid (c * h)) (stepGrid h) w.times (C75_grid hc h w.times) q p x
  have steps : runSys (field f (autodiff f wt fun _ => (0, 0))) _ _ = (runSys (field f (autodiff f wt fun _ => (0, 0))) _ _).map _ := steps
  rw [C67_forward_analytic hL f par cost wt hb hu he hdd hw hq hp hX hkey r,
    C67_forward_analytic hL f par cost wt hb' hu he hdd' hw' hq' hp' (by rw [hinit]; exact hX) (sh := sh) (by rw [hout]; exact hkey) r',
    scaleWhen_times, hname, hout, em, steps]
  exact report_scale L L _ _ sh s s' w c _

/-- C75: the classes without damping are linear in their parameters, for every nonlinearity, `relu` too. -/
theorem C75_classes (nl : ℝ → ℝ) {C D E : Type} [Fintype C] [Fintype D] [Fintype E] (κ : Type) [Fintype κ] :
    LinearInParams (simple nl : Rhs (κ × (C × D)) _) ∧ LinearInParams (upDown nl : Rhs (κ × Two C D E) _) ∧ LinearInParams (secondOrder nl : Rhs (κ × Two C D D) _) ∧
    LinearInParams (universal nl : Rhs (κ × Two C D E) _) ∧ LinearInParams (periodic nl : Rhs (κ × Two C D E) _) ∧ LinearInParams (general nl 0 : Rhs (κ × Two C D E) _) ∧
    LinearInParams (debugSimple nl : Rhs (κ × Two C D D) _) ∧ LinearInParams (symmetrized nl : Rhs (κ × Three C D E) _) :=
  ⟨linear_simple nl, linear_upDown nl, linear_upDown nl, linear_universal nl, linear_periodic nl, linear_general nl, linear_debugSimple nl, linear_symmetrized nl⟩

/-- C75: the numerical method runs back as well.  Started from the final state, the opposite costate and the final data of an exact solution, it comes back within a constant times the step
size to the initial state and data. -/
theorem C75_run_back [Nonempty ι] {f : Class K P} (hf : Regular f) {g : Class K' P} (hg : Regular g) (w : P → Option ℝ) (hw : ∀ r, weight w r ≠ 0) (ρ ρ' : ℝ → (P → ℝ) × (P → ℝ)) {T : Tableau} (hT : T.Consistent)
    {a b : ℝ} {y : ℝ → Sys2 ι β K K'} (hy : Solves (field2 f g (autodiff f w ρ)) a b y) :
    ∃ C h₀ : ℝ, 0 ≤ C ∧ 0 < h₀ ∧ ∀ h, 0 < h → h ≤ h₀ → ∀ (G : List ℝ → List ℝ) (ts : List ℝ), (a :: ts).Pairwise (· < ·) → (∀ τ ∈ a :: ts, τ ≤ b) → Suits h G a ts →
      ∃ ys, runSys (field2 f g (autodiff f w ρ')) (solver T G (a :: ts)) [((y b).1, - (y b).2.1, (y b).2.2)] = .ok ys ∧
        List.Forall₂ (fun Y τ => ‖Y.1 - (y (a + b - τ)).1‖ ≤ C * h ∧ ‖Y.2.1 + (y (a + b - τ)).2.1‖ ≤ C * h ∧ ‖Y.2.2 - (y (a + b - τ)).2.2‖ ≤ C * h) ys (a :: ts) := by
  obtain ⟨C, h₀, hC, hp, key⟩ := C68_converge (smooth_field hf hg w hw ρ') hT (C75_reverse_solution (hf.linear ι) (hg.linear β) w ρ ρ' hy)
  refine ⟨C, h₀, hC, hp, fun h hh hle G ts hi hts hG => ?_⟩
  obtain ⟨ys, e1, e2⟩ := key h hh hle G ts hi hts hG
  simp only [add_sub_cancel_left] at e1
  refine ⟨ys, e1, e2.imp fun Y τ hY => ?_⟩
  have h1 := (norm_fst_le _).trans hY
  have h2 := (norm_snd_le _).trans hY
  have h3 := (norm_fst_le _).trans h2
  have h4 := (norm_snd_le _).trans h2
  refine ⟨h1, ?_, h4⟩
  simpa using h3

/-! ## With damping it is different -/

/-- C75: with damping, state and data do not move `c` times as fast for `c` times the costates: already for costate zero they move.  Here the data `1` decays with or without the factor 2. -/
theorem C75_damped_false : ∃ (z : Sys (Fin 1) (Fin 1) (Two (Fin 1) (Fin 1) (Fin 1))),
    field (fun _ => general id 1) (autodiff (fun _ => general id 1) (fun _ => none) fun _ => (0, 0)) 0 (scaleCostate 2 z) ≠
      (2 : ℝ) • scaleCostate 2 (field (fun _ => general id 1) (autodiff (fun _ => general id 1) (fun _ => none) fun _ => (0, 0)) 0 z) := by
  refine ⟨(fun _ => 0, fun _ => 0, fun _ => 1), fun h => ?_⟩
  have hθ : directParameters (general id 1 : Rhs (Fin 1 × Two (Fin 1) (Fin 1) (Fin 1)) _) (fun _ => none) 0 (fun _ => 0) (fun _ => 0) = 0 := by
    have := direct_smul (general id 1 : Rhs (Fin 1 × Two (Fin 1) (Fin 1) (Fin 1)) _) (fun _ => none) 0 0 (fun _ => 0) (fun _ => 0)
    rw [zero_smul, zero_smul] at this
    exact this
  have h1 := congrArg (fun z : Sys (Fin 1) (Fin 1) (Two (Fin 1) (Fin 1) (Fin 1)) => z.2.2 (0, .inr (0, 0))) h
  have e0 : (2 : ℝ) • (fun _ : Fin 1 × Two (Fin 1) (Fin 1) (Fin 1) => (0 : ℝ)) = fun _ => 0 := by funext; simp
  simp only [field, autodiff, scaleCostate, e0, hθ] at h1
  norm_num [general, Models.join, linear, linearNB, q2, l21, l22, l23, l24] at h1

/-! ## Concrete cases -/

section
variable (q p : Fin 5 × Two (Fin 1) (Fin 2) (Fin 6) → ℝ)

/-- `C75_parameters` for the up-down class with `relu`. -/
example (θ0) : directParameters (upDown Activation.relu) (fun _ => some 2) θ0 q ((3 : ℝ) • p) = (3 : ℝ) • directParameters (upDown Activation.relu) (fun _ => some 2) 0 q p :=
  (C75_parameters (C75_classes Activation.relu (C := Fin 1) (D := Fin 2) (E := Fin 6) (Fin 5)).2.1 _ θ0 0 3 q p).1

/-- `C75_time` (and with it `C75_solution`) and `C75_reverse`: solutions exist. -/
example (B : ℕ) (x : Fin B × Two (Fin 1) (Fin 2) (Fin 6) → ℝ) : ∃ y y' y'' : ℝ → Sys (Fin 5) (Fin B) (Two (Fin 1) (Fin 2) (Fin 6)),
    y 0 = (q, p, x) ∧ y' 0 = (q, (3 : ℝ) • p, x) ∧ (y' 1).2.2 = (y 3).2.2 ∧ y'' 3 = (q, - p, x) := by
  obtain ⟨y, h1, h2, _⟩ := C69_global regular_tanh (fun _ => none) (fun _ => by norm_num [weight]) (fun _ => (0, 0)) (by norm_num : (0 : ℝ) ≤ 3) (q, p, x)
  obtain ⟨y', h3, h4, _⟩ := C69_global regular_tanh (fun _ => none) (fun _ => by norm_num [weight]) (fun _ => (0, 0)) zero_le_one (q, (3 : ℝ) • p, x)
  obtain ⟨y'', h5, h6, _⟩ := C69_global regular_tanh (fun _ => none) (fun _ => by norm_num [weight]) (fun _ => (0, 0)) (by norm_num : (0 : ℝ) ≤ 3) ((y 3).1, - (y 3).2.1, (y 3).2.2)
  have h7 := C75_time regular_tanh regular_tanh (fun _ => none) (fun _ => by norm_num [weight]) (fun _ => (0, 0)) (fun _ => (0, 0)) (c := 3) (by norm_num) (b := 1) (by rw [mul_one]; exact h1) h2 h3 h4 1 (by simp)
  have h8 := C75_reverse regular_tanh regular_tanh (fun _ => none) (fun _ => by norm_num [weight]) (fun _ => (0, 0)) (fun _ => (0, 0)) h1 h5 h6 3 (by norm_num)
  refine ⟨y, y', y'', h2, h4, by simpa using h7.2.2, ?_⟩
  rw [h8]
  norm_num [h2]

/-- `C75_bijective`: every batch comes out for exactly one batch. -/
example (B : ℕ) (x' : Fin B × Two (Fin 1) (Fin 2) (Fin 6) → ℝ) : ∃! x, ∃ y, Solves (field (fun _ => upDown Real.tanh) (autodiff (fun _ => upDown Real.tanh) (fun _ => none) fun _ => (0, 0))) 0 1 y ∧
    y 0 = (q, p, x) ∧ (y 1).2.2 = x' :=
  C75_bijective regular_tanh regular_tanh (fun _ => none) (fun _ => by norm_num [weight]) _ zero_le_one q p x'

/-- `C75_steps`, `C75_grid`. -/
example (B : ℕ) (x : Fin B × Two (Fin 1) (Fin 2) (Fin 6) → ℝ) :
    runSys (field (fun _ => upDown Activation.relu) (autodiff (fun _ => upDown Activation.relu) (fun _ => none) fun _ => (0, 0))) (solver rk4 (stepGrid 0.1) [0, 1]) [(q, (2 : ℝ) • p, x)] =
      (runSys (field (fun _ => upDown Activation.relu) (autodiff (fun _ => upDown Activation.relu) (fun _ => none) fun _ => (0, 0))) (solver rk4 (stepGrid (2 * 0.1)) [2 * 0, 2 * 1]) [(q, p, x)]).map
        (List.map fun y => (y.1, (2 : ℝ) • y.2.1, y.2.2)) :=
  C75_steps (f := fun _ => upDown Activation.relu) (g := fun _ => upDown Activation.relu) (C75_classes Activation.relu (C := Fin 1) (D := Fin 2) (E := Fin 6) (Fin 5)).2.1
    (C75_classes Activation.relu (C := Fin 1) (D := Fin 2) (E := Fin 6) (Fin B)).2.1 _ _ _ two_pos rk4 _ _ [0, 1] (C75_grid two_pos 0.1 [0, 1]) q p x

/-- `C75_forward`: a block up to time 1 with costates `2 p` and a block up to time 2 with costates `p`. -/
example (nl : ℝ → ℝ) (ρ) (B : ℕ) (X : Tensor ℝ) (hw : X.WF) (hs : X.shape = [B, 1, 2]) :
    SameOutput 2 (Block.forward (udCfg (autodiffCls (layTwo 1 2 6) (fun _ => upDown nl) fun _ => none) false ρ (solver rk4 (stepGrid 0.1))) () ⟨some X, none, none, none⟩ (udSt q ((2 : ℝ) • p))).2
      (Block.forward (udCfg (autodiffCls (layTwo 1 2 6) (fun _ => upDown nl) fun _ => none) false ρ (solver rk4 (stepGrid (2 * 0.1)))) () ⟨some X, none, none, none⟩
        { udSt q p with time := some [0, 2 * 1] }).2 :=
  C75_forward (layTwo_ok 1 2 6) (layTwo_ok 1 2 6) (fun n => (C75_classes nl (C := Fin 1) (D := Fin 2) (E := Fin 6) (Fin n)).2.1) (fun n => (C75_classes nl (C := Fin 1) (D := Fin 2) (E := Fin 6) (Fin n)).2.1) (fun _ => none) two_pos rk4 0.1 (ud_isBlock _ rfl rfl false ρ _) (ud_isBlock _ rfl rfl false ρ _)
    rfl rfl rfl rfl rfl (s := udSt q ((2 : ℝ) • p)) (s' := { udSt q p with time := some [0, 2 * 1] }) ((C67_layouts 1 2 6).2 2 le_rfl).2.1 ((C67_layouts 1 2 6).2 2 le_rfl).2.1
    (w := .upTo 1) ⟨rfl, rfl⟩ ⟨rfl, rfl⟩ rfl rfl rfl rfl (ud_initial _ _ _ _ B X hw hs) () ()

/-- `C75_forward_rnn`. -/
example (nl : ℝ → ℝ) (ρ) (B : ℕ) (X : Tensor ℝ) (hw : X.WF) (hs : X.shape = [B, 1, 2]) :
    SameOutput 2 (Block.forward (udCfg (rnnCls (layTwo 1 2 6) (fun _ => upDown nl) fun _ => none) true ρ (solver rk4 (stepGrid 0.1))) () ⟨some X, none, none, none⟩ (udSt q ((2 : ℝ) • p))).2
      (Block.forward (udCfg (rnnCls (layTwo 1 2 6) (fun _ => upDown nl) fun _ => none) true ρ (solver rk4 (stepGrid (2 * 0.1)))) () ⟨some X, none, none, none⟩
        { udSt q p with time := some [0, 2 * 1] }).2 :=
  C75_forward_rnn (layTwo_ok 1 2 6) (layTwo_ok 1 2 6) (fun n => (C75_classes nl (C := Fin 1) (D := Fin 2) (E := Fin 6) (Fin n)).2.1) (fun n => (C75_classes nl (C := Fin 1) (D := Fin 2) (E := Fin 6) (Fin n)).2.1) (fun _ => none) two_pos C68_methods.2.2.1 0.1 (ud_isBlock _ rfl rfl true ρ _)
    (ud_isBlock _ rfl rfl true ρ _) rfl rfl rfl rfl rfl rfl (s := udSt q ((2 : ℝ) • p)) (s' := { udSt q p with time := some [0, 2 * 1] }) ((C67_layouts 1 2 6).2 2 le_rfl).2.1
    ((C67_layouts 1 2 6).2 2 le_rfl).2.1 (w := .upTo 1) ⟨rfl, rfl⟩ ⟨rfl, rfl⟩ rfl rfl rfl rfl (ud_initial _ _ _ _ B X hw hs) () ()
end

/-- `C75_forward_analytic` for the simple class. -/
example (l : List ℝ) : SameOutput 2 (Block.forward (demoCfg (solver midpoint (stepGrid 0.1))) () ⟨some (demoInput l), none, none, none⟩
      { demoSt with costate := some (enc (layOne 1 1) "p_" 1 ((2 : ℝ) • fun _ => 1)) }).2
    (Block.forward (demoCfg (solver midpoint (stepGrid (2 * 0.1)))) () ⟨some (demoInput l), none, none, none⟩ { demoSt with time := some [0, 2 * 1] }).2 := by
  have hid : ∀ x : ℝ, HasDerivAt (id : ℝ → ℝ) ((fun _ => 1) x) x := fun x => hasDerivAt_id x
  exact C75_forward_analytic (layOne_ok 1 1) (fun n => (C75_classes id (C := Fin 1) (D := Fin 1) (E := Fin 1) (Fin n)).1) (fun _ => none) two_pos midpoint 0.1
    (fun _ => simpleParams id) (fun _ => simpleCostate fun _ => 1) ((C68_exact (F := Fin 1) hid one_pos).1 _ fun _ => by norm_num [weight]) (demo_isBlock _) (demo_isBlock _) rfl rfl rfl rfl rfl
    (s := { demoSt with costate := some (enc (layOne 1 1) "p_" 1 ((2 : ℝ) • fun _ => 1)) }) (s' := { demoSt with time := some [0, 2 * 1] })
    ((C67_layouts 1 1 1).2 2 le_rfl).1 ((C67_layouts 1 1 1).2 2 le_rfl).1 (w := .upTo 1) ⟨rfl, rfl⟩ ⟨rfl, rfl⟩ rfl rfl rfl rfl (demo_initial _ l) () ()

/-- `C75_run_back`: the method of Runge and Kutta, back from the final values of a solution to its initial data. -/
example (B : ℕ) (z : Sys (Fin 5) (Fin B) (Two (Fin 1) (Fin 2) (Fin 6))) : ∃ (y : ℝ → Sys (Fin 5) (Fin B) (Two (Fin 1) (Fin 2) (Fin 6))) (C h₀ : ℝ), y 0 = z ∧ 0 < h₀ ∧ ∀ h, 0 < h → h ≤ h₀ →
    ∃ Y₀ Y, runSys (field (fun _ => upDown Real.tanh) (autodiff (fun _ => upDown Real.tanh) (fun _ => none) fun _ => (0, 0))) (solver rk4 (stepGrid h) [0, 1]) [((y 1).1, - (y 1).2.1, (y 1).2.2)] = .ok [Y₀, Y] ∧
      ‖Y.2.2 - z.2.2‖ ≤ C * h := by
  obtain ⟨y, h1, h2, _⟩ := C69_global regular_tanh (fun _ => none) (fun _ => by norm_num [weight]) (fun _ => (0, 0)) zero_le_one z
  obtain ⟨C, h₀, _, hp, key⟩ := C75_run_back regular_tanh regular_tanh (fun _ => none) (fun _ => by norm_num [weight]) _ (fun _ => (0, 0)) C68_methods.2.2.1 h1
  have hinc : [(0 : ℝ), 1].Pairwise (· < ·) := by simp
  refine ⟨y, C, h₀, h2, hp, fun h hh hle => ?_⟩
  obtain ⟨ys, e1, e2⟩ := key h hh hle (stepGrid h) [1] hinc (by simp) (stepGrid_suits hh 0 [1] hinc)
  obtain ⟨Y₀, l, _, e3, rfl⟩ := List.forall₂_cons_right_iff.1 e2
  obtain ⟨Y, l', e4, e5, rfl⟩ := List.forall₂_cons_right_iff.1 e3
  cases e5
  have := e4.2.2
  rw [show (0 : ℝ) + 1 - 1 = 0 by norm_num, h2] at this
  exact ⟨Y₀, Y, e1, this⟩

end Verif.Scale
