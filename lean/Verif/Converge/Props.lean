import Verif.Converge.Grid
import Verif.Converge.Smooth
import Verif.Whole.Instance
import Verif.Activation.Props

/-!
# C68: with smaller steps a forward pass comes as close to the exact solution of the shooting equations as desired
-/

namespace Verif.Converge
open Set Verif Verif.Tensor Verif.Assembly Verif.Flow Verif.Whole Verif.Evolution Verif.Models

variable {ι β K K' P R H D Θ Rb : Type}

/-! ## The solvers -/

/-- C68: the methods of the integration library that go from grid point to grid point are consistent: Euler, midpoint and both Runge-Kutta rules of order 4. -/
theorem C68_methods : Converge.euler.Consistent ∧ midpoint.Consistent ∧ Converge.rk4.Consistent ∧ rk38.Consistent := by
  refine ⟨⟨rfl, by simp [Converge.euler]⟩, ⟨rfl, by simp [midpoint]⟩, ⟨rfl, ?_⟩, ⟨rfl, ?_⟩⟩
  · simp [Converge.rk4]; norm_num
  · simp [rk38]; norm_num

/-- C68: one step of each method, as an equation. -/
theorem C68_steps {V : Type} [AddCommGroup V] [Module ℝ V] (f : ℝ → V → V) (h t : ℝ) (y : V) :
    y + h • increment Converge.euler f h t y = y + h • f t y ∧
    y + h • increment midpoint f h t y = y + h • f (t + h / 2) (y + (h / 2) • f t y) ∧
    y + h • increment Converge.rk4 f h t y = rk4Step f h t y ∧
    y + h • increment rk38 f h t y =
      (let k1 := f t y
       let k2 := f (t + h / 3) (y + (h / 3) • k1)
       let k3 := f (t + 2 * h / 3) (y + h • (k2 - (1 / 3 : ℝ) • k1))
       let k4 := f (t + h) (y + h • (k1 - k2 + k3))
       y + (h / 8) • (k1 + (3 : ℝ) • (k2 + k3) + k4)) := by
  refine ⟨?_, ?_, ?_, ?_⟩
  · simp [increment, Converge.euler, slopes, comb]
  · simp [increment, midpoint, slopes, comb, smul_smul]
    congr 2; ring_nf
  · simp only [increment, Converge.rk4, slopes, comb, List.nil_append, List.zipWith_nil_right, List.sum_nil, List.cons_append, List.zipWith_cons_cons, List.sum_cons,
      smul_zero, add_zero, zero_mul, zero_smul, zero_add, one_smul, one_mul, smul_smul, rk4Step, smul_add]
    have e1 : t + 1 / 2 * h = t + h / 2 := by ring
    have e2 : h * (1 / 2) = h / 2 := by ring
    have e3 : h * (1 / 6) = h / 6 := by ring
    have e4 : h * (1 / 3) = h / 6 * 2 := by ring
    rw [e1, e2, e3, e4]
    abel
  · simp only [increment, rk38, slopes, comb, List.nil_append, List.zipWith_nil_right, List.sum_nil, List.cons_append, List.zipWith_cons_cons, List.sum_cons,
      smul_zero, add_zero, zero_mul, one_smul, one_mul, smul_smul, smul_add, smul_sub, neg_smul, neg_div]
    have e1 : t + 1 / 3 * h = t + h / 3 := by ring
    have e2 : t + 2 / 3 * h = t + 2 * h / 3 := by ring
    have e3 : h * (1 / 3) = h / 3 := by ring
    have e4 : h * (1 / 8) = h / 8 := by ring
    have e5 : h * (3 / 8) = h / 8 * 3 := by ring
    rw [e1, e2, e3, e4, e5]
    simp only [smul_neg, smul_smul, e3, neg_add_eq_sub, sub_eq_add_neg, add_assoc]

/-- C68: what a solver does with times that do not increase strictly or with no times at all. -/
theorem C68_bad_times (T : Tableau) (G : List ℝ → List ℝ) [Fintype ι] [Fintype β] [Fintype K] [Fintype K'] (fld : ℝ → Sys2 ι β K K' → Sys2 ι β K K') (z : Sys2 ι β K K') :
    runSys fld (solver T G []) [z] = .error .indexError ∧ ∀ t ts, ¬ (t :: ts).Pairwise (· < ·) → runSys fld (solver T G (t :: ts)) [z] = .error .assertionError := by
  refine ⟨rfl, fun t ts h => ?_⟩
  have : increasing (t :: ts) = false := by
    rw [← Bool.not_eq_true, increasing_iff]
    exact h
  unfold solver
  dsimp only
  rw [if_pos this]
  rfl

variable [Fintype ι] [Fintype β] [Fintype K] [Fintype K']

/-- C68: the grid of a step size.  All steps have that length except the last one, which ends at the last requested time and is not longer. -/
theorem C68_grid {h : ℝ} (hh : 0 < h) (t : ℝ) (ts : List ℝ) (e : ℝ) (he : (t :: ts).getLast? = some e) (hte : t < e) :
    ∃ k : ℕ, stepGrid h (t :: ts) = (List.range (k + 1)).map (fun i : ℕ => (i : ℝ) * h + t) ++ [e] ∧ (k : ℝ) * h + t < e ∧ e ≤ (k : ℝ) * h + t + h := by
  obtain ⟨k, h1, h2⟩ := stepGrid_eq hh t ts (e := e) (by rw [List.getLast?_eq_some_getLast (by simp)] at he; exact Option.some.inj he) hte
  refine ⟨k, ?_, h2⟩
  rw [h1, List.range_succ_eq_map]
  simp [List.range'_eq_map_range, Function.comp_def, add_comm]

/-- C68 for systems of coordinates: the equations are continuously differentiable, `y` is an exact solution.  Then there are a constant and a step size such that for
every grid with at most this step size and every list of times the solver succeeds and at every requested time the distance to the solution is at most the constant times the
step size. -/
theorem C68_converge {fld : ℝ → Sys2 ι β K K' → Sys2 ι β K K'} (hf : ContDiff ℝ 1 fun z : ℝ × Sys2 ι β K K' => fld z.1 z.2) {T : Tableau} (hT : T.Consistent) {a b : ℝ}
    {y : ℝ → Sys2 ι β K K'} (hy : Solves fld a b y) : ∃ C h₀ : ℝ, 0 ≤ C ∧ 0 < h₀ ∧ ∀ h, 0 < h → h ≤ h₀ → ∀ (G : List ℝ → List ℝ) (ts : List ℝ),
      (a :: ts).Pairwise (· < ·) → (∀ τ ∈ a :: ts, τ ≤ b) → Suits h G a ts →
      ∃ ys, runSys fld (solver T G (a :: ts)) [y a] = .ok ys ∧ List.Forall₂ (fun Y τ => ‖Y - y τ‖ ≤ C * h) ys (a :: ts) := by
  obtain ⟨L, M, hb⟩ := exists_bounds (contDiff_increment T hf) (fun t x => increment_zero hT fld t x) hy
  have hM := hb.M0
  have hpos : 0 < (1 + M) * Real.exp (L * (b - a)) := by positivity
  refine ⟨(1 + M) * Real.exp (L * (b - a)) + M, min 1 (1 / ((1 + M) * Real.exp (L * (b - a)))), by positivity, by positivity, fun h h0 hle G ts hi hts hg => ?_⟩
  refine run_error hT hy hb h0 (hle.trans (min_le_left _ _)) ?_ hi hg hts
  have := hle.trans (min_le_right _ _)
  rw [le_div_iff₀ hpos] at this
  linarith

/-- C68: the exact solution is determined by its initial value. -/
theorem C68_unique {fld : ℝ → Sys2 ι β K K' → Sys2 ι β K K'} (hf : ContDiff ℝ 1 fun z : ℝ × Sys2 ι β K K' => fld z.1 z.2) {a b : ℝ} {y y' : ℝ → Sys2 ι β K K'} (hy : Solves fld a b y)
    (hy' : Solves fld a b y') (h0 : y a = y' a) : ∀ t ∈ Icc a b, y t = y' t := by
  intro t ht
  rcases eq_or_lt_of_le ht.1 with rfl | hat
  · exact h0
  obtain ⟨C, h1, hC, hp, H⟩ := C68_converge hf C68_methods.1 hy
  obtain ⟨C', h1', hC', hp', H'⟩ := C68_converge hf C68_methods.1 hy'
  have hi : [a, t].Pairwise (· < ·) := by simpa using hat
  have hts : ∀ τ ∈ [a, t], τ ≤ b := by simpa using ⟨ht.1.trans ht.2, ht.2⟩
  have key : ∀ h, 0 < h → h ≤ min h1 h1' → ‖y t - y' t‖ ≤ (C + C') * h := by
    intro h h0' hle
    obtain ⟨ys, e1, e2⟩ := H h h0' (hle.trans (min_le_left _ _)) (stepGrid h) [t] hi hts (stepGrid_suits h0' a [t] hi)
    obtain ⟨ys', e1', e2'⟩ := H' h h0' (hle.trans (min_le_right _ _)) (stepGrid h) [t] hi hts (stepGrid_suits h0' a [t] hi)
    rw [h0, e1'] at e1
    obtain rfl := Except.ok.inj e1
    obtain ⟨Y₀, l, _, e3, rfl⟩ := List.forall₂_cons_right_iff.1 e2
    obtain ⟨Y, l', e4, _, rfl⟩ := List.forall₂_cons_right_iff.1 e3
    have e2' := (List.forall₂_cons.1 (List.forall₂_cons.1 e2').2).1
    have : y t - y' t = (Y - y' t) - (Y - y t) := by abel
    rw [this]
    refine (norm_sub_le _ _).trans ?_
    linarith
  have hz : ‖y t - y' t‖ ≤ 0 := by
    refine le_of_forall_pos_le_add fun ε hε => ?_
    have hm : 0 < min (min h1 h1') (ε / (C + C' + 1)) := by positivity
    refine (key _ hm (min_le_left _ _)).trans ?_
    rw [zero_add]
    calc (C + C') * min (min h1 h1') (ε / (C + C' + 1)) ≤ (C + C' + 1) * (ε / (C + C' + 1)) := by
          refine mul_le_mul (by linarith) (min_le_right _ _) hm.le (by positivity)
      _ = ε := by field_simp
  exact sub_eq_zero.1 (norm_le_zero_iff.1 hz)

/-! ## Forward passes -/

/-- The output tensor `t` of a block is within `ε` of the data of the solution `y`: at the final time, or at all times of a vector; for all samples and all coordinates of
the output. -/
def Near {L : Lay K'} {n B : Nat} (key : String) (ε : ℝ) (y : ℝ → Sys2 (Fin n) (Fin B) K K') (t : Tensor ℝ) : Block.When ℝ → Prop
  | .upTo e => ∀ b k, L.key k = key → ∃ v, t.get? (b.1 :: L.idx k) = some v ∧ |v - (y e).2.2 (b, k)| ≤ ε
  | .vector ts => ∀ (i : Nat) (h : i < ts.length) b k, L.key k = key → ∃ v, t.get? (i :: b.1 :: L.idx k) = some v ∧ |v - (y ts[i]).2.2 (b, k)| ≤ ε

theorem norm_data {z z' : Sys2 ι β K K'} (k : β × K') : |z.2.2 k - z'.2.2 k| ≤ ‖z - z'‖ := by
  have h1 : ‖(z - z').2.2 k‖ ≤ ‖(z - z').2.2‖ := norm_le_pi_norm _ k
  have h2 : ‖(z - z').2.2‖ ≤ ‖z - z'‖ := (norm_snd_le (z - z').2).trans (norm_snd_le (z - z'))
  exact h1.trans h2

/-- The end of a forward pass when the method has come close. -/
theorem report_near (L : Lay K) {L' : Lay K'} (hL' : L'.Ok) (nm : String) {key : String} {sh : List Nat} (hkey : (key, sh) ∈ L'.names) {n B : Nat} (s : Block.St ℝ ℝ Θ) (w : Block.When ℝ) {a : ℝ}
    {ts : List ℝ} (hw : w.times = a :: ts) {ε : ℝ} {y : ℝ → Sys2 (Fin n) (Fin B) K K'} {ys : List (Sys2 (Fin n) (Fin B) K K')}
    (h : List.Forall₂ (fun Y τ => ‖Y - y τ‖ ≤ ε) ys (a :: ts)) :
    ∃ o t, (report L L' nm key sh s w (.ok ys)).2 = .ok o ∧ o.result = .tensor t ∧ Near (L := L') key ε y t w := by
  cases w with
  | upTo e =>
    obtain ⟨rfl, rfl⟩ : 0 = a ∧ [e] = ts := List.cons.inj hw
    obtain ⟨Y₀, l, _, h1, rfl⟩ := List.forall₂_cons_right_iff.1 h
    obtain ⟨Y, l', h2, h3, rfl⟩ := List.forall₂_cons_right_iff.1 h1
    cases h3
    refine ⟨outEnd L L' nm key sh Y, _, rfl, rfl, fun b k hk => ?_⟩
    obtain ⟨t, h1, _, h3⟩ := (C67_output L hL' nm hkey (n := n) b k hk).1 Y
    obtain rfl := Block.Result.tensor.inj h1
    exact ⟨_, h3, (norm_data _).trans h2⟩
  | vector v =>
    have hv : v = a :: ts := hw
    subst hv
    refine ⟨outTimes L L' nm key sh ys, _, rfl, rfl, fun i hi b k hk => ?_⟩
    obtain ⟨t, h1, _, h3⟩ := (C67_output L hL' nm hkey (n := n) b k hk).2 ys
    obtain rfl := Block.Result.tensor.inj h1
    have hi' : i < ys.length := by rw [h.length_eq]; exact hi
    exact ⟨_, h3 i hi', (norm_data _).trans (h.get hi' hi)⟩

/-- C68: a forward pass of a block (without RNN mode) with a grid of steps of at most `h` returns the data of the exact solution of the shooting equations up to a constant times `h`; the
constant depends on the equations, the solution and the method, not on the step size, the requested times or the block. -/
theorem C68_forward {c : Cls K K' P R} (hL : c.lay.Ok) (hL' : c.dataLay.Ok) (hi : Indep c) {n B : Nat} {r0 : R}
    (hf : ContDiff ℝ 1 fun z : ℝ × Sys2 (Fin n) (Fin B) K K' => Evolution.field2 c.rhs c.dataRhs (modeOf c n r0) z.1 z.2) {T : Tableau} (hT : T.Consistent) {a b : ℝ}
    {y : ℝ → Sys2 (Fin n) (Fin B) K K'} (hy : Solves (Evolution.field2 c.rhs c.dataRhs (modeOf c n r0)) a b y) :
    ∃ C h₀ : ℝ, 0 ≤ C ∧ 0 < h₀ ∧ ∀ h, 0 < h → h ≤ h₀ → ∀ (G : List ℝ → List ℝ)
      (icfg : Θ → Nat → Integrand.Cfg ℝ (Trip ℝ) (Par P R) (TDicts ℝ) ℝ R H D) (s0 : Integrand.St ℝ (Par P R) ℝ H D × (Nat → R × R)) (cfg : Block.Cfg ℝ ℝ Θ Rb),
      IsBlock c (solver T G) icfg s0 cfg → s0.1.useRnn = false → s0.1.external = false →
      ∀ (s : Block.St ℝ ℝ Θ), DimOk c.dataLay s.dataDim → ∀ (w : Block.When ℝ) (ts : List ℝ), Block.Is s w → w.times = a :: ts →
      (a :: ts).Pairwise (· < ·) → (∀ τ ∈ a :: ts, τ ≤ b) → Suits h G a ts →
      s.state = some (enc c.lay "" n (y a).1) → s.costate = some (enc c.lay "p_" n (y a).2.1) →
      ∀ X : Tensor ℝ, cfg.initialData X = .ok (enc c.dataLay "" B (y a).2.2) → ∀ r,
      ∃ o t, (Block.forward cfg r ⟨some X, none, none, none⟩ s).2 = .ok o ∧ o.result = .tensor t ∧ Near (L := c.dataLay) cfg.outKey (C * h) y t w := by
  obtain ⟨C, h₀, hC, hp, key⟩ := C68_converge hf hT hy
  refine ⟨C, h₀, hC, hp, fun h hh hle G icfg s0 cfg hb hu he s hdd w ts hw hwt hinc hts hg hq hpp X hX r => ?_⟩
  obtain ⟨sh, hkey⟩ := hb.key
  obtain ⟨ys, e1, e2⟩ := key h hh hle G ts hinc hts hg
  rw [C67_forward hL hL' hi hb hu he hdd hw hq hpp hX hkey r r0, hwt, e1]
  exact report_near _ hL' _ hkey s w hwt e2

end Verif.Converge
