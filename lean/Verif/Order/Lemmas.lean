import Verif.Order.Stages
import Verif.Converge.Grid

/-!
# From the local error to the error at the requested times
-/

namespace Verif.Order
open Set Metric Verif Verif.Converge

variable {E : Type} [NormedAddCommGroup E] [NormedSpace ℝ E]

/-! ## Equations that depend on time -/

/-- The equations with time as a further coordinate. -/
def aug (f : ℝ → E → E) : ℝ × E → ℝ × E := fun z => (1, f z.1 z.2)

theorem comb_aug (c : List ℝ) (ks : List E) (hc : c.length ≤ ks.length) : Evolution.comb c (ks.map fun k => ((1 : ℝ), k)) = (c.sum, Evolution.comb c ks) := by
  unfold Evolution.comb
  induction c generalizing ks with
  | nil => rfl
  | cons a c ih =>
    cases ks with
    | nil => simp at hc
    | cons k ks =>
      simp only [List.map_cons, List.zipWith_cons_cons, List.sum_cons]
      rw [ih ks (by simpa using hc)]
      simp

theorem slopes_aug (f : ℝ → E → E) (h r t : ℝ) (x : E) (ss : List (ℝ × List ℝ)) (ks : List E) (hr : RowSums ss ks.length) :
    slopes (fun _ => aug f) h r (t, x) ss (ks.map fun k => ((1 : ℝ), k)) = (slopes f h t x ss ks).map fun k => ((1 : ℝ), k) := by
  induction ss generalizing ks with
  | nil => rfl
  | cons s ss ih =>
    obtain ⟨hl, hs, hr⟩ := hr
    rw [slopes, slopes, comb_aug _ _ hl, hs]
    have := ih (ks ++ [f (t + s.1 * h) (x + h • Evolution.comb s.2 ks)]) (by simpa using hr)
    rw [List.map_append] at this
    rw [← this]
    simp [aug, mul_comm]

theorem slopes_length (f : ℝ → E → E) (h t : ℝ) (x : E) (ss : List (ℝ × List ℝ)) (ks : List E) : (slopes f h t x ss ks).length = ks.length + ss.length := by
  induction ss generalizing ks with
  | nil => rfl
  | cons s ss ih =>
    rw [slopes, ih]
    simp
    omega

theorem increment_aug {T : Tableau} (hT : T.Consistent) (hr : RowSums T.stages 0) (f : ℝ → E → E) (h r t : ℝ) (x : E) :
    increment T (fun _ => aug f) h r (t, x) = (1, increment T f h t x) := by
  unfold increment
  have := slopes_aug f h r t x T.stages [] hr
  rw [List.map_nil] at this
  rw [this, comb_aug _ _ (by rw [slopes_length, hT.1]; simp), hT.2]

theorem contDiff_stepOf {m : WithTop ℕ∞} (T : Tableau) {g : E → E} (hg : ContDiff ℝ m g) : ContDiff ℝ m (stepOf T g) := by
  have h1 : ContDiff ℝ m fun z : ℝ × E => (fun _ : ℝ => g) z.1 z.2 := hg.comp contDiff_snd
  have h2 := (contDiff_increment T h1).comp (g := fun z : ℝ × ℝ × E => increment T (fun _ => g) z.1 z.2.1 z.2.2) (f := fun z : ℝ × E => (z.1, (0 : ℝ), z.2))
    (contDiff_fst.prodMk (contDiff_const.prodMk contDiff_snd))
  exact contDiff_snd.add (contDiff_fst.smul h2)

/-- The error of one step of a method of order `p`. -/
theorem local_error_order [ProperSpace E] {f : ℝ → E → E} (hf : ContDiff ℝ 5 fun z : ℝ × E => f z.1 z.2) {T : Tableau} {p : ℕ} (hT : HasOrder T p) {a b : ℝ} {y : ℝ → E} (hy : Solves f a b y) :
    ∃ C, 0 ≤ C ∧ ∀ t t', a ≤ t → t ≤ t' → t' ≤ b → t' - t ≤ 1 → ‖y t' - (y t + (t' - t) • increment T f (t' - t) t (y t))‖ ≤ C * (t' - t) ^ (p + 1) := by
  have hg : ContDiff ℝ (4 + 1 : ℕ) (aug f) := contDiff_const.prodMk hf
  have hS := contDiff_stepOf T hg
  have hY : Solves (fun _ => aug f) a b fun t => (t, y t) := fun t ht => (hasDerivWithinAt_id t _).prodMk (hy t ht)
  have hp : ((p + 1 : ℕ) : WithTop ℕ∞) ≤ ((4 + 1 : ℕ) : WithTop ℕ∞) := by
    have := hT.le4
    norm_cast
    omega
  obtain ⟨C, h0, hC⟩ := local_order (hg.of_le hp) (hS.of_le hp) (fun x => order_derivatives hT hg hS x) hY
  refine ⟨C, h0, fun t t' h1 h2 h3 h4 => le_trans ?_ (hC t t' h1 h2 h3 h4)⟩
  refine le_trans (le_of_eq ?_) (norm_snd_le _)
  simp only [stepOf, increment_aug hT.consistent hT.rows]
  rfl

/-! ## Errors on a grid -/

variable {f : ℝ → E → E} {Φ : ℝ → ℝ → E → E} {a b : ℝ} {y : ℝ → E} {L M : ℝ}

/-- A method whose local errors are at most `ε L` times the length of the step. -/
theorem grid_order (hb : Bounds f Φ a b y L M) {h ε : ℝ} (h1 : h ≤ 1) (hε : 0 ≤ ε)
    (hloc : ∀ t t', a ≤ t → t ≤ t' → t' ≤ b → t' - t ≤ h → ‖y t' - (y t + (t' - t) • Φ (t' - t) t (y t))‖ ≤ ε * (L * (t' - t)))
    (hC : ε * Real.exp (L * (b - a)) ≤ 1) {t t' : ℝ} (ht : a ≤ t) (htt : t < t') (hh : t' ≤ t + h) (htb' : t' ≤ b) {x : E} (hx : ‖x - y t‖ ≤ ε * (Real.exp (L * (t - a)) - 1)) :
    ‖x + (t' - t) • Φ (t' - t) t x - y t'‖ ≤ ε * (Real.exp (L * (t' - a)) - 1) := by
  have hL := hb.L0
  have htb : t ≤ b := htt.le.trans htb'
  have hk : t' - t ≤ h := by linarith
  have hk0 : 0 < t' - t := by linarith
  have hle := hloc t t' ht htt.le htb' hk
  have htm : t ∈ Icc a b := ⟨ht, htb⟩
  have hx1 : ‖x - y t‖ ≤ 1 := by
    refine hx.trans (le_trans ?_ hC)
    refine mul_le_mul_of_nonneg_left ?_ hε
    have : Real.exp (L * (t - a)) ≤ Real.exp (L * (b - a)) := Real.exp_le_exp.2 (mul_le_mul_of_nonneg_left (by linarith) hL)
    linarith
  have hl := hb.lip (t' - t) ⟨hk0.le, hk.trans h1⟩ (t' - t) ⟨hk0.le, hk.trans h1⟩ t htm t htm t htm x (y t) hx1 (by simp)
  rw [sub_self, sub_self, abs_zero, max_eq_right (by positivity), max_eq_right (norm_nonneg _)] at hl
  have e : x + (t' - t) • Φ (t' - t) t x - y t' =
      (x - y t) + (t' - t) • (Φ (t' - t) t x - Φ (t' - t) t (y t)) - (y t' - (y t + (t' - t) • Φ (t' - t) t (y t))) := by
    rw [smul_sub]; abel
  rw [e]
  refine (norm_sub_le _ _).trans ?_
  refine (add_le_add ((norm_add_le _ _).trans (add_le_add le_rfl (norm_smul_le _ _))) hle).trans ?_
  rw [Real.norm_of_nonneg hk0.le]
  have hexp : (1 + L * (t' - t)) * Real.exp (L * (t - a)) ≤ Real.exp (L * (t' - a)) := by
    have h2 : Real.exp (L * (t' - a)) = Real.exp (L * (t' - t)) * Real.exp (L * (t - a)) := by
      rw [← Real.exp_add]; congr 1; ring
    rw [h2]
    refine mul_le_mul_of_nonneg_right ?_ (Real.exp_pos _).le
    linarith [Real.add_one_le_exp (L * (t' - t))]
  have h3 : ‖x - y t‖ + (t' - t) * ‖Φ (t' - t) t x - Φ (t' - t) t (y t)‖ ≤ (1 + L * (t' - t)) * (ε * (Real.exp (L * (t - a)) - 1)) := by
    have h4 := mul_le_mul_of_nonneg_left hl hk0.le
    have h5 := mul_le_mul_of_nonneg_left hx (show 0 ≤ 1 + L * (t' - t) by positivity)
    nlinarith
  have h7 := mul_le_mul_of_nonneg_left hexp hε
  nlinarith

/-- A solution between two times and the straight line. -/
theorem straight (h0 : ∀ t x, Φ 0 t x = f t x) (hy : Solves f a b y) (hb : Bounds f Φ a b y L M) {h t t' : ℝ} (ht : a ≤ t) (htt : t ≤ t') (ht' : t' ≤ b) (hm : t' ≤ t + h) {s : ℝ} (hs : s ∈ Icc t t') :
    ‖y s - y t - (s - t) • f t (y t)‖ ≤ L * (1 + M) * h * (s - t) := by
  have hsub : Icc t t' ⊆ Icc a b := Icc_subset_Icc ht ht'
  have htm : t ∈ Icc a b := ⟨ht, htt.trans ht'⟩
  have hd : ∀ s ∈ Icc t t', HasDerivWithinAt (fun s => y s - s • f t (y t)) (f s (y s) - f t (y t)) (Icc t t') s := by
    intro s hs
    have h1 := (hy s (hsub hs)).mono hsub
    have h2 : HasDerivWithinAt (fun s : ℝ => s • f t (y t)) ((1 : ℝ) • f t (y t)) (Icc t t') s := (hasDerivWithinAt_id s _).smul_const _
    rw [one_smul] at h2
    exact h1.sub h2
  have hbound : ∀ s ∈ Icc t t', ‖f s (y s) - f t (y t)‖ ≤ L * (1 + M) * h := by
    intro s hs
    rw [← h0, ← h0 t]
    have hl := hb.lip 0 ⟨le_rfl, zero_le_one⟩ 0 ⟨le_rfl, zero_le_one⟩ s (hsub hs) t htm s (hsub hs) (y s) (y t) (by simp) (by simp)
    refine hl.trans ?_
    rw [mul_assoc]
    refine mul_le_mul_of_nonneg_left ?_ hb.L0
    have hsp := speed_le hy hb htm (hsub hs)
    have hst : |s - t| ≤ h := by rw [abs_of_nonneg (by linarith [hs.1])]; linarith [hs.2]
    have hh : 0 ≤ h := (abs_nonneg _).trans hst
    have hM := hb.M0
    rw [sub_self, abs_zero]
    refine max_le (by positivity) (max_le ?_ ?_)
    · nlinarith
    · refine hsp.trans ?_
      nlinarith [mul_le_mul_of_nonneg_left hst hM]
  have hm := Convex.norm_image_sub_le_of_norm_hasDerivWithin_le hd hbound (convex_Icc t t') (left_mem_Icc.2 htt) hs
  rw [Real.norm_of_nonneg (by linarith [hs.1])] at hm
  refine le_trans (le_of_eq ?_) hm
  congr 1
  rw [sub_smul]
  abel

/-- The values between two grid points: the errors at the grid points and that of the straight line. -/
theorem between_order (h0 : ∀ t x, Φ 0 t x = f t x) (hy : Solves f a b y) (hb : Bounds f Φ a b y L M) {h e t t' τ : ℝ} (ht : a ≤ t) (hτ : t ≤ τ) (hτ' : τ ≤ t') (ht' : t' ≤ b) (hm : t' ≤ t + h)
    {x x' : E} (hx : ‖x - y t‖ ≤ e) (hx' : ‖x' - y t'‖ ≤ e) :
    ‖between t t' x x' τ - y τ‖ ≤ e + 2 * (L * (1 + M)) * h ^ 2 ∧ (τ = t ∨ τ = t' → ‖between t t' x x' τ - y τ‖ ≤ e) := by
  have hM := hb.M0
  have hL := hb.L0
  have hh : 0 ≤ h := by linarith
  have hN : 0 ≤ 2 * (L * (1 + M)) * h ^ 2 := by positivity
  unfold between
  by_cases h1 : τ = t
  · rw [if_pos h1, h1]; exact ⟨by linarith, fun _ => hx⟩
  · by_cases h2 : τ = t'
    · rw [if_neg h1, if_pos h2, h2]; exact ⟨by linarith, fun _ => hx'⟩
    · rw [if_neg h1, if_neg h2]
      refine ⟨?_, fun h => absurd h (not_or.2 ⟨h1, h2⟩)⟩
      have hlt : 0 < t' - t := by
        have : t < τ := lt_of_le_of_ne hτ (Ne.symm h1)
        linarith
      have l0 : 0 ≤ (τ - t) / (t' - t) := div_nonneg (by linarith) hlt.le
      have l1 : (τ - t) / (t' - t) ≤ 1 := (div_le_one hlt).2 (by linarith)
      have lm : (τ - t) / (t' - t) * (t' - t) = τ - t := div_mul_cancel₀ _ hlt.ne'
      have s1 := straight h0 hy hb ht (hτ.trans hτ') ht' hm (s := τ) ⟨hτ, hτ'⟩
      have s2 := straight h0 hy hb ht (hτ.trans hτ') ht' hm (s := t') ⟨hτ.trans hτ', le_rfl⟩
      generalize (τ - t) / (t' - t) = l at *
      have h3 : x + l • (x' - x) - y τ = ((1 - l) • (x - y t) + l • (x' - y t')) + (l • (y t' - y t - (t' - t) • f t (y t)) - (y τ - y t - (τ - t) • f t (y t))) := by
        rw [← lm]
        module
      rw [h3]
      refine (norm_add_le _ _).trans (add_le_add ((norm_add_le _ _).trans ?_) ((norm_sub_le _ _).trans ?_))
      · rw [norm_smul, norm_smul, Real.norm_of_nonneg l0, Real.norm_of_nonneg (by linarith)]
        nlinarith
      · rw [norm_smul, Real.norm_of_nonneg l0]
        have hk : t' - t ≤ h := by linarith
        have hk' : τ - t ≤ h := by linarith
        have n0 : 0 ≤ L * (1 + M) * h := by positivity
        have t1 := mul_le_mul_of_nonneg_left s2 l0
        have t2 : L * (1 + M) * h * (τ - t) ≤ L * (1 + M) * h * h := mul_le_mul_of_nonneg_left hk' n0
        have t3 : l * (L * (1 + M) * h * (t' - t)) = L * (1 + M) * h * (τ - t) := by rw [← lm]; ring
        rw [t3] at t1
        nlinarith

theorem mesh_lt {h t : ℝ} {ts : List ℝ} (hm : Mesh h t ts) : ∀ s ∈ ts, t < s := by
  induction ts generalizing t with
  | nil => intro s hs; cases hs
  | cons t' ts ih =>
    intro s hs
    rcases List.mem_cons.1 hs with rfl | hs
    · exact hm.1
    · exact hm.1.trans (ih hm.2.2 s hs)

/-- The errors at the requested times; those of the grid are in `A`. -/
theorem output_order (h0 : ∀ t x, Φ 0 t x = f t x) (hy : Solves f a b y) (hb : Bounds f Φ a b y L M) {h ε : ℝ} (h1 : h ≤ 1) (hε : 0 ≤ ε)
    (hloc : ∀ t t', a ≤ t → t ≤ t' → t' ≤ b → t' - t ≤ h → ‖y t' - (y t + (t' - t) • Φ (t' - t) t (y t))‖ ≤ ε * (L * (t' - t)))
    (hC : ε * Real.exp (L * (b - a)) ≤ 1) (A : Set ℝ) (t : ℝ) (ht : a ≤ t) (x : E) (hx : ‖x - y t‖ ≤ ε * (Real.exp (L * (t - a)) - 1)) (ts : List ℝ)
    (hm : Mesh h t ts) (hts : ∀ s ∈ t :: ts, s ≤ b) (req : List ℝ) (hs : req.Pairwise (· < ·)) (hr : ∀ τ ∈ req, t ≤ τ ∧ ∃ l ∈ (ts.getLast?), τ ≤ l)
    (hA : ∀ τ ∈ req, τ ∈ A → τ ∈ t :: ts) :
    List.Forall₂ (fun Y τ => ‖Y - y τ‖ ≤ ε * Real.exp (L * (b - a)) + 2 * (L * (1 + M)) * h ^ 2 ∧ (τ ∈ A → ‖Y - y τ‖ ≤ ε * Real.exp (L * (b - a)))) (outputs Φ t x ts req) req := by
  induction ts generalizing t x req with
  | nil =>
    cases req with
    | nil => exact .nil
    | cons τ req => exact absurd (hr τ (by simp)).2 (by simp)
  | cons t' ts ih =>
    rw [outputs]
    have htb : t ≤ b := hts t (by simp)
    have htb' : t' ≤ b := hts t' (by simp)
    have hx' := grid_order hb h1 hε hloc hC ht hm.1 hm.2.1 htb' hx
    have hmono : ∀ s, s ≤ b → ε * (Real.exp (L * (s - a)) - 1) ≤ ε * Real.exp (L * (b - a)) := by
      intro s hs
      refine mul_le_mul_of_nonneg_left ?_ hε
      have : Real.exp (L * (s - a)) ≤ Real.exp (L * (b - a)) := Real.exp_le_exp.2 (mul_le_mul_of_nonneg_left (by linarith) hb.L0)
      linarith
    have hlate : ∀ τ ∈ req.dropWhile (fun τ => decide (τ ≤ t')), t' < τ := by
      intro τ hτ
      have hs' : (req.dropWhile fun τ => decide (τ ≤ t')).Pairwise (· < ·) := hs.sublist (List.dropWhile_sublist _)
      have hne : req.dropWhile (fun τ => decide (τ ≤ t')) ≠ [] := List.ne_nil_of_mem hτ
      have hh := List.head_dropWhile_not (p := fun τ => decide (τ ≤ t')) hne
      simp only [decide_eq_false_iff_not, not_le] at hh
      obtain ⟨u, us, hu⟩ := List.exists_cons_of_ne_nil hne
      rw [hu] at hτ hs'
      have hhu : t' < u := by simpa [hu] using hh
      rcases List.mem_cons.1 hτ with rfl | hτ
      · exact hhu
      · exact hhu.trans ((List.pairwise_cons.1 hs').1 τ hτ)
    conv => rhs; rw [← List.takeWhile_append_dropWhile (p := fun τ => decide (τ ≤ t')) (l := req)]
    refine List.rel_append ?_ (ih t' (ht.trans hm.1.le) _ hx' hm.2.2 (fun s hs => hts s (List.mem_cons_of_mem _ hs)) _ (hs.sublist (List.dropWhile_sublist _)) ?_ ?_)
    · rw [List.forall₂_map_left_iff, List.forall₂_same]
      intro τ hτ
      have h2 : τ ≤ t' := by simpa using List.all_eq_true.1 List.all_takeWhile τ hτ
      have hτ0 := (List.takeWhile_sublist _).mem hτ
      obtain ⟨b1, b2⟩ := between_order h0 hy hb ht (hr τ hτ0).1 h2 htb' hm.2.1 (hx.trans (hmono t htb)) (hx'.trans (hmono t' htb'))
      refine ⟨b1, fun hτA => b2 ?_⟩
      rcases List.mem_cons.1 (hA τ hτ0 hτA) with h | h
      · exact Or.inl h
      · rcases List.mem_cons.1 h with h | h
        · exact Or.inr h
        · exact absurd (mesh_lt hm.2.2 τ h) (not_lt.2 h2)
    · intro τ hτ
      have hτ0 := (List.dropWhile_sublist _).mem hτ
      refine ⟨(hlate τ hτ).le, ?_⟩
      obtain ⟨l, hl, hle⟩ := (hr τ hτ0).2
      cases ts with
      | nil =>
        simp at hl
        linarith [hlate τ hτ]
      | cons u us =>
        rw [List.getLast?_cons_cons] at hl
        exact ⟨l, hl, hle⟩
    · intro τ hτ hτA
      have hlt := hlate τ hτ
      rcases List.mem_cons.1 (hA τ ((List.dropWhile_sublist _).mem hτ) hτA) with h | h
      · exact absurd (h ▸ hm.1.trans hlt) (lt_irrefl _)
      · exact h

omit [NormedSpace ℝ E] in
/-- The same constants with a larger bound. -/
theorem bounds_mono (hb : Bounds f Φ a b y L M) {L' : ℝ} (hL : L ≤ L') : Bounds f Φ a b y L' M where
  L0 := hb.L0.trans hL
  M0 := hb.M0
  lip h hh h' hh' t ht t' ht' s hs x x' hx hx' := (hb.lip h hh h' hh' t ht t' ht' s hs x x' hx hx').trans (mul_le_mul_of_nonneg_right hL (le_max_of_le_left (abs_nonneg _)))
  speed := hb.speed

/-- The requested times lie within the grid. -/
theorem within_grid {ts g : List ℝ} (hi : (a :: ts).Pairwise (· < ·)) (hg2 : (a :: g).getLast? = (a :: ts).getLast?) : ∀ τ ∈ ts, a ≤ τ ∧ ∃ l ∈ g.getLast?, τ ≤ l := by
  intro τ hτ
  have hlast : (a :: g).getLast (by simp) = (a :: ts).getLast (by simp) := by
    rw [List.getLast?_eq_some_getLast (by simp), List.getLast?_eq_some_getLast (by simp)] at hg2
    exact Option.some.inj hg2
  refine ⟨((List.pairwise_cons.1 hi).1 τ hτ).le, ?_⟩
  have hne : ts ≠ [] := List.ne_nil_of_mem hτ
  have hlt : a < (a :: ts).getLast (by simp) := by
    rw [List.getLast_cons hne]
    exact (List.pairwise_cons.1 hi).1 _ (List.getLast_mem _)
  have hgne : g ≠ [] := by
    rintro rfl
    rw [← hlast] at hlt
    simp at hlt
  refine ⟨g.getLast hgne, List.getLast?_eq_some_getLast hgne, ?_⟩
  have e : g.getLast hgne = ts.getLast hne := by
    rw [List.getLast_cons hgne, List.getLast_cons hne] at hlast
    exact hlast
  rw [e]
  obtain ⟨l, r, rfl⟩ := List.append_of_mem hτ
  cases r using List.reverseRecOn with
  | nil => simp
  | append_singleton r x _ =>
    have h2 := (List.pairwise_append.1 (List.pairwise_cons.1 hi).2).2.1
    have : (l ++ τ :: (r ++ [x])).getLast hne = x := by
      have h3 : (l ++ τ :: (r ++ [x])).getLast? = some x := by rw [← List.cons_append, ← List.append_assoc, List.getLast?_concat]
      rw [List.getLast?_eq_some_getLast hne] at h3
      exact Option.some.inj h3
    rw [this]
    exact ((List.pairwise_cons.1 h2).1 x (by simp)).le

/-- All results of a method of order `p` on a grid. -/
theorem outputs_order [ProperSpace E] (hf : ContDiff ℝ 5 fun z : ℝ × E => f z.1 z.2) {T : Tableau} {p : ℕ} (hT : HasOrder T p) (hy : Solves f a b y) :
    ∃ C h₀ : ℝ, 0 ≤ C ∧ 0 < h₀ ∧ ∀ h, 0 < h → h ≤ h₀ → ∀ (ts g : List ℝ), (a :: ts).Pairwise (· < ·) → (∀ τ ∈ a :: ts, τ ≤ b) →
      (a :: g).getLast? = (a :: ts).getLast? → Mesh h a g →
      List.Forall₂ (fun Y τ => ‖Y - y τ‖ ≤ C * (h ^ p + h ^ 2) ∧ (τ ∈ a :: g → ‖Y - y τ‖ ≤ C * h ^ p)) (y a :: outputs (increment T f) a (y a) g ts) (a :: ts) := by
  have h0 : ∀ t x, increment T f 0 t x = f t x := fun t x => increment_zero hT.consistent f t x
  obtain ⟨L, M, hb⟩ := exists_bounds (contDiff_increment T (hf.of_le (by norm_num))) h0 hy
  have hL := hb.L0
  have hM := hb.M0
  have hb := bounds_mono hb (L' := L + 1) (by linarith)
  obtain ⟨C, hC0, hloc⟩ := local_error_order hf hT hy
  have he : 0 < Real.exp ((L + 1) * (b - a)) := Real.exp_pos _
  refine ⟨C * Real.exp ((L + 1) * (b - a)) + 2 * ((L + 1) * (1 + M)), min 1 (1 / (C * Real.exp ((L + 1) * (b - a)) + 1)), by positivity, by positivity,
    fun h hh hle ts g hi hts hg2 hm => ?_⟩
  have h1 := hle.trans (min_le_left _ _)
  have hpow : h ^ p ≤ h := by
    have := pow_le_pow_of_le_one hh.le h1 hT.pos
    rwa [pow_one] at this
  have hsm : C * h ^ p * Real.exp ((L + 1) * (b - a)) ≤ 1 := by
    have h2 := hle.trans (min_le_right _ _)
    rw [le_div_iff₀ (by positivity)] at h2
    have h3 : C * h ^ p * Real.exp ((L + 1) * (b - a)) ≤ C * h * Real.exp ((L + 1) * (b - a)) :=
      mul_le_mul_of_nonneg_right (mul_le_mul_of_nonneg_left hpow hC0) he.le
    nlinarith
  have hloc' : ∀ t t', a ≤ t → t ≤ t' → t' ≤ b → t' - t ≤ h → ‖y t' - (y t + (t' - t) • increment T f (t' - t) t (y t))‖ ≤ C * h ^ p * ((L + 1) * (t' - t)) := by
    intro t t' k1 k2 k3 k4
    refine (hloc t t' k1 k2 k3 (k4.trans h1)).trans ?_
    have k0 : 0 ≤ t' - t := by linarith
    rw [pow_succ, mul_assoc C (h ^ p)]
    refine mul_le_mul_of_nonneg_left ?_ hC0
    have k5 := pow_le_pow_left₀ k0 k4 p
    refine mul_le_mul k5 ?_ k0 (by positivity)
    nlinarith
  have hlast : (a :: g).getLast (by simp) = (a :: ts).getLast (by simp) := by
    rw [List.getLast?_eq_some_getLast (by simp), List.getLast?_eq_some_getLast (by simp)] at hg2
    exact Option.some.inj hg2
  have hgb : ∀ s ∈ a :: g, s ≤ b := fun s hs => (hm.le_last s hs).trans (hlast ▸ hts _ (List.getLast_mem _))
  have key := output_order h0 hy hb h1 (by positivity) hloc' hsm {τ | τ ∈ a :: g} a le_rfl (y a) (by simp) g hm hgb ts (List.pairwise_cons.1 hi).2 (within_grid hi hg2) fun τ _ h => h
  have q0 : 0 ≤ 2 * ((L + 1) * (1 + M)) * h ^ p := by positivity
  have q1 : 0 ≤ C * Real.exp ((L + 1) * (b - a)) * h ^ 2 := by positivity
  refine .cons ⟨by rw [sub_self, norm_zero]; positivity, fun _ => by rw [sub_self, norm_zero]; positivity⟩ (key.imp fun Y τ hY => ⟨hY.1.trans ?_, fun hτ => (hY.2 hτ).trans ?_⟩)
  · nlinarith
  · nlinarith

end Verif.Order
