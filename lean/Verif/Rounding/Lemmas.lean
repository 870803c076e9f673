import Verif.Rounding.Spec
import Verif.Converge.Grid
import Mathlib.Topology.MetricSpace.ProperSpace.Lemmas

/-!
# Steps with perturbations
-/

namespace Verif.Rounding
open Set Verif Verif.Flow Verif.Whole Verif.Evolution Verif.Converge

section
variable {E : Type} [NormedAddCommGroup E] [NormedSpace ℝ E]

/-- The slopes when argument and value of the evaluation with number `i` are off by `w i`. -/
def slopesP (f : ℝ → E → E) (h t : ℝ) (y : E) (w : ℕ → E × E) : List (ℝ × List ℝ) → List E → List E
  | [], ks => ks
  | s :: ss, ks => slopesP f h t y w ss (ks ++ [f (t + s.1 * h) (y + h • comb s.2 ks + (w ks.length).1) + (w ks.length).2])

theorem slopesP_zero (f : ℝ → E → E) (h t : ℝ) (y : E) (ss : List (ℝ × List ℝ)) (ks : List E) : slopesP f h t y 0 ss ks = slopes f h t y ss ks := by
  induction ss generalizing ks with
  | nil => rfl
  | cons s ss ih => simp only [slopesP, slopes, Pi.zero_apply, Prod.fst_zero, Prod.snd_zero, add_zero, ih]

theorem slopesP_congr (f : ℝ → E → E) (h t : ℝ) (y : E) {w w' : ℕ → E × E} (ss : List (ℝ × List ℝ)) (ks : List E) (hw : ∀ i, ks.length ≤ i → i < ks.length + ss.length → w i = w' i) :
    slopesP f h t y w ss ks = slopesP f h t y w' ss ks := by
  induction ss generalizing ks with
  | nil => rfl
  | cons s ss ih =>
    rw [slopesP, slopesP, hw ks.length le_rfl (by simp)]
    refine ih _ fun i h1 h2 => hw i ?_ ?_
    · simp at h1; omega
    · simp at h2 ⊢; omega

/-- Finitely many perturbations as a sequence. -/
def ext {S : ℕ} (w : Fin S → E × E) (i : ℕ) : E × E := if h : i < S then w ⟨i, h⟩ else 0

omit [NormedSpace ℝ E] in
theorem ext_zero {S : ℕ} : ext (0 : Fin S → E × E) = 0 := by
  funext i
  unfold ext
  split <;> rfl

theorem contDiff_ext {m : WithTop ℕ∞} {S : ℕ} (i : ℕ) : ContDiff ℝ m fun w : Fin S → E × E => ext w i := by
  unfold ext
  by_cases h : i < S
  · simp only [dif_pos h]
    exact contDiff_apply ℝ (E × E) _
  · simp only [dif_neg h]
    exact contDiff_const

/-- The increment with perturbations. -/
def incrementP (T : Tableau) (f : ℝ → E → E) (h t : ℝ) (x : E × (Fin T.stages.length → E × E)) : E := comb T.weights (slopesP f h t x.1 (ext x.2) T.stages [])

theorem incrementP_zero (T : Tableau) (f : ℝ → E → E) (h t : ℝ) (x : E) : incrementP T f h t (x, 0) = increment T f h t x := by
  unfold incrementP increment
  rw [ext_zero, slopesP_zero]

theorem contDiff_slopesP {m : WithTop ℕ∞} {S : ℕ} {f : ℝ → E → E} (hf : ContDiff ℝ m fun z : ℝ × E => f z.1 z.2) (ss : List (ℝ × List ℝ)) (ks : List (ℝ × ℝ × E × (Fin S → E × E) → E))
    (hk : ∀ k ∈ ks, ContDiff ℝ m k) : ∃ ls : List (ℝ × ℝ × E × (Fin S → E × E) → E), (∀ l ∈ ls, ContDiff ℝ m l) ∧
      ∀ z : ℝ × ℝ × E × (Fin S → E × E), slopesP f z.1 z.2.1 z.2.2.1 (ext z.2.2.2) ss (ks.map fun k => k z) = ls.map fun l => l z := by
  induction ss generalizing ks with
  | nil => exact ⟨ks, hk, fun z => rfl⟩
  | cons s ss ih =>
    have he : ContDiff ℝ m fun z : ℝ × ℝ × E × (Fin S → E × E) => ext z.2.2.2 ks.length := (contDiff_ext ks.length).comp contDiff_snd.snd.snd
    have hnew : ContDiff ℝ m fun z : ℝ × ℝ × E × (Fin S → E × E) =>
        f (z.2.1 + s.1 * z.1) (z.2.2.1 + z.1 • comb s.2 (ks.map fun k => k z) + (ext z.2.2.2 ks.length).1) + (ext z.2.2.2 ks.length).2 := by
      have h1 : ContDiff ℝ m fun z : ℝ × ℝ × E × (Fin S → E × E) => z.2.1 + s.1 * z.1 := by fun_prop
      have h2 : ContDiff ℝ m fun z : ℝ × ℝ × E × (Fin S → E × E) => z.2.2.1 + z.1 • comb s.2 (ks.map fun k => k z) + (ext z.2.2.2 ks.length).1 :=
        (contDiff_snd.snd.fst.add (contDiff_fst.smul (contDiff_comb s.2 ks hk))).add he.fst
      exact (hf.comp (h1.prodMk h2)).add he.snd
    obtain ⟨ls, h1, h2⟩ := ih (ks ++ [fun z => f (z.2.1 + s.1 * z.1) (z.2.2.1 + z.1 • comb s.2 (ks.map fun k => k z) + (ext z.2.2.2 ks.length).1) + (ext z.2.2.2 ks.length).2])
      (by
        intro k h
        rcases List.mem_append.1 h with h | h
        · exact hk k h
        · rw [List.mem_singleton.1 h]; exact hnew)
    refine ⟨ls, h1, fun z => ?_⟩
    rw [← h2 z, slopesP, List.map_append, List.length_map]
    rfl

theorem contDiff_incrementP {m : WithTop ℕ∞} (T : Tableau) {f : ℝ → E → E} (hf : ContDiff ℝ m fun z : ℝ × E => f z.1 z.2) :
    ContDiff ℝ m fun z : ℝ × ℝ × E × (Fin T.stages.length → E × E) => incrementP T f z.1 z.2.1 z.2.2 := by
  obtain ⟨ls, h1, h2⟩ := contDiff_slopesP (S := T.stages.length) hf T.stages [] (by simp)
  have : (fun z : ℝ × ℝ × E × (Fin T.stages.length → E × E) => incrementP T f z.1 z.2.1 z.2.2) = fun z => comb T.weights (ls.map fun l => l z) := by
    funext z
    unfold incrementP
    rw [← h2 z]
    rfl
  rw [this]
  exact contDiff_comb _ _ h1

/-- How much perturbations change a step near a solution. -/
theorem exists_lip [ProperSpace E] {f : ℝ → E → E} (hf : ContDiff ℝ 1 fun z : ℝ × E => f z.1 z.2) {T : Tableau} (hT : T.Consistent) {a b : ℝ} {y : ℝ → E} (hy : Solves f a b y) :
    ∃ L, 0 ≤ L ∧ ∀ h ∈ Icc (0 : ℝ) 1, ∀ t ∈ Icc a b, ∀ (x x' : E) (w : Fin T.stages.length → E × E), ‖x - y t‖ ≤ 1 → ‖x' - y t‖ ≤ 1 → ‖w‖ ≤ 1 →
      ‖incrementP T f h t (x, w) - increment T f h t x'‖ ≤ L * max ‖x - x'‖ ‖w‖ := by
  have hΦ : ContDiff ℝ 1 fun z : ℝ × ℝ × E × (Fin T.stages.length → E × E) => (incrementP T f z.1 z.2.1 z.2.2, (0 : Fin T.stages.length → E × E)) := (contDiff_incrementP T hf).prodMk contDiff_const
  have hY : Solves (fun t (x : E × (Fin T.stages.length → E × E)) => (incrementP T f 0 t x, (0 : Fin T.stages.length → E × E))) a b fun t => (y t, 0) := by
    intro t ht
    have := (hy t ht).prodMk (hasDerivWithinAt_const t (Icc a b) (0 : Fin T.stages.length → E × E))
    rw [← increment_zero hT f t (y t), ← incrementP_zero] at this
    exact this
  obtain ⟨L, M, hb⟩ := exists_bounds (Φ := fun h t (x : E × (Fin T.stages.length → E × E)) => (incrementP T f h t x, (0 : Fin T.stages.length → E × E))) hΦ (fun _ _ => rfl) hY
  refine ⟨L, hb.L0, fun h hh t ht x x' w hx hx' hw => ?_⟩
  have hl := hb.lip h hh h hh t ht t ht t ht (x, w) (x', 0) (by
    show ‖(x - y t, w - 0)‖ ≤ 1
    rw [sub_zero]
    exact max_le hx hw) (by
    show ‖(x' - y t, (0 : Fin T.stages.length → E × E) - 0)‖ ≤ 1
    rw [sub_zero]
    exact max_le hx' (by simp))
  rw [sub_self, sub_self, abs_zero, max_eq_right (by positivity), max_eq_right (norm_nonneg _)] at hl
  rw [incrementP_zero] at hl
  refine (norm_fst_le _).trans (hl.trans (le_of_eq ?_))
  show L * ‖(x - x', w - 0)‖ = _
  rw [sub_zero]
  rfl

/-- The distance between a step with and one without perturbations. -/
theorem step_near {f : ℝ → E → E} {T : Tableau} {a b : ℝ} {y : ℝ → E} {L : ℝ} (hL : 0 ≤ L)
    (hlip : ∀ h ∈ Icc (0 : ℝ) 1, ∀ t ∈ Icc a b, ∀ (x x' : E) (w : Fin T.stages.length → E × E), ‖x - y t‖ ≤ 1 → ‖x' - y t‖ ≤ 1 → ‖w‖ ≤ 1 →
      ‖incrementP T f h t (x, w) - increment T f h t x'‖ ≤ L * max ‖x - x'‖ ‖w‖)
    {r : ℝ} (hr : 0 ≤ r) (hr1 : r ≤ 1) (hre : r * (2 * Real.exp (L * (b - a))) ≤ 1 / 2) {t t' : ℝ} (ht : a ≤ t) (htt : t < t') (h1 : t' - t ≤ 1) (htb : t' ≤ b) {z u : E} {w : Fin T.stages.length → E × E}
    (hw : ‖w‖ ≤ r) (hu : ‖u - y t‖ ≤ 1 / 2) (hz : ‖z - u‖ ≤ r * (2 * Real.exp (L * (t - a)) - 1)) :
    ‖z + (t' - t) • incrementP T f (t' - t) t (z, w) - (u + (t' - t) • increment T f (t' - t) t u)‖ ≤ r * (2 * Real.exp (L * (t' - a)) - 1) := by
  have hk0 : 0 < t' - t := by linarith
  have htm : t ∈ Icc a b := ⟨ht, by linarith⟩
  have hexp : Real.exp (L * (t - a)) ≤ Real.exp (L * (b - a)) := Real.exp_le_exp.2 (mul_le_mul_of_nonneg_left (by linarith [htm.2]) hL)
  have hz1 : ‖z - u‖ ≤ 1 / 2 := by
    refine hz.trans (le_trans ?_ hre)
    refine mul_le_mul_of_nonneg_left ?_ hr
    linarith
  have hzy : ‖z - y t‖ ≤ 1 := by
    have : z - y t = (z - u) + (u - y t) := by abel
    rw [this]
    refine (norm_add_le _ _).trans ?_
    linarith
  have hl := hlip (t' - t) ⟨hk0.le, h1⟩ t htm z u w hzy (by linarith) (hw.trans hr1)
  have e : z + (t' - t) • incrementP T f (t' - t) t (z, w) - (u + (t' - t) • increment T f (t' - t) t u) =
      (z - u) + (t' - t) • (incrementP T f (t' - t) t (z, w) - increment T f (t' - t) t u) := by
    rw [smul_sub]; abel
  rw [e]
  refine (norm_add_le _ _).trans ?_
  rw [norm_smul, Real.norm_of_nonneg hk0.le]
  have hm : max ‖z - u‖ ‖w‖ ≤ ‖z - u‖ + r := max_le (by linarith) (by linarith [norm_nonneg (z - u)])
  have h2 := mul_le_mul_of_nonneg_left (hl.trans (mul_le_mul_of_nonneg_left hm hL)) hk0.le
  have hex : (1 + L * (t' - t)) * Real.exp (L * (t - a)) ≤ Real.exp (L * (t' - a)) := by
    have h2 : Real.exp (L * (t' - a)) = Real.exp (L * (t' - t)) * Real.exp (L * (t - a)) := by
      rw [← Real.exp_add]; congr 1; ring
    rw [h2]
    refine mul_le_mul_of_nonneg_right ?_ (Real.exp_pos _).le
    linarith [Real.add_one_le_exp (L * (t' - t))]
  have h3 := mul_le_mul_of_nonneg_left hz (show 0 ≤ 1 + L * (t' - t) by positivity)
  have h4 := mul_le_mul_of_nonneg_left hex hr
  nlinarith

/-- Values between grid points. -/
theorem between_near {t t' τ : ℝ} (hτ : t ≤ τ) (hτ' : τ ≤ t') {z z' u u' : E} {e : ℝ} (h1 : ‖z - u‖ ≤ e) (h2 : ‖z' - u'‖ ≤ e) : ‖between t t' z z' τ - between t t' u u' τ‖ ≤ e := by
  unfold between
  by_cases k1 : τ = t
  · rwa [if_pos k1, if_pos k1]
  · by_cases k2 : τ = t'
    · rwa [if_neg k1, if_neg k1, if_pos k2, if_pos k2]
    · rw [if_neg k1, if_neg k1, if_neg k2, if_neg k2]
      have hlt : 0 < t' - t := by
        have : t < τ := lt_of_le_of_ne hτ (Ne.symm k1)
        linarith
      have l0 : 0 ≤ (τ - t) / (t' - t) := div_nonneg (by linarith) hlt.le
      have l1 : (τ - t) / (t' - t) ≤ 1 := (div_le_one hlt).2 (by linarith)
      generalize (τ - t) / (t' - t) = l at *
      have h3 : z + l • (z' - z) - (u + l • (u' - u)) = (1 - l) • (z - u) + l • (z' - u') := by module
      rw [h3]
      refine (norm_add_le _ _).trans ?_
      rw [norm_smul, norm_smul, Real.norm_of_nonneg l0, Real.norm_of_nonneg (by linarith)]
      nlinarith
end

/-! ## Inexact runs -/

variable {ι β K K' : Type} [Fintype ι] [Fintype β] [Fintype K] [Fintype K']

theorem inexact_stages (fld : ℝ → Sys2 ι β K K' → Sys2 ι β K K') {δ η : ℝ} (hδ : 0 ≤ δ) (hη : 0 ≤ η) (t h : ℝ) (cur : List ℝ → ℝ) (y : Sys2 ι β K K') (next : List (List ℝ → ℝ) → ℕ → Method ℝ ℝ)
    (res : Py (List (Sys2 ι β K K'))) (ss : List (ℝ × List ℝ)) (zs vs : List (Sys2 ι β K K')) (ks : List (List ℝ → ℝ)) (hc : Holds cur zs y) (hk : List.Forall₂ (fun g v => Holds g zs v) ks vs)
    (hrun : Inexact fld δ η (stagesProg t h cur next ss ks zs.length) zs res) :
    ∃ more ks' w, (∀ i, ‖(w i).1‖ ≤ η ∧ ‖(w i).2‖ ≤ δ) ∧ List.Forall₂ (fun g v => Holds g (zs ++ more) v) ks' (slopesP fld h t y w ss vs) ∧
      Inexact fld δ η (next ks' (zs ++ more).length) (zs ++ more) res := by
  induction ss generalizing zs vs ks with
  | nil => exact ⟨[], ks, 0, fun i => by simpa using ⟨hη, hδ⟩, by simpa [slopesP] using hk, by simpa [stagesProg] using hrun⟩
  | cons s ss ih =>
    rw [stagesProg] at hrun
    cases hrun with
    | eval x k hx hkk hrest =>
      rw [(holds_step hc hk h s.2).combine] at hx
      have hlen : (zs ++ [k]).length = zs.length + 1 := by simp
      rw [← hlen] at hrest
      obtain ⟨more, ks', w, hw, h1, h2⟩ := ih (zs ++ [k]) (vs ++ [k]) _ (hc.more _) (List.rel_append (Forall₂.holds_more hk _) (.cons (holds_get zs _) .nil)) hrest
      refine ⟨[k] ++ more, ks', Function.update w vs.length (x - (y + h • comb s.2 vs), k - fld (t + s.1 * h) x), ?_, ?_, by rwa [← List.append_assoc]⟩
      · intro i
        by_cases hi : i = vs.length
        · subst hi
          rw [Function.update_self]
          exact ⟨hx, hkk⟩
        · rw [Function.update_of_ne hi]
          exact hw i
      · rw [← List.append_assoc, slopesP, Function.update_self]
        have e : fld (t + s.1 * h) (y + h • comb s.2 vs + (x - (y + h • comb s.2 vs))) + (k - fld (t + s.1 * h) x) = k := by
          rw [add_sub_cancel, add_sub_cancel]
        dsimp only
        rw [e, slopesP_congr fld h t y ss (vs ++ [k]) (w' := w) fun i hi _ => Function.update_of_ne (by simp at hi; omega) _ _]
        exact h1

theorem norm_pert {S : ℕ} {E : Type} [NormedAddCommGroup E] {w : ℕ → E × E} {δ η r : ℝ} (hw : ∀ i, ‖(w i).1‖ ≤ η ∧ ‖(w i).2‖ ≤ δ) (h1 : δ ≤ r) (h2 : η ≤ r) (hr : 0 ≤ r) :
    ‖fun i : Fin S => w i‖ ≤ r :=
  (pi_norm_le_iff_of_nonneg hr).2 fun i => max_le ((hw i).1.trans h2) ((hw i).2.trans h1)

theorem inexact_loop {fld : ℝ → Sys2 ι β K K' → Sys2 ι β K K'} {T : Tableau} {a b : ℝ} {y : ℝ → Sys2 ι β K K'} {L : ℝ} (hL : 0 ≤ L)
    (hlip : ∀ h ∈ Icc (0 : ℝ) 1, ∀ t ∈ Icc a b, ∀ (x x' : Sys2 ι β K K') (w : Fin T.stages.length → Sys2 ι β K K' × Sys2 ι β K K'), ‖x - y t‖ ≤ 1 → ‖x' - y t‖ ≤ 1 → ‖w‖ ≤ 1 →
      ‖incrementP T fld h t (x, w) - increment T fld h t x'‖ ≤ L * max ‖x - x'‖ ‖w‖)
    {δ η r : ℝ} (hδ : 0 ≤ δ) (hη : 0 ≤ η) (hδr : δ ≤ r) (hηr : η ≤ r) (hr1 : r ≤ 1) (hre : r * (2 * Real.exp (L * (b - a))) ≤ 1 / 2) {h : ℝ} (h1 : h ≤ 1)
    (grid : List ℝ) (t : ℝ) (ht : a ≤ t) (hm : Mesh h t grid) (hgb : ∀ s ∈ t :: grid, s ≤ b) (z u : Sys2 ι β K K') (hz : ‖z - u‖ ≤ r * (2 * Real.exp (L * (t - a)) - 1))
    (hu : List.Forall₂ (fun Y s => ‖Y - y s‖ ≤ 1 / 2) (gridValues (increment T fld) t u grid) (t :: grid))
    (cur : List ℝ → ℝ) (req : List ℝ) (hs : req.Pairwise (· < ·)) (hreq : ∀ τ ∈ req, t ≤ τ) (hlast : ∀ τ ∈ req, ∃ l ∈ grid.getLast?, τ ≤ l) (outs : List (List ℝ → ℝ)) (zs os : List (Sys2 ι β K K'))
    (hc : Holds cur zs z) (ho : List.Forall₂ (fun g v' => ∃ v, Holds g zs v ∧ ‖v - v'‖ ≤ r * (2 * Real.exp (L * (b - a)))) outs os) {res : Py (List (Sys2 ι β K K'))}
    (hrun : Inexact fld δ η (solverLoop T grid zs.length cur t req outs) zs res) :
    ∃ Ys, res = .ok Ys ∧ List.Forall₂ (fun Y Y' => ‖Y - Y'‖ ≤ η + r * (2 * Real.exp (L * (b - a)))) Ys (os ++ outputs (increment T fld) t u grid req) := by
  have hr : 0 ≤ r := hδ.trans hδr
  have hmono : ∀ s, s ≤ b → r * (2 * Real.exp (L * (s - a)) - 1) ≤ r * (2 * Real.exp (L * (b - a))) := by
    intro s hs
    refine mul_le_mul_of_nonneg_left ?_ hr
    have : Real.exp (L * (s - a)) ≤ Real.exp (L * (b - a)) := Real.exp_le_exp.2 (mul_le_mul_of_nonneg_left (by linarith) hL)
    linarith
  induction grid generalizing t z u cur req outs zs os with
  | nil =>
    rw [solverLoop] at hrun
    cases hrun with
    | done hd =>
      refine ⟨_, rfl, ?_⟩
      rw [outputs, List.append_nil]
      clear hs hreq hlast hc
      rename_i Ys
      induction ho generalizing Ys with
      | nil => cases hd; exact .nil
      | cons hv _ ih =>
        cases hd with
        | cons h1 h2 =>
          refine .cons ?_ (ih h2)
          obtain ⟨v, hv1, hv2⟩ := hv
          rw [hv1.combine] at h1
          rename_i Y _ v' _ _ _ _
          have : ∀ A B C : Sys2 ι β K K', A - C = (A - B) + (B - C) := fun A B C => by abel
          rw [this _ v _]
          exact (norm_add_le _ _).trans (add_le_add h1 hv2)
  | cons t' grid ih =>
    rw [solverLoop] at hrun
    obtain ⟨more, ks', w, hw, hks, hrest⟩ := inexact_stages fld hδ hη t (t' - t) cur z _ res T.stages zs [] [] hc .nil hrun
    have hn := holds_step (hc.more more) hks (t' - t) T.weights
    have hwn := norm_pert (S := T.stages.length) hw hδr hηr hr
    have einc : comb T.weights (slopesP fld (t' - t) t z w T.stages []) = incrementP T fld (t' - t) t (z, fun i : Fin T.stages.length => w i) := by
      unfold incrementP
      rw [slopesP_congr fld (t' - t) t z T.stages [] (w' := ext fun i : Fin T.stages.length => w i) fun i _ hi => ?_]
      unfold ext
      rw [dif_pos (by simpa using hi)]
    rw [einc] at hn
    have htb : t ≤ b := hgb t (by simp)
    have htb' : t' ≤ b := hgb t' (by simp)
    have hu0 : ‖u - y t‖ ≤ 1 / 2 := (List.forall₂_cons.1 hu).1
    have hz' := step_near hL hlip hr hr1 hre ht hm.1 (by linarith [hm.2.1]) htb' hwn hu0 hz
    have hlate : ∀ τ ∈ req.dropWhile (fun τ => decide (τ ≤ t')), t' < τ := by
      intro τ hτ
      have hs' : (req.dropWhile fun τ => decide (τ ≤ t')).Pairwise (· < ·) := hs.sublist (List.dropWhile_sublist _)
      have hne : req.dropWhile (fun τ => decide (τ ≤ t')) ≠ [] := List.ne_nil_of_mem hτ
      have hh := List.head_dropWhile_not (p := fun τ => decide (τ ≤ t')) hne
      simp only [decide_eq_false_iff_not, not_le] at hh
      obtain ⟨v, vs, hv⟩ := List.exists_cons_of_ne_nil hne
      rw [hv] at hτ hs'
      have hhv : t' < v := by simpa [hv] using hh
      rcases List.mem_cons.1 hτ with rfl | hτ
      · exact hhv
      · exact hhv.trans ((List.pairwise_cons.1 hs').1 τ hτ)
    obtain ⟨Ys, e, hY⟩ := ih t' (ht.trans hm.1.le) hm.2.2 (fun s hs => hgb s (List.mem_cons_of_mem _ hs)) _ _ hz' (List.forall₂_cons.1 hu).2 _ _ (hs.sublist (List.dropWhile_sublist _))
      (fun τ hτ => (hlate τ hτ).le) (by
        intro τ hτ
        obtain ⟨l, hl, hle⟩ := hlast τ ((List.dropWhile_sublist _).mem hτ)
        cases grid with
        | nil =>
          simp at hl
          linarith [hlate τ hτ]
        | cons v vs =>
          rw [List.getLast?_cons_cons] at hl
          exact ⟨l, hl, hle⟩) _ (zs ++ more)
      (os ++ (req.takeWhile (· ≤ t')).map (between t t' u (u + (t' - t) • increment T fld (t' - t) t u))) hn (by
        refine List.rel_append (ho.imp fun g v' ⟨v, h1, h2⟩ => ⟨v, h1.more more, h2⟩) ?_
        rw [List.forall₂_map_left_iff, List.forall₂_map_right_iff, List.forall₂_same]
        intro τ hτ
        have h2 : τ ≤ t' := by simpa using List.all_eq_true.1 List.all_takeWhile τ hτ
        exact ⟨_, holds_interp (hc.more more) hn t t' τ, between_near (hreq τ ((List.takeWhile_sublist _).mem hτ)) h2 (hz.trans (hmono t htb)) (hz'.trans (hmono t' htb'))⟩) hrest
    refine ⟨Ys, e, ?_⟩
    rw [outputs, ← List.append_assoc]
    exact hY

end Verif.Rounding
