import Verif.Rounding.Lemmas

/-!
# Arithmetic step by step is an inexact run
-/

namespace Verif.Rounding
open Set Verif Verif.Flow Verif.Whole Verif.Evolution Verif.Converge

theorem late {req : List ℝ} (hs : req.Pairwise (· < ·)) (t' : ℝ) : ∀ τ ∈ req.dropWhile (fun τ => decide (τ ≤ t')), t' < τ := by
  intro τ hτ
  have hs' : (req.dropWhile fun τ => decide (τ ≤ t')).Pairwise (· < ·) := hs.sublist (List.dropWhile_sublist _)
  have hne : req.dropWhile (fun τ => decide (τ ≤ t')) ≠ [] := List.ne_nil_of_mem hτ
  have hh := List.head_dropWhile_not (p := fun τ => decide (τ ≤ t')) hne
  simp only [decide_eq_false_iff_not, not_le] at hh
  obtain ⟨v, vs, hv⟩ := List.exists_cons_of_ne_nil hne
  rw [hv] at hτ hs'
  have hhv : t' < v := by simpa [hv] using hh
  rcases List.mem_cons.1 hτ with rfl | hτ
  · exact hhv
  · exact hhv.trans ((List.pairwise_cons.1 hs').1 τ hτ)

theorem norm_trans {E : Type} [NormedAddCommGroup E] {x y z : E} {a b : ℝ} (h1 : ‖x - y‖ ≤ a) (h2 : ‖y - z‖ ≤ b) : ‖x - z‖ ≤ a + b := by
  have : x - z = (x - y) + (y - z) := by abel
  rw [this]
  exact (norm_add_le _ _).trans (add_le_add h1 h2)

variable {ι β K K' : Type} [Fintype ι] [Fintype β] [Fintype K] [Fintype K']

theorem rounded_stages {fld : ℝ → Sys2 ι β K K' → Sys2 ι β K K'} {δ ρ η m h t : ℝ} {z : Sys2 ι β K K'} {ss : List (ℝ × List ℝ)} {vs ls : List (Sys2 ι β K K')} (hr : RSlopes fld δ ρ h t z ss vs ls)
    (hm : ρ + m ≤ η) (cur : List ℝ → ℝ) {v : Sys2 ι β K K'} (hv : ‖z - v‖ ≤ m) (next : List (List ℝ → ℝ) → ℕ → Method ℝ ℝ) (res : Py (List (Sys2 ι β K K'))) (zs : List (Sys2 ι β K K'))
    (ks : List (List ℝ → ℝ)) (hc : Holds cur zs v) (hk : List.Forall₂ (fun g w => Holds g zs w) ks vs)
    (hn : ∀ more ks', List.Forall₂ (fun g w => Holds g (zs ++ more) w) ks' ls → Inexact fld δ η (next ks' (zs ++ more).length) (zs ++ more) res) :
    Inexact fld δ η (stagesProg t h cur next ss ks zs.length) zs res := by
  induction hr generalizing zs ks with
  | nil => simpa [stagesProg] using hn [] ks (by simpa using hk)
  | @cons s ss vs ls x k hx hkk _ ih =>
    rw [stagesProg]
    refine .eval x k ?_ hkk ?_
    · rw [(holds_step hc hk h s.2).combine]
      refine (norm_trans hx (b := m) ?_).trans hm
      rwa [add_sub_add_right_eq_sub]
    · have hlen : (zs ++ [k]).length = zs.length + 1 := by simp
      rw [← hlen]
      refine ih (zs ++ [k]) _ (hc.more _) (List.rel_append (Forall₂.holds_more hk _) (.cons (holds_get zs _) .nil)) fun more ks' h => ?_
      rw [List.append_assoc] at h ⊢
      exact hn _ _ h

theorem rounded_loop {fld : ℝ → Sys2 ι β K K' → Sys2 ι β K K'} {T : Tableau} {δ ρ η h : ℝ} (hρ : 0 ≤ ρ) {t : ℝ} {z : Sys2 ι β K K'} {grid req : List ℝ} {Ys : List (Sys2 ι β K K')}
    (hr : Rounded T fld δ ρ t z grid req Ys) (hm : Mesh h t grid) (hs : req.Pairwise (· < ·)) (hreq : ∀ τ ∈ req, t ≤ τ) (k : ℕ) (hη : ((k + grid.length + 1 : ℕ) : ℝ) * ρ ≤ η)
    (cur : List ℝ → ℝ) (outs : List (List ℝ → ℝ)) (zs Os : List (Sys2 ι β K K')) {v : Sys2 ι β K K'} (hc : Holds cur zs v) (hv : ‖z - v‖ ≤ (k : ℝ) * ρ)
    (ho : List.Forall₂ (fun g Y => ∃ v, Holds g zs v ∧ ‖Y - v‖ ≤ η) outs Os) : Inexact fld δ η (solverLoop T grid zs.length cur t req outs) zs (.ok (Os ++ Ys)) := by
  induction hr generalizing k cur outs zs Os v with
  | stop =>
    rw [solverLoop, List.append_nil]
    refine .done (ho.imp fun g Y ⟨v, h1, h2⟩ => ?_)
    rwa [h1.combine]
  | @step t t' z grid req os rest ks z' hks hz hos _ ih =>
    rw [solverLoop]
    have hge : (((k + 2 : ℕ) : ℝ)) * ρ ≤ η := le_trans (mul_le_mul_of_nonneg_right (by exact_mod_cast (by simp)) hρ) hη
    push_cast at hge
    refine rounded_stages hks (m := (k : ℝ) * ρ) (by linarith) cur hv _ _ zs [] hc .nil fun more ks' hks' => ?_
    have hn := holds_step (hc.more more) hks' (t' - t) T.weights
    have hz' : ‖z' - (v + (t' - t) • comb T.weights ks)‖ ≤ ((k + 1 : ℕ) : ℝ) * ρ := by
      refine (norm_trans hz (b := (k : ℝ) * ρ) ?_).trans (le_of_eq ?_)
      · rwa [add_sub_add_right_eq_sub]
      · push_cast; ring
    have := ih hm.2.2 (hs.sublist (List.dropWhile_sublist _)) (fun τ hτ => (late hs t' τ hτ).le) (k + 1) (by
        refine le_trans (mul_le_mul_of_nonneg_right ?_ hρ) hη
        exact_mod_cast (by simp; omega)) _ (outs ++ (req.takeWhile (· ≤ t')).map fun τ rs => interp t t' (cur rs) (cur rs + (t' - t) * Evolution.comb T.weights (ks'.map fun k => k rs)) τ)
      (zs ++ more) (Os ++ os) hn hz' (by
        refine List.rel_append (ho.imp fun g v' ⟨v, h1, h2⟩ => ⟨v, h1.more more, h2⟩) ?_
        rw [List.forall₂_map_left_iff]
        rw [List.forall₂_iff_get] at hos ⊢
        refine ⟨hos.1.symm, fun i h1 h2 => ?_⟩
        have hi := hos.2 i h2 h1
        have hτ := List.get_mem (req.takeWhile (· ≤ t')) ⟨i, h1⟩
        have h3 : (req.takeWhile (· ≤ t')).get ⟨i, h1⟩ ≤ t' := by simpa using List.all_eq_true.1 List.all_takeWhile _ hτ
        refine ⟨_, holds_interp (hc.more more) hn t t' _, (norm_trans hi (between_near (hreq _ ((List.takeWhile_sublist _).mem hτ)) h3 (e := ((k + 1 : ℕ) : ℝ) * ρ) ?_ hz')).trans ?_⟩
        · refine hv.trans (mul_le_mul_of_nonneg_right (by push_cast; linarith) hρ)
        · push_cast; linarith)
    rw [List.append_assoc] at this
    exact this

theorem rounded_run {fld : ℝ → Sys2 ι β K K' → Sys2 ι β K K'} {T : Tableau} {δ ρ h : ℝ} (hρ : 0 ≤ ρ) {G : List ℝ → List ℝ} {a : ℝ} {ts : List ℝ} (hi : (a :: ts).Pairwise (· < ·)) (hg : Suits h G a ts)
    {z : Sys2 ι β K K'} {Ys : List (Sys2 ι β K K')} (hr : RoundedRun T fld δ ρ z (G (a :: ts)) (a :: ts) Ys) :
    Inexact fld δ (((G (a :: ts)).length : ℝ) * ρ) (solver T G (a :: ts)) [z] (.ok Ys) := by
  obtain ⟨g, hg1, hg2, hm⟩ := hg
  obtain ⟨t, g', ts', Zs, e1, e2, rfl, hr⟩ := hr
  obtain ⟨rfl, rfl⟩ := List.cons.inj e2
  rw [hg1] at e1
  obtain ⟨_, rfl⟩ := List.cons.inj e1
  unfold solver
  dsimp only
  rw [if_neg (by simp [(increasing_iff _).2 hi]), hg1, if_neg (by simp [hg2])]
  have h0 : Holds (fun rs => rs.getD 0 0) [z] z := holds_get [] z
  exact rounded_loop hρ hr hm (List.pairwise_cons.1 hi).2 (fun τ hτ => ((List.pairwise_cons.1 hi).1 τ hτ).le) 0 (by simp) _ _ [z] [z] h0 (by simp) (.cons ⟨z, h0, by simp; positivity⟩ .nil)

end Verif.Rounding
