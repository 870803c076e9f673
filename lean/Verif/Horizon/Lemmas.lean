import Verif.Horizon.Spec
import Verif.Horizon.Model
import Verif.LongRange.Blocks
import Mathlib.Data.List.TakeWhile

/-!
# Lemmas for C91
-/

namespace Verif.Horizon
open Verif Verif.Tensor Verif.Evolution Verif.Flow Verif.Whole Verif.Converge Verif.LongRange

variable {V K K' Θ Rb : Type}

theorem before_eq {h t s : ℝ} (hh : 0 < h) {k : ℕ} (h1 : t + k * h < s) (h2 : s ≤ t + (k + 1) * h) : before h t s = k := by
  unfold before
  have : ⌈(s - t) / h⌉₊ = k + 1 := by
    apply le_antisymm
    · apply Nat.ceil_le.2
      rw [div_le_iff₀ hh]
      push_cast
      linarith
    · apply Nat.lt_ceil.2
      rw [lt_div_iff₀ hh]
      linarith
  omega

section
variable [AddCommGroup V] [Module ℝ V]

theorem valueAt_eq (Φ : ℝ → ℝ → V → V) {h t : ℝ} (hh : 0 < h) (y : V) (e : ℝ) {s : ℝ} {k : ℕ} (h1 : t + k * h < s) (h2 : s ≤ t + (k + 1) * h) :
    valueAt Φ h t y e s = Converge.between (t + k * h) (min (t + k * h + h) e) (stepped Φ h t y k)
      (stepped Φ h t y k + (min (t + k * h + h) e - (t + k * h)) • Φ (min (t + k * h + h) e - (t + k * h)) (t + k * h) (stepped Φ h t y k)) s := by
  unfold valueAt
  rw [before_eq hh h1 h2]

theorem split_while (p : ℝ) (req : List ℝ) (hr : req.Pairwise (· < ·)) : (∀ s ∈ req.takeWhile (· ≤ p), s ≤ p) ∧ (∀ s ∈ req.dropWhile (· ≤ p), p < s) ∧ (req.dropWhile (· ≤ p)).Pairwise (· < ·) := by
  refine ⟨fun s hs => by simpa using List.mem_takeWhile_imp hs, ?_, hr.sublist (List.dropWhile_sublist _)⟩
  induction req with
  | nil => intro s hs; simp at hs
  | cons a req ih =>
    rw [List.dropWhile_cons]
    split
    · exact ih (List.pairwise_cons.1 hr).2
    · rename_i ha
      have ha : p < a := by simpa using ha
      intro s hs
      rcases List.mem_cons.1 hs with rfl | hs
      · exact ha
      · exact ha.trans ((List.pairwise_cons.1 hr).1 s hs)

theorem outputs_steps (Φ : ℝ → ℝ → V → V) {h : ℝ} (hh : 0 < h) (t e : ℝ) (y : V) (j k : ℕ) (he1 : ((k + j : ℕ) : ℝ) * h + t < e) (he2 : e ≤ ((k + j : ℕ) : ℝ) * h + t + h) (req : List ℝ)
    (hr : req.Pairwise (· < ·)) (hreq : ∀ s ∈ req, t + k * h < s ∧ s ≤ e) :
    outputs Φ (t + k * h) (stepped Φ h t y k) ((List.range' (k + 1) j).map (fun i : ℕ => (i : ℝ) * h + t) ++ [e]) req = req.map (valueAt Φ h t y e) := by
  induction j generalizing k req with
  | zero =>
    simp only [Nat.add_zero] at he1 he2
    have hall : req.takeWhile (· ≤ e) = req := by
      rw [List.takeWhile_eq_self_iff]
      intro s hs
      simpa using (hreq s hs).2
    have hm : min (t + k * h + h) e = e := min_eq_right (by linarith)
    simp only [List.range'_zero, List.map_nil, List.nil_append, outputs, List.append_nil, hall]
    apply List.map_congr_left
    intro s hs
    rw [valueAt_eq Φ hh y e (hreq s hs).1 (by linarith [(hreq s hs).2]), hm]
  | succ j ih =>
    rw [List.range'_succ, List.map_cons, List.cons_append, outputs]
    have ht' : ((k + 1 : ℕ) : ℝ) * h + t = t + k * h + h := by push_cast; ring
    have ht'' : t + ((k + 1 : ℕ) : ℝ) * h = t + k * h + h := by push_cast; ring
    have hle : t + k * h + h ≤ e := by
      have h0 : (0 : ℝ) ≤ j * h := by positivity
      push_cast at he1
      nlinarith
    obtain ⟨w1, w2, w3⟩ := split_while (t + k * h + h) req hr
    have hd : t + k * h + h - (t + k * h) = h := by ring
    have hs' : stepped Φ h t y (k + 1) = stepped Φ h t y k + h • Φ h (t + k * h) (stepped Φ h t y k) := rfl
    rw [ht', hd, ← hs']
    have ih' := ih (k + 1) (by rw [show k + 1 + j = k + (j + 1) by omega]; exact he1) (by rw [show k + 1 + j = k + (j + 1) by omega]; exact he2) (req.dropWhile (· ≤ t + k * h + h)) w3 (by
      intro s hs
      exact ⟨by rw [ht'']; exact w2 s hs, (hreq s ((List.dropWhile_sublist _).subset hs)).2⟩)
    rw [ht''] at ih'
    rw [ih', ← List.takeWhile_append_dropWhile (p := (· ≤ t + k * h + h)) (l := req), List.map_append, List.takeWhile_append_dropWhile]
    congr 1
    apply List.map_congr_left
    intro s hs
    rw [valueAt_eq Φ hh y e (hreq s ((List.takeWhile_sublist _).subset hs)).1 (by linarith [w1 s hs]), min_eq_left hle, hd, ← hs']

/-- At a grid point the value is that after the steps up to it. -/
theorem valueAt_grid (Φ : ℝ → ℝ → V → V) {h : ℝ} (hh : 0 < h) (t : ℝ) (y : V) {e : ℝ} (k : ℕ) (hk : 0 < k) (he : t + k * h ≤ e) : valueAt Φ h t y e (t + k * h) = stepped Φ h t y k := by
  obtain ⟨k, rfl⟩ : ∃ j, k = j + 1 := ⟨k - 1, by omega⟩
  rw [valueAt_eq Φ hh y e (k := k) (by push_cast; linarith) (by push_cast; linarith)]
  have e1 : t + ((k + 1 : ℕ) : ℝ) * h = t + k * h + h := by push_cast; ring
  rw [e1] at he ⊢
  rw [min_eq_left he, between, if_neg (by linarith), if_pos rfl, show t + k * h + h - (t + k * h) = h by ring]
  rfl

theorem stepGrid_values (Φ : ℝ → ℝ → V → V) {h : ℝ} (hh : 0 < h) (t : ℝ) (y : V) (ts : List ℝ) (hi : (t :: ts).Pairwise (· < ·)) :
    ∃ g, stepGrid h (t :: ts) = t :: g ∧ (t :: g).getLast? = (t :: ts).getLast? ∧
      y :: outputs Φ t y g ts = y :: ts.map (valueAt Φ h t y ((t :: ts).getLast (by simp))) := by
  obtain ⟨g, h1, h2, _⟩ := stepGrid_suits hh t ts hi
  refine ⟨g, h1, h2, ?_⟩
  congr 1
  cases ts with
  | nil =>
    cases g with
    | nil => rfl
    | cons a g => simp [outputs_nil]
  | cons t' ts =>
    have hlast : ∀ s ∈ t' :: ts, s ≤ (t :: t' :: ts).getLast (by simp) := by
      intro s hs
      rw [List.getLast_cons (by simp)]
      have h3 := (List.pairwise_cons.1 hi).2
      rcases List.mem_iff_getElem.1 hs with ⟨i, hi', rfl⟩
      rw [List.getLast_eq_getElem]
      rcases Nat.lt_or_eq_of_le (Nat.le_sub_one_of_lt hi') with h4 | h4
      · exact (List.pairwise_iff_getElem.1 h3 i _ hi' (by omega) h4).le
      · simp only [h4, le_refl]
    have hte : t < (t :: t' :: ts).getLast (by simp) := ((List.pairwise_cons.1 hi).1 t' (by simp)).trans_le (hlast t' (by simp))
    obtain ⟨k, e1, e2, e3⟩ := stepGrid_eq hh t (t' :: ts) rfl hte
    rw [h1] at e1
    obtain ⟨_, rfl⟩ := List.cons.inj e1
    have := outputs_steps Φ hh t _ y k 0 (by simpa using e2) (by simpa using e3) (t' :: ts) (List.pairwise_cons.1 hi).2 fun s hs =>
      ⟨by simpa using (List.pairwise_cons.1 hi).1 s hs, hlast s hs⟩
    simpa [stepped] using this
where
  outputs_nil (Φ : ℝ → ℝ → V → V) (t : ℝ) (y : V) (g : List ℝ) : outputs Φ t y g [] = [] := by
    induction g generalizing t y with
    | nil => rfl
    | cons a g ih => simp [outputs, ih]

end

/-- The run of a solver with a step size. -/
theorem run_steps {ι β : Type} [Fintype ι] [Fintype β] [Fintype K] [Fintype K'] (fld : ℝ → Sys2 ι β K K' → Sys2 ι β K K') (T : Tableau) {h : ℝ} (hh : 0 < h) (t : ℝ) (ts : List ℝ)
    (hi : (t :: ts).Pairwise (· < ·)) (z : Sys2 ι β K K') : runSys fld (solver T (stepGrid h) (t :: ts)) [z] =
      .ok (z :: ts.map (valueAt (increment T fld) h t z ((t :: ts).getLast (by simp)))) := by
  obtain ⟨g, h1, h2, h3⟩ := stepGrid_values (increment T fld) hh t z ts hi
  rw [run_solver fld T (stepGrid h) t ts g z ((increasing_iff _).2 hi) h1 h2, h3]

end Verif.Horizon
