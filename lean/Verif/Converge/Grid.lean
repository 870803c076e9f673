import Verif.Converge.Lemmas
import Verif.Converge.Run

/-!
# Grids, and the error of a run
-/

namespace Verif.Converge
open Set Verif Verif.Flow Verif.Whole Verif.Evolution

theorem increasing_iff (l : List ℝ) : increasing l = true ↔ l.Pairwise (· < ·) := by
  rw [← List.isChain_iff_pairwise]
  induction l with
  | nil => simp [increasing]
  | cons t l ih =>
    cases l with
    | nil => simp [increasing]
    | cons t' ts =>
      rw [increasing, Bool.and_eq_true, decide_eq_true_eq, ih, List.isChain_cons_cons]

/-- A rule for the grid suits a list of times if the grid goes from the first to the last of them, in steps of at most `h`. -/
def Suits (h : ℝ) (G : List ℝ → List ℝ) (t : ℝ) (ts : List ℝ) : Prop := ∃ g, G (t :: ts) = t :: g ∧ (t :: g).getLast? = (t :: ts).getLast? ∧ Mesh h t g

theorem mesh_steps {h : ℝ} (hh : 0 < h) (t e : ℝ) (k : ℕ) (s : ℕ) (h1 : ((s + k : ℕ) : ℝ) * h + t < e) (h2 : e ≤ ((s + k : ℕ) : ℝ) * h + t + h) :
    Mesh h (s * h + t) ((List.range' (s + 1) k).map (fun i : ℕ => (i : ℝ) * h + t) ++ [e]) := by
  induction k generalizing s with
  | zero => exact ⟨by simpa using h1, by simpa using h2, trivial⟩
  | succ k ih =>
    rw [List.range'_succ, List.map_cons, List.cons_append]
    refine ⟨?_, ?_, ih (s + 1) ?_ ?_⟩
    · push_cast; nlinarith
    · push_cast; nlinarith
    · have : s + 1 + k = s + (k + 1) := by omega
      rw [this]; exact h1
    · have : s + 1 + k = s + (k + 1) := by omega
      rw [this]; exact h2

/-- The grid for a step size: full steps, the last one as long as needed. -/
theorem stepGrid_eq {h : ℝ} (hh : 0 < h) (t : ℝ) (ts : List ℝ) {e : ℝ} (he : (t :: ts).getLast (by simp) = e) (hte : t < e) :
    ∃ k : ℕ, stepGrid h (t :: ts) = t :: ((List.range' 1 k).map (fun i : ℕ => (i : ℝ) * h + t) ++ [e]) ∧ (k : ℝ) * h + t < e ∧ e ≤ (k : ℝ) * h + t + h := by
  obtain ⟨k, hk⟩ : ∃ k : ℕ, ⌈(e - t) / h⌉₊ = k + 1 := by
    have : 0 < ⌈(e - t) / h⌉₊ := Nat.ceil_pos.2 (div_pos (by linarith) hh)
    exact ⟨⌈(e - t) / h⌉₊ - 1, by omega⟩
  have hlo : (k : ℝ) * h + t < e := by
    have : (k : ℝ) < (e - t) / h := Nat.lt_ceil.1 (by omega)
    rw [lt_div_iff₀ hh] at this
    linarith
  have hup : e ≤ (k : ℝ) * h + t + h := by
    have := Nat.le_ceil ((e - t) / h)
    rw [hk, div_le_iff₀ hh] at this
    push_cast at this
    linarith
  refine ⟨k, ?_, hlo, hup⟩
  have hn : ⌈(e - t) / h + 1⌉.toNat = k + 2 := by
    rw [Int.ceil_add_one]
    have : ⌈(e - t) / h⌉ = ((k + 1 : ℕ) : ℤ) := by
      rw [← hk, Int.natCast_ceil_eq_ceil (div_nonneg (by linarith) hh.le)]
    rw [this]
    omega
  unfold stepGrid
  dsimp only
  rw [he, hn]
  have hr : (List.range (k + 2)).map (fun i : ℕ => (i : ℝ) * h + t) = (t :: (List.range' 1 k).map (fun i : ℕ => (i : ℝ) * h + t)) ++ [((k + 1 : ℕ) : ℝ) * h + t] := by
    rw [List.range_succ, List.map_append, List.range_succ_eq_map, ]
    simp [List.range'_eq_map_range, Function.comp_def, add_comm]
  rw [hr, List.getLast?_concat]
  dsimp only
  split
  · rw [List.dropLast_concat]; rfl
  · rename_i hc
    have : e = ((k + 1 : ℕ) : ℝ) * h + t := le_antisymm (by push_cast; linarith) (not_lt.1 hc)
    rw [this]; rfl

/-- The grid for a step size suits all increasing times. -/
theorem stepGrid_suits {h : ℝ} (hh : 0 < h) (t : ℝ) (ts : List ℝ) (hi : (t :: ts).Pairwise (· < ·)) : Suits h (stepGrid h) t ts := by
  cases ts with
  | nil =>
    refine ⟨[], ?_, rfl, trivial⟩
    unfold stepGrid
    simp
  | cons t' ts =>
    have hte : t < (t :: t' :: ts).getLast (by simp) := by
      rw [List.getLast_cons (by simp)]
      exact (List.pairwise_cons.1 hi).1 _ (List.getLast_mem _)
    obtain ⟨k, h1, h2, h3⟩ := stepGrid_eq hh t (t' :: ts) rfl hte
    refine ⟨_, h1, ?_, ?_⟩
    · rw [← List.cons_append, List.getLast?_concat, List.getLast?_eq_some_getLast]
    · have := mesh_steps hh t _ k 0 (by simpa using h2) (by simpa using h3)
      simpa using this

/-- Without a step size the grid consists of the requested times. -/
theorem times_suits {h : ℝ} (t : ℝ) (ts : List ℝ) (hm : Mesh h t ts) : Suits h id t ts := ⟨ts, rfl, rfl, hm⟩

theorem Mesh.le_last {h t : ℝ} {g : List ℝ} (hm : Mesh h t g) : ∀ s ∈ t :: g, s ≤ (t :: g).getLast (by simp) := by
  induction g generalizing t with
  | nil => simp
  | cons t' g ih =>
    have ih := ih hm.2.2
    intro s hs
    rw [List.getLast_cons (by simp)]
    rcases List.mem_cons.1 hs with rfl | hs
    · exact hm.1.le.trans (ih t' (by simp))
    · exact ih s hs

/-- The results of a method near a solution. -/
theorem outputs_error {E : Type} [NormedAddCommGroup E] [NormedSpace ℝ E] {fld : ℝ → E → E} {T : Tableau} (hT : T.Consistent) {a b : ℝ} {y : ℝ → E} (hy : Solves fld a b y) {L M : ℝ}
    (hb : Bounds fld (increment T fld) a b y L M) {h : ℝ} (hh : 0 < h) (h1 : h ≤ 1) (hC : (1 + M) * h * Real.exp (L * (b - a)) ≤ 1) {ts g : List ℝ}
    (hi : (a :: ts).Pairwise (· < ·)) (hg2 : (a :: g).getLast? = (a :: ts).getLast?) (hm : Mesh h a g) (hts : ∀ τ ∈ a :: ts, τ ≤ b) :
    List.Forall₂ (fun Y τ => ‖Y - y τ‖ ≤ ((1 + M) * Real.exp (L * (b - a)) + M) * h) (y a :: outputs (increment T fld) a (y a) g ts) (a :: ts) := by
  have hM := hb.M0
  have hpos : 0 ≤ ((1 + M) * Real.exp (L * (b - a)) + M) * h := by positivity
  refine .cons (by simpa using hpos) ?_
  have hlast : (a :: g).getLast (by simp) = (a :: ts).getLast (by simp) := by
    rw [List.getLast?_eq_some_getLast (by simp), List.getLast?_eq_some_getLast (by simp)] at hg2
    exact Option.some.inj hg2
  have hgb : ∀ s ∈ a :: g, s ≤ b := fun s hs => (hm.le_last s hs).trans (hlast ▸ hts _ (List.getLast_mem _))
  have := output_error (fun t x => increment_zero hT fld t x) hy hb hh.le h1 hC a le_rfl (y a) (by simp) g hm hgb ts (List.pairwise_cons.1 hi).2 (by
    intro τ hτ
    refine ⟨((List.pairwise_cons.1 hi).1 τ hτ).le, ?_⟩
    have hne : ts ≠ [] := List.ne_nil_of_mem hτ
    have hlt : a < (a :: ts).getLast (by simp) := by
      rw [List.getLast_cons hne]
      exact (List.pairwise_cons.1 hi).1 _ (List.getLast_mem _)
    have hgne : g ≠ [] := by
      rintro rfl
      rw [← hlast] at hlt
      simp at hlt
    refine ⟨g.getLast hgne, List.getLast?_eq_some_getLast hgne, ?_⟩
    have e : g.getLast hgne = ts.getLast hne := by
      rw [List.getLast_cons hgne, List.getLast_cons hne] at hlast
      exact hlast
    rw [e]
    obtain ⟨l, r, rfl⟩ := List.append_of_mem hτ
    cases r using List.reverseRecOn with
    | nil => simp
    | append_singleton r x _ =>
      have h2 := (List.pairwise_append.1 (List.pairwise_cons.1 hi).2).2.1
      have : (l ++ τ :: (r ++ [x])).getLast hne = x := by
        have h3 : (l ++ τ :: (r ++ [x])).getLast? = some x := by rw [← List.cons_append, ← List.append_assoc, List.getLast?_concat]
        rw [List.getLast?_eq_some_getLast hne] at h3
        exact Option.some.inj h3
      rw [this]
      exact ((List.pairwise_cons.1 h2).1 x (by simp)).le)
  refine this.imp fun Y τ hY => hY.trans (le_of_eq ?_)
  ring

variable {ι β K K' : Type} [Fintype ι] [Fintype β] [Fintype K] [Fintype K']

/-- The run of a solver near a solution. -/
theorem run_error {fld : ℝ → Sys2 ι β K K' → Sys2 ι β K K'} {T : Tableau} (hT : T.Consistent) {a b : ℝ} {y : ℝ → Sys2 ι β K K'} (hy : Solves fld a b y) {L M : ℝ}
    (hb : Bounds fld (increment T fld) a b y L M) {h : ℝ} (hh : 0 < h) (h1 : h ≤ 1) (hC : (1 + M) * h * Real.exp (L * (b - a)) ≤ 1) {G : List ℝ → List ℝ} {ts : List ℝ}
    (hi : (a :: ts).Pairwise (· < ·)) (hg : Suits h G a ts) (hts : ∀ τ ∈ a :: ts, τ ≤ b) :
    ∃ ys, runSys fld (solver T G (a :: ts)) [y a] = .ok ys ∧
      List.Forall₂ (fun Y τ => ‖Y - y τ‖ ≤ ((1 + M) * Real.exp (L * (b - a)) + M) * h) ys (a :: ts) := by
  obtain ⟨g, hg1, hg2, hm⟩ := hg
  refine ⟨_, run_solver fld T G a ts g (y a) ((increasing_iff _).2 hi) hg1 hg2, outputs_error hT hy hb hh h1 hC hi hg2 hm hts⟩

end Verif.Converge
