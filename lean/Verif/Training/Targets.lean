import Verif.Training.Props
import Mathlib.Data.Rat.Floor
import Mathlib.Algebra.Order.Ring.Rat
import Mathlib.Tactic.NormNum

/-!
# C76, data, losses and figures of the functional mapping experiment; concrete runs
-/

namespace Verif.Training
open Verif

variable {K : Type}

/-! ## Data -/

theorem withValues_ok [Field K] (kind : String) (hk : kind = "cubic" ∨ kind = "quadratic") (xs : List K) :
    ∃ l, withValues kind xs = .ok l ∧ l.map Prod.fst = xs ∧ ∀ p ∈ l, p.2 = if kind = "cubic" then p.1 ^ 3 else p.1 ^ 2 + 3 / (1 + p.1 ^ 2) := by
  induction xs with
  | nil => exact ⟨[], rfl, rfl, by simp⟩
  | cons x xs ih =>
    obtain ⟨l, h1, h2, h3⟩ := ih
    have hx : fcn kind x = .ok (if kind = "cubic" then x ^ 3 else x ^ 2 + 3 / (1 + x ^ 2)) := by
      unfold fcn
      rcases hk with h | h <;> simp [h]
    refine ⟨(x, if kind = "cubic" then x ^ 3 else x ^ 2 + 3 / (1 + x ^ 2)) :: l, ?_, by simp [h2], ?_⟩
    · rw [withValues] at h1 ⊢
      rw [List.mapM_cons, h1, hx]
      rfl
    · intro p hp
      rcases List.mem_cons.1 hp with h | h
      · rw [h]
      · exact h3 p h

/-- **C76.** Random training data: as many samples as asked for, all inputs in the range, all outputs values of the function. -/
theorem C76_random_data [Field K] [LinearOrder K] [IsStrictOrderedRing K] (maxX : K) (hm : 0 ≤ maxX) (kind : String) (hk : kind = "cubic" ∨ kind = "quadratic") (us : List K) (hu : ∀ u ∈ us, 0 ≤ u ∧ u < 1) :
    ∃ l, sampleBatch maxX kind us = .ok l ∧ l.length = us.length ∧ ∀ p ∈ l, -maxX ≤ p.1 ∧ p.1 ≤ maxX ∧ p.2 = if kind = "cubic" then p.1 ^ 3 else p.1 ^ 2 + 3 / (1 + p.1 ^ 2) := by
  obtain ⟨l, h1, h2, h3⟩ := withValues_ok kind hk (us.map fun u => 2 * maxX * u - maxX)
  refine ⟨l, h1, ?_, fun p hp => ?_⟩
  · have := congrArg List.length h2
    simpa using this
  · have hmem : p.1 ∈ us.map fun u => 2 * maxX * u - maxX := h2 ▸ List.mem_map_of_mem hp
    obtain ⟨u, hu', hpu⟩ := List.mem_map.1 hmem
    obtain ⟨a, b⟩ := hu u hu'
    have h4 : 0 ≤ maxX * u := mul_nonneg hm a
    have h5 : maxX * u ≤ maxX * 1 := mul_le_mul_of_nonneg_left b.le hm
    refine ⟨?_, ?_, h3 p hp⟩ <;> rw [← hpu] <;> linarith

/-- **C76.** Data for tests and figures: evenly spaced inputs from one end of the range to the other. -/
theorem C76_uniform_data [Field K] [LinearOrder K] [IsStrictOrderedRing K] (maxX : K) (kind : String) (hk : kind = "cubic" ∨ kind = "quadratic") (n : Nat) (hn : 2 ≤ n) :
    ∃ l, uniformBatch maxX kind n = .ok l ∧ l.length = n ∧ (∀ i (h : i < l.length), (l[i]).1 = -maxX + 2 * maxX * (i : K) / ((n : K) - 1)) ∧ (l.map Prod.fst).head? = some (-maxX) ∧ (l.map Prod.fst).getLast? = some maxX ∧
      ∀ p ∈ l, p.2 = if kind = "cubic" then p.1 ^ 3 else p.1 ^ 2 + 3 / (1 + p.1 ^ 2) := by
  obtain ⟨l, h1, h2, h3⟩ := withValues_ok kind hk (linspace (-maxX) maxX n)
  have hl : linspace (-maxX) maxX n = (List.range n).map fun i : Nat => -maxX + (maxX - -maxX) / ((n : K) - 1) * (i : K) := by rw [linspace, if_neg (by omega)]
  have hlen : l.length = n := by
    have := congrArg List.length h2
    rw [hl] at this
    simpa using this
  have hpos : (0 : K) < (n : K) - 1 := by
    have : (2 : K) ≤ (n : K) := by exact_mod_cast hn
    linarith
  refine ⟨l, h1, hlen, ?_, ?_, ?_, h3⟩
  · intro i hi
    have : (l.map Prod.fst)[i]'(by simpa using hi) = -maxX + (maxX - -maxX) / ((n : K) - 1) * (i : K) := by simp [h2, hl]
    rw [List.getElem_map] at this
    rw [this]
    ring
  · rw [h2, hl, show n = (n - 1) + 1 by omega, List.range_succ_eq_map]
    simp
  · rw [h2, hl]
    obtain ⟨m, rfl⟩ : ∃ m, n = m + 1 := ⟨n - 1, by omega⟩
    rw [List.range_succ, List.map_append, List.map_singleton, List.getLast?_concat]
    push_cast at hpos ⊢
    rw [add_sub_cancel_right] at hpos ⊢
    rw [div_mul_cancel₀ _ (ne_of_gt hpos)]
    congr 1
    ring

/-- **C76.** An unknown function is refused. -/
theorem C76_unknown_function [Field K] (kind : String) (hk : kind ≠ "cubic" ∧ kind ≠ "quadratic") (x : K) (xs : List K) : fcn kind x = .error .valueError ∧ withValues kind (x :: xs) = .error .valueError := by
  have h : fcn kind x = .error .valueError := by rw [fcn, if_neg hk.1, if_neg hk.2]
  refine ⟨h, ?_⟩
  rw [withValues, List.mapM_cons, h]
  rfl

/-! ## Losses -/

theorem sum_nonneg' [Field K] [LinearOrder K] [IsStrictOrderedRing K] (l : List K) (h : ∀ a ∈ l, 0 ≤ a) : 0 ≤ l.sum := List.sum_nonneg h

theorem mean_nonneg [Field K] [LinearOrder K] [IsStrictOrderedRing K] (l : List K) (h : ∀ a ∈ l, 0 ≤ a) : 0 ≤ mean l := div_nonneg (List.sum_nonneg h) (Nat.cast_nonneg _)

theorem mean_eq_zero [Field K] [LinearOrder K] [IsStrictOrderedRing K] (l : List K) (hne : l ≠ []) (h : ∀ a ∈ l, 0 ≤ a) : mean l = 0 ↔ ∀ a ∈ l, a = 0 := by
  have hl : (l.length : K) ≠ 0 := by
    have := List.length_pos_of_ne_nil hne
    exact_mod_cast this.ne'
  constructor
  · intro h0 a ha
    have hs : l.sum = 0 := by
      rcases div_eq_zero_iff.1 h0 with h | h
      · exact h
      · exact absurd h hl
    exact le_antisymm (hs ▸ List.single_le_sum h a ha) (h a ha)
  · intro h0
    have : l.sum = 0 := List.sum_eq_zero h0
    rw [mean, this, zero_div]

theorem zipWith_mem {A B C : Type} (f : A → B → C) (l : List A) (m : List B) (c : C) (h : c ∈ List.zipWith f l m) : ∃ a b, c = f a b := by
  induction l generalizing m with
  | nil => simp at h
  | cons a l ih =>
    cases m with
    | nil => simp at h
    | cons b m =>
      rw [List.zipWith_cons_cons, List.mem_cons] at h
      rcases h with h | h
      · exact ⟨a, b, h⟩
      · exact ih m h

theorem zipWith_zero_iff {A C : Type} [Zero C] (f : A → A → C) (hf : ∀ a b, f a b = 0 ↔ a = b) (l m : List A) (h : l.length = m.length) : (∀ c ∈ List.zipWith f l m, c = 0) ↔ l = m := by
  induction l generalizing m with
  | nil =>
    cases m with
    | nil => simp
    | cons b m => simp at h
  | cons a l ih =>
    cases m with
    | nil => simp at h
    | cons b m =>
      have := ih m (by simpa using h)
      simp only [List.zipWith_cons_cons, List.mem_cons, forall_eq_or_imp, hf, List.cons.injEq, this]

/-- **C76.** The loss of a batch: the sum of similarity loss and norm loss (also for the networks for comparison); with weights that are not negative no part is negative; the similarity loss vanishes exactly if all predictions are right;
the norm loss is the weighted penalty, or zero if the penalty is switched off or there is no shooting network. -/
theorem C76_loss [Field K] [LinearOrder K] [IsStrictOrderedRing K] (shooting noPenalty : Bool) (simWeight normWeight : K) (hs : 0 < simWeight) (hn : 0 ≤ normWeight) (pred out : List K) (hlen : pred.length = out.length)
    (hne : pred ≠ []) (penalty : K) (hp : 0 ≤ penalty) :
    ∃ l, functionalLoss shooting noPenalty simWeight normWeight pred out penalty = l ∧ l.loss = l.sim + l.normLoss ∧ 0 ≤ l.sim ∧ 0 ≤ l.normLoss ∧ (l.sim = 0 ↔ pred = out) ∧
      (l.normLoss = if shooting = true ∧ noPenalty = false then normWeight * penalty else 0) ∧ l.sim * (pred.length : K) = simWeight * (List.zipWith (fun p y => (p - y) ^ 2) pred out).sum := by
  have hz : List.zipWith (fun p y => (p - y) ^ 2) pred out ≠ [] := by
    intro h
    have := congrArg List.length h
    simp only [List.length_zipWith, List.length_nil, ← hlen, min_self] at this
    exact hne (List.length_eq_zero_iff.1 this)
  have hnn : ∀ a ∈ List.zipWith (fun p y => (p - y) ^ 2) pred out, 0 ≤ a := by
    intro a ha
    obtain ⟨x, y, rfl⟩ := zipWith_mem _ _ _ _ ha
    positivity
  have hsim : (simWeight * mean (List.zipWith (fun p y => (p - y) ^ 2) pred out) = 0) ↔ pred = out := by
    rw [mul_eq_zero, or_iff_right hs.ne', mean_eq_zero _ hz hnn]
    apply zipWith_zero_iff _ _ _ _ hlen
    intro a b
    rw [pow_eq_zero_iff two_ne_zero, sub_eq_zero]
  have hlen' : (pred.length : K) ≠ 0 := by
    have := List.length_pos_of_ne_nil hne
    exact_mod_cast this.ne'
  have hmul : simWeight * mean (List.zipWith (fun p y => (p - y) ^ 2) pred out) * (pred.length : K) = simWeight * (List.zipWith (fun p y => (p - y) ^ 2) pred out).sum := by
    rw [mean, List.length_zipWith, ← hlen, min_self, mul_assoc, div_mul_cancel₀ _ hlen']
  have hs0 := mul_nonneg hs.le (mean_nonneg _ hnn)
  refine ⟨_, rfl, ?_⟩
  cases shooting <;> cases noPenalty <;> simp only [functionalLoss, if_true, Bool.false_eq_true, if_false, mul_zero, add_zero, true_and, and_true, Bool.true_eq_false, and_false]
  · exact ⟨hs0, le_rfl, hsim, hmul⟩
  · exact ⟨hs0, le_rfl, hsim, hmul⟩
  · exact ⟨hs0, mul_nonneg hn hp, hsim, hmul⟩
  · exact ⟨hs0, le_rfl, hsim, hmul⟩

example : functionalLoss true false (100 : ℚ) 1 [1, 2] [1, 4] 3 = ⟨203, 200, 3, 3⟩ := by decide +kernel

/-! ## Figures -/

/-- **C76.** The vertical range of the figures: for the cubic function all values over the range of the inputs are inside. -/
theorem C76_plot_cubic [Field K] [LinearOrder K] [IsStrictOrderedRing K] (xrange x : K) (h : |x| ≤ xrange) : ∃ r, plotRange "cubic" xrange = .ok r ∧ r.1 ≤ x ^ 3 ∧ x ^ 3 ≤ r.2 := by
  have hx : 0 ≤ xrange := (abs_nonneg x).trans h
  refine ⟨_, rfl, ?_⟩
  have h1 : |x ^ 3| ≤ |xrange ^ 3| := by
    rw [abs_pow, abs_pow, abs_of_nonneg hx]
    exact pow_le_pow_left₀ (abs_nonneg x) h 3
  have h2 := h1.trans (le_max_right |(-xrange) ^ 3| _)
  exact ⟨(abs_le.1 h2).1, (abs_le.1 h2).2⟩

/-- **C76.** For the other function ("quadratic") all values over the range of the inputs are inside exactly if the square of the range is at least two: the comment "assume that maximum happens somewhere at the boundary" is wrong for
smaller ranges, where the value 3 at zero is cut off. -/
theorem C76_plot_quadratic [Field K] [LinearOrder K] [IsStrictOrderedRing K] (xrange : K) (hx : 0 < xrange) :
    ∃ r, plotRange "quadratic" xrange = .ok r ∧ ((∀ x, |x| ≤ xrange → r.1 ≤ x ^ 2 + 3 / (1 + x ^ 2) ∧ x ^ 2 + 3 / (1 + x ^ 2) ≤ r.2) ↔ 2 ≤ xrange ^ 2) := by
  have hpos : ∀ y : K, 0 < 1 + y ^ 2 := fun y => by positivity
  have htop : max |(-xrange) ^ 2 + 3 / (1 + (-xrange) ^ 2)| |xrange ^ 2 + 3 / (1 + xrange ^ 2)| = xrange ^ 2 + 3 / (1 + xrange ^ 2) := by
    rw [neg_pow_two, max_self, abs_of_nonneg]
    have := hpos xrange
    positivity
  refine ⟨(9 / 4, xrange ^ 2 + 3 / (1 + xrange ^ 2)), ?_, ?_⟩
  · rw [← htop]
    rfl
  · constructor
    · intro h
      have h0 := (h 0 (by rw [abs_zero]; exact hx.le)).2
      have h1 : xrange ^ 2 + 3 / (1 + xrange ^ 2) = (xrange ^ 2 * (1 + xrange ^ 2) + 3) / (1 + xrange ^ 2) := by
        have := (hpos xrange).ne'
        field_simp
      simp only [h1] at h0
      rw [le_div_iff₀ (hpos xrange)] at h0
      norm_num at h0
      have h2 : 0 < xrange ^ 2 := by positivity
      by_contra hlt
      push Not at hlt
      nlinarith [mul_pos h2 (sub_pos.2 hlt)]
    · intro h2 x hxx
      have hsq : x ^ 2 ≤ xrange ^ 2 := sq_le_sq' (by linarith [(abs_le.1 hxx).1]) (abs_le.1 hxx).2
      have hx0 : 0 ≤ x ^ 2 := sq_nonneg x
      have e1 : ∀ y : K, y ^ 2 + 3 / (1 + y ^ 2) = (y ^ 2 * (1 + y ^ 2) + 3) / (1 + y ^ 2) := fun y => by
        have := (hpos y).ne'
        field_simp
      rw [e1 x, e1 xrange]
      constructor
      · simp only
        rw [le_div_iff₀ (hpos x)]
        nlinarith [sq_nonneg (x ^ 2 - 5 / 8)]
      · simp only
        rw [div_le_div_iff₀ (hpos x) (hpos xrange)]
        generalize x ^ 2 = a at *
        generalize xrange ^ 2 = b at *
        have h3 : 0 ≤ (b - a) * ((1 + a) * (1 + b) - 3) := mul_nonneg (by linarith) (by nlinarith)
        nlinarith

example : (2 : ℚ) ≤ (3 / 2) ^ 2 := by norm_num

end Verif.Training
