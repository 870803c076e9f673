import Verif.Complexity.Model
import Mathlib.Algebra.Order.BigOperators.Group.List

/-!
# C55: complexity measures of a recorded evolution

A recording is a list of pairs (time, value).
-/

namespace Verif.Complexity
open Verif

/-- A recording: times and (positive) values. -/
abbrev Recording := List (ℝ × ℝ)

/-- The contribution of one step: the non-negative part of the time step times the binary logarithm of the mean value. -/
noncomputable def stepValue (a b : ℝ × ℝ) : ℝ := max (b.1 - a.1) 0 * Real.logb 2 ((a.2 + b.2) / 2)

/-- The specified measure: the sum over consecutive records. -/
noncomputable def spec : Recording → ℝ
  | a :: b :: l => stepValue a b + spec (b :: l)
  | _ => 0

theorem clip_eq (d : ℝ) : clip d = max d 0 := by
  unfold clip
  split
  · next h => rw [max_eq_right h.le]
  · next h => rw [max_eq_left (not_lt.1 h)]

theorem dot_spec : ∀ r : Recording, (∀ x ∈ r, 0 < x.2) →
    dot ((diffs (r.map Prod.fst)).map clip) ((mids (r.map Prod.snd)).map log2) = some (spec r)
  | [], _ => rfl
  | [_], _ => rfl
  | a :: b :: l, h => by
    have ha := h a (by simp)
    have hb := h b (by simp)
    have ih := dot_spec (b :: l) (fun x hx => h x (by simp at hx; simp; right; exact hx))
    simp only [List.map_cons] at ih
    simp only [List.map_cons, diffs, mids]
    have hl : log2 (1 / 2 * (a.2 + b.2)) = some (Real.logb 2 ((a.2 + b.2) / 2)) := by
      unfold log2
      rw [if_pos (by positivity)]
      congr 2; ring
    rw [hl, dot, ih, clip_eq]
    rfl

theorem length_diffs : ∀ l : List ℝ, (diffs l).length = l.length - 1
  | [] => rfl
  | [_] => rfl
  | _ :: b :: l => by simp [diffs, length_diffs (b :: l)]

theorem length_mids : ∀ l : List ℝ, (mids l).length = l.length - 1
  | [] => rfl
  | [_] => rfl
  | _ :: b :: l => by simp [mids, length_mids (b :: l)]

/-- **C55.** For every recording with positive values the measure is the sum over all steps of the non-negative part of the time
step times log2 of the mean of the two neighbouring values. -/
theorem C55_measure (r : Recording) (h : ∀ x ∈ r, 0 < x.2) :
    measure (r.map Prod.fst) (r.map Prod.snd) = .ok (some (spec r)) := by
  unfold measure sumProduct
  rw [if_pos (by simp [length_diffs, length_mids]), dot_spec r h]

/-- **C55**, all three measures of recorded data of equal lengths are computed independently of each other. -/
theorem C55_all_three (rf rn rs : Recording) (hf : ∀ x ∈ rf, 0 < x.2) (hn : ∀ x ∈ rn, 0 < x.2) (hs : ∀ x ∈ rs, 0 < x.2)
    (t : List ℝ) (h1 : rf.map Prod.fst = t) (h2 : rn.map Prod.fst = t) (h3 : rs.map Prod.fst = t) :
    measures ⟨t, rf.map Prod.snd, rn.map Prod.snd, rs.map Prod.snd⟩ = .ok (some (spec rf), some (spec rn), some (spec rs)) := by
  have e1 := C55_measure rf hf
  have e2 := C55_measure rn hn
  have e3 := C55_measure rs hs
  rw [h1] at e1; rw [h2] at e2; rw [h3] at e3
  unfold measures
  simp only [e1, e2, e3, bind, Except.bind]

/-- **C55.** For non-decreasing times no step is lost: the weights are the time steps and add up to the whole duration. -/
theorem C55_weights : ∀ r : Recording, (r.map Prod.fst).Pairwise (· ≤ ·) → ∀ a ∈ r.head?, ∀ b ∈ r.getLast?,
    ((diffs (r.map Prod.fst)).map clip).sum = b.1 - a.1
  | [], _, _, ha, _, _ => by simp at ha
  | [x], _, a, ha, b, hb => by simp at ha hb; subst ha; subst hb; simp [diffs]
  | x :: y :: l, h, a, ha, b, hb => by
    simp only [List.map_cons, List.pairwise_cons] at h
    have ih := C55_weights (y :: l) (by rw [List.map_cons, List.pairwise_cons]; exact h.2) y (by simp) b (by simpa using hb)
    simp only [List.head?_cons, Option.mem_some_iff] at ha
    subst ha
    simp only [List.map_cons] at ih
    simp only [List.map_cons, diffs, List.sum_cons]
    rw [ih, clip_eq, max_eq_left (by have := h.1 y.1 (by simp); linarith)]
    ring

/-- **C55.** A record made twice at the same time with the same value changes nothing. -/
theorem C55_repeated_record (r s : Recording) (a : ℝ × ℝ) : spec (r ++ a :: a :: s) = spec (r ++ a :: s) := by
  have hstep : stepValue a a = 0 := by simp [stepValue]
  match r with
  | [] => simp [spec, hstep]
  | [b] =>
    have := C55_repeated_record [] s a
    simp only [List.nil_append] at this
    simp only [List.cons_append, List.nil_append, spec] at this ⊢
    rw [this]
  | b :: c :: r =>
    have := C55_repeated_record (c :: r) s a
    simp only [List.cons_append, spec] at this ⊢
    rw [this]

/-- **C55.** If the clock is set back (a chunk restarts from zero), that step counts nothing: the measure of the two recordings behind
each other is the sum of their measures. -/
theorem C55_chunks (r s : Recording) (a b : ℝ × ℝ) (h : b.1 ≤ a.1) :
    spec (r ++ a :: b :: s) = spec (r ++ [a]) + spec (b :: s) := by
  have hstep : stepValue a b = 0 := by
    unfold stepValue
    rw [max_eq_right (by linarith), zero_mul]
  match r with
  | [] => simp [spec, hstep]
  | [c] => simp [spec, hstep]
  | c :: d :: r =>
    have := C55_chunks (d :: r) s a b h
    simp only [List.cons_append, spec] at this ⊢
    rw [this]; ring

/-- **C55.** Monotone: a recording with pointwise larger values has a larger measure. -/
theorem C55_monotone : ∀ (r r' : Recording), List.Forall₂ (fun x y => x.1 = y.1 ∧ 0 < x.2 ∧ x.2 ≤ y.2) r r' → spec r ≤ spec r'
  | [], _, h => by cases h; exact le_rfl
  | [a], _, h => by
    cases h with
    | cons h1 h2 => cases h2; simp [spec]
  | a :: b :: l, _, h => by
    cases h with
    | cons h1 h2 =>
      cases h2 with
      | cons h3 h4 =>
        have ih := C55_monotone (b :: l) _ (List.Forall₂.cons h3 h4)
        simp only [spec]
        refine add_le_add ?_ ih
        unfold stepValue
        rw [h1.1, h3.1]
        refine mul_le_mul_of_nonneg_left ?_ (le_max_right _ _)
        exact Real.logb_le_logb_of_le (by norm_num) (by linarith [h1.2.1, h3.2.1]) (by linarith [h1.2.2, h3.2.2])

/-- **C55**, limits: recordings of different lengths (at least two steps each) are rejected. -/
theorem C55_lengths_rejected (t vs : List ℝ) (h : t.length ≠ vs.length) (ht : 3 ≤ t.length) (hv : 3 ≤ vs.length) :
    measure t vs = .error .valueError := by
  unfold measure sumProduct
  have e1 : ((diffs t).map clip).length = t.length - 1 := by simp [length_diffs]
  have e2 : ((mids vs).map log2).length = vs.length - 1 := by simp [length_mids]
  rw [if_neg (by rw [e1, e2]; omega)]
  match hd : (diffs t).map clip, hl : (mids vs).map log2 with
  | [], _ => rw [hd] at e1; simp only [List.length_nil] at e1; omega
  | [_], _ => rw [hd] at e1; simp only [List.length_cons, List.length_nil] at e1; omega
  | _ :: _ :: _, [] => rfl
  | _ :: _ :: _, [_] => rw [hl] at e2; simp only [List.length_cons, List.length_nil] at e2; omega
  | _ :: _ :: _, _ :: _ :: _ => rfl

theorem dot_const_left (d a : ℝ) : ∀ (vs : List ℝ) (k : Nat), (∀ v ∈ vs, 0 < v) →
    dot (List.replicate ((mids vs).map log2).length (max d 0)) ((mids vs).map log2) = some (spec ((vs.zipIdx k).map fun p => (a + p.2 * d, p.1)))
  | [], _, _ => rfl
  | [_], _, _ => rfl
  | u :: v :: l, k, h => by
    have ih := dot_const_left d a (v :: l) (k + 1) (fun x hx => h x (by simp at hx; simp; right; exact hx))
    have hu := h u (by simp)
    have hv := h v (by simp)
    have hl : log2 (1 / 2 * (u + v)) = some (Real.logb 2 ((u + v) / 2)) := by
      unfold log2
      rw [if_pos (by positivity)]
      congr 2; ring
    simp only [mids, List.map_cons, List.length_cons, List.replicate_succ, hl, dot, List.zipIdx_cons, spec] at ih ⊢
    rw [ih]
    simp only [Option.map_some, stepValue]
    congr 3
    congr 1
    push_cast
    ring

theorem dot_const_right (m : ℝ) (hm : 0 < m) : ∀ (t : List ℝ),
    dot ((diffs t).map clip) (List.replicate ((diffs t).map clip).length (log2 m)) = some (spec (t.map fun x => (x, m)))
  | [] => rfl
  | [_] => rfl
  | a :: b :: l => by
    have ih := dot_const_right m hm (b :: l)
    have hl : log2 m = some (Real.logb 2 m) := if_pos hm
    simp only [diffs, List.map_cons, List.length_cons, List.replicate_succ, hl, dot, spec] at ih ⊢
    rw [ih]
    simp only [Option.map_some, stepValue, clip_eq]
    congr 4
    ring

/-- **C55.** Recordings of different lengths are not always rejected: with two times and any other number of values the step is used for all values, as if they had been recorded at equal steps; with two
values and any other number of times their mean is used for all steps. -/
theorem C55_lengths_accepted (a b u v : ℝ) (hu : 0 < u) (hv : 0 < v) (t vs : List ℝ) (hvs : ∀ x ∈ vs, 0 < x) :
    measure [a, b] vs = .ok (some (spec (vs.zipIdx.map fun p => (a + p.2 * (b - a), p.1)))) ∧
      measure t [u, v] = .ok (some (spec (t.map fun x => (x, (u + v) / 2)))) := by
  constructor
  · have h := dot_const_left (b - a) a vs 0 hvs
    unfold measure sumProduct
    simp only [diffs, List.map_cons, List.map_nil, clip_eq]
    split
    · next hl => rw [← h, ← hl]; rfl
    · next hl => exact congrArg _ h
  · have h := dot_const_right ((u + v) / 2) (by positivity) t
    have e : log2 (1 / 2 * (u + v)) = log2 ((u + v) / 2) := by congr 1; ring
    unfold measure sumProduct
    simp only [mids, List.map_cons, List.map_nil, e]
    split
    · next hl => rw [← h, hl]; rfl
    · next hl =>
      split
      · next d heq =>
        rw [heq] at hl
        exact absurd rfl hl
      · rename_i y heq _
        cases heq
        exact congrArg _ h
      · next h1 h2 => exact absurd rfl (h2 _)

example : measure [0, 1] [2, 2, 6] = .ok (some (spec [(0, 2), (1, 2), (2, 6)])) := by
  have := (C55_lengths_accepted 0 1 1 1 one_pos one_pos [] [2, 2, 6] (by simp)).1
  rw [this]
  norm_num [List.zipIdx]

/-- **C55**, limits: with values that vanish the measure is not a finite number. -/
theorem C55_zero_values : measure [0, 1] [0, 0] = .ok none := by
  simp [measure, sumProduct, diffs, mids, log2, dot]

example : measure [0, 1, 3] [2, 2, 6] = .ok (some (spec [(0, 2), (1, 2), (3, 6)])) :=
  C55_measure [(0, 2), (1, 2), (3, 6)] (by simp)

end Verif.Complexity
