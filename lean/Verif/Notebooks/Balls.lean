import Verif.Notebooks.Lemmas
import Mathlib.Algebra.CharZero.Defs
import Mathlib.Tactic.FieldSimp
import Mathlib.Algebra.BigOperators.Ring.List

/-! # C109: the notebook on bouncing balls -/

namespace Verif.Notebooks
open Verif

variable {α K Y : Type} [Field K]

theorem column_ok (e : List (List K)) (m : ℕ) (h : ∀ r ∈ e, r.length = m) (j : ℕ) (hj : j < m) : (e.mapM fun row => item row j) = .ok (e.map fun row => (row[j]?).getD 0) :=
  mapM_ok _ _ _ fun r hr => by
    have := h r hr
    rw [item_get (by omega), List.getElem?_eq_getElem (by omega)]
    rfl

theorem columnMeans_ok (e : List (List K)) (m : ℕ) (h : ∀ r ∈ e, r.length = m) : columnMeans m e = .ok ((List.range m).map fun j => mean (e.map fun row => (row[j]?).getD 0)) := by
  unfold columnMeans
  refine mapM_ok _ _ _ fun j hj => ?_
  rw [column_ok e m h j (List.mem_range.1 hj)]
  rfl

/-- **C109.** The printed error for a time point is the mean, over all test sequences, of the errors at this time point. -/
theorem C109_time_point (d : Stats K Y) (m : ℕ) (h : ∀ r ∈ d.testErrors, r.length = m) (hne : d.testErrors ≠ []) :
    ∃ l, collectOnly m d = .ok l ∧ l.length = m ∧
      ∀ j < m, ∃ c, List.Forall₂ (fun (row : List K) x => row[j]? = some x) d.testErrors c ∧ l[j]? = some (some (c.sum / d.testErrors.length)) := by
  refine ⟨_, columnMeans_ok _ m h, by simp, ?_⟩
  intro j hj
  refine ⟨d.testErrors.map fun row => (row[j]?).getD 0, ?_, ?_⟩
  · rw [List.forall₂_map_right_iff]
    refine List.forall₂_same.2 fun r hr => ?_
    have := h r hr
    rw [List.getElem?_eq_getElem (by omega)]
    rfl
  · rw [List.getElem?_map, List.getElem?_range hj, Option.map_some, mean, List.length_map, if_neg fun h0 => hne (List.length_eq_zero_iff.1 h0)]

theorem sum_columns (e : List (List K)) (m : ℕ) (h : ∀ r ∈ e, r.length = m) :
    ((List.range m).map fun j => (e.map fun row => (row[j]?).getD 0).sum).sum = e.flatten.sum := by
  induction e with
  | nil => simp
  | cons r e ih =>
    rw [List.flatten_cons, List.sum_append, ← ih fun r hr => h r (List.mem_cons_of_mem _ hr)]
    have hr := h r (List.mem_cons_self ..)
    have h1 : (List.range m).map (fun j => (r[j]?).getD 0) = r := by
      refine List.ext_getElem? fun j => ?_
      by_cases hj : j < m
      · rw [List.getElem?_map, List.getElem?_range hj, Option.map_some, List.getElem?_eq_getElem (by omega)]
        rfl
      · rw [List.getElem?_eq_none (by simpa using hj), List.getElem?_eq_none (by omega)]
    conv_rhs => rw [← h1]
    rw [← List.sum_map_add]
    rfl

/-- **C109.** The mean over the time points that the notebook prints is the error that the program saved. -/
theorem C109_saved_error [CharZero K] (d : Stats K Y) (m : ℕ) (h : ∀ r ∈ d.testErrors, r.length = m) (hne : d.testErrors ≠ []) (hm : m ≠ 0) (hs : d.testError = savedError d.testErrors) :
    ∃ l x, collectOnly m d = .ok l ∧ d.testError = some x ∧ meanNan l = some x := by
  have hn : d.testErrors.length ≠ 0 := fun h0 => hne (List.length_eq_zero_iff.1 h0)
  have hlen : d.testErrors.flatten.length = d.testErrors.length * m := by
    rw [List.length_flatten, List.map_congr_left (g := fun _ => m) fun r hr => h r hr, List.map_const', List.sum_replicate, smul_eq_mul]
  have h1 : d.testError = some (d.testErrors.flatten.sum / (d.testErrors.length * m : ℕ)) := by
    rw [hs, savedError, mean, hlen, if_neg (Nat.mul_ne_zero hn hm)]
  refine ⟨_, _, columnMeans_ok _ m h, h1, ?_⟩
  have h2 : ((List.range m).map fun j => mean (d.testErrors.map fun row => (row[j]?).getD 0)) =
      ((List.range m).map fun j => (d.testErrors.map fun row => (row[j]?).getD 0).sum / (d.testErrors.length : K)).map some := by
    rw [List.map_map]
    refine List.map_congr_left fun j _ => ?_
    rw [mean, List.length_map, if_neg hn]
    rfl
  rw [h2, meanNan, if_pos (by simp), List.filterMap_map]
  have h3 : ∀ l : List K, l.filterMap (id ∘ some) = l := fun l => by
    rw [Function.id_comp]
    exact List.filterMap_some
  rw [h3, mean, List.length_map, List.length_range, if_neg hm]
  have h4 : ((List.range m).map fun j => (d.testErrors.map fun row => (row[j]?).getD 0).sum / (d.testErrors.length : K)).sum = d.testErrors.flatten.sum / d.testErrors.length := by
    rw [← sum_columns d.testErrors m h]
    generalize List.range m = ls
    induction ls with
    | nil => simp
    | cons j ls ih => rw [List.map_cons, List.sum_cons, ih, List.map_cons, List.sum_cons, add_div]
  rw [h4, div_div]
  push_cast
  rfl

/-- Two sequences with three time points. -/
def twoSequences : Stats ℚ ℕ := ⟨savedError [[1, 2, 3], [3, 4, 5]], [[1, 2, 3], [3, 4, 5]], [], []⟩

example : (∀ r ∈ twoSequences.testErrors, r.length = 3) ∧ twoSequences.testErrors ≠ [] ∧ twoSequences.testError = some 3 ∧ collectOnly 3 twoSequences = .ok [some 2, some 3, some 4] := by decide +kernel

/-- **C109.** The figure can be drawn exactly if the errors of ten time points were saved, as with the default of `--evaluate_ahead`; it shows the means at the times 1 to 10. -/
theorem C109_ten (d : Stats K Y) (m batch : ℕ) (h : ∀ r ∈ d.testErrors, r.length = m) :
    (m = 10 → ∃ l c, collectOnly m d = .ok l ∧ collectPlots m d batch [] = .ok ([], c, l) ∧ ∀ j < 10, ∃ x, l[j]? = some x ∧ c[j]? = some (j + 1, x)) ∧
      (m ≠ 10 → collectPlots m d batch [] = .error .valueError) := by
  have h1 := columnMeans_ok d.testErrors m h
  have hl : ((List.range m).map fun j => mean (d.testErrors.map fun row => (row[j]?).getD 0)).length = m := by rw [List.length_map, List.length_range]
  generalize ((List.range m).map fun j => mean (d.testErrors.map fun row => (row[j]?).getD 0)) = l at h1 hl
  have h0 : (([] : List ℕ).mapM fun sid => samplePictures d batch sid) = .ok [] := rfl
  constructor
  · rintro rfl
    refine ⟨l, (List.range' 1 10).zip l, h1, ?_, ?_⟩
    · unfold collectPlots
      simp only [bind, Except.bind, h0, h1, plotTen]
      rw [if_pos hl]
    · intro j hj
      refine ⟨l[j]'(by omega), List.getElem?_eq_getElem _, ?_⟩
      rw [(List.getElem?_zip_eq_some (z := (j + 1, l[j]'(by omega)))).2 ⟨?_, List.getElem?_eq_getElem _⟩]
      rw [List.getElem?_range' hj]
      congr 1
      omega
  · intro hm
    unfold collectPlots
    simp only [bind, Except.bind, h0, h1, plotTen]
    rw [if_neg (by omega)]

omit [Field K] in
theorem ten_items (s : List Y) (h : 10 ≤ s.length) : ((List.range 10).mapM fun i => item s i) = .ok (s.take 10) := by
  let d : Y := s[0]'(by omega)
  refine (mapM_ok _ (fun i => (s[i]?).getD d) _ ?_).trans ?_
  · intro i hi
    rw [List.mem_range] at hi
    rw [item_get (by omega), List.getElem?_eq_getElem (by omega)]
    rfl
  · congr 1
    refine List.ext_getElem? fun i => ?_
    by_cases hi : i < 10
    · rw [List.getElem?_map, List.getElem?_range hi, List.getElem?_take_of_lt hi, Option.map_some, List.getElem?_eq_getElem (by omega)]
      rfl
    · rw [List.getElem?_eq_none (by simpa using hi), List.getElem?_eq_none (by rw [List.length_take]; omega)]

omit [Field K] in
/-- **C109.** The two rows for a sample are its first ten predictions and the ten true pictures of the same sample. -/
theorem C109_rows (d : Stats K Y) (batch sid : ℕ) (rb vb : List (List Y)) (r v : List Y) (h1 : d.hat[batch]? = some rb) (h2 : d.tru[batch]? = some vb) (h3 : rb[sid]? = some r)
    (h4 : vb[sid]? = some v) (hr : 10 ≤ r.length) (hv : 10 ≤ v.length) : samplePictures d batch sid = .ok (r.take 10, v.take 10) := by
  unfold samplePictures
  simp only [bind, Except.bind, item_ok.2 h1, item_ok.2 h2, item_ok.2 h3, item_ok.2 h4, ten_items r hr, ten_items v hv]

example : ∃ d : Stats ℚ ℕ, samplePictures d 0 1 = .ok (List.range 10, List.range' 5 10) :=
  ⟨⟨none, [], [[[], List.range 12]], [[[], List.range' 5 12]]⟩, by decide +kernel⟩

end Verif.Notebooks
