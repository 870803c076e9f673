import Verif.Batches.Model
import Mathlib.Data.List.Basic
import Mathlib.Algebra.Order.Ring.Int

/-!
# C54: training windows stay inside the data
-/

namespace Verif.Batches
open Verif

variable {α Y τ : Type}

/-- The start indices from which windows of `batchTime` points are drawn: all but the last possible one. -/
def Starts (n : Nat) (batchTime : Int) (i : Nat) : Prop := (i : Int) + batchTime < n

theorem arange_iff (n : Nat) (b : Int) (i : Nat) : i ∈ arange (n - b) ↔ Starts n b i := by
  unfold arange Starts
  rw [List.mem_range]
  omega

theorem distances_length (dist : Y → Y → α) (y : List Y) : (distances dist y).length = y.length - 1 := by
  simp [distances]

theorem selection_ok [LinearOrder α] (ratio : α → α → Int) (d : List α) (b : Int) (hb : 2 ≤ b) (l : List Nat) (h : selection ratio d b = .ok l) :
    ∃ m ∈ d, (∀ a ∈ d.take (d.length - (b - 1).toNat), m ≤ a) ∧
      ∀ i, i ∈ l ↔ ∃ a, d[i]? = some a ∧ (i : Int) + b < d.length + 1 ∧ 0 < ratio a m := by
  have ht : pyTake d (-(b - 1)) = d.take (d.length - (b - 1).toNat) := by
    unfold pyTake
    rw [if_pos (by omega)]
    congr 1
    omega
  unfold selection at h
  rw [ht] at h
  simp only [bind, Except.bind] at h
  cases hd : d.take (d.length - (b - 1).toNat) with
  | nil => rw [hd] at h; cases h
  | cons x xs =>
    have hmin : ∀ (xs : List α) (x : α), xs.foldl min x ∈ x :: xs ∧ ∀ a ∈ x :: xs, xs.foldl min x ≤ a := by
      intro xs
      induction xs with
      | nil => intro x; simp
      | cons y ys ih =>
        intro x
        obtain ⟨h1, h2⟩ := ih (min x y)
        rw [List.foldl_cons]
        constructor
        · rcases List.mem_cons.1 h1 with h1 | h1
          · rw [h1]
            rcases min_choice x y with h | h <;> rw [h] <;> simp
          · exact List.mem_cons_of_mem _ (List.mem_cons_of_mem _ h1)
        · intro a ha
          rcases List.mem_cons.1 ha with rfl | ha
          · exact le_trans (h2 _ List.mem_cons_self) (min_le_left _ _)
          · rcases List.mem_cons.1 ha with rfl | ha
            · exact le_trans (h2 _ List.mem_cons_self) (min_le_right _ _)
            · exact h2 a (List.mem_cons_of_mem _ ha)
    rw [hd] at h
    simp only [minimum, Except.ok.injEq] at h
    obtain ⟨h1, h2⟩ := hmin xs x
    refine ⟨xs.foldl min x, ?_, h2, ?_⟩
    · rw [← hd] at h1
      exact List.mem_of_mem_take h1
    · intro i
      rw [← h, ← hd, List.mem_flatMap]
      constructor
      · rintro ⟨⟨k, j⟩, hm, hr⟩
        rw [List.mem_replicate] at hr
        obtain ⟨hr1, rfl⟩ := hr
        rw [List.mem_zipIdx_iff_getElem?, List.getElem?_map, List.getElem?_take] at hm
        by_cases hi : i < d.length - (b - 1).toNat
        · simp only [hi, if_true] at hm
          cases hdi : d[i]? with
          | none => rw [hdi] at hm; cases hm
          | some a =>
            rw [hdi] at hm
            simp only [Option.map_some, Option.some.injEq] at hm
            refine ⟨a, rfl, by omega, ?_⟩
            rw [hm]
            dsimp only at hr1
            omega
        · simp only [hi, if_false] at hm
          cases hm
      · rintro ⟨a, h3, h4, h5⟩
        refine ⟨(ratio a (xs.foldl min x), i), ?_, ?_⟩
        · rw [List.mem_zipIdx_iff_getElem?, List.getElem?_map, List.getElem?_take, if_pos (by omega), h3]
          rfl
        · rw [List.mem_replicate]
          exact ⟨by dsimp only; omega, rfl⟩

/-- C54: every index of the array of the distance-based sampling leaves room for a whole window. -/
theorem C54_selection_inside [LinearOrder α] (dist : Y → Y → α) (ratio : α → α → Int) (y : List Y) (b : Int) (hb : 1 ≤ b) (l : List Nat)
    (h : selection ratio (distances dist y) b = .ok l) : ∀ i ∈ l, Starts y.length b i := by
  by_cases hb1 : b = 1
  · subst hb1
    unfold selection pyTake at h
    simp only [bind, Except.bind] at h
    rw [if_neg (by decide)] at h
    cases h
  · obtain ⟨m, _, _, h3⟩ := selection_ok ratio _ b (by omega) l h
    intro i hi
    obtain ⟨a, h4, h5, _⟩ := (h3 i).1 hi
    have : i < (distances dist y).length := by
      by_contra hn
      rw [List.getElem?_eq_none (by omega)] at h4
      cases h4
    rw [distances_length] at h5 this
    unfold Starts
    omega

/-- C54: if rounded quotients of at least 1 are at least 1, every start index is in the array: both ways of sampling draw from the same indices. -/
theorem C54_selection_all [LinearOrder α] (dist : Y → Y → α) (ratio : α → α → Int) (hr : ∀ a m, m ≤ a → 1 ≤ ratio a m) (y : List Y) (b : Int) (hb : 1 ≤ b)
    (l : List Nat) (h : selection ratio (distances dist y) b = .ok l) (i : Nat) : i ∈ l ↔ i ∈ arange (y.length - b) := by
  rw [arange_iff]
  constructor
  · exact C54_selection_inside dist ratio y b hb l h i
  · intro hi
    by_cases hb1 : b = 1
    · subst hb1
      unfold selection pyTake at h
      simp only [bind, Except.bind] at h
      rw [if_neg (by decide)] at h
      cases h
    · obtain ⟨m, _, h2, h3⟩ := selection_ok ratio _ b (by omega) l h
      unfold Starts at hi
      have hl := distances_length dist y
      have hlt : i < (distances dist y).length := by omega
      refine (h3 i).2 ⟨(distances dist y)[i], List.getElem?_eq_getElem hlt, by omega, ?_⟩
      have hm : (distances dist y)[i] ∈ (distances dist y).take ((distances dist y).length - (b - 1).toNat) := by
        rw [List.mem_iff_getElem?]
        refine ⟨i, ?_⟩
        rw [List.getElem?_take, if_pos (by omega)]
        exact List.getElem?_eq_getElem hlt
      have := hr _ m (h2 _ hm)
      omega

/-- C54: the array exists exactly if a window has at least two points and is shorter than the trajectory. -/
theorem C54_selection_exists [LinearOrder α] (dist : Y → Y → α) (ratio : α → α → Int) (y : List Y) (b : Int) (hb : 1 ≤ b) :
    (∃ l, selection ratio (distances dist y) b = .ok l) ↔ 2 ≤ b ∧ b < y.length := by
  have hl := distances_length dist y
  constructor
  · rintro ⟨l, h⟩
    by_contra hn
    have : pyTake (distances dist y) (-(b - 1)) = [] := by
      unfold pyTake
      split
      · rw [show ((distances dist y).length + -(b - 1)).toNat = 0 by omega, List.take_zero]
      · rw [show (-(b - 1)).toNat = 0 by omega, List.take_zero]
    unfold selection at h
    rw [this] at h
    cases h
  · rintro ⟨h1, h2⟩
    have : pyTake (distances dist y) (-(b - 1)) ≠ [] := by
      unfold pyTake
      rw [if_pos (by omega), Ne, List.take_eq_nil_iff, not_or]
      refine ⟨by omega, fun h => ?_⟩
      rw [h, List.length_nil] at hl
      omega
    unfold selection
    obtain ⟨x, xs, hx⟩ := List.exists_cons_of_ne_nil this
    rw [hx]
    exact ⟨_, rfl⟩

theorem choice_mem (a draws s : List Nat) (h : choice a draws = .ok s) : (∀ i ∈ s, i ∈ a) ∧ s.length = draws.length := by
  cases a with
  | nil =>
    unfold choice at h
    by_cases hd : draws = []
    · rw [if_pos hd] at h
      cases h
      rw [hd]
      simp
    · rw [if_neg hd] at h
      cases h
  | cons x l =>
    unfold choice at h
    simp only [Except.ok.injEq] at h
    subst h
    refine ⟨?_, by simp⟩
    intro i hi
    obtain ⟨d, _, rfl⟩ := List.mem_map.1 hi
    have hlt : d % (x :: l).length < (x :: l).length := Nat.mod_lt _ (by simp)
    rw [List.getD_eq_getElem?_getD, List.getElem?_eq_getElem hlt]
    exact List.getElem_mem _

theorem gather_ok (y : List Y) (s : List Nat) (h : ∀ i ∈ s, i < y.length) :
    ∃ out, gather y s = .ok out ∧ out.length = s.length ∧ ∀ (j i : Nat), s[j]? = some i → out[j]? = y[i]? := by
  induction s with
  | nil => exact ⟨[], rfl, rfl, by simp⟩
  | cons i s ih =>
    obtain ⟨out, h1, h2, h3⟩ := ih fun k hk => h k (List.mem_cons_of_mem _ hk)
    have hi : i < y.length := h i (by simp)
    refine ⟨y[i] :: out, ?_, by simp [h2], ?_⟩
    · unfold gather at h1 ⊢
      rw [List.mapM_cons, h1, List.getElem?_eq_getElem hi]
      rfl
    · intro j k hj
      cases j with
      | zero =>
        simp only [List.getElem?_cons_zero, Option.some.injEq] at hj
        rw [← hj, List.getElem?_cons_zero, List.getElem?_eq_getElem hi]
      | succ j => exact h3 j k hj

theorem mapM_range_ok {β : Type} (f : Nat → Py β) (n : Nat) (h : ∀ i < n, ∃ v, f i = .ok v) :
    ∃ out, (List.range n).mapM f = .ok out ∧ out.length = n ∧ ∀ i < n, ∃ v, f i = .ok v ∧ out[i]? = some v := by
  have key : ∀ (l : List Nat), (∀ i ∈ l, ∃ v, f i = .ok v) → ∃ out, l.mapM f = .ok out ∧ out.length = l.length ∧
      ∀ (j i : Nat), l[j]? = some i → ∃ v, f i = .ok v ∧ out[j]? = some v := by
    intro l
    induction l with
    | nil => intro _; exact ⟨[], rfl, rfl, by simp⟩
    | cons a l ih =>
      intro hl
      obtain ⟨v, hv⟩ := hl a (by simp)
      obtain ⟨out, h1, h2, h3⟩ := ih fun i hi => hl i (List.mem_cons_of_mem _ hi)
      refine ⟨v :: out, ?_, by simp [h2], ?_⟩
      · rw [List.mapM_cons, hv, h1]
        rfl
      · intro j i hj
        cases j with
        | zero =>
          simp only [List.getElem?_cons_zero, Option.some.injEq] at hj
          rw [← hj]
          exact ⟨v, hv, rfl⟩
        | succ j => exact h3 j i hj
  obtain ⟨out, h1, h2, h3⟩ := key (List.range n) (fun i hi => h i (List.mem_range.1 hi))
  exact ⟨out, h1, by rw [h2, List.length_range], fun i hi => h3 i i (List.getElem?_range hi)⟩

/-- C54: whatever is drawn, every window lies inside the trajectory: getting a batch never fails after the draw, the window of each drawn start index
`i` consists of the points `i, ..., i + batchTime - 1` of the trajectory, starts at the initial value handed out with it, and comes with
`batchTime` times. -/
theorem C54_windows [LinearOrder α] (dist : Y → Y → α) (ratio : α → α → Int) (y : List Y) (t : List τ) (ht : t.length = y.length) (b : Int) (hb : 1 ≤ b)
    (uniform : List Nat) (distanceBased : Bool) (hu : distanceBased = true → selection ratio (distances dist y) b = .ok uniform) (draws s : List Nat)
    (hs : choice (if distanceBased then uniform else arange (t.length - b)) draws = .ok s) :
    ∃ y0 ys, getBatch y t uniform b distanceBased draws = .ok (y0, t.take b.toNat, ys) ∧ s.length = draws.length ∧
      ((ys.length : Int) = b) ∧ y0.length = draws.length ∧ (draws ≠ [] → ((t.take b.toNat).length : Int) = b) ∧
      ∀ (j i : Nat), s[j]? = some i → ((i : Int) + b < y.length) ∧ y0[j]? = y[i]? ∧
        ∀ k < b.toNat, ∃ row, ys[k]? = some row ∧ row.length = draws.length ∧ row[j]? = y[i + k]? ∧ i + k < y.length := by
  have hmem := choice_mem _ _ _ hs
  have hin : ∀ i ∈ s, (i : Int) + b < y.length := by
    intro i hi
    have := hmem.1 i hi
    cases distanceBased with
    | true => exact C54_selection_inside dist ratio y b hb uniform (hu rfl) i this
    | false =>
      simp only [Bool.false_eq_true, if_false] at this
      rw [arange_iff, ht] at this
      exact this
  obtain ⟨y0, h1, h2, h3⟩ := gather_ok y s (fun i hi => by have := hin i hi; omega)
  have hrow : ∀ k < b.toNat, ∃ row, gather y (s.map (· + k)) = .ok row ∧ row.length = s.length ∧
      ∀ (j i : Nat), s[j]? = some i → row[j]? = y[i + k]? := by
    intro k hk
    obtain ⟨row, g1, g2, g3⟩ := gather_ok y (s.map (· + k)) (fun i hi => by
      obtain ⟨i', hi', rfl⟩ := List.mem_map.1 hi
      have := hin i' hi'
      omega)
    refine ⟨row, g1, by rw [g2, List.length_map], ?_⟩
    intro j i hj
    exact g3 j (i + k) (by rw [List.getElem?_map, hj]; rfl)
  obtain ⟨ys, h4, h5, h6⟩ := mapM_range_ok (fun k => gather y (s.map (· + k))) b.toNat (fun k hk => by
    obtain ⟨row, g1, _⟩ := hrow k hk
    exact ⟨row, g1⟩)
  refine ⟨y0, ys, ?_, hmem.2, by omega, by rw [h2, hmem.2], ?_, ?_⟩
  · unfold getBatch
    rw [hs]
    simp only [bind, Except.bind]
    rw [h1]
    dsimp only
    rw [h4]
    dsimp only
    rw [if_neg (by intro he; rw [he, List.length_nil] at h5; omega)]
    unfold pyTake
    rw [if_neg (by omega)]
  · intro hne
    rw [List.length_take]
    have : s ≠ [] := by
      intro he
      rw [he, List.length_nil] at hmem
      exact hne (List.length_eq_zero_iff.1 hmem.2.symm)
    obtain ⟨i, s', rfl⟩ := List.exists_cons_of_ne_nil this
    have := hin i (by simp)
    omega
  · intro j i hj
    have hi := hin i (List.mem_of_getElem? hj)
    refine ⟨hi, h3 j i hj, ?_⟩
    intro k hk
    obtain ⟨row, g1, g2, g3⟩ := hrow k hk
    obtain ⟨v, e1, e2⟩ := h6 k hk
    have : v = row := by
      have := e1.symm.trans g1
      cases this
      rfl
    subst this
    exact ⟨v, e2, by rw [g2, hmem.2], g3 j i hj, by omega⟩

/-- C54: drawing fails exactly if there is no start index (and something is to be drawn). -/
theorem C54_draw_fails_iff (a draws : List Nat) : choice a draws = .error .valueError ↔ a = [] ∧ draws ≠ [] := by
  cases a with
  | nil =>
    unfold choice
    by_cases hd : draws = []
    · simp [hd]
    · simp [hd]
  | cons x l => simp [choice]

/-- C54: the last possible window (the one that ends at the last point) is never drawn. -/
theorem C54_last_window_never [LinearOrder α] (dist : Y → Y → α) (ratio : α → α → Int) (y : List Y) (b : Int) (hb : 1 ≤ b) (i : Nat)
    (hi : (i : Int) + b = y.length) :
    i ∉ arange (y.length - b) ∧ ∀ l, selection ratio (distances dist y) b = .ok l → i ∉ l := by
  constructor
  · rw [arange_iff]
    unfold Starts
    omega
  · intro l hl hm
    have := C54_selection_inside dist ratio y b hb l hl i hm
    unfold Starts at this
    omega

/-- C54: the weights are as many as the points (for at least two points). -/
theorem C54_weights (dist : Y → Y → α) (y : List Y) (h : 2 ≤ y.length) : (allDistances (distances dist y)).length = y.length := by
  have := distances_length dist y
  unfold allDistances
  rw [List.length_append, List.length_drop]
  omega

/-- Points on a line, window of two points: distances 1, 2, 1, 3. -/
example : selection (fun a m => a / m) (distances (fun a b => a - b) [0, 1, 3, 4, (7 : ℤ)]) 2 = .ok [0, 1, 1, 2] := rfl
example : getBatch [0, 1, 3, 4, (7 : ℤ)] ["a", "b", "c", "d", "e"] [0, 1, 1, 2] 2 true [2, 7, 0] = .ok ([1, 3, 0], ["a", "b"], [[1, 3, 0], [3, 4, 1]]) := rfl
/-- Windows of one point: the array of the distance-based sampling cannot be made. -/
example : selection (fun a m => a / m) (distances (fun a b => a - b) [0, 1, 3, 4, (7 : ℤ)]) 1 = .error .runtimeError := rfl

end Verif.Batches
