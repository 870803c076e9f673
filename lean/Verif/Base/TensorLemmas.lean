import Verif.Base.Tensor

/-!
# Lemmas about tensors
-/

namespace Verif
namespace Tensor

variable {α : Type _}

@[simp] theorem vol_nil : vol [] = 1 := rfl
@[simp] theorem vol_cons (n : Nat) (s : List Nat) : vol (n :: s) = n * vol s := rfl

@[simp] theorem rows_length (m n : Nat) (d : List α) : (rows m n d).length = n := by
  induction n generalizing d with
  | zero => rfl
  | succ n ih => simp [rows, ih]

theorem rows_flatten (m : Nat) (xs : List (List α)) (h : ∀ x ∈ xs, x.length = m) :
    rows m xs.length xs.flatten = xs := by
  induction xs with
  | nil => rfl
  | cons x xs ih =>
    simp only [List.mem_cons, forall_eq_or_imp] at h
    simp only [List.length_cons, rows, List.flatten_cons]
    rw [← h.1, List.take_left, List.drop_left, h.1, ih h.2]

theorem flatten_rows (m n : Nat) (d : List α) (h : d.length = n * m) : (rows m n d).flatten = d := by
  induction n generalizing d with
  | zero => simp at h; subst h; rfl
  | succ n ih =>
    simp only [rows, List.flatten_cons]
    rw [ih _ (by simp [h, Nat.succ_mul])]
    exact List.take_append_drop m d

theorem mem_rows_length (m n : Nat) (d : List α) (h : d.length = n * m) :
    ∀ x ∈ rows m n d, x.length = m := by
  induction n generalizing d with
  | zero => intro x hx; cases hx
  | succ n ih =>
    intro x hx
    simp only [rows, List.mem_cons] at hx
    rcases hx with rfl | hx
    · simp [h, Nat.succ_mul]
    · exact ih (d.drop m) (by simp [h, Nat.succ_mul]) x hx

theorem rows_getElem (m n : Nat) (d : List α) (i : Nat) (hi : i < (rows m n d).length) :
    (rows m n d)[i] = (d.drop (i * m)).take m := by
  induction n generalizing d i with
  | zero => simp at hi
  | succ n ih =>
    cases i with
    | zero => simp [rows]
    | succ i =>
      simp only [rows, List.getElem_cons_succ]
      rw [ih, List.drop_drop]
      congr 2
      rw [Nat.succ_mul, Nat.add_comm]

theorem length_flatten_const {xs : List (List α)} {n : Nat} (h : ∀ r ∈ xs, r.length = n) :
    xs.flatten.length = xs.length * n := by
  induction xs with
  | nil => simp
  | cons r rs ih =>
    simp only [List.mem_cons, forall_eq_or_imp] at h
    simp [ih h.2, h.1, Nat.succ_mul, Nat.add_comm]

/-! ## Compat -/

theorem Compat.length {k : Nat} {s s' : List Nat} (h : Compat k s s') :
    s.length = s'.length ∧ k < s.length := by
  induction k generalizing s s' with
  | zero =>
    cases s with
    | nil => simp [Compat] at h
    | cons n s => cases s' with
      | nil => simp [Compat] at h
      | cons n' s' => simp [Compat] at h; simp [h]
  | succ k ih =>
    cases s with
    | nil => simp [Compat] at h
    | cons n s => cases s' with
      | nil => simp [Compat] at h
      | cons n' s' =>
        simp only [Compat] at h
        have := ih h.2
        simp; omega

theorem Compat.refl {k : Nat} {s : List Nat} (h : k < s.length) : Compat k s s := by
  induction k generalizing s with
  | zero => cases s with
    | nil => simp at h
    | cons n s => simp [Compat]
  | succ k ih => cases s with
    | nil => simp at h
    | cons n s => simp only [Compat, true_and]; exact ih (by simpa using h)

theorem Compat.symm {k : Nat} {s s' : List Nat} (h : Compat k s s') : Compat k s' s := by
  induction k generalizing s s' with
  | zero =>
    cases s <;> cases s' <;> simp_all [Compat]
  | succ k ih =>
    cases s with
    | nil => simp [Compat] at h
    | cons n s => cases s' with
      | nil => simp [Compat] at h
      | cons n' s' =>
        simp only [Compat] at h ⊢
        exact ⟨h.1.symm, ih h.2⟩

theorem Compat.trans {k : Nat} {s s' s'' : List Nat} (h : Compat k s s') (h' : Compat k s' s'') :
    Compat k s s'' := by
  induction k generalizing s s' s'' with
  | zero =>
    cases s <;> cases s' <;> cases s'' <;> simp_all [Compat]
  | succ k ih =>
    cases s with
    | nil => simp [Compat] at h
    | cons n s => cases s' with
      | nil => simp [Compat] at h
      | cons n' s' => cases s'' with
        | nil => simp [Compat] at h'
        | cons n'' s'' =>
          simp only [Compat] at h h' ⊢
          exact ⟨h.1.trans h'.1, ih h.2 h'.2⟩

theorem Compat.set {k : Nat} {s : List Nat} (x : Nat) (h : k < s.length) : Compat k (s.set k x) s := by
  induction k generalizing s with
  | zero => cases s with
    | nil => simp at h
    | cons n s => simp [Compat]
  | succ k ih => cases s with
    | nil => simp at h
    | cons n s =>
      simp only [List.set_cons_succ, Compat, true_and]; exact ih (by simpa using h)

theorem Compat.eq {k : Nat} {s s' : List Nat} (h : Compat k s s')
    (hk : dimSize s k = dimSize s' k) : s = s' := by
  induction k generalizing s s' with
  | zero => cases s <;> cases s' <;> simp_all [Compat, dimSize]
  | succ k ih =>
    cases s with
    | nil => simp [Compat] at h
    | cons n s => cases s' with
      | nil => simp [Compat] at h
      | cons n' s' =>
        simp only [Compat] at h
        rw [h.1, ih h.2 (by simpa [dimSize] using hk)]

theorem Compat.set_eq {k : Nat} {s s' : List Nat} (h : Compat k s s') : s.set k (dimSize s' k) = s' := by
  refine ((Compat.set _ h.length.2).trans h).eq ?_
  simp [dimSize, List.getD, h.length.2]

@[simp] theorem dimSize_set {k : Nat} {s : List Nat} (x : Nat) (h : k < s.length) :
    dimSize (s.set k x) k = x := by
  simp [dimSize, List.getD, h]

/-! ## Data level facts about concatenation and slices -/

theorem catData_length {k : Nat} {s s' : List Nat} {a b : List α} (h : Compat k s s')
    (ha : a.length = vol s) (hb : b.length = vol s') :
    (catData k s s' a b).length = vol (s.set k (dimSize s k + dimSize s' k)) := by
  induction k generalizing s s' a b with
  | zero =>
    cases s with
    | nil => simp [Compat] at h
    | cons n s => cases s' with
      | nil => simp [Compat] at h
      | cons n' s' =>
        simp only [Compat] at h
        subst h
        simp [catData, ha, hb, dimSize, Nat.add_mul]
  | succ k ih =>
    cases s with
    | nil => simp [Compat] at h
    | cons n s => cases s' with
      | nil => simp [Compat] at h
      | cons n' s' =>
        simp only [Compat] at h
        obtain ⟨rfl, h⟩ := h
        simp only [catData, List.set_cons_succ, vol_cons]
        have key : ∀ x ∈ List.zipWith (catData k s s') (rows (vol s) n a) (rows (vol s') n b),
            x.length = vol (s.set k (dimSize s k + dimSize s' k)) := by
          intro x hx
          obtain ⟨i, hi, rfl⟩ := List.getElem_of_mem hx
          rw [List.getElem_zipWith]
          apply ih h
          · exact mem_rows_length _ _ _ ha _ (List.getElem_mem _)
          · exact mem_rows_length _ _ _ hb _ (List.getElem_mem _)
        rw [length_flatten_const key]
        simp [dimSize]

/-- Rows of a concatenation in a later dimension. -/
theorem rows_cat {k n : Nat} {s s' : List Nat} {a b : List α} (h : Compat k s s')
    (ha : a.length = vol (n :: s)) (hb : b.length = vol (n :: s')) :
    rows (vol (s.set k (dimSize s k + dimSize s' k))) n
      (List.zipWith (catData k s s') (rows (vol s) n a) (rows (vol s') n b)).flatten
      = List.zipWith (catData k s s') (rows (vol s) n a) (rows (vol s') n b) := by
  have hl : ∀ y ∈ List.zipWith (catData k s s') (rows (vol s) n a) (rows (vol s') n b),
      y.length = vol (s.set k (dimSize s k + dimSize s' k)) := by
    intro y hy
    obtain ⟨i, hi, rfl⟩ := List.getElem_of_mem hy
    rw [List.getElem_zipWith]
    exact catData_length h (mem_rows_length _ _ _ ha _ (List.getElem_mem _))
      (mem_rows_length _ _ _ hb _ (List.getElem_mem _))
  have hr := rows_flatten _ _ hl
  rwa [List.length_zipWith, rows_length, rows_length, Nat.min_self] at hr

theorem flatMap_range'_rows (m n : Nat) (d : List α) (h : d.length = n * m) :
    (List.range' 0 n).flatMap (fun i => (d.drop (i * m)).take m) = d := by
  have : (List.range' 0 n).map (fun i => (d.drop (i * m)).take m) = rows m n d := by
    apply List.ext_getElem
    · simp
    · intro i h1 h2
      rw [rows_getElem]
      simp
  rw [List.flatMap_def, this, flatten_rows m n d h]

/-- The slice covering a whole dimension is everything. -/
theorem selData_full {k : Nat} {s : List Nat} {a : List α} (hk : k < s.length)
    (ha : a.length = vol s) : selData k s (List.range' 0 (dimSize s k)) a = a := by
  induction k generalizing s a with
  | zero =>
    cases s with
    | nil => simp at hk
    | cons n s =>
      simp only [selData, dimSize, List.getD_cons_zero]
      exact flatMap_range'_rows _ _ _ ha
  | succ k ih =>
    cases s with
    | nil => simp at hk
    | cons n s =>
      simp only [selData]
      have hd : dimSize (n :: s) (k + 1) = dimSize s k := by simp [dimSize]
      rw [hd, List.flatMap_def]
      have : (rows (vol s) n a).map (selData k s (List.range' 0 (dimSize s k))) = rows (vol s) n a := by
        conv_rhs => rw [← List.map_id (rows (vol s) n a)]
        apply List.map_congr_left
        intro x hx
        exact ih (by simpa using hk) (mem_rows_length _ _ _ ha x hx)
      rw [this, flatten_rows _ _ _ ha]

/-- A slice inside the first part of a concatenation is that slice of the first part. -/
theorem selData_cat_left {k : Nat} {s s' : List Nat} {a b : List α} (h : Compat k s s')
    (ha : a.length = vol s) (hb : b.length = vol s') (sel : List Nat)
    (hsel : ∀ i ∈ sel, i < dimSize s k) :
    selData k (s.set k (dimSize s k + dimSize s' k)) sel (catData k s s' a b)
      = selData k s sel a := by
  induction k generalizing s s' a b with
  | zero =>
    cases s with
    | nil => simp [Compat] at h
    | cons n s => cases s' with
      | nil => simp [Compat] at h
      | cons n' s' =>
        simp only [Compat] at h
        subst h
        simp only [catData, List.set_cons_zero, selData]
        rw [List.flatMap_def, List.flatMap_def]
        congr 1
        apply List.map_congr_left
        intro i hi
        have := hsel i hi
        simp only [dimSize, List.getD_cons_zero] at this
        have hle : i * vol s + vol s ≤ a.length := by
          rw [ha, vol_cons, ← Nat.succ_mul]
          exact Nat.mul_le_mul_right _ this
        rw [List.drop_append_of_le_length (by omega), List.take_append_of_le_length (by simp; omega)]
  | succ k ih =>
    cases s with
    | nil => simp [Compat] at h
    | cons n s => cases s' with
      | nil => simp [Compat] at h
      | cons n' s' =>
        simp only [Compat] at h
        obtain ⟨rfl, h⟩ := h
        simp only [catData, List.set_cons_succ, selData]
        have hd : dimSize (n :: s) (k + 1) = dimSize s k := by simp [dimSize]
        have hd' : dimSize (n :: s') (k + 1) = dimSize s' k := by simp [dimSize]
        rw [hd] at hsel
        rw [hd, hd', rows_cat h ha hb, List.flatMap_def, List.flatMap_def]
        congr 1
        apply List.ext_getElem
        · simp
        · intro i h1 h2
          simp only [List.getElem_map, List.getElem_zipWith]
          exact ih h (mem_rows_length _ _ _ ha _ (List.getElem_mem _))
            (mem_rows_length _ _ _ hb _ (List.getElem_mem _)) hsel

/-- A slice inside the second part of a concatenation is the shifted slice of the second part. -/
theorem selData_cat_right {k : Nat} {s s' : List Nat} {a b : List α} (h : Compat k s s')
    (ha : a.length = vol s) (hb : b.length = vol s') (sel : List Nat) :
    selData k (s.set k (dimSize s k + dimSize s' k)) (sel.map (fun i => dimSize s k + i))
      (catData k s s' a b) = selData k s' sel b := by
  induction k generalizing s s' a b with
  | zero =>
    cases s with
    | nil => simp [Compat] at h
    | cons n s => cases s' with
      | nil => simp [Compat] at h
      | cons n' s' =>
        simp only [Compat] at h
        subst h
        simp only [catData, List.set_cons_zero, selData]
        rw [List.flatMap_map, List.flatMap_def, List.flatMap_def]
        congr 1
        apply List.map_congr_left
        intro i hi
        simp only [dimSize, List.getD_cons_zero]
        rw [Nat.add_mul]
        have : n * vol s = a.length := by rw [ha, vol_cons]
        rw [this, List.drop_append, List.drop_of_length_le (by omega)]
        simp
  | succ k ih =>
    cases s with
    | nil => simp [Compat] at h
    | cons n s => cases s' with
      | nil => simp [Compat] at h
      | cons n' s' =>
        simp only [Compat] at h
        obtain ⟨rfl, h⟩ := h
        simp only [catData, List.set_cons_succ, selData]
        have hd : dimSize (n :: s) (k + 1) = dimSize s k := by simp [dimSize]
        have hd' : dimSize (n :: s') (k + 1) = dimSize s' k := by simp [dimSize]
        rw [hd, hd', rows_cat h ha hb, List.flatMap_def, List.flatMap_def]
        congr 1
        apply List.ext_getElem
        · simp
        · intro i h1 h2
          simp only [List.getElem_map, List.getElem_zipWith]
          exact ih h (mem_rows_length _ _ _ ha _ (List.getElem_mem _))
            (mem_rows_length _ _ _ hb _ (List.getElem_mem _))

theorem selData_length {k : Nat} {s : List Nat} {a : List α} (hk : k < s.length)
    (ha : a.length = vol s) (sel : List Nat) (hsel : ∀ i ∈ sel, i < dimSize s k) :
    (selData k s sel a).length = vol (s.set k sel.length) := by
  induction k generalizing s a with
  | zero =>
    cases s with
    | nil => simp at hk
    | cons n s =>
      simp only [selData, List.set_cons_zero, vol_cons, List.flatMap_def]
      rw [length_flatten_const (n := vol s)]
      · simp
      · intro r hr
        obtain ⟨i, hi, rfl⟩ := List.mem_map.1 hr
        have := hsel i hi
        simp only [dimSize, List.getD_cons_zero] at this
        have hle : i * vol s + vol s ≤ a.length := by
          rw [ha, vol_cons, ← Nat.succ_mul]
          exact Nat.mul_le_mul_right _ this
        simp; omega
  | succ k ih =>
    cases s with
    | nil => simp at hk
    | cons n s =>
      simp only [selData, List.set_cons_succ, vol_cons, List.flatMap_def]
      rw [length_flatten_const (n := vol (s.set k sel.length))]
      · simp
      · intro r hr
        obtain ⟨x, hx, rfl⟩ := List.mem_map.1 hr
        exact ih (by simpa using hk) (mem_rows_length _ _ _ ha _ hx)
          (by simpa [dimSize] using hsel)

/-- Cutting a dimension in two and concatenating the pieces gives everything back. -/
theorem catData_split {k : Nat} {s : List Nat} {a : List α} (hk : k < s.length)
    (ha : a.length = vol s) (n m : Nat) (hnm : n + m = dimSize s k) :
    catData k (s.set k n) (s.set k m) (selData k s (List.range' 0 n) a)
      (selData k s (List.range' n m) a) = a := by
  induction k generalizing s a with
  | zero =>
    cases s with
    | nil => simp at hk
    | cons N s =>
      simp only [catData, selData]
      rw [← List.flatMap_append]
      have : List.range' 0 n ++ List.range' n m = List.range' 0 N := by
        have h := List.range'_append (s := 0) (m := n) (n := m) (step := 1)
        simp only [Nat.zero_add, Nat.one_mul] at h
        rw [h]
        simp only [dimSize, List.getD_cons_zero] at hnm
        rw [hnm]
      rw [this]
      exact flatMap_range'_rows _ _ _ ha
  | succ k ih =>
    cases s with
    | nil => simp at hk
    | cons N s =>
      simp only [List.set_cons_succ, catData, selData, List.flatMap_def]
      have hk' : k < s.length := by simpa using hk
      have hnm' : n + m = dimSize s k := by simpa [dimSize] using hnm
      have r1 : rows (vol (s.set k n)) N
          ((rows (vol s) N a).map (selData k s (List.range' 0 n))).flatten
          = (rows (vol s) N a).map (selData k s (List.range' 0 n)) := by
        have := rows_flatten (vol (s.set k n)) ((rows (vol s) N a).map (selData k s (List.range' 0 n)))
          (by
            intro x hx
            obtain ⟨y, hy, rfl⟩ := List.mem_map.1 hx
            rw [selData_length hk' (mem_rows_length _ _ _ ha _ hy) _ (by
              intro i hi; simp at hi; omega)]
            simp)
        simpa using this
      have r2 : rows (vol (s.set k m)) N
          ((rows (vol s) N a).map (selData k s (List.range' n m))).flatten
          = (rows (vol s) N a).map (selData k s (List.range' n m)) := by
        have := rows_flatten (vol (s.set k m)) ((rows (vol s) N a).map (selData k s (List.range' n m)))
          (by
            intro x hx
            obtain ⟨y, hy, rfl⟩ := List.mem_map.1 hx
            rw [selData_length hk' (mem_rows_length _ _ _ ha _ hy) _ (by
              intro i hi; simp at hi; omega)]
            simp)
        simpa using this
      rw [r1, r2]
      have : List.zipWith (catData k (s.set k n) (s.set k m))
          ((rows (vol s) N a).map (selData k s (List.range' 0 n)))
          ((rows (vol s) N a).map (selData k s (List.range' n m))) = rows (vol s) N a := by
        apply List.ext_getElem
        · simp
        · intro i h1 h2
          simp only [List.getElem_zipWith, List.getElem_map]
          exact ih hk' (mem_rows_length _ _ _ ha _ (List.getElem_mem _)) hnm'
      rw [this, flatten_rows _ _ _ ha]

/-! ## Element access -/

/-- Element access into a selection. -/
theorem getData?_selData {k : Nat} {s : List Nat} {a : List α} (hk : k < s.length)
    (ha : a.length = vol s) (sel : List Nat) (hsel : ∀ i ∈ sel, i < dimSize s k)
    (idx : List Nat) (hidx : idx.length = s.length) :
    getData? (s.set k sel.length) (selData k s sel a) idx =
      match sel[idx.getD k 0]? with
      | none => none
      | some j => getData? s a (idx.set k j) := by
  induction k generalizing s a idx with
  | zero =>
    cases s with
    | nil => simp at hk
    | cons n s => cases idx with
      | nil => simp at hidx
      | cons i is =>
        simp only [List.set_cons_zero, getData?, List.getD_cons_zero, selData]
        by_cases hi : i < sel.length
        · rw [if_pos hi, List.getElem?_eq_getElem hi]
          have hj := hsel _ (List.getElem_mem hi)
          simp only [dimSize, List.getD_cons_zero] at hj
          simp only [hj, if_true]
          have hl : ∀ x ∈ sel.map (fun i => (a.drop (i * vol s)).take (vol s)), x.length = vol s := by
            intro r hr
            obtain ⟨i, hi, rfl⟩ := List.mem_map.1 hr
            have := hsel i hi
            simp only [dimSize, List.getD_cons_zero] at this
            have hle : i * vol s + vol s ≤ a.length := by
              rw [ha, vol_cons, ← Nat.succ_mul]
              exact Nat.mul_le_mul_right _ this
            simp; omega
          have hr := rows_flatten _ _ hl
          rw [List.flatMap_def]
          have hlen : i < (rows (vol s) (sel.map (fun i => (a.drop (i * vol s)).take (vol s))).length
            (sel.map (fun i => (a.drop (i * vol s)).take (vol s))).flatten).length := by simpa using hi
          have e := rows_getElem (vol s) _ _ i hlen
          rw [← e]
          simp only [hr, List.getElem_map]
        · rw [if_neg hi, List.getElem?_eq_none (by omega)]
  | succ k ih =>
    cases s with
    | nil => simp at hk
    | cons n s => cases idx with
      | nil => simp at hidx
      | cons i is =>
        have hk' : k < s.length := by simpa using hk
        simp only [List.set_cons_succ, getData?, List.getD_cons_succ, selData]
        by_cases hi : i < n
        · rw [if_pos hi]
          have hl : ∀ x ∈ (rows (vol s) n a).map (selData k s sel), x.length = vol (s.set k sel.length) := by
            intro x hx
            obtain ⟨y, hy, rfl⟩ := List.mem_map.1 hx
            exact selData_length hk' (mem_rows_length _ _ _ ha _ hy) _ (by simpa [dimSize] using hsel)
          have hr := rows_flatten _ _ hl
          rw [List.flatMap_def]
          have hlen : i < (rows (vol (s.set k sel.length)) ((rows (vol s) n a).map (selData k s sel)).length
            ((rows (vol s) n a).map (selData k s sel)).flatten).length := by simpa using hi
          have e := rows_getElem _ _ _ i hlen
          rw [← e]
          simp only [hr, List.getElem_map]
          rw [ih hk' (mem_rows_length _ _ _ ha _ (List.getElem_mem _)) (by simpa [dimSize] using hsel)
            is (by simpa using hidx)]
          cases sel[is.getD k 0]? with
          | none => rfl
          | some j => simp only [hi, if_true]; rw [rows_getElem]
        · rw [if_neg hi]
          cases sel[is.getD k 0]? with
          | none => rfl
          | some j => simp [hi]

/-- Element access into a concatenation. -/
theorem getData?_catData {k : Nat} {s s' : List Nat} {a b : List α} (h : Compat k s s')
    (ha : a.length = vol s) (hb : b.length = vol s') (idx : List Nat) (hidx : idx.length = s.length) :
    getData? (s.set k (dimSize s k + dimSize s' k)) (catData k s s' a b) idx =
      if idx.getD k 0 < dimSize s k then getData? s a idx
      else getData? s' b (idx.set k (idx.getD k 0 - dimSize s k)) := by
  induction k generalizing s s' a b idx with
  | zero =>
    cases s with
    | nil => simp [Compat] at h
    | cons n s => cases s' with
      | nil => simp [Compat] at h
      | cons n' s' => cases idx with
        | nil => simp at hidx
        | cons i is =>
          simp only [Compat] at h
          subst h
          simp only [List.set_cons_zero, getData?, List.getD_cons_zero, catData, dimSize]
          by_cases hi : i < n
          · have hle : i * vol s + vol s ≤ a.length := by
              rw [ha, vol_cons, ← Nat.succ_mul]
              exact Nat.mul_le_mul_right _ hi
            rw [if_pos (by omega), if_pos hi, if_pos hi, List.drop_append_of_le_length (by omega),
              List.take_append_of_le_length (by simp; omega)]
          · by_cases hi' : i < n + n'
            · rw [if_pos hi', if_neg hi, if_pos (by omega)]
              have e : i * vol s = a.length + (i - n) * vol s := by
                rw [ha, vol_cons, ← Nat.add_mul]; congr 1; omega
              rw [e, List.drop_append, List.drop_of_length_le (by omega)]
              simp
            · rw [if_neg hi', if_neg hi, if_neg (by omega)]
  | succ k ih =>
    cases s with
    | nil => simp [Compat] at h
    | cons n s => cases s' with
      | nil => simp [Compat] at h
      | cons n' s' => cases idx with
        | nil => simp at hidx
        | cons i is =>
          simp only [Compat] at h
          obtain ⟨rfl, h⟩ := h
          have hd : dimSize (n :: s) (k + 1) = dimSize s k := by simp [dimSize]
          have hd' : dimSize (n :: s') (k + 1) = dimSize s' k := by simp [dimSize]
          simp only [List.set_cons_succ, getData?, List.getD_cons_succ, catData, hd, hd']
          by_cases hi : i < n
          · simp only [hi, if_true]
            have hr := rows_cat h ha hb
            have hlen : i < (rows (vol (s.set k (dimSize s k + dimSize s' k))) n
              (List.zipWith (catData k s s') (rows (vol s) n a) (rows (vol s') n b)).flatten).length := by
              simpa using hi
            have e := rows_getElem _ _ _ i hlen
            rw [← e]
            simp only [hr, List.getElem_zipWith]
            rw [ih h (mem_rows_length _ _ _ ha _ (List.getElem_mem _))
              (mem_rows_length _ _ _ hb _ (List.getElem_mem _)) is (by simpa using hidx)]
            rw [rows_getElem, rows_getElem]
          · simp [hi]

theorem getData?_isSome_iff (s : List Nat) (a : List α) (ha : a.length = vol s) (idx : List Nat) :
    (getData? s a idx).isSome ↔ idx.length = s.length ∧ ∀ k, k < s.length → idx.getD k 0 < dimSize s k := by
  induction s generalizing a idx with
  | nil =>
    cases idx with
    | nil => simp [getData?, ha]
    | cons i is => simp [getData?]
  | cons n s ih =>
    cases idx with
    | nil => simp [getData?]
    | cons i is =>
      simp only [getData?]
      by_cases hi : i < n
      · have hle : i * vol s + vol s ≤ a.length := by
          rw [ha, vol_cons, ← Nat.succ_mul]
          exact Nat.mul_le_mul_right _ hi
        rw [if_pos hi, ih _ (by simp; omega)]
        simp only [List.length_cons, Nat.add_right_cancel_iff]
        constructor
        · rintro ⟨h1, h2⟩
          refine ⟨h1, ?_⟩
          intro k hk
          cases k with
          | zero => simpa [dimSize] using hi
          | succ k => simpa [dimSize] using h2 k (by omega)
        · rintro ⟨h1, h2⟩
          refine ⟨h1, ?_⟩
          intro k hk
          simpa [dimSize] using h2 (k + 1) (by omega)
      · rw [if_neg hi]
        simp only [Option.isSome_none, Bool.false_eq_true, false_iff, not_and]
        intro _ h
        have := h 0 (by simp)
        simp [dimSize] at this
        exact hi this

/-- Tensors with the same shape and the same elements are equal. -/
theorem data_ext (s : List Nat) (a b : List α) (ha : a.length = vol s) (hb : b.length = vol s)
    (h : ∀ idx, getData? s a idx = getData? s b idx) : a = b := by
  induction s generalizing a b with
  | nil =>
    have := h []
    simp only [getData?] at this
    cases a with
    | nil => simp at ha
    | cons x a => cases b with
      | nil => simp at hb
      | cons y b =>
        simp only [vol_nil, List.length_cons] at ha hb
        simp only [List.getElem?_cons_zero, Option.some.injEq] at this
        have ha' : a = [] := List.length_eq_zero_iff.1 (by omega)
        have hb' : b = [] := List.length_eq_zero_iff.1 (by omega)
        rw [this, ha', hb']
  | cons n s ih =>
    rw [← flatten_rows _ _ _ ha, ← flatten_rows _ _ _ hb]
    congr 1
    apply List.ext_getElem
    · simp
    · intro i h1 h2
      apply ih
      · exact mem_rows_length _ _ _ ha _ (List.getElem_mem _)
      · exact mem_rows_length _ _ _ hb _ (List.getElem_mem _)
      · intro idx
        have := h (i :: idx)
        simp only [rows_length] at h1
        simp only [getData?, h1, if_true] at this
        rw [rows_getElem, rows_getElem, this]

/-! ## Tensor level -/

theorem WF.cat2 {k : Nat} {a b : Tensor α} (ha : a.WF) (hb : b.WF) (h : Compat k a.shape b.shape) :
    (cat2 k a b).WF := catData_length h ha hb

theorem compat_cat2 {k : Nat} {a b : Tensor α} (h : Compat k a.shape b.shape) :
    Compat k (cat2 k a b).shape a.shape := Compat.set _ h.length.2

@[simp] theorem dimSize_cat2 {k : Nat} {a b : Tensor α} (h : Compat k a.shape b.shape) :
    dimSize (cat2 k a b).shape k = dimSize a.shape k + dimSize b.shape k :=
  dimSize_set _ h.length.2

/-- A slice that ends inside the first operand. -/
theorem sliceDim_cat_left {k : Nat} {a b : Tensor α} (ha : a.WF) (hb : b.WF)
    (h : Compat k a.shape b.shape) (lo hi : Nat) (hhi : hi ≤ dimSize a.shape k) :
    (cat2 k a b).sliceDim k lo hi = a.sliceDim k lo hi := by
  have hm : List.range' (min lo (dimSize (cat2 k a b).shape k))
      (min hi (dimSize (cat2 k a b).shape k) - min lo (dimSize (cat2 k a b).shape k))
      = List.range' (min lo (dimSize a.shape k)) (min hi (dimSize a.shape k) - min lo (dimSize a.shape k)) := by
    rw [dimSize_cat2 h]
    by_cases hlo : lo ≤ dimSize a.shape k
    · congr 1 <;> omega
    · have e1 : min hi (dimSize a.shape k + dimSize b.shape k)
          - min lo (dimSize a.shape k + dimSize b.shape k) = 0 := by omega
      have e2 : min hi (dimSize a.shape k) - min lo (dimSize a.shape k) = 0 := by omega
      rw [e1, e2]; rfl
  simp only [sliceDim, hm, select]
  congr 1
  · simp only [cat2, List.set_set]
  · simp only [cat2]
    exact selData_cat_left h ha hb _ (by intro i hi'; simp at hi'; omega)

/-- The slice that is the second operand. -/
theorem sliceDim_cat_right {k : Nat} {a b : Tensor α} (ha : a.WF) (hb : b.WF)
    (h : Compat k a.shape b.shape) :
    (cat2 k a b).sliceDim k (dimSize a.shape k) (dimSize a.shape k + dimSize b.shape k) = b := by
  have hm : List.range' (min (dimSize a.shape k) (dimSize (cat2 k a b).shape k))
      (min (dimSize a.shape k + dimSize b.shape k) (dimSize (cat2 k a b).shape k)
        - min (dimSize a.shape k) (dimSize (cat2 k a b).shape k))
      = (List.range' 0 (dimSize b.shape k)).map (fun i => dimSize a.shape k + i) := by
    rw [dimSize_cat2 h, List.map_add_range']
    congr 1 <;> omega
  simp only [sliceDim, hm, select]
  obtain ⟨bs, bd⟩ := b
  congr 1
  · simp only [cat2, List.set_set, List.length_map, List.length_range']
    exact h.set_eq
  · simp only [cat2]
    rw [selData_cat_right h ha hb]
    exact selData_full (by rw [← h.length.1]; exact h.length.2) hb

theorem sliceDim_full {k : Nat} {a : Tensor α} (ha : a.WF) (hk : k < a.shape.length) :
    a.sliceDim k 0 (dimSize a.shape k) = a := by
  obtain ⟨s, d⟩ := a
  simp only [sliceDim, select, Nat.zero_min, Nat.min_self, Nat.sub_zero]
  congr 1
  · simp only [List.length_range']
    exact (Compat.refl hk).set_eq
  · exact selData_full hk ha

theorem sliceDim_wf {k : Nat} {a : Tensor α} (ha : a.WF) (hk : k < a.shape.length) (lo hi : Nat) :
    (a.sliceDim k lo hi).WF :=
  selData_length hk ha _ (by intro i hi'; simp at hi'; omega)

/-- Cutting at `n` and concatenating again. -/
theorem cat2_sliceDim {k : Nat} {a : Tensor α} (ha : a.WF) (hk : k < a.shape.length) (n m : Nat)
    (hnm : n + m = dimSize a.shape k) :
    cat2 k (a.sliceDim k 0 n) (a.sliceDim k n (n + m)) = a := by
  obtain ⟨s, d⟩ := a
  simp only at hnm hk
  have e1 : (⟨s, d⟩ : Tensor α).sliceDim k 0 n = ⟨s.set k n, selData k s (List.range' 0 n) d⟩ := by
    simp only [sliceDim, select]
    have : min n (dimSize s k) = n := by omega
    simp [this]
  have e2 : (⟨s, d⟩ : Tensor α).sliceDim k n (n + m) = ⟨s.set k m, selData k s (List.range' n m) d⟩ := by
    simp only [sliceDim, select]
    have : min n (dimSize s k) = n := by omega
    have h2 : min (n + m) (dimSize s k) - n = m := by omega
    simp [this, h2]
  rw [e1, e2]
  simp only [cat2, dimSize_set _ hk, List.set_set]
  congr 1
  · rw [hnm]; exact (Compat.refl hk).set_eq
  · exact catData_split hk ha n m hnm

/-- Consecutive slices concatenate to one slice. -/
theorem cat2_sliceDim_adjacent {k : Nat} {a : Tensor α} (ha : a.WF) (hk : k < a.shape.length)
    (n m : Nat) (hnm : n + m ≤ dimSize a.shape k) :
    cat2 k (a.sliceDim k 0 n) (a.sliceDim k n (n + m)) = a.sliceDim k 0 (n + m) := by
  have h1 := cat2_sliceDim ha hk (n + m) (dimSize a.shape k - (n + m)) (by omega)
  have hc : Compat k (a.sliceDim k 0 (n + m)).shape
      (a.sliceDim k (n + m) (n + m + (dimSize a.shape k - (n + m)))).shape := by
    simp only [sliceDim, select]
    exact (Compat.set _ hk).trans (Compat.set _ hk).symm
  have hd : dimSize (a.sliceDim k 0 (n + m)).shape k = n + m := by
    simp only [sliceDim, select]
    rw [dimSize_set _ hk]
    simp; omega
  have hk' : k < (a.sliceDim k 0 (n + m)).shape.length := by simpa [sliceDim, select] using hk
  have h2 := cat2_sliceDim (a := a.sliceDim k 0 (n + m)) (sliceDim_wf ha hk _ _) hk' n m hd.symm
  have e1 := sliceDim_cat_left (sliceDim_wf ha hk 0 (n + m)) (sliceDim_wf ha hk _ _) hc 0 n (by omega)
  have e2 := sliceDim_cat_left (sliceDim_wf ha hk 0 (n + m)) (sliceDim_wf ha hk _ _) hc n (n + m)
    (by omega)
  rw [h1] at e1 e2
  rw [← e1, ← e2] at h2
  exact h2

end Tensor
end Verif
