import Verif.Striding.Model
import Verif.Base.TensorLemmas

namespace Verif.Striding
open Verif Tensor

variable {α : Type}

theorem slicePositions_length (n s : Nat) (hs : 0 < s) :
    (slicePositions n (n % s) s).length = n / s := by
  unfold slicePositions
  rw [List.length_range']
  have h1 : n - n % s = s * (n / s) := by have := Nat.div_add_mod n s; omega
  have h2 : (s - 1) / s = 0 := Nat.div_eq_of_lt (by omega)
  rw [h1, Nat.mul_add_div hs, h2, Nat.add_zero]

theorem slicePositions_getElem? (n s : Nat) (hs : 0 < s) (j : Nat) :
    (slicePositions n (n % s) s)[j]? = if j < n / s then some (n % s + s * j) else none := by
  have hl := slicePositions_length n s hs
  by_cases hj : j < n / s
  · rw [if_pos hj, List.getElem?_eq_getElem (by omega)]
    simp [slicePositions]
  · rw [if_neg hj, List.getElem?_eq_none (by omega)]

theorem position_lt {n s j : Nat} (hj : j < n / s) : n % s + s * j < n := by
  have h1 := Nat.div_add_mod n s
  have h2 : s * (j + 1) ≤ s * (n / s) := Nat.mul_le_mul_left _ hj
  have hs : 0 < s := by
    rcases Nat.eq_zero_or_pos s with h | h
    · subst h; simp at hj
    · exact h
  rw [Nat.mul_add, Nat.mul_one] at h2
  omega

theorem mem_slicePositions {n s i : Nat} (hs : 0 < s) (h : i ∈ slicePositions n (n % s) s) : i < n := by
  obtain ⟨j, hj, rfl⟩ := List.getElem_of_mem h
  have h1 := slicePositions_getElem? n s hs j
  rw [slicePositions_length n s hs] at hj
  rw [if_pos hj, List.getElem?_eq_some_iff] at h1
  rw [h1.2]
  exact position_lt hj

theorem strideSingle_ok (t : Tensor α) (s d : Nat) (hs : 0 < s) (h2 : 2 ≤ d) (h5 : d ≤ 5)
    (hd : d < t.shape.length) :
    strideSingle t s d = .ok (t.select d (slicePositions (dimSize t.shape d) (dimSize t.shape d % s) s)) := by
  unfold strideSingle
  rw [if_neg (by omega), if_neg (by omega), if_neg (by omega), if_neg (by omega), if_neg (by omega)]
  rfl

theorem select_shape (t : Tensor α) (s d : Nat) (hs : 0 < s) :
    (t.select d (slicePositions (dimSize t.shape d) (dimSize t.shape d % s) s)).shape
      = t.shape.set d (dimSize t.shape d / s) := by
  simp only [select, slicePositions_length _ _ hs]

theorem select_wf (t : Tensor α) (ht : t.WF) (s d : Nat) (hs : 0 < s) (hd : d < t.shape.length) :
    (t.select d (slicePositions (dimSize t.shape d) (dimSize t.shape d % s) s)).WF :=
  selData_length hd ht _ (fun _ hi => mem_slicePositions hs hi)

theorem select_get? (t : Tensor α) (ht : t.WF) (s d : Nat) (hs : 0 < s) (hd : d < t.shape.length)
    (idx : List Nat) (hidx : idx.length = t.shape.length) :
    (t.select d (slicePositions (dimSize t.shape d) (dimSize t.shape d % s) s)).get? idx =
      if idx.getD d 0 < dimSize t.shape d / s
      then t.get? (idx.set d (dimSize t.shape d % s + s * idx.getD d 0)) else none := by
  have h := getData?_selData hd ht (slicePositions (dimSize t.shape d) (dimSize t.shape d % s) s)
    (fun _ hi => mem_slicePositions hs hi) idx hidx
  unfold get? select
  rw [h, slicePositions_getElem? _ _ hs]
  split
  · next h1 =>
    split at h1
    · cases h1
    · next h2 => rw [if_neg h2]
  · next j h1 =>
    split at h1
    · next h2 => cases h1; rw [if_pos h2]
    · cases h1

theorem dimSize_set_ne {s : List Nat} {k d x : Nat} (h : k ≠ d) : dimSize (s.set d x) k = dimSize s k := by
  simp [dimSize, List.getD, Ne.symm h]

end Verif.Striding
