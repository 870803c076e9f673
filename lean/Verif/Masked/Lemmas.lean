import Verif.Masked.Model
import Mathlib.Data.List.Dedup
import Mathlib.Algebra.BigOperators.Group.List.Basic

namespace Verif.Masked
open Verif

theorem valid_nodup (T : Nat) (i : Int) : (valid T i).Nodup := by
  refine List.Nodup.filter _ (List.Nodup.map (fun a b h => ?_) List.nodup_range)
  simpa using h

theorem mem_valid (T : Nat) (i k : Int) : k ∈ valid T i ↔ 0 ≤ k ∧ k < T ∧ k ≠ i := by
  unfold valid
  simp only [List.mem_filter, List.mem_map, List.mem_range, decide_eq_true_eq]
  constructor
  · rintro ⟨⟨a, ha, rfl⟩, h⟩
    exact ⟨by simp, by simpa using ha, h⟩
  · rintro ⟨h0, h1, h⟩
    exact ⟨⟨k.toNat, by omega, by simp [h0]⟩, h⟩

theorem valid_length_in (T : Nat) (i : Int) (h0 : 0 ≤ i) (h1 : i < T) : (valid T i).length = T - 1 := by
  have h : (i :: valid T i).Perm ((List.range T).map Int.ofNat) := by
    refine (List.perm_ext_iff_of_nodup (List.nodup_cons.2 ⟨by simp [mem_valid], valid_nodup T i⟩)
      (List.Nodup.map (fun a b h => by simpa using h) List.nodup_range)).2 fun k => ?_
    simp only [List.mem_cons, mem_valid, List.mem_map, List.mem_range]
    constructor
    · rintro (rfl | ⟨a, b, c⟩)
      · exact ⟨k.toNat, by omega, by simp [h0]⟩
      · exact ⟨k.toNat, by omega, by simp [a]⟩
    · rintro ⟨a, ha, rfl⟩
      by_cases hk : Int.ofNat a = i
      · exact Or.inl hk
      · exact Or.inr ⟨by simp, by simpa using ha, hk⟩
  have := h.length_eq
  simp at this
  omega

theorem valid_length_out (T : Nat) (i : Int) (h : ¬ (0 ≤ i ∧ i < T)) : (valid T i).length = T := by
  unfold valid
  rw [List.filter_eq_self.2]
  · simp
  · intro a ha
    simp only [List.mem_map, List.mem_range] at ha
    obtain ⟨b, hb, rfl⟩ := ha
    simp only [decide_eq_true_eq]
    rintro rfl
    exact h ⟨by simp, by simpa using hb⟩

/-- What is taken off the front of a shuffled list. -/
def cut {α : Type} (n : Int) (l : List α) : Nat := if 0 ≤ n then n.toNat else l.length - (-n).toNat

theorem pyTake_eq {α : Type} (n : Int) (l : List α) : pyTake n l = l.take (cut n l) := by
  unfold pyTake cut
  split <;> rfl

theorem select_perm (n i : Int) (l : List Int) (hl : l.Nodup) (hi : i ∉ l) : (select n i l).Perm (l.drop (cut n l)) := by
  have hd : l.dedup = l := List.dedup_eq_self.2 hl
  have hs := List.perm_insertionSort (· ≤ ·) l
  refine (List.perm_ext_iff_of_nodup ?_ (hl.sublist (List.drop_sublist _ _))).2 fun k => ?_
  · unfold select setdiff
    rw [hd]
    exact (hs.nodup_iff.2 hl).filter _
  · unfold select setdiff
    rw [hd, pyTake_eq]
    simp only [List.mem_filter, hs.mem_iff, List.mem_append, List.mem_singleton, decide_eq_true_eq, not_or]
    have hsplit := List.take_append_drop (cut n l) l
    have hdis : List.Disjoint (l.take (cut n l)) (l.drop (cut n l)) := by
      have := hl
      rw [← hsplit] at this
      exact (List.nodup_append'.1 this).2.2
    constructor
    · rintro ⟨h1, h2, _⟩
      rw [← hsplit, List.mem_append] at h1
      exact h1.resolve_left h2
    · intro h
      have hm : k ∈ l := List.mem_of_mem_drop h
      exact ⟨hm, fun h' => hdis h' h, fun h' => hi (h' ▸ hm)⟩

theorem select_sorted (n i : Int) (l : List Int) (hl : l.Nodup) : (select n i l).Pairwise (· < ·) := by
  unfold select setdiff
  rw [List.dedup_eq_self.2 hl]
  refine List.Pairwise.filter _ ?_
  have h1 : (l.insertionSort (· ≤ ·)).Pairwise (· ≤ ·) := List.pairwise_insertionSort _ l
  have h2 : (l.insertionSort (· ≤ ·)).Pairwise (· ≠ ·) := (List.perm_insertionSort (· ≤ ·) l).nodup_iff.2 hl
  exact (h1.and h2).imp fun h => lt_of_le_of_ne h.1 h.2

theorem select_length (n i : Int) (l : List Int) (hl : l.Nodup) (hi : i ∉ l) : (select n i l).length = l.length - cut n l := by
  rw [(select_perm n i l hl hi).length_eq, List.length_drop]

theorem mapM_ok {β γ : Type} (f : β → Py γ) (g : β → γ) (l : List β) (h : ∀ x ∈ l, f x = .ok (g x)) : l.mapM f = .ok (l.map g) := by
  induction l with
  | nil => rfl
  | cons x xs ih =>
    rw [List.mapM_cons, h x (by simp), ih fun y hy => h y (by simp [hy])]
    rfl

theorem gatherRow_ok {α : Type} (T : Nat) (row : Nat → α) (idx : List Int) (h : ∀ k ∈ idx, 0 ≤ k ∧ k < T) :
    gatherRow T row idx = .ok (idx.map fun k => row k.toNat) := by
  unfold gatherRow
  rw [if_pos]
  simpa [List.all_eq_true] using h

theorem flatten_length_const {α : Type} (c : Nat) (l : List (List α)) (h : ∀ x ∈ l, x.length = c) : l.flatten.length = l.length * c := by
  induction l with
  | nil => simp
  | cons x xs ih =>
    rw [List.flatten_cons, List.length_append, h x (by simp), ih fun y hy => h y (by simp [hy])]
    simp [Nat.add_mul, Nat.add_comm]

/-- Cutting a list of `N * M` entries into `N` pieces of `M`: putting the pieces together gives the list. -/
theorem flatten_pieces {α : Type} (M : Nat) : ∀ (N : Nat) (l : List α), l.length = N * M →
    (((List.range N).map fun n => (l.drop (n * M)).take M).flatten) = l := by
  intro N
  induction N with
  | zero => intro l h; simp at h; simp [h]
  | succ N ih =>
    intro l h
    rw [List.range_succ_eq_map, List.map_cons, List.flatten_cons, List.map_map]
    have := ih (l.drop M) (by rw [List.length_drop, h, Nat.add_mul]; omega)
    have e : ((fun n => (l.drop (n * M)).take M) ∘ Nat.succ) = fun n => ((l.drop M).drop (n * M)).take M := by
      funext n
      simp [List.drop_drop, Nat.succ_mul, Nat.add_comm]
    rw [e, this]
    simp

/-- Cutting a list of `N` rows of `M` entries, put together, into `N` pieces gives the rows. -/
theorem pieces_flatten {α : Type} (M : Nat) (l : List (List α)) (h : ∀ x ∈ l, x.length = M) :
    ((List.range l.length).map fun n => (l.flatten.drop (n * M)).take M) = l := by
  induction l with
  | nil => rfl
  | cons x xs ih =>
    rw [List.length_cons, List.range_succ_eq_map, List.map_cons, List.map_map]
    have hx := h x (by simp)
    have e : ((fun n => ((x :: xs).flatten.drop (n * M)).take M) ∘ Nat.succ) = fun n => (xs.flatten.drop (n * M)).take M := by
      funext n
      simp only [Function.comp, List.flatten_cons, Nat.succ_mul]
      rw [Nat.add_comm, ← List.drop_drop, List.drop_left' hx]
    rw [e, ih fun y hy => h y (by simp [hy])]
    simp [List.take_left' hx]

theorem zipIdx_range {α : Type} (N : Nat) (f : Nat → α) : ((List.range N).map f).zipIdx = (List.range N).map fun n => (f n, n) := by
  refine List.ext_getElem (by simp) fun n h1 h2 => ?_
  simp

/-- Two lists of rows over the same indices, compared entry by entry. -/
theorem sum_zip {α β γ : Type} (sq : α → γ → ℝ) (g : β → γ) (a : Nat → Nat → α) (b : Nat → Nat → β) (l : List (List Int × Nat)) :
    (List.zipWith sq (l.map fun p => p.1.map fun k => a p.2 k.toNat).flatten ((l.map fun p => p.1.map fun k => b k.toNat p.2).flatten.map g)).sum =
      (l.map fun p => (p.1.map fun k => sq (a p.2 k.toNat) (g (b k.toNat p.2))).sum).sum := by
  induction l with
  | nil => simp
  | cons p ps ih =>
    rw [List.map_cons, List.map_cons, List.map_cons, List.flatten_cons, List.flatten_cons, List.map_append, List.zipWith_append (by simp), List.sum_append, ih, List.sum_cons]
    congr 2
    rw [List.map_map, List.zipWith_map_left, List.zipWith_map_right, List.zipWith_self]
    rfl

end Verif.Masked
