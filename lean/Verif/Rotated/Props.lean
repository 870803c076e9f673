import Verif.Rotated.Model
import Verif.Spheres.Props
import Verif.Masked.Props

/-!
# C106: the rotated digits are split, shuffled and evaluated without loss
-/

namespace Verif.Rotated
open Verif

variable {α I L : Type}

theorem squeeze_shape {m : Nat} (hm : m ≠ 1) : ([m, 16, 784] : List Nat).filter (· ≠ 1) = [m, 16, 784] := by
  simp [List.filter, hm]

theorem entry3 {x : List α} {n i t k : Nat} (hi : i < n) (ht : t < 16) (hk : k < 784) : Tensor.getData? [n, 16, 784] x [i, t, k] = x[i * 12544 + t * 784 + k]? := by
  simp only [Tensor.getData?, vol, hi, ht, hk, if_true, List.getElem?_take, List.getElem?_drop, Nat.mul_one, Nat.add_zero, Nat.reduceMul]
  rw [if_pos (by omega), if_pos (by omega)]
  exact congrArg (x[·]?) (by omega)

theorem entry5 {x : List α} {n i t r c : Nat} (hi : i < n) (ht : t < 16) (hr : r < 28) (hc : c < 28) : Tensor.getData? [n, 16, 1, 28, 28] x [i, t, 0, r, c] = x[i * 12544 + t * 784 + r * 28 + c]? := by
  simp only [Tensor.getData?, vol, hi, ht, hr, hc, if_true, show 0 < 1 by decide, List.getElem?_take, List.getElem?_drop, Nat.mul_one, Nat.one_mul, Nat.zero_mul, Nat.add_zero, Nat.reduceMul]
  rw [if_pos (by omega), if_pos (by omega), if_pos (by omega)]
  exact congrArg (x[·]?) (by omega)

/-- **C106.** With at least 500 sequences the first 500 are for training, the others for testing, in the order of the file: the pixel in row `r` and column `c` of an image is the entry `28 r + c` of the image in the file. -/
theorem C106_split (file : Tensor α) (m : Nat) (hs : file.shape = [m, 16, 784]) (hw : file.WF) (hm : 500 ≤ m) :
    ∃ tr te, loadData file = .ok (tr, te, 500, 16) ∧ tr.shape = [500, 16, 1, 28, 28] ∧ te.shape = [m - 500, 16, 1, 28, 28] ∧ tr.WF ∧ te.WF ∧
      (∀ i t r c, i < 500 → t < 16 → r < 28 → c < 28 → tr.get? [i, t, 0, r, c] = file.get? [i, t, 28 * r + c]) ∧
      (∀ i t r c, i < m - 500 → t < 16 → r < 28 → c < 28 → te.get? [i, t, 0, r, c] = file.get? [500 + i, t, 28 * r + c]) := by
  obtain ⟨sh, x⟩ := file
  obtain rfl : sh = [m, 16, 784] := hs
  have hx : x.length = m * 12544 := by simpa [Tensor.WF, vol] using hw
  have hl : loadData ⟨[m, 16, 784], x⟩ = .ok (⟨[500, 16, 1, 28, 28], x.take (500 * 12544)⟩, ⟨[m - 500, 16, 1, 28, 28], x.drop (500 * 12544)⟩, 500, 16) := by
    have h1 : (x.take (500 * 12544)).length = 500 * 12544 := by rw [List.length_take]; omega
    have h2 : (x.drop (500 * 12544)).length = (m - 500) * 12544 := by rw [List.length_drop]; omega
    have e : (squeeze (⟨[m, 16, 784], x⟩ : Tensor α)).shape = [m, 16, 784] := squeeze_shape (by omega)
    unfold loadData
    rw [e]
    have v1 : vol [16, 784] = 12544 := rfl
    have v2 : vol [500, 16, 1, 28, 28] = 500 * 12544 := rfl
    have v3 : vol [16, 1, 28, 28] = 12544 := rfl
    simp only [v1, Assembly.view, viewRows, v2, v3, h1, h2, bind, Except.bind, if_true, Nat.mul_mod_left, Nat.mul_div_cancel _ (show 0 < 12544 by decide)]
  refine ⟨_, _, hl, rfl, rfl, ?_, ?_, fun i t r c hi ht hr hc => ?_, fun i t r c hi ht hr hc => ?_⟩
  · simp only [Tensor.WF, vol, List.length_take]; omega
  · simp only [Tensor.WF, vol, List.length_drop]; omega
  · rw [Tensor.get?, Tensor.get?, entry5 hi ht hr hc, entry3 (show i < m by omega) ht (show 28 * r + c < 784 by omega), List.getElem?_take, if_pos (by omega)]
    exact congrArg (x[·]?) (by omega)
  · rw [Tensor.get?, Tensor.get?, entry5 hi ht hr hc, entry3 (show 500 + i < m by omega) ht (show 28 * r + c < 784 by omega), List.getElem?_drop]
    exact congrArg (x[·]?) (by omega)

/-- **C106.** With fewer than 500 sequences, exception. -/
theorem C106_too_few (file : Tensor α) (m : Nat) (hs : file.shape = [m, 16, 784]) (hw : file.WF) (hm : m < 500) : loadData file = .error .runtimeError := by
  obtain ⟨sh, x⟩ := file
  obtain rfl : sh = [m, 16, 784] := hs
  have hx : x.length = m * 12544 := by simpa [Tensor.WF, vol] using hw
  have key : ∀ k, (x.take k).length ≠ 500 * 12544 := fun k h => by rw [List.length_take] at h; omega
  have : ∀ s, (do
      let tr ← Assembly.view (x.take (500 * vol s)) [500, 16, 1, 28, 28]
      let te ← viewRows (x.drop (500 * vol s)) [16, 1, 28, 28]
      .ok (tr, te, 500, 16) : Py (Tensor α × Tensor α × Nat × Nat)) = .error .runtimeError := by
    intro s
    have v2 : vol [500, 16, 1, 28, 28] = 500 * 12544 := rfl
    simp only [Assembly.view, v2, if_neg (key _), bind, Except.bind]
  by_cases h1 : m = 1
  · subst h1
    exact this [784]
  · have e : (squeeze (⟨[m, 16, 784], x⟩ : Tensor α)).shape = [m, 16, 784] := squeeze_shape h1
    unfold loadData
    rw [e]
    exact this [16, 784]

/-- The lengths of the batches. -/
theorem chunks_lengths {size : Nat} (hs : 0 < size) (fuel : Nat) (l : List α) (hl : l.length ≤ fuel) :
    (Spheres.chunks size fuel l).map List.length = List.replicate (l.length / size) size ++ (if l.length % size = 0 then [] else [l.length % size]) := by
  induction fuel generalizing l with
  | zero =>
    obtain rfl : l = [] := List.length_eq_zero_iff.1 (by omega)
    simp [Spheres.chunks]
  | succ fuel ih =>
    cases l with
    | nil => simp [Spheres.chunks]
    | cons x xs =>
      rw [Spheres.chunks, List.map_cons, ih _ (by rw [List.length_drop]; simp only [List.length_cons] at hl ⊢; omega), List.length_take, List.length_drop]
      by_cases h : (x :: xs).length < size
      · rw [Nat.div_eq_of_lt h, Nat.mod_eq_of_lt h, Nat.min_eq_right h.le, Nat.sub_eq_zero_of_le h.le]
        simp
      · obtain ⟨k, hk⟩ : ∃ k, (x :: xs).length = k + size := ⟨(x :: xs).length - size, by omega⟩
        rw [hk, Nat.add_sub_cancel, Nat.add_div_right _ hs, Nat.add_mod_right, Nat.min_eq_left (by omega), List.replicate_succ, List.cons_append]

/-- **C106.** One epoch shows every training sequence exactly once, in 20 batches of 25, whatever order is drawn. -/
theorem C106_epoch (order : List Nat) (ho : order.Perm (List.range 500)) :
    ∃ bs, trainingPass order = .ok bs ∧ bs.length = 20 ∧ (∀ b ∈ bs, b.length = 25) ∧ bs.flatten.Nodup ∧ ∀ i, i ∈ bs.flatten ↔ i < 500 := by
  have hl : order.length = 500 := by rw [ho.length_eq, List.length_range]
  have hc := chunks_lengths (size := 25) (by decide) order.length order le_rfl
  rw [hl] at hc
  have hf := (Spheres.chunks_flatten 25 (by decide) order.length order le_rfl).1
  rw [hl] at hf
  refine ⟨Spheres.chunks 25 500 order, by rw [trainingPass, Spheres.loader, if_neg (by decide), hl]; rfl, ?_, fun b hb => ?_, ?_, fun i => ?_⟩
  · simpa using congrArg List.length hc
  · have : b.length ∈ (Spheres.chunks 25 500 order).map List.length := List.mem_map_of_mem hb
    rw [hc] at this
    simpa using this
  · rw [hf]; exact ho.nodup_iff.2 List.nodup_range
  · rw [hf, ho.mem_iff, List.mem_range]

theorem mapM_py_ok {β γ : Type} (f : β → Py γ) (g : β → γ) (l : List β) (h : ∀ b ∈ l, f b = .ok (g b)) : l.mapM f = .ok (l.map g) := by
  induction l with
  | nil => rfl
  | cons b l ih =>
    rw [List.mapM_cons, h b List.mem_cons_self, ih fun b hb => h b (List.mem_cons_of_mem _ hb)]
    rfl

theorem mapM_py_error {β γ : Type} (f : β → Py γ) (e : Err) (l : List β) (h : ∀ b ∈ l, (∃ c, f b = .ok c) ∨ f b = .error e) (hb : ∃ b ∈ l, f b = .error e) : l.mapM f = .error e := by
  induction l with
  | nil => obtain ⟨_, h, _⟩ := hb; simp at h
  | cons b l ih =>
    rw [List.mapM_cons]
    rcases h b List.mem_cons_self with ⟨c, hc⟩ | hc
    · rw [hc]
      obtain ⟨b', hm, hb'⟩ := hb
      rcases List.mem_cons.1 hm with rfl | hm
      · rw [hc] at hb'; cases hb'
      · have := ih (fun b hb => h b (List.mem_cons_of_mem _ hb)) ⟨b', hm, hb'⟩
        simp only [bind, Except.bind, this]
    · rw [hc]; rfl

/-- The error of one batch, when the network treats samples alike. -/
theorem batch_ok {T d iEval : Nat} (hT : T ≠ 1) (hd : d ≠ 1) (hi : iEval < T) (net : I → Nat → L) (g : L → I) (sq : I → I → ℝ) (pix : Nat) (dflt : Nat → I) (b : List (Nat → I)) (hb : b.length ≠ 1) :
    Masked.evalBatch T d b.length iEval (fun x t n => net (x n) t) (List.map g) sq pix (fun n => b.getD n dflt) = .ok (b.map fun s => sq (g (net (s 0) iEval)) (s iEval) / pix) := by
  rw [Masked.C70_evaluate T d b.length iEval hb hT hd hi]
  congr 1
  refine List.ext_getElem (by simp) fun n h1 h2 => ?_
  have hn : n < b.length := by simpa using h1
  simp [List.getD_eq_getElem?_getD, List.getElem?_eq_getElem hn]

/-- **C106.** The evaluation reports one error per test sequence, in the order of the file, each only from the first image and the image at the evaluation time of that sequence; unless a single sequence is left for the last batch. -/
theorem C106_evaluate {T d iEval : Nat} (hT : T ≠ 1) (hd : d ≠ 1) (hi : iEval < T) (net : I → Nat → L) (g : L → I) (sq : I → I → ℝ) (pix : Nat) (dflt : Nat → I) (seqs : List (Nat → I)) :
    evaluate T d iEval (fun x t n => net (x n) t) (List.map g) sq pix dflt seqs =
      if seqs.length % 25 = 1 then .error .runtimeError else .ok (seqs.map fun s => sq (g (net (s 0) iEval)) (s iEval) / pix, seqs.length) := by
  have hl : Spheres.loader 25 false seqs = .ok (Spheres.chunks 25 seqs.length seqs) := by rw [Spheres.loader, if_neg (by decide)]; rfl
  have hc := chunks_lengths (size := 25) (by decide) seqs.length seqs le_rfl
  have hf := (Spheres.chunks_flatten 25 (by decide) seqs.length seqs le_rfl).1
  have mem : ∀ n, (∃ b ∈ Spheres.chunks 25 seqs.length seqs, b.length = n) ↔ n ∈ List.replicate (seqs.length / 25) 25 ++ (if seqs.length % 25 = 0 then [] else [seqs.length % 25]) := by
    intro n
    rw [← hc, List.mem_map]
  unfold evaluate
  rw [hl]
  simp only [bind, Except.bind]
  by_cases h1 : seqs.length % 25 = 1
  · rw [if_pos h1, mapM_py_error _ .runtimeError]
    · intro b _
      by_cases hb : b.length = 1
      · exact .inr (by rw [hb]; exact Masked.C70_single_sample ..)
      · exact .inl ⟨_, batch_ok hT hd hi net g sq pix dflt b hb⟩
    · obtain ⟨b, hb, hb1⟩ := (mem 1).2 (by rw [h1]; simp)
      exact ⟨b, hb, by rw [hb1]; exact Masked.C70_single_sample ..⟩
  · rw [if_neg h1, mapM_py_ok _ (fun b => b.map fun s => sq (g (net (s 0) iEval)) (s iEval) / pix)]
    · dsimp only
      rw [← List.map_flatten, hf, List.length_map]
    · intro b hb
      refine batch_ok hT hd hi net g sq pix dflt b fun hb1 => ?_
      have := (mem 1).1 ⟨b, hb, hb1⟩
      split_ifs at this <;> simp at this
      omega

/-! ## Concrete cases -/

/-- A file with 502 sequences: one pixel of the second test sequence. -/
example : ∃ tr te, loadData (⟨[502, 16, 784], List.range (502 * 12544)⟩ : Tensor Nat) = .ok (tr, te, 500, 16) ∧ te.get? [1, 2, 0, 3, 4] = some (501 * 12544 + 2 * 784 + 88) := by
  obtain ⟨tr, te, h, _, _, _, _, _, h2⟩ := C106_split (⟨[502, 16, 784], List.range (502 * 12544)⟩ : Tensor Nat) 502 rfl (by simp [Tensor.WF, vol]) (by decide)
  refine ⟨tr, te, h, ?_⟩
  rw [h2 1 2 3 4 (by decide) (by decide) (by decide) (by decide), Tensor.get?, entry3 (by decide) (by decide) (by decide), List.getElem?_range (by decide)]

example : loadData (⟨[1, 16, 784], List.range 12544⟩ : Tensor Nat) = .error .runtimeError := C106_too_few _ 1 rfl (by simp [Tensor.WF, vol]) (by decide)

example : ∃ bs, trainingPass (List.range 500).reverse = .ok bs ∧ bs.length = 20 :=
  let ⟨bs, h1, h2, _⟩ := C106_epoch (List.range 500).reverse (List.reverse_perm _)
  ⟨bs, h1, h2⟩

/-- 26 test sequences cannot be evaluated, 27 can. -/
example (seqs : List (Nat → ℝ)) (dflt : Nat → ℝ) : (seqs.length = 26 → evaluate 16 20 3 (fun x _ n => x n) (List.map id) (fun a b => (a - b) ^ 2) 784 dflt seqs = .error .runtimeError) ∧
    (seqs.length = 27 → ∃ es, evaluate 16 20 3 (fun x _ n => x n) (List.map id) (fun a b => (a - b) ^ 2) 784 dflt seqs = .ok (es, 27)) := by
  have h := C106_evaluate (T := 16) (d := 20) (iEval := 3) (by decide) (by decide) (by decide) (fun (x : ℝ) _ => x) id (fun a b => (a - b) ^ 2) 784 dflt seqs
  constructor
  · intro hl
    rw [hl, if_pos rfl] at h
    exact h
  · intro hl
    rw [hl, if_neg (by decide)] at h
    exact ⟨_, h⟩

end Verif.Rotated
