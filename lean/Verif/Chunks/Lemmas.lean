import Verif.Chunks.Spec
import Mathlib.Data.List.Basic
import Mathlib.Tactic.Abel
import Mathlib.Algebra.Module.NatInt

namespace Verif.Chunks
open Verif

variable {σ τ Y P : Type}

/-! ## Windows -/

/-- Start and length of the chunks of a time vector with `n` points from index `cur` on. -/
def windows (c n : Nat) : Nat → Nat → List (Nat × Nat)
  | 0, _ => []
  | k + 1, cur => if n ≤ cur + c then [(cur, n - cur)] else (cur, c) :: windows c n k (cur + c - 1)

def chunkAt (t : List τ) (fromZero : Bool) (w : Nat × Nat) : List τ := if fromZero then slice t 0 w.2 else slice t w.1 (w.1 + w.2)

theorem slice_length (t : List τ) (a b : Nat) : (slice t a b).length = min b t.length - a := by
  simp [slice]

theorem chunkAt_length (t : List τ) (z : Bool) (w : Nat × Nat) (h : w.1 + w.2 ≤ t.length) : (chunkAt t z w).length = w.2 := by
  unfold chunkAt
  split
  · rw [slice_length]; omega
  · rw [slice_length]; omega

theorem body_go (t : List τ) (c : Nat) (z : Bool) (cur : Nat) (acc : List (List τ)) (h : ¬ t.length ≤ cur + c) :
    body t c z ⟨cur, acc, true⟩ = ⟨cur + c - 1, acc ++ [chunkAt t z (cur, c)], true⟩ := by
  unfold body chunkAt
  simp only [h, decide_false, Bool.false_eq_true, if_false, Bool.not_false, Nat.add_sub_cancel_left]

theorem body_stop (t : List τ) (c : Nat) (z : Bool) (cur : Nat) (acc : List (List τ)) (h : t.length ≤ cur + c) (hc : cur ≤ t.length) :
    body t c z ⟨cur, acc, true⟩ = ⟨t.length - 1, acc ++ [chunkAt t z (cur, t.length - cur)], false⟩ := by
  unfold body chunkAt
  simp only [h, decide_true, if_true, Bool.not_true]
  rw [show cur + (t.length - cur) = t.length by omega]

theorem whileLoop_windows (t : List τ) (c : Nat) (hc : 2 ≤ c) (z : Bool) (k cur : Nat) (acc : List (List τ)) (h : cur ≤ t.length) (hk : t.length - cur < k) :
    whileLoop t c z k ⟨cur, acc, true⟩ = some (acc ++ (windows c t.length k cur).map (chunkAt t z)) := by
  induction k generalizing cur acc with
  | zero => omega
  | succ k ih =>
    by_cases hs : t.length ≤ cur + c
    · rw [whileLoop, if_pos rfl, body_stop t c z cur acc hs h, windows, if_pos hs]
      cases k with
      | zero => rfl
      | succ k => rfl
    · rw [whileLoop, if_pos rfl, body_go t c z cur acc hs, ih _ _ (by omega) (by omega), windows, if_neg hs, List.map_cons, List.append_assoc]
      rfl

theorem whileLoop_mono (t : List τ) (c : Nat) (z : Bool) (k : Nat) (L : Loop τ) (out : List (List τ)) (h : whileLoop t c z k L = some out) (k' : Nat) (hk : k ≤ k') :
    whileLoop t c z k' L = some out := by
  induction k generalizing L k' with
  | zero =>
    rw [whileLoop] at h
    by_cases hg : L.go = true
    · rw [if_pos hg] at h; cases h
    · rw [if_neg hg] at h
      cases k' with
      | zero => rw [whileLoop, if_neg hg]; exact h
      | succ k' => rw [whileLoop, if_neg hg]; exact h
  | succ k ih =>
    obtain ⟨k', rfl⟩ : ∃ j, k' = j + 1 := ⟨k' - 1, by omega⟩
    rw [whileLoop] at h ⊢
    by_cases hg : L.go = true
    · rw [if_pos hg] at h ⊢
      exact ih _ h k' (by omega)
    · rw [if_neg hg] at h ⊢
      exact h

/-! ## Properties of the windows -/

theorem windows_head (c n k cur : Nat) (hk : 0 < k) (hcur : cur ≤ n) : ∃ m ws, windows c n k cur = (cur, m) :: ws ∧ m = min c (n - cur) := by
  obtain ⟨k, rfl⟩ : ∃ j, k = j + 1 := ⟨k - 1, by omega⟩
  rw [windows]
  split
  · exact ⟨_, _, rfl, by omega⟩
  · exact ⟨_, _, rfl, by omega⟩

theorem windows_inside (c n k cur : Nat) (hcur : cur ≤ n) (hc : 1 ≤ c) : ∀ w ∈ windows c n k cur, w.1 + w.2 ≤ n ∧ w.2 ≤ c := by
  induction k generalizing cur with
  | zero => simp [windows]
  | succ k ih =>
    rw [windows]
    split
    · intro w hw
      rw [List.mem_singleton] at hw
      subst hw
      dsimp only
      omega
    · intro w hw
      rcases List.mem_cons.1 hw with rfl | hw
      · dsimp only; omega
      · exact ih _ (by omega) w hw

theorem windows_two (c n k cur : Nat) (hcur : cur + 2 ≤ n) (hc : 2 ≤ c) : ∀ w ∈ windows c n k cur, 2 ≤ w.2 := by
  induction k generalizing cur with
  | zero => simp [windows]
  | succ k ih =>
    rw [windows]
    split
    · intro w hw
      rw [List.mem_singleton] at hw
      subst hw
      dsimp only
      omega
    · intro w hw
      rcases List.mem_cons.1 hw with rfl | hw
      · exact hc
      · exact ih _ (by omega) w hw

theorem windows_full (c n k cur : Nat) (hk : n - cur < k) (hc : 2 ≤ c) : ∀ w ∈ (windows c n k cur).dropLast, w.2 = c := by
  induction k generalizing cur with
  | zero => omega
  | succ k ih =>
    rw [windows]
    split
    · simp
    · obtain ⟨m, ws, h1, _⟩ := windows_head c n k (cur + c - 1) (by omega) (by omega)
      intro w hw
      rw [h1, List.dropLast_cons_cons] at hw
      rcases List.mem_cons.1 hw with rfl | hw
      · rfl
      · exact ih (cur + c - 1) (by omega) w (by rw [h1]; exact hw)

theorem windows_overlap (c n k cur : Nat) (hk : n - cur < k) (hc : 2 ≤ c) :
    (windows c n k cur).IsChain fun w v => v.1 + 1 = w.1 + w.2 ∧ 0 < w.2 ∧ 0 < v.2 ∧ w.1 + w.2 ≤ n ∧ v.1 + v.2 ≤ n := by
  induction k generalizing cur with
  | zero => omega
  | succ k ih =>
    rw [windows]
    split
    · simp
    · obtain ⟨m, ws, h1, h2⟩ := windows_head c n k (cur + c - 1) (by omega) (by omega)
      have := ih (cur + c - 1) (by omega)
      rw [h1] at this ⊢
      rw [List.isChain_cons_cons]
      refine ⟨⟨?_, ?_, ?_, ?_, ?_⟩, this⟩
      · dsimp only; omega
      · dsimp only; omega
      · dsimp only; omega
      · dsimp only; omega
      · dsimp only; omega

theorem slice_getLast? (t : List τ) (a b : Nat) (h : a < b) (hb : b ≤ t.length) : (slice t a b).getLast? = t[b - 1]? := by
  unfold slice
  rw [List.getLast?_eq_getElem?, List.length_drop, List.length_take, List.getElem?_drop, List.getElem?_take]
  rw [if_pos (by omega), show a + (min b t.length - a - 1) = b - 1 by omega]

theorem slice_head? (t : List τ) (a b : Nat) (h : a < b) : (slice t a b).head? = t[a]? := by
  unfold slice
  rw [List.head?_drop, List.getElem?_take, if_pos h]

theorem slice_append (t : List τ) (a b c : Nat) (h1 : a ≤ b) (h2 : b ≤ c) : slice t a b ++ slice t b c = slice t a c := by
  unfold slice
  have h : t.take c = t.take b ++ (t.take c).drop b := by
    conv_lhs => rw [← List.take_append_drop b (t.take c)]
    rw [List.take_take, Nat.min_eq_left h2]
  conv_rhs => rw [h, List.drop_append]
  by_cases hb : b ≤ t.length
  · rw [List.length_take, Nat.min_eq_left hb, show a - b = 0 by omega, List.drop_zero]
  · have : (t.take c).drop b = [] := by
      rw [List.drop_eq_nil_iff, List.length_take]
      omega
    rw [this]
    simp

theorem slice_tail (t : List τ) (a b : Nat) : (slice t a b).tail = slice t (a + 1) b := by
  unfold slice
  rw [List.tail_drop]

theorem slice_all (t : List τ) : slice t 0 t.length = t := by simp [slice]

/-- The windows from `cur` on, glued. -/
theorem windows_glue (t : List τ) (c k cur : Nat) (hk : t.length - cur < k) (hcur : cur ≤ t.length) (hc : 2 ≤ c) :
    glue ((windows c t.length k cur).map (chunkAt t false)) = slice t cur t.length := by
  induction k generalizing cur with
  | zero => omega
  | succ k ih =>
    rw [windows]
    split
    · simp only [List.map_cons, List.map_nil, glue, List.flatten_nil, List.append_nil]
      unfold chunkAt
      simp only [Bool.false_eq_true, if_false]
      rw [show cur + (t.length - cur) = t.length by omega]
    · obtain ⟨m, ws, h1, h2⟩ := windows_head c t.length k (cur + c - 1) (by omega) (by omega)
      have := ih (cur + c - 1) (by omega) (by omega)
      rw [h1] at this ⊢
      rw [List.map_cons, glue] at this
      rw [List.map_cons, List.map_cons, glue, List.map_cons, List.flatten_cons]
      have e1 : (chunkAt t false (cur + c - 1, m)).tail = slice t (cur + c) (cur + c - 1 + m) := by
        unfold chunkAt
        simp only [Bool.false_eq_true, if_false]
        rw [slice_tail, show cur + c - 1 + 1 = cur + c by omega]
      have e2 : chunkAt t false (cur + c - 1, m) = slice t (cur + c - 1) (cur + c) ++ slice t (cur + c) (cur + c - 1 + m) := by
        unfold chunkAt
        simp only [Bool.false_eq_true, if_false]
        rw [slice_append _ _ _ _ (by omega) (by omega)]
      have e3 : chunkAt t false (cur, c) = slice t cur (cur + c - 1) ++ slice t (cur + c - 1) (cur + c) := by
        unfold chunkAt
        simp only [Bool.false_eq_true, if_false]
        rw [slice_append _ _ _ _ (by omega) (by omega)]
      rw [e2] at this
      rw [e1, e3, List.append_assoc]
      rw [List.append_assoc] at this
      rw [this, slice_append _ _ _ _ (by omega) (by omega)]

/-! ## Prediction -/

theorem assign_ok (val : List Y) (a n : Nat) (pred : List Y) (h : a + n ≤ val.length) (hp : pred.length = n) :
    assign val a n pred = .ok (val.take a ++ pred ++ val.drop (a + n)) := by
  unfold assign
  have hm : min (a + n) val.length - a = n := by omega
  simp only [hm]
  rw [if_pos hp]

/-- If every window is predicted as in the trajectory `z`, the loop fills in `z`. -/
theorem predLoop_ok (B : Blk σ τ Y P) (Inv : σ → Prop) (t : List τ) (zf : Bool) (z : List Y) (hz : z.length = t.length) (y0 : Y)
    (H : ∀ (a m : Nat) (y : Y) (s : σ), Inv s → 0 < m → a + m ≤ t.length → z[a]? = some y →
      ∃ s', B.call y (B.setTimes (chunkAt t zf (a, m)) s) = (s', .ok (slice z a (a + m))) ∧ Inv s')
    (c : Nat) (hc : 2 ≤ c) (k cur : Nat) (hk : t.length - cur < k) (hcur : cur < t.length) (i : Nat) (s : σ) (hs : Inv s) (rest : List Y) (pen : Option P)
    (hrest : rest.length = t.length - cur - 1) (hi : i ≠ 0) :
    ∃ s' cur', predLoop B y0 i ((windows c t.length k cur).map (chunkAt t zf)) s ⟨z.take (cur + 1) ++ rest, cur, pen⟩ = (s', .ok ⟨z, cur', pen⟩) ∧ Inv s' := by
  induction k generalizing cur i s rest with
  | zero => omega
  | succ k ih =>
    have one : ∀ m, 0 < m → cur + m ≤ t.length → ∃ s', predStep B y0 i (chunkAt t zf (cur, m)) s ⟨z.take (cur + 1) ++ rest, cur, pen⟩ =
        (s', .ok ⟨z.take (cur + m) ++ rest.drop (m - 1), cur + m - 1, pen⟩) ∧ Inv s' := by
      intro m hm hle
      have hlt : cur < z.length := by omega
      have hzc : z[cur]? = some z[cur] := List.getElem?_eq_getElem hlt
      obtain ⟨s', h1, h2⟩ := H cur m z[cur] s hs hm hle hzc
      refine ⟨s', ?_, h2⟩
      unfold predStep
      rw [if_neg hi]
      have hget : (z.take (cur + 1) ++ rest)[cur]? = some z[cur] := by
        rw [List.getElem?_append_left (by rw [List.length_take]; omega), List.getElem?_take, if_pos (by omega)]
        exact hzc
      dsimp only
      rw [hget]
      dsimp only
      rw [h1]
      dsimp only
      have hlen : (z.take (cur + 1) ++ rest).length = t.length := by
        rw [List.length_append, List.length_take]
        omega
      rw [chunkAt_length t zf (cur, m) hle, assign_ok _ _ _ _ (by rw [hlen]; exact hle) (by rw [slice_length]; omega)]
      simp only [if_neg hi]
      have e : List.take cur (z.take (cur + 1) ++ rest) ++ slice z cur (cur + m) ++ List.drop (cur + m) (z.take (cur + 1) ++ rest) =
          z.take (cur + m) ++ rest.drop (m - 1) := by
        congr 1
        · rw [List.take_append_of_le_length (by rw [List.length_take]; omega), List.take_take, Nat.min_eq_left (by omega)]
          have := slice_append z 0 cur (cur + m) (by omega) (by omega)
          simpa [slice] using this
        · rw [List.drop_append, List.length_take, Nat.min_eq_left (by omega), List.drop_eq_nil_of_le (by rw [List.length_take]; omega), List.nil_append]
          congr 1
          omega
      rw [e]
    rw [windows]
    split
    · rename_i hstop
      obtain ⟨s', h1, h2⟩ := one (t.length - cur) (by omega) (by omega)
      refine ⟨s', cur + (t.length - cur) - 1, ?_, h2⟩
      rw [List.map_cons, predLoop, h1]
      dsimp only
      rw [List.map_nil, predLoop]
      rw [show z.take (cur + (t.length - cur)) = z by rw [List.take_of_length_le]; omega,
        show rest.drop (t.length - cur - 1) = [] by rw [List.drop_eq_nil_iff]; omega, List.append_nil]
    · obtain ⟨s', h1, h2⟩ := one c (by omega) (by omega)
      obtain ⟨s'', cur', g1, g2⟩ := ih (cur + c - 1) (by omega) (by omega) (i + 1) s' h2 (rest.drop (c - 1)) (by rw [List.length_drop]; omega) (by omega)
      refine ⟨s'', cur', ?_, g2⟩
      rw [List.map_cons, predLoop, h1]
      dsimp only
      rw [← g1, show cur + c - 1 + 1 = cur + c by omega]

/-- The whole of `compute_validation_data` in this situation. -/
theorem computeValidation_ok (B : Blk σ τ Y P) (Inv : σ → Prop) (t : List τ) (zf : Bool) (z : List Y) (hz : z.length = t.length) (zero y0 : Y)
    (hy0 : z[0]? = some y0)
    (H : ∀ (a m : Nat) (y : Y) (s : σ), Inv s → 0 < m → a + m ≤ t.length → z[a]? = some y →
      ∃ s', B.call y (B.setTimes (chunkAt t zf (a, m)) s) = (s', .ok (slice z a (a + m))) ∧ Inv s')
    (chunk : Int) (hc : 2 ≤ chunk) (fuel : Nat) (hf : t.length < fuel) (s : σ) (hs : Inv s) :
    ∃ s', computeValidation fuel B zero t y0 true chunk zf s = some (s', .ok (z, B.penalty (B.call y0 (B.setTimes (t.take chunk.toNat) s)).1)) ∧ Inv s' := by
  have hpos : 0 < t.length := by
    rw [← hz]
    by_contra hne
    rw [List.getElem?_eq_none (by omega)] at hy0
    cases hy0
  obtain ⟨c, rfl⟩ : ∃ c : Nat, chunk = c := ⟨chunk.toNat, by omega⟩
  have hc' : 2 ≤ c := by omega
  have hcs : getTimeChunks fuel t (c : Int) zf = some ((windows c t.length fuel 0).map (chunkAt t zf)) := by
    unfold getTimeChunks
    rw [if_neg (by omega), Int.toNat_natCast, whileLoop_windows t c hc' zf fuel 0 [] (by omega) (by omega)]
    rfl
  obtain ⟨fuel, rfl⟩ : ∃ j, fuel = j + 1 := ⟨fuel - 1, by omega⟩
  have one : ∀ m, 0 < m → m ≤ t.length → ∃ s', predStep B y0 0 (chunkAt t zf (0, m)) s ⟨List.replicate t.length zero, 0, none⟩ =
      (s', .ok ⟨z.take m ++ List.replicate (t.length - m) zero, m - 1, some (B.penalty (B.call y0 (B.setTimes (t.take m) s)).1)⟩) ∧ Inv s' := by
    intro m hm hle
    obtain ⟨s', h1, h2⟩ := H 0 m y0 s hs hm (by omega) hy0
    have hch : chunkAt t zf (0, m) = t.take m := by
      unfold chunkAt slice
      simp
    refine ⟨s', ?_, h2⟩
    unfold predStep
    rw [if_pos rfl]
    dsimp only
    rw [h1]
    dsimp only
    rw [chunkAt_length t zf (0, m) (by dsimp only; omega), assign_ok _ _ _ _ (by rw [List.length_replicate]; omega) (by rw [slice_length]; omega)]
    rw [hch] at h1
    simp only [h1, if_true, Nat.zero_add, List.take_zero, List.nil_append, List.drop_replicate]
    simp [slice]
  unfold computeValidation
  rw [if_pos rfl, hcs]
  dsimp only
  rw [windows]
  by_cases hstop : t.length ≤ 0 + c
  · rw [if_pos hstop]
    obtain ⟨s', h1, h2⟩ := one t.length hpos le_rfl
    refine ⟨s', ?_, h2⟩
    have h1' : predLoop B y0 0 (List.map (chunkAt t zf) [(0, t.length - 0)]) s ⟨List.replicate t.length zero, 0, none⟩ =
        (s', .ok ⟨z, t.length - 1, some (B.penalty (B.call y0 (B.setTimes (t.take t.length) s)).1)⟩) := by
      rw [List.map_cons, predLoop, Nat.sub_zero, h1]
      dsimp only
      rw [List.map_nil, predLoop, Nat.sub_self, List.replicate_zero, List.append_nil, List.take_of_length_le (le_of_eq hz)]
    rw [h1', Int.toNat_natCast, List.take_of_length_le (i := c) (by omega), List.take_of_length_le le_rfl]
  · rw [if_neg hstop]
    obtain ⟨s', h1, h2⟩ := one c (by omega) (by omega)
    obtain ⟨s'', cur', g1, g2⟩ := predLoop_ok B Inv t zf z hz y0 H c hc' fuel (c - 1) (by omega) (by omega) 1 s' h2 (List.replicate (t.length - c) zero)
      (some (B.penalty (B.call y0 (B.setTimes (t.take c) s)).1)) (by rw [List.length_replicate]; omega) (by omega)
    refine ⟨s'', ?_, g2⟩
    rw [List.map_cons, predLoop, h1]
    dsimp only
    rw [show c - 1 + 1 = c by omega] at g1
    rw [Nat.zero_add, Nat.zero_add, g1, Int.toNat_natCast]

end Verif.Chunks
