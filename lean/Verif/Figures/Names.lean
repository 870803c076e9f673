import Mathlib.Data.String.Basic
import Mathlib.Data.List.Basic

/-!
# Numbers in file names
-/

namespace Verif.Figures

/-- `'{:0wd}'.format(n)` for a natural number `n` -/
def pad (w n : ℕ) : String := String.ofList (List.replicate (w - (Nat.toDigits 10 n).length) '0' ++ Nat.toDigits 10 n)

theorem toList_pad (w n : ℕ) : (pad w n).toList = List.replicate (w - (Nat.toDigits 10 n).length) '0' ++ Nat.toDigits 10 n := by
  rw [pad, String.toList_ofList]

/-- The number can be read off. -/
theorem value_pad (w n : ℕ) : Nat.ofDigitChars 10 (pad w n).toList 0 = n := by
  rw [toList_pad, Nat.ofDigitChars_append, Nat.ofDigitChars_replicate_zero, Nat.mul_zero, Nat.ofDigitChars_ten_toDigits]

theorem pad_injective (w : ℕ) {m n : ℕ} (h : pad w m = pad w n) : m = n := by
  rw [← value_pad w m, h, value_pad]

theorem length_digits_lt {n w : ℕ} (hw : 0 < w) (h : n < 10 ^ w) : (Nat.toDigits 10 n).length ≤ w :=
  (Nat.length_toDigits_le_iff (by omega) hw).2 h

theorem length_pad {w n : ℕ} (hw : 0 < w) (h : n < 10 ^ w) : (pad w n).toList.length = w := by
  rw [toList_pad, List.length_append, List.length_replicate]
  have := length_digits_lt hw h
  omega

theorem pad_snoc {w n : ℕ} (hw : 0 < w) : (pad (w + 1) n).toList = (pad w (n / 10)).toList ++ [Nat.digitChar (n % 10)] := by
  rw [toList_pad, toList_pad]
  by_cases h : n < 10
  · rw [Nat.toDigits_of_lt_base h, Nat.div_eq_of_lt h, Nat.mod_eq_of_lt h, Nat.toDigits_zero]
    simp only [List.length_cons, List.length_nil]
    have : List.replicate (w + 1 - (0 + 1)) '0' = List.replicate (w - (0 + 1)) '0' ++ ['0'] := by
      rw [← List.replicate_succ']
      congr 1
      omega
    rw [this]
  · rw [Nat.toDigits_of_base_le (by omega) (by omega)]
    rw [List.length_append, ← List.append_assoc]
    congr 3
    simp

theorem lex_append_left {a b : List Char} (h : a < b) (hl : a.length = b.length) (x y : List Char) : a ++ x < b ++ y := by
  induction a generalizing b with
  | nil =>
    cases b with
    | nil => exact absurd h (lt_irrefl _)
    | cons c b => simp at hl
  | cons d a ih =>
    cases b with
    | nil => simp at hl
    | cons c b =>
      rw [List.cons_lt_cons_iff] at h
      rw [List.cons_append, List.cons_append, List.cons_lt_cons_iff]
      rcases h with h | ⟨h, h'⟩
      · exact .inl h
      · exact .inr ⟨h, ih h' (by simpa using hl)⟩

theorem lex_append_right {a x y : List Char} (h : x < y) : a ++ x < a ++ y := by
  induction a with
  | nil => exact h
  | cons d a ih =>
    rw [List.cons_append, List.cons_append, List.cons_lt_cons_iff]
    exact .inr ⟨rfl, ih⟩

theorem digitChar_lt : ∀ a < 10, ∀ b < 10, a < b → Nat.digitChar a < Nat.digitChar b := by decide

/-- As long as the numbers fit into the width, the order of the names is the order of the numbers. -/
theorem pad_lt {w m n : ℕ} (hw : 0 < w) (hn : n < 10 ^ w) (h : m < n) : (pad w m).toList < (pad w n).toList := by
  induction w generalizing m n with
  | zero => omega
  | succ w ih =>
    by_cases h0 : w = 0
    · subst h0
      have hn' : n < 10 := by simpa using hn
      rw [toList_pad, toList_pad, Nat.toDigits_of_lt_base hn', Nat.toDigits_of_lt_base (show m < 10 by omega)]
      exact List.cons_lt_cons_iff.2 (.inl (digitChar_lt m (by omega) n hn' h))
    · have hw : 0 < w := by omega
      have hn10 : n / 10 < 10 ^ w := by
        rw [Nat.div_lt_iff_lt_mul (by omega)]
        rwa [pow_succ] at hn
      rw [pad_snoc hw, pad_snoc hw]
      by_cases hd : m / 10 < n / 10
      · exact lex_append_left (ih hw hn10 hd) (by rw [length_pad hw (by omega), length_pad hw hn10]) _ _
      · have he : m / 10 = n / 10 := by
          have := Nat.div_le_div_right (c := 10) h.le
          omega
        rw [he]
        exact lex_append_right (List.cons_lt_cons_iff.2 (.inl (digitChar_lt _ (Nat.mod_lt _ (by omega)) _ (Nat.mod_lt _ (by omega)) (by omega))))

end Verif.Figures
