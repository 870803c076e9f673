import Verif.Options.Props
import Mathlib.Algebra.Order.Field.Rat
import Mathlib.Tactic.FieldSimp
import Mathlib.Tactic.Ring

/-!
# C83: decimal numbers as values of options
-/

namespace Verif.Options
open Verif Verif.Cli Verif.Shell

/-! ## Specification -/

/-- The number written by the digits after a decimal point. -/
def fraction : List (Fin 10) → Rat
  | [] => 0
  | d :: l => ((d.1 : Rat) + fraction l) / 10

/-- Digits one after the other. -/
def digits (l : List (Fin 10)) : Str := l.flatMap fun d => (toString d.1).toList

/-- A decimal number as it is written: an integer part, possibly a point and digits, possibly `e` and an exponent. -/
def numeral (n : Nat) (f : Option (List (Fin 10))) (e : Option Int) : Str :=
  (toString n).toList ++ ((match f with | none => [] | some l => '.' :: digits l) ++ match e with | none => [] | some e => 'e' :: (toString e).toList)

/-! ## Lemmas -/

theorem toString_decimal (n : Nat) : (toString n).toList = decimal n := by
  show (Nat.repr n).toList = _
  rw [Nat.toList_repr, ← decimal_eq]

theorem digits_cons (d : Fin 10) (l : List (Fin 10)) : digits (d :: l) = digit d.1 :: digits l := by
  have : ∀ d : Fin 10, decimal d.1 = [digit d.1] := fun d => by rw [decimal, if_pos d.2]
  show (toString d.1).toList ++ digits l = _
  rw [toString_decimal, this]
  rfl

/-- The digits read as an integer, behind those read before. -/
def valueFrom (acc : Nat) : List (Fin 10) → Nat
  | [] => acc
  | d :: l => valueFrom (10 * acc + d.1) l

theorem takeDigits_digits (l : List (Fin 10)) (s : Str) (hs : ∀ acc, takeDigits acc s = (0, acc, s)) : ∀ acc, takeDigits acc (digits l ++ s) = (l.length, valueFrom acc l, s) := by
  induction l with
  | nil => intro acc; exact hs acc
  | cons d l ih =>
    intro acc
    rw [digits_cons, List.cons_append, takeDigits, digitValue_digit d.2]
    dsimp only
    rw [ih]
    rfl

theorem valueFrom_eq (l : List (Fin 10)) : ∀ acc : Nat, (valueFrom acc l : Rat) = ((acc : Rat) + fraction l) * 10 ^ l.length := by
  induction l with
  | nil => intro acc; simp [valueFrom, fraction]
  | cons d l ih =>
    intro acc
    rw [valueFrom, ih, fraction, List.length_cons, pow_succ]
    push_cast
    field_simp
    ring

theorem readInt_toString (n : Int) : readInt (toString n).toList = some n := by
  cases n with
  | ofNat m =>
    have e : (toString (Int.ofNat m)).toList = decimal m := toString_decimal m
    rw [e]
    exact readInt_decimal m
  | negSucc m =>
    have e : (toString (Int.negSucc m)).toList = '-' :: decimal (m + 1) := by
      show ("-" ++ Nat.repr (m + 1)).toList = _
      rw [String.toList_append, Nat.toList_repr, ← decimal_eq]
      rfl
    rw [e]
    exact readInt_negative _

/-- The exponent part. -/
def expo : Option Int → Str
  | none => []
  | some e => 'e' :: (toString e).toList

/-- The part after the point. -/
def point : Option (List (Fin 10)) → Str
  | none => []
  | some l => '.' :: digits l

theorem numeral_eq (n : Nat) (f e) : numeral n f e = decimal n ++ (point f ++ expo e) := by
  rw [← toString_decimal]
  cases f <;> cases e <;> rfl

theorem takeDigits_expo (e : Option Int) (acc : Nat) : takeDigits acc (expo e) = (0, acc, expo e) := by
  cases e with
  | none => rfl
  | some e =>
    rw [expo, takeDigits, show digitValue 'e' = none by decide]

theorem readExponent_expo (e : Option Int) : readExponent (expo e) = some (e.getD 0) := by
  cases e with
  | none => rfl
  | some e => rw [expo, readExponent, if_pos (.inl rfl), readInt_toString]; rfl

theorem takeDigits_point (f : Option (List (Fin 10))) (e : Option Int) (acc : Nat) : takeDigits acc (point f ++ expo e) = (0, acc, point f ++ expo e) := by
  cases f with
  | none => exact takeDigits_expo e acc
  | some l => rw [point, List.cons_append, takeDigits, show digitValue '.' = none by decide]

theorem readFraction_point (f : Option (List (Fin 10))) (e : Option Int) (acc : Nat) : readFraction acc (point f ++ expo e) = ((f.getD []).length, valueFrom acc (f.getD []), expo e) := by
  cases f with
  | none =>
    cases e with
    | none => rfl
    | some e => rfl
  | some l =>
    rw [point, List.cons_append, readFraction, takeDigits_digits l _ (takeDigits_expo e)]
    rfl

theorem takeDigits_numeral (n : Nat) (f : Option (List (Fin 10))) (e : Option Int) : takeDigits 0 (numeral n f e) = ((decimal n).length, n, point f ++ expo e) := by
  rw [numeral_eq, takeDigits_append, takeDigits_point]
  simp

theorem decimal_head (n : Nat) : ∃ c l, decimal n = c :: l ∧ c ≠ '-' ∧ c ≠ '+' := by
  have h := takeSign_decimal n
  cases hd : decimal n with
  | nil => exact absurd hd (Shell.decimal_ne_nil n)
  | cons c l =>
    refine ⟨c, l, rfl, ?_, ?_⟩ <;> rintro rfl <;> rw [hd] at h <;> simp [takeSign] at h

theorem takeSign_numeral (n : Nat) (f e) : takeSign (numeral n f e) = (false, numeral n f e) := by
  obtain ⟨c, l, h, h1, h2⟩ := decimal_head n
  rw [numeral_eq, h, List.cons_append]
  unfold takeSign
  split <;> simp_all

theorem rescale (n : Nat) (l : List (Fin 10)) (e : Int) : (valueFrom n l : Rat) * 10 ^ (e - (l.length : Int)) = ((n : Rat) + fraction l) * 10 ^ e := by
  rw [valueFrom_eq, zpow_sub₀ (by norm_num), zpow_natCast]
  field_simp

theorem readFloat_numeral (n : Nat) (f : Option (List (Fin 10))) (e : Option Int) : readFloat (numeral n f e) = some (((n : Rat) + fraction (f.getD [])) * 10 ^ e.getD 0) := by
  obtain ⟨m, hm⟩ := length_decimal n
  unfold readFloat
  simp only [takeSign_numeral, takeDigits_numeral, readFraction_point, readExponent_expo, hm, Option.map_some]
  rw [if_neg (by omega), if_neg (by decide), one_mul, rescale]

theorem readFloat_minus (n : Nat) (f : Option (List (Fin 10))) (e : Option Int) : readFloat ('-' :: numeral n f e) = some (-(((n : Rat) + fraction (f.getD [])) * 10 ^ e.getD 0)) := by
  obtain ⟨m, hm⟩ := length_decimal n
  unfold readFloat
  simp only [takeSign, takeDigits_numeral, readFraction_point, readExponent_expo, hm, Option.map_some]
  rw [if_neg (by omega), if_pos trivial, mul_assoc, rescale, neg_one_mul]

theorem isValue_numeral (n : Nat) (f e) : isValue (numeral n f e) = true := by
  obtain ⟨c, l, h, h1, _⟩ := decimal_head n
  rw [numeral_eq, h, List.cons_append]
  simp [isValue, h1]

theorem isValue_minus (n : Nat) (f : Option (List (Fin 10))) (e : Option Int) : isValue ('-' :: numeral n f e) = decide (e = none ∧ f ≠ some []) := by
  obtain ⟨m, hm⟩ := length_decimal n
  unfold isValue negative
  simp only [takeDigits_numeral, hm]
  cases f with
  | none => cases e <;> simp [point, expo]
  | some l =>
    simp only [point, List.cons_append, takeDigits_digits l _ (takeDigits_expo e)]
    cases l <;> cases e <;> simp [expo]

/-! ## Properties -/

/-- **C83.** Decimal numbers arrive as the number they write: integer part, digits after the point and exponent. -/
theorem C83_decimals (o : Opt) (hk : o.kind = .float) (hc : o.choices = none) (n : Nat) (f : Option (List (Fin 10))) (e : Option Int) :
    asked o (.text (numeral n f e)) = some (.float (((n : Rat) + fraction (f.getD [])) * 10 ^ e.getD 0)) := by
  simp [asked, hk, Val.str, isValue_numeral, convert, readFloat_numeral, hc, allowed, Option.filter]

/-- **C83.** Negative decimal numbers arrive exactly if they are written without an exponent and do not end with the point: other negative numbers are taken for options. -/
theorem C83_negative_decimals (o : Opt) (hk : o.kind = .float) (hc : o.choices = none) (n : Nat) (f : Option (List (Fin 10))) (e : Option Int) :
    asked o (.text ('-' :: numeral n f e)) = if e = none ∧ f ≠ some [] then some (.float (-((n : Rat) + fraction (f.getD [])))) else none := by
  by_cases h : e = none ∧ f ≠ some []
  · have hv : isValue ('-' :: numeral n f e) = true := by rw [isValue_minus]; exact decide_eq_true h
    rw [if_pos h]
    obtain ⟨rfl, _⟩ := h
    simp [asked, hk, Val.str, hv, convert, readFloat_minus, hc, allowed, Option.filter]
  · have hv : isValue ('-' :: numeral n f e) = false := by rw [isValue_minus]; exact decide_eq_false h
    rw [if_neg h]
    simp [asked, hk, Val.str, hv]

/-- **C83.** Options for integers refuse decimal numbers. -/
theorem C83_not_integers (o : Opt) (hk : o.kind = .int) (n : Nat) (f : Option (List (Fin 10))) (e : Option Int) (h : f ≠ none ∨ e ≠ none) : asked o (.text (numeral n f e)) = none := by
  have hr : readInt (numeral n f e) = none := by
    unfold readInt
    simp only [takeSign_numeral, takeDigits_numeral]
    have : point f ++ expo e ≠ [] := by cases f <;> cases e <;> simp_all [point, expo]
    split
    · next hh => exact absurd (congrArg (fun x : Nat × Nat × Str => x.2.2) hh) this
    · rfl
  simp [asked, hk, Val.str, isValue_numeral, convert, hr]

/-- Some numbers: a learning rate of `-1e-3` is refused, `-0.5` is not. -/
example (o : Opt) (hk : o.kind = .float) (hc : o.choices = none) : asked o (.text "0.01".toList) = some (.float (1 / 100)) ∧ asked o (.text "1e-3".toList) = some (.float (1 / 1000)) ∧
    asked o (.text "2.50".toList) = some (.float (5 / 2)) ∧ asked o (.text "-0.5".toList) = some (.float (-1 / 2)) ∧ asked o (.text "-1e-3".toList) = none := by
  refine ⟨?_, ?_, ?_, ?_, ?_⟩
  · exact (C83_decimals o hk hc 0 (some [0, 1]) none).trans (by norm_num [fraction])
  · refine (C83_decimals o hk hc 1 none (some (-3))).trans ?_
    norm_num [fraction]
  · exact (C83_decimals o hk hc 2 (some [5, 0]) none).trans (by norm_num [fraction])
  · exact (C83_negative_decimals o hk hc 0 (some [5]) none).trans (by norm_num [fraction])
  · exact (C83_negative_decimals o hk hc 1 none (some (-3))).trans (if_neg (by decide))

example (o : Opt) (hk : o.kind = .int) : asked o (.text "1e3".toList) = none := C83_not_integers o hk 1 none (some 3) (.inr (by decide))

end Verif.Options
