import Verif.Shapes.Model
import Verif.Shapes.Spec

namespace Verif.Shapes
open Verif Verif.Init

theorem linear_two (pre : Shape) (d m i o : Nat) :
    linear i o (pre ++ [d, m]) = if m = i then .ok (pre ++ [d, o]) else .error .runtimeError := by
  have h : pre ++ [d, m] = (pre ++ [d]) ++ [m] := by simp
  simp only [linear, h, List.getLast?_append, List.dropLast_append]
  simp

theorem bcastRev_self (s : Shape) : bcastRev s s = some s := by
  induction s with
  | nil => rfl
  | cons x s ih => simp [bcastRev, ih]

theorem bcast_self (s : Shape) : bcast s s = .ok s := by simp [bcast, bcastRev_self]

theorem bcastRev_ones (s : Shape) (t u : Shape) : bcastRev (List.replicate s.length 1 ++ t) (s ++ u) = (bcastRev t u).map (s ++ ·) := by
  induction s with
  | nil => simp
  | cons x s ih =>
    simp only [List.length_cons, List.replicate_succ, List.cons_append, bcastRev, ih]
    by_cases h : 1 = x
    · subst h; simp [Function.comp_def]
    · rw [if_neg h]; simp [Function.comp_def]

theorem bcast_ones (n : Nat) (s : Shape) : bcast (n :: List.replicate s.length 1) (n :: s) = .ok (n :: s) := by
  have := bcastRev_ones s.reverse [n] [n]
  rw [List.length_reverse] at this
  simp [bcast, List.reverse_replicate, this, bcastRev]

/-- The sizes of particles or data of the vector classes with leading dimensions `pre`; `one` is the size of `c1` and `c2`. -/
def vec (cls : Cls) (one pre : Shape) (d m k : Nat) : Dict :=
  match cls with
  | .dampenedUpDown => [("c1", one), ("c2", one), ("q1", pre ++ [d, m]), ("q2", pre ++ [d, m * k])]
  | .upDown | .universal | .general | .dampenedQ2 | .periodic => [("q1", pre ++ [d, m]), ("q2", pre ++ [d, m * k])]
  | .secondOrder | .debugSimple | .optimalTransport => [("q1", pre ++ [d, m]), ("q2", pre ++ [d, m])]
  | .simple => [("q1", pre ++ [d, m])]
  | .symmetrized => [("q1", pre ++ [d, m]), ("q2", pre ++ [d, m * k]), ("q3", pre ++ [d, m])]
  | _ => []

/-- The classes for vectors. -/
def Cls.isVector : Cls → Bool
  | .simpleConv | .convBatch | .upDownConv => false
  | _ => true

theorem dots_vec_rhs (cls : Cls) (hv : cls.isVector = true) (c : Cfg) (one pre : Shape) (d m : Nat) (hm : 0 < m) (hi : 0 < c.inflation)
    (hone : ∀ k, bcast one (pre ++ [d, k]) = .ok (pre ++ [d, k])) :
    rhsShapes cls c (vec cls one pre d m c.inflation) = .ok (dots (vec cls one pre d m c.inflation)) ↔
      c.inFeatures = m ∧ (cls = .symmetrized ∨ cls = .optimalTransport → c.inflation = 1) := by
  have e1 : ∀ f, m * c.inflation = f * c.inflation ↔ f = m := fun f => by
    rw [Nat.mul_left_inj (by omega), eq_comm]
  have e2 : m = m * c.inflation ↔ c.inflation = 1 := by
    constructor
    · intro h; exact (Nat.eq_of_mul_eq_mul_left hm (by omega : m * 1 = m * c.inflation)).symm
    · intro h; simp [h]
  cases cls <;> simp only [Cls.isVector, Bool.false_eq_true] at hv
  all_goals
    by_cases h : c.inFeatures = m
    · subst h
      simp [vec, rhsShapes, look, SDict.get?, linear_two, bcast_self, hone, dots, bind, Except.bind]
      try (by_cases h2 : c.inflation = 1 <;> simp [h2, e2, eq_comm])
    · have h' : ¬ m = c.inFeatures := fun x => h x.symm
      simp [vec, rhsShapes, look, SDict.get?, linear_two, bind, Except.bind, e1, h, h']

theorem conv_img (i o k n d h w : Nat) :
    conv i o k 1 [n, d, h, w] =
      if d = i ∧ 0 < k ∧ k ≤ h + 2 ∧ k ≤ w + 2 then .ok [n, o, h + 2 + 1 - k, w + 2 + 1 - k] else .error .runtimeError := by
  simp [conv]

theorem conv_bad (i o k p a b : Nat) (l : List Nat) (hl : l.length ≠ 2) : conv i o k p (a :: b :: l) = .error .runtimeError := by
  match l, hl with
  | [], _ => rfl
  | [_], _ => rfl
  | [_, _], h => exact absurd rfl h
  | _ :: _ :: _ :: _, _ => rfl

/-- The sizes of particles or data of the convolutional classes. -/
def img (cls : Cls) (n d k : Nat) (l : Shape) : Dict :=
  match cls with
  | .upDownConv => [("q1", n :: d :: l), ("q2", n :: (d * k) :: l)]
  | _ => [("q1", n :: d :: l), ("q2", n :: d :: l)]

theorem dots_img_rhs (cls : Cls) (hv : cls.isVector = false) (c : Cfg) (n d : Nat) (l : List Nat) (hl : ∀ x ∈ l, 0 < x) (hi : 0 < c.inflation) :
    rhsShapes cls c (img cls n d c.inflation l) = .ok (dots (img cls n d c.inflation l)) ↔
      l.length = 2 ∧ c.filterSize = 3 ∧ c.inFeatures = d := by
  have e1 : ∀ a b, a * c.inflation = b * c.inflation ↔ a = b := fun a b => Nat.mul_left_inj (by omega)
  by_cases h2 : l.length = 2
  · obtain ⟨h, w, rfl⟩ : ∃ h w, l = [h, w] := by
      match l, h2 with
      | [h, w], _ => exact ⟨h, w, rfl⟩
    have hh : 0 < h := hl h (by simp)
    have hw : 0 < w := hl w (by simp)
    by_cases hd : d = c.inFeatures
    · subst hd
      by_cases hc : 0 < c.filterSize ∧ c.filterSize ≤ h + 2 ∧ c.filterSize ≤ w + 2
      · cases cls <;> simp only [Cls.isVector, Bool.true_eq_false] at hv <;>
          simp only [rhsShapes, img, look, SDict.get?, bind, Except.bind, conv_img, groupNorm, dots, if_true, hc, and_self] <;>
          simp [conv_img, hc] <;> omega
      · have h3 : ¬ c.filterSize = 3 := by omega
        cases cls <;> simp only [Cls.isVector, Bool.true_eq_false] at hv <;>
          simp [rhsShapes, img, look, SDict.get?, bind, Except.bind, conv_img, h3, hc]
    · have hd' : ¬ c.inFeatures = d := fun x => hd x.symm
      cases cls <;> simp only [Cls.isVector, Bool.true_eq_false] at hv <;>
        simp [rhsShapes, img, look, SDict.get?, bind, Except.bind, conv_img, hd, hd', e1]
  · cases cls <;> simp only [Cls.isVector, Bool.true_eq_false] at hv <;>
      simp [rhsShapes, img, look, SDict.get?, bind, Except.bind, conv_bad _ _ _ _ _ _ l h2, h2]

end Verif.Shapes
