import Verif.Activation.Model
import Mathlib.Analysis.Calculus.Deriv.Inv
import Mathlib.Analysis.Calculus.Deriv.Abs

/-!
# C30, C31: nonlinearities
-/

namespace Verif.Activation
open Verif

theorem chooseName_eq (u : List Char) :
    chooseName u =
      if u = "identity".toList then .ok .identity
      else if u = "relu".toList then .ok .relu
      else if u = "tanh".toList then .ok .tanh
      else if u = "sigmoid".toList then .ok .sigmoid
      else if u = "softmax".toList then .ok .softmax
      else .error .valueError := by
  by_cases h1 : u = "identity".toList
  · subst h1; decide
  by_cases h2 : u = "relu".toList
  · subst h2; decide
  by_cases h3 : u = "tanh".toList
  · subst h3; decide
  by_cases h4 : u = "sigmoid".toList
  · subst h4; decide
  by_cases h5 : u = "softmax".toList
  · subst h5; decide
  unfold chooseName
  simp only [h1, h2, h3, h4, h5, if_false, ite_self]

/-! ## C31 -/

/-- **C31.** The result is decided by the name alone: `None` means identity, the five names are accepted in any capitalisation, everything
else raises `ValueError`. -/
theorem C31_names (s : List Char) :
    choose (some s) =
      if lower s = "identity".toList then .ok .identity
      else if lower s = "relu".toList then .ok .relu
      else if lower s = "tanh".toList then .ok .tanh
      else if lower s = "sigmoid".toList then .ok .sigmoid
      else if lower s = "softmax".toList then .ok .softmax
      else .error .valueError := by
  exact chooseName_eq (lower s)

/-- **C31**, `None`. -/
theorem C31_none : choose none = .ok .identity := by decide

/-- **C31.** Accepted exactly if the lower-case name is supported. -/
theorem C31_accepted (s : List Char) : (∃ n, choose (some s) = .ok n) ↔ lower s ∈ supported := by
  change (∃ n, chooseName (lower s) = .ok n) ↔ _
  constructor
  · rintro ⟨n, hn⟩
    unfold chooseName at hn
    by_cases hc : supported.contains (lower s) = false
    · rw [if_pos hc] at hn; cases hn
    · simpa using hc
  · intro h
    rw [chooseName_eq]
    unfold supported at h
    simp only [List.mem_cons, List.not_mem_nil, or_false] at h
    rcases h with h | h | h | h | h <;> rw [h]
    · exact ⟨_, rfl⟩
    · exact ⟨.relu, by decide⟩
    · exact ⟨.tanh, by decide⟩
    · exact ⟨.sigmoid, by decide⟩
    · exact ⟨.softmax, by decide⟩

/-- Capitalisation does not matter. -/
theorem C31_case_insensitive (s s' : List Char) (h : lower s = lower s') :
    getNonlinearity (some s) = getNonlinearity (some s') := by
  unfold getNonlinearity
  rw [C31_names, C31_names, h]

/-- `c` is the capital of the letter `d` (A-Z have the codes 65 to 90). -/
def Capital (c d : Char) : Prop := 65 ≤ c.toNat ∧ c.toNat ≤ 90 ∧ c.toNat + 32 = d.toNat

/-- How the names are written. -/
def Name.spelling : Name → List Char
  | .identity => ['i', 'd', 'e', 'n', 't', 'i', 't', 'y']
  | .relu => ['r', 'e', 'l', 'u']
  | .tanh => ['t', 'a', 'n', 'h']
  | .sigmoid => ['s', 'i', 'g', 'm', 'o', 'i', 'd']
  | .softmax => ['s', 'o', 'f', 't', 'm', 'a', 'x']

theorem toLower_iff (c d : Char) (hd : 97 ≤ d.toNat ∧ d.toNat ≤ 122) : c.toLower = d ↔ c = d ∨ Capital c d := by
  unfold Capital
  have key : c.toLower.toNat = if 65 ≤ c.toNat ∧ c.toNat ≤ 90 then c.toNat + 32 else c.toNat := by
    unfold Char.toLower
    simp only [UInt32.le_iff_toNat_le]
    split
    · rename_i h
      have h' : 65 ≤ c.toNat ∧ c.toNat ≤ 90 := h
      rw [if_pos h']
      show (c.val + 32).toNat = _
      rw [UInt32.toNat_add]
      have : c.val.toNat = c.toNat := rfl
      rw [this]
      show (c.toNat + 32) % _ = _
      omega
    · rename_i h
      have h' : ¬ (65 ≤ c.toNat ∧ c.toNat ≤ 90) := h
      rw [if_neg h']
  have e : c.toLower = d ↔ c.toLower.toNat = d.toNat := ⟨fun h => by rw [h], fun h => Char.ext (UInt32.toNat_inj.1 h)⟩
  have e' : c = d ↔ c.toNat = d.toNat := ⟨fun h => by rw [h], fun h => Char.ext (UInt32.toNat_inj.1 h)⟩
  rw [e, e', key]
  split <;> omega

theorem lower_iff (s l : List Char) (hl : ∀ d ∈ l, 97 ≤ d.toNat ∧ d.toNat ≤ 122) : lower s = l ↔ List.Forall₂ (fun c d => c = d ∨ Capital c d) s l := by
  induction s generalizing l with
  | nil => cases l <;> simp [lower]
  | cons c s ih =>
    cases l with
    | nil => simp [lower]
    | cons d l =>
      have h1 := toLower_iff c d (hl d (by simp))
      have h2 := ih l fun e he => hl e (by simp [he])
      rw [List.forall₂_cons, ← h1, ← h2]
      simp [lower]

theorem spelling_letters (n : Name) : ∀ d ∈ n.spelling, 97 ≤ d.toNat ∧ d.toNat ≤ 122 := by cases n <;> decide

theorem choose_iff (s : List Char) (n : Name) : choose (some s) = .ok n ↔ lower s = n.spelling := by
  rw [C31_names]
  constructor
  · intro h
    repeat' (split at h)
    all_goals first | (cases h; assumption) | cases h
  · intro h
    rw [h]
    cases n <;> decide

/-- **C31.** A name is accepted as `n` exactly if it has the letters of `n`, each small or capital; a name that fits none of the five raises `ValueError`. -/
theorem C31_spelling (s : List Char) :
    (∀ n, choose (some s) = .ok n ↔ List.Forall₂ (fun c d => c = d ∨ Capital c d) s n.spelling) ∧
    (choose (some s) = .error .valueError ↔ ∀ n : Name, ¬ List.Forall₂ (fun c d => c = d ∨ Capital c d) s n.spelling) := by
  have h1 : ∀ n, choose (some s) = .ok n ↔ List.Forall₂ (fun c d => c = d ∨ Capital c d) s n.spelling :=
    fun n => (choose_iff s n).trans (lower_iff s _ (spelling_letters n))
  refine ⟨h1, ⟨fun h n hn => ?_, fun h => ?_⟩⟩
  · rw [(h1 n).2 hn] at h
    cases h
  · have h3 : ∀ n : Name, lower s ≠ n.spelling := fun n e => h n ((h1 n).1 ((choose_iff s n).2 e))
    rw [C31_names]
    repeat' split
    · exact absurd ‹_› (h3 .identity)
    · exact absurd ‹_› (h3 .relu)
    · exact absurd ‹_› (h3 .tanh)
    · exact absurd ‹_› (h3 .sigmoid)
    · exact absurd ‹_› (h3 .softmax)
    · rfl

example : List.Forall₂ (fun c d => c = d ∨ Capital c d) ['R', 'e', 'L', 'U'] Name.relu.spelling := by
  refine .cons (.inr ?_) (.cons (.inl rfl) (.cons (.inr ?_) (.cons (.inr ?_) .nil))) <;> exact ⟨by decide, by decide, by decide⟩

example : choose (some "ReLU".toList) = .ok .relu := by decide
example : choose (some "relu ".toList) = .error .valueError := by decide

/-! ## C30 -/

theorem exp_add_one_ne (y : ℝ) : Real.exp y + 1 ≠ 0 := by positivity

/-- The derivative of the soft maximum, for every steepness `ε`. -/
theorem C30_softmax (ε x : ℝ) : HasDerivAt (softmax ε) (dsoftmax ε x) x := by
  have h1 : HasDerivAt (fun x : ℝ => -x * ε) (-1 * ε) x := ((hasDerivAt_id x).neg).mul_const ε
  have h2 : HasDerivAt (fun x : ℝ => Real.exp (-x * ε) + 1) (Real.exp (-x * ε) * (-1 * ε)) x := (h1.exp).add_const 1
  have h3 := ((hasDerivAt_id x).mul_const (1 : ℝ)).div h2 (exp_add_one_ne _)
  refine h3.congr_deriv ?_
  have he : Real.exp (ε * x) * Real.exp (-x * ε) = 1 := by
    rw [← Real.exp_add]; ring_nf; simp
  have hpos : Real.exp (-x * ε) + 1 ≠ 0 := exp_add_one_ne _
  have hpos' : Real.exp (ε * x) + 1 ≠ 0 := exp_add_one_ne _
  unfold dsoftmax softmax
  generalize Real.exp (ε * x) = a at *
  generalize Real.exp (-x * ε) = b at *
  simp only [id]
  field_simp
  linear_combination (x * ε) * he

theorem hasDerivAt_tanh (x : ℝ) : HasDerivAt Real.tanh (dtanh x) x := by
  have hc : Real.cosh x ≠ 0 := (Real.cosh_pos x).ne'
  have h := (Real.hasDerivAt_sinh x).div (Real.hasDerivAt_cosh x) hc
  have he : (fun y => Real.sinh y / Real.cosh y) = Real.tanh := by
    funext y; rw [Real.tanh_eq_sinh_div_cosh]
  have : HasDerivAt Real.tanh
      ((Real.cosh x * Real.cosh x - Real.sinh x * Real.sinh x) / Real.cosh x ^ 2) x := by
    rw [← he]; exact h
  refine this.congr_deriv ?_
  unfold dtanh
  rw [Real.tanh_eq_sinh_div_cosh]
  field_simp

theorem hasDerivAt_relu {x : ℝ} (hx : x ≠ 0) : HasDerivAt relu (drelu x) x := by
  rcases lt_or_gt_of_ne hx with h | h
  · have : drelu x = 0 := by unfold drelu; rw [if_neg (not_le.2 h)]
    rw [this]
    refine (hasDerivAt_const x (0 : ℝ)).congr_of_eventuallyEq ?_
    filter_upwards [gt_mem_nhds h] with y hy
    exact max_eq_right (le_of_lt hy)
  · have : drelu x = 1 := by unfold drelu; rw [if_pos (le_of_lt h)]
    rw [this]
    refine (hasDerivAt_id x).congr_of_eventuallyEq ?_
    filter_upwards [lt_mem_nhds h] with y hy
    exact max_eq_left (le_of_lt hy)

theorem hasDerivAt_sigmoid (x : ℝ) : HasDerivAt sigmoid (sigmoid x * (1 - sigmoid x)) x := by
  have h1 : HasDerivAt (fun x : ℝ => 1 + Real.exp (-x)) (Real.exp (-x) * -1) x :=
    (((hasDerivAt_id x).neg).exp).const_add 1
  have hne : (1 : ℝ) + Real.exp (-x) ≠ 0 := by positivity
  have h2 := (hasDerivAt_const x (1 : ℝ)).div h1 hne
  refine h2.congr_deriv ?_
  unfold sigmoid
  field_simp
  ring

/-- **C30** (proved part).  For every accepted name except `sigmoid`, the second function is the derivative of the first at every real number; for
`relu` at every number except 0.  Missing: `sigmoid`, where it is false (`C30_sigmoid_false`). -/
theorem C30_derivative_partial (s : Option (List Char)) (n : Name) (hs : choose s = .ok n) (hn : n ≠ .sigmoid) (x : ℝ)
    (hx : n = .relu → x ≠ 0) :
    ∃ f g, getNonlinearity s = .ok (f, g) ∧ HasDerivAt f (g x) x := by
  refine ⟨(pair n).1, (pair n).2, by rw [getNonlinearity, hs]; rfl, ?_⟩
  cases n with
  | identity => exact hasDerivAt_id x
  | relu => exact hasDerivAt_relu (hx rfl)
  | tanh => exact hasDerivAt_tanh x
  | sigmoid => exact absurd rfl hn
  | softmax => exact C30_softmax 1 x

/-- **C30** at the kink of `relu`: the returned derivative is the right derivative. -/
theorem C30_relu_zero : HasDerivWithinAt relu (drelu 0) (Set.Ici 0) 0 ∧ ¬ DifferentiableAt ℝ relu 0 := by
  constructor
  · have : drelu 0 = 1 := by unfold drelu; simp
    rw [this]
    exact (hasDerivWithinAt_id 0 (Set.Ici 0)).congr (fun y hy => max_eq_left hy) (max_eq_left le_rfl)
  · intro h
    have habs : (fun y : ℝ => |y|) = fun y => relu y + relu (-y) := by
      funext y
      unfold relu
      rcases le_total 0 y with hy | hy
      · rw [abs_of_nonneg hy, max_eq_left hy, max_eq_right (by linarith)]; ring
      · rw [abs_of_nonpos hy, max_eq_right hy, max_eq_left (by linarith)]; ring
    have h2 : DifferentiableAt ℝ (fun y => relu (-y)) 0 := by
      have h' : DifferentiableAt ℝ relu (-(0 : ℝ)) := by simpa using h
      exact h'.comp (0 : ℝ) differentiableAt_id.neg
    have := h.add h2
    rw [show (relu + fun y => relu (-y)) = fun y : ℝ => |y| from habs.symm] at this
    exact not_differentiableAt_abs_zero this

/-- **C30** is false for `sigmoid`: the function itself is returned as its derivative, which is wrong at *every* point. -/
theorem C30_sigmoid_false : ∃ f g, getNonlinearity (some "sigmoid".toList) = .ok (f, g) ∧ ∀ x, ¬ HasDerivAt f (g x) x := by
  refine ⟨sigmoid, sigmoid, ?_, ?_⟩
  · have : choose (some "sigmoid".toList) = .ok .sigmoid := by decide
    rw [getNonlinearity, this]; rfl
  · intro x h
    have h' := h.unique (hasDerivAt_sigmoid x)
    have hpos : 0 < sigmoid x := by unfold sigmoid; positivity
    have : sigmoid x * sigmoid x = 0 := by linarith
    rcases mul_self_eq_zero.1 this with h0
    exact hpos.ne' h0

/-- Every returned derivative is non-negative for `relu`, `tanh`, `identity` (these functions are monotone). -/
theorem C30_monotone (n : Name) (hn : n = .relu ∨ n = .tanh ∨ n = .identity) (x : ℝ) : 0 ≤ (pair n).2 x ∧ (pair n).2 x ≤ 1 := by
  rcases hn with rfl | rfl | rfl
  · show 0 ≤ drelu x ∧ drelu x ≤ 1
    unfold drelu; split <;> norm_num
  · show 0 ≤ dtanh x ∧ dtanh x ≤ 1
    unfold dtanh
    have h1 := Real.tanh_lt_one x
    have h2 := Real.neg_one_lt_tanh x
    constructor
    · nlinarith
    · nlinarith [sq_nonneg (Real.tanh x)]
  · show 0 ≤ didentity x ∧ didentity x ≤ 1
    simp [didentity]

example : ∃ f g, getNonlinearity (some "Tanh".toList) = .ok (f, g) ∧ HasDerivAt f (g 3) 3 :=
  C30_derivative_partial _ .tanh (by decide) (by decide) 3 (by decide)

end Verif.Activation
