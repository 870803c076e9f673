import Verif.Init.Model
import Mathlib.Data.List.Forall2
import Mathlib.Algebra.Ring.Nat
import Mathlib.Algebra.Order.Ring.Nat

/-!
# C43: options of the parameter initialisation
-/

namespace Verif.Init
open Verif

variable {α : Type} [Semiring α]

/-- The requested size, if the kind of particle size fits the kind of initialiser. -/
def Requested (k : Kind) (n dim : Nat) (s : PSize) (size : List Nat) : Prop :=
  match s with
  | .num m => (k = .vector ∨ k = .vectorSample) ∧ size = [n, dim, m]
  | .seq l => (k = .conv ∨ k = .convSample) ∧ size = [n, dim] ++ l

theorem sizeOf_ok {k : Kind} {n dim : Nat} {s : PSize} {size : List Nat} (h : Requested k n dim s size) :
    sizeOf k n dim s = .ok size := by
  cases s with
  | num m => obtain ⟨hk | hk, rfl⟩ := h <;> subst hk <;> rfl
  | seq l => obtain ⟨hk | hk, rfl⟩ := h <;> subst hk <;> rfl

/-- **C43.** Zeros and a constant at the same time are rejected, by all creation functions of all initialisers. -/
theorem C43_both_rejected (i : Initializer α) (randn : List Nat → List Nat → α) (n : Nat) (s : PSize) (dim : Nat) (c : α)
    (size : List Nat) (like : Arr α) :
    createParameters i randn n s dim true (some c) = .error .valueError ∧
    createOfSize i randn size true (some c) = .error .valueError ∧
    createLike i randn like true (some c) = .error .valueError := ⟨rfl, rfl, rfl⟩

/-- **C43.** Zeros come first: the result has the requested size and vanishes, whatever the other settings of the initialiser. -/
theorem C43_zero (i : Initializer α) (randn : List Nat → List Nat → α) (n dim : Nat) (s : PSize) (size : List Nat)
    (h : Requested i.kind n dim s size) :
    ∃ a, createParameters i randn n s dim true none = .ok a ∧ a.shape = size ∧ ∀ idx, a.entry idx = 0 :=
  ⟨zeros size, by simp [createParameters, createZero, sizeOf_ok h, bind, Except.bind], rfl, fun _ => rfl⟩

/-- **C43.** Then constants, for the vector initialisers. -/
theorem C43_constant_partial (i : Initializer α) (randn : List Nat → List Nat → α) (n dim m : Nat) (c : α)
    (hk : i.kind = .vector ∨ i.kind = .vectorSample) :
    ∃ a, createParameters i randn n (.num m) dim false (some c) = .ok a ∧ a.shape = [n, dim, m] ∧ ∀ idx, a.entry idx = c := by
  refine ⟨constant c [n, dim, m], ?_, rfl, fun idx => mul_one c⟩
  rcases hk with hk | hk <;> simp [createParameters, createConstant, hk, sizeOf, bind, Except.bind]

/-- **C43**, where the full statement fails: the convolution initialisers have no constant initialisation, the request raises
`AttributeError` for every size. -/
theorem C43_constant_conv_false (i : Initializer α) (randn : List Nat → List Nat → α) (n dim : Nat) (s : PSize) (c : α)
    (hk : i.kind = .conv ∨ i.kind = .convSample) :
    createParameters i randn n s dim false (some c) = .error .attributeError := by
  rcases hk with hk | hk <;> simp [createParameters, createConstant, hk]

/-- **C43.** Otherwise random numbers scaled by the magnitude, of the requested size. -/
theorem C43_random (i : Initializer α) (randn : List Nat → List Nat → α) (n dim : Nat) (s : PSize) (size : List Nat)
    (h : Requested i.kind n dim s size) (hr : i.onlyRandom = true) (hk : i.kind = .vector ∨ i.kind = .conv) :
    ∃ a, createParameters i randn n s dim false none = .ok a ∧ a.shape = size ∧ ∀ idx, a.entry idx = i.magnitude * randn size idx := by
  refine ⟨scaled i.magnitude randn size, ?_, rfl, fun _ => rfl⟩
  have e := sizeOf_ok h
  rcases hk with hk | hk <;> rw [hk] at e <;> simp [createParameters, createRandom, hr, hk, e, bind, Except.bind]

/-- **C43.** Without only-random initialisation the request reaches the custom initialisation, which the provided initialisers reject. -/
theorem C43_custom_rejected (i : Initializer α) (randn : List Nat → List Nat → α) (n dim : Nat) (s : PSize) (size : List Nat)
    (like : Arr α) (hr : i.onlyRandom = false) :
    createParameters i randn n s dim false none = .error .valueError ∧
    createOfSize i randn size false none = .error .valueError ∧
    createLike i randn like false none = .error .valueError := by
  simp [createParameters, createOfSize, createLike, hr]

/-- **C43**, the wrong kind of particle size: the convolution initialisers raise `ValueError` for a number, the vector initialisers
`TypeError` for a sequence. -/
theorem C43_wrong_size (i : Initializer α) (randn : List Nat → List Nat → α) (n dim m : Nat) (l : List Nat) :
    ((i.kind = .conv ∨ i.kind = .convSample) → createParameters i randn n (.num m) dim true none = .error .valueError) ∧
    ((i.kind = .conv ∨ i.kind = .convSample) → i.onlyRandom = true →
      createParameters i randn n (.num m) dim false none = .error .valueError) ∧
    ((i.kind = .vector ∨ i.kind = .vectorSample) → createParameters i randn n (.seq l) dim true none = .error .typeError) := by
  refine ⟨?_, ?_, ?_⟩
  · rintro (hk | hk) <;> simp [createParameters, createZero, hk, sizeOf, bind, Except.bind]
  · rintro (hk | hk) hr <;> simp [createParameters, createRandom, hk, hr, sizeOf, bind, Except.bind]
  · rintro (hk | hk) <;> simp [createParameters, createZero, hk, sizeOf, bind, Except.bind]

/-- **C43.** Creation by size and by example: the size is always the requested one, and the precedence is the same for all
initialisers. -/
theorem C43_of_size (i : Initializer α) (randn : List Nat → List Nat → α) (size : List Nat) (z : Bool) (c : Option α) (a : Arr α)
    (h : createOfSize i randn size z c = .ok a) :
    a.shape = size ∧ (z = true → c = none ∧ ∀ idx, a.entry idx = 0) ∧
    (∀ v, c = some v → z = false ∧ ∀ idx, a.entry idx = v) ∧
    (z = false → c = none → i.onlyRandom = true ∧ ∀ idx, a.entry idx = i.magnitude * randn size idx) := by
  unfold createOfSize at h
  cases z <;> cases c <;> simp at h
  · cases hr : i.onlyRandom with
    | false => simp [hr] at h
    | true =>
      simp only [hr, if_true, Except.ok.injEq] at h
      subst h
      simp [scaled]
  · subst h
    simp [constant]
  · subst h
    simp [zeros]

/-- **C43**, by example: `create_parameters_like` is `create_parameters_of_size` of the example's size. -/
theorem C43_like (i : Initializer α) (randn : List Nat → List Nat → α) (like : Arr α) (z : Bool) (c : Option α) (a : Arr α)
    (h : createLike i randn like z c = .ok a) : a.shape = like.shape :=
  (C43_of_size i randn like.shape z c a h).1

/-! ## Sample batches -/

/-- Sizes (last dimension first) that can be expanded to another one. -/
def ExpandsRev : List Nat → List Nat → Prop
  | [], _ => True
  | _ :: _, [] => False
  | x :: a, y :: b => (x = y ∨ x = 1) ∧ ExpandsRev a b

theorem bcastRev_expands : ∀ a b : List Nat, ExpandsRev a b → bcastRev a b = some b
  | [], b, _ => by cases b <;> rfl
  | _ :: _, [], h => h.elim
  | x :: a, y :: b, h => by
    rw [bcastRev]
    by_cases hxy : x = y
    · simp [hxy, bcastRev_expands a b h.2]
    · have hx : x = 1 := h.1.resolve_left hxy
      subst hx
      simp [hxy, bcastRev_expands a b h.2]

theorem expands_of_bcastRev : ∀ a b : List Nat, bcastRev a b = some b → ExpandsRev a b
  | [], _, _ => trivial
  | x :: a, [], h => by simp [bcastRev] at h
  | x :: a, y :: b, h => by
    rw [bcastRev] at h
    by_cases hxy : x = y
    · rw [if_pos hxy] at h
      cases hb : bcastRev a b with
      | none => simp [hb] at h
      | some s =>
        simp only [hb, Option.map_some, Option.some.injEq, List.cons.injEq] at h
        exact ⟨Or.inl hxy, expands_of_bcastRev a b (by rw [hb, h.2])⟩
    · rw [if_neg hxy] at h
      by_cases hx : x = 1
      · rw [if_pos hx] at h
        cases hb : bcastRev a b with
        | none => simp [hb] at h
        | some s =>
          simp only [hb, Option.map_some, Option.some.injEq, List.cons.injEq] at h
          exact ⟨Or.inr hx, expands_of_bcastRev a b (by rw [hb, h.2])⟩
      · rw [if_neg hx] at h
        by_cases hy : y = 1
        · rw [if_pos hy] at h
          cases hb : bcastRev a b with
          | none => simp [hb] at h
          | some s => simp [hb, hxy] at h
        · rw [if_neg hy] at h
          cases h

/-- **C43**, initialisers around a sample batch: the result has the requested size exactly if the batch can be expanded to it (otherwise
the size is a different one or the call raises); without a batch the call raises `TypeError`. -/
theorem C43_sample_batch (i : Initializer α) (randn : List Nat → List Nat → α) (n dim : Nat) (s : PSize) (size : List Nat)
    (h : Requested i.kind n dim s size) (hr : i.onlyRandom = true) (hk : i.kind = .vectorSample ∨ i.kind = .convSample) :
    (i.sample = none → createParameters i randn n s dim false none = .error .typeError) ∧
    ∀ b, i.sample = some b →
      ((∃ a, createParameters i randn n s dim false none = .ok a ∧ a.shape = size) ↔ ExpandsRev b.shape.reverse size.reverse) := by
  have e := sizeOf_ok h
  refine ⟨fun hn => ?_, fun b hb => ?_⟩
  · rcases hk with hk | hk <;> rw [hk] at e <;> simp [createParameters, createRandom, hr, hk, e, hn, bind, Except.bind]
  · have hc : createParameters i randn n s dim false none = b.add (scaled i.magnitude randn size) := by
      rcases hk with hk | hk <;> rw [hk] at e <;> simp [createParameters, createRandom, hr, hk, e, hb, bind, Except.bind]
    rw [hc]
    constructor
    · rintro ⟨a, ha, hs⟩
      unfold Arr.add at ha
      apply expands_of_bcastRev
      change (match bcastRev b.shape.reverse size.reverse with | none => _ | some s => _) = _ at ha
      cases hx : bcastRev b.shape.reverse size.reverse with
      | none => rw [hx] at ha; cases ha
      | some t =>
        rw [hx] at ha
        simp only [Except.ok.injEq] at ha
        subst ha
        rw [← hs]
        simp
    · intro hx
      have := bcastRev_expands _ _ hx
      refine ⟨⟨size.reverse.reverse, fun idx =>
          b.entry (projRev b.shape.reverse idx.reverse).reverse +
            (scaled i.magnitude randn size).entry (projRev size.reverse idx.reverse).reverse⟩, ?_, ?_⟩
      · unfold Arr.add
        change (match bcastRev b.shape.reverse size.reverse with | none => _ | some s => _) = _
        rw [this]
        rfl
      · simp

/-- **C43**, values: with a batch of exactly the requested size every entry is the batch entry plus the scaled random number (for
indices inside the size). -/
theorem C43_sample_values (i : Initializer α) (randn : List Nat → List Nat → α) (n dim : Nat) (s : PSize) (size : List Nat)
    (h : Requested i.kind n dim s size) (hr : i.onlyRandom = true) (hk : i.kind = .vectorSample ∨ i.kind = .convSample)
    (b : Arr α) (hb : i.sample = some b) (hs : b.shape = size) :
    ∃ a, createParameters i randn n s dim false none = .ok a ∧ a.shape = size ∧
      ∀ idx, List.Forall₂ (· < ·) idx size → a.entry idx = b.entry idx + i.magnitude * randn size idx := by
  have e := sizeOf_ok h
  have hc : createParameters i randn n s dim false none = b.add (scaled i.magnitude randn size) := by
    rcases hk with hk | hk <;> rw [hk] at e <;> simp [createParameters, createRandom, hr, hk, e, hb, bind, Except.bind]
  have hbc : bcastRev size.reverse size.reverse = some size.reverse := by
    apply bcastRev_expands
    generalize size.reverse = l
    induction l with
    | nil => trivial
    | cons x l ih => exact ⟨Or.inl rfl, ih⟩
  have hproj : ∀ (l idx : List Nat), List.Forall₂ (· < ·) idx l → projRev l idx = idx := by
    intro l idx hf
    induction hf with
    | nil => rfl
    | cons h1 _ ih =>
      rw [projRev, ih]
      split
      · next hx => subst hx; congr 1; omega
      · rfl
  refine ⟨⟨size.reverse.reverse, fun idx =>
    b.entry (projRev b.shape.reverse idx.reverse).reverse +
      (scaled i.magnitude randn size).entry (projRev size.reverse idx.reverse).reverse⟩, ?_, by simp, ?_⟩
  · rw [hc]
    unfold Arr.add
    change (match bcastRev b.shape.reverse size.reverse with | none => _ | some s => _) = _
    rw [hs, hbc]
    simp [scaled]
  · intro idx hidx
    have hrev : List.Forall₂ (· < ·) idx.reverse size.reverse := List.rel_reverse hidx
    simp only [hs]
    rw [hproj _ _ hrev]
    simp [scaled]

/-- **C43**, a batch with more particles than requested changes the size of the created parameters silently. -/
theorem C43_sample_grows :
    ∃ a, createParameters (α := ℕ) ⟨.vectorSample, true, 1, some ⟨[5, 1, 2], fun _ => 0⟩⟩ (fun _ _ => 0) 1 (.num 2) 1 false none = .ok a ∧
      a.shape = [5, 1, 2] := ⟨_, rfl, rfl⟩

example : Requested .conv 4 3 (.seq [8, 8]) [4, 3, 8, 8] := ⟨Or.inl rfl, rfl⟩
example : Requested .vectorSample 4 1 (.num 2) [4, 1, 2] := ⟨Or.inr rfl, rfl⟩

end Verif.Init
