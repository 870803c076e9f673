import Verif.Models.Classes
import Mathlib.LinearAlgebra.Matrix.Rank
import Mathlib.LinearAlgebra.Dimension.Constructions
import Mathlib.Topology.Order.IntermediateValue
import Mathlib.Topology.Algebra.Order.Field
import Mathlib.Topology.Instances.Real.Lemmas

/-! # Lemmas for C100: layers as sums of outer products -/

set_option linter.unusedSectionVars false

namespace Verif.Capacity
open Verif.Shooting Verif.Models

variable {ι C O I : Type} [Fintype ι] [Fintype C] [Fintype O] [Fintype I]

/-! ## Rank -/

/-- A sum of outer products over a set has at most the rank given by the number of elements. -/
theorem rank_outer {κ : Type} [Fintype κ] (a : ℝ) (P : κ → O → ℝ) (X : κ → I → ℝ) (A : Matrix O I ℝ) (h : ∀ o j, A o j = a * ∑ s, P s o * X s j) : A.rank ≤ Fintype.card κ := by
  have e : A = (Matrix.of fun o s => a * P s o) * Matrix.of X := by
    ext o j
    rw [h, Matrix.mul_apply, Finset.mul_sum]
    exact Finset.sum_congr rfl fun s _ => by simp [mul_assoc]
  rw [e]
  exact (Matrix.rank_mul_le_left _ _).trans (Matrix.rank_le_card_width _)

theorem rank_rows (a : ℝ) (p : T3 ι C O) (x : T3 ι C I) (A : Matrix O I ℝ) (h : ∀ o j, A o j = a * ∑ i, ∑ c, p i c o * x i c j) : A.rank ≤ Fintype.card ι * Fintype.card C := by
  rw [← Fintype.card_prod]
  refine rank_outer a (fun s : ι × C => p s.1 s.2) (fun s => x s.1 s.2) A fun o j => ?_
  rw [h, Fintype.sum_prod_type]

/-! ## Enough particles -/

/-- A sum over particles and rows of which only some count. -/
theorem sum_slots {J : Type} [Fintype J] (g : J ↪ ι × C) (F : ι → C → ℝ) (h : ∀ k ∉ Set.range g, F k.1 k.2 = 0) : ∑ i, ∑ c, F i c = ∑ s, F (g s).1 (g s).2 := by
  rw [← Fintype.sum_prod_type (f := fun k : ι × C => F k.1 k.2)]
  exact (Fintype.sum_of_injective g g.injective _ _ h fun _ => rfl).symm

/-- Values in some rows, zero in the others. -/
noncomputable def put {J : Type} (g : J ↪ ι × C) (P : J → O → ℝ) : T3 ι C O := fun i c => Function.extend g P 0 (i, c)

theorem put_at {J : Type} (g : J ↪ ι × C) (P : J → O → ℝ) (s : J) : put g P (g s).1 (g s).2 = P s := g.injective.extend_apply P 0 s

theorem put_off {J : Type} (g : J ↪ ι × C) (P : J → O → ℝ) {k : ι × C} (hk : k ∉ Set.range g) (o : O) : put g P k.1 k.2 o = 0 := by
  unfold put
  rw [Function.extend_apply' _ _ _ hk]
  rfl

theorem gradLayer_put {J : Type} [Fintype J] (g : J ↪ ι × C) (P : J → O → ℝ) (x : T3 ι C I) (o : O) :
    (∀ j, gradLayer (put g P) x (o, some j) = ∑ s, P s o * x (g s).1 (g s).2 j) ∧ gradLayer (put g P) x (o, none) = ∑ s, P s o := by
  constructor
  · intro j
    refine (sum_slots g (fun i c => put g P i c o * x i c j) fun k hk => ?_).trans ?_
    · rw [put_off g P hk, zero_mul]
    · exact Finset.sum_congr rfl fun s _ => by rw [put_at]
  · refine (sum_slots g (fun i c => put g P i c o) fun k hk => put_off g P hk o).trans ?_
    exact Finset.sum_congr rfl fun s _ => by rw [put_at]

/-- Activations of one row for each input and one more that differ from each other in one entry produce every layer. -/
theorem by_inputs [DecidableEq I] (g : Option I ↪ ι × C) (x : T3 ι C I) (u v : I → ℝ) (huv : ∀ j, u j ≠ v j) (h0 : ∀ j, x (g none).1 (g none).2 j = u j)
    (h1 : ∀ k j, x (g (some k)).1 (g (some k)).2 j = if k = j then v j else u j) (θ : Layer O I → ℝ) : ∃ p : T3 ι C O, gradLayer p x = θ := by
  let d : I → O → ℝ := fun k o => (θ (o, some k) - θ (o, none) * u k) / (v k - u k)
  refine ⟨put g fun s o => s.elim (θ (o, none) - ∑ k, d k o) fun k => d k o, ?_⟩
  funext ⟨o, j⟩
  have key := gradLayer_put g (fun s o => s.elim (θ (o, none) - ∑ k, d k o) fun k => d k o) x o
  rcases j with _ | j
  · rw [key.2, Fintype.sum_option]
    simp
  · rw [key.1, Fintype.sum_option]
    have e : ∀ k, d k o * x (g (some k)).1 (g (some k)).2 j = d k o * u j + if k = j then d j o * (v j - u j) else 0 := by
      intro k
      rw [h1]
      by_cases hk : k = j
      · subst hk
        simp only [if_true]
        ring
      · simp only [if_neg hk, add_zero]
    simp only [Option.elim_none, Option.elim_some, h0, e, Finset.sum_add_distrib, ← Finset.sum_mul, Finset.sum_ite_eq', Finset.mem_univ, if_true]
    have h2 : d j o * (v j - u j) = θ (o, some j) - θ (o, none) * u j := div_mul_cancel₀ _ (sub_ne_zero.mpr (huv j).symm)
    rw [h2]
    ring

/-- Rows for each output and one more produce every layer, with particles that depend on the layer. -/
theorem by_outputs [DecidableEq O] (g : Option O ↪ ι × C) {nl : ℝ → ℝ} (hc : Continuous nl) {a b : ℝ} (hab : nl a < nl b) (θ : Layer O I → ℝ) :
    ∃ (p : T3 ι C O) (x : T3 ι C I), gradLayer p (map nl x) = θ := by
  have hrange : ∀ y, |y - (nl a + nl b) / 2| ≤ (nl b - nl a) / 2 → ∃ z, nl z = y := by
    intro y hy
    obtain ⟨h1, h2⟩ := abs_le.mp hy
    exact intermediate_value_univ a b hc ⟨by linarith, by linarith⟩
  obtain ⟨c, hcdef⟩ : ∃ c, c = (nl a + nl b) / 2 := ⟨_, rfl⟩
  rw [← hcdef] at hrange
  let T : O → I → ℝ := fun o j => θ (o, some j) - θ (o, none) * c
  let M : ℝ := 1 + ∑ o, ∑ j, |T o j|
  have hM : 0 < M := by
    have : 0 ≤ ∑ o, ∑ j, |T o j| := Finset.sum_nonneg fun o _ => Finset.sum_nonneg fun j _ => abs_nonneg _
    show 0 < 1 + ∑ o, ∑ j, |T o j|
    linarith
  have hTM : ∀ o j, |T o j| ≤ M := by
    intro o j
    have h1 : |T o j| ≤ ∑ j, |T o j| := Finset.single_le_sum (f := fun j => |T o j|) (fun j _ => abs_nonneg _) (Finset.mem_univ j)
    have h2 : ∑ j, |T o j| ≤ ∑ o, ∑ j, |T o j| :=
      Finset.single_le_sum (f := fun o => ∑ j, |T o j|) (fun o _ => Finset.sum_nonneg fun j _ => abs_nonneg _) (Finset.mem_univ o)
    show |T o j| ≤ 1 + ∑ o, ∑ j, |T o j|
    linarith
  obtain ⟨ε, he⟩ : ∃ ε, ε = (nl b - nl a) / 2 / M := ⟨_, rfl⟩
  have hε : 0 < ε := by rw [he]; exact div_pos (by linarith) hM
  have hex : ∀ o j, ∃ z, nl z = c + ε * T o j := by
    intro o j
    refine hrange _ ?_
    rw [add_sub_cancel_left, abs_mul, abs_of_pos hε]
    calc ε * |T o j| ≤ ε * M := mul_le_mul_of_nonneg_left (hTM o j) hε.le
      _ = (nl b - nl a) / 2 := by rw [he]; exact div_mul_cancel₀ _ hM.ne'
  obtain ⟨z0, hz0⟩ := hrange c (by rw [sub_self, abs_zero]; linarith)
  choose z hz using hex
  let P : Option O → O → ℝ := fun s o => s.elim (θ (o, none) - 1 / ε) fun k => if k = o then 1 / ε else 0
  let X : Option O → I → ℝ := fun s j => s.elim z0 fun k => z k j
  refine ⟨put g P, put g X, ?_⟩
  funext ⟨o, j⟩
  have key := gradLayer_put g P (map nl (put g X)) o
  rcases j with _ | j
  · rw [key.2, Fintype.sum_option]
    simp only [P, Option.elim_none, Option.elim_some, Finset.sum_ite_eq', Finset.mem_univ, if_true]
    ring
  · rw [key.1, Fintype.sum_option]
    have e : ∀ s, map nl (put g X) (g s).1 (g s).2 j = nl (X s j) := fun s => by unfold map; rw [put_at]
    simp only [e, P, X, Option.elim_none, Option.elim_some, hz0, hz, ite_mul, zero_mul, Finset.sum_ite_eq', Finset.mem_univ, if_true]
    show (θ (o, none) - 1 / ε) * c + 1 / ε * (c + ε * (θ (o, some j) - θ (o, none) * c)) = θ (o, some j)
    field_simp
    ring

/-- The two constructions together. -/
theorem enough [DecidableEq O] [DecidableEq I] {nl : ℝ → ℝ} (hc : Continuous nl) {a b : ℝ} (hab : nl a < nl b) (hN : min (Fintype.card O) (Fintype.card I) < Fintype.card ι * Fintype.card C)
    (θ : Layer O I → ℝ) : ∃ (p : T3 ι C O) (x : T3 ι C I), gradLayer p (map nl x) = θ := by
  rw [← Fintype.card_prod] at hN
  rcases min_lt_iff.mp hN with h | h
  · obtain ⟨g⟩ := Function.Embedding.nonempty_of_card_le (α := Option O) (β := ι × C) (by rw [Fintype.card_option]; omega)
    exact by_outputs g hc hab θ
  · obtain ⟨g⟩ := Function.Embedding.nonempty_of_card_le (α := Option I) (β := ι × C) (by rw [Fintype.card_option]; omega)
    let X : Option I → I → ℝ := fun s j => s.elim a fun k => if k = j then b else a
    obtain ⟨p, hp⟩ := by_inputs g (map nl (put g X)) (fun _ => nl a) (fun _ => nl b) (fun _ => hab.ne)
      (fun j => by unfold map; rw [put_at]; rfl)
      (fun k j => by
        unfold map
        rw [put_at]
        show nl (if k = j then b else a) = _
        exact apply_ite nl _ _ _) θ
    exact ⟨p, _, hp⟩

/-! ## Too few particles -/

/-- Vectors with a dual system that are orthogonal to the vector of ones are fewer than the entries. -/
theorem too_few {κ R : Type} [Fintype κ] [Fintype R] [DecidableEq R] [Nonempty R] (P X : R → κ → ℝ) (h : ∀ k l, ∑ s, P k s * X l s = if k = l then 1 else 0) (h0 : ∀ k, ∑ s, P k s = 0) :
    Fintype.card R < Fintype.card κ := by
  have hκ : Nonempty κ := by
    by_contra hne
    rw [not_nonempty_iff] at hne
    obtain ⟨r⟩ := ‹Nonempty R›
    have := h r r
    simp at this
  have hi : LinearIndependent ℝ (fun s : Option R => s.elim (fun _ : κ => (1 : ℝ)) P) := by
    rw [Fintype.linearIndependent_iff]
    intro f hf
    rw [Fintype.sum_option] at hf
    simp only [Option.elim_none, Option.elim_some] at hf
    have hs : ∀ s, f none + ∑ k, f (some k) * P k s = 0 := by
      intro s
      have := congrFun hf s
      simpa using this
    have h1 : f none = 0 := by
      have e : ∑ s, (f none + ∑ k, f (some k) * P k s) = 0 := Finset.sum_eq_zero fun s _ => hs s
      rw [Finset.sum_add_distrib, Finset.sum_comm] at e
      simp only [← Finset.mul_sum, h0, mul_zero, Finset.sum_const_zero, add_zero, Finset.sum_const, Finset.card_univ, nsmul_eq_mul] at e
      rcases mul_eq_zero.mp e with e | e
      · exact absurd e (by exact_mod_cast Fintype.card_ne_zero)
      · exact e
    intro s
    rcases s with _ | l
    · exact h1
    · have e : ∑ s, (f none + ∑ k, f (some k) * P k s) * X l s = 0 := Finset.sum_eq_zero fun s _ => by rw [hs, zero_mul]
      simp only [h1, zero_add, Finset.sum_mul] at e
      rw [Finset.sum_comm] at e
      simp only [mul_assoc, ← Finset.mul_sum, h, mul_ite, mul_one, mul_zero, Finset.sum_ite_eq', Finset.mem_univ, if_true] at e
      exact e
  have := hi.fintype_card_le_finrank
  rw [Fintype.card_option, Module.finrank_fintype_fun_eq_card] at this
  omega

/-- A layer that needs more rows than the smaller of its sizes: ones on a diagonal, bias zero. -/
noncomputable def diagonal {R : Type} (eo : R → O) (ei : R → I) : Layer O I → ℝ := open Classical in fun
  | (o, some j) => if ∃ k, eo k = o ∧ ei k = j then 1 else 0
  | (_, none) => 0

theorem diagonal_at {R : Type} [DecidableEq R] (eo : R ↪ O) (ei : R ↪ I) (k l : R) : diagonal eo ei (eo k, some (ei l)) = if k = l then 1 else 0 := by
  unfold diagonal
  by_cases h : k = l
  · subst h
    rw [if_pos rfl]
    exact if_pos ⟨k, rfl, rfl⟩
  · rw [if_neg h]
    refine if_neg ?_
    rintro ⟨m, h1, h2⟩
    exact h ((eo.injective h1).symm.trans (ei.injective h2))

theorem needed {R : Type} [Fintype R] [Nonempty R] (eo : R ↪ O) (ei : R ↪ I) {a : ℝ} {p : T3 ι C O} {x : T3 ι C I} (h : ∀ r, a * gradLayer p x r = diagonal eo ei r) :
    Fintype.card R < Fintype.card ι * Fintype.card C := by
  classical
  rw [← Fintype.card_prod]
  refine too_few (κ := ι × C) (fun k s => a * p s.1 s.2 (eo k)) (fun l s => x s.1 s.2 (ei l)) (fun k l => ?_) fun k => ?_
  · rw [← diagonal_at eo ei k l, ← h]
    show _ = a * ∑ i, ∑ c, p i c (eo k) * x i c (ei l)
    rw [← Fintype.sum_prod_type (f := fun s : ι × C => p s.1 s.2 (eo k) * x s.1 s.2 (ei l)), Finset.mul_sum]
    exact Finset.sum_congr rfl fun s _ => mul_assoc _ _ _
  · have := h (eo k, none)
    have e : a * ∑ i, ∑ c, p i c (eo k) = 0 := this
    rw [← Fintype.sum_prod_type (f := fun s : ι × C => p s.1 s.2 (eo k)), Finset.mul_sum] at e
    exact e

/-- The sizes of a diagonal. -/
theorem exists_diagonal (O I : Type) [Fintype O] [Fintype I] : Nonempty (Fin (min (Fintype.card O) (Fintype.card I)) ↪ O) ∧ Nonempty (Fin (min (Fintype.card O) (Fintype.card I)) ↪ I) :=
  ⟨Function.Embedding.nonempty_of_card_le (by rw [Fintype.card_fin]; exact min_le_left _ _), Function.Embedding.nonempty_of_card_le (by rw [Fintype.card_fin]; exact min_le_right _ _)⟩

end Verif.Capacity
