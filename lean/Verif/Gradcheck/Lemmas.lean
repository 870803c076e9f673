import Verif.Gradcheck.Model
import Verif.Gradcheck.Spec
import Verif.Whole.Lemmas

/-!
# Lemmas for the comparison
-/

namespace Verif.Gradcheck
open Verif Verif.Whole

variable {K : Type}

/-! ## One parameter -/

theorem same_zeros {auto ana : List ℝ} : ana.map (fun x => decide (x ≠ 0)) = auto.map (fun x => decide (x ≠ 0)) ↔ List.Forall₂ (fun a b => a = 0 ↔ b = 0) auto ana := by
  induction auto generalizing ana with
  | nil => cases ana <;> simp
  | cons a auto ih =>
    cases ana with
    | nil => simp
    | cons b ana =>
      rw [List.map_cons, List.map_cons, List.cons.injEq, ih, List.forall₂_cons, decide_eq_decide]
      constructor
      · exact fun h => ⟨⟨fun ha => by_contra fun hb => h.1.1 hb ha, fun hb => by_contra fun ha => h.1.2 ha hb⟩, h.2⟩
      · exact fun h => ⟨⟨fun hb ha => hb (h.1.1 ha), fun ha hb => ha (h.1.2 hb)⟩, h.2⟩

/-- The relative errors at the elements that are not zero. -/
noncomputable def errors (auto ana : List ℝ) : List ℝ := List.zipWith (fun a b => |a / b - 1|) (auto.filter fun x => decide (x ≠ 0)) (ana.filter fun x => decide (x ≠ 0))

theorem errors_spec {auto ana : List ℝ} (h : List.Forall₂ (fun a b => a = 0 ↔ b = 0) auto ana) (tol : ℝ) :
    (errors auto ana = [] ↔ ¬ Moves auto) ∧ (Moves auto ↔ Moves ana) ∧ ((∀ x ∈ errors auto ana, x < tol) ↔ Agree tol auto ana) := by
  induction h with
  | nil => simp [errors, Moves, Agree]
  | @cons a b auto ana hab _ ih =>
    obtain ⟨i1, i2, i3⟩ := ih
    by_cases ha : a = 0
    · have hb : b = 0 := hab.1 ha
      subst ha hb
      refine ⟨?_, ?_, ?_⟩
      · rw [show errors (0 :: auto) (0 :: ana) = errors auto ana by simp [errors], i1]
        simp [Moves]
      · simpa [Moves] using i2
      · rw [show errors (0 :: auto) (0 :: ana) = errors auto ana by simp [errors], i3]
        simp [Agree]
    · have hb : b ≠ 0 := fun h => ha (hab.2 h)
      have e : errors (a :: auto) (b :: ana) = |a / b - 1| :: errors auto ana := by simp [errors, ha, hb]
      refine ⟨?_, ?_, ?_⟩
      · rw [e]
        simp [Moves, ha]
      · simp [Moves, ha, hb]
      · rw [e, List.forall_mem_cons, i3]
        simp [Agree, ha, hb]

theorem compareOne_eq (tol : ℝ) (auto ana : List ℝ) (hs : List.Forall₂ (fun a b => a = 0 ↔ b = 0) auto ana) :
    (¬ Moves auto ∧ ¬ Moves ana ∧ compareOne tol auto ana = .error .runtimeError) ∨
    (Moves auto ∧ Moves ana ∧ ∃ b, compareOne tol auto ana = .ok b ∧ (b = true ↔ Agree tol auto ana)) := by
  obtain ⟨h1, h2, h3⟩ := errors_spec hs tol
  unfold compareOne
  rw [if_pos (same_zeros.2 hs)]
  rw [← errors]
  cases hm : (errors auto ana).max? with
  | none =>
    rw [List.max?_eq_none_iff, h1] at hm
    exact .inl ⟨hm, fun h => hm (h2.2 h), rfl⟩
  | some m =>
    have hne : ¬ errors auto ana = [] := by
      intro h
      rw [h] at hm
      cases hm
    have hmv : Moves auto := by_contra fun h => hne (h1.2 h)
    refine .inr ⟨hmv, h2.1 hmv, _, rfl, ?_⟩
    rw [decide_eq_true_iff, ← h3]
    rw [List.max?_eq_some_iff] at hm
    exact ⟨fun h x hx => lt_of_le_of_lt (hm.2 x hx) h, fun h => h m hm.1⟩

theorem compareOne_differ (tol : ℝ) (auto ana : List ℝ) (hs : ¬ List.Forall₂ (fun a b => a = 0 ↔ b = 0) auto ana) : compareOne tol auto ana = .ok false := by
  unfold compareOne
  rw [if_neg fun h => hs (same_zeros.1 h)]

theorem Agree.zeros {tol : ℝ} {auto ana : List ℝ} (h : Agree tol auto ana) : List.Forall₂ (fun a b => a = 0 ↔ b = 0) auto ana := h.imp fun _ _ h => h.1

theorem zeros_of_still {auto ana : List ℝ} (hl : auto.length = ana.length) (h1 : ¬ Moves auto) (h2 : ¬ Moves ana) : List.Forall₂ (fun a b => a = 0 ↔ b = 0) auto ana := by
  rw [List.forall₂_iff_get]
  refine ⟨hl, fun i h h' => ?_⟩
  have e1 : auto.get ⟨i, h⟩ = 0 := by_contra fun e => h1 ⟨_, List.get_mem _ _, e⟩
  have e2 : ana.get ⟨i, h'⟩ = 0 := by_contra fun e => h2 ⟨_, List.get_mem _ _, e⟩
  rw [e1, e2]

/-! ## All parameters -/

theorem compareAll_spec (tol : ℝ) (ana : SDict String (List ℝ)) {es : List (String × List ℝ)} {bs : List (List ℝ)}
    (h : List.Forall₂ (fun e b => SDict.get? ana e.1 = some b ∧ e.2.length = b.length) es bs) (c : Nat × Nat) :
    ((∃ x ∈ es.zip bs, ¬ Moves x.1.2 ∧ ¬ Moves x.2) ∧ compareAll tol ana es c = .error .runtimeError) ∨
    ((∀ x ∈ es.zip bs, Moves x.1.2 ∨ Moves x.2) ∧ ∃ k, k ≤ es.length ∧ compareAll tol ana es c = .ok (c.1 + k, c.2 + es.length) ∧
      (k = es.length ↔ List.Forall₂ (fun e b => Agree tol e.2 b) es bs)) := by
  induction h generalizing c with
  | nil => exact .inr ⟨by simp, 0, le_rfl, rfl, by simp⟩
  | @cons e b es bs hb _ ih =>
    unfold compareAll
    rw [hb.1]
    dsimp only
    have key : (¬ Moves e.2 ∧ ¬ Moves b ∧ compareOne tol e.2 b = .error .runtimeError) ∨
        ((Moves e.2 ∨ Moves b) ∧ ∃ v, compareOne tol e.2 b = .ok v ∧ (v = true ↔ Agree tol e.2 b)) := by
      by_cases hs : List.Forall₂ (fun a b => a = 0 ↔ b = 0) e.2 b
      · rcases compareOne_eq tol e.2 b hs with h | ⟨h1, _, h2⟩
        · exact .inl h
        · exact .inr ⟨.inl h1, h2⟩
      · refine .inr ⟨?_, false, compareOne_differ tol _ _ hs, by simp, fun h => absurd h.zeros hs⟩
        by_contra hc
        rw [not_or] at hc
        exact hs (zeros_of_still hb.2 hc.1 hc.2)
    rcases key with ⟨h1, h2, h3⟩ | ⟨h1, v, h3, h4⟩
    · left
      rw [h3]
      exact ⟨⟨(e, b), by simp, h1, h2⟩, rfl⟩
    · rw [h3]
      dsimp only
      rcases ih (if v then c.1 + 1 else c.1, c.2 + 1) with ⟨⟨x, hx, hx'⟩, i2⟩ | ⟨i1, k, i2, i3, i4⟩
      · exact .inl ⟨⟨x, by simp [hx], hx'⟩, i2⟩
      · refine .inr ⟨?_, ?_⟩
        · intro x hx
          rw [List.zip_cons_cons, List.mem_cons] at hx
          rcases hx with rfl | hx
          · exact h1
          · exact i1 x hx
        · cases v with
          | true =>
            refine ⟨k + 1, by simpa using i2, ?_, ?_⟩
            · rw [i3]
              simp only [if_true, List.length_cons]
              congr 2 <;> omega
            · rw [List.forall₂_cons, ← i4, ← h4]
              simp
          | false =>
            refine ⟨k, by simp; omega, ?_, ?_⟩
            · rw [i3]
              simp only [Bool.false_eq_true, if_false, List.length_cons]
              congr 2; omega
            · rw [List.forall₂_cons, ← h4]
              simp
              omega

/-! ## Gradients -/

/-- Every attribute is `None` or has as many elements as the new gradient. -/
def Ready (new : SDict String (List ℝ)) (g : Grads) : Prop := List.Forall₂ (fun e d => e.1 = d.1 ∧ ∀ l, e.2 = some l → l.length = d.2.length) g new

theorem zipWith_zero (l m : List ℝ) (h : l.length = m.length) : List.zipWith (fun a b => a + b) (l.map fun _ => (0 : ℝ)) m = m := by
  induction l generalizing m with
  | nil =>
    cases m with
    | nil => rfl
    | cons b m => simp at h
  | cons a l ih =>
    cases m with
    | nil => simp at h
    | cons b m => simp only [List.map_cons, List.zipWith_cons_cons, zero_add, ih m (by simpa using h)]

theorem accumulate_zero {new : SDict String (List ℝ)} (hn : new.keys.Nodup) {g : Grads} (h : Ready new g) : accumulate new (zeroGrads g) = new.map fun d => (d.1, some d.2) := by
  unfold accumulate zeroGrads
  rw [List.map_map]
  have step : ∀ (g : Grads) (d : SDict String (List ℝ)), List.Forall₂ (fun e d => e.1 = d.1 ∧ ∀ l, e.2 = some l → l.length = d.2.length) g d → (∀ x ∈ d, x ∈ new) →
      g.map ((fun e => (e.1, ((SDict.get? new e.1).map fun l => addTo l e.2).getD e.2)) ∘ fun e : String × Option (List ℝ) => (e.1, e.2.map fun l => l.map fun _ => (0 : ℝ))) =
        d.map fun d => (d.1, some d.2) := by
    intro g d h hm
    induction h with
    | nil => rfl
    | @cons e x g d he _ ih =>
      rw [List.map_cons, List.map_cons, ih fun y hy => hm y (List.mem_cons_of_mem _ hy)]
      congr 1
      simp only [Function.comp]
      rw [he.1, SDict.get?_eq_some_of_mem hn (v := x.2) (hm x (by simp))]
      simp only [Option.map_some, Option.getD_some]
      cases he2 : e.2 with
      | none => rfl
      | some l => simp only [Option.map_some, addTo, zipWith_zero _ _ (he.2 l he2)]
  exact step g new h fun _ h => h

theorem recorded_some (d : SDict String (List ℝ)) : recorded (d.map fun d => (d.1, some d.2)) = .ok d := by
  unfold recorded
  induction d with
  | nil => rfl
  | cons x d ih =>
    rw [List.map_cons, List.mapM_cons, ih]
    rfl

/-- No parameter of the state has the name of a parameter of the costate. -/
def Apart (L : Lay K) : Prop := ∀ e ∈ L.names, ∀ e' ∈ L.names, e.1 ≠ "p_" ++ e'.1

theorem derivatives_keys (L : Lay K) {n : Nat} (ℓ : (Fin n × K → ℝ) → (Fin n × K → ℝ) → ℝ) (q p : Fin n × K → ℝ) :
    (derivatives L ℓ q p).keys = (L.names.map fun e => "" ++ e.1) ++ L.names.map fun e => "p_" ++ e.1 := by
  simp [derivatives, SDict.keys, enc, Function.comp_def]

theorem derivatives_nodup {L : Lay K} (hL : L.Ok) (ha : Apart L) {n : Nat} (ℓ : (Fin n × K → ℝ) → (Fin n × K → ℝ) → ℝ) (q p : Fin n × K → ℝ) : (derivatives L ℓ q p).keys.Nodup := by
  rw [derivatives_keys, List.nodup_append]
  have hn : (L.names.map Prod.fst).Nodup := SDict.Sorted.nodup hL.sorted
  refine ⟨?_, ?_, ?_⟩
  · simpa using hn
  · have : (L.names.map fun e => "p_" ++ e.1) = (L.names.map Prod.fst).map ("p_" ++ ·) := by rw [List.map_map]; rfl
    rw [this]
    refine hn.map fun a b h => ?_
    apply String.toList_inj.1
    have := congrArg String.toList h
    simpa [String.toList_append] using this
  · intro a hx b hy
    obtain ⟨e, he, rfl⟩ := List.mem_map.1 hx
    obtain ⟨e', he', rfl⟩ := List.mem_map.1 hy
    simpa using ha e he e' he'

/-- Gradients of two losses have the same names and the same numbers of elements. -/
theorem derivatives_shape (L : Lay K) {n : Nat} (ℓ ℓ' : (Fin n × K → ℝ) → (Fin n × K → ℝ) → ℝ) (q p : Fin n × K → ℝ) :
    List.Forall₂ (fun d d' => d.1 = d'.1 ∧ d.2.length = d'.2.length) (derivatives L ℓ q p) (derivatives L ℓ' q p) := by
  unfold derivatives enc
  simp only [List.map_append, List.map_map]
  refine List.rel_append ?_ ?_ <;>
  · rw [List.forall₂_map_left_iff, List.forall₂_map_right_iff, List.forall₂_same]
    intro e _
    exact ⟨rfl, by simp [tab, tabData_length]⟩

theorem derivatives_length (L : Lay K) {n : Nat} (ℓ : (Fin n × K → ℝ) → (Fin n × K → ℝ) → ℝ) (q p : Fin n × K → ℝ) : (derivatives L ℓ q p).length = 2 * L.names.length := by
  simp [derivatives, enc]
  omega

end Verif.Gradcheck
