import Verif.ParamUtils.Model
import Mathlib.Algebra.BigOperators.Group.List.Basic

/-!
# C48: parameter counts and freezing
-/

namespace Verif.ParamUtils
open Verif

theorem foldl_count (m : Model) (c : Counts) :
    m.foldl countStep c =
      ⟨c.fixed + ((m.filter (fun p => !p.2.requiresGrad)).map (fun p => vol p.2.size)).sum,
       c.optimized + ((m.filter (fun p => p.2.requiresGrad)).map (fun p => vol p.2.size)).sum⟩ := by
  induction m generalizing c with
  | nil => simp
  | cons p m ih =>
    rw [List.foldl_cons, ih]
    by_cases h : p.2.requiresGrad = true
    · simp [countStep, h, Nat.add_assoc]
    · simp [countStep, h, Nat.add_assoc]

/-- **C48.** The counts: fixed and optimised numbers are the entries of the respective parameters, the overall number is their sum and
the number of entries of all parameters. -/
theorem C48_counts (m : Model) :
    ∃ f o, numberOfParameters m = (f, o, f + o) ∧
      f = ((m.filter (fun p => !p.2.requiresGrad)).map (fun p => vol p.2.size)).sum ∧
      o = ((m.filter (fun p => p.2.requiresGrad)).map (fun p => vol p.2.size)).sum ∧
      f + o = (m.map (fun p => vol p.2.size)).sum := by
  refine ⟨_, _, rfl, ?_, ?_, ?_⟩
  · rw [foldl_count]; simp
  · rw [foldl_count]; simp
  · rw [foldl_count]
    simp only [Nat.zero_add]
    induction m with
    | nil => rfl
    | cons p m ih =>
      by_cases h : p.2.requiresGrad = true
      · simp only [h, List.filter_cons, Bool.not_true, Bool.false_eq_true, if_false, if_true, List.map_cons, List.sum_cons] at ih ⊢
        omega
      · simp only [Bool.not_eq_true] at h
        simp only [h, List.filter_cons, Bool.not_false, Bool.false_eq_true, if_false, if_true, List.map_cons, List.sum_cons] at ih ⊢
        omega

theorem keys_setGrad (v : Bool) (ns : List String) (m : Model) : PDict.keys (setGrad v ns m).1 = PDict.keys m := by
  induction ns generalizing m with
  | nil => rfl
  | cons n ns ih =>
    rw [setGrad]
    cases h : PDict.get? m n with
    | none => rfl
    | some p =>
      simp only
      rw [ih, PDict.keys_set, if_pos]
      by_contra hn
      rw [PDict.get?_eq_none_iff.2 hn] at h
      cases h

/-- **C48.** Freezing (or unfreezing) known names: no exception; exactly the named parameters get the new setting, sizes are kept, all
others are left alone. -/
theorem C48_set (v : Bool) (ns : List String) (m : Model) (h : ∀ n ∈ ns, n ∈ PDict.keys m) :
    (setGrad v ns m).2 = none ∧ PDict.keys (setGrad v ns m).1 = PDict.keys m ∧
      ∀ k, PDict.get? (setGrad v ns m).1 k =
        (PDict.get? m k).map (fun p => if k ∈ ns then { p with requiresGrad := v } else p) := by
  refine ⟨?_, keys_setGrad v ns m, ?_⟩
  · induction ns generalizing m with
    | nil => rfl
    | cons n ns ih =>
      obtain ⟨p, hp⟩ : ∃ p, PDict.get? m n = some p := by
        cases hx : PDict.get? m n with
        | none => exact absurd (h n (by simp)) (PDict.get?_eq_none_iff.1 hx)
        | some p => exact ⟨p, rfl⟩
      rw [setGrad, hp]
      refine ih _ (fun x hx => ?_)
      rw [PDict.keys_set, if_pos (h n (by simp))]
      exact h x (by simp [hx])
  · intro k
    induction ns generalizing m with
    | nil => simp [setGrad]
    | cons n ns ih =>
      obtain ⟨p, hp⟩ : ∃ p, PDict.get? m n = some p := by
        cases hx : PDict.get? m n with
        | none => exact absurd (h n (by simp)) (PDict.get?_eq_none_iff.1 hx)
        | some p => exact ⟨p, rfl⟩
      rw [setGrad, hp]
      simp only
      rw [ih _ (fun x hx => by rw [PDict.keys_set, if_pos (h n (by simp))]; exact h x (by simp [hx])), PDict.get?_set]
      by_cases hk : n = k
      · subst hk
        rw [if_pos rfl, hp]
        simp
      · rw [if_neg hk]
        simp [Ne.symm hk]

/-- **C48.** Freezing and then unfreezing the same parameters: all of them are optimised, all others are as before. -/
theorem C48_freeze_unfreeze (ns : List String) (m : Model) (h : ∀ n ∈ ns, n ∈ PDict.keys m) :
    (freeze ns m).2 = none ∧ (unfreeze ns (freeze ns m).1).2 = none ∧
      ∀ k, PDict.get? (unfreeze ns (freeze ns m).1).1 k =
        (PDict.get? m k).map (fun p => if k ∈ ns then { p with requiresGrad := true } else p) := by
  obtain ⟨h1, h2, h3⟩ := C48_set false ns m h
  obtain ⟨g1, _, g3⟩ := C48_set true ns (freeze ns m).1 (by unfold freeze; rw [h2]; exact h)
  refine ⟨h1, g1, ?_⟩
  intro k
  unfold unfreeze
  rw [g3 k]
  unfold freeze
  rw [h3 k, Option.map_map]
  congr 1
  funext p
  by_cases hk : k ∈ ns <;> simp [hk]

/-- **C48.** Freezing does not change the overall number of parameters. -/
theorem C48_overall_kept (v : Bool) (ns : List String) (m : Model) :
    (numberOfParameters (setGrad v ns m).1).2.2 = (numberOfParameters m).2.2 := by
  obtain ⟨f, o, h1, h2, h3, h4⟩ := C48_counts m
  obtain ⟨f', o', h1', h2', h3', h4'⟩ := C48_counts (setGrad v ns m).1
  rw [h1, h1']
  simp only
  rw [h4, h4']
  have hset : ∀ (m : Model) (n : String) (p : Param), PDict.get? m n = some p →
      (m.set n { p with requiresGrad := v }).map (fun p => vol p.2.size) = m.map (fun p => vol p.2.size) := by
    intro m n p hp
    induction m with
    | nil => cases hp
    | cons q m ih =>
      rw [PDict.get?_cons] at hp
      by_cases hq : q.1 = n
      · rw [if_pos hq] at hp
        cases hp
        simp [PDict.set, hq]
      · rw [if_neg hq] at hp
        simp [PDict.set, hq, ih hp]
  clear h1 h1' h4 h4' h2 h3 h2' h3'
  congr 1
  induction ns generalizing m with
  | nil => rfl
  | cons n ns ih =>
    rw [setGrad]
    cases h : PDict.get? m n with
    | none => rfl
    | some p =>
      simp only
      rw [ih, hset m n p h]

/-- **C48.** An unknown name raises `KeyError`; the names before it have been changed by then, those after it have not (not atomic). -/
theorem C48_unknown (v : Bool) (before after : List String) (n : String) (m : Model) (hb : ∀ x ∈ before, x ∈ PDict.keys m)
    (hn : n ∉ PDict.keys m) :
    setGrad v (before ++ n :: after) m = ((setGrad v before m).1, some .keyError) := by
  induction before generalizing m with
  | nil => rw [List.nil_append]; show setGrad v (n :: after) m = (m, some .keyError); rw [setGrad, PDict.get?_eq_none_iff.2 hn]
  | cons x before ih =>
    obtain ⟨p, hp⟩ : ∃ p, PDict.get? m x = some p := by
      cases hx : PDict.get? m x with
      | none => exact absurd (hb x (by simp)) (PDict.get?_eq_none_iff.1 hx)
      | some p => exact ⟨p, rfl⟩
    rw [List.cons_append, setGrad, setGrad, hp]
    have hk : PDict.keys (m.set x { p with requiresGrad := v }) = PDict.keys m := by
      rw [PDict.keys_set, if_pos (hb x (by simp))]
    exact ih _ (fun y hy => by rw [hk]; exact hb y (by simp [hy])) (by rw [hk]; exact hn)

/-- a concrete model -/
example : numberOfParameters [("a", ⟨[2, 3], true⟩), ("b", ⟨[], false⟩), ("c", ⟨[4], true⟩)] = (1, 10, 11) := by decide
example : (freeze ["a", "zz", "c"] [("a", ⟨[2], true⟩), ("c", ⟨[4], true⟩)]) =
    ([("a", ⟨[2], false⟩), ("c", ⟨[4], true⟩)], some .keyError) := by decide

end Verif.ParamUtils
