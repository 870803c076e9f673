import Verif.TimeParams.Lemmas
import Mathlib.Tactic.NormNum

/-!
# Properties C14 and C15: time-dependent parameters
-/

namespace Verif.TimeParams
open Verif

variable {T P : Type} [LinearOrder T]

/-! ## C14 -/

/-- Whatever was asked before (any consistent cache) and whatever is asked next, in any order: every query
returns one of the stored parameter sets, the first one for a time below the start, the last one for
a time at or after the last bucket; and the cache stays consistent. -/
theorem C14_queries_succeed (tb : Table T P) (hok : TableOk tb) (c : Cache T) (hc : CacheOk tb c)
    (ts : List T) :
    ∃ ps c', queries tb c ts = .ok (ps, c') ∧ CacheOk tb c' ∧
      List.Forall₂ (fun t p => p ∈ tb.params ∧ (t < tb.minT → tb.params.head? = some p) ∧
        ((∀ x ∈ tb.times, x ≤ t) → tb.params.getLast? = some p)) ts ps := by
  induction ts generalizing c with
  | nil => exact ⟨[], c, rfl, hc, .nil⟩
  | cons t ts ih =>
    obtain ⟨p, c', e, hp, hc', -⟩ := getAt_eq hok hc t
    obtain ⟨ps, c'', e', hc'', hf⟩ := ih c' hc'
    refine ⟨p :: ps, c'', ?_, hc'', .cons ⟨List.mem_of_getElem? hp, ?_, ?_⟩ hf⟩
    · simp [queries, e, e', bind, Except.bind]
    · intro hlt
      rw [List.head?_eq_getElem?]
      simpa [answerIdx, hlt] using hp
    · intro hall
      have hnlt : ¬ t < tb.minT := not_lt.2 (hall _ (List.mem_of_head? hok.first))
      rw [List.getLast?_eq_getElem?, hok.sameLength]
      rw [answerIdx, if_neg hnlt, if_pos hall] at hp
      exact hp

/-- The tables built by the constructor are well-formed: for any number of steps over a time interval
of positive length, and for a single bucket over any interval. -/
theorem C14_constructed (steps : Int) (first last : ℚ) (create : Nat → P)
    (h : first < last ∨ (steps ≤ 1 ∧ first ≤ last)) :
    TableOk (construct steps first last create).1 ∧
      CacheOk (construct steps first last create).1 (construct steps first last create).2 ∧
      (construct steps first last create).1.params.length = max 1 steps.toNat := by
  by_cases hs : 1 < steps
  · have hlt : first < last := h.resolve_right (fun h => by omega)
    obtain ⟨n, hn⟩ : ∃ n : Nat, steps + 1 = (n : Int) + 2 := ⟨(steps - 1).toNat, by omega⟩
    have hst : steps.toNat = n + 1 := by omega
    obtain ⟨cs, e, -, hp, hl, hlen⟩ := Integrator.checkpointTimes_nr first last hlt (n : Int) (by omega)
    have hN : ((n : Int) + 2).toNat = n + 2 := by omega
    have hdl : (Integrator.linspace first last (n + 2)).dropLast ++ [last] = first :: cs := by
      simp only [Integrator.checkpointTimes, Integrator.forceLast, hN] at e
      rw [if_neg (by omega)] at e
      split at e
      · cases e
      · exact Except.ok.inj e
    have hlens : (Integrator.linspace first last (n + 2)).dropLast.length = n + 1 := by
      unfold Integrator.linspace
      rw [if_neg (by omega)]
      simp
    set ts := (Integrator.linspace first last (n + 2)).dropLast with hts
    have hc : construct steps first last create =
        (⟨first, last, ts, (List.range ts.length).map create⟩, ⟨0, first⟩) := by
      simp only [construct, hs, if_true, hn, hN, hts]
    rw [← hdl, List.pairwise_append] at hp
    have hhead : ts.head? = some first := by
      cases hts0 : ts with
      | nil => rw [hts0] at hlens; simp at hlens
      | cons y ys =>
        rw [hts0] at hdl
        simp only [List.cons_append, List.cons.injEq] at hdl
        simp [hdl.1]
    rw [hc]
    refine ⟨⟨hp.1, hhead, ?_, by simp⟩, ⟨0, rfl, ?_⟩, ?_⟩
    · intro x hx
      exact le_of_lt (hp.2.2 x hx last (by simp))
    · rw [← List.head?_eq_getElem?]; exact hhead
    · simp only [List.length_map, List.length_range, hlens]
      omega
  · have hc : construct steps first last create =
        (⟨first, last, [first], [create 0]⟩, ⟨0, first⟩) := by
      simp [construct, hs]
    rw [hc]
    refine ⟨⟨by simp, rfl, ?_, rfl⟩, ⟨0, rfl, rfl⟩, ?_⟩
    · simp only [List.mem_singleton, forall_eq]
      rcases h with h | ⟨-, h⟩
      · exact le_of_lt h
      · exact h
    · simp; omega

/-- Three buckets starting at 0, 10, 20 and ending at 30. -/
def sample : Table Nat String := ⟨0, 30, [0, 10, 20], ["a", "b", "c"]⟩

theorem sample_ok : TableOk sample ∧ CacheOk sample ⟨0, 0⟩ :=
  ⟨⟨by decide, rfl, by decide, rfl⟩, ⟨0, rfl, rfl⟩⟩

example : TableOk sample ∧ CacheOk sample ⟨0, 0⟩ := sample_ok

/-! ## C15 -/

/-- C15 is false of the code: the same query gets different answers depending on what was asked before
(bucket `b` when coming from the left, bucket `a` when coming from the right), and the first answer is
not the bucket containing the time. -/
theorem C15_history_dependent :
    ∃ c' c'', queries sample ⟨0, 0⟩ [5] = .ok (["b"], c') ∧
      queries sample ⟨0, 0⟩ [25, 5] = .ok (["c", "a"], c'') ∧ floorIdx sample.times 5 = 0 := by
  obtain ⟨p, c1, e1, hp1, hc1, hi1⟩ := getAt_eq sample_ok.1 sample_ok.2 5
  obtain ⟨p2, c2, e2, hp2, hc2, hi2⟩ := getAt_eq sample_ok.1 sample_ok.2 25
  have hpb : p = "b" := by
    have : answerIdx sample 0 5 = 1 := by decide
    rw [this] at hp1
    exact (Option.some.inj hp1).symm
  have hpc : p2 = "c" := by
    have : answerIdx sample 0 25 = 2 := by decide
    rw [this] at hp2
    exact (Option.some.inj hp2).symm
  have hc2t : c2.time = 20 := by
    have h2 := hi2 (by decide)
    have : answerIdx sample 0 25 = 2 := by decide
    rw [this] at h2
    obtain ⟨i, hi, ht⟩ := hc2
    have : i = 2 := by omega
    subst this
    exact (Option.some.inj ht).symm
  obtain ⟨p3, c3, e3, hp3, -, -⟩ := getAt_eq sample_ok.1 hc2 5
  have hpa : p3 = "a" := by
    rw [hc2t] at hp3
    have : answerIdx sample 20 5 = 0 := by decide
    rw [this] at hp3
    exact (Option.some.inj hp3).symm
  subst hpb hpc hpa
  refine ⟨c1, c3, ?_, ?_, by decide⟩
  · simp [queries, e1, bind, Except.bind]
  · simp [queries, e2, e3, bind, Except.bind]

/-- What holds after every history: the answer is the bucket containing the time or the next one; it is
the bucket containing the time whenever the time is a bucket start, lies at or after the last bucket
start or before the first, or lies before the start of the bucket answered last; in all other cases it
is the next bucket. -/
theorem C15_bucket_partial (tb : Table T P) (hok : TableOk tb) (c : Cache T) (hc : CacheOk tb c) (t : T) :
    ∃ p c', getAt tb c t = .ok (p, c') ∧ CacheOk tb c' ∧
      (if t ∈ tb.times ∨ (∀ x ∈ tb.times, x ≤ t) ∨ t < tb.minT ∨ t < c.time
       then tb.params[floorIdx tb.times t]? = some p
       else tb.params[floorIdx tb.times t + 1]? = some p) := by
  obtain ⟨p, c', e, hp, hc', -⟩ := getAt_eq hok hc t
  refine ⟨p, c', e, hc', ?_⟩
  obtain ⟨hinc, hfirst, hbd, hlen⟩ := hok
  have hne : tb.times ≠ [] := by intro h; rw [h] at hfirst; cases hfirst
  have hpos : 0 < tb.times.length := List.length_pos_of_ne_nil hne
  have h0 : tb.times[0]? = some tb.minT := by rw [← List.head?_eq_getElem?]; exact hfirst
  have hminle : ∀ x ∈ tb.times, tb.minT ≤ x := by
    intro x hx
    obtain ⟨i, hi⟩ := List.mem_iff_getElem?.1 hx
    obtain ⟨h1, h2⟩ := List.getElem?_eq_some_iff.1 hi
    obtain ⟨h3, h4⟩ := List.getElem?_eq_some_iff.1 h0
    rw [← h2, ← h4]
    by_cases hi0 : i = 0
    · subst hi0; exact le_refl _
    · exact le_of_lt (List.pairwise_iff_getElem.1 hinc 0 i h3 h1 (by omega))
  have hfl_min : t < tb.minT → floorIdx tb.times t = 0 := by
    intro hlt
    have : tb.times.filter (fun x => decide (x ≤ t)) = [] := by
      rw [List.filter_eq_nil_iff]
      intro x hx
      simp only [decide_eq_true_eq, not_le]
      exact lt_of_lt_of_le hlt (hminle x hx)
    simp [floorIdx, this]
  have hfl_all : (∀ x ∈ tb.times, x ≤ t) → floorIdx tb.times t = tb.times.length - 1 := by
    intro h
    have : tb.times.filter (fun x => decide (x ≤ t)) = tb.times := by
      rw [List.filter_eq_self]
      intro x hx; simpa using h x hx
    simp [floorIdx, this]
  have hgrid : t ∈ tb.times → ceilIdx tb.times t = floorIdx tb.times t := by
    intro ht
    obtain ⟨i, hi⟩ := List.mem_iff_getElem?.1 ht
    obtain ⟨h1, h2⟩ := List.getElem?_eq_some_iff.1 hi
    rw [floorIdx_eq hinc hi (le_refl _), ceilIdx_eq hinc hi (le_refl _)]
    · intro y hi0 hy
      obtain ⟨h3, h4⟩ := List.getElem?_eq_some_iff.1 hy
      have := List.pairwise_iff_getElem.1 hinc (i - 1) i h3 h1 (by omega)
      rw [h4, h2] at this
      exact this
    · intro y hy
      obtain ⟨h3, h4⟩ := List.getElem?_eq_some_iff.1 hy
      have := List.pairwise_iff_getElem.1 hinc i (i + 1) h1 h3 (by omega)
      rw [h4, h2] at this
      exact this
  unfold answerIdx at hp
  by_cases h1 : t < tb.minT
  · rw [if_pos h1] at hp
    rw [if_pos (Or.inr (Or.inr (Or.inl h1))), hfl_min h1]
    exact hp
  · rw [if_neg h1] at hp
    by_cases h2 : ∀ x ∈ tb.times, x ≤ t
    · rw [if_pos h2] at hp
      rw [if_pos (Or.inr (Or.inl h2)), hfl_all h2]
      exact hp
    · rw [if_neg h2] at hp
      by_cases h3 : t < c.time
      · rw [if_pos h3] at hp
        rw [if_pos (Or.inr (Or.inr (Or.inr h3)))]
        exact hp
      · rw [if_neg h3] at hp
        by_cases h4 : t ∈ tb.times
        · rw [if_pos (Or.inl h4), ← hgrid h4]
          exact hp
        · rw [if_neg (by tauto)]
          have hcf : ceilIdx tb.times t = floorIdx tb.times t + 1 := by
            have heq : tb.times.filter (fun x => decide (x < t)) = tb.times.filter (fun x => decide (x ≤ t)) := by
              apply List.filter_congr
              intro x hx
              have hxt : x ≠ t := fun e => h4 (e ▸ hx)
              simp [le_iff_lt_or_eq, hxt]
            have hposf : 0 < (tb.times.filter (fun x => decide (x ≤ t))).length := by
              rw [List.length_pos_iff_exists_mem]
              exact ⟨tb.minT, List.mem_filter.2 ⟨List.mem_of_getElem? h0, by simpa using not_lt.1 h1⟩⟩
            unfold ceilIdx floorIdx
            rw [heq]
            omega
          rw [← hcf]
          exact hp

example : ∃ c, CacheOk sample c ∧ ¬ (5 ∈ sample.times ∨ (∀ x ∈ sample.times, x ≤ 5) ∨ 5 < sample.minT ∨
    5 < c.time) := ⟨⟨0, 0⟩, ⟨0, rfl, rfl⟩, by decide⟩

end Verif.TimeParams
