import Verif.Sweep.Lemmas

/-!
# C25, C26: parameter sweeps
-/

namespace Verif.Sweep
open Verif

variable {V : Type}

/-- **C25.** Sweeping (with fresh objects) a non-empty dictionary of option lists returns all combinations, each once, in lexicographic
order of the options; every combination assigns a value to every option, in the order of the options. -/
theorem C25_all_combinations (pars : PDict String (List V)) (hn : (PDict.keys pars).Nodup) (hne : pars ≠ []) :
    ∃ ds, derefList (sweep pars fresh) (returned pars) = some ds ∧ AllCombinations pars ds := by
  refine ⟨combos pars, ?_, allCombinations_combos pars⟩
  have hr : returned pars = .swept := by
    cases pars with
    | nil => exact absurd rfl hne
    | cons => rfl
  rw [hr]
  simp only [derefList, (sweep_spec pars hn fresh).1]
  simp only [fresh, List.nil_append, Option.some.injEq]
  conv_rhs => rw [← List.map_id (combos pars)]
  apply List.map_congr_left
  intro c hc
  exact update_empty (by rw [keys_of_mem_combos hc]; exact hn)

/-- What "all combinations" gives: the number is the product of the numbers of values. -/
theorem C25_count {pars : PDict String (List V)} {ds : List (PDict String V)} (h : AllCombinations pars ds) :
    ds.length = (pars.map (fun p => p.2.length)).prod := by
  obtain ⟨ixs, h1, h2, h3⟩ := h
  rw [← h3.length_eq, ← length_combos, ← (picks_combos pars).length_eq]
  have hnd : ixs.Nodup := h2.imp (fun h => by
    rintro rfl
    exact absurd h (List.lex_irrefl Nat.lt_irrefl _))
  have hnd' : (indices pars).Nodup := (pairwise_indices pars).imp (fun h => by
    rintro rfl
    exact absurd h (List.lex_irrefl Nat.lt_irrefl _))
  exact ((List.perm_ext_iff_of_nodup hnd hnd').2 (fun ix => (h1 ix).trans (mem_indices pars ix).symm)).length_eq

/-- A dictionary is among the combinations exactly if it assigns to every option, in order, one of its values. -/
theorem C25_membership {pars : PDict String (List V)} {ds : List (PDict String V)} (h : AllCombinations pars ds)
    (d : PDict String V) :
    d ∈ ds ↔ List.Forall₂ (fun (p : String × List V) (q : String × V) => q.1 = p.1 ∧ q.2 ∈ p.2) pars d := by
  obtain ⟨ixs, h1, _, h3⟩ := h
  have hp : ∀ (pars : PDict String (List V)) d, (∃ ix, Picks pars ix d) ↔
      List.Forall₂ (fun (p : String × List V) (q : String × V) => q.1 = p.1 ∧ q.2 ∈ p.2) pars d := by
    intro pars d
    constructor
    · rintro ⟨ix, h⟩
      induction h with
      | nil => exact List.Forall₂.nil
      | cons hv _ ih => exact List.Forall₂.cons ⟨rfl, List.mem_of_getElem? hv⟩ ih
    · intro h
      induction h with
      | nil => exact ⟨[], Picks.nil⟩
      | @cons p q pars d hpq _ ih =>
        obtain ⟨k, vs⟩ := p
        obtain ⟨k', v⟩ := q
        obtain ⟨rfl, hv⟩ := hpq
        obtain ⟨i, hi⟩ := List.getElem?_of_mem hv
        obtain ⟨ix, hix⟩ := ih
        exact ⟨i :: ix, Picks.cons hi hix⟩
  have hvalid : ∀ {pars : PDict String (List V)} {ix d}, Picks pars ix d → Valid pars ix := by
    intro pars ix d h
    induction h with
    | nil => exact List.Forall₂.nil
    | cons hv _ ih => exact List.Forall₂.cons (List.getElem?_eq_some_iff.1 hv).1 ih
  have hfun : ∀ {pars : PDict String (List V)} {ix d d'}, Picks pars ix d → Picks pars ix d' → d = d' := by
    intro pars ix d d' h
    induction h generalizing d' with
    | nil => intro h'; cases h'; rfl
    | cons hv _ ih =>
      intro h'
      cases h' with
      | cons hv' h2 =>
        rw [hv] at hv'
        cases hv'
        rw [ih h2]
  rw [← hp]
  constructor
  · intro hd
    obtain ⟨i, hi⟩ := List.getElem?_of_mem hd
    have hlen := h3.length_eq
    have hi' : i < ixs.length := by rw [hlen]; exact (List.getElem?_eq_some_iff.1 hi).1
    have := (List.forall₂_iff_get.1 h3).2 i hi' (by omega)
    obtain ⟨hl, rfl⟩ := List.getElem?_eq_some_iff.1 hi
    exact ⟨_, this⟩
  · rintro ⟨ix, hix⟩
    obtain ⟨i, hi⟩ := List.getElem?_of_mem ((h1 ix).2 (hvalid hix))
    obtain ⟨hl, rfl⟩ := List.getElem?_eq_some_iff.1 hi
    have hlen := h3.length_eq
    have := (List.forall₂_iff_get.1 h3).2 i hl (by omega)
    rw [hfun hix this]
    exact List.getElem_mem _

/-- An empty dictionary of options: the dictionary object itself is returned, not a list. -/
theorem C25_empty (s : Store V) : returned ([] : PDict String (List V)) = .parDict ∧
    sweep [] s = ⟨s.parDict, s.swept ++ [s.parDict]⟩ := ⟨rfl, rfl⟩

example : ∃ ds, derefList (sweep [("a", [1, 2]), ("b", [5, 6, 7])] fresh) (returned [("a", [1, 2]), ("b", [5, 6, 7])]) = some ds ∧
    AllCombinations [("a", [1, 2]), ("b", [5, 6, 7])] ds :=
  C25_all_combinations _ (by decide) (by simp)

example : derefList (sweep [("a", [1, 2]), ("b", [5, 6])] fresh) .swept =
    some [[("a", 1), ("b", 5)], [("a", 1), ("b", 6)], [("a", 2), ("b", 5)], [("a", 2), ("b", 6)]] := by decide

/-! ## C26 -/

/-- **C26** (proved part).  A sweep that is given its own fresh objects returns the same list whatever happened before: with explicit
objects the only input is `pars`.  Missing: the default arguments, which is how the repository calls it; see
`C26_sweeps_accumulate`. -/
theorem C26_fresh_partial (pars : PDict String (List V)) (hn : (PDict.keys pars).Nodup) (hne : pars ≠ [])
    (ds ds' : List (PDict String V)) (h : derefList (sweep pars fresh) (returned pars) = some ds)
    (h' : AllCombinations pars ds') : ds.length = ds'.length ∧ ∀ d, d ∈ ds ↔ d ∈ ds' := by
  obtain ⟨ds0, h1, h2⟩ := C25_all_combinations pars hn hne
  rw [h] at h1; cases h1
  exact ⟨(C25_count h2).trans (C25_count h').symm, fun d => (C25_membership h2 d).trans (C25_membership h' d).symm⟩

/-- **C26** is false of the code.  With default arguments the sweeps of one process accumulate: whatever sweeps were done before
(`s` is the state they left), the returned list starts with all their combinations. -/
theorem C26_sweeps_accumulate (s : Store V) (pars : PDict String (List V)) (hn : (PDict.keys pars).Nodup) (hne : pars ≠ []) :
    ∃ new, derefList (sweep pars s) (returned pars) = some (s.swept ++ new) ∧
      new.length = (pars.map (fun p => p.2.length)).prod ∧
      ∀ d ∈ new, ∀ k v, PDict.get? s.parDict k = some v → k ∉ PDict.keys pars → PDict.get? d k = some v := by
  refine ⟨(combos pars).map (fun c => PDict.update s.parDict c), ?_, ?_, ?_⟩
  · have hr : returned pars = .swept := by
      cases pars with
      | nil => exact absurd rfl hne
      | cons => rfl
    rw [hr, derefList, (sweep_spec pars hn s).1]
  · rw [List.length_map, length_combos]
  · intro d hd k v hk hkp
    obtain ⟨c, hc, rfl⟩ := List.mem_map.1 hd
    have hkeys := keys_of_mem_combos hc
    rw [PDict.get?_update _ _ (by rw [hkeys]; exact hn), PDict.get?_eq_none_iff.2 (by rw [hkeys]; exact hkp), hk]
    rfl

/-- **C26**, the number of runs: after the sweeps `ps` in one process, the next one returns the combinations of all of them. -/
theorem C26_count (ps : List (PDict String (List V))) (hn : ∀ p ∈ ps, (PDict.keys p).Nodup) (s : Store V) :
    (calls ps s).swept.length = s.swept.length + (ps.map (fun p => (p.map (fun q => q.2.length)).prod)).sum := by
  induction ps generalizing s with
  | nil => rfl
  | cons p ps ih =>
    rw [calls, List.foldl_cons]
    change (calls ps (sweep p s)).swept.length = _
    rw [ih (fun q hq => hn q (by simp [hq])), (sweep_spec p (hn p (by simp)) s).1, List.length_append, List.length_map,
      length_combos]
    simp [Nat.add_assoc]

/-- **C26**, negation with a witness: two different histories, the same sweep, different results; the left-over option `b` of the first
sweep also appears in the results of the second. -/
theorem C26_false :
    ∃ (p1 p2 : PDict String (List Nat)),
      derefList (calls [p2] fresh) (returned p2) = some [[("a", 3)]] ∧
      derefList (calls [p1, p2] fresh) (returned p2) = some [[("b", 1)], [("b", 2)], [("b", 2), ("a", 3)]] :=
  ⟨[("b", [1, 2])], [("a", [3])], by decide, by decide⟩

/-- The three sweeps of `demos/neurips20/run_experiments_spiral_rnn.py:58-91` (1·4, 1·4 and 3·4 combinations): the third call
runs 20 combinations per seed instead of 12. -/
example : (calls [[("nr_of_particles", [2]), ("inflation_factor", [16, 32, 64, 128])],
    [("nr_of_particles", [2]), ("inflation_factor", [16, 32, 64, 128])],
    [("nr_of_particles", [15, 25, 50]), ("inflation_factor", [16, 32, 64, 128])]] (fresh : Store Nat)).swept.length = 20 := by
  decide

end Verif.Sweep
