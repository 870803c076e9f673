import Verif.Integrator.Lemmas
import Mathlib.Tactic.NormNum

/-!
# Properties C09-C13: checkpointed integration and integrator selection
-/

namespace Verif.Integrator
open Verif

section order
variable {T X : Type _} [LinearOrder T]

/-- Requested times and checkpoints that belong together: same first point, same last point, which is
later than all the others. -/
structure Matching (t cps : List T) (a e : T) (ts cs : List T) : Prop where
  times : t = a :: ts
  checkpoints : cps = a :: cs
  timesEnd : EndsWith ts e
  checkpointsEnd : EndsWith cs e

/-! ## C09 -/

/-- For requested times and checkpoints with common first and last points, the times flagged for output
over all intervals are exactly the requested times in order, each once. -/
theorem C09_output_times (t cps : List T) (a e : T) (ts cs : List T) (h : Matching t cps a e ts cs) :
    ∃ ivs, mergeIntervals t cps = .ok ivs ∧ outputs ivs = t ∧
      ∀ iv ∈ ivs, iv.1.length = iv.2.length := by
  obtain ⟨rfl, rfl, ht, hc⟩ := h
  refine ⟨mergeLoop [a] [true] ts cs, ?_, ?_⟩
  · simp [mergeIntervals, ht.ne_nil, hc.ne_nil]
  · obtain ⟨h1, h2⟩ := outputs_mergeLoop [a] [true] ts cs e rfl ht hc
    exact ⟨by rw [h1]; simp [masked], h2⟩

example : Matching [0, 1, 2, 5] [0, 2, 3, 5] (0 : Nat) 5 [1, 2, 5] [2, 3, 5] :=
  ⟨rfl, rfl, ⟨[1, 2], rfl, by decide⟩, ⟨[2, 3], rfl, by decide⟩⟩

/-! ## C10 -/

/-- The intervals chain without gaps from the first to the last requested time, each is strictly
increasing with at least two points, and the interval ends are exactly the checkpoints (after the
first one). -/
theorem C10_chain (t cps : List T) (a e : T) (ts cs : List T) (h : Matching t cps a e ts cs)
    (ht : t.Pairwise (· < ·)) (hc : cps.Pairwise (· < ·)) :
    ∃ ivs, mergeIntervals t cps = .ok ivs ∧ ChainFrom a e ivs ∧
      ivs.map (fun iv => iv.1.getLast?) = cs.map some ∧
      ∀ iv ∈ ivs, iv.1.Pairwise (· < ·) ∧ 2 ≤ iv.1.length := by
  obtain ⟨rfl, rfl, hte, hce⟩ := h
  have ht' := List.pairwise_cons.1 ht
  have hc' := List.pairwise_cons.1 hc
  refine ⟨mergeLoop [a] [true] ts cs, ?_, ?_⟩
  · simp [mergeIntervals, hte.ne_nil, hce.ne_nil]
  · exact chain_mergeLoop [a] [true] ts cs e a hte hce (by simp) rfl ht'.2 hc'.2
      (by simpa using ht'.1) (by simpa using hc'.1)

/-! ## C11 -/

/-- For a solver that follows a flow, running through the intervals gives exactly the values of the
direct integration at all requested times. -/
theorem C11_restart (φ : T → T → X → X) (hφ : IsFlow φ) (solve : Solver X T)
    (hs : SolvesFlow φ solve) (t cps : List T) (a e : T) (ts cs : List T)
    (h : Matching t cps a e ts cs) (ht : t.Pairwise (· < ·)) (hc : cps.Pairwise (· < ·)) (x0 : X) :
    ∃ ivs rows, mergeIntervals t cps = .ok ivs ∧ solve x0 t = .ok rows ∧
      runIntervals solve x0 ivs = .ok (some rows) ∧ rows.length = t.length := by
  obtain ⟨ivs, h1, h2, h3⟩ := C09_output_times t cps a e ts cs h
  obtain ⟨ivs', h1', h4, -, h5⟩ := C10_chain t cps a e ts cs h ht hc
  have : ivs = ivs' := by rw [h1] at h1'; exact Except.ok.inj h1'
  subst this
  obtain ⟨rfl, rfl, hte, hce⟩ := h
  have ht' := List.pairwise_cons.1 ht
  refine ⟨ivs, _, h1, hs x0 a ts (fun t ht => le_of_lt (ht'.1 t ht)), ?_, by simp⟩
  unfold runIntervals
  rw [runIntervals_flow φ hφ solve hs ivs a e h4 (fun iv hiv => (h5 iv hiv).1) h3 x0 none, h2]
  have hne : ivs ≠ [] := by
    rintro rfl
    simp [outputs] at h2
  simp [bind, Except.bind, hne]

end order

/-! ## The checkpoints computed by the code -/

/-- The two valid settings: a number of checkpoints, or a positive time interval between them. -/
inductive ValidSetting : Option Int → Option ℚ → Prop
  | number (n : Int) (h : 0 ≤ n) : ValidSetting (some n) none
  | interval (s : ℚ) (h : 0 < s) : ValidSetting none (some s)

theorem validSetting_times {nr : Option Int} {iv : Option ℚ} (hv : ValidSetting nr iv) (t : List ℚ)
    (ht : t.Pairwise (· < ·)) (hl : 2 ≤ t.length) :
    ∃ cps a e ts cs, createIntervals nr iv t = mergeIntervals t cps ∧ Matching t cps a e ts cs ∧
      cps.Pairwise (· < ·) ∧ t.head? = some a ∧ t.getLast? = some e := by
  match t, hl with
  | a :: b :: ts, _ =>
    have hp := List.pairwise_cons.1 ht
    set e := (b :: ts).getLast (by simp) with he
    have hae : a < e := hp.1 e (List.getLast_mem _)
    have hcs : ∃ cs, checkpointTimes a e nr iv = .ok (a :: cs) ∧ cs ≠ [] ∧
        (a :: cs).Pairwise (· < ·) ∧ cs.getLast? = some e := by
      cases hv with
      | number n hn =>
        obtain ⟨cs, h1, h2, h3, h4, -⟩ := checkpointTimes_nr a e hae n hn
        exact ⟨cs, h1, h2, h3, h4⟩
      | interval s hs => exact checkpointTimes_interval a e hae s hs
    obtain ⟨cs, h1, h2, h3, h4⟩ := hcs
    refine ⟨a :: cs, a, e, b :: ts, cs, ?_, ⟨rfl, rfl, ?_, ?_⟩, h3, rfl, ?_⟩
    · simp only [createIntervals]
      rw [h1]
      rfl
    · exact endsWith_of_pairwise hp.2 (by simp)
    · have := endsWith_of_pairwise (List.pairwise_cons.1 h3).2 h2
      rw [List.getLast?_eq_some_getLast h2] at h4
      rwa [Option.some.inj h4] at this
    · rw [List.getLast?_cons, he, List.getLast?_eq_some_getLast (by simp)]
      rfl

/-- C09 for the code's own checkpoints: number of checkpoints or time interval between them. -/
theorem C09_created_intervals {nr : Option Int} {iv : Option ℚ} (hv : ValidSetting nr iv) (t : List ℚ)
    (ht : t.Pairwise (· < ·)) (hl : 2 ≤ t.length) :
    ∃ ivs, createIntervals nr iv t = .ok ivs ∧ outputs ivs = t := by
  obtain ⟨cps, a, e, ts, cs, h1, hm, -⟩ := validSetting_times hv t ht hl
  obtain ⟨ivs, h2, h3, -⟩ := C09_output_times t cps a e ts cs hm
  exact ⟨ivs, h1.trans h2, h3⟩

/-- C10 for the code's own checkpoints. -/
theorem C10_created_intervals {nr : Option Int} {iv : Option ℚ} (hv : ValidSetting nr iv) (t : List ℚ)
    (ht : t.Pairwise (· < ·)) (hl : 2 ≤ t.length) :
    ∃ ivs a e, createIntervals nr iv t = .ok ivs ∧ t.head? = some a ∧ t.getLast? = some e ∧
      ChainFrom a e ivs ∧ ∀ iv ∈ ivs, iv.1.Pairwise (· < ·) ∧ 2 ≤ iv.1.length := by
  obtain ⟨cps, a, e, ts, cs, h1, hm, hc, ha, he⟩ := validSetting_times hv t ht hl
  obtain ⟨ivs, h2, h3, -, h4⟩ := C10_chain t cps a e ts cs hm ht hc
  exact ⟨ivs, a, e, h1.trans h2, ha, he, h3, h4⟩

/-- With `n` checkpoints there are `n + 1` intervals. -/
theorem C10_number_of_intervals (n : Int) (hn : 0 ≤ n) (t : List ℚ) (ht : t.Pairwise (· < ·))
    (hl : 2 ≤ t.length) :
    ∃ ivs, createIntervals (some n) none t = .ok ivs ∧ ivs.length = n.toNat + 1 := by
  match t, hl with
  | a :: b :: ts, _ =>
    have hp := List.pairwise_cons.1 ht
    set e := (b :: ts).getLast (by simp) with he
    have hae : a < e := hp.1 e (List.getLast_mem _)
    obtain ⟨cs, h1, h2, h3, h4, h5⟩ := checkpointTimes_nr a e hae n hn
    have hce : EndsWith cs e := by
      have := endsWith_of_pairwise (List.pairwise_cons.1 h3).2 h2
      rw [List.getLast?_eq_some_getLast h2] at h4
      rwa [Option.some.inj h4] at this
    obtain ⟨ivs, h6, -, h7, -⟩ := C10_chain (a :: b :: ts) (a :: cs) a e (b :: ts) cs
      ⟨rfl, rfl, endsWith_of_pairwise hp.2 (by simp), hce⟩ ht h3
    refine ⟨ivs, ?_, ?_⟩
    · simp only [createIntervals]
      rw [h1]
      exact h6
    · have := congrArg List.length h7
      simp only [List.length_map] at this
      omega

/-- C11 for the code: with a valid checkpoint setting, `integrate` returns exactly what it returns
without checkpoints, for every solver that follows a flow. -/
theorem C11_checkpointing_is_transparent {X : Type _} (c : Config) (hlib : c.library = "odeint")
    (hv : ValidSetting c.nrCheckpoints c.interval) (φ : ℚ → ℚ → X → X) (hφ : IsFlow φ)
    (ode : Solver X ℚ) (one : X → X) (hs : SolvesFlow φ ode) (x0 : X) (t : List ℚ)
    (ht : t.Pairwise (· < ·)) (hl : 2 ≤ t.length) :
    integrate c ode one x0 t = integrate { c with nrCheckpoints := none, interval := none } ode one x0 t ∧
      ∃ rows, integrate c ode one x0 t = .ok (some rows) ∧ rows.length = t.length := by
  obtain ⟨cps, a, e, ts, cs, h1, hm, hc, -⟩ := validSetting_times hv t ht hl
  obtain ⟨ivs, rows, h2, h3, h4, h5⟩ := C11_restart φ hφ ode hs t cps a e ts cs hm ht hc x0
  have hck : integrate c ode one x0 t = .ok (some rows) := by
    have hne : ¬ (c.nrCheckpoints = none ∧ c.interval = none) := by
      rintro ⟨e1, e2⟩
      rw [e1, e2] at hv
      cases hv
    simp only [integrate, directSolver, hlib, if_true, if_neg hne, integrateCheckpointed]
    rw [h1, h2]
    exact h4
  refine ⟨?_, rows, hck, h5⟩
  rw [hck]
  simp [integrate, directSolver, hlib, h3, Except.map]

/-- A flow (translation by the elapsed time) and a solver that follows it. -/
example : IsFlow (fun (s t : ℚ) (x : ℚ) => x + (t - s)) ∧
    SolvesFlow (fun (s t : ℚ) (x : ℚ) => x + (t - s))
      (fun x ts => .ok (ts.map (fun t => x + (t - ts.headD 0)))) := by
  refine ⟨⟨?_, ?_⟩, ?_⟩
  · intro a x; ring
  · intro a b c x _ _; ring
  · intro x a ts _; rfl

example : ValidSetting (some 3) none ∧ ([0, 1, 2] : List ℚ).Pairwise (· < ·) :=
  ⟨.number 3 (by decide), by norm_num⟩

/-! ## C12 -/

/-- Fewer than two times, or both options set, is a `ValueError`. -/
theorem C12_rejected (nr : Option Int) (iv : Option ℚ) (t : List ℚ)
    (h : t.length < 2 ∨ (nr ≠ none ∧ iv ≠ none)) :
    createIntervals nr iv t = .error .valueError := by
  match t with
  | [] => rfl
  | [_] => rfl
  | a :: b :: ts =>
    rcases h with h | ⟨h1, h2⟩
    · simp at h; omega
    · obtain ⟨n, rfl⟩ := Option.ne_none_iff_exists'.1 h1
      obtain ⟨s, rfl⟩ := Option.ne_none_iff_exists'.1 h2
      rfl

/-- The same, for a call of `integrate` (whatever the solver): nothing is integrated. -/
theorem C12_integrate_rejected {X : Type _} (c : Config) (ode : Solver X ℚ) (one : X → X) (x0 : X)
    (t : List ℚ) (hc : ¬ (c.nrCheckpoints = none ∧ c.interval = none))
    (h : t.length < 2 ∨ (c.nrCheckpoints ≠ none ∧ c.interval ≠ none)) :
    integrate c ode one x0 t = .error .valueError := by
  simp only [integrate, if_neg hc, integrateCheckpointed]
  rw [C12_rejected _ _ _ h]
  rfl

/-- Neither option: one direct call of the solver. -/
theorem C12_direct {X : Type _} (c : Config) (ode : Solver X ℚ) (one : X → X) (x0 : X) (t : List ℚ)
    (hlib : c.library = "odeint") (h1 : c.nrCheckpoints = none) (h2 : c.interval = none) :
    integrate c ode one x0 t = (ode x0 t).map some := by
  simp [integrate, directSolver, hlib, h1, h2]

/-- Checkpointing together with the `anode` library never works (that library returns only the final
value): every valid setting ends in an exception. -/
theorem C12_anode_rejected {X : Type _} (c : Config) (hlib : c.library = "anode")
    (hv : ValidSetting c.nrCheckpoints c.interval) (ode : Solver X ℚ) (one : X → X) (x0 : X)
    (t : List ℚ) (ht : t.Pairwise (· < ·)) (hl : 2 ≤ t.length) :
    ∃ err, integrate c ode one x0 t = .error err := by
  obtain ⟨ivs, a, e, h1, ha, he, hch, hp⟩ := C10_created_intervals hv t ht hl
  obtain ⟨ivs', h1', hout⟩ := C09_created_intervals hv t ht hl
  have : ivs = ivs' := by rw [h1] at h1'; exact Except.ok.inj h1'
  subst this
  have hne : ¬ (c.nrCheckpoints = none ∧ c.interval = none) := by
    rintro ⟨e1, e2⟩
    rw [e1, e2] at hv
    cases hv
  obtain ⟨iv, ivs', rfl⟩ : ∃ iv ivs', ivs = iv :: ivs' := by
    cases ivs with
    | nil =>
      have : t = [] := by rw [← hout]; rfl
      rw [this] at hl; simp at hl
    | cons iv ivs' => exact ⟨iv, ivs', rfl⟩
  obtain ⟨cps, a', e', ts, cs, h2, hm, hc, -⟩ := validSetting_times hv t ht hl
  obtain ⟨ivs'', h3, -, hlen⟩ := C09_output_times t cps a' e' ts cs hm
  have hiv : ivs'' = iv :: ivs' := by
    have := h1.symm.trans (h2.trans h3)
    exact (Except.ok.inj this).symm
  subst hiv
  have hl2 := (hp iv (by simp)).2
  have hlf := hlen iv (by simp)
  have hstep : ∃ err, checkpointStep (directSolver c.library ode one) (x0, none) iv = .error err := by
    have hsolve : directSolver c.library ode one = anodeSolver one := by
      simp [directSolver, hlib]
    rw [hsolve]
    unfold checkpointStep
    obtain ⟨p, q, rest, hpq⟩ : ∃ p q rest, iv.1 = p :: q :: rest := by
      match hiv1 : iv.1, hl2 with
      | p :: q :: rest, _ => exact ⟨p, q, rest, rfl⟩
    rw [hpq]
    cases rest with
    | cons r rest => exact ⟨.valueError, rfl⟩
    | nil =>
      by_cases hd : q - p = 1
      · refine ⟨.indexError, ?_⟩
        have hfl : iv.2.length = 2 := by rw [← hlf, hpq]; rfl
        have : anodeSolver one x0 [p, q] = .ok [one x0] := by simp [anodeSolver, hd]
        simp only [this, bind, Except.bind, List.getLast?_singleton]
        rw [show maskRows [one x0] iv.2 = .error .indexError by simp [maskRows, hfl]]
      · refine ⟨.valueError, ?_⟩
        have : anodeSolver one x0 [p, q] = .error .valueError := by simp [anodeSolver, hd]
        rw [this]
        rfl
  obtain ⟨err, herr⟩ := hstep
  refine ⟨err, ?_⟩
  simp only [integrate, if_neg hne, integrateCheckpointed]
  rw [h1]
  simp only [bind, Except.bind, runIntervals]
  rw [List.foldlM_cons, herr]
  rfl

/-- A solver that returns too few or too many values is noticed: with a valid checkpoint setting the integration ends with `IndexError`. -/
theorem C12_wrong_number_rejected {X : Type _} (c : Config) (hlib : c.library = "odeint")
    (hv : ValidSetting c.nrCheckpoints c.interval) (ode : Solver X ℚ) (one : X → X) (x0 : X)
    (t : List ℚ) (ht : t.Pairwise (· < ·)) (hl : 2 ≤ t.length)
    (hode : ∀ x ts, ∃ rows, ode x ts = .ok rows ∧ rows.length ≠ ts.length) :
    integrate c ode one x0 t = .error .indexError := by
  obtain ⟨cps, a, e, ts, cs, h1, hm, -⟩ := validSetting_times hv t ht hl
  obtain ⟨ivs, h2, hout, hlen⟩ := C09_output_times t cps a e ts cs hm
  have hne : ¬ (c.nrCheckpoints = none ∧ c.interval = none) := by
    rintro ⟨e1, e2⟩
    rw [e1, e2] at hv
    cases hv
  obtain ⟨iv, ivs', rfl⟩ : ∃ iv ivs', ivs = iv :: ivs' := by
    cases ivs with
    | nil =>
      have : t = [] := by rw [← hout]; rfl
      rw [this] at hl; simp at hl
    | cons iv ivs' => exact ⟨iv, ivs', rfl⟩
  obtain ⟨rows, hr, hn⟩ := hode x0 iv.1
  have hstep : checkpointStep ode (x0, none) iv = .error .indexError := by
    have hmr : maskRows rows iv.2 = .error .indexError := by
      unfold maskRows
      rw [if_pos]
      rw [← hlen iv (by simp)]
      exact hn
    simp only [checkpointStep, hr, bind, Except.bind, hmr]
    cases rows.getLast? <;> rfl
  simp only [integrate, directSolver, hlib, if_true, if_neg hne, integrateCheckpointed]
  rw [h1, h2]
  simp only [bind, Except.bind, runIntervals]
  rw [List.foldlM_cons, hstep]
  rfl

/-- Whatever the solver does: when a checkpointed integration returns values, there is exactly one for every requested time. -/
theorem C12_one_value_per_time {X : Type _} (c : Config) (hv : ValidSetting c.nrCheckpoints c.interval) (ode : Solver X ℚ)
    (one : X → X) (x0 : X) (t : List ℚ) (ht : t.Pairwise (· < ·)) (hl : 2 ≤ t.length) (o : Option (List X))
    (h : integrate c ode one x0 t = .ok o) : ∃ rows, o = some rows ∧ rows.length = t.length := by
  obtain ⟨cps, a, e, ts, cs, h1, hm, -⟩ := validSetting_times hv t ht hl
  obtain ⟨ivs, h2, hout, hlen⟩ := C09_output_times t cps a e ts cs hm
  have hne : ¬ (c.nrCheckpoints = none ∧ c.interval = none) := by
    rintro ⟨e1, e2⟩
    rw [e1, e2] at hv
    cases hv
  simp only [integrate, if_neg hne, integrateCheckpointed] at h
  rw [h1, h2] at h
  generalize directSolver c.library ode one = solve at h
  simp only [bind, Except.bind, runIntervals] at h
  have count : ∀ (rows : List X) (tm : List ℚ) (fl : List Bool), rows.length = fl.length → tm.length = fl.length →
      (((rows.zip fl).filter (fun p => p.2)).map (fun p => p.1)).length = (((tm.zip fl).filter (fun p => p.2)).map (fun p => p.1)).length := by
    intro rows tm fl
    induction fl generalizing rows tm with
    | nil => intro h1 h2; simp
    | cons f fl ih =>
      intro h1 h2
      match rows, tm, h1, h2 with
      | r :: rows, u :: tm, h1, h2 =>
        have := ih rows tm (by simpa using h1) (by simpa using h2)
        cases f <;> simpa using this
  have key : ∀ (ivs : List (Interval ℚ)) (acc r : X × Option (List X)), (∀ iv ∈ ivs, iv.1.length = iv.2.length) →
      ivs.foldlM (checkpointStep solve) acc = .ok r →
      (ivs = [] → r = acc) ∧ (ivs ≠ [] → ∃ rows, r.2 = some rows ∧ rows.length = (acc.2.getD []).length + (outputs ivs).length) := by
    intro ivs
    induction ivs with
    | nil => intro acc r _ h; cases h; simp
    | cons iv ivs ih =>
      intro acc r hl h
      refine ⟨fun h => by simp at h, fun _ => ?_⟩
      rw [List.foldlM_cons] at h
      cases hs : checkpointStep solve acc iv with
      | error e => rw [hs] at h; cases h
      | ok acc' =>
        simp only [hs, bind, Except.bind] at h
        have ih' := ih acc' r (fun iv hm => hl iv (by simp [hm])) h
        obtain ⟨rows1, e1, e2⟩ : ∃ rows, acc'.2 = some rows ∧ rows.length = (acc.2.getD []).length + (outputs [iv]).length := by
          unfold checkpointStep at hs
          cases hsol : solve acc.1 iv.1 with
          | error e => rw [hsol] at hs; cases hs
          | ok res =>
            simp only [hsol, bind, Except.bind] at hs
            cases hg : res.getLast? with
            | none => simp only [hg] at hs; cases hs
            | some x =>
              simp only [hg] at hs
              unfold maskRows at hs
              by_cases hln : res.length = iv.2.length
              · have hc := count res iv.1 iv.2 hln (hl iv (by simp))
                rw [if_neg (by simpa using hln)] at hs
                cases ha : acc.2 with
                | none =>
                  simp only [ha] at hs
                  cases hs
                  refine ⟨_, rfl, ?_⟩
                  rw [hc]
                  simp [outputs]
                | some o =>
                  simp only [ha] at hs
                  cases hs
                  refine ⟨_, rfl, ?_⟩
                  rw [List.length_append, hc]
                  simp [outputs]
              · rw [if_pos hln] at hs
                cases hs
        have split : (outputs (iv :: ivs)).length = (outputs [iv]).length + (outputs ivs).length := by
          simp [outputs]
        by_cases hn : ivs = []
        · rw [ih'.1 hn]
          refine ⟨rows1, e1, ?_⟩
          rw [e2, split, hn]
          simp [outputs]
        · obtain ⟨rows, e3, e4⟩ := ih'.2 hn
          refine ⟨rows, e3, ?_⟩
          rw [e4, e1, split]
          simp only [Option.getD_some]
          omega
  cases hf : ivs.foldlM (checkpointStep solve) (x0, none) with
  | error e => rw [hf] at h; cases h
  | ok r =>
    rw [hf] at h
    cases h
    have hn : ivs ≠ [] := by
      rintro rfl
      have : t = [] := by rw [← hout]; rfl
      rw [this] at hl; simp at hl
    obtain ⟨rows, e1, e2⟩ := (key ivs _ r hlen hf).2 hn
    exact ⟨rows, e1, by rw [e2, hout]; simp⟩

/-- A solver that never returns the right number of values. -/
example : ∀ (x : ℚ) (ts : List ℚ), ∃ rows, (fun x ts => .ok (x :: ts) : Solver ℚ ℚ) x ts = .ok rows ∧ rows.length ≠ ts.length :=
  fun x ts => ⟨_, rfl, by simp⟩

/-- Decreasing times (integration backwards) with zero checkpoints: all requested points after the first
one are lost. -/
theorem C12_decreasing_loses_points {T : Type _} [LinearOrder T] (a b c : T) (ts : List T) (e : T)
    (hbe : e < b) :
    ∃ ivs, mergeIntervals (a :: b :: c :: ts) [a, e] = .ok ivs ∧ outputs ivs = [a] := by
  refine ⟨_, by simp [mergeIntervals]; rfl, ?_⟩
  rw [mergeLoop, if_neg (not_lt.2 hbe.le), if_pos hbe]
  simp [mergeLoop, outputs]

example : mergeIntervals [(3 : Nat), 2, 1, 0] [3, 0] = .ok [([3, 0], [true, false])] := by
  simp [mergeIntervals, mergeLoop]

/-- Decreasing times with a checkpoint strictly between the two requested times: no interval at all is
created, and `integrate` returns `None` instead of a solution. -/
theorem C12_decreasing_returns_none {X T : Type _} [LinearOrder T] (solve : Solver X T) (x0 : X)
    (a b c : T) (cs : List T) (hbc : b < c) :
    mergeIntervals [a, b] (a :: c :: cs) = .ok [] ∧ runIntervals solve x0 [] = .ok none := by
  refine ⟨?_, rfl⟩
  simp [mergeIntervals, mergeLoop, hbc]

example : createIntervals (some 1) none [2, 0] = .ok [] := by
  simp [createIntervals, checkpointTimes, linspace, forceLast, mergeIntervals, bind, Except.bind,
    List.range_succ, mergeLoop]
  norm_num

/-! ## C13 -/

/-- Construction succeeds exactly for a known library and one of its methods, after filling in the
defaults `odeint` and the library's first method. -/
theorem C13_accepts_iff (library name : Option String) (options : Option (PDict String ℚ))
    (stepSize : Option ℚ) (nr : Option Int) (iv : Option ℚ) :
    (∃ c, construct library name options stepSize nr iv = .ok c) ↔
      (library = none ∨ library = some "odeint") ∧
        (name = none ∨ ∃ m ∈ ["dopri5", "adams", "euler", "midpoint", "rk4", "explicit_adams",
          "fixed_adams"], name = some m) ∨
      library = some "anode" ∧ (name = none ∨ ∃ m ∈ ["rk2", "rk4"], name = some m) := by
  have hod : available "odeint" =
      some ["dopri5", "adams", "euler", "midpoint", "rk4", "explicit_adams", "fixed_adams"] := rfl
  have han : available "anode" = some ["rk2", "rk4"] := by decide
  have hun : ∀ l, l ≠ "odeint" → l ≠ "anode" → available l = none := by
    intro l h1 h2; simp [available, h1, h2]
  have key : ∀ l ms, available l = some ms → ms ≠ [] →
      ((∃ c, (if name.getD (ms.headD "") ∉ ms then (Except.error Err.valueError : Py Config)
        else .ok ⟨l, name.getD (ms.headD ""),
          addStepSize l (name.getD (ms.headD "")) (options.getD []) stepSize, nr, iv⟩) = .ok c) ↔
        (name = none ∨ ∃ m ∈ ms, name = some m)) := by
    intro l ms _ hne
    cases name with
    | none =>
      obtain ⟨m, ms', rfl⟩ := List.exists_cons_of_ne_nil hne
      simp
    | some n =>
      by_cases hm : n ∈ ms
      · simp [hm]
      · simp [hm]
  unfold construct
  cases library with
  | none =>
    simp only [Option.getD_none, hod]
    rw [key "odeint" _ hod (by simp)]
    simp
  | some l =>
    by_cases h1 : l = "odeint"
    · subst h1
      simp only [Option.getD_some, hod]
      rw [key "odeint" _ hod (by simp)]
      simp
    · by_cases h2 : l = "anode"
      · subst h2
        simp only [Option.getD_some, han]
        rw [key "anode" _ han (by simp)]
        simp
      · simp [hun l h1 h2, h1, h2]

/-- A rejected construction is always a `ValueError`. -/
theorem C13_rejects_with_valueError (library name : Option String) (options : Option (PDict String ℚ))
    (stepSize : Option ℚ) (nr : Option Int) (iv : Option ℚ) (e : Err)
    (h : construct library name options stepSize nr iv = .error e) : e = .valueError := by
  unfold construct at h
  simp only at h
  split at h
  · cases h; rfl
  · split at h
    · cases h; rfl
    · cases h

/-- The options of a constructed integrator: every option other than `step_size` is kept; `step_size`
is the user's own one if given, else the step size argument for fixed-step odeint methods, else
absent. The method and library are the requested ones, the defaults are `odeint` and the first
method. -/
theorem C13_options (library name : Option String) (options : Option (PDict String ℚ))
    (stepSize : Option ℚ) (nr : Option Int) (iv : Option ℚ) (c : Config)
    (h : construct library name options stepSize nr iv = .ok c) :
    (∀ l, library = some l → c.library = l) ∧ (library = none → c.library = "odeint") ∧
    (∀ n, name = some n → c.name = n) ∧
    (name = none → c.name = if c.library = "odeint" then "dopri5" else "rk2") ∧
    (∀ k, k ≠ "step_size" → c.options.get? k = (options.getD []).get? k) ∧
    c.options.get? "step_size" =
      match (options.getD []).get? "step_size" with
      | some s => some s
      | none => if c.library = "odeint" ∧ c.name ≠ "dopri5" ∧ c.name ≠ "adams" then stepSize else none := by
  unfold construct at h
  simp only at h
  split at h
  · cases h
  · next ms hms =>
    split at h
    · cases h
    · next hmem =>
      cases h
      refine ⟨?_, ?_, ?_, ?_, ?_, ?_⟩
      · rintro l rfl; rfl
      · rintro rfl; rfl
      · rintro n rfl; rfl
      · rintro rfl
        simp only [Option.getD_none]
        unfold available at hms
        split at hms
        · next hl => cases hms; simp [hl]
        · split at hms
          · next h1 h2 => cases hms; simp [h2]
          · cases hms
      · intro k hk
        unfold addStepSize
        split
        · rfl
        · split
          · rw [PDict.get?_set, if_neg (Ne.symm hk)]
          · rfl
      · generalize options.getD [] = o
        generalize library.getD "odeint" = lib
        generalize name.getD (ms.headD "") = nm
        unfold addStepSize
        cases hg : o.get? "step_size" with
        | some s =>
          have hh : o.has "step_size" = true := by simp [PDict.has, hg]
          cases stepSize <;> simp [hh, hg]
        | none =>
          have hh : o.has "step_size" = false := by simp [PDict.has, hg]
          cases stepSize with
          | none => simp [hg]
          | some s =>
            simp only [hh, and_true, List.mem_cons, List.not_mem_nil, or_false, not_or]
            split
            · next hc => rw [PDict.get?_set]; simp
            · next hc => rw [hg]

/-- The options dictionary is modified in place, so constructing a second integrator from the same
dictionary object inherits the step size of the first one and ignores its own. -/
theorem C13_shared_options (name1 name2 : String) (options : PDict String ℚ) (s1 s2 : ℚ)
    (h1 : name1 ∈ ["euler", "midpoint", "rk4", "explicit_adams", "fixed_adams"])
    (h2 : name2 ∈ ["euler", "midpoint", "rk4", "explicit_adams", "fixed_adams"])
    (hno : options.get? "step_size" = none) :
    ∃ c1 c2, construct none (some name1) (some options) (some s1) none none = .ok c1 ∧
      construct none (some name2) (some c1.options) (some s2) none none = .ok c2 ∧
      c2.options.get? "step_size" = some s1 := by
  have acc : ∀ n o s, n ∈ ["euler", "midpoint", "rk4", "explicit_adams", "fixed_adams"] →
      ∃ c, construct none (some n) (some o) (some s) none none = .ok c := by
    intro n o s hn
    refine (C13_accepts_iff none (some n) (some o) (some s) none none).2 (Or.inl ⟨Or.inl rfl, Or.inr ⟨n, ?_, rfl⟩⟩)
    simp only [List.mem_cons, List.not_mem_nil, or_false] at hn ⊢
    tauto
  have hnm : ∀ n, n ∈ ["euler", "midpoint", "rk4", "explicit_adams", "fixed_adams"] →
      n ≠ "dopri5" ∧ n ≠ "adams" := by
    intro n hn
    simp only [List.mem_cons, List.not_mem_nil, or_false] at hn
    rcases hn with rfl | rfl | rfl | rfl | rfl <;> decide
  obtain ⟨c1, e1⟩ := acc name1 options s1 h1
  obtain ⟨-, hl1, hn1, -, -, hs1⟩ := C13_options _ _ _ _ _ _ _ e1
  have hs1' : c1.options.get? "step_size" = some s1 := by
    rw [hs1]
    simp only [Option.getD_some, hno, hl1 rfl, hn1 name1 rfl, true_and]
    rw [if_pos (hnm name1 h1)]
  obtain ⟨c2, e2⟩ := acc name2 c1.options s2 h2
  obtain ⟨-, -, -, -, -, hs2⟩ := C13_options _ _ _ _ _ _ _ e2
  refine ⟨c1, c2, e1, e2, ?_⟩
  rw [hs2]
  simp [hs1']

example : (construct none none none (some (1/2)) none none).toOption.map (fun c => (c.library, c.name))
    = some ("odeint", "dopri5") := by decide
example : construct (some "odeint") (some "rk2") none none none none = .error .valueError := by decide

end Verif.Integrator
