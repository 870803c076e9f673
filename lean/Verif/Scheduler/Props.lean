import Verif.Scheduler.Lemmas

/-!
# C16-C20: the learning rate scheduler
-/

namespace Verif.Scheduler
open Verif

/-- A concrete configuration used in the examples: two groups, patience 1, factor 1/2. -/
def demoWorld : World :=
  ⟨{ factor := 1/2, minLrs := [1/10, 0], patience := 1, cooldown := 1, cooldownCounter := 0, mode := .min,
     threshold := 1/100, tmode := .rel, best := .posInf, numBad := 0, modeWorse := .posInf, eps := 1/1000,
     lastEpoch := -1, converged := false, current := none, cmpMode := .min, cmpTMode := .rel,
     cmpThreshold := 1/100 }, [1, 1/2]⟩

theorem demoWorld_ok : Ok demoWorld := ⟨rfl, rfl⟩

example : construct [1, 1/2] "min" (1/2) 1 (1/100) "rel" 1 (.list [1/10, 0]) (1/1000) = .ok demoWorld := by
  decide +kernel

/-! ## C16 -/

/-- **C16.** For every sequence of metric values (finite, infinite or NaN; with or without explicit epoch
numbers) no exception is raised, every group's learning rate is at most what it was, and it is still at or
above its minimum rate if it was before. -/
theorem C16_run (w : World) (h : Ok w) (he : 0 ≤ w.sched.eps) (es : List (Num × Option Int)) :
    ∃ w', run w es = .ok w' ∧ Ok w' ∧ w'.sched.minLrs = w.sched.minLrs ∧
      LrsDown w.sched.minLrs w.lrs w'.lrs := by
  induction es generalizing w with
  | nil => exact ⟨w, rfl, h, rfl, lrsDown_refl _ _⟩
  | cons e es ih =>
    have hs := sameSettings_step w e.1 e.2
    obtain ⟨w', h1, h2, h3, h4⟩ := ih _ (ok_step h e.1 e.2) (by rw [hs.eps]; exact he)
    refine ⟨w', ?_, h2, h3.trans hs.minLrs, ?_⟩
    · rw [run, step_eq h]; exact h1
    · rw [hs.minLrs] at h4
      refine LrsDown.trans ?_ h4
      obtain ⟨_, f2, _, _, _, _, _, _, f9, _⟩ := observe_fields w.sched e.1 e.2
      split
      · show LrsDown w.sched.minLrs w.lrs (List.zipWith _ w.lrs (observe w.sched e.1 e.2).minLrs)
        rw [f2]
        exact lrsDown_zipWith _ _ (by rw [f9]; exact he) _ _ h.groups
      · exact lrsDown_refl _ _

/-- **C16**, between any two points of a history. -/
theorem C16_any_two_points (w w1 w2 : World) (h : Ok w) (he : 0 ≤ w.sched.eps)
    (es fs : List (Num × Option Int)) (h1 : run w es = .ok w1) (h2 : run w (es ++ fs) = .ok w2) :
    LrsDown w.sched.minLrs w1.lrs w2.lrs := by
  obtain ⟨w1', e1, ok1, m1, _⟩ := C16_run w h he es
  rw [h1] at e1; cases e1
  have hs := sameSettings_run h es h1
  obtain ⟨w2', e2, _, _, l2⟩ := C16_run w1 ok1 (by rw [hs.eps]; exact he) fs
  rw [run_append, h1] at h2
  change run w1 fs = .ok w2 at h2
  rw [e2] at h2; cases h2
  rw [m1] at l2; exact l2

/-- A group added to the optimizer after the scheduler was built has no minimum rate: the first attempt
raises an exception (and only the first attempt). -/
theorem C16_added_group_raises (w : World) (h : w.sched.minLrs.length < w.lrs.length) (m : Num)
    (ep : Option Int) (ha : attempts w.sched m ep = true) : step w m ep = .error .indexError := by
  have key : ∀ (lrs ms : List ℚ) (s : Sched), ms.length < lrs.length →
      reduceLoop s lrs ms = .error .indexError := by
    intro lrs
    induction lrs with
    | nil => intro ms s h; simp at h
    | cons lr lrs ih =>
      intro ms s h
      cases ms with
      | nil => rfl
      | cons m ms =>
        rw [reduceLoop, ih ms _ (by simpa using h), ih ms _ (by simpa using h)]
        split <;> rfl
  have hm := (observe_fields w.sched m ep).2.1
  have hp := (observe_fields w.sched m ep).2.2.1
  rw [attempts_iff] at ha
  unfold step
  simp only [hp, if_pos ha]
  rw [key _ _ _ (by rw [hm]; exact h)]
  rfl

example : Ok demoWorld ∧ (0:ℚ) ≤ demoWorld.sched.eps := ⟨demoWorld_ok, by decide +kernel⟩
/-- the run is not trivial: two reductions with a cooldown in between -/
example : (run demoWorld ((List.replicate 9 (Num.fin 1, none)))).toOption.map (·.lrs) = some [1/8, 1/16] := by
  decide +kernel

/-! ## C17 -/

/-- **C17.** After any history `pre` from a configuration without bad epochs (e.g. a new scheduler), a call
attempts a reduction exactly when it is itself bad (not improving, not in cooldown) and each of the
`patience` calls before it was bad and not an attempt. -/
theorem C17_attempt_iff (w w' : World) (h : Ok w) (h0 : w.sched.numBad = 0) (hp : 0 ≤ w.sched.patience)
    (pre : List (Num × Option Int)) (hr : run w pre = .ok w') (m : Num) (ep : Option Int) :
    attempts w'.sched m ep = true ↔
      (record w'.sched m ep).bad ∧ ∃ earlier last, trace w pre = earlier ++ last ∧
        (last.length : Int) = w.sched.patience ∧ ∀ r ∈ last, r.bad ∧ r.attempt = false := by
  have hn := numBad_eq h h0 pre hr
  have hpat := (sameSettings_run h pre hr).patience
  have hbad : ∀ r : Rec, badRec r = true ↔ (r.bad ∧ r.attempt = false) := by
    intro r; simp [badRec, Rec.bad]
  have hiff : w.sched.patience ≤ trailing (trace w pre) ↔ ∃ earlier last, trace w pre = earlier ++ last ∧
      (last.length : Int) = w.sched.patience ∧ ∀ r ∈ last, r.bad ∧ r.attempt = false := by
    have := le_trailing_iff (trace w pre) w.sched.patience.toNat
    constructor
    · intro hle
      obtain ⟨e, l, h1, h2, h3⟩ := this.1 (by omega)
      exact ⟨e, l, h1, by omega, fun r hr => (hbad r).1 (h3 r hr)⟩
    · rintro ⟨e, l, h1, h2, h3⟩
      have := this.2 ⟨e, l, h1, by omega, fun r hr => (hbad r).2 (h3 r hr)⟩
      omega
  rw [attempts_iff, observe_numBad, hpat, ← hiff, hn]
  simp only [Rec.bad, record, decide_eq_false_iff_not]
  by_cases hc : 0 < w'.sched.cooldownCounter
  · simp [hc, hp]
  · cases hb : isBetter w'.sched m w'.sched.best
    · simp only [hc, if_false, Bool.false_eq_true, true_and, not_false_eq_true, true_and]
      omega
    · simp [hc, hp]

/-- **C17.** A call that does not attempt a reduction changes neither a learning rate nor the convergence flag. -/
theorem C17_changes_need_attempt (w w' : World) (h : Ok w) (m : Num) (ep : Option Int)
    (hs : step w m ep = .ok w') (hc : w'.lrs ≠ w.lrs ∨ w'.sched.converged ≠ w.sched.converged) :
    attempts w.sched m ep = true := by
  by_contra ha
  simp only [Bool.not_eq_true] at ha
  rw [step_no_attempt h ha] at hs
  cases hs
  rcases hc with hc | hc
  · exact hc rfl
  · exact hc (observe_fields w.sched m ep).2.2.2.2.2.2.2.2.2.1

/-- **C17.** After an attempt, exactly the next `cooldown` calls are in cooldown. -/
theorem C17_cooldown (w w' : World) (h : Ok w) (hp : 0 ≤ w.sched.patience) (m : Num) (ep : Option Int)
    (ha : attempts w.sched m ep = true) (es : List (Num × Option Int))
    (hr : run w ((m, ep) :: es) = .ok w') (hl : (es.length : Int) ≤ w.sched.cooldown) :
    w'.sched.cooldownCounter = w.sched.cooldown - es.length ∧
      w'.sched.numBad = 0 := by
  have hinv : ∀ (es : List (Num × Option Int)) (v v' : World), Ok v → v.sched.patience = w.sched.patience →
      (es.length : Int) ≤ v.sched.cooldownCounter → v.sched.numBad = 0 → run v es = .ok v' →
      v'.sched.cooldownCounter = v.sched.cooldownCounter - es.length ∧ v'.sched.numBad = 0 := by
    intro es
    induction es with
    | nil => intro v v' hv hvp hlen hnb hrun; cases hrun; simpa using hnb
    | cons e es ih =>
      intro v v' hv hvp hlen hnb hrun
      simp only [List.length_cons, Nat.cast_add, Nat.cast_one] at hlen
      have hcc : 0 < v.sched.cooldownCounter := by omega
      have hnb' : (observe v.sched e.1 e.2).numBad = 0 := by rw [observe_numBad, if_pos hcc]
      have hna : attempts v.sched e.1 e.2 = false := by
        rw [Bool.eq_false_iff]
        intro hat
        rw [attempts_iff, hnb', hvp] at hat
        omega
      have hcc' : (observe v.sched e.1 e.2).cooldownCounter = v.sched.cooldownCounter - 1 := by
        rw [observe_cooldownCounter, if_pos hcc]
      rw [run, step_no_attempt hv hna] at hrun
      have := ih ⟨observe v.sched e.1 e.2, v.lrs⟩ v' (ok_observe hv hna)
        ((sameSettings_observe _ _ _).patience.trans hvp) (by rw [hcc']; omega) hnb' hrun
      simp only [hcc'] at this
      refine ⟨?_, this.2⟩
      rw [this.1]; push_cast [List.length_cons]; omega
  rw [run, step_eq h, ha] at hr
  have hcd := (observe_fields w.sched m ep).2.2.2.1
  have := hinv es (afterReduction (observe w.sched m ep) w.lrs) w' ?_ ?_ ?_ rfl hr
  · refine ⟨?_, this.2⟩
    rw [this.1]
    simp [afterReduction, hcd, reduced]
  · have := ok_step h m ep
    rw [ha] at this; exact this
  · exact (observe_fields w.sched m ep).2.2.1
  · simp only [afterReduction, hcd, reduced]; exact hl

/-- **C17.** What "improving" means: for finite values better than the best value by more than the (absolute or relative) threshold; NaN never
improves; every finite value improves on the worst value (for sensible thresholds); nothing improves on NaN. -/
theorem C17_improvement (w w' : World) (h : Ok w) (pre : List (Num × Option Int)) (hr : run w pre = .ok w') :
    (∀ a b, isBetter w'.sched (.fin a) (.fin b) = true ↔ Improves w.sched.mode w.sched.tmode w.sched.threshold a b) ∧
    (∀ x, isBetter w'.sched .nan x = false ∧ isBetter w'.sched x .nan = false) ∧
    (-1 < w.sched.threshold → w.sched.threshold < 1 → ∀ a, isBetter w'.sched (.fin a) (Worst w.sched.mode) = true) := by
  have hs := sameSettings_run h pre hr
  have hf := (frozen_iff _).1 h.frozen
  have e : ∀ a b, isBetter w'.sched a b = cmp w.sched.mode w.sched.tmode w.sched.threshold a b := by
    intro a b
    rw [hs.isBetter, isBetter, hf.2.1, hf.2.2.1, hf.2.2.2]
  refine ⟨?_, ?_, ?_⟩
  · intro a b
    rw [e]
    rcases w.sched.mode with _ | _ <;> rcases w.sched.tmode with _ | _ <;>
      simp only [cmp, Num.lt, Num.mulQ, Num.addQ, Improves, decide_eq_true_eq] <;> constructor <;> intro h <;> linarith
  · intro x
    rw [e, e]
    rcases w.sched.mode with _ | _ <;> rcases w.sched.tmode with _ | _ <;> cases x <;>
      simp [cmp, Num.lt, Num.mulQ, Num.addQ]
  · intro h0 h1 a
    have p1 : 0 < 1 - w.sched.threshold := by linarith
    have p2 : 0 < w.sched.threshold + 1 := by linarith
    rw [e]
    rcases w.sched.mode with _ | _ <;> rcases w.sched.tmode with _ | _ <;> simp [cmp, Num.lt, Num.mulQ, Num.addQ, Worst, p1, p2]

example : Improves .max .abs (1/10) (6/5) 1 ∧ ¬ Improves .max .abs (1/10) (21/20) 1 := by
  constructor <;> norm_num [Improves]

/-- **C17.** The best value: an improving call makes its metric the best value, a call that lowers a learning rate forgets the best value,
every other call keeps it. -/
theorem C17_best_value (w w' : World) (h : Ok w) (he : 0 ≤ w.sched.eps) (m : Num) (ep : Option Int) (hs : step w m ep = .ok w') :
    w'.sched.best = if w'.lrs ≠ w.lrs then Worst w.sched.mode else if isBetter w.sched m w.sched.best then m else w.sched.best := by
  have hf := (frozen_iff _).1 h.frozen
  obtain ⟨h1, h2, h3, h4, h5, h6, h7, h8, h9, h10, h11, h12, h13⟩ := observe_fields w.sched m ep
  have hlow : ∀ (lrs ms : List ℚ), ms.length = lrs.length →
      (List.zipWith (newLr w.sched.factor w.sched.eps) lrs ms ≠ lrs ↔ anyPair (reduces w.sched.factor w.sched.eps) lrs ms = true) := by
    intro lrs
    induction lrs with
    | nil => intro ms _; simp [anyPair]
    | cons lr lrs ih =>
      intro ms hl
      cases ms with
      | nil => simp at hl
      | cons mi ms =>
        have := ih ms (by simpa using hl)
        simp only [List.zipWith_cons_cons, ne_eq, List.cons.injEq, not_and_or, anyPair, Bool.or_eq_true]
        rw [← this]
        refine or_congr ?_ Iff.rfl
        unfold newLr
        by_cases hr : reduces w.sched.factor w.sched.eps lr mi = true
        · rw [if_pos hr]
          simp only [hr, iff_true]
          simp only [reduces, decide_eq_true_eq] at hr
          intro h0
          rw [h0] at hr
          linarith
        · rw [if_neg hr]
          simp [hr]
  rw [step_eq h] at hs
  cases hs
  by_cases ha : attempts w.sched m ep = true
  · rw [if_pos ha]
    simp only [afterReduction, reduced, h1, h2, h8, h9, hf.1]
    have hl := hlow w.lrs w.sched.minLrs h.groups
    have hw : worseOf w.sched.mode = Worst w.sched.mode := rfl
    by_cases hany : anyPair (reduces w.sched.factor w.sched.eps) w.lrs w.sched.minLrs = true
    · rw [if_pos hany, if_pos (hl.2 hany), hw]
    · rw [if_neg hany, if_neg (fun h => hany (hl.1 h)), observe_best]
  · rw [if_neg ha]
    simp only [ne_eq, not_true_eq_false, if_false]
    rw [observe_best]

example : (match step demoWorld (.fin 3) none with | .ok w' => some w'.sched.best | .error _ => none) = some (.fin 3) := by
  decide +kernel

/-- **C17**, degenerate settings: with a negative patience every call is an attempt. -/
theorem C17_negative_patience (w : World) (hn : 0 ≤ w.sched.numBad) (hp : w.sched.patience < 0) (m : Num)
    (ep : Option Int) : attempts w.sched m ep = true := by
  rw [attempts_iff, observe_numBad]
  split
  · exact hp
  · split <;> omega

example : (run demoWorld [(.fin 1, none), (.fin 1, none)]).toOption.map
    (fun w' => (attempts w'.sched (.fin 1) none, attempts w'.sched (.fin 0) none)) = some (true, false) := by
  decide +kernel

/-! ## C18 -/

/-- **C18.** Convergence is final. -/
theorem C18_final (w w' : World) (h : Ok w) (es : List (Num × Option Int)) (hr : run w es = .ok w')
    (hc : w.sched.converged = true) : w'.sched.converged = true := converged_run h es hr hc

/-- **C18.** An attempt declares convergence exactly when it had been declared before or some group could not
be lowered by more than `eps`; the groups that can be lowered by more than `eps` are set to
`max(lr * factor, min_lr)`, the others are left alone. -/
theorem C18_attempt (w w' : World) (h : Ok w) (he : 0 ≤ w.sched.eps) (m : Num) (ep : Option Int)
    (ha : attempts w.sched m ep = true) (hs : step w m ep = .ok w') :
    (∀ (i : Nat) (lr mi : ℚ), w.lrs[i]? = some lr → w.sched.minLrs[i]? = some mi →
      w'.lrs[i]? = some (if w.sched.eps < lr - max (lr * w.sched.factor) mi
        then max (lr * w.sched.factor) mi else lr)) ∧
    (w'.sched.converged = true ↔ w.sched.converged = true ∨
      ∃ (i : Nat) (lr lr' : ℚ), w.lrs[i]? = some lr ∧ w'.lrs[i]? = some lr' ∧ ¬ w.sched.eps < lr - lr') := by
  have hneg : ¬ w.sched.eps < 0 := not_lt.2 he
  rw [step_eq h, ha] at hs
  obtain ⟨f1, f2, _, _, _, _, _, _, f9, f10, _⟩ := observe_fields w.sched m ep
  have hw' : w' = afterReduction (observe w.sched m ep) w.lrs := by cases hs; rfl
  have hl : ∀ (i : Nat) (lr mi : ℚ), w.lrs[i]? = some lr → w.sched.minLrs[i]? = some mi →
      w'.lrs[i]? = some (newLr w.sched.factor w.sched.eps lr mi) := by
    intro i lr mi h1 h2
    rw [hw']
    simp [afterReduction, f1, f2, f9, List.getElem?_zipWith, h1, h2]
  refine ⟨?_, ?_⟩
  · intro i lr mi h1 h2
    rw [hl i lr mi h1 h2]
    simp [newLr, reduces]
  · have hc : w'.sched.converged = (w.sched.converged ||
        anyPair (fun lr m => !reduces w.sched.factor w.sched.eps lr m) w.lrs w.sched.minLrs) := by
      rw [hw']; simp [afterReduction, reduced, f1, f2, f9, f10]
    rw [hc, Bool.or_eq_true, anyPair_eq_true_iff]
    constructor
    · rintro (h1 | ⟨i, lr, mi, h1, h2, h3⟩)
      · exact Or.inl h1
      · refine Or.inr ⟨i, lr, _, h1, hl i lr mi h1 h2, ?_⟩
        simp only [Bool.not_eq_true'] at h3
        simp only [newLr, h3, Bool.false_eq_true, if_false, sub_self]
        exact hneg
    · rintro (h1 | ⟨i, lr, lr', h1, h2, h3⟩)
      · exact Or.inl h1
      · have hi : i < w.lrs.length := (List.getElem?_eq_some_iff.1 h1).1
        have hm : w.sched.minLrs[i]? = some (w.sched.minLrs[i]'(by rw [h.groups]; exact hi)) :=
          List.getElem?_eq_getElem _
        refine Or.inr ⟨i, lr, _, h1, hm, ?_⟩
        rw [hl i lr _ h1 hm] at h2
        simp only [Option.some.injEq] at h2
        by_contra hr
        simp only [Bool.not_eq_true', Bool.not_eq_false] at hr
        rw [newLr, if_pos hr] at h2
        simp only [reduces, decide_eq_true_eq, h2] at hr
        exact h3 hr

/-- **C18.** While convergence has not been declared, every attempt has lowered every group by more than
`eps`: after `n` attempts each rate has dropped by at least `n * eps`. -/
theorem C18_attempts_lower (w w' : World) (h : Ok w) (he : 0 ≤ w.sched.eps)
    (es : List (Num × Option Int)) (hr : run w es = .ok w') (hc : w'.sched.converged = false)
    (i : Nat) (lr lr' : ℚ) (hi : w.lrs[i]? = some lr) (hi' : w'.lrs[i]? = some lr') :
    ((trace w es).countP (·.attempt) : ℚ) * w.sched.eps ≤ lr - lr' := by
  induction es generalizing w lr with
  | nil =>
    cases hr
    rw [hi] at hi'; cases hi'
    simp [trace]
  | cons e es ih =>
    have hstep := step_eq h e.1 e.2
    have hok1 := ok_step h e.1 e.2
    have hs1 := sameSettings_step w e.1 e.2
    generalize hw1 : (if attempts w.sched e.1 e.2 then afterReduction (observe w.sched e.1 e.2) w.lrs
      else ⟨observe w.sched e.1 e.2, w.lrs⟩) = w1 at hstep hok1 hs1
    rw [run, hstep] at hr
    change run w1 es = .ok w' at hr
    have hc1 : w1.sched.converged = false := by
      rw [Bool.eq_false_iff]
      intro hcon
      rw [converged_run hok1 es hr hcon] at hc
      cases hc
    have htr : trace w (e :: es) = record w.sched e.1 e.2 :: trace w1 es := by
      rw [trace, hstep]
    rw [htr, List.countP_cons]
    have hlen : w1.lrs.length = w.lrs.length := by
      rw [← hok1.groups, hs1.minLrs, h.groups]
    have hil : i < w.lrs.length := (List.getElem?_eq_some_iff.1 hi).1
    obtain ⟨lr1, hi1⟩ : ∃ x, w1.lrs[i]? = some x := ⟨_, List.getElem?_eq_getElem (by omega)⟩
    have hrest := ih w1 hok1 (by rw [hs1.eps]; exact he) hr _ hi1
    rw [hs1.eps] at hrest
    cases ha : attempts w.sched e.1 e.2 with
    | true =>
      have hat := (C18_attempt w w1 h he e.1 e.2 ha hstep).2
      have hlow : w.sched.eps < lr - lr1 := by
        by_contra hcon
        rw [hat.2 (Or.inr ⟨i, lr, _, hi, hi1, hcon⟩)] at hc1
        cases hc1
      simp only [record, ha, if_true]
      push_cast
      linarith
    | false =>
      rw [ha] at hw1
      have hsame : w1.lrs = w.lrs := by rw [← hw1]; rfl
      rw [hsame, hi] at hi1
      simp only [Option.some.injEq] at hi1
      rw [← hi1] at hrest
      simpa [record, ha] using hrest

/-- **C18.** Hence for a group that started at or above its minimum, at most `(lr - min_lr) / eps` attempts can
happen before convergence is declared. -/
theorem C18_finitely_many_attempts (w w' : World) (h : Ok w) (he : 0 < w.sched.eps)
    (es : List (Num × Option Int)) (hr : run w es = .ok w') (hc : w'.sched.converged = false)
    (i : Nat) (lr mi : ℚ) (hi : w.lrs[i]? = some lr) (hm : w.sched.minLrs[i]? = some mi) (hle : mi ≤ lr) :
    ((trace w es).countP (·.attempt) : ℚ) ≤ (lr - mi) / w.sched.eps := by
  obtain ⟨w2, h1, _, _, hd⟩ := C16_run w h (le_of_lt he) es
  rw [hr] at h1; cases h1
  have hil : i < w'.lrs.length := by rw [← hd.1]; exact (List.getElem?_eq_some_iff.1 hi).1
  have hi' : w'.lrs[i]? = some w'.lrs[i] := List.getElem?_eq_getElem hil
  have h1 := C18_attempts_lower w w' h (le_of_lt he) es hr hc i lr _ hi hi'
  have h2 := (hd.2 i lr _ hi hi').2 mi hm hle
  rw [le_div_iff₀ he]
  linarith

/-- **C18.** A metric that stays at a value that does not improve on itself leads to convergence: from every
configuration there is a number of epochs after which the flag is set for good. -/
theorem C18_stuck_metric_converges (w : World) (h : Ok w) (he : 0 < w.sched.eps) (hne : w.lrs ≠ [])
    (m : Num) (hm : isBetter w.sched m m = false) :
    ∃ N, ∀ n, N ≤ n → ∃ w', run w (List.replicate n (m, none)) = .ok w' ∧ w'.sched.converged = true := by
  suffices hk : ∀ (K : Nat) (w : World), Ok w → 0 < w.sched.eps → isBetter w.sched m m = false →
      (∃ lr mi : ℚ, w.lrs[0]? = some lr ∧ w.sched.minLrs[0]? = some mi ∧ lr - mi ≤ K * w.sched.eps) →
      ∃ n w', run w (List.replicate n (m, none)) = .ok w' ∧ w'.sched.converged = true by
    have hl : 0 < w.lrs.length := List.length_pos_iff.2 hne
    have h0 : w.lrs[0]? = some w.lrs[0] := List.getElem?_eq_getElem hl
    have hm0 : w.sched.minLrs[0]? = some (w.sched.minLrs[0]'(by rw [h.groups]; exact hl)) :=
      List.getElem?_eq_getElem _
    obtain ⟨N, w1, h1, h2⟩ := hk ⌈(w.lrs[0] - w.sched.minLrs[0]'(by rw [h.groups]; exact hl)) / w.sched.eps⌉₊
      w h he hm ⟨_, _, h0, hm0, by rw [← div_le_iff₀ he]; exact Nat.le_ceil _⟩
    refine ⟨N, fun n hn => ?_⟩
    obtain ⟨w', h3, h4⟩ := run_ok h (List.replicate n (m, none))
    refine ⟨w', h3, ?_⟩
    have hsplit : List.replicate n (m, (none : Option Int)) =
        List.replicate N (m, none) ++ List.replicate (n - N) (m, none) := by
      rw [List.replicate_append_replicate]; congr 1; omega
    rw [hsplit, run_append, h1] at h3
    obtain ⟨w1', h5, h6⟩ := run_ok h (List.replicate N (m, none))
    rw [h1] at h5; cases h5
    exact converged_run h6 _ h3 h2
  intro K
  induction K with
  | zero =>
    rintro w h he hm ⟨lr, mi, hlr, hmi, hle⟩
    obtain ⟨k, w1, h1, hok1, hl1, hs1, _, ha⟩ := reaches _ h hm (le_refl _)
    have hstep := step_eq hok1 m none
    have hat := C18_attempt w1 _ hok1 (by rw [hs1.eps]; exact le_of_lt he) m none ha hstep
    generalize (if attempts w1.sched m none then afterReduction (observe w1.sched m none) w1.lrs
      else ⟨observe w1.sched m none, w1.lrs⟩) = w2 at hstep hat
    refine ⟨k + 1, w2, ?_, ?_⟩
    · rw [List.replicate_succ', run_append, h1]
      change run w1 [(m, none)] = _
      rw [run, hstep]; rfl
    · rw [hs1.eps, hs1.factor, hs1.minLrs, hl1] at hat
      have hnew := hat.1 0 lr mi hlr hmi
      rw [hat.2]
      refine Or.inr ⟨0, lr, _, hlr, hnew, ?_⟩
      have : mi ≤ max (lr * w.sched.factor) mi := le_max_right _ _
      simp only [Nat.cast_zero, zero_mul] at hle
      split
      · linarith
      · linarith
  | succ K ih =>
    rintro w h he hm ⟨lr, mi, hlr, hmi, hle⟩
    obtain ⟨k, w1, h1, hok1, hl1, hs1, _, ha⟩ := reaches _ h hm (le_refl _)
    have hstep := step_eq hok1 m none
    have hok2 := ok_step hok1 m none
    have hs2 := hs1.trans (sameSettings_step w1 m none)
    have hat := C18_attempt w1 _ hok1 (by rw [hs1.eps]; exact le_of_lt he) m none ha hstep
    generalize (if attempts w1.sched m none then afterReduction (observe w1.sched m none) w1.lrs
      else ⟨observe w1.sched m none, w1.lrs⟩) = w2 at hstep hok2 hs2 hat
    have h2 : run w (List.replicate (k + 1) (m, none)) = .ok w2 := by
      rw [List.replicate_succ', run_append, h1]
      change run w1 [(m, none)] = _
      rw [run, hstep]; rfl
    by_cases hc : w2.sched.converged = true
    · exact ⟨k + 1, w2, h2, hc⟩
    · rw [hs1.eps, hs1.factor, hs1.minLrs, hl1] at hat
      have hnew := hat.1 0 lr mi hlr hmi
      generalize hlr' : (if w.sched.eps < lr - max (lr * w.sched.factor) mi then max (lr * w.sched.factor) mi
        else lr) = lr' at hnew
      have hlow : w.sched.eps < lr - lr' := by
        by_contra hcon
        exact hc (hat.2.2 (Or.inr ⟨0, lr, lr', hlr, hnew, hcon⟩))
      obtain ⟨n, w3, h3, h4⟩ := ih w2 hok2 (by rw [hs2.eps]; exact he)
        (by rw [hs2.isBetter]; exact hm)
        ⟨lr', mi, hnew, by rw [hs2.minLrs]; exact hmi, by
          rw [hs2.eps]; push_cast at hle; linarith⟩
      refine ⟨k + 1 + n, w3, ?_, h4⟩
      rw [← List.replicate_append_replicate, run_append, h2]
      exact h3

/-- The hypothesis of the previous theorem holds for instance for NaN, and for every finite non-negative value
in the default mode. -/
theorem C18_stuck_values (s : Sched) (hm : s.cmpMode = .min) (ht : s.cmpTMode = .rel)
    (hth : 0 ≤ s.cmpThreshold) : isBetter s .nan .nan = false ∧ ∀ q : ℚ, 0 ≤ q →
      isBetter s (.fin q) (.fin q) = false := by
  refine ⟨by simp [isBetter, cmp, hm, ht, Num.lt], fun q hq => ?_⟩
  have : 0 ≤ q * s.cmpThreshold := mul_nonneg hq hth
  simp only [isBetter, cmp, hm, ht, Num.lt, Num.mulQ, decide_eq_false_iff_not, not_lt]
  linarith

/-- **C18**, where it stops: in the default mode (`min`, relative threshold) a constant *negative* metric counts
as an improvement on itself, so the rates are never reduced and convergence is never declared. -/
theorem C18_negative_metric_never_converges (w : World) (h : Ok w) (hp : 0 ≤ w.sched.patience)
    (hmode : w.sched.mode = .min) (ht : w.sched.tmode = .rel) (hth : 0 < w.sched.threshold)
    (hth1 : w.sched.threshold < 1) (hb : w.sched.best = .posInf) (hc : w.sched.converged = false)
    (q : ℚ) (hq : q < 0) (n : Nat) :
    ∃ w', run w (List.replicate n (.fin q, none)) = .ok w' ∧ w'.lrs = w.lrs ∧ w'.sched.converged = false := by
  have hfr := (frozen_iff _).1 h.frozen
  have hbet : isBetter w.sched (.fin q) (.fin q) = true := by
    have : q * w.sched.threshold < 0 := mul_neg_of_neg_of_pos hq hth
    simp only [isBetter, cmp, hfr.2.1, hfr.2.2.1, hfr.2.2.2, hmode, ht, Num.lt, Num.mulQ, decide_eq_true_eq]
    linarith
  have hinf : isBetter w.sched (.fin q) .posInf = true := by
    simp [isBetter, cmp, hfr.2.1, hfr.2.2.1, hfr.2.2.2, hmode, ht, Num.lt, Num.mulQ, hth1]
  suffices hk : ∀ (n : Nat) (v : World), Ok v → SameSettings w.sched v.sched →
      (v.sched.best = .posInf ∨ v.sched.best = .fin q) → v.lrs = w.lrs → v.sched.converged = false →
      ∃ w', run v (List.replicate n (.fin q, none)) = .ok w' ∧ w'.lrs = w.lrs ∧ w'.sched.converged = false from
    hk n w h (.refl _) (Or.inl hb) rfl hc
  intro n
  induction n with
  | zero => intro v _ _ _ h1 h2; exact ⟨v, rfl, h1, h2⟩
  | succ n ih =>
    intro v hv hs hbest hl hcv
    have hb1 : isBetter v.sched (.fin q) v.sched.best = true := by
      rcases hbest with hb | hb <;> rw [hb, hs.isBetter] <;> assumption
    have hna : attempts v.sched (.fin q) none = false := by
      rw [Bool.eq_false_iff]
      intro hat
      rw [attempts_iff, observe_numBad, hb1, hs.patience] at hat
      split at hat
      · omega
      · simp only [if_true] at hat; omega
    obtain ⟨w', h1, h2, h3⟩ := ih ⟨observe v.sched (.fin q) none, v.lrs⟩ (ok_observe hv hna)
      (hs.trans (sameSettings_observe _ _ _)) (Or.inr (by rw [observe_best, hb1]; rfl)) hl
      ((observe_fields v.sched _ none).2.2.2.2.2.2.2.2.2.1.trans hcv)
    refine ⟨w', ?_, h2, h3⟩
    rw [List.replicate_succ, run, step_no_attempt hv hna]
    exact h1

example : Ok demoWorld ∧ (0:ℚ) < demoWorld.sched.eps ∧ demoWorld.lrs ≠ [] ∧
    isBetter demoWorld.sched (.fin 3) (.fin 3) = false ∧ isBetter demoWorld.sched (.fin (-3)) (.fin (-3)) = true :=
  ⟨demoWorld_ok, by decide +kernel, by decide +kernel, by decide +kernel, by decide +kernel⟩
example : (run demoWorld (List.replicate 16 (.fin 3, none))).toOption.map (·.sched.converged) = some true := by
  decide +kernel

/-! ## C19 -/

/-- **C19.** Saving the scheduler after any history and loading the saved state into any other scheduler object
(`fresh`, with arbitrary settings) on the same optimizer gives exactly the original scheduler. -/
theorem C19_restore (w w' : World) (h : Ok w) (pre : List (Num × Option Int)) (hr : run w pre = .ok w')
    (fresh : Sched) : loadStateDict fresh (stateDict w'.sched) = w'.sched := by
  obtain ⟨w2, h1, h2⟩ := run_ok h pre
  rw [hr] at h1; cases h1
  have hf := (frozen_iff _).1 h2.frozen
  obtain ⟨s, lrs⟩ := w'
  cases s
  simp only [loadStateDict, stateDict, initIsBetter, Sched.mk.injEq, true_and] at hf ⊢
  exact ⟨hf.1.symm, hf.2.1.symm, hf.2.2.1.symm, hf.2.2.2.symm⟩

/-- **C19.** ... so every future, including the learning rates, flags and exceptions, is the same. -/
theorem C19_same_future (w w' : World) (h : Ok w) (pre : List (Num × Option Int)) (hr : run w pre = .ok w')
    (fresh : Sched) (future : List (Num × Option Int)) :
    run ⟨loadStateDict fresh (stateDict w'.sched), w'.lrs⟩ future = run w (pre ++ future) := by
  rw [C19_restore w w' h pre hr fresh, run_append, hr]
  rfl

/-- the fresh scheduler of the example differs in mode and comparison from the saved one -/
example : ∃ fresh : Sched, fresh.mode = .max ∧ fresh.cmpTMode = .abs ∧
    loadStateDict fresh (stateDict demoWorld.sched) = demoWorld.sched := by
  refine ⟨{ demoWorld.sched with mode := .max, cmpTMode := .abs }, rfl, rfl, ?_⟩
  exact C19_restore demoWorld demoWorld demoWorld_ok [] rfl _

/-! ## C20 -/

/-- The settings the constructor is documented to accept. -/
def ValidSettings (groups : Nat) (mode : String) (factor : ℚ) (tmode : String) (minLr : MinLr) : Prop :=
  factor < 1 ∧ (mode = "min" ∨ mode = "max") ∧ (tmode = "rel" ∨ tmode = "abs") ∧
    (∀ l, minLr = .list l → l.length = groups)

/-- **C20.** Valid settings give a usable scheduler that has not converged, with no bad epochs, not in cooldown
and with the worst possible best value; the learning rates are untouched. -/
theorem C20_construct (lrs : List ℚ) (mode : String) (factor : ℚ) (patience : Int) (threshold : ℚ)
    (tmode : String) (cooldown : Int) (minLr : MinLr) (eps : ℚ)
    (hv : ValidSettings lrs.length mode factor tmode minLr) :
    ∃ w, construct lrs mode factor patience threshold tmode cooldown minLr eps = .ok w ∧ Ok w ∧ w.lrs = lrs ∧
      w.sched.converged = false ∧ w.sched.numBad = 0 ∧ w.sched.cooldownCounter = 0 ∧
      (mode = "min" → w.sched.best = .posInf) ∧ (mode = "max" → w.sched.best = .negInf) ∧
      w.sched.patience = patience ∧ w.sched.eps = eps ∧ w.sched.factor = factor ∧
      w.sched.threshold = threshold ∧ w.sched.cooldown = cooldown := by
  obtain ⟨hf, hm, ht, hl⟩ := hv
  have hmins : ∃ mins, minLrsOf minLr lrs.length = .ok mins ∧ mins.length = lrs.length := by
    cases minLr with
    | scalar q => exact ⟨_, rfl, by simp⟩
    | list l =>
      have := hl l rfl
      exact ⟨l, by simp [minLrsOf, this], this⟩
  obtain ⟨mins, hmins, hlen⟩ := hmins
  have hpm : ∃ md, parseMode mode = .ok md ∧ (mode = "min" → md = .min) ∧ (mode = "max" → md = .max) := by
    rcases hm with rfl | rfl
    · exact ⟨.min, rfl, fun _ => rfl, fun h => by simp at h⟩
    · exact ⟨.max, rfl, fun h => by simp at h, fun _ => rfl⟩
  have hpt : ∃ md, parseTMode tmode = .ok md := by
    rcases ht with rfl | rfl
    · exact ⟨.rel, rfl⟩
    · exact ⟨.abs, rfl⟩
  obtain ⟨md, hmd, hmin, hmax⟩ := hpm
  obtain ⟨tm, htm⟩ := hpt
  unfold construct
  rw [if_neg (not_le.2 hf), hmins, hmd, htm]
  refine ⟨_, rfl, ⟨hlen, rfl⟩, rfl, rfl, rfl, rfl, ?_, ?_, rfl, rfl, rfl, rfl, rfl⟩
  · intro h; rw [hmin h]; rfl
  · intro h; rw [hmax h]; rfl

/-- **C20.** Everything else is rejected with a `ValueError`. -/
theorem C20_rejected (lrs : List ℚ) (mode : String) (factor : ℚ) (patience : Int) (threshold : ℚ)
    (tmode : String) (cooldown : Int) (minLr : MinLr) (eps : ℚ)
    (hv : ¬ ValidSettings lrs.length mode factor tmode minLr) :
    construct lrs mode factor patience threshold tmode cooldown minLr eps = .error .valueError := by
  unfold construct
  by_cases hf : factor ≥ 1
  · rw [if_pos hf]
  rw [if_neg hf]
  by_cases hl : ∀ l, minLr = .list l → l.length = lrs.length
  · by_cases hm : mode = "min" ∨ mode = "max"
    · have ht : ¬ (tmode = "rel" ∨ tmode = "abs") := fun ht => hv ⟨not_le.1 hf, hm, ht, hl⟩
      have hpt : parseTMode tmode = .error .valueError := by
        simp only [not_or] at ht
        simp [parseTMode, ht.1, ht.2]
      cases minLr with
      | scalar q => rcases hm with rfl | rfl <;> rw [hpt] <;> rfl
      | list l =>
        have h1 : minLrsOf (.list l) lrs.length = .ok l := by simp [minLrsOf, hl l rfl]
        rw [h1, hpt]
        rcases hm with rfl | rfl <;> rfl
    · have hpm : parseMode mode = .error .valueError := by
        simp only [not_or] at hm
        simp [parseMode, hm.1, hm.2]
      rw [hpm]
      cases minLr with
      | scalar q => rfl
      | list l =>
        have h1 : minLrsOf (.list l) lrs.length = .ok l := by simp [minLrsOf, hl l rfl]
        rw [h1]; rfl
  · simp only [not_forall] at hl
    obtain ⟨l, rfl, hl⟩ := hl
    have h1 : minLrsOf (.list l) lrs.length = .error .valueError := by simp [minLrsOf, hl]
    rw [h1]; rfl

example : ValidSettings 2 "min" (1/2) "rel" (.list [0, 1]) := by
  refine ⟨by decide +kernel, Or.inl rfl, Or.inl rfl, ?_⟩
  intro l h; cases h; rfl
example : ¬ ValidSettings 2 "min" (1/2) "rel" (.list [0]) := by
  rintro ⟨_, _, _, h⟩; exact absurd (h [0] rfl) (by decide)

end Verif.Scheduler
