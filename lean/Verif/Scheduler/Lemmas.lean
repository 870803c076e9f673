import Verif.Scheduler.Spec
import Mathlib.Tactic.Linarith
import Mathlib.Data.Rat.Floor
import Mathlib.Data.List.Induction

namespace Verif.Scheduler
open Verif

/-- The condition of line 134. -/
def reduces (factor eps lr m : ℚ) : Bool := decide (eps < lr - max (lr * factor) m)

/-- The rate of a group after `_reduce_lr`. -/
def newLr (factor eps lr m : ℚ) : ℚ := if reduces factor eps lr m then max (lr * factor) m else lr

/-- Does some pair satisfy `p`? -/
def anyPair (p : ℚ → ℚ → Bool) : List ℚ → List ℚ → Bool
  | lr :: lrs, m :: ms => p lr m || anyPair p lrs ms
  | _, _ => false

/-- Closed form of the loop of `_reduce_lr`. -/
def reduced (s : Sched) (lrs ms : List ℚ) : Sched :=
  { s with
    best := if anyPair (reduces s.factor s.eps) lrs ms then s.modeWorse else s.best
    cooldownCounter := if anyPair (reduces s.factor s.eps) lrs ms then 0 else s.cooldownCounter
    numBad := if anyPair (reduces s.factor s.eps) lrs ms then 0 else s.numBad
    converged := s.converged || anyPair (fun lr m => !reduces s.factor s.eps lr m) lrs ms }

theorem reduceLoop_eq (s : Sched) (lrs ms : List ℚ) (h : ms.length = lrs.length) :
    reduceLoop s lrs ms = .ok (reduced s lrs ms, List.zipWith (newLr s.factor s.eps) lrs ms) := by
  induction lrs generalizing s ms with
  | nil => simp [reduceLoop, reduced, anyPair]
  | cons lr lrs ih =>
    cases ms with
    | nil => simp at h
    | cons m ms =>
      have hl : ms.length = lrs.length := by simpa using h
      by_cases hr : s.eps < lr - max (lr * s.factor) m
      · have hr' : reduces s.factor s.eps lr m = true := by simp [reduces, hr]
        rw [reduceLoop, if_pos hr, ih (reset s) ms hl]
        simp only [bind, Except.bind, List.zipWith_cons_cons, newLr, hr', if_true]
        simp only [reduced, reset, anyPair, hr', Bool.true_or, Bool.not_true, Bool.false_or, if_true]
        by_cases hA : anyPair (reduces s.factor s.eps) lrs ms = true <;> simp [hA]
      · have hr' : reduces s.factor s.eps lr m = false := by simp [reduces, hr]
        rw [reduceLoop, if_neg hr, ih _ ms hl]
        simp only [bind, Except.bind, List.zipWith_cons_cons, newLr, hr']
        simp [reduced, anyPair, hr']

/-- `_reduce_lr` followed by lines 127-128. -/
def afterReduction (s : Sched) (lrs : List ℚ) : World :=
  ⟨{ reduced s lrs s.minLrs with cooldownCounter := s.cooldown, numBad := 0 },
    List.zipWith (newLr s.factor s.eps) lrs s.minLrs⟩

theorem observe_fields (s : Sched) (m : Num) (ep : Option Int) :
    (observe s m ep).factor = s.factor ∧ (observe s m ep).minLrs = s.minLrs ∧
    (observe s m ep).patience = s.patience ∧ (observe s m ep).cooldown = s.cooldown ∧
    (observe s m ep).mode = s.mode ∧ (observe s m ep).threshold = s.threshold ∧
    (observe s m ep).tmode = s.tmode ∧ (observe s m ep).modeWorse = s.modeWorse ∧
    (observe s m ep).eps = s.eps ∧ (observe s m ep).converged = s.converged ∧
    (observe s m ep).cmpMode = s.cmpMode ∧ (observe s m ep).cmpTMode = s.cmpTMode ∧
    (observe s m ep).cmpThreshold = s.cmpThreshold := by
  unfold observe
  simp only
  split <;> split <;> simp

theorem observe_best (s : Sched) (m : Num) (ep : Option Int) :
    (observe s m ep).best = if isBetter s m s.best then m else s.best := by
  unfold observe
  have : isBetter { s with current := some m, lastEpoch := ep.getD (s.lastEpoch + 1) } m s.best
      = isBetter s m s.best := rfl
  simp only [this]
  cases isBetter s m s.best <;> simp <;> split <;> rfl

theorem observe_numBad (s : Sched) (m : Num) (ep : Option Int) :
    (observe s m ep).numBad =
      if 0 < s.cooldownCounter then 0 else if isBetter s m s.best then 0 else s.numBad + 1 := by
  unfold observe
  have : isBetter { s with current := some m, lastEpoch := ep.getD (s.lastEpoch + 1) } m s.best
      = isBetter s m s.best := rfl
  simp only [this]
  cases isBetter s m s.best <;> simp <;> split <;> rfl

theorem observe_cooldownCounter (s : Sched) (m : Num) (ep : Option Int) :
    (observe s m ep).cooldownCounter =
      if 0 < s.cooldownCounter then s.cooldownCounter - 1 else s.cooldownCounter := by
  unfold observe
  have : isBetter { s with current := some m, lastEpoch := ep.getD (s.lastEpoch + 1) } m s.best
      = isBetter s m s.best := rfl
  simp only [this]
  cases isBetter s m s.best <;> simp <;> split <;> rfl

theorem frozen_iff (s : Sched) : initIsBetter s = s ↔
    s.modeWorse = worseOf s.mode ∧ s.cmpMode = s.mode ∧ s.cmpTMode = s.tmode ∧
      s.cmpThreshold = s.threshold := by
  cases s
  simp only [initIsBetter, Sched.mk.injEq, true_and]
  constructor
  · rintro ⟨h1, h2, h3, h4⟩; exact ⟨h1.symm, h2.symm, h3.symm, h4.symm⟩
  · rintro ⟨h1, h2, h3, h4⟩; exact ⟨h1.symm, h2.symm, h3.symm, h4.symm⟩

theorem step_eq {w : World} (h : Ok w) (m : Num) (ep : Option Int) :
    step w m ep = .ok (if attempts w.sched m ep then afterReduction (observe w.sched m ep) w.lrs
      else ⟨observe w.sched m ep, w.lrs⟩) := by
  obtain ⟨h1, h2, h3, h4, h5, h6, h7, h8, h9, h10, h11, h12, h13⟩ := observe_fields w.sched m ep
  unfold step attempts
  simp only [h3]
  by_cases ha : w.sched.patience < (observe w.sched m ep).numBad
  · rw [if_pos ha, reduceLoop_eq _ _ _ (by rw [h2]; exact h.groups)]
    simp [ha, bind, Except.bind, afterReduction, reduced]
  · rw [if_neg ha]
    simp [ha]

theorem ok_step {w : World} (h : Ok w) (m : Num) (ep : Option Int) :
    Ok (if attempts w.sched m ep then afterReduction (observe w.sched m ep) w.lrs
      else ⟨observe w.sched m ep, w.lrs⟩) := by
  obtain ⟨h1, h2, h3, h4, h5, h6, h7, h8, h9, h10, h11, h12, h13⟩ := observe_fields w.sched m ep
  obtain ⟨g1, g5⟩ := h
  have g5' := (frozen_iff _).1 g5
  split
  · refine ⟨?_, ?_⟩
    · simp [afterReduction, reduced, h2, g1]
    · rw [frozen_iff]
      simpa [afterReduction, reduced, h5, h6, h7, h8, h11, h12, h13] using g5'
  · refine ⟨?_, ?_⟩
    · simpa [h2] using g1
    · rw [frozen_iff]
      simpa [h5, h6, h7, h8, h11, h12, h13] using g5'

theorem run_ok {w : World} (h : Ok w) (es : List (Num × Option Int)) :
    ∃ w', run w es = .ok w' ∧ Ok w' := by
  induction es generalizing w with
  | nil => exact ⟨w, rfl, h⟩
  | cons e es ih =>
    obtain ⟨w', e', h'⟩ := ih (ok_step h e.1 e.2)
    refine ⟨w', ?_, h'⟩
    rw [run, step_eq h]
    exact e'

/-- Settings that no step changes. -/
structure SameSettings (s s' : Sched) : Prop where
  factor : s'.factor = s.factor
  minLrs : s'.minLrs = s.minLrs
  patience : s'.patience = s.patience
  cooldown : s'.cooldown = s.cooldown
  eps : s'.eps = s.eps
  cmpMode : s'.cmpMode = s.cmpMode
  cmpTMode : s'.cmpTMode = s.cmpTMode
  cmpThreshold : s'.cmpThreshold = s.cmpThreshold
  modeWorse : s'.modeWorse = s.modeWorse

theorem SameSettings.refl (s : Sched) : SameSettings s s := ⟨rfl, rfl, rfl, rfl, rfl, rfl, rfl, rfl, rfl⟩

theorem SameSettings.trans {a b c : Sched} (h : SameSettings a b) (h' : SameSettings b c) :
    SameSettings a c :=
  ⟨h'.1.trans h.1, h'.2.trans h.2, h'.3.trans h.3, h'.4.trans h.4, h'.5.trans h.5, h'.6.trans h.6,
    h'.7.trans h.7, h'.8.trans h.8, h'.9.trans h.9⟩

theorem SameSettings.isBetter {a b : Sched} (h : SameSettings a b) (x y : Num) :
    isBetter b x y = isBetter a x y := by
  simp [Scheduler.isBetter, h.cmpMode, h.cmpTMode, h.cmpThreshold]

theorem sameSettings_step (w : World) (m : Num) (ep : Option Int) :
    SameSettings w.sched (if attempts w.sched m ep then afterReduction (observe w.sched m ep) w.lrs
      else ⟨observe w.sched m ep, w.lrs⟩).sched := by
  obtain ⟨h1, h2, h3, h4, h5, h6, h7, h8, h9, h10, h11, h12, h13⟩ := observe_fields w.sched m ep
  split
  · exact ⟨h1, h2, h3, h4, h9, h11, h12, h13, h8⟩
  · exact ⟨h1, h2, h3, h4, h9, h11, h12, h13, h8⟩

theorem sameSettings_run {w w' : World} (h : Ok w) (es : List (Num × Option Int)) (hr : run w es = .ok w') :
    SameSettings w.sched w'.sched := by
  induction es generalizing w with
  | nil => cases hr; exact .refl _
  | cons e es ih =>
    rw [run, step_eq h] at hr
    exact (sameSettings_step w e.1 e.2).trans (ih (ok_step h e.1 e.2) hr)

theorem run_append (w : World) (es fs : List (Num × Option Int)) :
    run w (es ++ fs) = (do run (← run w es) fs) := by
  induction es generalizing w with
  | nil => rfl
  | cons e es ih =>
    rw [List.cons_append, run, run]
    cases step w e.1 e.2 with
    | error err => rfl
    | ok w' => exact ih w'

/-! ## Learning rates -/

theorem newLr_le {factor eps lr m : ℚ} (he : 0 ≤ eps) : newLr factor eps lr m ≤ lr := by
  unfold newLr reduces
  split
  · next h => simp only [decide_eq_true_eq] at h; linarith
  · exact le_refl _

theorem le_newLr {factor eps lr m : ℚ} (h : m ≤ lr) : m ≤ newLr factor eps lr m := by
  unfold newLr
  split
  · exact le_max_right _ _
  · exact h

theorem lrsDown_refl (mins lrs : List ℚ) : LrsDown mins lrs lrs := by
  refine ⟨rfl, ?_⟩
  intro i o n ho hn
  rw [ho] at hn
  cases hn
  exact ⟨le_refl _, fun m _ h => h⟩

theorem LrsDown.trans {mins a b c : List ℚ} (h : LrsDown mins a b) (h' : LrsDown mins b c) :
    LrsDown mins a c := by
  refine ⟨h.1.trans h'.1, ?_⟩
  intro i o n ho hn
  have hi : i < b.length := by rw [← h.1]; exact (List.getElem?_eq_some_iff.1 ho).1
  have hb : b[i]? = some b[i] := List.getElem?_eq_getElem hi
  obtain ⟨h1, h2⟩ := h.2 i o _ ho hb
  obtain ⟨h3, h4⟩ := h'.2 i _ n hb hn
  exact ⟨le_trans h3 h1, fun m hm hmo => h4 m hm (h2 m hm hmo)⟩

theorem lrsDown_zipWith (factor eps : ℚ) (he : 0 ≤ eps) (mins lrs : List ℚ)
    (hl : mins.length = lrs.length) : LrsDown mins lrs (List.zipWith (newLr factor eps) lrs mins) := by
  refine ⟨by simp [hl], ?_⟩
  intro i o n ho hn
  have hi : i < lrs.length := (List.getElem?_eq_some_iff.1 ho).1
  have hm : mins[i]? = some mins[i] := List.getElem?_eq_getElem (by omega)
  rw [List.getElem?_zipWith, ho, hm] at hn
  simp only [Option.some.injEq] at hn
  subst hn
  refine ⟨newLr_le he, ?_⟩
  intro m hm' hmo
  rw [hm] at hm'
  cases hm'
  exact le_newLr hmo

theorem anyPair_eq_true_iff (p : ℚ → ℚ → Bool) (lrs ms : List ℚ) :
    anyPair p lrs ms = true ↔ ∃ (i : Nat) (lr m : ℚ), lrs[i]? = some lr ∧ ms[i]? = some m ∧ p lr m = true := by
  induction lrs generalizing ms with
  | nil => simp [anyPair]
  | cons lr lrs ih =>
    cases ms with
    | nil => simp [anyPair]
    | cons m ms =>
      simp only [anyPair, Bool.or_eq_true, ih]
      constructor
      · rintro (h | ⟨i, a, b, h1, h2, h3⟩)
        · exact ⟨0, lr, m, rfl, rfl, h⟩
        · exact ⟨i + 1, a, b, h1, h2, h3⟩
      · rintro ⟨i, a, b, h1, h2, h3⟩
        cases i with
        | zero => cases h1; cases h2; exact Or.inl h3
        | succ i => exact Or.inr ⟨i, a, b, h1, h2, h3⟩

/-! ## Counting bad epochs -/

def badRec (r : Rec) : Bool := !r.improving && !r.cooling && !r.attempt

def trailing (recs : List Rec) : Nat := (recs.reverse.takeWhile badRec).length

theorem trailing_append (recs : List Rec) (r : Rec) :
    trailing (recs ++ [r]) = if badRec r then trailing recs + 1 else 0 := by
  unfold trailing
  rw [List.reverse_append]
  simp only [List.reverse_cons, List.reverse_nil, List.nil_append, List.cons_append]
  rw [List.takeWhile_cons]
  split <;> simp

theorem le_trailing_iff (recs : List Rec) (n : Nat) :
    n ≤ trailing recs ↔ ∃ earlier last, recs = earlier ++ last ∧ last.length = n ∧
      ∀ r ∈ last, badRec r = true := by
  have key : ∀ (l : List Rec) (n : Nat), n ≤ (l.takeWhile badRec).length ↔
      n ≤ l.length ∧ ∀ r ∈ l.take n, badRec r = true := by
    intro l
    induction l with
    | nil => intro n; simp
    | cons r l ih =>
      intro n
      cases n with
      | zero => simp
      | succ n =>
        rw [List.takeWhile_cons]
        cases hb : badRec r with
        | true => simp [hb, ih]
        | false => simp [hb]
  unfold trailing
  rw [key]
  constructor
  · rintro ⟨h1, h2⟩
    rw [List.length_reverse] at h1
    refine ⟨recs.take (recs.length - n), recs.drop (recs.length - n),
      (List.take_append_drop _ _).symm, by simp; omega, ?_⟩
    intro r hr
    apply h2
    rw [List.take_reverse]
    simpa using hr
  · rintro ⟨earlier, last, rfl, rfl, h⟩
    refine ⟨by simp, ?_⟩
    intro r hr
    rw [List.reverse_append, List.take_append_of_le_length (by simp)] at hr
    apply h
    have := List.mem_of_mem_take hr
    simpa using this

theorem trace_append_single {w w' : World} (es : List (Num × Option Int)) (hr : run w es = .ok w')
    (e : Num × Option Int) : trace w (es ++ [e]) = trace w es ++ [record w'.sched e.1 e.2] := by
  induction es generalizing w with
  | nil =>
    cases hr
    simp only [List.nil_append, trace]
    cases step w' e.1 e.2 <;> simp
  | cons f es ih =>
    rw [run] at hr
    rw [List.cons_append, trace, trace]
    cases hs : step w f.1 f.2 with
    | error err => rw [hs] at hr; cases hr
    | ok w1 =>
      rw [hs] at hr
      simp only [List.cons_append]
      rw [ih hr]

/-- The counter `num_bad_epochs` is the number of trailing bad calls since the last attempt. -/
theorem numBad_eq {w w' : World} (h : Ok w) (h0 : w.sched.numBad = 0)
    (es : List (Num × Option Int)) (hr : run w es = .ok w') :
    w'.sched.numBad = trailing (trace w es) := by
  induction es using List.reverseRecOn generalizing w' with
  | nil => cases hr; simpa [trace, trailing] using h0
  | append_singleton es e ih =>
    obtain ⟨w1, hw1, hok1⟩ := run_ok h es
    rw [trace_append_single es hw1, trailing_append]
    rw [run_append, hw1] at hr
    have hstep : step w1 e.1 e.2 = .ok w' := by
      change run w1 [e] = .ok w' at hr
      rw [run] at hr
      cases hs : step w1 e.1 e.2 with
      | error err => rw [hs] at hr; cases hr
      | ok w2 => rw [hs] at hr; cases hr; rfl
    rw [step_eq hok1] at hstep
    have hih := ih hw1
    by_cases ha : attempts w1.sched e.1 e.2 = true
    · rw [if_pos ha] at hstep
      cases hstep
      simp [ha, afterReduction, badRec, record]
    · rw [if_neg ha] at hstep
      cases hstep
      simp only [Bool.not_eq_true] at ha
      show (observe w1.sched e.1 e.2).numBad = _
      rw [observe_numBad, hih]
      by_cases hc : 0 < w1.sched.cooldownCounter
      · simp [hc, badRec, record]
      · cases hb : isBetter w1.sched e.1 w1.sched.best <;> simp [hc, ha, hb, badRec, record]

/-! ## Constant metrics -/

theorem step_no_attempt {w : World} (h : Ok w) {m : Num} {ep : Option Int}
    (ha : attempts w.sched m ep = false) : step w m ep = .ok ⟨observe w.sched m ep, w.lrs⟩ := by
  rw [step_eq h, ha]; rfl

theorem ok_observe {w : World} (h : Ok w) {m : Num} {ep : Option Int}
    (ha : attempts w.sched m ep = false) : Ok ⟨observe w.sched m ep, w.lrs⟩ := by
  have := ok_step h m ep
  rw [ha] at this
  exact this

theorem sameSettings_observe (s : Sched) (m : Num) (ep : Option Int) :
    SameSettings s (observe s m ep) := by
  obtain ⟨h1, h2, h3, h4, h5, h6, h7, h8, h9, h10, h11, h12, h13⟩ := observe_fields s m ep
  exact ⟨h1, h2, h3, h4, h9, h11, h12, h13, h8⟩

theorem attempts_iff (s : Sched) (m : Num) (ep : Option Int) :
    attempts s m ep = true ↔ s.patience < (observe s m ep).numBad := by
  simp [attempts]

/-- Reaching an attempt: some number of identical calls leads to a call that attempts a reduction, and
nothing else changes until then. -/
def Reaches (m : Num) (w : World) : Prop :=
  ∃ k w', run w (List.replicate k (m, none)) = .ok w' ∧ Ok w' ∧ w'.lrs = w.lrs ∧
    SameSettings w.sched w'.sched ∧ w'.sched.converged = w.sched.converged ∧
    attempts w'.sched m none = true

theorem reaches_now {m : Num} {w : World} (h : Ok w) (ha : attempts w.sched m none = true) :
    Reaches m w := ⟨0, w, rfl, h, rfl, .refl _, rfl, ha⟩

theorem reaches_next {m : Num} {w : World} (h : Ok w) (ha : attempts w.sched m none = false)
    (hr : Reaches m ⟨observe w.sched m none, w.lrs⟩) : Reaches m w := by
  obtain ⟨k, w', h1, h2, h3, h4, h5, h6⟩ := hr
  refine ⟨k + 1, w', ?_, h2, h3, (sameSettings_observe _ _ _).trans h4, h5.trans ?_, h6⟩
  · rw [List.replicate_succ, run, step_no_attempt h ha]
    exact h1
  · exact (observe_fields w.sched m none).2.2.2.2.2.2.2.2.2.1

theorem reaches_settled {m : Num} (d : Nat) : ∀ {w : World}, Ok w → w.sched.cooldownCounter ≤ 0 →
    isBetter w.sched m w.sched.best = false → (w.sched.patience - w.sched.numBad).toNat ≤ d →
    Reaches m w := by
  induction d with
  | zero =>
    intro w h hc hb hd
    apply reaches_now h
    rw [attempts_iff, observe_numBad, if_neg (by omega), hb]
    simp only [Bool.false_eq_true, if_false]
    omega
  | succ d ih =>
    intro w h hc hb hd
    by_cases ha : attempts w.sched m none = true
    · exact reaches_now h ha
    · simp only [Bool.not_eq_true] at ha
      apply reaches_next h ha
      have hn := observe_numBad w.sched m none
      rw [if_neg (by omega), hb] at hn
      simp only [Bool.false_eq_true, if_false] at hn
      apply ih (ok_observe h ha)
      · show (observe w.sched m none).cooldownCounter ≤ 0
        rw [observe_cooldownCounter, if_neg (by omega)]; exact hc
      · show isBetter (observe w.sched m none) m (observe w.sched m none).best = false
        rw [observe_best, hb, (sameSettings_observe w.sched m none).isBetter]
        simpa using hb
      · show ((observe w.sched m none).patience - (observe w.sched m none).numBad).toNat ≤ d
        rw [hn, (sameSettings_observe w.sched m none).patience]
        omega

theorem reaches_warm {m : Num} {w : World} (h : Ok w) (hc : w.sched.cooldownCounter ≤ 0)
    (hmm : isBetter w.sched m m = false) : Reaches m w := by
  cases hb : isBetter w.sched m w.sched.best with
  | false => exact reaches_settled _ h hc hb (le_refl _)
  | true =>
    by_cases ha : attempts w.sched m none = true
    · exact reaches_now h ha
    · simp only [Bool.not_eq_true] at ha
      apply reaches_next h ha
      refine reaches_settled _ (ok_observe h ha) ?_ ?_ (le_refl _)
      · show (observe w.sched m none).cooldownCounter ≤ 0
        rw [observe_cooldownCounter, if_neg (by omega)]; exact hc
      · show isBetter (observe w.sched m none) m (observe w.sched m none).best = false
        rw [observe_best, hb, (sameSettings_observe w.sched m none).isBetter]
        simpa using hmm

theorem reaches {m : Num} (d : Nat) : ∀ {w : World}, Ok w → isBetter w.sched m m = false →
    w.sched.cooldownCounter.toNat ≤ d → Reaches m w := by
  induction d with
  | zero => intro w h hmm hd; exact reaches_warm h (by omega) hmm
  | succ d ih =>
    intro w h hmm hd
    by_cases hc : 0 < w.sched.cooldownCounter
    · by_cases ha : attempts w.sched m none = true
      · exact reaches_now h ha
      · simp only [Bool.not_eq_true] at ha
        apply reaches_next h ha
        apply ih (ok_observe h ha)
        · show isBetter (observe w.sched m none) m m = false
          rw [(sameSettings_observe w.sched m none).isBetter]; exact hmm
        · show (observe w.sched m none).cooldownCounter.toNat ≤ d
          rw [observe_cooldownCounter, if_pos hc]; omega
    · exact reaches_warm h (by omega) hmm

theorem converged_step {w : World} (m : Num) (ep : Option Int) (hc : w.sched.converged = true) :
    (if attempts w.sched m ep then afterReduction (observe w.sched m ep) w.lrs
      else ⟨observe w.sched m ep, w.lrs⟩).sched.converged = true := by
  have := (observe_fields w.sched m ep).2.2.2.2.2.2.2.2.2.1
  split
  · simp [afterReduction, reduced, this, hc]
  · show (observe w.sched m ep).converged = true
    rw [this, hc]

theorem converged_run {w w' : World} (h : Ok w) (es : List (Num × Option Int)) (hr : run w es = .ok w')
    (hc : w.sched.converged = true) : w'.sched.converged = true := by
  induction es generalizing w with
  | nil => cases hr; exact hc
  | cons e es ih =>
    rw [run, step_eq h] at hr
    exact ih (ok_step h e.1 e.2) hr (converged_step e.1 e.2 hc)

end Verif.Scheduler
