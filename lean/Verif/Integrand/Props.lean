import Verif.Integrand.Lemmas
import Mathlib.Algebra.Order.Ring.Rat

/-!
# C37 (RNN mode), C38 (hooks), C57 (norm penalty)

All classes (`Rule`), histories of operations, random numbers, and hooks that may raise exceptions.
-/

set_option linter.unusedSectionVars false

namespace Verif.Integrand
open Verif Verif.TimeParams

variable {T X Par Dot N R H D : Type} [LinearOrder T] [OfNat T 0] [Field N]

/-- A concrete integrand for the examples: numbers as states and parameters, the parameters are the state plus the random
number, the derivatives are products; the hook 99 raises an exception. -/
def demo (analytic : Bool) : Cfg ℤ ℤ ℤ ℤ ℚ ℤ Nat Nat where
  rule := { nState := fun _ => 1, nCostate := fun _ => 1, nData := fun _ => 1, compute := fun r x => .ok (x + r), kinetic := fun p => (p : ℚ) * p
            stateRhs := fun p x => .ok (p * x), dataRhs := fun p x => .ok (p * x), costateRhs := fun p x => .ok (-p * x) }
  hookFails := fun h _ => if h = 99 then some .runtimeError else none
  analytic := analytic
  transpose := false

/-! ## C37 -/

/-- C37: in RNN mode, after a reset and any further operations without a reset, a successful evaluation uses the parameters of the
first evaluation since the reset (which is itself if there was none), for state, data and costate.  What happened before the reset
plays no role. -/
theorem C37_rnn (cfg : Cfg T X Par Dot N R H D) {s : St T Par N H D} (h1 : s.useRnn = true) (h2 : s.external = false)
    (before seg : List (Op T X R Par H D)) (hb : ∀ o ∈ before, Internal o) (hs : ∀ o ∈ seg, Plain o) (t : T) (x : X) (r : R × R) (o : Out Par Dot)
    (ho : (step cfg (after cfg s (before ++ .reset :: seg)) (.eval t x r)).2.result = some (.ok o)) :
    firstParams cfg (seg ++ [.eval t x r]) = some o.params ∧ o.costateParams = o.params := by
  have e : after cfg s (before ++ .reset :: seg) = after cfg (reset (after cfg s before)) seg := by
    rw [after_append]
    rfl
  rw [e] at ho
  obtain ⟨m1, m2⟩ := after_mode cfg s before hb
  have r1 : (reset (after cfg s before)).useRnn = true := m1.trans h1
  have r2 : (reset (after cfg s before)).external = false := m2.trans h2
  have rc : (reset (after cfg s before)).cache = none := by
    unfold reset
    simp [m2.trans h2]
  obtain ⟨n1, n2⟩ := after_mode cfg (reset (after cfg s before)) seg (fun o ho => (hs o ho).internal)
  obtain ⟨a, b⟩ := (forward_rnn cfg t x r (n1.trans r1) (n2.trans r2)).2 o ho
  refine ⟨?_, b⟩
  rw [after_cache cfg r1 r2 seg hs, rc, Option.none_or] at a
  rw [← a]
  unfold firstParams
  rw [List.findSome?_append]
  cases h : ownParams cfg x r <;> simp [List.findSome?, h]

/-- The first evaluation since the reset computes from state 3 (parameters 3 + 0), the second uses the same although its state is 7. -/
example : (step (demo false) (after (demo false) (fresh true 0) ([.eval 0 100 (0, 0)] ++ .reset :: [.eval 0 3 (0, 5), .register 4]))
    (.eval 1 7 (1, 1))).2.result = some (.ok ⟨21, -21, 21, 3, 3⟩) := by rfl

/-- C37: the same for a new integrand that was never reset. -/
theorem C37_rnn_new (cfg : Cfg T X Par Dot N R H D) (i : Nat) (seg : List (Op T X R Par H D)) (hs : ∀ o ∈ seg, Plain o) (t : T) (x : X) (r : R × R)
    (o : Out Par Dot) (ho : (step cfg (after cfg (fresh true i) seg) (.eval t x r)).2.result = some (.ok o)) :
    firstParams cfg (seg ++ [.eval t x r]) = some o.params ∧ o.costateParams = o.params :=
  C37_rnn cfg (s := fresh true i) rfl rfl [] seg (by simp) hs t x r o ho

/-- C37: hence two successful evaluations between the same resets use the same parameters. -/
theorem C37_rnn_same (cfg : Cfg T X Par Dot N R H D) {s : St T Par N H D} (h1 : s.useRnn = true) (h2 : s.external = false)
    (before seg seg' : List (Op T X R Par H D)) (hb : ∀ o ∈ before, Internal o) (hs : ∀ o ∈ seg, Plain o) (hs' : ∀ o ∈ seg', Plain o)
    (t t' : T) (x x' : X) (r r' : R × R) (o o' : Out Par Dot)
    (ho : (step cfg (after cfg s (before ++ .reset :: seg)) (.eval t x r)).2.result = some (.ok o))
    (ho' : (step cfg (after cfg s (before ++ .reset :: (seg ++ .eval t x r :: seg'))) (.eval t' x' r')).2.result = some (.ok o')) :
    o'.params = o.params ∧ o'.costateParams = o.costateParams := by
  obtain ⟨a, b⟩ := C37_rnn cfg h1 h2 before seg hb hs t x r o ho
  have hp : ∀ op ∈ seg ++ .eval t x r :: seg', Plain op := by
    intro op hop
    rcases List.mem_append.1 hop with hop | hop
    · exact hs op hop
    · rcases List.mem_cons.1 hop with rfl | hop
      · trivial
      · exact hs' op hop
  obtain ⟨a', b'⟩ := C37_rnn cfg h1 h2 before (seg ++ .eval t x r :: seg') hb hp t' x' r' o' ho'
  have e : firstParams cfg ((seg ++ .eval t x r :: seg') ++ [.eval t' x' r']) =
      (firstParams cfg (seg ++ [.eval t x r])).or (firstParams cfg (seg' ++ [.eval t' x' r'])) := by
    unfold firstParams
    rw [← List.findSome?_append]
    congr 1
    simp
  rw [e, a, Option.some_or] at a'
  have hpq := (Option.some.inj a').symm
  exact ⟨hpq, by rw [b, b', hpq]⟩

/-- C37: without RNN mode every successful evaluation uses parameters computed from its own state and costate, whatever the history. -/
theorem C37_not_rnn (cfg : Cfg T X Par Dot N R H D) {s : St T Par N H D} (h1 : s.useRnn = false) (ops : List (Op T X R Par H D))
    (hi : ∀ o ∈ ops, Internal o) (t : T) (x : X) (r : R × R) (o : Out Par Dot)
    (ho : (step cfg (after cfg s ops) (.eval t x r)).2.result = some (.ok o)) :
    cfg.rule.compute r.1 x = .ok o.params ∧
      (if cfg.analytic then o.costateParams = o.params else cfg.rule.compute r.2 x = .ok o.costateParams) := by
  have hm := (after_mode cfg s ops hi).1.trans h1
  generalize after cfg s ops = s1 at ho hm
  have hf : (forward cfg.rule cfg.hookFails cfg.analytic cfg.transpose t x r s1).2.2 = .ok o := Option.some.inj ho
  rw [forward_eq] at hf
  split at hf
  · cases hf
  have hg := gradients_ok hf
  have hch : ∀ r, chooseParams cfg.rule t x r s1 = (s1, cfg.rule.compute r x) := fun r => by simp [chooseParams, hm]
  cases ha : cfg.analytic with
  | true =>
    rw [ha] at hg
    simp only [if_true] at hg ⊢
    rcases gradientsAnalytic_cases cfg.rule t x r.1 s1 with ⟨h, _⟩ | ⟨_, ⟨e, _, h⟩ | ⟨p, hp, _, ⟨e, _, h⟩ | ⟨_, hu⟩⟩⟩
    · rw [h] at hg; cases hg
    · rw [h] at hg; cases hg
    · rw [h] at hg; cases hg
    · obtain ⟨a, b, _⟩ := hu o hg
      rw [hch] at hp
      exact ⟨by rw [a]; exact hp, by rw [a, b]⟩
  | false =>
    rw [ha] at hg
    simp only [Bool.false_eq_true, if_false] at hg ⊢
    rcases gradientsAutodiff_cases cfg.rule t x r s1 with ⟨e, _, h⟩ | ⟨p, hp, ⟨e, h⟩ | ⟨_, ds, dd, _, _, h⟩⟩
    · rw [h] at hg; cases hg
    · rw [h] at hg; cases hg
    · rw [h] at hg
      rw [hch] at hp
      obtain ⟨a, _, _, b, _⟩ := (costateAutodiff_spec ..).2 o hg
      have hmode : (updatePenalty cfg.rule t p (chooseParams cfg.rule t x r.1 s1).1).1.useRnn = false := by
        rw [(updatePenalty_same ..).1.useRnn, hch]
        exact hm
      refine ⟨by rw [a]; exact hp, ?_⟩
      simpa [lagrangianParams, hmode] using b

example : (step (demo true) (after (demo true) (fresh false 0) [.eval 0 100 (0, 0)]) (.eval 1 7 (1, 2))).2.result =
    some (.ok ⟨56, -56, 56, 8, 8⟩) := by rfl

/-- C37: the derivatives are computed with those parameters. -/
theorem C37_derivatives (cfg : Cfg T X Par Dot N R H D) (s : St T Par N H D) (t : T) (x : X) (r : R × R) (o : Out Par Dot)
    (ho : (step cfg s (.eval t x r)).2.result = some (.ok o)) :
    cfg.rule.stateRhs o.params x = .ok o.dotState ∧ cfg.rule.dataRhs o.params x = .ok o.dotData ∧
      cfg.rule.costateRhs o.costateParams x = .ok o.dotCostate := by
  have hf : (forward cfg.rule cfg.hookFails cfg.analytic cfg.transpose t x r s).2.2 = .ok o := Option.some.inj ho
  rw [forward_eq] at hf
  split at hf
  · cases hf
  have hg := gradients_ok hf
  cases ha : cfg.analytic with
  | true =>
    rw [ha] at hg
    simp only [if_true] at hg
    rcases gradientsAnalytic_cases cfg.rule t x r.1 s with ⟨h, _⟩ | ⟨_, ⟨e, _, h⟩ | ⟨p, hp, _, ⟨e, _, h⟩ | ⟨_, hu⟩⟩⟩
    · rw [h] at hg; cases hg
    · rw [h] at hg; cases hg
    · rw [h] at hg; cases hg
    · obtain ⟨a, b, c, d, e⟩ := hu o hg
      rw [a, b]
      exact ⟨c, d, e⟩
  | false =>
    rw [ha] at hg
    simp only [Bool.false_eq_true, if_false] at hg
    rcases gradientsAutodiff_cases cfg.rule t x r s with ⟨e, _, h⟩ | ⟨p, hp, ⟨e, h⟩ | ⟨_, ds, dd, hds, hdd, h⟩⟩
    · rw [h] at hg; cases hg
    · rw [h] at hg; cases hg
    · rw [h] at hg
      obtain ⟨a, b, c, _, d⟩ := (costateAutodiff_spec ..).2 o hg
      rw [a, b, c]
      exact ⟨hds, hdd, d⟩

/-- Particle-free modes with automatic differentiation never work: every evaluation with external parameters raises an exception
(`compute_reduced_lagrangian` calls an object that is not callable). -/
theorem C37_external_autodiff_raises (cfg : Cfg T X Par Dot N R H D) (ha : cfg.analytic = false) (s : St T Par N H D) (h1 : s.useRnn = true)
    (h2 : s.external = true) (t : T) (x : X) (r : R × R) :
    ∃ e, (step cfg s (.eval t x r)).2.result = some (.error e) := by
  cases hr : (forward cfg.rule cfg.hookFails cfg.analytic cfg.transpose t x r s).2.2 with
  | error e => exact ⟨e, congrArg some hr⟩
  | ok o =>
    exfalso
    rw [forward_eq] at hr
    split at hr
    · cases hr
    have hg := gradients_ok hr
    rw [ha] at hg
    simp only [Bool.false_eq_true, if_false] at hg
    rcases gradientsAutodiff_cases cfg.rule t x r s with ⟨e, _, h⟩ | ⟨p, hp, ⟨e, h⟩ | ⟨_, ds, dd, _, _, h⟩⟩
    · rw [h] at hg; cases hg
    · rw [h] at hg; cases hg
    · rw [h] at hg
      obtain ⟨_, _, _, b, _⟩ := (costateAutodiff_spec ..).2 o hg
      have hs := (chooseParams_same cfg.rule t x r.1 s).trans (updatePenalty_same cfg.rule t p (chooseParams cfg.rule t x r.1 s).1).1
      have e1 := hs.useRnn.trans h1
      have e2 := hs.external.trans h2
      revert b
      unfold lagrangianParams
      rw [if_pos e1, if_pos e2]
      split <;> intro b <;> cases b

/-- ... with a concrete one: valid parameters for every time, and a `TypeError`. -/
example : ((step (demo false) (setExternal (⟨0, 1, [0], [5]⟩, ⟨0, 0⟩) (fresh false 0)) (.eval 0 7 (1, 2))).2.result : Option (Py (Out ℤ ℤ))) =
    some (.error .typeError) := by rfl

/-- C37: with the hand-written formulas and external parameters, a successful evaluation uses the parameters the external function
returns for its time. -/
theorem C37_external_analytic (cfg : Cfg T X Par Dot N R H D) (ha : cfg.analytic = true) (s : St T Par N H D) (h1 : s.useRnn = true)
    (h2 : s.external = true) {tb : Table T Par} {c : Cache T} (hfn : s.func = some (tb, c)) (t : T) (x : X) (r : R × R) (o : Out Par Dot)
    (ho : (step cfg s (.eval t x r)).2.result = some (.ok o)) :
    ∃ c', getAt tb c t = .ok (o.params, c') ∧ o.costateParams = o.params ∧ (step cfg s (.eval t x r)).1.func = some (tb, c') := by
  have hf : (forward cfg.rule cfg.hookFails cfg.analytic cfg.transpose t x r s).2.2 = .ok o := Option.some.inj ho
  have hst : (step cfg s (.eval t x r)).1 = (forward cfg.rule cfg.hookFails cfg.analytic cfg.transpose t x r s).1 := rfl
  rw [hst]
  rw [forward_eq] at hf ⊢
  split at hf
  · cases hf
  rename_i hn
  rw [if_neg hn]
  have hg := gradients_ok hf
  have hs1 : (gradients cfg.rule cfg.hookFails cfg.analytic t x r s).1 = (gradientsAnalytic cfg.rule t x r.1 s).1 := by
    rw [gradients_eq, ha]
    rfl
  rw [hs1]
  rw [ha] at hg
  simp only [if_true] at hg
  rcases gradientsAnalytic_cases cfg.rule t x r.1 s with ⟨h, _⟩ | ⟨_, ⟨e, _, h⟩ | ⟨p, hp, h, ⟨e, _, h'⟩ | ⟨_, hu⟩⟩⟩
  · rw [h] at hg; cases hg
  · rw [h] at hg; cases hg
  · rw [h'] at hg; cases hg
  · obtain ⟨a, b, _⟩ := hu o hg
    have hch : ∃ c', getAt tb c t = .ok (p, c') ∧ (chooseParams cfg.rule t x r.1 s).1.func = some (tb, c') := by
      revert hp
      unfold chooseParams
      simp only [h1, h2, if_true, hfn]
      rcases getAt tb c t with e | ⟨p', c'⟩
      · intro hp; cases hp
      · intro hp
        cases hp
        exact ⟨c', rfl, rfl⟩
    obtain ⟨c', k1, k2⟩ := hch
    refine ⟨c', by rw [a]; exact k1, by rw [a, b], ?_⟩
    rw [h, (updatePenalty_same ..).2.2, k2]

example : ((step (demo true) (setExternal (⟨0, 1, [0], [5]⟩, ⟨0, 0⟩) (fresh false 0)) (.eval 0 7 (1, 2))).2.result : Option (Py (Out ℤ ℤ))) =
    some (.ok ⟨35, -35, 35, 5, 5⟩) := by rfl

/-- The option `transpose_state_when_forward` makes every evaluation raise a `KeyError` (there is always a block of data). -/
theorem C37_transpose_raises (cfg : Cfg T X Par Dot N R H D) (ht : cfg.transpose = true) (s : St T Par N H D) (t : T) (x : X) (r : R × R)
    (hx : cfg.rule.nData x ≠ 0) : (step cfg s (.eval t x r)).2.result = some (.error .keyError) := by
  show some (forward cfg.rule cfg.hookFails cfg.analytic cfg.transpose t x r s).2.2 = _
  rw [forward_eq, if_pos ⟨ht, .inr (.inr hx)⟩]

/-! ## C38 -/

theorem hooks_after (cfg : Cfg T X Par Dot N R H D) (b : Bool) (i : Nat) (ops : List (Op T X R Par H D)) :
    (after cfg (fresh b i) ops).hooks.map Prod.snd = activeHooks ops := by
  have h := hookInv_after cfg (s := (fresh b i : St T Par N H D)) (sl := []) ⟨rfl, List.nodup_nil, by simp [fresh], rfl⟩ ops
  rw [h.hooks, table_map_snd h.length]
  rfl

/-- C38: a successful evaluation calls every active hook exactly once, in the order of registration, with the time and input of this
evaluation, the derivatives and parameters it returns and the custom data set last. -/
theorem C38_calls (cfg : Cfg T X Par Dot N R H D) (b : Bool) (i : Nat) (ops : List (Op T X R Par H D)) (t : T) (x : X) (r : R × R) (o : Out Par Dot)
    (ho : (step cfg (after cfg (fresh b i) ops) (.eval t x r)).2.result = some (.ok o)) :
    (step cfg (after cfg (fresh b i) ops) (.eval t x r)).2.calls =
      (activeHooks ops).map fun h => (h, ⟨t, x, o.dotState, o.dotCostate, o.dotData, o.params, lastCustom ops⟩) := by
  have hh := hooks_after cfg b i ops
  have hc : (after cfg (fresh b i) ops).custom = lastCustom ops := after_custom cfg (fresh b i) ops
  generalize after cfg (fresh b i) ops = s at ho hh hc ⊢
  have hf : (forward cfg.rule cfg.hookFails cfg.analytic cfg.transpose t x r s).2.2 = .ok o := Option.some.inj ho
  show (forward cfg.rule cfg.hookFails cfg.analytic cfg.transpose t x r s).2.1 = _
  rw [forward_eq] at hf ⊢
  split at hf
  · cases hf
  rename_i hn
  rw [if_neg hn]
  have hsame := gradients_same cfg.rule cfg.hookFails cfg.analytic t x r s
  rw [gradients_eq] at hf hsame ⊢
  dsimp only at hf hsame ⊢
  generalize (if cfg.analytic then gradientsAnalytic cfg.rule t x r.1 s else gradientsAutodiff cfg.rule t x r s) = g at hf hsame ⊢
  rcases g with ⟨s', e | o'⟩
  · cases hf
  · dsimp only at hf hsame ⊢
    rw [hsame.hooks, hsame.custom, hh, hc] at hf ⊢
    have hspec := runHooks_spec cfg.hookFails ⟨t, x, o'.dotState, o'.dotCostate, o'.dotData, o'.params, lastCustom ops⟩ (activeHooks ops)
    generalize runHooks cfg.hookFails _ _ = c at hf hspec ⊢
    rcases c with ⟨cs, e | u⟩
    · cases hf
    · cases hf
      exact (hspec.2.1 rfl).1

/-- Three registrations (one by another module in between), the first handle removed: hooks 20 and 10 are called, in this order. -/
example : ((step (demo false) (after (demo false) (fresh false 5) [.register 10, .otherId, .register 20, .register 10, .remove 0, .setCustom 8])
    (.eval 0 7 (1, 1))).2.calls.map fun c => (c.1, c.2.params, c.2.custom)) = [(20, 8, some 8), (10, 8, some 8)] := by rfl

/-- C38, exceptions: an evaluation whose computation raises calls no hook; if a hook raises, exactly the active hooks before
it and the hook itself have been called, and the evaluation raises that exception. -/
theorem C38_calls_error (cfg : Cfg T X Par Dot N R H D) (b : Bool) (i : Nat) (ops : List (Op T X R Par H D)) (t : T) (x : X) (r : R × R) (e : Err)
    (ho : (step cfg (after cfg (fresh b i) ops) (.eval t x r)).2.result = some (.error e)) :
    (step cfg (after cfg (fresh b i) ops) (.eval t x r)).2.calls = [] ∨
      ∃ (a : Args T X Par Dot D) (pre : List H) (h : H) (post : List H), activeHooks ops = pre ++ h :: post ∧
        (∀ g ∈ pre, cfg.hookFails g a = none) ∧ cfg.hookFails h a = some e ∧
        (step cfg (after cfg (fresh b i) ops) (.eval t x r)).2.calls = (pre ++ [h]).map fun g => (g, a) := by
  have hh := hooks_after cfg b i ops
  generalize after cfg (fresh b i) ops = s at ho hh ⊢
  have hf : (forward cfg.rule cfg.hookFails cfg.analytic cfg.transpose t x r s).2.2 = .error e := Option.some.inj ho
  show (forward cfg.rule cfg.hookFails cfg.analytic cfg.transpose t x r s).2.1 = _ ∨
    ∃ (a : Args T X Par Dot D) (pre : List H) (h : H) (post : List H), _ ∧ _ ∧ _ ∧
      (forward cfg.rule cfg.hookFails cfg.analytic cfg.transpose t x r s).2.1 = _
  rw [forward_eq] at hf ⊢
  split at hf
  · rename_i hn
    rw [if_pos hn]
    exact .inl rfl
  rename_i hn
  rw [if_neg hn]
  have hsame := gradients_same cfg.rule cfg.hookFails cfg.analytic t x r s
  rw [gradients_eq] at hf hsame ⊢
  dsimp only at hf hsame ⊢
  generalize (if cfg.analytic then gradientsAnalytic cfg.rule t x r.1 s else gradientsAutodiff cfg.rule t x r s) = g at hf hsame ⊢
  rcases g with ⟨s', e' | o'⟩
  · exact .inl rfl
  · right
    dsimp only at hf hsame ⊢
    rw [hsame.hooks, hh] at hf ⊢
    refine ⟨⟨t, x, o'.dotState, o'.dotCostate, o'.dotData, o'.params, s'.custom⟩, ?_⟩
    have hspec := (runHooks_spec cfg.hookFails ⟨t, x, o'.dotState, o'.dotCostate, o'.dotData, o'.params, s'.custom⟩ (activeHooks ops)).2.2
    generalize runHooks cfg.hookFails _ _ = c at hf hspec ⊢
    rcases c with ⟨cs, e' | u⟩
    · cases hf
      exact hspec e rfl
    · cases hf

example : ((step (demo false) (after (demo false) (fresh false 5) [.register 10, .register 99, .register 20]) (.eval 0 7 (1, 1))).2.calls.map
    fun c => c.1) = [10, 99] := by rfl

/-- C38: removing one hook does not affect the others: the active hooks are those of the other registrations, in the same order. -/
theorem C38_remove (ops : List (Op T X R Par H D)) (k : Nat) :
    slots (ops ++ [.remove k]) = (slots ops).set k none ∧
      activeHooks (ops ++ [.remove k]) = ((slots ops).take k).filterMap id ++ ((slots ops).drop (k + 1)).filterMap id := by
  have h : slots (ops ++ [.remove k]) = (slots ops).set k none := by
    unfold slots
    rw [List.foldl_append]
    rfl
  refine ⟨h, ?_⟩
  unfold activeHooks
  rw [h]
  clear h
  generalize slots ops = l
  induction l generalizing k with
  | nil => simp
  | cons o l ih =>
    cases k with
    | zero => simp
    | succ k =>
      cases o with
      | none => simpa using ih k
      | some h => simpa using ih k

/-- C38: a new hook is called after all the others; registrations elsewhere, evaluations and resets do not matter. -/
theorem C38_register (ops : List (Op T X R Par H D)) (h : H) (t : T) (x : X) (r : R × R) :
    activeHooks (ops ++ [.register h]) = activeHooks ops ++ [h] ∧ activeHooks (ops ++ [.otherId]) = activeHooks ops ∧
      activeHooks (ops ++ [.eval t x r]) = activeHooks ops ∧ activeHooks (ops ++ [.reset]) = activeHooks ops := by
  unfold activeHooks slots
  simp [List.foldl_append]

/-- C38: the handles given out are all different. -/
theorem C38_handles_differ (cfg : Cfg T X Par Dot N R H D) (b : Bool) (i : Nat) (ops : List (Op T X R Par H D)) :
    (after cfg (fresh b i : St T Par N H D) ops).handles.Nodup :=
  (hookInv_after cfg (s := (fresh b i : St T Par N H D)) (sl := []) ⟨rfl, List.nodup_nil, by simp [fresh], rfl⟩ ops).nodup

/-- The integrand with all hooks removed. -/
def noHooks (s : St T Par N H D) : St T Par N H D := { s with hooks := [] }

/-- C38: hooks only watch: an evaluation leaves the same state and, if no hook raises, has the same result as without any hook. -/
theorem C38_hooks_only_watch (cfg : Cfg T X Par Dot N R H D) (s : St T Par N H D) (t : T) (x : X) (r : R × R) :
    (step cfg s (.eval t x r)).1 = { (step cfg (noHooks s) (.eval t x r)).1 with hooks := s.hooks } ∧
      ((∀ h a, cfg.hookFails h a = none) →
        (step cfg s (.eval t x r)).2.result = (step cfg (noHooks s) (.eval t x r)).2.result) := by
  have hch : ∀ (r : R), chooseParams cfg.rule t x r (noHooks s) =
      (noHooks (chooseParams cfg.rule t x r s).1, (chooseParams cfg.rule t x r s).2) := by
    intro r
    unfold chooseParams noHooks
    dsimp only
    repeat' split
    all_goals simp_all
  have hup : ∀ (p : Par) (s : St T Par N H D), updatePenalty cfg.rule t p (noHooks s) =
      (noHooks (updatePenalty cfg.rule t p s).1, (updatePenalty cfg.rule t p s).2) := by
    intro p s
    unfold updatePenalty noHooks
    dsimp only
    repeat' split
    all_goals simp_all
  have hla : ∀ (r : R) (s : St T Par N H D), lagrangianParams cfg.rule x r (noHooks s) =
      (noHooks (lagrangianParams cfg.rule x r s).1, (lagrangianParams cfg.rule x r s).2) := by
    intro r s
    unfold lagrangianParams noHooks
    dsimp only
    repeat' split
    all_goals simp_all
  have han : gradientsAnalytic cfg.rule t x r.1 (noHooks s) =
      (noHooks (gradientsAnalytic cfg.rule t x r.1 s).1, (gradientsAnalytic cfg.rule t x r.1 s).2) := by
    unfold gradientsAnalytic
    split
    · rfl
    · rw [hch]
      rcases chooseParams cfg.rule t x r.1 s with ⟨s1, e | p⟩
      · rfl
      · dsimp only
        rw [hup]
        rcases updatePenalty cfg.rule t p s1 with ⟨s2, e | u⟩ <;> rfl
  have hau : gradientsAutodiff cfg.rule t x r (noHooks s) =
      (noHooks (gradientsAutodiff cfg.rule t x r s).1, (gradientsAutodiff cfg.rule t x r s).2) := by
    unfold gradientsAutodiff
    rw [hch]
    rcases chooseParams cfg.rule t x r.1 s with ⟨s1, e | p⟩
    · rfl
    · dsimp only
      rw [hup]
      rcases updatePenalty cfg.rule t p s1 with ⟨s2, e | u⟩
      · rfl
      · dsimp only
        rcases cfg.rule.stateRhs p x with e | ds <;> rcases cfg.rule.dataRhs p x with e | dd <;> try rfl
        dsimp only
        unfold costateAutodiff
        rw [hla]
        rcases lagrangianParams cfg.rule x r.2 s2 with ⟨s3, e | pc⟩ <;> rfl
  have hg : (if cfg.analytic then gradientsAnalytic cfg.rule t x r.1 (noHooks s) else gradientsAutodiff cfg.rule t x r (noHooks s)) =
      (noHooks (if cfg.analytic then gradientsAnalytic cfg.rule t x r.1 s else gradientsAutodiff cfg.rule t x r s).1,
        (if cfg.analytic then gradientsAnalytic cfg.rule t x r.1 s else gradientsAutodiff cfg.rule t x r s).2) := by
    cases cfg.analytic
    · exact hau
    · exact han
  have hsame := gradients_same cfg.rule cfg.hookFails cfg.analytic t x r s
  have hs1 : ∀ s' : St T Par N H D, (step cfg s' (.eval t x r)).1 = (forward cfg.rule cfg.hookFails cfg.analytic cfg.transpose t x r s').1 := fun _ => rfl
  have hs2 : ∀ s' : St T Par N H D, (step cfg s' (.eval t x r)).2.result = some (forward cfg.rule cfg.hookFails cfg.analytic cfg.transpose t x r s').2.2 :=
    fun _ => rfl
  rw [hs1, hs1, hs2, hs2, forward_eq, forward_eq]
  split
  · exact ⟨rfl, fun _ => rfl⟩
  · rw [gradients_eq] at hsame
    rw [gradients_eq, gradients_eq]
    dsimp only at hsame ⊢
    rw [hg]
    generalize (if cfg.analytic then gradientsAnalytic cfg.rule t x r.1 s else gradientsAutodiff cfg.rule t x r s) = g at hsame ⊢
    refine ⟨?_, fun hno => ?_⟩
    · dsimp only
      rw [← hsame.hooks]
      rfl
    · rcases g with ⟨s', e | o⟩
      · rfl
      · dsimp only
        have hok : ∀ a (l : List H), (runHooks cfg.hookFails a l).2 = .ok () := by
          intro a l
          induction l with
          | nil => rfl
          | cons h l ih =>
            unfold runHooks
            rw [hno]
            exact ih
        rw [hok, hok]

/-! ## C57: the norm penalty -/

/-- Operations that leave the norm penalty alone: everything except resets and evaluations at time 0. -/
def NotAtZero : Op T X R Par H D → Prop
  | .reset => False
  | .eval t _ _ => t ≠ 0
  | _ => True

theorem penalty_eval (cfg : Cfg T X Par Dot N R H D) (s : St T Par N H D) (t : T) (x : X) (r : R × R) :
    (t ≠ 0 → (step cfg s (.eval t x r)).1.penalty = s.penalty) ∧
      (t = 0 → s.external = false → ∀ o, (step cfg s (.eval t x r)).2.result = some (.ok o) →
        (step cfg s (.eval t x r)).1.penalty = some (cfg.rule.kinetic o.params)) := by
  have hs1 : (step cfg s (.eval t x r)).1 = (forward cfg.rule cfg.hookFails cfg.analytic cfg.transpose t x r s).1 := rfl
  have hs2 : (step cfg s (.eval t x r)).2.result = some (forward cfg.rule cfg.hookFails cfg.analytic cfg.transpose t x r s).2.2 := rfl
  rw [hs1, hs2, forward_eq]
  split
  · exact ⟨fun _ => rfl, fun _ _ o ho => by cases ho⟩
  have hst : (gradients cfg.rule cfg.hookFails cfg.analytic t x r s).1 =
      (if cfg.analytic then gradientsAnalytic cfg.rule t x r.1 s else gradientsAutodiff cfg.rule t x r s).1 := by
    rw [gradients_eq]
  have key : (t ≠ 0 → (if cfg.analytic then gradientsAnalytic cfg.rule t x r.1 s else gradientsAutodiff cfg.rule t x r s).1.penalty = s.penalty) ∧
      (t = 0 → s.external = false → ∀ o, (if cfg.analytic then gradientsAnalytic cfg.rule t x r.1 s else gradientsAutodiff cfg.rule t x r s).2 = .ok o →
        (if cfg.analytic then gradientsAnalytic cfg.rule t x r.1 s else gradientsAutodiff cfg.rule t x r s).1.penalty =
          some (cfg.rule.kinetic o.params)) := by
    have hu1 : t ≠ 0 → ∀ p (s' : St T Par N H D), (updatePenalty cfg.rule t p s').1.penalty = s'.penalty := by
      intro ht p s'
      simp [updatePenalty, ht]
    have hu2 : t = 0 → ∀ p (s' : St T Par N H D), s'.external = false → (updatePenalty cfg.rule t p s').1.penalty = some (cfg.rule.kinetic p) := by
      intro ht p s' he
      simp [updatePenalty, ht, he]
    cases cfg.analytic with
    | true =>
      simp only [if_true]
      rcases gradientsAnalytic_cases cfg.rule t x r.1 s with ⟨h, _⟩ | ⟨_, ⟨e, _, h⟩ | ⟨p, hp, h, hrest⟩⟩
      · rw [h]
        exact ⟨fun _ => rfl, fun _ _ o ho => by cases ho⟩
      · rw [h]
        exact ⟨fun _ => chooseParams_penalty .., fun _ _ o ho => by cases ho⟩
      · rw [h]
        refine ⟨fun ht => (hu1 ht _ _).trans (chooseParams_penalty ..), fun ht he o ho => ?_⟩
        rcases hrest with ⟨e, _, h'⟩ | ⟨_, hu⟩
        · rw [h'] at ho; cases ho
        · rw [(hu o ho).1]
          exact hu2 ht p _ ((chooseParams_same ..).external.trans he)
    | false =>
      simp only [Bool.false_eq_true, if_false]
      rcases gradientsAutodiff_cases cfg.rule t x r s with ⟨e, _, h⟩ | ⟨p, hp, ⟨e, h⟩ | ⟨_, ds, dd, _, _, h⟩⟩
      · rw [h]
        exact ⟨fun _ => chooseParams_penalty .., fun _ _ o ho => by cases ho⟩
      · rw [h]
        exact ⟨fun ht => (hu1 ht _ _).trans (chooseParams_penalty ..), fun _ _ o ho => by cases ho⟩
      · obtain ⟨k1, k2⟩ := costateAutodiff_spec cfg.rule x r.2 p ds dd (updatePenalty cfg.rule t p (chooseParams cfg.rule t x r.1 s).1).1
        rw [h, k1, (lagrangianParams_penalty ..).1]
        refine ⟨fun ht => (hu1 ht _ _).trans (chooseParams_penalty ..), fun ht he o ho => ?_⟩
        rw [(k2 o ho).1]
        exact hu2 ht p _ ((chooseParams_same ..).external.trans he)
  refine ⟨fun ht => by rw [hst]; exact key.1 ht, fun ht he o ho => by rw [hst]; exact key.2 ht he o (gradients_ok (Option.some.inj ho))⟩

theorem penalty_after (cfg : Cfg T X Par Dot N R H D) (s : St T Par N H D) (ops : List (Op T X R Par H D)) (h : ∀ o ∈ ops, NotAtZero o) :
    (after cfg s ops).penalty = s.penalty := by
  induction ops generalizing s with
  | nil => rfl
  | cons op ops ih =>
    show (after cfg (step cfg s op).1 ops).penalty = _
    rw [ih _ fun o ho => h o (List.mem_cons_of_mem _ ho)]
    have hp := h op (by simp)
    cases op with
    | eval t x r => exact (penalty_eval cfg s t x r).1 hp
    | remove k => exact (remove_cache k s).2.1
    | reset => exact hp.elim
    | setExternal f => rfl
    | register h => rfl
    | setCustom d => rfl
    | otherId => rfl

/-- C57: the norm penalty is the kinetic energy of the parameters used by the last successful evaluation at time 0, as long as there is no
reset and no other evaluation at time 0 afterwards. -/
theorem C57_last_at_zero (cfg : Cfg T X Par Dot N R H D) {s : St T Par N H D} (he : s.external = false) (before post : List (Op T X R Par H D))
    (hb : ∀ o ∈ before, Internal o) (hp : ∀ o ∈ post, NotAtZero o) (x : X) (r : R × R) (o : Out Par Dot)
    (ho : (step cfg (after cfg s before) (.eval 0 x r)).2.result = some (.ok o)) :
    (after cfg s (before ++ .eval 0 x r :: post)).penalty = some (cfg.rule.kinetic o.params) := by
  rw [after_append]
  show (after cfg (step cfg (after cfg s before) (.eval 0 x r)).1 post).penalty = _
  rw [penalty_after cfg _ post hp]
  exact (penalty_eval cfg _ 0 x r).2 rfl ((after_mode cfg s before hb).2.trans he) o ho

example : (after (demo false) (fresh false 0) [.eval 0 3 (0, 0), .eval 1 4 (0, 0), .eval 2 9 (0, 0)]).penalty = some 9 := by
  have := C57_last_at_zero (demo false) (s := fresh false 0) rfl [] [.eval 1 4 (0, 0), .eval 2 9 (0, 0)] (by simp)
    (by simp [NotAtZero]) 3 (0, 0) ⟨9, -9, 9, 3, 3⟩ (by rfl)
  refine this.trans ?_
  norm_num [demo]

/-- C57: if the integration does not start at time 0, no norm penalty is available after it. -/
theorem C57_none (cfg : Cfg T X Par Dot N R H D) (s : St T Par N H D) (before post : List (Op T X R Par H D)) (hp : ∀ o ∈ post, NotAtZero o) :
    (after cfg s (before ++ .reset :: post)).penalty = none := by
  rw [after_append]
  show (after cfg (reset (after cfg s before)) post).penalty = _
  rw [penalty_after cfg _ post hp]
  rfl

/-- C57: in RNN mode several evaluations at time 0 (as adjoint integrators make them) all lead to the same penalty. -/
theorem C57_rnn (cfg : Cfg T X Par Dot N R H D) {s : St T Par N H D} (h1 : s.useRnn = true) (h2 : s.external = false)
    (before seg post : List (Op T X R Par H D)) (hb : ∀ o ∈ before, Internal o) (hs : ∀ o ∈ seg, Plain o) (hp : ∀ o ∈ post, NotAtZero o)
    (x : X) (r : R × R) (o : Out Par Dot)
    (ho : (step cfg (after cfg s (before ++ .reset :: seg)) (.eval 0 x r)).2.result = some (.ok o)) :
    (after cfg s ((before ++ .reset :: seg) ++ .eval 0 x r :: post)).penalty =
      (firstParams cfg (seg ++ [.eval 0 x r])).map cfg.rule.kinetic := by
  have hi : ∀ o ∈ before ++ .reset :: seg, Internal o := by
    intro op hop
    rcases List.mem_append.1 hop with hop | hop
    · exact hb op hop
    · rcases List.mem_cons.1 hop with rfl | hop
      · trivial
      · exact (hs op hop).internal
  rw [C57_last_at_zero cfg h2 _ post hi hp x r o ho, (C37_rnn cfg h1 h2 before seg hb hs 0 x r o ho).1]
  rfl

/-- C57: with external parameters the penalty is the mean of the kinetic energies of all external parameter sets. -/
theorem C57_external (cfg : Cfg T X Par Dot N R H D) (ha : cfg.analytic = true) (s : St T Par N H D) (h1 : s.useRnn = true)
    (h2 : s.external = true) {tb : Table T Par} {c : Cache T} (hfn : s.func = some (tb, c)) (x : X) (r : R × R) (o : Out Par Dot)
    (ho : (step cfg s (.eval 0 x r)).2.result = some (.ok o)) :
    (step cfg s (.eval 0 x r)).1.penalty = some ((tb.params.map cfg.rule.kinetic).sum / (tb.params.length : N)) := by
  have hs1 : (step cfg s (.eval 0 x r)).1 = (forward cfg.rule cfg.hookFails cfg.analytic cfg.transpose 0 x r s).1 := rfl
  have hf : (forward cfg.rule cfg.hookFails cfg.analytic cfg.transpose 0 x r s).2.2 = .ok o := Option.some.inj ho
  rw [hs1]
  rw [forward_eq] at hf ⊢
  split at hf
  · cases hf
  rename_i hn
  rw [if_neg hn]
  have hg := gradients_ok hf
  have hst : (gradients cfg.rule cfg.hookFails cfg.analytic 0 x r s).1 = (gradientsAnalytic cfg.rule 0 x r.1 s).1 := by
    rw [gradients_eq, ha]
    rfl
  rw [hst]
  rw [ha] at hg
  simp only [if_true] at hg
  rcases gradientsAnalytic_cases cfg.rule 0 x r.1 s with ⟨h, _⟩ | ⟨_, ⟨e, _, h⟩ | ⟨p, hp, h, hrest⟩⟩
  · rw [h] at hg; cases hg
  · rw [h] at hg; cases hg
  · rw [h]
    have hch : ∃ c', (chooseParams cfg.rule 0 x r.1 s).1.func = some (tb, c') := by
      revert hp
      unfold chooseParams
      simp only [h1, h2, if_true, hfn]
      rcases getAt tb c 0 with e | ⟨p', c'⟩
      · intro hp; cases hp
      · intro hp
        exact ⟨c', rfl⟩
    obtain ⟨c', hc'⟩ := hch
    have he : (chooseParams cfg.rule 0 x r.1 s).1.external = true := (chooseParams_same ..).external.trans h2
    unfold updatePenalty
    simp only [if_true, he, hc']

example : (step (demo true) (setExternal (⟨0, 2, [0, 1], [3, 5]⟩, ⟨0, 0⟩) (fresh false 0)) (.eval 0 7 (1, 2))).1.penalty = some 17 := by
  refine (C57_external (demo true) rfl _ rfl rfl rfl 7 (1, 2) ⟨21, -21, 21, 3, 3⟩ (by rfl)).trans ?_
  norm_num [demo]

end Verif.Integrand
