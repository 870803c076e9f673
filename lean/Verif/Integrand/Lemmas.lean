import Verif.Integrand.Spec

set_option linter.unusedSectionVars false

namespace Verif.Integrand
open Verif Verif.TimeParams

variable {T X Par Dot N R H D : Type} [LinearOrder T] [OfNat T 0] [Field N]

/-- Attributes an evaluation never changes. -/
structure Same (s s' : St T Par N H D) : Prop where
  useRnn : s'.useRnn = s.useRnn
  external : s'.external = s.external
  hooks : s'.hooks = s.hooks
  nextId : s'.nextId = s.nextId
  handles : s'.handles = s.handles
  custom : s'.custom = s.custom

theorem Same.refl (s : St T Par N H D) : Same s s := ⟨rfl, rfl, rfl, rfl, rfl, rfl⟩
theorem Same.trans {s s' s'' : St T Par N H D} (h : Same s s') (h' : Same s' s'') : Same s s'' :=
  ⟨h'.1.trans h.1, h'.2.trans h.2, h'.3.trans h.3, h'.4.trans h.4, h'.5.trans h.5, h'.6.trans h.6⟩

theorem chooseParams_same (rule : Rule X Par Dot N R) (t : T) (x : X) (r : R) (s : St T Par N H D) :
    Same s (chooseParams rule t x r s).1 := by
  unfold chooseParams
  repeat' split
  all_goals exact ⟨rfl, rfl, rfl, rfl, rfl, rfl⟩

theorem lagrangianParams_same (rule : Rule X Par Dot N R) (x : X) (r : R) (s : St T Par N H D) :
    Same s (lagrangianParams rule x r s).1 := by
  unfold lagrangianParams
  repeat' split
  all_goals exact ⟨rfl, rfl, rfl, rfl, rfl, rfl⟩

theorem updatePenalty_same (rule : Rule X Par Dot N R) (t : T) (p : Par) (s : St T Par N H D) :
    Same s (updatePenalty rule t p s).1 ∧ (updatePenalty rule t p s).1.cache = s.cache ∧ (updatePenalty rule t p s).1.func = s.func := by
  unfold updatePenalty
  repeat' split
  all_goals exact ⟨⟨rfl, rfl, rfl, rfl, rfl, rfl⟩, rfl, rfl⟩

/-! ## RNN mode, internal parameters -/

/-- In RNN mode with internal parameters: the cache after choosing parameters and the result. -/
theorem chooseParams_rnn (rule : Rule X Par Dot N R) (t : T) (x : X) (r : R) {s : St T Par N H D} (h1 : s.useRnn = true)
    (h2 : s.external = false) :
    (chooseParams rule t x r s).1.cache = s.cache.or (rule.compute r x).toOption ∧
      (chooseParams rule t x r s).1.penalty = s.penalty ∧
      ∀ p, (chooseParams rule t x r s).2 = .ok p → s.cache.or (rule.compute r x).toOption = some p := by
  unfold chooseParams
  cases hc : s.cache with
  | some p => simp [h1, h2, hc]
  | none =>
    cases hr : rule.compute r x with
    | error e => simp [h1, h2, hc, Except.toOption]
    | ok p => simp [h1, h2, Except.toOption]

theorem chooseParams_rnn_error (rule : Rule X Par Dot N R) (t : T) (x : X) (r : R) {s : St T Par N H D} (h1 : s.useRnn = true)
    (h2 : s.external = false) {e : Err} (he : (chooseParams rule t x r s).2 = .error e) :
    s.cache.or (rule.compute r x).toOption = none := by
  revert he
  unfold chooseParams
  cases hc : s.cache with
  | some p => simp [h1, h2]
  | none =>
    cases hr : rule.compute r x with
    | error e => simp [h1, h2, Except.toOption]
    | ok p => simp [h1, h2]

theorem lagrangianParams_cached (rule : Rule X Par Dot N R) (x : X) (r : R) {s : St T Par N H D} (h1 : s.useRnn = true)
    (h2 : s.external = false) {p : Par} (hc : s.cache = some p) : lagrangianParams rule x r s = (s, .ok p) := by
  simp [lagrangianParams, h1, h2, hc]

/-! ## One evaluation -/

/-- What `gradients` can be: the result of the gradient computation with hooks run on success. -/
theorem gradients_eq (rule : Rule X Par Dot N R) (hf : H → Args T X Par Dot D → Option Err) (an : Bool) (t : T) (x : X) (r : R × R)
    (s : St T Par N H D) :
    let g := if an then gradientsAnalytic rule t x r.1 s else gradientsAutodiff rule t x r s
    gradients rule hf an t x r s = (g.1, match g.2 with
      | .error e => ([], .error e)
      | .ok o => let c := runHooks hf ⟨t, x, o.dotState, o.dotCostate, o.dotData, o.params, g.1.custom⟩ (g.1.hooks.map Prod.snd)
        (c.1, c.2.map fun _ => o)) := by
  intro g
  unfold gradients
  have : (if an then gradientsAnalytic rule t x r.1 s else gradientsAutodiff rule t x r s) = g := rfl
  rw [this]
  rcases g with ⟨s', e | o⟩
  · rfl
  · dsimp only
    generalize runHooks hf _ _ = c
    rcases c with ⟨cs, e | u⟩ <;> rfl

/-- Properties of the gradient computation that hold in both modes. -/
theorem gradientsAnalytic_cases (rule : Rule X Par Dot N R) (t : T) (x : X) (r : R) (s : St T Par N H D) :
    (gradientsAnalytic rule t x r s = (s, .error .valueError) ∧ (rule.nState x ≠ 1 ∨ rule.nCostate x ≠ 1)) ∨
    ((rule.nState x = 1 ∧ rule.nCostate x = 1) ∧ ((∃ e, (chooseParams rule t x r s).2 = .error e ∧
        gradientsAnalytic rule t x r s = ((chooseParams rule t x r s).1, .error e)) ∨
      ∃ p, (chooseParams rule t x r s).2 = .ok p ∧
        (gradientsAnalytic rule t x r s).1 = (updatePenalty rule t p (chooseParams rule t x r s).1).1 ∧
        ((∃ e, (updatePenalty rule t p (chooseParams rule t x r s).1).2 = .error e ∧ (gradientsAnalytic rule t x r s).2 = .error e) ∨
          ((updatePenalty rule t p (chooseParams rule t x r s).1).2 = .ok () ∧
        ∀ o, (gradientsAnalytic rule t x r s).2 = .ok o → o.params = p ∧ o.costateParams = p ∧ rule.stateRhs p x = .ok o.dotState ∧
          rule.dataRhs p x = .ok o.dotData ∧ rule.costateRhs p x = .ok o.dotCostate)))) := by
  unfold gradientsAnalytic
  by_cases hn : rule.nState x ≠ 1 ∨ rule.nCostate x ≠ 1
  · left
    rw [if_pos hn]
    exact ⟨rfl, hn⟩
  · right
    rw [if_neg hn]
    refine ⟨by tauto, ?_⟩
    rcases hc : chooseParams rule t x r s with ⟨s1, e | p⟩
    · exact .inl ⟨e, rfl, rfl⟩
    · right
      refine ⟨p, rfl, ?_⟩
      dsimp only
      rcases hu : updatePenalty rule t p s1 with ⟨s2, e | u⟩
      · exact ⟨rfl, .inl ⟨e, rfl, rfl⟩⟩
      · refine ⟨rfl, .inr ⟨rfl, ?_⟩⟩
        intro o ho
        dsimp only at ho
        rcases h1 : rule.stateRhs p x with e | ds
        · rw [h1] at ho; cases ho
        rcases h2 : rule.dataRhs p x with e | dd
        · rw [h1, h2] at ho; cases ho
        rcases h3 : rule.costateRhs p x with e | dc
        · rw [h1, h2, h3] at ho; cases ho
        rw [h1, h2, h3] at ho
        cases ho
        exact ⟨rfl, rfl, rfl, rfl, rfl⟩

theorem gradientsAutodiff_cases (rule : Rule X Par Dot N R) (t : T) (x : X) (r : R × R) (s : St T Par N H D) :
    (∃ e, (chooseParams rule t x r.1 s).2 = .error e ∧
        gradientsAutodiff rule t x r s = ((chooseParams rule t x r.1 s).1, .error e)) ∨
      ∃ p, (chooseParams rule t x r.1 s).2 = .ok p ∧
        let s2 := (updatePenalty rule t p (chooseParams rule t x r.1 s).1)
        ((∃ e, gradientsAutodiff rule t x r s = (s2.1, .error e)) ∨
          (s2.2 = .ok () ∧ ∃ ds dd, rule.stateRhs p x = .ok ds ∧ rule.dataRhs p x = .ok dd ∧
            gradientsAutodiff rule t x r s = costateAutodiff rule x r.2 p ds dd s2.1)) := by
  unfold gradientsAutodiff
  rcases hc : chooseParams rule t x r.1 s with ⟨s1, e | p⟩
  · exact .inl ⟨e, rfl, rfl⟩
  · right
    refine ⟨p, rfl, ?_⟩
    dsimp only
    rcases hu : updatePenalty rule t p s1 with ⟨s2, e | u⟩
    · exact .inl ⟨e, rfl⟩
    · dsimp only
      rcases h1 : rule.stateRhs p x with e | ds
      · exact .inl ⟨e, rfl⟩
      rcases h2 : rule.dataRhs p x with e | dd
      · exact .inl ⟨e, rfl⟩
      exact .inr ⟨rfl, ds, dd, rfl, rfl, rfl⟩

theorem costateAutodiff_spec (rule : Rule X Par Dot N R) (x : X) (r : R) (p : Par) (ds dd : Dot) (s : St T Par N H D) :
    (costateAutodiff rule x r p ds dd s).1 = (lagrangianParams rule x r s).1 ∧
      ∀ o, (costateAutodiff rule x r p ds dd s).2 = .ok o → o.params = p ∧ o.dotState = ds ∧ o.dotData = dd ∧
        (lagrangianParams rule x r s).2 = .ok o.costateParams ∧ rule.costateRhs o.costateParams x = .ok o.dotCostate := by
  unfold costateAutodiff
  rcases h : lagrangianParams rule x r s with ⟨s1, e | pc⟩
  · exact ⟨rfl, fun o ho => by cases ho⟩
  · refine ⟨rfl, fun o ho => ?_⟩
    dsimp only at ho
    rcases h3 : rule.costateRhs pc x with e | dc
    · rw [h3] at ho; cases ho
    rw [h3] at ho
    cases ho
    exact ⟨rfl, rfl, rfl, rfl, h3⟩

theorem lagrangianParams_penalty (rule : Rule X Par Dot N R) (x : X) (r : R) (s : St T Par N H D) :
    (lagrangianParams rule x r s).1.penalty = s.penalty ∧ (lagrangianParams rule x r s).1.func = s.func := by
  unfold lagrangianParams
  repeat' split
  all_goals exact ⟨rfl, rfl⟩

theorem chooseParams_penalty (rule : Rule X Par Dot N R) (t : T) (x : X) (r : R) (s : St T Par N H D) :
    (chooseParams rule t x r s).1.penalty = s.penalty := by
  unfold chooseParams
  repeat' split
  all_goals rfl

theorem gradients_same (rule : Rule X Par Dot N R) (hf : H → Args T X Par Dot D → Option Err) (an : Bool) (t : T) (x : X) (r : R × R)
    (s : St T Par N H D) : Same s (gradients rule hf an t x r s).1 := by
  rw [gradients_eq]
  cases an with
  | true =>
    show Same s (gradientsAnalytic rule t x r.1 s).1
    rcases gradientsAnalytic_cases rule t x r.1 s with ⟨h, _⟩ | ⟨_, ⟨e, _, h⟩ | ⟨p, _, h, _⟩⟩
    · rw [h]; exact Same.refl s
    · rw [h]; exact chooseParams_same ..
    · rw [h]; exact (chooseParams_same ..).trans (updatePenalty_same ..).1
  | false =>
    show Same s (gradientsAutodiff rule t x r s).1
    rcases gradientsAutodiff_cases rule t x r s with ⟨e, _, h⟩ | ⟨p, _, ⟨e, h⟩ | ⟨_, ds, dd, _, _, h⟩⟩
    · rw [h]; exact chooseParams_same ..
    · rw [h]; exact (chooseParams_same ..).trans (updatePenalty_same ..).1
    · rw [h, (costateAutodiff_spec ..).1]
      exact ((chooseParams_same ..).trans (updatePenalty_same ..).1).trans (lagrangianParams_same ..)

theorem forward_same (rule : Rule X Par Dot N R) (hf : H → Args T X Par Dot D → Option Err) (an tr : Bool) (t : T) (x : X) (r : R × R)
    (s : St T Par N H D) : Same s (forward rule hf an tr t x r s).1 := by
  unfold forward
  split
  · split
    · exact Same.refl s
    · exact gradients_same ..
  · exact gradients_same ..

theorem transpose_ok {rule : Rule X Par Dot N R} {x : X} :
    (do transposeDicts (rule.nState x); transposeDicts (rule.nCostate x); transposeDicts (rule.nData x) : Py Unit) =
      if rule.nState x ≠ 0 ∨ rule.nCostate x ≠ 0 ∨ rule.nData x ≠ 0 then .error .keyError else .ok () := by
  unfold transposeDicts
  by_cases h1 : rule.nState x = 0 <;> by_cases h2 : rule.nCostate x = 0 <;> by_cases h3 : rule.nData x = 0 <;>
    simp [h1, h2, h3, bind, Except.bind]

theorem forward_eq (cfg : Cfg T X Par Dot N R H D) (t : T) (x : X) (r : R × R) (s : St T Par N H D) :
    forward cfg.rule cfg.hookFails cfg.analytic cfg.transpose t x r s =
      if cfg.transpose = true ∧ (cfg.rule.nState x ≠ 0 ∨ cfg.rule.nCostate x ≠ 0 ∨ cfg.rule.nData x ≠ 0) then (s, [], .error .keyError)
      else gradients cfg.rule cfg.hookFails cfg.analytic t x r s := by
  unfold forward
  rw [transpose_ok]
  by_cases h1 : cfg.transpose = true
  · by_cases h2 : cfg.rule.nState x ≠ 0 ∨ cfg.rule.nCostate x ≠ 0 ∨ cfg.rule.nData x ≠ 0
    · simp [h1, h2]
    · rw [if_pos h1, if_neg h2, if_neg (by tauto)]
  · rw [if_neg h1, if_neg (by tauto)]

/-- A successful `gradients` comes from a successful gradient computation. -/
theorem gradients_ok {rule : Rule X Par Dot N R} {hf : H → Args T X Par Dot D → Option Err} {an : Bool} {t : T} {x : X} {r : R × R}
    {s : St T Par N H D} {o : Out Par Dot} (h : (gradients rule hf an t x r s).2.2 = .ok o) :
    (if an then gradientsAnalytic rule t x r.1 s else gradientsAutodiff rule t x r s).2 = .ok o := by
  rw [gradients_eq] at h
  dsimp only at h
  generalize (if an then gradientsAnalytic rule t x r.1 s else gradientsAutodiff rule t x r s) = g at h ⊢
  rcases g with ⟨s', e | o'⟩
  · cases h
  · dsimp only at h ⊢
    generalize runHooks hf _ _ = c at h
    rcases c with ⟨cs, e | u⟩
    · cases h
    · exact h

/-- One evaluation in RNN mode with internal parameters. -/
theorem forward_rnn (cfg : Cfg T X Par Dot N R H D) (t : T) (x : X) (r : R × R) {s : St T Par N H D} (h1 : s.useRnn = true)
    (h2 : s.external = false) :
    (step cfg s (.eval t x r)).1.cache = s.cache.or (ownParams cfg x r) ∧
      ∀ o, (step cfg s (.eval t x r)).2.result = some (.ok o) →
        s.cache.or (ownParams cfg x r) = some o.params ∧ o.costateParams = o.params := by
  unfold step
  dsimp only
  rw [forward_eq]
  unfold ownParams
  split
  · simp
  · have hg : (gradients cfg.rule cfg.hookFails cfg.analytic t x r s).1 =
        (if cfg.analytic then gradientsAnalytic cfg.rule t x r.1 s else gradientsAutodiff cfg.rule t x r s).1 := by
      rw [gradients_eq]
    suffices hs : (if cfg.analytic then gradientsAnalytic cfg.rule t x r.1 s else gradientsAutodiff cfg.rule t x r s).1.cache =
          s.cache.or (if cfg.analytic = true ∧ (cfg.rule.nState x ≠ 1 ∨ cfg.rule.nCostate x ≠ 1) then none
            else (cfg.rule.compute r.1 x).toOption) ∧
        ∀ o, (if cfg.analytic then gradientsAnalytic cfg.rule t x r.1 s else gradientsAutodiff cfg.rule t x r s).2 = .ok o →
          s.cache.or (if cfg.analytic = true ∧ (cfg.rule.nState x ≠ 1 ∨ cfg.rule.nCostate x ≠ 1) then none
            else (cfg.rule.compute r.1 x).toOption) = some o.params ∧ o.costateParams = o.params by
      refine ⟨by rw [hg]; exact hs.1, fun o ho => hs.2 o (gradients_ok (Option.some.inj ho))⟩
    obtain ⟨c1, c2, c3⟩ := chooseParams_rnn cfg.rule t x r.1 h1 h2
    cases cfg.analytic with
    | true =>
      simp only [if_true, true_and]
      rcases gradientsAnalytic_cases cfg.rule t x r.1 s with ⟨h, hn⟩ | ⟨hn, ⟨e, he, h⟩ | ⟨p, hp, h, hu⟩⟩
      · rw [h, if_pos hn]
        simp
      · rw [h, if_neg (by omega), c1]
        exact ⟨rfl, fun o ho => by cases ho⟩
      · rw [h, if_neg (by omega), (updatePenalty_same ..).2.1, c1]
        refine ⟨rfl, fun o ho => ?_⟩
        rcases hu with ⟨e, _, he⟩ | ⟨_, hu⟩
        · rw [he] at ho; cases ho
        · obtain ⟨a, b, _⟩ := hu o ho
          rw [a, b]
          exact ⟨c3 p hp, rfl⟩
    | false =>
      simp only [Bool.false_eq_true, if_false, false_and]
      rcases gradientsAutodiff_cases cfg.rule t x r s with ⟨e, he, h⟩ | ⟨p, hp, ⟨e, h⟩ | ⟨hu, ds, dd, _, _, h⟩⟩
      · rw [h, c1]
        exact ⟨rfl, fun o ho => by cases ho⟩
      · rw [h, (updatePenalty_same ..).2.1, c1]
        exact ⟨rfl, fun o ho => by cases ho⟩
      · have hcp : s.cache.or (cfg.rule.compute r.1 x).toOption = some p := c3 p hp
        have hcache : (updatePenalty cfg.rule t p (chooseParams cfg.rule t x r.1 s).1).1.cache = some p := by
          rw [(updatePenalty_same ..).2.1, c1, hcp]
        have hs2 := (chooseParams_same cfg.rule t x r.1 s).trans (updatePenalty_same cfg.rule t p (chooseParams cfg.rule t x r.1 s).1).1
        have hl := lagrangianParams_cached cfg.rule x r.2 (hs2.useRnn.trans h1) (hs2.external.trans h2) hcache
        obtain ⟨k1, k2⟩ := costateAutodiff_spec cfg.rule x r.2 p ds dd (updatePenalty cfg.rule t p (chooseParams cfg.rule t x r.1 s).1).1
        rw [h, k1, hl, hcp]
        refine ⟨hcache, fun o ho => ?_⟩
        obtain ⟨a, _, _, b, _⟩ := k2 o ho
        rw [hl] at b
        cases b
        exact ⟨by rw [a], a.symm⟩

/-- Operations other than evaluations, resets and handing over do not touch cache and mode. -/
theorem step_mode (cfg : Cfg T X Par Dot N R H D) (s : St T Par N H D) (op : Op T X R Par H D) (h : Internal op) :
    (step cfg s op).1.useRnn = s.useRnn ∧ (step cfg s op).1.external = s.external := by
  cases op with
  | eval t x r => exact ⟨(forward_same ..).useRnn, (forward_same ..).external⟩
  | setExternal f => exact h.elim
  | remove k =>
    show (remove k s).useRnn = s.useRnn ∧ (remove k s).external = s.external
    unfold remove
    split <;> exact ⟨rfl, rfl⟩
  | reset => exact ⟨rfl, rfl⟩
  | register h => exact ⟨rfl, rfl⟩
  | setCustom d => exact ⟨rfl, rfl⟩
  | otherId => exact ⟨rfl, rfl⟩

theorem after_mode (cfg : Cfg T X Par Dot N R H D) (s : St T Par N H D) (ops : List (Op T X R Par H D)) (h : ∀ o ∈ ops, Internal o) :
    (after cfg s ops).useRnn = s.useRnn ∧ (after cfg s ops).external = s.external := by
  induction ops generalizing s with
  | nil => exact ⟨rfl, rfl⟩
  | cons op ops ih =>
    have h1 := step_mode cfg s op (h op (by simp))
    have h2 := ih (step cfg s op).1 (fun o ho => h o (List.mem_cons_of_mem _ ho))
    exact ⟨h2.1.trans h1.1, h2.2.trans h1.2⟩

theorem Plain.internal {op : Op T X R Par H D} (h : Plain op) : Internal op := by
  cases op <;> simp_all [Plain, Internal]

theorem remove_cache (k : Nat) (s : St T Par N H D) : (remove k s).cache = s.cache ∧ (remove k s).penalty = s.penalty
    ∧ (remove k s).custom = s.custom := by
  unfold remove
  split <;> exact ⟨rfl, rfl, rfl⟩

/-- The cache after a history without reset in RNN mode. -/
theorem after_cache (cfg : Cfg T X Par Dot N R H D) {s : St T Par N H D} (h1 : s.useRnn = true) (h2 : s.external = false)
    (ops : List (Op T X R Par H D)) (h : ∀ o ∈ ops, Plain o) : (after cfg s ops).cache = s.cache.or (firstParams cfg ops) := by
  induction ops generalizing s with
  | nil => simp [after, firstParams]
  | cons op ops ih =>
    have hm := step_mode cfg s op (h op (by simp)).internal
    have := ih (s := (step cfg s op).1) (hm.1.trans h1) (hm.2.trans h2) (fun o ho => h o (List.mem_cons_of_mem _ ho))
    show (after cfg (step cfg s op).1 ops).cache = _
    rw [this]
    have hp := h op (by simp)
    cases op with
    | eval t x r =>
      rw [(forward_rnn cfg t x r h1 h2).1]
      cases hc : s.cache with
      | some p => simp
      | none =>
        cases ho : ownParams cfg x r with
        | some p => simp [firstParams, List.findSome?, ho]
        | none => simp [firstParams, List.findSome?, ho]
    | remove k =>
      show (remove k s).cache.or _ = _
      rw [(remove_cache k s).1]
      rfl
    | reset => exact hp.elim
    | setExternal f => exact hp.elim
    | register h => rfl
    | setCustom d => rfl
    | otherId => rfl

theorem after_append (cfg : Cfg T X Par Dot N R H D) (s : St T Par N H D) (a b : List (Op T X R Par H D)) :
    after cfg s (a ++ b) = after cfg (after cfg s a) b := by
  simp [after, List.foldl_append]

/-! ## Hooks -/

theorem runHooks_spec (hf : H → Args T X Par Dot D → Option Err) (a : Args T X Par Dot D) (hs : List H) :
    (runHooks hf a hs).1 <+: hs.map (fun h => (h, a)) ∧
      ((runHooks hf a hs).2 = .ok () → (runHooks hf a hs).1 = hs.map (fun h => (h, a)) ∧ ∀ h ∈ hs, hf h a = none) ∧
      (∀ e, (runHooks hf a hs).2 = .error e → ∃ pre h post, hs = pre ++ h :: post ∧ (∀ g ∈ pre, hf g a = none) ∧ hf h a = some e ∧
        (runHooks hf a hs).1 = (pre ++ [h]).map fun h => (h, a)) := by
  induction hs with
  | nil => exact ⟨List.prefix_refl _, fun _ => ⟨rfl, by simp⟩, fun e he => by cases he⟩
  | cons h hs ih =>
    unfold runHooks
    cases hh : hf h a with
    | some e =>
      refine ⟨by simp [List.cons_prefix_cons], fun hc => (by cases hc), fun e' he => ?_⟩
      cases he
      exact ⟨[], h, hs, rfl, by simp, hh, rfl⟩
    | none =>
      obtain ⟨i1, i2, i3⟩ := ih
      dsimp only
      refine ⟨by simpa [List.cons_prefix_cons] using i1, fun hc => ?_, fun e he => ?_⟩
      · obtain ⟨j1, j2⟩ := i2 hc
        refine ⟨by rw [j1]; rfl, fun g hg => ?_⟩
        rcases List.mem_cons.1 hg with rfl | hg
        · exact hh
        · exact j2 g hg
      · obtain ⟨pre, g, post, e1, e2, e3, e4⟩ := i3 e he
        refine ⟨h :: pre, g, post, by rw [e1]; rfl, fun k hk => ?_, e3, by rw [e4]; rfl⟩
        rcases List.mem_cons.1 hk with rfl | hk
        · exact hh
        · exact e2 k hk

/-- The dictionary belonging to handles and slots. -/
def table (handles : List Nat) (sl : List (Option H)) : PDict Nat H :=
  (handles.zip sl).filterMap fun p => p.2.map fun h => (p.1, h)

structure HookInv (s : St T Par N H D) (sl : List (Option H)) : Prop where
  length : s.handles.length = sl.length
  nodup : s.handles.Nodup
  bound : ∀ i ∈ s.handles, i < s.nextId
  hooks : s.hooks = table s.handles sl

theorem keys_table {handles : List Nat} {sl : List (Option H)} {i : Nat} (h : i ∈ PDict.keys (table handles sl)) : i ∈ handles := by
  simp only [PDict.keys, table, List.mem_map, List.mem_filterMap] at h
  obtain ⟨⟨i', h'⟩, ⟨⟨j, o⟩, hm, he⟩, rfl⟩ := h
  cases o with
  | none => cases he
  | some g =>
    simp only [Option.map_some, Option.some.injEq, Prod.mk.injEq] at he
    rw [← he.1]
    exact (List.of_mem_zip hm).1

theorem set_new {d : PDict Nat H} {i : Nat} (h : i ∉ PDict.keys d) (v : H) : d.set i v = d ++ [(i, v)] := by
  induction d with
  | nil => rfl
  | cons p d ih =>
    simp only [PDict.keys_cons, List.mem_cons, not_or] at h
    rw [PDict.set, if_neg (Ne.symm h.1), ih h.2]
    rfl

theorem table_append {hs : List Nat} {sl : List (Option H)} (hl : hs.length = sl.length) (i : Nat) (h : H) :
    table (hs ++ [i]) (sl ++ [some h]) = table hs sl ++ [(i, h)] := by
  simp [table, List.zip_append hl]

theorem table_set {hs : List Nat} {sl : List (Option H)} (hn : hs.Nodup) {k i : Nat} (hi : hs[k]? = some i) :
    (table hs sl).filter (fun p => p.1 ≠ i) = table hs (sl.set k none) := by
  induction hs generalizing k sl with
  | nil => simp at hi
  | cons j hs ih =>
    cases sl with
    | nil => rfl
    | cons o sl =>
      rw [List.nodup_cons] at hn
      cases k with
      | zero =>
        simp only [List.getElem?_cons_zero, Option.some.injEq] at hi
        subst hi
        have hrest : (table hs sl).filter (fun p => p.1 ≠ j) = table hs sl := by
          rw [List.filter_eq_self]
          intro p hp
          have : p.1 ∈ hs := keys_table (List.mem_map.2 ⟨p, hp, rfl⟩)
          have hne : p.1 ≠ j := fun e => hn.1 (e ▸ this)
          simpa using hne
        have e1 : table (j :: hs) (o :: sl) = (o.map fun h => (j, h)).toList ++ table hs sl := by
          cases o <;> rfl
        have e2 : table (j :: hs) ((o :: sl).set 0 none) = table hs sl := rfl
        rw [e1, e2, List.filter_append, hrest]
        cases o <;> simp
      | succ k =>
        simp only [List.getElem?_cons_succ] at hi
        have hne : j ≠ i := by
          rintro rfl
          exact hn.1 (List.mem_of_getElem? hi)
        have e1 : ∀ l, table (j :: hs) (o :: l) = (o.map fun h => (j, h)).toList ++ table hs l := by
          intro l
          cases o <;> rfl
        rw [List.set_cons_succ, e1, e1, List.filter_append, ih hn.2 hi]
        cases o <;> simp [hne]

theorem HookInv.step (cfg : Cfg T X Par Dot N R H D) {s : St T Par N H D} {sl : List (Option H)} (h : HookInv s sl) (op : Op T X R Par H D) :
    HookInv (step cfg s op).1 (match op with
      | .register h => sl ++ [some h]
      | .remove k => sl.set k none
      | _ => sl) := by
  cases op with
  | eval t x r =>
    have hs : Same s (Integrand.step cfg s (.eval t x r)).1 := forward_same ..
    exact ⟨by rw [hs.handles]; exact h.1, by rw [hs.handles]; exact h.2, by rw [hs.handles, hs.nextId]; exact h.3,
      by rw [hs.hooks, hs.handles]; exact h.4⟩
  | reset => exact ⟨h.1, h.2, h.3, h.4⟩
  | setExternal f => exact ⟨h.1, h.2, h.3, h.4⟩
  | setCustom d => exact ⟨h.1, h.2, h.3, h.4⟩
  | otherId => exact ⟨h.1, h.2, fun i hi => Nat.lt_succ_of_lt (h.3 i hi), h.4⟩
  | register g =>
    have hnew : s.nextId ∉ s.handles := fun hc => Nat.lt_irrefl _ (h.3 _ hc)
    refine ⟨?_, ?_, ?_, ?_⟩
    · show (s.handles ++ [s.nextId]).length = _
      simp [h.1]
    · show (s.handles ++ [s.nextId]).Nodup
      rw [List.nodup_append]
      exact ⟨h.2, by simp, fun a ha b hb => by
        rw [List.mem_singleton] at hb
        subst hb
        exact fun e => hnew (e ▸ ha)⟩
    · intro i hi
      rcases List.mem_append.1 hi with hi | hi
      · exact Nat.lt_succ_of_lt (h.3 i hi)
      · rw [List.mem_singleton] at hi
        subst hi
        exact Nat.lt_succ_self _
    · show s.hooks.set s.nextId g = table (s.handles ++ [s.nextId]) (sl ++ [some g])
      rw [table_append h.1, ← h.4, set_new]
      rw [h.4]
      exact fun hc => hnew (keys_table hc)
  | remove k =>
    show HookInv (remove k s) (sl.set k none)
    unfold remove
    cases hk : s.handles[k]? with
    | none =>
      have : sl.set k none = sl := List.set_eq_of_length_le (by rw [← h.1]; exact List.getElem?_eq_none_iff.1 hk)
      rw [this]
      exact h
    | some i => exact ⟨by simp [h.1], h.2, h.3, by
        show s.hooks.filter _ = _
        rw [h.4]
        exact table_set h.2 hk⟩

theorem hookInv_after (cfg : Cfg T X Par Dot N R H D) {s : St T Par N H D} {sl : List (Option H)} (h : HookInv s sl) (ops : List (Op T X R Par H D)) :
    HookInv (after cfg s ops) (ops.foldl (fun l o => match o with
      | .register h => l ++ [some h]
      | .remove k => l.set k none
      | _ => l) sl) := by
  induction ops generalizing s sl with
  | nil => exact h
  | cons op ops ih => exact ih (h.step cfg op)

theorem table_map_snd {hs : List Nat} {sl : List (Option H)} (hl : hs.length = sl.length) : (table hs sl).map Prod.snd = sl.filterMap id := by
  induction hs generalizing sl with
  | nil =>
    cases sl with
    | nil => rfl
    | cons o sl => simp at hl
  | cons j hs ih =>
    cases sl with
    | nil => simp at hl
    | cons o sl =>
      have := ih (sl := sl) (by simpa using hl)
      cases o with
      | none => exact this
      | some h => simpa [table] using this

theorem after_custom (cfg : Cfg T X Par Dot N R H D) (s : St T Par N H D) (ops : List (Op T X R Par H D)) :
    (after cfg s ops).custom = ops.foldl (fun d o => match o with
      | .setCustom d' => some d'
      | _ => d) s.custom := by
  induction ops generalizing s with
  | nil => rfl
  | cons op ops ih =>
    show (after cfg (step cfg s op).1 ops).custom = _
    rw [ih]
    cases op with
    | eval t x r => rw [show (step cfg s (.eval t x r)).1.custom = s.custom from (forward_same ..).custom]; rfl
    | remove k => rw [show (step cfg s (.remove k)).1.custom = s.custom from (remove_cache k s).2.2]; rfl
    | reset => rfl
    | setExternal f => rfl
    | register h => rfl
    | setCustom d => rfl
    | otherId => rfl

end Verif.Integrand
