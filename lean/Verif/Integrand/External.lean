import Verif.Integrand.Props
import Verif.TimeParams.Lemmas

set_option linter.unusedSectionVars false

/-!
# C37, C57: histories in which the parameters were handed over to an external function
-/

namespace Verif.Integrand
open Verif Verif.TimeParams

variable {T X Par Dot N R H D : Type} [LinearOrder T] [OfNat T 0] [Field N]

/-- The external function is still the one with table `tb`, and has a legal cache if it had one. -/
def Holds (tb : Table T Par) (s : St T Par N H D) : Prop := ∃ c, s.func = some (tb, c) ∧ (TableOk tb → CacheOk tb c)

theorem chooseParams_holds (rule : Rule X Par Dot N R) (t : T) (x : X) (r : R) {s : St T Par N H D} {tb : Table T Par} (h : Holds tb s) :
    Holds tb (chooseParams rule t x r s).1 := by
  obtain ⟨c, hc, hok⟩ := h
  unfold chooseParams
  rw [hc]
  rcases hg : getAt tb c t with e | ⟨p, c'⟩
  · repeat' split
    all_goals first
      | exact ⟨c, hc, hok⟩
      | exact ⟨c, rfl, hok⟩
      | (exfalso; simp_all)
  · have hok' : TableOk tb → CacheOk tb c' := by
      intro ht
      obtain ⟨p1, c1, h1, _, h2, _⟩ := getAt_eq ht (hok ht) t
      rw [hg] at h1
      cases h1
      exact h2
    repeat' split
    all_goals first
      | exact ⟨c, hc, hok⟩
      | exact ⟨c, rfl, hok⟩
      | (rename_i h1; exact ⟨c', by simp_all, hok'⟩)

theorem lagrangianParams_func (rule : Rule X Par Dot N R) (x : X) (r : R) (s : St T Par N H D) :
    (lagrangianParams rule x r s).1.func = s.func := by
  unfold lagrangianParams
  repeat' split
  all_goals rfl

theorem step_holds (cfg : Cfg T X Par Dot N R H D) (op : Op T X R Par H D) (ho : Internal op) {s : St T Par N H D} {tb : Table T Par}
    (h : Holds tb s) : Holds tb (step cfg s op).1 := by
  cases op with
  | setExternal f => exact ho.elim
  | remove k =>
    show Holds tb (remove k s)
    unfold remove
    split <;> exact h
  | reset => exact h
  | register g => exact h
  | setCustom d => exact h
  | otherId => exact h
  | eval t x r =>
    have hc : Holds tb (chooseParams cfg.rule t x r.1 s).1 := chooseParams_holds cfg.rule t x r.1 h
    have hp : ∀ p, Holds tb (updatePenalty cfg.rule t p (chooseParams cfg.rule t x r.1 s).1).1 := fun p => by
      obtain ⟨c, h1, h2⟩ := hc
      exact ⟨c, (updatePenalty_same ..).2.2.trans h1, h2⟩
    show Holds tb (forward cfg.rule cfg.hookFails cfg.analytic cfg.transpose t x r s).1
    rw [forward_eq]
    split
    · exact h
    rw [gradients_eq]
    dsimp only
    cases cfg.analytic with
    | true =>
      show Holds tb (gradientsAnalytic cfg.rule t x r.1 s).1
      rcases gradientsAnalytic_cases cfg.rule t x r.1 s with ⟨e, _⟩ | ⟨_, ⟨_, _, e⟩ | ⟨p, _, e, _⟩⟩
      · rw [e]; exact h
      · rw [e]; exact hc
      · rw [e]; exact hp p
    | false =>
      show Holds tb (gradientsAutodiff cfg.rule t x r s).1
      rcases gradientsAutodiff_cases cfg.rule t x r s with ⟨_, _, e⟩ | ⟨p, _, ⟨_, e⟩ | ⟨_, ds, dd, _, _, e⟩⟩
      · rw [e]; exact hc
      · rw [e]; exact hp p
      · rw [e, (costateAutodiff_spec ..).1]
        obtain ⟨c, h1, h2⟩ := hp p
        exact ⟨c, (lagrangianParams_func ..).trans h1, h2⟩

theorem after_holds (cfg : Cfg T X Par Dot N R H D) (ops : List (Op T X R Par H D)) (ho : ∀ o ∈ ops, Internal o) {s : St T Par N H D}
    {tb : Table T Par} (h : Holds tb s) : Holds tb (after cfg s ops) := by
  induction ops generalizing s with
  | nil => exact h
  | cons op ops ih => exact ih (fun o hm => ho o (List.mem_cons_of_mem _ hm)) (step_holds cfg op (ho op (by simp)) h)

theorem after_external (cfg : Cfg T X Par Dot N R H D) (s : St T Par N H D) (before later : List (Op T X R Par H D))
    (hl : ∀ o ∈ later, Internal o) (tb : Table T Par) (c : Cache T) (hc : TableOk tb → CacheOk tb c) :
    (after cfg s (before ++ .setExternal (tb, c) :: later)).useRnn = true ∧
      (after cfg s (before ++ .setExternal (tb, c) :: later)).external = true ∧
      Holds tb (after cfg s (before ++ .setExternal (tb, c) :: later)) := by
  have e : after cfg s (before ++ .setExternal (tb, c) :: later) =
      after cfg (step cfg (after cfg s before) (.setExternal (tb, c))).1 later := by
    unfold after
    rw [List.foldl_append, List.foldl_cons]
  rw [e]
  obtain ⟨h1, h2⟩ := after_mode cfg (step cfg (after cfg s before) (.setExternal (tb, c))).1 later hl
  exact ⟨h1.trans rfl, h2.trans rfl, after_holds cfg later hl ⟨c, rfl, hc⟩⟩

/-- C37: once the parameters of an integrand with hand-written formulas were handed over to an external function, every later
successful evaluation, in every history without another handing over, uses one of the parameter sets of that function and the same
one for state and costate; parameters computed from state and costate, or cached ones, are never used.  Resets do not change this. -/
theorem C37_handed_over (cfg : Cfg T X Par Dot N R H D) (ha : cfg.analytic = true) (s : St T Par N H D)
    (before later : List (Op T X R Par H D)) (hl : ∀ o ∈ later, Internal o) (tb : Table T Par) (c : Cache T) (ht : TableOk tb)
    (hc : CacheOk tb c) (t : T) (x : X) (r : R × R) (o : Out Par Dot)
    (ho : (step cfg (after cfg s (before ++ .setExternal (tb, c) :: later)) (.eval t x r)).2.result = some (.ok o)) :
    o.params ∈ tb.params ∧ o.costateParams = o.params := by
  obtain ⟨h1, h2, c1, h3, h4⟩ := after_external cfg s before later hl tb c (fun _ => hc)
  obtain ⟨c2, h5, h6, _⟩ := C37_external_analytic cfg ha _ h1 h2 h3 t x r o ho
  obtain ⟨p, c3, h7, h8, _⟩ := getAt_eq ht (h4 ht) t
  rw [h5] at h7
  cases h7
  exact ⟨List.mem_of_getElem? h8, h6⟩

/-- The parameters computed from the state would be 14; after handing over and a reset the external ones are used. -/
example : (step (demo true) (after (demo true) (fresh false 0)
      [.eval 0 7 (1, 2), .setExternal (⟨0, 2, [0, 1], [3, 5]⟩, ⟨0, 0⟩), .reset, .eval 1 7 (1, 2)]) (.eval 1 9 (1, 2))).2.result =
    some (.ok ⟨45, -45, 45, 5, 5⟩) := by rfl

/-- C57: and the penalty after an evaluation at time zero is the mean of the kinetic energies of all sets of that function. -/
theorem C57_handed_over (cfg : Cfg T X Par Dot N R H D) (ha : cfg.analytic = true) (s : St T Par N H D)
    (before later : List (Op T X R Par H D)) (hl : ∀ o ∈ later, Internal o) (tb : Table T Par) (c : Cache T) (x : X) (r : R × R)
    (o : Out Par Dot) (hc : TableOk tb → CacheOk tb c)
    (ho : (step cfg (after cfg s (before ++ .setExternal (tb, c) :: later)) (.eval 0 x r)).2.result = some (.ok o)) :
    (step cfg (after cfg s (before ++ .setExternal (tb, c) :: later)) (.eval 0 x r)).1.penalty =
      some ((tb.params.map cfg.rule.kinetic).sum / (tb.params.length : N)) := by
  obtain ⟨h1, h2, c1, h3, _⟩ := after_external cfg s before later hl tb c hc
  exact C57_external cfg ha _ h1 h2 h3 x r o ho

example : (step (demo true) (after (demo true) (fresh false 0)
      [.eval 0 7 (1, 2), .setExternal (⟨0, 2, [0, 1], [3, 5]⟩, ⟨0, 0⟩), .reset]) (.eval 0 9 (1, 2))).2.result =
    some (.ok ⟨27, -27, 27, 3, 3⟩) := by rfl

end Verif.Integrand
