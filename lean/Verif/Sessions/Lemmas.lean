import Verif.Sessions.Spec
import Verif.Integrand.Props

/-!
# Lemmas on recordings
-/

set_option linter.unusedSectionVars false

namespace Verif.Sessions
open Verif Verif.Integrand Verif.TimeParams

variable {T X Par Dot N R H D : Type} [LinearOrder T] [OfNat T 0] [Field N]

/-- The calls of a successful evaluation, in any state. -/
theorem calls_ok (cfg : Cfg T X Par Dot N R H D) (s : St T Par N H D) (t : T) (x : X) (r : R × R) (o : Out Par Dot)
    (ho : (step cfg s (.eval t x r)).2.result = some (.ok o)) :
    (step cfg s (.eval t x r)).2.calls = ((s.hooks.map Prod.snd).map fun g => (g, told s.custom (t, x, o))) ∧
      ∀ g ∈ s.hooks.map Prod.snd, cfg.hookFails g (told s.custom (t, x, o)) = none := by
  have hf : (forward cfg.rule cfg.hookFails cfg.analytic cfg.transpose t x r s).2.2 = .ok o := Option.some.inj ho
  show (forward cfg.rule cfg.hookFails cfg.analytic cfg.transpose t x r s).2.1 = _ ∧ _
  rw [forward_eq] at hf ⊢
  split at hf
  · cases hf
  rename_i hn
  rw [if_neg hn]
  have hsame := gradients_same cfg.rule cfg.hookFails cfg.analytic t x r s
  rw [gradients_eq] at hf hsame ⊢
  dsimp only at hf hsame ⊢
  generalize (if cfg.analytic then gradientsAnalytic cfg.rule t x r.1 s else gradientsAutodiff cfg.rule t x r s) = g at hf hsame ⊢
  rcases g with ⟨s', e | o'⟩
  · cases hf
  · dsimp only at hf hsame ⊢
    rw [hsame.hooks, hsame.custom] at hf ⊢
    have hspec := runHooks_spec cfg.hookFails ⟨t, x, o'.dotState, o'.dotCostate, o'.dotData, o'.params, s.custom⟩ (s.hooks.map Prod.snd)
    generalize runHooks cfg.hookFails _ _ = c at hf hspec ⊢
    rcases c with ⟨cs, e | u⟩
    · cases hf
    · have : o' = o := by
        cases hf
        rfl
      subst this
      exact hspec.2.1 rfl

/-- The calls of an evaluation that raises: the gradient computation raised, or a hook did and the earlier hooks had been called. -/
theorem calls_error (cfg : Cfg T X Par Dot N R H D) (s : St T Par N H D) (t : T) (x : X) (r : R × R) (e : Err)
    (ho : (step cfg s (.eval t x r)).2.result = some (.error e)) :
    (step cfg s (.eval t x r)).2.calls = [] ∨ ∃ (a : Args T X Par Dot D) (pre : List H) (g : H) (post : List H), s.hooks.map Prod.snd = pre ++ g :: post ∧
      a.t = t ∧ a.x = x ∧ a.custom = s.custom ∧ (∀ f ∈ pre, cfg.hookFails f a = none) ∧ cfg.hookFails g a = some e ∧
      (step cfg s (.eval t x r)).2.calls = (pre ++ [g]).map fun f => (f, a) := by
  have hf : (forward cfg.rule cfg.hookFails cfg.analytic cfg.transpose t x r s).2.2 = .error e := Option.some.inj ho
  show (forward cfg.rule cfg.hookFails cfg.analytic cfg.transpose t x r s).2.1 = _ ∨ ∃ (a : Args T X Par Dot D) (pre : List H) (g : H) (post : List H), _ ∧ _ ∧ _ ∧ _ ∧ _ ∧ _ ∧
    (forward cfg.rule cfg.hookFails cfg.analytic cfg.transpose t x r s).2.1 = _
  rw [forward_eq] at hf ⊢
  split
  · exact .inl rfl
  rename_i hn
  rw [if_neg hn] at hf
  have hsame := gradients_same cfg.rule cfg.hookFails cfg.analytic t x r s
  rw [gradients_eq] at hf hsame ⊢
  dsimp only at hf hsame ⊢
  generalize (if cfg.analytic then gradientsAnalytic cfg.rule t x r.1 s else gradientsAutodiff cfg.rule t x r s) = g at hf hsame ⊢
  rcases g with ⟨s', e' | o'⟩
  · exact .inl rfl
  · dsimp only at hf hsame ⊢
    rw [hsame.hooks, hsame.custom] at hf ⊢
    have hspec := runHooks_spec cfg.hookFails ⟨t, x, o'.dotState, o'.dotCostate, o'.dotData, o'.params, s.custom⟩ (s.hooks.map Prod.snd)
    generalize runHooks cfg.hookFails _ _ = c at hf hspec ⊢
    rcases c with ⟨cs, e' | u⟩
    · have : e' = e := by
        cases hf
        rfl
      subst this
      obtain ⟨pre, g, post, h1, h2, h3, h4⟩ := hspec.2.2 _ rfl
      exact .inr ⟨_, pre, g, post, h1, rfl, rfl, rfl, h2, h3, h4⟩
    · cases hf

/-- A pass does not touch the hooks, their handles or the custom data. -/
theorem op_same (cfg : Cfg T X Par Dot N R H D) (s : St T Par N H D) (o : PassOp T X R Par) {sl : List (Option H)} (h : HookInv s sl) :
    HookInv (step cfg s o.op).1 sl ∧ (step cfg s o.op).1.hooks = s.hooks ∧ (step cfg s o.op).1.handles = s.handles ∧ (step cfg s o.op).1.custom = s.custom := by
  cases o with
  | reset => exact ⟨h.step cfg (.reset : Op T X R Par H D), rfl, rfl, rfl⟩
  | setExternal f => exact ⟨h.step cfg (.setExternal f : Op T X R Par H D), rfl, rfl, rfl⟩
  | eval t x r =>
    have hs : Same s (Integrand.step cfg s (.eval t x r)).1 := forward_same ..
    exact ⟨h.step cfg (.eval t x r), hs.hooks, hs.handles, hs.custom⟩

theorem pass_cons (cfg : Cfg T X Par Dot N R H D) (o : PassOp T X R Par) (l : List (PassOp T X R Par)) (s : St T Par N H D) :
    pass cfg (o :: l) s =
      match raised (step cfg s o.op).2.result with
      | some e => ((step cfg s o.op).1, ⟨[], (step cfg s o.op).2.calls, .error e⟩)
      | none => ((pass cfg l (step cfg s o.op).1).1,
          ⟨completed o (step cfg s o.op).2.result ++ (pass cfg l (step cfg s o.op).1).2.done, (step cfg s o.op).2.calls ++ (pass cfg l (step cfg s o.op).1).2.calls,
            (pass cfg l (step cfg s o.op).1).2.result⟩) := rfl

theorem pass_same (cfg : Cfg T X Par Dot N R H D) (l : List (PassOp T X R Par)) (s : St T Par N H D) {sl : List (Option H)} (h : HookInv s sl) :
    HookInv (pass cfg l s).1 sl ∧ (pass cfg l s).1.hooks = s.hooks ∧ (pass cfg l s).1.handles = s.handles ∧ (pass cfg l s).1.custom = s.custom := by
  induction l generalizing s with
  | nil => exact ⟨h, rfl, rfl, rfl⟩
  | cons o l ih =>
    obtain ⟨a1, a2, a3, a4⟩ := op_same cfg s o h
    rw [pass_cons]
    cases raised (step cfg s o.op).2.result with
    | some e => exact ⟨a1, a2, a3, a4⟩
    | none =>
      obtain ⟨b1, b2, b3, b4⟩ := ih _ a1
      exact ⟨b1, b2.trans a2, b3.trans a3, b4.trans a4⟩

theorem pass_stop (cfg : Cfg T X Par Dot N R H D) (o : PassOp T X R Par) (l : List (PassOp T X R Par)) (s : St T Par N H D) {e : Err}
    (h : raised (step cfg s o.op).2.result = some e) : pass cfg (o :: l) s = ((step cfg s o.op).1, ⟨[], (step cfg s o.op).2.calls, .error e⟩) := by
  rw [pass_cons, h]

theorem pass_go (cfg : Cfg T X Par Dot N R H D) (o : PassOp T X R Par) (l : List (PassOp T X R Par)) (s : St T Par N H D)
    (h : raised (step cfg s o.op).2.result = none) :
    pass cfg (o :: l) s = ((pass cfg l (step cfg s o.op).1).1,
      ⟨completed o (step cfg s o.op).2.result ++ (pass cfg l (step cfg s o.op).1).2.done, (step cfg s o.op).2.calls ++ (pass cfg l (step cfg s o.op).1).2.calls,
        (pass cfg l (step cfg s o.op).1).2.result⟩) := by
  rw [pass_cons, h]

/-- The calls made in a pass: for every completed evaluation all hooks, in order; if the pass ends with an exception, possibly some more calls for the evaluation that raised it. -/
theorem pass_calls (cfg : Cfg T X Par Dot N R H D) (l : List (PassOp T X R Par)) (s : St T Par N H D) {sl : List (Option H)} (h : HookInv s sl) :
    (∀ e, (pass cfg l s).2.result = .error e → ∃ rest, (pass cfg l s).2.calls = ((pass cfg l s).2.done.flatMap fun q => (s.hooks.map Prod.snd).map fun g => (g, told s.custom q)) ++ rest ∧
        (rest = [] ∨ ∃ (a : Args T X Par Dot D) (pre : List H) (g : H) (post : List H), s.hooks.map Prod.snd = pre ++ g :: post ∧ (a.t, a.x) ∈ evaluations l ∧ a.custom = s.custom ∧
          (∀ f ∈ pre, cfg.hookFails f a = none) ∧ cfg.hookFails g a = some e ∧ rest = (pre ++ [g]).map fun f => (f, a))) ∧
    ((pass cfg l s).2.result = .ok () → (pass cfg l s).2.calls = ((pass cfg l s).2.done.flatMap fun q => (s.hooks.map Prod.snd).map fun g => (g, told s.custom q)) ∧
      (pass cfg l s).2.done.map (fun q => (q.1, q.2.1)) = evaluations l) := by
  induction l generalizing s with
  | nil => exact ⟨fun e he => (by cases he), fun _ => ⟨rfl, rfl⟩⟩
  | cons o l ih =>
    obtain ⟨a1, a2, a3, a4⟩ := op_same cfg s o h
    obtain ⟨i1, i2⟩ := ih _ a1
    rw [a2, a4] at i1 i2
    cases o with
    | reset =>
      rw [pass_go cfg _ l s rfl]
      exact ⟨i1, i2⟩
    | setExternal f =>
      rw [pass_go cfg _ l s rfl]
      exact ⟨i1, i2⟩
    | eval t x r =>
      obtain ⟨res, hres⟩ : ∃ res, (step cfg s (.eval t x r)).2.result = some res := ⟨_, rfl⟩
      cases res with
      | error e =>
        rw [pass_stop cfg (.eval t x r) l s (e := e) (by show raised (step cfg s (.eval t x r)).2.result = _; rw [hres]; rfl)]
        refine ⟨?_, fun hh => (by cases hh)⟩
        intro e' he'
        have : e = e' := by
          cases he'
          rfl
        subst this
        refine ⟨_, rfl, ?_⟩
        rcases calls_error cfg s t x r e hres with h0 | ⟨a, pre, g, post, h1, h2, h3, h4, h5, h6, h7⟩
        · exact .inl h0
        · exact .inr ⟨a, pre, g, post, h1, by simp [evaluations, h2, h3], h4, h5, h6, h7⟩
      | ok q =>
        have hcalls : (step cfg s (PassOp.eval t x r : PassOp T X R Par).op).2.calls = _ := (calls_ok cfg s t x r q hres).1
        have hdone : completed (PassOp.eval t x r : PassOp T X R Par) (step cfg s (PassOp.eval t x r : PassOp T X R Par).op).2.result = [(t, x, q)] := by
          show completed _ (step cfg s (.eval t x r)).2.result = _
          rw [hres]
          rfl
        rw [pass_go cfg (.eval t x r) l s (by show raised (step cfg s (.eval t x r)).2.result = _; rw [hres]; rfl), hcalls, hdone]
        refine ⟨?_, ?_⟩
        · intro e he'
          obtain ⟨rest, r1, r2⟩ := i1 e he'
          refine ⟨rest, ?_, ?_⟩
          · dsimp only
            rw [r1, List.singleton_append, List.flatMap_cons, List.append_assoc]
          · rcases r2 with r2 | ⟨a, pre, g, post, h1, h2, h3⟩
            · exact .inl r2
            · exact .inr ⟨a, pre, g, post, h1, List.mem_cons_of_mem _ h2, h3⟩
        · intro hh
          obtain ⟨r1, r2⟩ := i2 hh
          dsimp only
          refine ⟨?_, ?_⟩
          · rw [r1, List.singleton_append, List.flatMap_cons]
          · rw [List.singleton_append, List.map_cons, r2]
            rfl

/-- In a pass that ends without an exception no hook has raised one. -/
theorem pass_hooks (cfg : Cfg T X Par Dot N R H D) (l : List (PassOp T X R Par)) (s : St T Par N H D) {sl : List (Option H)} (h : HookInv s sl)
    (hok : (pass cfg l s).2.result = .ok ()) : ∀ q ∈ (pass cfg l s).2.done, ∀ g ∈ s.hooks.map Prod.snd, cfg.hookFails g (told s.custom q) = none := by
  induction l generalizing s with
  | nil => intro q hq; cases hq
  | cons o l ih =>
    obtain ⟨a1, a2, a3, a4⟩ := op_same cfg s o h
    have ih' := ih _ a1
    rw [a2, a4] at ih'
    cases o with
    | reset =>
      rw [pass_go cfg _ l s rfl] at hok ⊢
      exact ih' hok
    | setExternal f =>
      rw [pass_go cfg _ l s rfl] at hok ⊢
      exact ih' hok
    | eval t x r =>
      obtain ⟨res, hres⟩ : ∃ res, (step cfg s (.eval t x r)).2.result = some res := ⟨_, rfl⟩
      cases res with
      | error e =>
        rw [pass_stop cfg (.eval t x r) l s (e := e) (by show raised (step cfg s (.eval t x r)).2.result = _; rw [hres]; rfl)] at hok
        cases hok
      | ok o =>
        have hdone : completed (PassOp.eval t x r : PassOp T X R Par) (step cfg s (PassOp.eval t x r : PassOp T X R Par).op).2.result = [(t, x, o)] := by
          show completed _ (step cfg s (.eval t x r)).2.result = _
          rw [hres]
          rfl
        rw [pass_go cfg (.eval t x r) l s (by show raised (step cfg s (.eval t x r)).2.result = _; rw [hres]; rfl), hdone] at hok ⊢
        intro q hq
        rcases List.mem_cons.1 hq with rfl | hq
        · exact (calls_ok cfg s t x r o hres).2
        · exact ih' hok q hq

end Verif.Sessions
