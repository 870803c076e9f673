import Verif.Recompute.Props

/-!
# C95 on a concrete integrand
-/

namespace Verif.Recompute
open Verif Verif.Assembly Verif.Flow

/-- Every element replaced. -/
def replaced (c : Int) (d : TDicts Int) : TDicts Int := d.map fun b => (b.1, b.2.map fun e => (e.1, ⟨e.2.shape, e.2.data.map fun _ => c⟩))

def constant (c : Int) (d : TDicts Int) : TDicts Int := dotted (replaced c d)

/-- The parameter is the first element of the state; it is the derivative of the state and of the data. -/
def exampleRule : Integrand.Rule (Trip Int) Int (TDicts Int) ℚ Unit where
  nState x := x.1.length
  nCostate x := x.2.1.length
  nData x := x.2.2.length
  compute _ x := .ok ((elements x.1).getD 0 0)
  kinetic θ := θ * θ
  stateRhs θ x := .ok (constant θ x.1)
  dataRhs θ x := .ok (constant θ x.2.2)
  costateRhs _ x := .ok (constant 0 x.2.1)

def exampleCfg : Integrand.Cfg Int (Trip Int) Int (TDicts Int) ℚ Unit Unit Unit := ⟨exampleRule, fun _ _ => none, true, false⟩

theorem exampleCalm : Calm exampleCfg := ⟨fun _ _ => rfl, fun _ _ _ => rfl⟩

def exampleMem (rnn : Bool) : Mem (Integrand.St Int Int ℚ Unit Unit × (Nat → Unit × Unit)) := ⟨none, Integrand.fresh rnn 0, fun _ => ((), ())⟩

/-- One particle and `n` data points. -/
def examplePlans (n : Nat) : AllPlans := ⟨[("b", [("q1", [1])])], [("b", [("p_q1", [1])])], [("b", [("q1", [n])])]⟩

theorem exampleFull (n : Nat) : FullPlans (examplePlans n) := by
  refine ⟨⟨?_, ?_, ?_⟩, ⟨by simp [examplePlans], by simp [examplePlans], by simp [examplePlans]⟩, by simp [examplePlans]⟩ <;> simp [examplePlans, GoodPlans, SDict.Sorted, SDict.keys]

/-- Two Euler steps. -/
def exampleMethod : Method Int Int := euler [0, 1, 2]

/-- The second example pass. -/
def otherPass (n : Nat) (v : List Int) : Event Int Int := .pass exampleMethod (examplePlans n) v

theorem exampleKeeps (n : Nat) : KeepsShapes (examplePlans n) (derivatives exampleCfg) := by
  intro t x s y hx hy
  have key : ∀ (c : Int) (d : TDicts Int) (q : Plans), GoodDicts d ∧ shapesOf d = q →
      GoodDicts (replaced c d) ∧ shapesOf (replaced c d) = q := by
    rintro c d q ⟨⟨h1, h2⟩, rfl⟩
    unfold replaced
    have hk : ∀ {β γ : Type} (l : List (String × β)) (f : String × β → γ), SDict.keys (l.map fun e => (e.1, f e)) = SDict.keys l := by
      intro β γ l f
      simp [SDict.keys]
    refine ⟨⟨by unfold SDict.Sorted at h1 ⊢; rwa [hk], ?_⟩, by simp [shapesOf]⟩
    intro b hb
    obtain ⟨b', hb', rfl⟩ := List.mem_map.1 hb
    obtain ⟨h3, h4⟩ := h2 b' hb'
    refine ⟨by unfold SDict.Sorted at h3 ⊢; rwa [hk], ?_⟩
    intro e he
    obtain ⟨e', he', rfl⟩ := List.mem_map.1 he
    obtain ⟨h5, h6⟩ := h4 e' he'
    refine ⟨?_, h6⟩
    show (e'.2.data.map _).length = _
    rw [List.length_map]
    exact h5
  by_cases hs : s.1.external = false
  · rw [derivatives_result exampleCfg exampleCalm t x hs] at hy
    cases hg : guards exampleCfg x with
    | error e => rw [hg] at hy; cases hy
    | ok u =>
      rw [hg] at hy
      cases ho : own exampleCfg s.1 (s.2 0).1 x with
      | error e => dsimp only [Except.bind] at hy; rw [ho] at hy; cases hy
      | ok θ =>
        dsimp only [Except.bind] at hy
        rw [ho] at hy
        obtain rfl : (constant θ x.1, constant 0 x.2.1, constant θ x.2.2) = y := by injection hy
        exact ⟨(replaced θ x.1, replaced 0 x.2.1, replaced θ x.2.2), rfl, key _ _ _ hx.1, key _ _ _ hx.2.1, key _ _ _ hx.2.2⟩
  · obtain ⟨o, ho, rfl⟩ : ∃ o, (Integrand.forward exampleCfg.rule exampleCfg.hookFails exampleCfg.analytic exampleCfg.transpose t x (s.2 0) s.1).2.2 = .ok o ∧ (o.dotState, o.dotCostate, o.dotData) = y := by
      unfold derivatives at hy
      dsimp only at hy
      cases hf : (Integrand.forward exampleCfg.rule exampleCfg.hookFails exampleCfg.analytic exampleCfg.transpose t x (s.2 0) s.1).2.2 with
      | error e => rw [hf] at hy; cases hy
      | ok o => rw [hf] at hy; exact ⟨o, rfl, by injection hy⟩
    rw [Integrand.forward_eq] at ho
    rw [if_neg (by simp [exampleCfg])] at ho
    have hg := Integrand.gradients_ok ho
    rw [if_pos (show exampleCfg.analytic = true from rfl)] at hg
    rcases Integrand.gradientsAnalytic_cases exampleCfg.rule t x (s.2 0).1 s.1 with ⟨h, _⟩ | ⟨_, ⟨e, _, h⟩ | ⟨p, _, _, ⟨e, _, h⟩ | ⟨_, h⟩⟩⟩
    · rw [h] at hg; cases hg
    · rw [h] at hg; cases hg
    · rw [h] at hg; cases hg
    · obtain ⟨_, _, h1, h2, h3⟩ := h o hg
      obtain h1 : constant p x.1 = o.dotState := by injection h1
      obtain h2 : constant p x.2.2 = o.dotData := by injection h2
      obtain h3 : constant 0 x.2.1 = o.dotCostate := by injection h3
      rw [← h1, ← h2, ← h3]
      exact ⟨(replaced p x.1, replaced 0 x.2.1, replaced p x.2.2), rfl, key _ _ _ hx.1, key _ _ _ hx.2.1, key _ _ _ hx.2.2⟩

/-- A pass in RNN mode: parameter 2 for both steps; evaluated again it gives the same (`C95_again` applies). -/
theorem exampleRnn : (pass resetInner (derivatives exampleCfg) exampleMethod (examplePlans 1) [2, 0, 5] (exampleMem true)).2 = .ok [[2, 0, 5], [4, 0, 7], [6, 0, 9]] := by decide +kernel

example : (run 3 (derivatives exampleCfg) exampleMethod [[2, 0, 5]]
    (after resetInner (derivatives exampleCfg) (pass resetInner (derivatives exampleCfg) exampleMethod (examplePlans 1) [2, 0, 5] (exampleMem true)).1 (evals [(7, [9, 9, 9]), (1, [])]))).2 =
    .ok [[2, 0, 5], [4, 0, 7], [6, 0, 9]] :=
  C95_again exampleCfg exampleCalm _ rfl _ _ _ _ exampleRnn _

/-- The same with parameters of every moment: other rows. -/
example : (pass resetInner (derivatives exampleCfg) exampleMethod (examplePlans 1) [2, 0, 5] (exampleMem false)).2 = .ok [[2, 0, 5], [4, 0, 7], [8, 0, 11]] := by decide +kernel

example : (run 3 (derivatives exampleCfg) exampleMethod [[2, 0, 5]]
    (after resetInner (derivatives exampleCfg) (pass resetInner (derivatives exampleCfg) exampleMethod (examplePlans 1) [2, 0, 5] (exampleMem false)).1
      [otherPass 2 [1, 0, 3, 3], .eval 1 [1, 2, 3, 4], otherPass 1 [8, 0, 3]])).2 = (pass resetInner (derivatives exampleCfg) exampleMethod (examplePlans 1) [2, 0, 5] (exampleMem false)).2 :=
  C95_passes_between_partial exampleCfg exampleCalm (exampleMem false) rfl rfl exampleMethod (examplePlans 1) [2, 0, 5] [otherPass 2 [1, 0, 3, 3], .eval 1 [1, 2, 3, 4], otherPass 1 [8, 0, 3]] (by decide +kernel)

/-- Two chunks. -/
theorem exampleChunks : (chunks 3 (derivatives exampleCfg) [euler [0, 1], euler [1, 2]] [2, 0, 5] ⟨some (examplePlans 1), (exampleMem true).inner⟩).2 =
    .ok [[[2, 0, 5], [4, 0, 7]], [[4, 0, 7], [6, 0, 9]]] := by decide +kernel

/-- The second chunk again. -/
example : (run 3 (derivatives exampleCfg) (euler [1, 2]) [[4, 0, 7]] (after resetInner (derivatives exampleCfg)
    (chunks 3 (derivatives exampleCfg) [euler [0, 1], euler [1, 2]] [2, 0, 5] ⟨some (examplePlans 1), (exampleMem true).inner⟩).1 (evals []))).2 = .ok [[4, 0, 7], [6, 0, 9]] :=
  C95_checkpoints exampleCfg exampleCalm _ rfl 3 _ _ _ exampleChunks [] 1 _ _ _ rfl rfl rfl

/-- Parameters of the first evaluation. -/
example := C95_rnn_parameters exampleCfg exampleCalm (exampleMem true) rfl rfl _ _ _ (examplePlans 1) [2, 0, 5] _ exampleRnn

/-- **C95** (negation) In RNN mode a successful pass with other values and the same sizes in between changes what is integrated again: the parameters of the other pass are used.  So gradients of the first pass by
the adjoint method or checkpoints, computed after the second pass, belong to another function. -/
theorem C95_rnn_other_pass : ∃ (m : Mem (Integrand.St Int Int ℚ Unit Unit × (Nat → Unit × Unit))) (p : AllPlans) (x0 x1 : List Int) (M : Method Int Int) (rows rows1 rows2 : List (List Int)),
    m.inner.1.external = false ∧ Calm exampleCfg ∧ (pass resetInner (derivatives exampleCfg) M p x0 m).2 = .ok rows ∧
    (pass resetInner (derivatives exampleCfg) M p x1 (pass resetInner (derivatives exampleCfg) M p x0 m).1).2 = .ok rows1 ∧
    (run x0.length (derivatives exampleCfg) M [x0] (pass resetInner (derivatives exampleCfg) M p x1 (pass resetInner (derivatives exampleCfg) M p x0 m).1).1).2 = .ok rows2 ∧ rows2 ≠ rows :=
  ⟨exampleMem true, examplePlans 1, [2, 0, 5], [3, 0, 5], exampleMethod, [[2, 0, 5], [4, 0, 7], [6, 0, 9]], [[3, 0, 5], [6, 0, 8], [9, 0, 11]], [[2, 0, 5], [5, 0, 8], [8, 0, 11]], rfl, exampleCalm,
    exampleRnn, by decide +kernel, by decide +kernel, by decide⟩

/-- **C95** (negation) A pass with another number of data points in between: evaluating at a vector of the first pass raises, or gives a derivative of another length. -/
example : (evaluate (derivatives exampleCfg) 0 [2, 0, 5] (after resetInner (derivatives exampleCfg) (exampleMem false) [otherPass 1 [2, 0, 5], otherPass 2 [2, 0, 5, 6]])).2 = .error .runtimeError :=
  (C95_other_sizes resetInner (derivatives exampleCfg) (exampleMem false) _ (examplePlans 2) (by decide +kernel) (exampleFull 2) 0 _).1 (by decide)

example : (evaluate (derivatives exampleCfg) 0 [2, 0, 5, 6] (after resetInner (derivatives exampleCfg) (exampleMem false) [otherPass 2 [2, 0, 5, 6], otherPass 1 [2, 0, 5]])).2 = .ok [2, 0, 2] := by decide +kernel

example := (C95_other_sizes resetInner (derivatives exampleCfg) (exampleMem false) [otherPass 2 [2, 0, 5, 6], otherPass 1 [2, 0, 5]] (examplePlans 1) (by decide +kernel) (exampleFull 1) 0 [2, 0, 5, 6]).2 (by decide)
  (exampleKeeps 1) [2, 0, 2] (by decide +kernel)

/-- Plans given and stored. -/
example : takeApart (exampleMem true) (.vec ([2, 0, 5] : List Int)) (some (examplePlans 1)) 0 = .error .valueError := C95_explicit_plans ..
example := C95_stored_plans_partial (exampleMem true) [("b", [("q1", (⟨[1], [2]⟩ : Tensor Int))])] [("b", [("p_q1", ⟨[1], [0]⟩)])] [("b", [("q1", ⟨[1], [5]⟩)])] (by decide +kernel) (by decide +kernel) (by decide +kernel)
  (by simp) (by simp) (by simp) (by simp) (by simp) (by simp)

end Verif.Recompute
