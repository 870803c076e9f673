import Verif.Whole.Consequences

/-!
# C67: input tensors, concrete blocks, adaptive step sizes
-/

namespace Verif.Whole
open Verif Verif.Tensor Verif.Assembly Verif.Evolution Verif.Flow Verif.Models

variable {K P R H D Θ Rb : Type}

/-! ## Input tensors -/

theorem zeros_wf (s : List Nat) : (Shapes.zeros s : Tensor ℝ).WF := by
  unfold Tensor.WF Shapes.zeros
  simp

theorem zeros_get? (s : List Nat) (idx : List Nat) : ((Shapes.zeros s : Tensor ℝ).get? idx).getD 0 = 0 := by
  have h : (tab s fun _ => (0 : ℝ)) = Shapes.zeros s := by
    unfold tab Shapes.zeros
    congr 1
    apply List.eq_replicate_iff.2
    refine ⟨tabData_length _ _, fun b hb => ?_⟩
    rw [tabData_eq] at hb
    obtain ⟨_, _, rfl⟩ := List.mem_map.1 hb
    rfl
  rw [← h]
  by_cases hv : Valid s idx
  · rw [get?_tab hv]; rfl
  · rw [tab_get?_none hv]; rfl

/-- The element of a tensor with three dimensions. -/
noncomputable def elem (X : Tensor ℝ) (b i j : Nat) : ℝ := (X.get? [b, i, j]).getD 0

/-- `q1` is the tensor, `q2` is zero. -/
noncomputable def dataTwo (X : Tensor ℝ) (B c d e : Nat) : Fin B × Two (Fin c) (Fin d) (Fin e) → ℝ
  | (b, .inl a) => elem X b a.1 a.2
  | (_, .inr _) => 0

/-- `q1` is the tensor, everything else is zero. -/
noncomputable def dataFour (X : Tensor ℝ) (B c d e : Nat) : Fin B × Four (Fin c) (Fin d) (Fin e) → ℝ
  | (b, .inl (.inl a)) => elem X b a.1 a.2
  | _ => 0

/-- C67: an input tensor of shape `[batch, rows, features]` becomes the data whose `q1` is the tensor; `q2`, `c1` and `c2` start at zero (classes without trained starting values). -/
theorem C67_initial (cfg : Shapes.Cfg) (l : Shapes.Learned ℝ) (X : Tensor ℝ) (hw : X.WF) (B c d : Nat) (hs : X.shape = [B, c, d]) :
    Shapes.initialData .simple cfg .zero l X = .ok (enc (layOne c d) "" B fun k => elem X k.1 k.2.1 k.2.2) ∧
    (∀ cls ∈ [Shapes.Cls.upDown, .universal, .general, .periodic, .dampenedQ2], Shapes.initialData cls cfg .zero l X =
      .ok (enc (layTwo c d (d * cfg.inflation)) "" B (dataTwo X B c d _))) ∧
    Shapes.initialData .debugSimple cfg .zero l X = .ok (enc (layTwo c d d) "" B (dataTwo X B c d d)) ∧
    Shapes.initialData .dampenedUpDown cfg .zero l X = .ok (enc (layFour c d (d * cfg.inflation)) "" B (dataFour X B c d _)) := by
  have hX : (X.WF ∧ X.shape ≠ []) := ⟨hw, by simp [hs]⟩
  have hz : ∀ s : List Nat, s ≠ [] → ((Shapes.zeros s : Tensor ℝ).WF ∧ (Shapes.zeros s : Tensor ℝ).shape ≠ []) := fun s h => ⟨zeros_wf s, h⟩
  have hzr : Shapes.zerosRepeat (X.shape.length - 1) cfg.inflation X = .ok (Shapes.zeros [B, c, d * cfg.inflation] : Tensor ℝ) := by
    unfold Shapes.zerosRepeat
    rw [hs]
    rfl
  have two : ∀ e : Nat, [("q1", X), ("q2", (Shapes.zeros [B, c, e] : Tensor ℝ))] =
      enc (layTwo c d e) "" B (dataTwo X B c d e) := by
    intro e
    have hr : HasRows (layTwo c d e) "" B [("q1", X), ("q2", (Shapes.zeros [B, c, e] : Tensor ℝ))] := by
      refine ⟨⟨by show List.Pairwise (· < ·) ["q1", "q2"]; decide, ?_⟩, by simp [layTwo, hs, Shapes.zeros]⟩
      intro p hp
      simp only [List.mem_cons, List.not_mem_nil, or_false] at hp
      rcases hp with rfl | rfl
      · exact hX
      · exact hz _ (by simp)
    rw [← enc_dec (layTwo_ok c d e) hr]
    congr 1
    funext k
    obtain ⟨b, k | k⟩ := k
    · simp [dec, layTwo, SDict.get?, elem, dataTwo]
    · simp [dec, layTwo, SDict.get?, zeros_get?, dataTwo]
  refine ⟨?_, ?_, ?_, ?_⟩
  · have hr : HasRows (layOne c d) "" B [("q1", X)] := by
      refine ⟨⟨by show List.Pairwise (· < ·) ["q1"]; decide, ?_⟩, by simp [layOne, hs]⟩
      intro p hp
      rw [List.mem_singleton.1 hp]
      exact hX
    show Except.ok [("q1", X)] = _
    rw [← enc_dec (layOne_ok c d) hr]
    congr 2
  · intro cls hc
    rw [← two]
    simp only [List.mem_cons, List.not_mem_nil, or_false] at hc
    rcases hc with rfl | rfl | rfl | rfl | rfl <;> simp only [Shapes.initialData, Shapes.startQ2, hzr, bind, Except.bind]
  · rw [← two, ← hs]
    rfl
  · have hr : HasRows (layFour c d (d * cfg.inflation)) "" B [("c1", Shapes.zeros [B, 1, 1]), ("c2", Shapes.zeros [B, 1, 1]), ("q1", X), ("q2", Shapes.zeros [B, c, d * cfg.inflation])] := by
      refine ⟨⟨by show List.Pairwise (· < ·) ["c1", "c2", "q1", "q2"]; decide, ?_⟩, by simp [layFour, hs, Shapes.zeros]⟩
      intro p hp
      simp only [List.mem_cons, List.not_mem_nil, or_false] at hp
      rcases hp with rfl | rfl | rfl | rfl
      · exact hz _ (by simp)
      · exact hz _ (by simp)
      · exact hX
      · exact hz _ (by simp)
    have : Shapes.initialData .dampenedUpDown cfg .zero l X =
        .ok [("c1", Shapes.zeros [B, 1, 1]), ("c2", Shapes.zeros [B, 1, 1]), ("q1", X), ("q2", Shapes.zeros [B, c, d * cfg.inflation])] := by
      simp only [Shapes.initialData, hzr, bind, Except.bind]
      rw [hs]
      rfl
    rw [this, ← enc_dec (layFour_ok c d _) hr]
    congr 2
    funext k
    obtain ⟨b, (k | k) | k | k⟩ := k
    · simp [dec, layFour, SDict.get?, elem, dataFour]
    · simp [dec, layFour, SDict.get?, zeros_get?, dataFour]
    · simp [dec, layFour, SDict.get?, zeros_get?, dataFour]
    · simp [dec, layFour, SDict.get?, zeros_get?, dataFour]

/-! ## A concrete block -/

/-- The simple class with one number per particle, without nonlinearity, with the hand-written formulas. -/
noncomputable def demoCls : Cls (Fin 1 × Fin 1) (Fin 1 × Fin 1) (Layer (Fin 1) (Fin 1)) Unit :=
  analyticCls (layOne 1 1) (fun _ => simple id) (fun _ => simpleParams id) (fun _ => simpleCostate fun _ => 1) fun _ => none

noncomputable def demoInt (dd : Nat) : Integrand.Cfg ℝ (Trip ℝ) (Par (Layer (Fin 1) (Fin 1)) Unit) (TDicts ℝ) ℝ Unit Unit Unit where
  rule := rule demoCls true 2 dd
  hookFails _ _ := none
  analytic := true
  transpose := false

/-- The integrand before an integration. -/
def demoMem : Integrand.St ℝ (Par (Layer (Fin 1) (Fin 1)) Unit) ℝ Unit Unit × (Nat → Unit × Unit) :=
  (⟨false, false, none, none, none, [], 0, [], none⟩, fun _ => ((), ()))

noncomputable def demoCfg (M : List ℝ → Method ℝ ℝ) : Block.Cfg ℝ ℝ Unit Unit where
  name := "b"
  concatenate := true
  concatDim := 2
  enlargementDims := none
  enlarge := false
  keepZero := false
  initialData := Shapes.initialData .simple ⟨1, 1, .num 1, 1, 3⟩ .zero ⟨[], fun _ => [], fun _ => []⟩
  outKey := "q1"
  solve := solveWith M (fun _ dd => ofIntegrand (demoInt dd)) demoMem
  mkState _ _ _ _ := []
  mkCostate _ _ _ _ := []

/-- One particle with state 1 and costate 1, integration up to time 1. -/
noncomputable def demoSt : Block.St ℝ ℝ Unit :=
  ⟨true, some [0, 1], none, some (enc (layOne 1 1) "" 1 fun _ => 1), some (enc (layOne 1 1) "p_" 1 fun _ => 1), none, none, [], 2, ()⟩

theorem demo_isBlock (M : List ℝ → Method ℝ ℝ) : IsBlock demoCls M (fun _ dd => demoInt dd) demoMem (demoCfg M) where
  solve := rfl
  concatenate := rfl
  integrand _ _ := ⟨rfl, fun _ _ => rfl, rfl⟩
  dim := ((C67_layouts 1 1 1).2 2 le_rfl).1
  key := ⟨[1, 1], by simp [demoCls, analyticCls, layOne, demoCfg]⟩

/-- A batch with the given numbers. -/
def demoInput (l : List ℝ) : Tensor ℝ := ⟨[l.length, 1, 1], l⟩

theorem demo_initial (M : List ℝ → Method ℝ ℝ) (l : List ℝ) :
    (demoCfg M).initialData (demoInput l) = .ok (enc (layOne 1 1) "" l.length fun k => elem (demoInput l) k.1 k.2.1 k.2.2) :=
  (C67_initial ⟨1, 1, .num 1, 1, 3⟩ ⟨[], fun _ => [], fun _ => []⟩ (demoInput l) (by simp [Tensor.WF, demoInput, vol]) l.length 1 1 rfl).1

/-- The equations of the concrete block: with the only particle at `(q, p)`, `q' = p q q + p`, `p' = - p p q`, `x' = p q x + p`. -/
theorem demo_field (B : Nat) (t q p : ℝ) (x : Fin B → ℝ) :
    (Evolution.field (fun _ => simple id) (Evolution.analytic (simpleParams id) (simpleCostate fun _ => 1) fun _ => none) t
      ((fun _ => q, fun _ => p, fun k => x k.1) : Sys (Fin 1) (Fin B) (Fin 1 × Fin 1))) =
      (fun _ => q * (p * q) + p, fun _ => - (p * (p * q)), fun k => x k.1 * (p * q) + p) := by
  unfold Evolution.field Evolution.analytic
  refine Prod.ext ?_ (Prod.ext ?_ ?_)
  · funext k
    simp [simple, Models.single, linear, Models.map, one, simpleParams, layer, Models.t, outerRow, Shooting.divideByWeight]
  · funext k
    simp [simpleCostate, Models.single, matmul, weightOf, one, simpleParams, layer, Models.t, outerRow, Shooting.divideByWeight, Models.map]
  · funext k
    simp [simple, Models.single, linear, Models.map, one, simpleParams, layer, Models.t, outerRow, Shooting.divideByWeight]

/-- C67 for the concrete block, any method and any batch. -/
theorem demo_forward (M : List ℝ → Method ℝ ℝ) (l : List ℝ) : Block.forward (demoCfg M) () ⟨some (demoInput l), none, none, none⟩ demoSt =
    report (layOne 1 1) (layOne 1 1) "b" "q1" [1, 1] demoSt (.upTo 1) (runSys (Evolution.field (fun _ => simple id) (Evolution.analytic (simpleParams id) (simpleCostate fun _ => 1) fun _ => none))
      (M [0, 1]) [((fun _ => 1, fun _ => 1, fun k => elem (demoInput l) k.1 k.2.1 k.2.2) : Sys (Fin 1) (Fin l.length) (Fin 1 × Fin 1))]) :=
  C67_forward_analytic (layOne_ok 1 1) (fun _ => simple id) (fun _ => simpleParams id) (fun _ => simpleCostate fun _ => 1) (fun _ => none) (demo_isBlock M) rfl rfl
    (s := demoSt) ((C67_layouts 1 1 1).2 2 le_rfl).1 (w := .upTo 1) ⟨rfl, rfl⟩ rfl rfl (demo_initial M l) (by simp [layOne, demoCfg]) ()

theorem demo_elem (l : List ℝ) : (fun k : Fin l.length × (Fin 1 × Fin 1) => elem (demoInput l) k.1 k.2.1 k.2.2) = fun k => l[k.1] := by
  funext k
  obtain ⟨b, i, j⟩ := k
  have hi : i = 0 := Subsingleton.elim _ _
  have hj : j = 0 := Subsingleton.elim _ _
  subst hi hj
  have hv : Valid [l.length, 1, 1] [b.1, 0, 0] := .cons b.2 (.cons (by decide) (.cons (by decide) .nil))
  simp [elem, Tensor.get?, getData?, demoInput, vol, b.2]

/-- The output of the concrete block after one Euler step, for a batch of any size. -/
example (l : List ℝ) (b : Fin l.length) : ∃ o t, (Block.forward (demoCfg Flow.euler) () ⟨some (demoInput l), none, none, none⟩ demoSt).2 = .ok o ∧ o.result = .tensor t ∧
    t.shape = [l.length, 1, 1] ∧ t.get? [b, 0, 0] = some (l[b] + (l[b] + 1)) := by
  rw [demo_forward, demo_elem]
  have h : runSys (Evolution.field (fun _ => simple id) (Evolution.analytic (simpleParams id) (simpleCostate fun _ => 1) fun _ => none)) (Flow.euler [0, 1])
      [((fun _ => 1, fun _ => 1, fun k => l[k.1]) : Sys (Fin 1) (Fin l.length) (Fin 1 × Fin 1))] =
      .ok [(fun _ => 1, fun _ => 1, fun k => l[k.1]), (fun _ => 3, fun _ => 0, fun k => l[k.1] + (l[k.1] + 1))] := by
    simp only [Flow.euler, Flow.eulerGo, runSys, combine, List.map_cons, List.map_nil, List.getD_cons_zero]
    rw [demo_field l.length 0 1 1 fun b => l[b]]
    simp
    norm_num
  rw [h]
  obtain ⟨t, h1, h2, h3⟩ := (C67_output (layOne 1 1) (layOne_ok 1 1) "b" (key := "q1") (sh := [1, 1]) (by simp [layOne]) b ((0, 0) : Fin 1 × Fin 1) rfl).1
    ((fun _ => 3, fun _ => 0, fun k => l[k.1] + (l[k.1] + 1)) : Sys (Fin 1) (Fin l.length) (Fin 1 × Fin 1))
  exact ⟨_, t, rfl, h1, h2, h3⟩

/-! ## Adaptive step sizes -/

/-- A method with a step size control: one Euler step of size 1 if the squared length of the derivative is at most 10, otherwise two steps of size 1/2. -/
noncomputable def control (_ : List ℝ) : Method ℝ ℝ :=
  .eval 0 (fun l => l.getD 0 0) (.test (fun l => l.getD 1 0 * l.getD 1 0) fun e =>
    if e ≤ 10 then .done [fun l => l.getD 0 0, fun l => l.getD 0 0 + l.getD 1 0]
    else .eval (1 / 2) (fun l => l.getD 0 0 + l.getD 1 0 / 2) (.done [fun l => l.getD 0 0, fun l => l.getD 0 0 + l.getD 1 0 / 2 + l.getD 2 0 / 2]))

theorem control_run (l : List ℝ) : runSys (Evolution.field (fun _ => simple id) (Evolution.analytic (simpleParams id) (simpleCostate fun _ => 1) fun _ => none)) (control [0, 1])
      [((fun _ => 1, fun _ => 1, fun k => l[k.1]) : Sys (Fin 1) (Fin l.length) (Fin 1 × Fin 1))] =
    if 5 + ∑ b : Fin l.length, (l[b] + 1) * (l[b] + 1) ≤ 10 then .ok [(fun _ => 1, fun _ => 1, fun k => l[k.1]), (fun _ => 3, fun _ => 0, fun k => l[k.1] + (l[k.1] + 1))]
    else .ok [(fun _ => 1, fun _ => 1, fun k => l[k.1]), (fun _ => 1 + 2 / 2 + 5 / 2 / 2, fun _ => 1 + -1 / 2 + (-1 / 2) / 2,
      fun k => l[k.1] + (l[k.1] + 1) / 2 + (l[k.1] + (l[k.1] + 1) / 2 + 1 / 2) / 2)] := by
  have h1 := demo_field l.length 0 1 1 fun b => l[b]
  have h2 := demo_field l.length (1 / 2) 2 (1 / 2) fun b => l[b] + (l[b] + 1) / 2
  generalize (Evolution.field (fun _ => simple id) (Evolution.analytic (simpleParams id) (simpleCostate fun _ => 1) fun _ => none) :
    ℝ → Sys (Fin 1) (Fin l.length) (Fin 1 × Fin 1) → Sys (Fin 1) (Fin l.length) (Fin 1 × Fin 1)) = fld at h1 h2 ⊢
  have e1 : fld 0 (combine (fun l => l.getD 0 0) [((fun _ => 1, fun _ => 1, fun k => l[k.1]) : Sys (Fin 1) (Fin l.length) (Fin 1 × Fin 1))]) =
      ((fun _ => 2, fun _ => -1, fun k => l[k.1] + 1) : Sys (Fin 1) (Fin l.length) (Fin 1 × Fin 1)) := by
    refine Eq.trans h1 ?_
    norm_num
  have e2 : sumAll (combine (fun l => l.getD 1 0 * l.getD 1 0) [((fun _ => 1, fun _ => 1, fun k => l[k.1]) : Sys (Fin 1) (Fin l.length) (Fin 1 × Fin 1)),
      ((fun _ => 2, fun _ => -1, fun k => l[k.1] + 1) : Sys (Fin 1) (Fin l.length) (Fin 1 × Fin 1))]) = 5 + ∑ b : Fin l.length, (l[b] + 1) * (l[b] + 1) := by
    simp [sumAll, combine, Fintype.sum_prod_type]
    norm_num
  have e3 : fld (1 / 2) (combine (fun l => l.getD 0 0 + l.getD 1 0 / 2) [((fun _ => 1, fun _ => 1, fun k => l[k.1]) : Sys (Fin 1) (Fin l.length) (Fin 1 × Fin 1)),
      ((fun _ => 2, fun _ => -1, fun k => l[k.1] + 1) : Sys (Fin 1) (Fin l.length) (Fin 1 × Fin 1))]) = ((fun _ => 5 / 2, fun _ => -1 / 2, fun k => l[k.1] + (l[k.1] + 1) / 2 + 1 / 2) : Sys (Fin 1) (Fin l.length) (Fin 1 × Fin 1)) := by
    have : combine (fun l => l.getD 0 0 + l.getD 1 0 / 2) [((fun _ => 1, fun _ => 1, fun k => l[k.1]) : Sys (Fin 1) (Fin l.length) (Fin 1 × Fin 1)),
      ((fun _ => 2, fun _ => -1, fun k => l[k.1] + 1) : Sys (Fin 1) (Fin l.length) (Fin 1 × Fin 1))] = ((fun _ => 2, fun _ => 1 / 2, fun k => l[k.1] + (l[k.1] + 1) / 2) : Sys (Fin 1) (Fin l.length) (Fin 1 × Fin 1)) := by
      simp [combine]
      norm_num
    rw [this]
    refine Eq.trans h2 ?_
    norm_num
  simp only [control, runSys]
  rw [e1, List.singleton_append, e2]
  by_cases h : 5 + ∑ b : Fin l.length, (l[b] + 1) * (l[b] + 1) ≤ 10
  · rw [if_pos h, if_pos h]
    simp [runSys, combine]
    norm_num
  · rw [if_neg h, if_neg h]
    simp only [runSys]
    rw [e3]
    simp [combine]

/-- C67: with a step size control the samples of a batch influence each other.  The first sample is the same in both batches, the result for it is not. -/
theorem C67_adaptive : ¬ ∀ (l l' : List ℝ) (h : 0 < l.length) (h' : 0 < l'.length), l[0] = l'[0] → ∀ o o' t t',
    (Block.forward (demoCfg control) () ⟨some (demoInput l), none, none, none⟩ demoSt).2 = .ok o → o.result = .tensor t →
    (Block.forward (demoCfg control) () ⟨some (demoInput l'), none, none, none⟩ demoSt).2 = .ok o' → o'.result = .tensor t' → t.get? [0, 0, 0] = t'.get? [0, 0, 0] := by
  intro H
  have key (l : List ℝ) (hl : 0 < l.length) : ∃ o t, (Block.forward (demoCfg control) () ⟨some (demoInput l), none, none, none⟩ demoSt).2 = .ok o ∧ o.result = .tensor t ∧
      t.get? [0, 0, 0] = some (if 5 + ∑ b : Fin l.length, (l[b] + 1) * (l[b] + 1) ≤ 10 then l[0] + (l[0] + 1) else l[0] + (l[0] + 1 : ℝ) / 2 + (l[0] + (l[0] + 1) / 2 + 1 / 2) / 2) := by
    rw [demo_forward, demo_elem, control_run]
    have out (q p : ℝ) (x : Fin l.length → ℝ) := (C67_output (layOne 1 1) (layOne_ok 1 1) "b" (key := "q1") (sh := [1, 1]) (by simp [layOne]) (⟨0, hl⟩ : Fin l.length) ((0, 0) : Fin 1 × Fin 1) rfl).1
      ((fun _ => q, fun _ => p, fun k => x k.1) : Sys (Fin 1) (Fin l.length) (Fin 1 × Fin 1))
    split
    · obtain ⟨t, h1, h2, h3⟩ := out 3 0 fun b => l[b] + (l[b] + 1)
      exact ⟨_, t, rfl, h1, h3⟩
    · obtain ⟨t, h1, h2, h3⟩ := out (1 + 2 / 2 + 5 / 2 / 2) (1 + -1 / 2 + (-1 / 2) / 2) fun b => l[b] + (l[b] + 1) / 2 + (l[b] + (l[b] + 1) / 2 + 1 / 2) / 2
      exact ⟨_, t, rfl, h1, h3⟩
  obtain ⟨o, t, h1, h2, h3⟩ := key [1] (by simp)
  obtain ⟨o', t', h1', h2', h3'⟩ := key [1, 9] (by simp)
  have := H [1] [1, 9] (by simp) (by simp) rfl o o' t t' h1 h2 h1' h2'
  rw [h3, h3'] at this
  have s1 : ∑ b : Fin ([1] : List ℝ).length, (([1] : List ℝ)[b] + 1) * (([1] : List ℝ)[b] + 1) = 4 :=
    (Fin.sum_univ_one fun b : Fin 1 => (([1] : List ℝ)[b] + 1) * (([1] : List ℝ)[b] + 1)).trans (by norm_num)
  have s2 : ∑ b : Fin ([1, 9] : List ℝ).length, (([1, 9] : List ℝ)[b] + 1) * (([1, 9] : List ℝ)[b] + 1) = 104 :=
    (Fin.sum_univ_two fun b : Fin 2 => (([1, 9] : List ℝ)[b] + 1) * (([1, 9] : List ℝ)[b] + 1)).trans (by norm_num)
  rw [s1, s2] at this
  norm_num at this

/-! ## The up-down class -/

theorem eulerGo_fixed (n : Nat) (cur : List ℝ → ℝ) (outs : List (List ℝ → ℝ)) (t : ℝ) (ts : List ℝ) : Fixed (Flow.eulerGo n cur outs t ts) := by
  induction ts generalizing n cur outs t with
  | nil => trivial
  | cons t' ts ih => exact ih _ _ _ _

theorem euler_fixed : ∀ ts : List ℝ, Fixed (Flow.euler ts)
  | [] => trivial
  | _ :: _ => eulerGo_fixed _ _ _ _ _

/-- A block of the up-down class with automatic differentiation, any nonlinearity; `c` is `autodiffCls` or `rnnCls`, `u` whether RNN mode is on. -/
noncomputable def udCfg (c : Cls (Two (Fin 1) (Fin 2) (Fin 6)) (Two (Fin 1) (Fin 2) (Fin 6)) (UpDownPar (Fin 2) (Fin 6)) (UpDownPar (Fin 2) (Fin 6) → ℝ)) (u : Bool)
    (ρ : Nat → (UpDownPar (Fin 2) (Fin 6) → ℝ) × (UpDownPar (Fin 2) (Fin 6) → ℝ)) (M : List ℝ → Method ℝ ℝ) : Block.Cfg ℝ ℝ Unit Unit where
  name := "b"
  concatenate := true
  concatDim := 2
  enlargementDims := none
  enlarge := false
  keepZero := false
  initialData := Shapes.initialData .upDown ⟨2, 1, .num 2, 3, 3⟩ .zero ⟨[], fun _ => [], fun _ => []⟩
  outKey := "q1"
  solve := solveWith M (fun _ dd => ofIntegrand (H := Unit) (D := Unit) ⟨rule c true 2 dd, fun _ _ => none, false, false⟩) (⟨u, false, none, none, none, [], 0, [], none⟩, ρ)
  mkState _ _ _ _ := []
  mkCostate _ _ _ _ := []

theorem ud_isBlock (c : Cls (Two (Fin 1) (Fin 2) (Fin 6)) (Two (Fin 1) (Fin 2) (Fin 6)) (UpDownPar (Fin 2) (Fin 6)) (UpDownPar (Fin 2) (Fin 6) → ℝ)) (hc : c.lay = layTwo 1 2 6) (hc' : c.dataLay = layTwo 1 2 6) (u : Bool)
    (ρ : Nat → (UpDownPar (Fin 2) (Fin 6) → ℝ) × (UpDownPar (Fin 2) (Fin 6) → ℝ)) (M : List ℝ → Method ℝ ℝ) :
    IsBlock (H := Unit) (D := Unit) c M (fun _ dd => ⟨rule c true 2 dd, fun _ _ => none, false, false⟩) (⟨u, false, none, none, none, [], 0, [], none⟩, ρ) (udCfg c u ρ M) where
  solve := rfl
  concatenate := rfl
  integrand _ _ := ⟨rfl, fun _ _ => rfl, rfl⟩
  dim := by rw [hc]; exact ((C67_layouts 1 2 6).2 2 le_rfl).2.1
  key := by rw [hc']; exact ⟨[1, 2], by simp [layTwo, udCfg]⟩

/-- Five particles with given states and costates. -/
noncomputable def udSt (q p : Fin 5 × Two (Fin 1) (Fin 2) (Fin 6) → ℝ) : Block.St ℝ ℝ Unit :=
  ⟨true, some [0, 1], none, some (enc (layTwo 1 2 6) "" 5 q), some (enc (layTwo 1 2 6) "p_" 5 p), none, none, [], 2, ()⟩

theorem ud_initial (c : Cls (Two (Fin 1) (Fin 2) (Fin 6)) (Two (Fin 1) (Fin 2) (Fin 6)) (UpDownPar (Fin 2) (Fin 6)) (UpDownPar (Fin 2) (Fin 6) → ℝ)) (u : Bool)
    (ρ : Nat → (UpDownPar (Fin 2) (Fin 6) → ℝ) × (UpDownPar (Fin 2) (Fin 6) → ℝ)) (M : List ℝ → Method ℝ ℝ) (B : Nat) (X : Tensor ℝ) (hw : X.WF) (hs : X.shape = [B, 1, 2]) :
    (udCfg c u ρ M).initialData X = .ok (enc (layTwo 1 2 6) "" B (dataTwo X B 1 2 6)) :=
  (C67_initial ⟨2, 1, .num 2, 3, 3⟩ ⟨[], fun _ => [], fun _ => []⟩ X hw B 1 2 hs).2.1 .upDown (by simp)

/-- `C67_forward_autodiff` for this block: every nonlinearity, every method, all particles, all batches. -/
example (nl : ℝ → ℝ) (ρ M) (q p : Fin 5 × Two (Fin 1) (Fin 2) (Fin 6) → ℝ) (B : Nat) (X : Tensor ℝ) (hw : X.WF) (hs : X.shape = [B, 1, 2]) :
    Block.forward (udCfg (autodiffCls (layTwo 1 2 6) (fun _ => upDown nl) fun _ => none) false ρ M) () ⟨some X, none, none, none⟩ (udSt q p) =
      report (layTwo 1 2 6) (layTwo 1 2 6) "b" "q1" [1, 2] (udSt q p) (.upTo 1) (runSys (Evolution.field (fun _ => upDown nl) (Evolution.autodiff (fun _ => upDown nl) (fun _ => none) fun _ => (0, 0)))
        (M [0, 1]) [(q, p, dataTwo X B 1 2 6)]) :=
  C67_forward_autodiff (layTwo_ok 1 2 6) (fun _ => (linear_upDown nl).affine) (fun _ => none) (ud_isBlock _ rfl rfl false ρ M) rfl rfl (s := udSt q p)
    ((C67_layouts 1 2 6).2 2 le_rfl).2.1 (w := .upTo 1) ⟨rfl, rfl⟩ rfl rfl (ud_initial _ _ _ _ B X hw hs) (by simp [layTwo, udCfg]) () fun _ => (0, 0)

/-- `C67_forward_rnn` for this block and a method that starts with an evaluation at the initial values: the parameters are those of the initial particles. -/
example (nl : ℝ → ℝ) (ρ) (q p : Fin 5 × Two (Fin 1) (Fin 2) (Fin 6) → ℝ) (B : Nat) (X : Tensor ℝ) (hw : X.WF) (hs : X.shape = [B, 1, 2]) :
    Block.forward (udCfg (rnnCls (layTwo 1 2 6) (fun _ => upDown nl) fun _ => none) true ρ Flow.euler) () ⟨some X, none, none, none⟩ (udSt q p) =
      report (layTwo 1 2 6) (layTwo 1 2 6) "b" "q1" [1, 2] (udSt q p) (.upTo 1) (runSys (Evolution.field (fun _ => upDown nl)
          (Evolution.given (fun _ => upDown nl) (fun _ => none) fun _ => Shooting.directParameters (upDown nl) (fun _ => none) (ρ 0).1 q p))
        (Flow.euler [0, 1]) [(q, p, dataTwo X B 1 2 6)]) :=
  C67_forward_rnn (c := rnnCls (layTwo 1 2 6) (fun _ => upDown nl) fun _ => none) (layTwo_ok 1 2 6) (layTwo_ok 1 2 6) (ud_isBlock _ rfl rfl true ρ Flow.euler) rfl rfl rfl (s := udSt q p)
    ((C67_layouts 1 2 6).2 2 le_rfl).2.1 (w := .upTo 1) ⟨rfl, rfl⟩ rfl rfl (ud_initial _ _ _ _ B X hw hs) (by simp [layTwo, udCfg, rnnCls]) ()
    (Shooting.directParameters (upDown nl) (fun _ => none) (ρ 0).1 q p, (ρ 0).1) fun z hz => by
      obtain rfl := Option.some.inj hz
      rfl

/-- `C67_sample` and `C67_order` for this block. -/
example (nl : ℝ → ℝ) (ρ) (q p : Fin 5 × Two (Fin 1) (Fin 2) (Fin 6) → ℝ) (X X' : Tensor ℝ) (hw : X.WF) (hs : X.shape = [7, 1, 2]) (hw' : X'.WF) (hs' : X'.shape = [3, 1, 2])
    (h : ∀ j < 2, elem X 4 0 j = elem X' 0 0 j) (o) (ho : (Block.forward (udCfg (autodiffCls (layTwo 1 2 6) (fun _ => upDown nl) fun _ => none) false ρ Flow.euler) ()
      ⟨some X, none, none, none⟩ (udSt q p)).2 = .ok o) :
    ∃ o' t t', (Block.forward (udCfg (autodiffCls (layTwo 1 2 6) (fun _ => upDown nl) fun _ => none) false ρ Flow.euler) () ⟨some X', none, none, none⟩ (udSt q p)).2 = .ok o' ∧
      o.result = .tensor t ∧ o'.result = .tensor t' ∧ ∀ idx, t.get? (4 :: idx) = t'.get? (0 :: idx) := by
  obtain ⟨o', t, t', h1, _, _, h2, h3, h4⟩ := (C67_sample (c := autodiffCls (layTwo 1 2 6) (fun _ => upDown nl) fun _ => none) (layTwo_ok 1 2 6) (layTwo_ok 1 2 6)
    (indep_autodiff _ (fun _ => (linear_upDown nl).affine) _) (rowwise_upDown nl) (M := Flow.euler) euler_fixed
    (ud_isBlock _ rfl rfl false ρ Flow.euler) rfl rfl (s := udSt q p) ((C67_layouts 1 2 6).2 2 le_rfl).2.1 (w := .upTo 1) ⟨rfl, rfl⟩ rfl rfl (ud_initial _ _ _ _ 7 X hw hs)
    (ud_initial _ _ _ _ 3 X' hw' hs') () () (⟨4, by decide⟩ : Fin 7) (⟨0, by decide⟩ : Fin 3) (by
      rintro (⟨i, j⟩ | k)
      · obtain rfl : i = 0 := Subsingleton.elim _ _
        exact h j.1 j.2
      · rfl)).2 o ho
  exact ⟨o', t, t', h1, h2, h3, fun idx => h4 0 idx⟩

example (nl : ℝ → ℝ) (ρ M) (q p : Fin 5 × Two (Fin 1) (Fin 2) (Fin 6) → ℝ) (B : Nat) (X : Tensor ℝ) (hw : X.WF) (hs : X.shape = [B, 1, 2]) (σ : Equiv.Perm (Fin 5)) :
    ((Block.forward (udCfg (autodiffCls (layTwo 1 2 6) (fun _ => upDown nl) fun _ => none) false ρ M) () ⟨some X, none, none, none⟩ (udSt (rows σ q) (rows σ p))).2.map
        fun o => (o.result, o.data)) =
      (Block.forward (udCfg (autodiffCls (layTwo 1 2 6) (fun _ => upDown nl) fun _ => none) false ρ M) () ⟨some X, none, none, none⟩ (udSt q p)).2.map fun o => (o.result, o.data) :=
  C67_order (c := autodiffCls (layTwo 1 2 6) (fun _ => upDown nl) fun _ => none) (layTwo_ok 1 2 6) (layTwo_ok 1 2 6)
    (indep_autodiff _ (fun _ => (linear_upDown nl).affine) _) (equi_autodiff _ (rowwise_upDown nl) _)
    (ud_isBlock _ rfl rfl false ρ M) rfl rfl (s := udSt q p) ((C67_layouts 1 2 6).2 2 le_rfl).2.1 (w := .upTo 1) ⟨rfl, rfl⟩ rfl rfl (ud_initial _ _ _ _ B X hw hs) () () σ

end Verif.Whole
