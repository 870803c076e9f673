import Verif.Training.Spiral

/-!
# C76, C77: figures and training in the spiral program; losses; concrete runs
-/

namespace Verif.Training
open Verif

variable {K α G M S : Type}

/-- **C77 (partial).** Figures influence the training of the spiral program through the learning rate, but not if the frequencies of the figures are multiples of `--test_freq`: then two runs that differ only in `--viz`,
`--save_figures` and `--viz_freq` end with the same parameters, optimizer and scheduler.  Missing: other frequencies, see `C77_figures_matter`. -/
theorem C77_figures_partial (o : Opts) (longRange : Bool) (env : Env K α G M S) (d : Data α) (initQ : Option (List K)) (w : World K M S) (hb : 0 < o.batchSize) (htf : o.testFreq ≠ 0) (hvf : o.vizFreq ≠ 0)
    (ht : Total env) (n : Nat) (hn : ∀ e, (d.train e).length = n) (hle : o.batchSize ≤ n) (viz save : Bool) (freq : Int) (hfreq : freq ≠ 0) (hd : o.testFreq ∣ o.vizFreq) (hd' : o.testFreq ∣ freq)
    (hq : o.freeRnn = false → o.freeTime = false → hasName "q1" w.pars = true) :
    (spiral { o with viz := viz, saveFigures := save, vizFreq := freq } longRange env d initQ w).1.w.pars = (spiral o longRange env d initQ w).1.w.pars ∧
      (spiral { o with viz := viz, saveFigures := save, vizFreq := freq } longRange env d initQ w).1.w.sched = (spiral o longRange env d initQ w).1.w.sched := by
  let o' : Opts := { o with viz := viz, saveFigures := save, vizFreq := freq }
  change (spiral o' longRange env d initQ w).1.w.pars = _ ∧ (spiral o' longRange env d initQ w).1.w.sched = _
  have hf : Fine o := ⟨hb, htf, hvf⟩
  have hf' : Fine o' := ⟨hb, htf, hfreq⟩
  have hm0 : n / o.batchSize.toNat ≠ 0 := (Nat.div_pos (by omega) (by omega)).ne'
  obtain ⟨w1, h1, h2, -⟩ := spiralSetup_ok o initQ w hq
  have h1' : spiralSetup o' initQ w = (w1, .ok ()) := h1
  have hcond : ∀ e : Nat, (o.testFreq ∣ (e : Int) ∨ o.vizFreq ∣ (e : Int) ∨ (e : Int) = o.niters) ↔ (o'.testFreq ∣ (e : Int) ∨ o'.vizFreq ∣ (e : Int) ∨ (e : Int) = o'.niters) := by
    intro e
    change _ ↔ (o.testFreq ∣ (e : Int) ∨ freq ∣ (e : Int) ∨ (e : Int) = o.niters)
    constructor
    · rintro (h | h | h)
      · exact Or.inl h
      · exact Or.inl (hd.trans h)
      · exact Or.inr (Or.inr h)
    · rintro (h | h | h)
      · exact Or.inl h
      · exact Or.inl (hd'.trans h)
      · exact Or.inr (Or.inr h)
  have hrel := forLoop_rel (fun (v v' : SWorld K M S) => (hasName "q1" v.w.pars = hasName "q1" w.pars) ∧ v.w.pars = v'.w.pars ∧ v.w.sched = v'.w.sched)
    (spiralEpoch o env d (trainBatches o.batchSize d.train)) (spiralEpoch o' env d (trainBatches o'.batchSize d.train)) (epochs o) (fun e _ v v' hv => by
      obtain ⟨s1, a1, a2, -, -, -, a6, a7⟩ := spiralUnfreeze_ok o e v (fun a b => by rw [hv.1]; exact hq a b)
      obtain ⟨s1', a1', a2', -, -, -, a6', a7'⟩ := spiralUnfreeze_ok o' e v' (fun a b => by rw [← hv.2.1, hv.1]; exact hq a b)
      have hs1 : s1.w.pars = s1'.w.pars := by
        rw [a7, a7', hv.2.1]
      have bat := forLoop_rel (fun (v v' : SWorld K M S) => (hasName "q1" v.w.pars = hasName "q1" w.pars) ∧ v.w.pars = v'.w.pars ∧ v.w.sched = v'.w.sched)
        (fun (x : List α × Nat) => spiralBatch env e x.2 x.1) (fun (x : List α × Nat) => spiralBatch env e x.2 x.1) (trainBatches o.batchSize d.train e).zipIdx (fun x _ y y' hy => by
          refine ⟨_, _, spiralBatch_ok env ht e x.2 x.1 y, spiralBatch_ok env ht e x.2 x.1 y', ?_, ?_, hy.2.2⟩
          · simp only
            rw [hasName_map _ _ (update_name env y.w x.1)]
            exact hy.1
          · simp only
            rw [← hy.2.1]
            apply List.map_congr_left
            intro p _
            unfold update
            rw [show y'.w.vals = y.w.vals by rw [World.vals, World.vals, hy.2.1], hy.2.2]) s1 s1' ⟨a2.trans hv.1, hs1, by rw [a6, a6', hv.2.2]⟩
      obtain ⟨s2, s2', b1, b1', b2, b3, b4⟩ := bat
      have hne : trainBatches o.batchSize d.train e ≠ [] := by
        intro h
        have := trainBatches_length o.batchSize hb d.train e
        rw [h, hn] at this
        exact hm0 this.symm
      have set2 : s2.lossSet = true := by
        obtain ⟨z, z1, -, z3, -⟩ := spiralBatches_ok env ht e (trainBatches o.batchSize d.train e) s1
        rw [b1] at z1
        cases z1
        exact z3 (Or.inr hne)
      have set2' : s2'.lossSet = true := by
        obtain ⟨z, z1, -, z3, -⟩ := spiralBatches_ok env ht e (trainBatches o.batchSize d.train e) s1'
        rw [b1'] at z1
        cases z1
        exact z3 (Or.inr hne)
      obtain ⟨s3, c1, c2, -, -, c5, -⟩ := spiralEval_ok o hf env ht e d.eval s2 set2
      obtain ⟨s3', c1', c2', -, -, c5', -⟩ := spiralEval_ok o' hf' env ht e d.eval s2' set2'
      obtain ⟨s4, d1, d2, d3, -⟩ := spiralShow_ok o hf env ht e d.test s3
      obtain ⟨s4', d1', d2', d3', -⟩ := spiralShow_ok o' hf' env ht e d.test s3'
      refine ⟨s4, s4', ?_, ?_, by rw [d2, c2, b2], by rw [d2, c2, d2', c2', b3], ?_⟩
      · unfold spiralEpoch
        rw [a1]
        simp only [andThen]
        rw [b1]
        simp only
        rw [c1]
        exact d1
      · unfold spiralEpoch
        rw [a1']
        simp only [andThen]
        rw [b1']
        simp only
        rw [c1']
        exact d1'
      · obtain ⟨l, hl⟩ := ht s2.w.vals false d.eval
        rw [d3, d3', c5 l hl, c5' l (by rw [show s2'.w.vals = s2.w.vals by rw [World.vals, World.vals, b3]]; exact hl), b4]
        simp only [hcond e]) ⟨w1, false, false⟩ ⟨w1, false, false⟩ ⟨h2, rfl, rfl⟩
  obtain ⟨s, s', h4, h5, h6⟩ := hrel
  have hend : ∀ (p : Opts) (v : SWorld K M S), (spiralEnd p longRange env d v).1 = v := by
    intro p v
    unfold spiralEnd
    split
    · rfl
    · split
      · rfl
      · split <;> rfl
  have m1 : (spiral o longRange env d initQ w).1 = s := by
    unfold spiral
    rw [if_neg (by omega), h1]
    simp only [h4]
    exact hend o s
  have m2 : (spiral o' longRange env d initQ w).1 = s' := by
    have he : epochs o' = epochs o := rfl
    have hbs : o'.batchSize = o.batchSize := rfl
    unfold spiral
    rw [if_neg (by rw [hbs]; omega), h1']
    simp only
    rw [he, h5]
    exact hend o' s'
  rw [m1, m2]
  exact ⟨h6.2.1.symm, h6.2.2.symm⟩

/-! ## Loss of the spiral program -/

/-- **C77.** The loss of the spiral program: for the norms `l1` and `l2` the sum of similarity loss and norm loss; with weights that are not negative no part is negative, and the similarity loss vanishes exactly if all predictions are right.
Any other norm is refused. -/
theorem C77_loss (norm : String) (noPenalty : Bool) (simWeight normWeight : ℝ) (hs : 0 < simWeight) (hw : 0 ≤ normWeight) (pred out : List (ℝ × ℝ)) (hlen : pred.length = out.length) (hne : pred ≠ []) (penalty : ℝ) (hp : 0 ≤ penalty) :
    (norm = "l1" ∨ norm = "l2" → ∃ l, spiralLoss Real.sqrt norm noPenalty simWeight normWeight pred out penalty = .ok l ∧ l.loss = l.sim + l.normLoss ∧ 0 ≤ l.sim ∧ 0 ≤ l.normLoss ∧ (l.sim = 0 ↔ pred = out) ∧
      l.normLoss = if noPenalty then 0 else normWeight * penalty) ∧
    (norm ≠ "l1" → norm ≠ "l2" → spiralLoss Real.sqrt norm noPenalty simWeight normWeight pred out penalty = .error .valueError) := by
  constructor
  · intro hn
    have hnl : 0 ≤ (if noPenalty then 0 else normWeight * penalty) := by
      split
      · exact le_rfl
      · exact mul_nonneg hw hp
    rcases hn with rfl | rfl
    · refine ⟨_, rfl, rfl, ?_, hnl, ?_, rfl⟩
      all_goals
        have hnn : ∀ a ∈ (List.zipWith (fun p y : ℝ × ℝ => [|p.1 - y.1|, |p.2 - y.2|]) pred out).flatten, 0 ≤ a := by
          intro a ha
          obtain ⟨l, hl, hal⟩ := List.mem_flatten.1 ha
          obtain ⟨x, y, rfl⟩ := zipWith_mem _ _ _ _ hl
          simp only [List.mem_cons, List.not_mem_nil, or_false] at hal
          rcases hal with h | h <;> rw [h] <;> exact abs_nonneg _
      · exact mul_nonneg hs.le (mean_nonneg _ hnn)
      · simp only
        have hz : (List.zipWith (fun p y : ℝ × ℝ => [|p.1 - y.1|, |p.2 - y.2|]) pred out).flatten ≠ [] := by
          cases pred with
          | nil => exact absurd rfl hne
          | cons p pred =>
            cases out with
            | nil => simp at hlen
            | cons y out => simp
        rw [mul_eq_zero, or_iff_right hs.ne', mean_eq_zero _ hz hnn]
        clear hz hnn hne
        induction pred generalizing out with
        | nil =>
          cases out with
          | nil => simp
          | cons y out => simp at hlen
        | cons p pred ih =>
          cases out with
          | nil => simp at hlen
          | cons y out =>
            have := ih out (by simpa using hlen)
            simp only [List.zipWith_cons_cons, List.flatten_cons, List.cons_append, List.nil_append, List.mem_cons, forall_eq_or_imp, this, abs_eq_zero, sub_eq_zero, List.cons.injEq, Prod.ext_iff, and_assoc]
    · refine ⟨_, rfl, rfl, ?_, hnl, ?_, rfl⟩
      all_goals
        have hnn : ∀ a ∈ List.zipWith (fun p y : ℝ × ℝ => Real.sqrt ((p.1 - y.1) ^ 2 + (p.2 - y.2) ^ 2)) pred out, 0 ≤ a := by
          intro a ha
          obtain ⟨x, y, rfl⟩ := zipWith_mem _ _ _ _ ha
          exact Real.sqrt_nonneg _
      · exact mul_nonneg hs.le (mean_nonneg _ hnn)
      · simp only
        have hz : List.zipWith (fun p y : ℝ × ℝ => Real.sqrt ((p.1 - y.1) ^ 2 + (p.2 - y.2) ^ 2)) pred out ≠ [] := by
          intro h
          have := congrArg List.length h
          simp only [List.length_zipWith, List.length_nil, ← hlen, min_self] at this
          exact hne (List.length_eq_zero_iff.1 this)
        rw [mul_eq_zero, or_iff_right hs.ne', mean_eq_zero _ hz hnn]
        apply zipWith_zero_iff _ _ _ _ hlen
        intro a b
        rw [Real.sqrt_eq_zero (by positivity)]
        constructor
        · intro h
          have h1 : (a.1 - b.1) ^ 2 = 0 := le_antisymm (by nlinarith [sq_nonneg (a.2 - b.2)]) (sq_nonneg _)
          have h2 : (a.2 - b.2) ^ 2 = 0 := le_antisymm (by nlinarith [sq_nonneg (a.1 - b.1)]) (sq_nonneg _)
          exact Prod.ext (sub_eq_zero.1 (pow_eq_zero_iff two_ne_zero |>.1 h1)) (sub_eq_zero.1 (pow_eq_zero_iff two_ne_zero |>.1 h2))
        · rintro rfl
          simp
  · intro h1 h2
    unfold spiralLoss
    rw [if_neg h1, if_neg h2]
    rfl

/-- The entry `norm_penalty` in the results file of the spiral program with the default weight 0.01: one hundredth of the penalty. -/
example : (spiralLoss (fun x : ℚ => x) "l1" false 100 (1 / 100) [(1, 2)] [(1, 4)] 5).map (fun l => ((saved l).normPenalty, l.penalty)) = .ok (1 / 20, 5) := by decide +kernel

/-! ## Concrete runs -/

/-- A network with two parameters; the loss is the square of the first particle, the optimizer is gradient descent, the scheduler halves the learning rate. -/
def demoEnv : Env ℚ ℚ ℚ Unit ℚ where
  loss v _ _ := .ok ⟨((v.flatMap Prod.snd).map fun x => x ^ 2).sum, ((v.flatMap Prod.snd).map fun x => x ^ 2).sum, 0, 0⟩
  grad v _ n := (v.find? fun p => p.1 = n).map fun p => 2 * p.2.sum
  adam lr _ g v := (v.map fun x => x - lr * g, ())
  rate _ lr := lr / 2

theorem demo_total : Total demoEnv := fun _ _ _ => ⟨_, rfl⟩

def demoOpts : Opts := ⟨2, 3, 2, 3, true, 2, true, false, true, false, false, false, false, false, false, false, false⟩

def demoData : Data ℚ := ⟨fun _ => [1, 2, 3, 4, 5], [1], [1], [1]⟩

def demoWorld : World ℚ Unit ℚ := ⟨[⟨"q1", [0], (), true⟩, ⟨"p1", [1], (), true⟩], 1 / 4, []⟩

/-- The hypotheses of `C76_schedule` and `C76_steps` are met. -/
example : steps ((mapping demoOpts 1 demoEnv demoData [1] demoWorld).1.log.map Event.tag) = 8 :=
  C76_steps demoOpts 1 demoEnv demoData [1] demoWorld rfl (by decide) (by decide) (by decide) demo_total 5 (fun _ => rfl) rfl (fun _ => rfl)

/-- `C76_no_epochs`: a recurrent network is tested and saved, a neural ODE is not. -/
example : mapping { demoOpts with niters := -1, useRnn := true } 1 demoEnv demoData [1] demoWorld = (demoWorld, .ok (some ⟨1, 1, 0, 0⟩)) ∧
    mapping { demoOpts with niters := -1, useOde := true } 1 demoEnv demoData [1] demoWorld = (demoWorld, .error .unboundLocal) := by
  constructor
  · rw [(C76_no_epochs _ 1 demoEnv demoData [1] demoWorld (by decide) (by decide)).1 (.inl rfl)]
    decide +kernel
  · exact (C76_no_epochs _ 1 demoEnv demoData [1] demoWorld (by decide) (by decide)).2 rfl rfl rfl rfl rfl rfl

/-- The particle stays at 1 for two epochs (frozen), then moves; the learning rate is halved in epochs 0 and 2. -/
example : mapping demoOpts 1 demoEnv demoData [1] demoWorld =
    (⟨[⟨"q1", [441 / 1024], (), true⟩, ⟨"p1", [3969 / 65536], (), true⟩], 1 / 16,
      [.step 0 0, .step 0 1, .evaluated 0, .rate 0 (17 / 16), .figure 0, .step 1 0, .step 1 1, .step 2 0, .step 2 1, .evaluated 2, .rate 2 (338337 / 1048576), .step 3 0, .step 3 1, .evaluated 3, .figure 3]⟩,
      .ok (some ⟨812347137 / 4294967296, 812347137 / 4294967296, 0, 0⟩)) := by
  decide +kernel

/-- Frozen for the whole run (`C76_frozen`), clamped (`C76_clamped`). -/
example : ∀ p ∈ (mapping { demoOpts with unfreezeAt := -1 } 1 demoEnv demoData [1] demoWorld).1.pars, p.name = "q1" → p.val = [1] :=
  C76_frozen { demoOpts with unfreezeAt := -1 } 1 demoEnv demoData [1] demoWorld (by decide) rfl ⟨rfl, rfl⟩ rfl (Or.inl (by decide)) (by decide +kernel) rfl

example : ∀ p ∈ (mapping demoOpts 1 demoEnv demoData [1] demoWorld).1.pars, p.name = "q1" → ∀ a ∈ p.val, -1 ≤ a ∧ a ≤ 1 :=
  C76_clamped demoOpts 1 (by norm_num) demoEnv demoData [1] demoWorld (by decide) rfl ⟨rfl, rfl⟩ rfl (by decide +kernel) rfl

/-- A network for comparison. -/
example : mapping { demoOpts with useUpdown := true } 1 demoEnv demoData [1] demoWorld = (demoWorld, .error .unboundLocal) :=
  C76_comparison _ 1 demoEnv demoData [1] demoWorld (by decide) (by decide) (by decide)

/-- Batches of six of five samples: no training, but results. -/
example : mapping { demoOpts with batchSize := 6, freezing := false } 1 demoEnv demoData [1] demoWorld =
    (⟨[⟨"q1", [1], (), true⟩, ⟨"p1", [1], (), true⟩], 1 / 16, [.evaluated 0, .rate 0 2, .figure 0, .evaluated 2, .rate 2 2, .evaluated 3, .figure 3]⟩, .ok (some ⟨2, 2, 0, 0⟩)) := by
  decide +kernel

/-- The parameter `q1` does not exist: `KeyError` after the first step. -/
example : (mapping { demoOpts with freeRnn := true } 1 demoEnv demoData [1] ⟨[⟨"p1", [1], (), true⟩], 1 / 4, []⟩).2 = .error .keyError :=
  (C76_clamp_particle_free { demoOpts with freeRnn := true } 1 demoEnv demoData [1] ⟨[⟨"p1", [1], (), true⟩], 1 / 4, []⟩ (by decide) (by decide) rfl (Or.inl rfl) rfl demo_total rfl (by decide)).1

/-- The hypotheses of `C76_figures` are met. -/
example : (mapping { demoOpts with viz := true, saveFigures := false, vizFreq := 1 } 1 demoEnv demoData [1] demoWorld).1.pars = (mapping demoOpts 1 demoEnv demoData [1] demoWorld).1.pars :=
  (C76_figures demoOpts 1 demoEnv demoData [1] demoWorld rfl (by decide) (by decide) (by decide) demo_total true false 1 (by decide) (fun _ => rfl)).1

def demoSpiral : Opts := { demoOpts with testFreq := 4, niters := 4 }

/-- **C77.** Figures can change what is learned in the spiral program: two runs that differ only in `--viz_freq` end with different parameters. -/
theorem C77_figures_matter : ∃ (o o' : Opts) (env : Env ℚ ℚ ℚ Unit ℚ) (d : Data ℚ) (initQ : Option (List ℚ)) (w : World ℚ Unit ℚ), o' = { o with vizFreq := o'.vizFreq } ∧ o.vizFreq ≠ 0 ∧ o'.vizFreq ≠ 0 ∧ Total env ∧
    (spiral o false env d initQ w).1.w.vals = [("q1", [3969 / 16384]), ("p1", [35721 / 1048576])] ∧ (spiral o' false env d initQ w).1.w.vals = [("q1", [729 / 4096]), ("p1", [6561 / 262144])] :=
  ⟨demoSpiral, { demoSpiral with vizFreq := 4 }, demoEnv, demoData, some [1], demoWorld, rfl, by decide, by decide, demo_total, by decide +kernel, by decide +kernel⟩

example : (spiral { demoSpiral with vizFreq := 8, viz := true, saveFigures := false } true demoEnv demoData (some [1]) demoWorld).1.w.pars =
    (spiral { demoSpiral with vizFreq := 4 } true demoEnv demoData (some [1]) demoWorld).1.w.pars :=
  (C77_figures_partial { demoSpiral with vizFreq := 4 } true demoEnv demoData (some [1]) demoWorld (by decide) (by decide) (by decide) demo_total 5 (fun _ => rfl) (by decide) true false 8 (by decide) (by decide) (by decide)
    (fun _ _ => rfl)).1

example : spiral demoSpiral true demoEnv demoData (some [1]) demoWorld =
    (⟨⟨[⟨"q1", [3969 / 16384], (), true⟩, ⟨"p1", [35721 / 1048576], (), true⟩], 1 / 32,
      [.step 0 0, .step 0 1, .evaluated 0, .rate 0 (17 / 16), .figure 0, .step 1 0, .step 1 1, .step 2 0, .step 2 1, .step 3 0, .step 3 1, .evaluated 3, .rate 3 (27405297 / 268435456), .figure 3, .step 4 0, .step 4 1,
        .evaluated 4, .rate 4 (65800118097 / 1099511627776)]⟩, true, true⟩,
      .ok (some ⟨some ⟨65800118097 / 1099511627776, 65800118097 / 1099511627776, 0, 0⟩, ⟨65800118097 / 1099511627776, 65800118097 / 1099511627776, 0, 0⟩⟩)) := by
  decide +kernel

example : ∃ s r, spiral demoSpiral true demoEnv demoData (some [1]) demoWorld = (s, .ok r) ∧ s.w.log.map Event.tag = (List.range 5).flatMap (spiralTags 5 2 4 3 4) :=
  C77_schedule demoSpiral true demoEnv demoData (some [1]) demoWorld (by decide) (by decide) (by decide) (by decide) demo_total 5 (fun _ => rfl) (by decide) rfl (fun _ _ => rfl)

example : (spiral { demoSpiral with batchSize := 6 } true demoEnv demoData (some [1]) demoWorld).2 = .error .unboundLocal :=
  (C77_no_batches { demoSpiral with batchSize := 6 } true demoEnv demoData (some [1]) demoWorld (by decide) (by decide) (by decide) 5 (fun _ => rfl) (by decide) rfl (fun _ _ => rfl)).1

example : (spiral { demoSpiral with niters := -1 } true demoEnv demoData (some [1]) demoWorld).2 = .error .unboundLocal :=
  C77_no_epochs { demoSpiral with niters := -1 } demoEnv demo_total demoData (some [1]) demoWorld (by decide) (by decide) (fun _ _ => rfl)

example : ∀ p ∈ (spiral { demoSpiral with unfreezeAt := 5 } true demoEnv demoData (some [1]) demoWorld).1.w.pars, p.name = "q1" → p.val = [1] :=
  C77_frozen { demoSpiral with unfreezeAt := 5 } true demoEnv demoData [1] demoWorld (by decide) ⟨rfl, rfl⟩ rfl (Or.inr (by decide)) rfl

end Verif.Training
