import Verif.Training.Lemmas
import Mathlib.Tactic.Positivity
import Mathlib.Tactic.Linarith
import Mathlib.Tactic.FieldSimp
import Mathlib.Tactic.Ring
import Mathlib.Algebra.Order.BigOperators.Group.List
import Mathlib.Algebra.BigOperators.Group.List.Basic

/-!
# C76: the functional mapping experiment
-/

namespace Verif.Training
open Verif

variable {K α G M S : Type}

/-! ## The schedule of a run -/

theorem usesParticles_eq (o : Opts) (hs : net o = .shooting) : usesParticles o = some (!(o.freeRnn || o.freeTime)) := by rw [usesParticles, if_pos hs]

theorem mappingSetup_ok (o : Opts) (initQ : List K) (w : World K M S) (hs : net o = .shooting) (hq : o.freeRnn = false → o.freeTime = false → hasName "q1" w.pars = true) :
    ∃ w', mappingSetup o initQ w = (w', .ok ()) ∧ hasName "q1" w'.pars = hasName "q1" w.pars ∧ w'.tags = w.tags := by
  unfold mappingSetup
  rw [usesParticles_eq o hs]
  by_cases h : (o.freeRnn || o.freeTime) = true
  · simp [h]
  · simp only [Bool.not_eq_true, Bool.or_eq_false_iff] at h
    have hh := hq h.1 h.2
    simp only [h.1, h.2, Bool.or_self, Bool.not_false]
    rw [modify_ok _ _ _ hh]
    simp only [andThen]
    have h1 : hasName "q1" (w.pars.map fun p => if p.name = "q1" then { p with val := initQ } else p) = hasName "q1" w.pars := hasName_map _ _ (fun p => by split <;> rfl) _
    split
    · rw [modify_ok _ _ _ (by rw [h1]; exact hh)]
      refine ⟨_, rfl, ?_, rfl⟩
      rw [hasName_map _ _ (fun p => by split <;> rfl), h1]
    · exact ⟨_, rfl, h1, rfl⟩

theorem mappingUnfreeze_ok (o : Opts) (e : Nat) (w : World K M S) (hs : net o = .shooting) (hq : o.freeRnn = false → o.freeTime = false → hasName "q1" w.pars = true) :
    ∃ w', mappingUnfreeze o e w = (w', .ok ()) ∧ hasName "q1" w'.pars = hasName "q1" w.pars ∧ w'.tags = w.tags := by
  unfold mappingUnfreeze
  rw [usesParticles_eq o hs]
  dsimp only
  split
  · next h =>
    simp only [Bool.and_eq_true, Bool.not_eq_true', Bool.or_eq_false_iff] at h
    rw [modify_ok _ _ _ (hq h.1.1.1 h.1.1.2)]
    refine ⟨_, rfl, ?_, rfl⟩
    rw [hasName_map _ _ (fun p => by split <;> rfl)]
  · exact ⟨_, rfl, rfl, rfl⟩

theorem flatMap_zipIdx {X Y : Type} (f : Nat → Y) (l : List X) : l.zipIdx.flatMap (fun x => [f x.2]) = (List.range l.length).map f := by
  rw [← List.map_eq_flatMap]
  have : l.zipIdx.map (fun x => f x.2) = (l.zipIdx.map Prod.snd).map f := by rw [List.map_map]; rfl
  rw [this, List.zipIdx_map_snd, List.range_eq_range']

theorem mappingEpoch_ok [Field K] [LinearOrder K] (o : Opts) (xrange : K) (env : Env K α G M S) (ht : Total env) (hf : Fine o) (hs : net o = .shooting) (evalBatch : List α) (batches : Nat → List (List α)) (m : Nat)
    (hm : ∀ e, (batches e).length = m) (e : Nat) (w : World K M S) (hq : (o.clamp = true ∨ o.freeRnn = false ∧ o.freeTime = false) → hasName "q1" w.pars = true) :
    ∃ w', mappingEpoch o xrange env evalBatch batches e w = (w', .ok ()) ∧ hasName "q1" w'.pars = hasName "q1" w.pars ∧
      w'.tags = w.tags ++ ((List.range m).map (Tag.step e) ++ ((if o.testFreq ∣ (e : Int) ∨ o.vizFreq ∣ (e : Int) ∨ (e : Int) = o.niters then [Tag.evaluated e] else []) ++
        ((if o.testFreq ∣ (e : Int) then [Tag.rate e] else []) ++
        (if (o.viz || o.saveFigures) = true ∧ (o.vizFreq ∣ (e : Int) ∨ (e : Int) = o.niters) then [Tag.figure e] else [])))) := by
  obtain ⟨w1, h1, h2, h3⟩ := mappingUnfreeze_ok o e w hs (fun a b => hq (Or.inr ⟨a, b⟩))
  obtain ⟨w2, h4, h5, h6⟩ := forLoop_ok (fun v : World K M S => hasName "q1" v.pars = hasName "q1" w.pars) World.tags (fun (x : List α × Nat) => mappingBatch o xrange env e x.2 x.1) (fun x => [Tag.step e x.2])
    (batches e).zipIdx (fun x _ v hv => by
      obtain ⟨v', a, b, c⟩ := mappingBatch_ok o xrange env ht e x.2 x.1 v (fun hc => by rw [hv]; exact hq (Or.inl hc))
      exact ⟨v', a, b.trans hv, c⟩) w1 h2
  obtain ⟨w3, h7, h8, -, h9⟩ := mappingEval_ok o hf env ht e evalBatch w2
  refine ⟨w3, ?_, by rw [h8, h5], ?_⟩
  · unfold mappingEpoch
    rw [h1]
    simp only [andThen]
    rw [h4]
    exact h7
  · rw [h9, h6, h3, flatMap_zipIdx, hm, List.append_assoc]

/-- **C76.** The schedule of the functional mapping program: with a shooting network, a positive batch size, frequencies that are not zero and losses that can be computed, the program ends without an exception, and what it did is: in
each of the `niters + 1` epochs one optimizer step per full batch, evaluation, adaptation of the learning rate and figures as the options say. -/
theorem C76_schedule [Field K] [LinearOrder K] (o : Opts) (xrange : K) (env : Env K α G M S) (d : Data α) (initQ : List K) (w : World K M S) (hs : net o = .shooting) (hb : 0 < o.batchSize) (htf : o.testFreq ≠ 0)
    (hvf : o.vizFreq ≠ 0) (ht : Total env) (n : Nat) (hn : ∀ e, (d.train e).length = n) (hw : w.log = []) (hq : (o.clamp = true ∨ o.freeRnn = false ∧ o.freeTime = false) → hasName "q1" w.pars = true) :
    ∃ w' r, mapping o xrange env d initQ w = (w', .ok r) ∧
      w'.log.map Event.tag = (List.range (o.niters + 1).toNat).flatMap (mappingTags n o.batchSize.toNat o.testFreq o.vizFreq o.niters (o.viz || o.saveFigures)) := by
  have hf : Fine o := ⟨hb, htf, hvf⟩
  obtain ⟨w1, h1, h2, h3⟩ := mappingSetup_ok o initQ w hs (fun a b => hq (Or.inr ⟨a, b⟩))
  obtain ⟨w2, h4, h5, h6⟩ := forLoop_ok (fun v : World K M S => hasName "q1" v.pars = hasName "q1" w.pars) World.tags (mappingEpoch o xrange env d.eval (trainBatches o.batchSize d.train))
    (mappingTags n o.batchSize.toNat o.testFreq o.vizFreq o.niters (o.viz || o.saveFigures)) (epochs o) (fun e _ v hv => by
      obtain ⟨v', a, b, c⟩ := mappingEpoch_ok o xrange env ht hf hs d.eval (trainBatches o.batchSize d.train) (n / o.batchSize.toNat) (fun e => by rw [trainBatches_length _ hb, hn]) e v (fun h => by rw [hv]; exact hq h)
      refine ⟨v', a, b.trans hv, ?_⟩
      rw [c, mappingTags, stepTags]
      simp only [List.append_assoc]) w1 h2
  obtain ⟨l, hl⟩ := ht w2.vals false d.test
  obtain ⟨l', hl'⟩ := ht w2.vals false d.show'
  refine ⟨w2, if o.saveFigures then some (saved l) else none, ?_, ?_⟩
  · unfold mapping
    rw [if_neg (by omega), h1]
    dsimp only
    rw [hs, weightDecay]
    dsimp only
    rw [h4]
    dsimp only
    rw [mappingEnd, hl]
    dsimp only
    rw [if_pos hs, hl']
  · have : w.tags = [] := by rw [World.tags, hw]; rfl
    rw [h3, this, List.nil_append] at h6
    exact h6

/-- The number of optimizer steps in a list of tags. -/
def steps (l : List Tag) : Nat := l.countP fun t => match t with | .step _ _ => true | _ => false

theorem steps_mappingTags (n size : Nat) (a b c : Int) (f : Bool) (e : Nat) : steps (mappingTags n size a b c f e) = n / size := by
  have h1 : (stepTags n size e).countP (fun t => match t with | .step _ _ => true | _ => false) = n / size := by
    rw [stepTags, List.countP_map]
    have : ((fun t => match t with | Tag.step _ _ => true | _ => false) ∘ Tag.step e) = fun _ : Nat => true := rfl
    rw [this, List.countP_true, List.length_range]
  unfold steps mappingTags
  rw [List.countP_append, List.countP_append, List.countP_append, h1]
  split_ifs <;> simp

/-- **C76.** The number of optimizer steps of a run: the number of full batches times one more than `niters`. -/
theorem C76_steps [Field K] [LinearOrder K] (o : Opts) (xrange : K) (env : Env K α G M S) (d : Data α) (initQ : List K) (w : World K M S) (hs : net o = .shooting) (hb : 0 < o.batchSize) (htf : o.testFreq ≠ 0)
    (hvf : o.vizFreq ≠ 0) (ht : Total env) (n : Nat) (hn : ∀ e, (d.train e).length = n) (hw : w.log = []) (hq : (o.clamp = true ∨ o.freeRnn = false ∧ o.freeTime = false) → hasName "q1" w.pars = true) :
    steps ((mapping o xrange env d initQ w).1.log.map Event.tag) = (o.niters + 1).toNat * (n / o.batchSize.toNat) := by
  obtain ⟨w', r, h1, h2⟩ := C76_schedule o xrange env d initQ w hs hb htf hvf ht n hn hw hq
  rw [h1]
  simp only
  rw [h2]
  generalize (o.niters + 1).toNat = m
  induction m with
  | zero => simp [steps]
  | succ m ih =>
    rw [List.range_succ, List.flatMap_append, steps, List.countP_append]
    rw [steps] at ih
    rw [ih]
    have := steps_mappingTags n o.batchSize.toNat o.testFreq o.vizFreq o.niters (o.viz || o.saveFigures) m
    rw [steps] at this
    simp only [List.flatMap_singleton, this]
    ring

/-! ## Results file -/

/-- **C76.** What is in the results file when the program ends: nothing without `--save_figures`, otherwise loss, similarity loss and norm loss of the network with the final parameters on the test data, and the norm loss once more. -/
theorem C76_saved [Field K] [LinearOrder K] (o : Opts) (xrange : K) (env : Env K α G M S) (d : Data α) (initQ : List K) (w w' : World K M S) (r : Option (Saved K)) (h : mapping o xrange env d initQ w = (w', .ok r)) :
    ∃ l, env.loss w'.vals false d.test = .ok l ∧ r = if o.saveFigures then some ⟨l.loss, l.sim, l.normLoss, l.normLoss⟩ else none := by
  unfold mapping at h
  split at h
  · cases h
  · split at h
    · cases h
    · split at h
      · cases h
      · split at h
        · cases h
        · unfold mappingEnd at h
          split at h
          · cases h
          · next l hl =>
            split at h
            · cases h
            · cases h
              exact ⟨l, hl, rfl⟩

/-- **C76.** The entry `norm_penalty` of the results file is not the penalty: it is it only if the weight of the penalty is one or the penalty is zero. -/
theorem C76_norm_penalty [Field K] (simWeight normWeight : K) (pred out : List K) (penalty : K) (noPenalty : Bool) :
    (saved (functionalLoss true noPenalty simWeight normWeight pred out penalty)).normPenalty = penalty ↔ penalty = 0 ∨ (noPenalty = false ∧ normWeight = 1) := by
  cases noPenalty
  · simp only [saved, functionalLoss, if_true, Bool.false_eq_true, if_false, true_and]
    constructor
    · intro h
      by_cases hp : penalty = 0
      · exact Or.inl hp
      · exact Or.inr (mul_right_cancel₀ hp (by rw [h, one_mul]))
    · rintro (h | h)
      · rw [h, mul_zero]
      · rw [h, one_mul]
  · simp only [saved, functionalLoss, if_true, Bool.true_eq_false, false_and, or_false]
    exact eq_comm

/-! ## Networks for comparison -/

/-- **C76.** The networks for comparison cannot be trained: with any of the options `--use_rnn`, `--use_double_resnet_rnn`, `--use_updown`, `--use_simple_resnet`, `--use_double_resnet`, `--use_neural_ode` the program stops with a
`NameError` before the first optimizer step. -/
theorem C76_comparison [Field K] [LinearOrder K] (o : Opts) (xrange : K) (env : Env K α G M S) (d : Data α) (initQ : List K) (w : World K M S) (hb : 0 < o.batchSize) (hi : 0 ≤ o.niters)
    (h : o.useRnn = true ∨ o.useDoubleRnn = true ∨ o.useUpdown = true ∨ o.useSimple = true ∨ o.useDouble = true ∨ o.useOde = true) : mapping o xrange env d initQ w = (w, .error .unboundLocal) := by
  have hn : net o ≠ .shooting := by
    unfold net
    split_ifs <;> simp_all
  have hu : usesParticles o = none := by rw [usesParticles, if_neg hn]
  unfold mapping
  rw [if_neg (by omega), mappingSetup, hu]
  dsimp only
  split
  · rfl
  · have he : epochs o = 0 :: (List.range o.niters.toNat).map Nat.succ := by
      rw [epochs, show (o.niters + 1).toNat = o.niters.toNat + 1 by omega, List.range_succ_eq_map]
    rw [he, forLoop, mappingEpoch, mappingUnfreeze, hu]
    rfl

/-- **C76.** Without an epoch (`--niters` negative) the networks for comparison are tested as they were created, whatever they predict; only the neural ODE stops with a `NameError` (its weight decay is never set). -/
theorem C76_no_epochs [Field K] [LinearOrder K] (o : Opts) (xrange : K) (env : Env K α G M S) (d : Data α) (initQ : List K) (w : World K M S) (hb : 0 < o.batchSize) (hi : o.niters < 0) :
    ((o.useRnn = true ∨ o.useDoubleRnn = true ∨ o.useUpdown = true ∨ o.useSimple = true ∨ o.useDouble = true) → mapping o xrange env d initQ w =
      (w, (env.loss w.vals false d.test).map fun l => if o.saveFigures then some (saved l) else none)) ∧
    (o.useRnn = false → o.useDoubleRnn = false → o.useUpdown = false → o.useSimple = false → o.useDouble = false → o.useOde = true → mapping o xrange env d initQ w = (w, .error .unboundLocal)) := by
  have he : epochs o = [] := by rw [epochs, show (o.niters + 1).toNat = 0 by omega, List.range_zero]
  constructor
  · intro h
    have hn : net o ≠ .shooting ∧ net o ≠ .ode := by
      unfold net
      split_ifs <;> simp_all
    have hu : usesParticles o = none := by rw [usesParticles, if_neg hn.1]
    have hw : ∃ k : K, (weightDecay (net o) : Option K) = some k := by
      cases hc : net o <;> simp_all [weightDecay]
    obtain ⟨k, hk⟩ := hw
    unfold mapping
    rw [if_neg (by omega), mappingSetup, hu]
    dsimp only
    rw [hk, he, forLoop]
    dsimp only
    rw [mappingEnd]
    cases env.loss w.vals false d.test with
    | error err => rfl
    | ok l =>
      dsimp only
      rw [if_neg hn.1]
      rfl
  · intro h1 h2 h3 h4 h5 h6
    have hn : net o = .ode := by simp [net, h1, h2, h3, h4, h5, h6]
    have hu : usesParticles o = none := by rw [usesParticles, if_neg (by rw [hn]; simp)]
    unfold mapping
    rw [if_neg (by omega), mappingSetup, hu, hn]
    rfl

/-! ## Frozen and clamped particles -/

theorem mappingEval_pars (o : Opts) (env : Env K α G M S) (e : Nat) (b : List α) (w : World K M S) : (mappingEval o env e b w).1.pars = w.pars := by
  unfold mappingEval
  split
  · rfl
  · rfl
  · split
    · rfl
    · dsimp only
      split
      · rfl
      · split
        · split
          · split_ifs <;> rfl
          · split_ifs <;> rfl
        · split_ifs <;> rfl

theorem andThen_inv {A : Type} (I : A → Prop) (r : A × Py Unit) (g : A → A × Py Unit) (h1 : I r.1) (h2 : ∀ w, I w → I (g w).1) : I (andThen r id g).1 := by
  obtain ⟨w, r⟩ := r
  cases r with
  | error e => exact h1
  | ok u => exact h2 w h1

/-- A property of the parameters that unfreezing and optimizer steps keep holds at the end, whether or not the program ended with an exception. -/
theorem mapping_inv [Field K] [LinearOrder K] (o : Opts) (xrange : K) (env : Env K α G M S) (d : Data α) (initQ : List K) (w : World K M S) (I : List (Par K M) → Prop) (hb : 0 < o.batchSize)
    (h0 : I (mappingSetup o initQ w).1.pars) (hU : ∀ e ∈ epochs o, ∀ v : World K M S, I v.pars → I (mappingUnfreeze o e v).1.pars)
    (hB : ∀ e k b, ∀ v : World K M S, b ∈ trainBatches o.batchSize d.train e → I v.pars → I (mappingBatch o xrange env e k b v).1.pars) : I (mapping o xrange env d initQ w).1.pars := by
  unfold mapping
  rw [if_neg (by omega)]
  cases hw : mappingSetup o initQ w with
  | mk w1 r =>
    rw [hw] at h0
    cases r with
    | error err => exact h0
    | ok u =>
      dsimp only
      split
      · exact h0
      · have h1 := forLoop_inv (fun v : World K M S => I v.pars) (mappingEpoch o xrange env d.eval (trainBatches o.batchSize d.train)) (epochs o) (fun e he v hv => by
          unfold mappingEpoch
          refine andThen_inv (fun v : World K M S => I v.pars) _ _ (hU e he v hv) fun v hv => ?_
          refine andThen_inv (fun v : World K M S => I v.pars) _ _ ?_ fun v hv => ?_
          · refine forLoop_inv (fun v : World K M S => I v.pars) _ _ (fun x hx v hv => ?_) v hv
            refine hB e x.2 x.1 v ?_ hv
            obtain ⟨a, b⟩ := x
            exact (List.mem_zipIdx' hx).2 ▸ List.getElem_mem _
          · rw [mappingEval_pars]
            exact hv) w1 h0
        cases hl : forLoop (mappingEpoch o xrange env d.eval (trainBatches o.batchSize d.train)) (epochs o) w1 with
        | mk w2 r2 =>
          rw [hl] at h1
          cases r2 with
          | error err => exact h1
          | ok u =>
            dsimp only
            unfold mappingEnd
            split
            · exact h1
            · split <;> exact h1

theorem clampTo_of_mem [Field K] [LinearOrder K] (x : K) (v : List K) (h : ∀ a ∈ v, -x ≤ a ∧ a ≤ x) : clampTo x v = v := by
  unfold clampTo
  conv_rhs => rw [← List.map_id v]
  apply List.map_congr_left
  intro a ha
  rw [max_eq_left (h a ha).1, min_eq_left (h a ha).2, id]

theorem clampTo_mem [Field K] [LinearOrder K] [IsStrictOrderedRing K] (x : K) (hx : 0 ≤ x) (v : List K) : ∀ a ∈ clampTo x v, -x ≤ a ∧ a ≤ x := by
  intro a ha
  obtain ⟨b, -, rfl⟩ := List.mem_map.1 ha
  exact ⟨le_min (le_max_right _ _) (by linarith), min_le_right _ _⟩

/-- **C76.** Frozen particles: with `--custom_parameter_freezing` and no unfreezing during the run, the particles are at the end where they were put at the start, whatever data, losses, gradients and exceptions there were. -/
theorem C76_frozen [Field K] [LinearOrder K] (o : Opts) (xrange : K) (env : Env K α G M S) (d : Data α) (initQ : List K) (w : World K M S) (hb : 0 < o.batchSize) (hs : net o = .shooting)
    (hp : o.freeRnn = false ∧ o.freeTime = false) (hfr : o.freezing = true) (hu : o.unfreezeAt < 0 ∨ o.niters < o.unfreezeAt) (hq : ∀ a ∈ initQ, -xrange ≤ a ∧ a ≤ xrange) (hn : hasName "q1" w.pars = true) :
    ∀ p ∈ (mapping o xrange env d initQ w).1.pars, p.name = "q1" → p.val = initQ := by
  have key := mapping_inv o xrange env d initQ w (fun ps => ∀ p ∈ ps, p.name = "q1" → p.val = initQ ∧ p.rg = false) hb ?_ ?_ ?_
  · exact fun p hp' hn' => (key p hp' hn').1
  · unfold mappingSetup
    rw [usesParticles_eq o hs, hp.1, hp.2]
    simp only [Bool.or_self, Bool.not_false]
    rw [modify_ok _ _ _ hn]
    simp only [andThen, hfr, if_true]
    rw [modify_ok _ _ _ (by rw [hasName_map _ _ (fun p => by split <;> rfl)]; exact hn)]
    intro p hp' hname
    simp only [List.mem_map, exists_exists_and_eq_and] at hp'
    obtain ⟨a, -, rfl⟩ := hp'
    by_cases hA : a.name = "q1"
    · simp [hA]
    · simp [hA] at hname
  · intro e he v hv
    have hne : ¬ (e : Int) = o.unfreezeAt := by
      rw [epochs, List.mem_range] at he
      omega
    unfold mappingUnfreeze
    split
    · exact hv
    · rw [if_neg (by simp [hne])]
      exact hv
  · intro e k b v _ hv
    unfold mappingBatch
    have h1 : ∀ p ∈ (trainBatch env e k b v).1.pars, p.name = "q1" → p.val = initQ ∧ p.rg = false := by
      unfold trainBatch
      split
      · exact hv
      · intro p hp' hname
        obtain ⟨a, ha, rfl⟩ := List.mem_map.1 hp'
        rw [update_name] at hname
        have := hv a ha hname
        rw [update_frozen _ _ _ _ this.2]
        exact this
    refine andThen_inv (fun v : World K M S => ∀ p ∈ v.pars, p.name = "q1" → p.val = initQ ∧ p.rg = false) _ _ h1 fun v hv => ?_
    split
    · unfold modify
      split
      · intro p hp' hname
        obtain ⟨a, ha, rfl⟩ := List.mem_map.1 hp'
        by_cases hA : a.name = "q1"
        · have := hv a ha hA
          simp only [hA, if_true]
          rw [this.1]
          exact ⟨clampTo_of_mem _ _ hq, this.2⟩
        · simp [hA] at hname
      · exact hv
    · exact hv

/-- **C76.** Clamped particles: with `--clamp_range` all particles are in the range at the end, whatever happened. -/
theorem C76_clamped [Field K] [LinearOrder K] [IsStrictOrderedRing K] (o : Opts) (xrange : K) (hx : 0 ≤ xrange) (env : Env K α G M S) (d : Data α) (initQ : List K) (w : World K M S) (hb : 0 < o.batchSize)
    (hs : net o = .shooting) (hp : o.freeRnn = false ∧ o.freeTime = false) (hc : o.clamp = true) (hq : ∀ a ∈ initQ, -xrange ≤ a ∧ a ≤ xrange) (hn : hasName "q1" w.pars = true) :
    ∀ p ∈ (mapping o xrange env d initQ w).1.pars, p.name = "q1" → ∀ a ∈ p.val, -xrange ≤ a ∧ a ≤ xrange := by
  have key := mapping_inv o xrange env d initQ w (fun ps => hasName "q1" ps = true ∧ ∀ p ∈ ps, p.name = "q1" → ∀ a ∈ p.val, -xrange ≤ a ∧ a ≤ xrange) hb ?_ ?_ ?_
  · exact key.2
  · obtain ⟨w1, h1, h2, -⟩ := mappingSetup_ok o initQ w hs (fun _ _ => hn)
    refine ⟨by rw [h1]; simp only; rw [h2]; exact hn, ?_⟩
    unfold mappingSetup
    rw [usesParticles_eq o hs, hp.1, hp.2]
    simp only [Bool.or_self, Bool.not_false]
    rw [modify_ok _ _ _ hn]
    simp only [andThen]
    have hval : ∀ p ∈ (w.pars.map fun p => if p.name = "q1" then { p with val := initQ } else p), p.name = "q1" → ∀ a ∈ p.val, -xrange ≤ a ∧ a ≤ xrange := by
      intro p hp' hname
      obtain ⟨a, -, rfl⟩ := List.mem_map.1 hp'
      by_cases hA : a.name = "q1"
      · simpa [hA] using hq
      · simp [hA] at hname
    split
    · rw [modify_ok _ _ _ (by rw [hasName_map _ _ (fun p => by split <;> rfl)]; exact hn)]
      intro p hp' hname
      obtain ⟨a, ha, rfl⟩ := List.mem_map.1 hp'
      have hA : a.name = "q1" := by
        by_contra hA
        simp [hA] at hname
      simpa [hA] using hval a ha hA
    · exact hval
  · intro e _ v hv
    unfold mappingUnfreeze
    split
    · exact hv
    · split
      · rw [modify_ok _ _ _ hv.1]
        refine ⟨by rw [hasName_map _ _ (fun p => by split <;> rfl)]; exact hv.1, ?_⟩
        intro p hp' hname
        obtain ⟨a, ha, rfl⟩ := List.mem_map.1 hp'
        have hA : a.name = "q1" := by
          by_contra hA
          simp [hA] at hname
        simpa [hA] using hv.2 a ha hA
      · exact hv
  · intro e k b v _ hv
    unfold mappingBatch
    cases ht : trainBatch env e k b v with
    | mk v' r =>
      have hname' : hasName "q1" v'.pars = true ∧ (∀ err, r = .error err → v' = v) := by
        unfold trainBatch at ht
        split at ht
        · cases ht
          exact ⟨hv.1, fun _ _ => rfl⟩
        · cases ht
          exact ⟨by rw [hasName_map _ _ (update_name env v b)]; exact hv.1, fun _ h => by cases h⟩
      cases r with
      | error err =>
        rw [hname'.2 err rfl]
        exact hv
      | ok u =>
        simp only [andThen, hc, hs, decide_true, Bool.and_self, if_true]
        rw [modify_ok _ _ _ hname'.1]
        refine ⟨by rw [hasName_map _ _ (fun p => by split <;> rfl)]; exact hname'.1, ?_⟩
        intro p hp' hname
        obtain ⟨a, ha, rfl⟩ := List.mem_map.1 hp'
        have hA : a.name = "q1" := by
          by_contra hA
          simp [hA] at hname
        simp only [hA, if_true]
        exact clampTo_mem xrange hx a.val

/-- **C76.** `--clamp_range` without particles: the first optimizer step is done, then the program stops with a `KeyError`. -/
theorem C76_clamp_particle_free [Field K] [LinearOrder K] (o : Opts) (xrange : K) (env : Env K α G M S) (d : Data α) (initQ : List K) (w : World K M S) (hb : 0 < o.batchSize) (hi : 0 ≤ o.niters) (hs : net o = .shooting)
    (hp : o.freeRnn = true ∨ o.freeTime = true) (hc : o.clamp = true) (ht : Total env) (hn : hasName "q1" w.pars = false) (hl : o.batchSize.toNat ≤ (d.train 0).length) :
    (mapping o xrange env d initQ w).2 = .error .keyError ∧ (mapping o xrange env d initQ w).1.log = w.log ++ [.step 0 0] := by
  have hu : usesParticles o = some false := by
    rw [usesParticles_eq o hs]
    rcases hp with h | h <;> simp [h]
  have hlen : 0 < (trainBatches o.batchSize d.train 0).length := by
    rw [trainBatches_length _ hb]
    exact Nat.div_pos hl (by omega)
  have he : epochs o = 0 :: (List.range o.niters.toNat).map Nat.succ := by
    rw [epochs, show (o.niters + 1).toNat = o.niters.toNat + 1 by omega, List.range_succ_eq_map]
  obtain ⟨b, bs, hbs⟩ : ∃ b bs, trainBatches o.batchSize d.train 0 = b :: bs := by
    cases h : trainBatches o.batchSize d.train 0 with
    | nil => rw [h] at hlen; simp at hlen
    | cons b bs => exact ⟨b, bs, rfl⟩
  have hmod : ∀ f : Par K M → Par K M, modify "q1" f (⟨w.pars.map (update env w b), w.sched, w.log ++ [.step 0 0]⟩ : World K M S) = (⟨w.pars.map (update env w b), w.sched, w.log ++ [.step 0 0]⟩, .error .keyError) := by
    intro f
    rw [modify, if_neg]
    simp only
    rw [hasName_map _ _ (update_name env w b), hn]
    simp
  have key : mapping o xrange env d initQ w = (⟨w.pars.map (update env w b), w.sched, w.log ++ [.step 0 0]⟩, .error .keyError) := by
    unfold mapping
    rw [if_neg (by omega), mappingSetup, hu]
    simp only [hs, weightDecay]
    rw [he, forLoop, mappingEpoch, mappingUnfreeze, hu]
    simp only [Bool.false_and, Bool.false_eq_true, if_false, andThen]
    rw [hbs, List.zipIdx_cons, forLoop, mappingBatch, trainBatch_ok env ht]
    simp only [andThen, hc, hs, decide_true, Bool.and_self, if_true, hmod, id]
  rw [key]
  exact ⟨rfl, rfl⟩

/-! ## Batches that are never full -/

/-- **C76.** If the batch size exceeds the number of training samples, there is no training at all: the program ends without an exception or warning, the parameters are those of the untrained network (with the particles placed), and
with `--save_figures` the results of this network are saved. -/
theorem C76_no_batches [Field K] [LinearOrder K] (o : Opts) (xrange : K) (env : Env K α G M S) (d : Data α) (initQ : List K) (w : World K M S) (hs : net o = .shooting) (hb : 0 < o.batchSize) (htf : o.testFreq ≠ 0)
    (hvf : o.vizFreq ≠ 0) (ht : Total env) (n : Nat) (hn : ∀ e, (d.train e).length = n) (hlt : (n : Int) < o.batchSize) (hw : w.log = [])
    (hq : (o.clamp = true ∨ o.freeRnn = false ∧ o.freeTime = false) → hasName "q1" w.pars = true) :
    ∃ w' r, mapping o xrange env d initQ w = (w', .ok r) ∧ r.isSome = o.saveFigures ∧ steps (w'.log.map Event.tag) = 0 ∧
      w'.vals = w.vals.map fun p => if o.freeRnn = false ∧ o.freeTime = false ∧ p.1 = "q1" then (p.1, initQ) else p := by
  obtain ⟨w', r, h1, -⟩ := C76_schedule o xrange env d initQ w hs hb htf hvf ht n hn hw hq
  have h3 := C76_steps o xrange env d initQ w hs hb htf hvf ht n hn hw hq
  refine ⟨w', r, h1, ?_, ?_, ?_⟩
  · obtain ⟨l, -, hr⟩ := C76_saved o xrange env d initQ w w' r h1
    rw [hr]
    cases o.saveFigures <;> rfl
  · rw [h1] at h3
    simp only at h3
    rw [h3, Nat.div_eq_of_lt (by omega), Nat.mul_zero]
  · have key := mapping_inv o xrange env d initQ w (fun ps => (ps.map fun p => (p.name, p.val)) = w.vals.map fun p => if o.freeRnn = false ∧ o.freeTime = false ∧ p.1 = "q1" then (p.1, initQ) else p) hb ?_ ?_ ?_
    · rw [h1] at key
      exact key
    · unfold mappingSetup
      rw [usesParticles_eq o hs]
      by_cases h : o.freeRnn = false ∧ o.freeTime = false
      · have hh := hq (Or.inr h)
        simp only [h.1, h.2, Bool.or_self, Bool.not_false, true_and]
        rw [modify_ok _ _ _ hh]
        simp only [andThen]
        have hv : ((w.pars.map fun p => if p.name = "q1" then { p with val := initQ } else p).map fun p => (p.name, p.val)) = w.vals.map fun p => if p.1 = "q1" then (p.1, initQ) else p := by
          rw [World.vals, List.map_map, List.map_map]
          apply List.map_congr_left
          intro p _
          simp only [Function.comp]
          split <;> simp_all
        split
        · rw [modify_ok _ _ _ (by rw [hasName_map _ _ (fun p => by split <;> rfl)]; exact hh)]
          rw [← hv, List.map_map]
          apply List.map_congr_left
          intro p _
          simp only [Function.comp]
          split <;> rfl
        · exact hv
      · have h' : (!(o.freeRnn || o.freeTime)) = false := by
          cases h1 : o.freeRnn <;> cases h2 : o.freeTime <;> simp_all
        rw [h']
        simp only
        conv_lhs => rw [show (w.pars.map fun p => (p.name, p.val)) = w.vals from rfl, ← List.map_id w.vals]
        apply List.map_congr_left
        intro p _
        rw [if_neg (fun hc => h ⟨hc.1, hc.2.1⟩), id]
    · intro e _ v hv
      unfold mappingUnfreeze
      split
      · exact hv
      · split
        · unfold modify
          split
          · simp only
            rw [← hv, List.map_map]
            apply List.map_congr_left
            intro p _
            simp only [Function.comp]
            split <;> rfl
          · exact hv
        · exact hv
    · intro e k b v hmem _
      have : (trainBatches o.batchSize d.train e).length = 0 := by rw [trainBatches_length _ hb, hn, Nat.div_eq_of_lt (by omega)]
      rw [List.length_eq_zero_iff] at this
      rw [this] at hmem
      cases hmem

/-! ## Figures do not influence the training -/

/-- **C76.** Figures do not influence the training: two runs that differ only in `--viz`, `--save_figures` and `--viz_freq` end with the same parameters, optimizer and scheduler. -/
theorem C76_figures [Field K] [LinearOrder K] (o : Opts) (xrange : K) (env : Env K α G M S) (d : Data α) (initQ : List K) (w : World K M S) (hs : net o = .shooting) (hb : 0 < o.batchSize) (htf : o.testFreq ≠ 0)
    (hvf : o.vizFreq ≠ 0) (ht : Total env) (viz save : Bool) (freq : Int) (hfreq : freq ≠ 0) (hq : (o.clamp = true ∨ o.freeRnn = false ∧ o.freeTime = false) → hasName "q1" w.pars = true) :
    (mapping { o with viz := viz, saveFigures := save, vizFreq := freq } xrange env d initQ w).1.pars = (mapping o xrange env d initQ w).1.pars ∧
      (mapping { o with viz := viz, saveFigures := save, vizFreq := freq } xrange env d initQ w).1.sched = (mapping o xrange env d initQ w).1.sched := by
  let o' : Opts := { o with viz := viz, saveFigures := save, vizFreq := freq }
  change (mapping o' xrange env d initQ w).1.pars = _ ∧ (mapping o' xrange env d initQ w).1.sched = _
  have hs' : net o' = .shooting := hs
  have hf : Fine o := ⟨hb, htf, hvf⟩
  have hf' : Fine o' := ⟨hb, htf, hfreq⟩
  obtain ⟨w1, h1, h2, h3⟩ := mappingSetup_ok o initQ w hs (fun a b => hq (Or.inr ⟨a, b⟩))
  have h1' : mappingSetup o' initQ w = (w1, .ok ()) := h1
  have hrel := forLoop_rel (fun (v v' : World K M S) => (hasName "q1" v.pars = hasName "q1" w.pars) ∧ v.pars = v'.pars ∧ v.sched = v'.sched)
    (mappingEpoch o xrange env d.eval (trainBatches o.batchSize d.train)) (mappingEpoch o' xrange env d.eval (trainBatches o'.batchSize d.train)) (epochs o) (fun e _ v v' hv => by
      have unf : ∃ u u', mappingUnfreeze o e v = (u, .ok ()) ∧ mappingUnfreeze o' e v' = (u', .ok ()) ∧ hasName "q1" u.pars = hasName "q1" w.pars ∧ u.pars = u'.pars ∧ u.sched = u'.sched := by
        obtain ⟨u, a1, a2, -⟩ := mappingUnfreeze_ok o e v hs (fun a b => by rw [hv.1]; exact hq (Or.inr ⟨a, b⟩))
        obtain ⟨u', b1, b2, -⟩ := mappingUnfreeze_ok o' e v' hs' (fun a b => by rw [← hv.2.1, hv.1]; exact hq (Or.inr ⟨a, b⟩))
        refine ⟨u, u', a1, b1, a2.trans hv.1, ?_⟩
        have b1' : mappingUnfreeze o e v' = (u', .ok ()) := b1
        unfold mappingUnfreeze at a1 b1'
        rw [usesParticles_eq o hs] at a1 b1'
        dsimp only at a1 b1'
        split at a1
        · next hc =>
          rw [if_pos hc] at b1'
          rw [modify_ok _ _ _ (by
            rw [hv.1]
            simp only [Bool.and_eq_true, Bool.not_eq_true', Bool.or_eq_false_iff] at hc
            exact hq (Or.inr hc.1.1))] at a1
          rw [modify_ok _ _ _ (by
            rw [← hv.2.1, hv.1]
            simp only [Bool.and_eq_true, Bool.not_eq_true', Bool.or_eq_false_iff] at hc
            exact hq (Or.inr hc.1.1))] at b1'
          cases a1
          cases b1'
          exact ⟨by simp only [hv.2.1], hv.2.2⟩
        · next hc =>
          rw [if_neg hc] at b1'
          cases a1
          cases b1'
          exact hv.2
      obtain ⟨u, u', a1, a2, hu⟩ := unf
      have bat := forLoop_rel (fun (v v' : World K M S) => (hasName "q1" v.pars = hasName "q1" w.pars) ∧ v.pars = v'.pars ∧ v.sched = v'.sched)
        (fun (x : List α × Nat) => mappingBatch o xrange env e x.2 x.1) (fun (x : List α × Nat) => mappingBatch o' xrange env e x.2 x.1) (trainBatches o.batchSize d.train e).zipIdx (fun x _ y y' hy => by
          have hup : y'.pars.map (update env y' x.1) = y.pars.map (update env y x.1) := by
            rw [← hy.2.1]
            apply List.map_congr_left
            intro p _
            unfold update
            rw [show y'.vals = y.vals by rw [World.vals, World.vals, hy.2.1], hy.2.2]
          have hnm := hasName_map "q1" _ (update_name env y x.1) y.pars
          show ∃ w'' v'', mappingBatch o xrange env e x.2 x.1 y = (w'', .ok ()) ∧ mappingBatch o' xrange env e x.2 x.1 y' = (v'', .ok ()) ∧ _
          unfold mappingBatch
          rw [trainBatch_ok env ht, trainBatch_ok env ht, hup]
          simp only [andThen]
          by_cases hc : (o.clamp && decide (net o = .shooting)) = true
          · have hc' : (o'.clamp && decide (net o' = .shooting)) = true := hc
            rw [if_pos hc, if_pos hc']
            have hclamp : o.clamp = true := by
              simp only [Bool.and_eq_true] at hc
              exact hc.1
            rw [modify_ok _ _ _ (by rw [hnm, hy.1]; exact hq (Or.inl hclamp)), modify_ok _ _ _ (by rw [hnm, hy.1]; exact hq (Or.inl hclamp))]
            refine ⟨_, _, rfl, rfl, ?_, rfl, hy.2.2⟩
            rw [hasName_map _ _ (fun p => by split <;> rfl), hnm, hy.1]
          · have hc' : ¬ (o'.clamp && decide (net o' = .shooting)) = true := hc
            rw [if_neg hc, if_neg hc']
            exact ⟨_, _, rfl, rfl, hnm.trans hy.1, rfl, hy.2.2⟩) u u' hu
      obtain ⟨x, x', b1, b2, hx⟩ := bat
      obtain ⟨z, c1, c2, c3, -⟩ := mappingEval_ok o hf env ht e d.eval x
      obtain ⟨z', c1', c2', c3', -⟩ := mappingEval_ok o' hf' env ht e d.eval x'
      refine ⟨z, z', ?_, ?_, by rw [c2, hx.1], by rw [c2, c2', hx.2.1], ?_⟩
      · unfold mappingEpoch
        rw [a1]
        simp only [andThen]
        rw [b1]
        exact c1
      · unfold mappingEpoch
        rw [a2]
        simp only [andThen]
        rw [b2]
        exact c1'
      · obtain ⟨l, hl⟩ := ht x.vals false d.eval
        rw [c3 l hl, c3' l (by rw [show x'.vals = x.vals by rw [World.vals, World.vals, hx.2.1]]; exact hl), hx.2.2]) w1 w1 ⟨h2, rfl, rfl⟩
  obtain ⟨w2, w2', h4, h5, h6⟩ := hrel
  have hend : ∀ (p : Opts), net p = .shooting → ∀ v : World K M S, (mappingEnd p env d v).1 = v := by
    intro p _ v
    unfold mappingEnd
    split
    · rfl
    · split <;> rfl
  have m1 : (mapping o xrange env d initQ w).1 = w2 := by
    unfold mapping
    rw [if_neg (by omega), h1]
    simp only [hs, weightDecay, h4]
    exact hend o hs w2
  have m2 : (mapping o' xrange env d initQ w).1 = w2' := by
    have he : epochs o' = epochs o := rfl
    have hbs : o'.batchSize = o.batchSize := rfl
    unfold mapping
    rw [if_neg (by rw [hbs]; omega), h1']
    simp only [hs', weightDecay]
    rw [he, h5]
    exact hend o' hs' w2'
  rw [m1, m2]
  exact ⟨h6.2.1.symm, h6.2.2.symm⟩

end Verif.Training
