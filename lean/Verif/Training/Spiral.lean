import Verif.Training.Targets
import Mathlib.Analysis.Real.Sqrt

/-!
# C77: the spiral experiment; concrete runs of both programs
-/

namespace Verif.Training
open Verif

variable {K α G M S : Type}

/-! ## The schedule -/

def SWorld.tags (s : SWorld K M S) : List Tag := s.w.tags

theorem spiralBatch_ok (env : Env K α G M S) (ht : Total env) (e k : Nat) (b : List α) (s : SWorld K M S) :
    spiralBatch env e k b s = (⟨⟨s.w.pars.map (update env s.w b), s.w.sched, s.w.log ++ [.step e k]⟩, true, s.printSet⟩, .ok ()) := by
  rw [spiralBatch, trainBatch_ok env ht]

theorem spiralUnfreeze_ok (o : Opts) (e : Nat) (s : SWorld K M S) (hq : o.freeRnn = false → o.freeTime = false → hasName "q1" s.w.pars = true) :
    ∃ s', spiralUnfreeze o e s = (s', .ok ()) ∧ hasName "q1" s'.w.pars = hasName "q1" s.w.pars ∧ s'.tags = s.tags ∧ s'.lossSet = s.lossSet ∧ s'.printSet = s.printSet ∧ s'.w.sched = s.w.sched ∧
      s'.w.pars = if o.freezing = true ∧ (e : Int) = o.unfreezeAt ∧ o.freeRnn = false ∧ o.freeTime = false then s.w.pars.map fun p => if p.name = "q1" then { p with rg := true } else p else s.w.pars := by
  unfold spiralUnfreeze
  by_cases h : o.freezing = true ∧ (e : Int) = o.unfreezeAt ∧ o.freeRnn = false ∧ o.freeTime = false
  · rw [if_pos (by simp [h, spiralUses]), if_pos h]
    rw [modify_ok _ _ _ (hq h.2.2.1 h.2.2.2)]
    exact ⟨_, rfl, hasName_map _ _ (fun p => by split <;> rfl) _, rfl, rfl, rfl, rfl, rfl⟩
  · rw [if_neg (by
      intro hc
      apply h
      simp only [spiralUses, Bool.and_eq_true, decide_eq_true_eq, Bool.not_eq_true', Bool.or_eq_false_iff] at hc
      exact ⟨hc.1.1, hc.1.2, hc.2⟩), if_neg h]
    exact ⟨_, rfl, rfl, rfl, rfl, rfl, rfl, rfl⟩

theorem spiralEval_ok (o : Opts) (hf : Fine o) (env : Env K α G M S) (ht : Total env) (e : Nat) (b : List α) (s : SWorld K M S) (hl : s.lossSet = true) :
    ∃ s', spiralEval o env e b s = (s', .ok ()) ∧ s'.w.pars = s.w.pars ∧ s'.lossSet = true ∧ s'.printSet = s.printSet ∧
      (∀ l, env.loss s.w.vals false b = .ok l → s'.w.sched = if o.testFreq ∣ (e : Int) ∨ o.vizFreq ∣ (e : Int) ∨ (e : Int) = o.niters then env.rate l.loss s.w.sched else s.w.sched) ∧
      s'.tags = s.tags ++ (if o.testFreq ∣ (e : Int) ∨ o.vizFreq ∣ (e : Int) ∨ (e : Int) = o.niters then [Tag.evaluated e, Tag.rate e] else []) := by
  obtain ⟨r, hr⟩ := ht s.w.vals false b
  unfold spiralEval
  rw [evaluates_ok o e hf.test hf.viz, hr]
  by_cases h : o.testFreq ∣ (e : Int) ∨ o.vizFreq ∣ (e : Int) ∨ (e : Int) = o.niters
  · simp only [h, decide_true, hl, if_true]
    refine ⟨_, rfl, rfl, rfl, rfl, ?_, ?_⟩
    · intro l hl'
      cases hl'
      rfl
    · simp [SWorld.tags, World.tags, Event.tag]
  · simp only [h, decide_false, if_false]
    exact ⟨_, rfl, rfl, hl, rfl, fun _ _ => rfl, by simp⟩

theorem spiralShow_ok (o : Opts) (hf : Fine o) (env : Env K α G M S) (ht : Total env) (e : Nat) (b : List α) (s : SWorld K M S) :
    ∃ s', spiralShow o env e b s = (s', .ok ()) ∧ s'.w.pars = s.w.pars ∧ s'.w.sched = s.w.sched ∧ s'.lossSet = s.lossSet ∧ (s.printSet = true ∨ o.vizFreq ∣ (e : Int) → s'.printSet = true) ∧
      s'.tags = s.tags ++ (if o.vizFreq ∣ (e : Int) then [Tag.figure e] else []) := by
  obtain ⟨r, hr⟩ := ht s.w.vals true b
  unfold spiralShow
  rw [multiple_ok e _ hf.viz, hr]
  by_cases h : o.vizFreq ∣ (e : Int)
  · simp only [h, decide_true, if_true]
    exact ⟨_, rfl, rfl, rfl, rfl, fun _ => rfl, by simp [SWorld.tags, World.tags, Event.tag]⟩
  · simp only [h, decide_false, if_false]
    exact ⟨_, rfl, rfl, rfl, rfl, by simp, by simp⟩

/-- The inner loop. -/
theorem spiralBatches_ok (env : Env K α G M S) (ht : Total env) (e : Nat) (bs : List (List α)) (s : SWorld K M S) :
    ∃ s', forLoop (fun (x : List α × Nat) => spiralBatch env e x.2 x.1) bs.zipIdx s = (s', .ok ()) ∧ hasName "q1" s'.w.pars = hasName "q1" s.w.pars ∧ (s.lossSet = true ∨ bs ≠ [] → s'.lossSet = true) ∧
      s'.printSet = s.printSet ∧ s'.tags = s.tags ++ (List.range bs.length).map (Tag.step e) := by
  obtain ⟨s', h1, h2, h3⟩ := forLoop_ok (fun v : SWorld K M S => hasName "q1" v.w.pars = hasName "q1" s.w.pars ∧ v.printSet = s.printSet ∧ (s.lossSet = true → v.lossSet = true)) SWorld.tags
    (fun (x : List α × Nat) => spiralBatch env e x.2 x.1) (fun x => [Tag.step e x.2]) bs.zipIdx (fun x _ v hv => by
      refine ⟨_, spiralBatch_ok env ht e x.2 x.1 v, ⟨?_, hv.2.1, fun _ => rfl⟩, by simp [SWorld.tags, World.tags, Event.tag]⟩
      simp only
      rw [hasName_map _ _ (update_name env v.w x.1)]
      exact hv.1) s ⟨rfl, rfl, id⟩
  refine ⟨s', h1, h2.1, ?_, h2.2.1, by rw [h3, flatMap_zipIdx]⟩
  rintro (h | h)
  · exact h2.2.2 h
  · cases bs with
    | nil => exact absurd rfl h
    | cons b bs =>
      rw [List.zipIdx_cons, forLoop, spiralBatch_ok env ht] at h1
      simp only [andThen] at h1
      have := forLoop_inv (fun v : SWorld K M S => v.lossSet = true) (fun (x : List α × Nat) => spiralBatch env e x.2 x.1) (bs.zipIdx (0 + 1)) (fun x _ v _ => by rw [spiralBatch_ok env ht]) _
        (show (⟨⟨s.w.pars.map (update env s.w b), s.w.sched, s.w.log ++ [.step e 0]⟩, true, s.printSet⟩ : SWorld K M S).lossSet = true from rfl)
      rw [h1] at this
      exact this

theorem spiralEpoch_ok (o : Opts) (hf : Fine o) (env : Env K α G M S) (ht : Total env) (d : Data α) (batches : Nat → List (List α)) (m : Nat) (hm : ∀ e, (batches e).length = m) (hm0 : m ≠ 0) (e : Nat) (s : SWorld K M S)
    (hq : o.freeRnn = false → o.freeTime = false → hasName "q1" s.w.pars = true) :
    ∃ s', spiralEpoch o env d batches e s = (s', .ok ()) ∧ hasName "q1" s'.w.pars = hasName "q1" s.w.pars ∧ (s.printSet = true ∨ e = 0 → s'.printSet = true) ∧
      s'.tags = s.tags ++ ((List.range m).map (Tag.step e) ++ (if o.testFreq ∣ (e : Int) ∨ o.vizFreq ∣ (e : Int) ∨ (e : Int) = o.niters then [Tag.evaluated e, Tag.rate e] else []) ++
        (if o.vizFreq ∣ (e : Int) then [Tag.figure e] else [])) := by
  obtain ⟨s1, a1, a2, a3, a4, a5, -⟩ := spiralUnfreeze_ok o e s hq
  obtain ⟨s2, b1, b2, b3, b4, b5⟩ := spiralBatches_ok env ht e (batches e) s1
  have hne : batches e ≠ [] := by
    intro h
    have := hm e
    rw [h] at this
    exact hm0 this.symm
  obtain ⟨s3, c1, c2, c3, c4, -, c6⟩ := spiralEval_ok o hf env ht e d.eval s2 (b3 (Or.inr hne))
  obtain ⟨s4, d1, d2, d3, d4, d5, d6⟩ := spiralShow_ok o hf env ht e d.test s3
  refine ⟨s4, ?_, by rw [d2, c2, b2, a2], ?_, ?_⟩
  · unfold spiralEpoch
    rw [a1]
    simp only [andThen]
    rw [b1]
    simp only
    rw [c1]
    exact d1
  · rintro (h | h)
    · exact d5 (Or.inl (by rw [c4, b4, a5, h]))
    · exact d5 (Or.inr (by rw [h]; exact Int.dvd_zero _))
  · rw [d6, c6, b5, a3, hm, List.append_assoc, List.append_assoc, List.append_assoc]

theorem spiralSetup_ok (o : Opts) (initQ : Option (List K)) (w : World K M S) (hq : o.freeRnn = false → o.freeTime = false → hasName "q1" w.pars = true) :
    ∃ w', spiralSetup o initQ w = (w', .ok ()) ∧ hasName "q1" w'.pars = hasName "q1" w.pars ∧ w'.tags = w.tags := by
  unfold spiralSetup
  by_cases h : spiralUses o = true
  · rw [if_pos h]
    simp only [spiralUses, Bool.not_eq_true', Bool.or_eq_false_iff] at h
    have hh := hq h.1 h.2
    cases initQ with
    | none =>
      simp only [andThen]
      split
      · rw [modify_ok _ _ _ hh]
        exact ⟨_, rfl, hasName_map _ _ (fun p => by split <;> rfl) _, rfl⟩
      · exact ⟨_, rfl, rfl, rfl⟩
    | some q =>
      simp only
      rw [modify_ok _ _ _ hh]
      simp only [andThen]
      have h1 : hasName "q1" (w.pars.map fun p => if p.name = "q1" then { p with val := q } else p) = hasName "q1" w.pars := hasName_map _ _ (fun p => by split <;> rfl) _
      split
      · rw [modify_ok _ _ _ (by rw [h1]; exact hh)]
        refine ⟨_, rfl, ?_, rfl⟩
        rw [hasName_map _ _ (fun p => by split <;> rfl), h1]
      · exact ⟨_, rfl, h1, rfl⟩
  · rw [if_neg h]
    exact ⟨_, rfl, rfl, rfl⟩

/-- **C77.** The schedule of the spiral program: if the batch size is positive and there are enough samples for a batch, frequencies are not zero and losses can be computed, the program ends without an exception, and what it did is as
the options say.  The learning rate is adapted whenever the evaluation data are used, that is also because of `--viz_freq` and in the last epoch. -/
theorem C77_schedule (o : Opts) (longRange : Bool) (env : Env K α G M S) (d : Data α) (initQ : Option (List K)) (w : World K M S) (hb : 0 < o.batchSize) (htf : o.testFreq ≠ 0) (hvf : o.vizFreq ≠ 0) (hi : 0 ≤ o.niters)
    (ht : Total env) (n : Nat) (hn : ∀ e, (d.train e).length = n) (hle : o.batchSize ≤ n) (hw : w.log = []) (hq : o.freeRnn = false → o.freeTime = false → hasName "q1" w.pars = true) :
    ∃ s r, spiral o longRange env d initQ w = (s, .ok r) ∧ s.w.log.map Event.tag = (List.range (o.niters + 1).toNat).flatMap (spiralTags n o.batchSize.toNat o.testFreq o.vizFreq o.niters) := by
  have hf : Fine o := ⟨hb, htf, hvf⟩
  have hm0 : n / o.batchSize.toNat ≠ 0 := (Nat.div_pos (by omega) (by omega)).ne'
  obtain ⟨w1, h1, h2, h3⟩ := spiralSetup_ok o initQ w hq
  have epoch := fun (e : Nat) (v : SWorld K M S) (hv : hasName "q1" v.w.pars = hasName "q1" w.pars) =>
    spiralEpoch_ok o hf env ht d (trainBatches o.batchSize d.train) (n / o.batchSize.toNat) (fun e => by rw [trainBatches_length _ hb, hn]) hm0 e v (fun a b => by rw [hv]; exact hq a b)
  obtain ⟨s2, h4, h5, h6⟩ := forLoop_ok (fun v : SWorld K M S => hasName "q1" v.w.pars = hasName "q1" w.pars) SWorld.tags (spiralEpoch o env d (trainBatches o.batchSize d.train))
    (spiralTags n o.batchSize.toNat o.testFreq o.vizFreq o.niters) (epochs o) (fun e _ v hv => by
      obtain ⟨v', a, b, -, c⟩ := epoch e v hv
      exact ⟨v', a, b.trans hv, c⟩) ⟨w1, false, false⟩ h2
  have hprint : s2.printSet = true := by
    have he : epochs o = 0 :: (List.range o.niters.toNat).map Nat.succ := by
      rw [epochs, show (o.niters + 1).toNat = o.niters.toNat + 1 by omega, List.range_succ_eq_map]
    rw [he, forLoop] at h4
    obtain ⟨v', a, b, c, -⟩ := epoch 0 ⟨w1, false, false⟩ h2
    rw [a] at h4
    simp only [andThen] at h4
    have := forLoop_inv (fun v : SWorld K M S => hasName "q1" v.w.pars = hasName "q1" w.pars ∧ v.printSet = true) (spiralEpoch o env d (trainBatches o.batchSize d.train)) ((List.range o.niters.toNat).map Nat.succ) (fun e _ v hv => by
      obtain ⟨v', a, b, c, -⟩ := epoch e v hv.1
      rw [a]
      exact ⟨b.trans hv.1, c (Or.inl hv.2)⟩) v' ⟨b.trans h2, c (Or.inr rfl)⟩
    rw [h4] at this
    exact this.2
  obtain ⟨l, hl⟩ := ht s2.w.vals true d.test
  obtain ⟨l', hl'⟩ := ht s2.w.vals true d.show'
  refine ⟨s2, if o.saveFigures then some ⟨if longRange then some (saved l) else none, saved l'⟩ else none, ?_, ?_⟩
  · unfold spiral
    rw [if_neg (by omega), h1]
    simp only [h4]
    unfold spiralEnd
    rw [hl, hl', hprint]
    cases longRange <;> rfl
  · have : (⟨w1, false, false⟩ : SWorld K M S).tags = [] := by
      rw [SWorld.tags, h3, World.tags, hw]
      rfl
    rw [this, List.nil_append] at h6
    exact h6

/-- **C77.** If the batch size exceeds the number of training samples, the program stops in the first epoch with a `NameError`; no optimizer step has been made. -/
theorem C77_no_batches (o : Opts) (longRange : Bool) (env : Env K α G M S) (d : Data α) (initQ : Option (List K)) (w : World K M S) (hb : 0 < o.batchSize) (htf : o.testFreq ≠ 0) (hi : 0 ≤ o.niters)
    (n : Nat) (hn : ∀ e, (d.train e).length = n) (hlt : (n : Int) < o.batchSize) (hw : w.log = []) (hq : o.freeRnn = false → o.freeTime = false → hasName "q1" w.pars = true) :
    (spiral o longRange env d initQ w).2 = .error .unboundLocal ∧ (spiral o longRange env d initQ w).1.w.log = [] := by
  obtain ⟨w1, h1, h2, h3⟩ := spiralSetup_ok o initQ w hq
  have he : epochs o = 0 :: (List.range o.niters.toNat).map Nat.succ := by
    rw [epochs, show (o.niters + 1).toNat = o.niters.toNat + 1 by omega, List.range_succ_eq_map]
  have hnil : trainBatches o.batchSize d.train 0 = [] := by
    rw [← List.length_eq_zero_iff, trainBatches_length _ hb, hn, Nat.div_eq_of_lt (by omega)]
  obtain ⟨s1, a1, a2, a3, a4, -⟩ := spiralUnfreeze_ok o 0 (⟨w1, false, false⟩ : SWorld K M S) (fun a b => by rw [h2]; exact hq a b)
  have hev : evaluates o 0 = .ok true := by
    unfold evaluates
    rw [multiple_ok _ _ htf]
    simp [bind, Except.bind]
  have key : spiral o longRange env d initQ w = (s1, .error .unboundLocal) := by
    unfold spiral
    rw [if_neg (by omega), h1]
    simp only
    rw [he, forLoop, spiralEpoch, a1]
    simp only [andThen]
    rw [hnil]
    simp only [List.zipIdx_nil, forLoop]
    unfold spiralEval
    rw [hev]
    simp only [a4, Bool.false_eq_true, if_false, id]
  rw [key]
  refine ⟨rfl, ?_⟩
  have : s1.tags = [] := by
    rw [a3, SWorld.tags, h3, World.tags, hw]
    rfl
  exact List.map_eq_nil_iff.1 this

/-- **C77.** No epochs (negative `niters`) and long range validation: the program stops with a `NameError`. -/
theorem C77_no_epochs (o : Opts) (env : Env K α G M S) (ht : Total env) (d : Data α) (initQ : Option (List K)) (w : World K M S) (hb : 0 < o.batchSize) (hi : o.niters < 0)
    (hq : o.freeRnn = false → o.freeTime = false → hasName "q1" w.pars = true) : (spiral o true env d initQ w).2 = .error .unboundLocal := by
  obtain ⟨w1, h1, -⟩ := spiralSetup_ok o initQ w hq
  have he : epochs o = [] := by rw [epochs, show (o.niters + 1).toNat = 0 by omega, List.range_zero]
  obtain ⟨l, hl⟩ := ht w1.vals true d.test
  unfold spiral
  rw [if_neg (by omega), h1]
  simp only
  rw [he, forLoop]
  simp only
  unfold spiralEnd
  rw [hl]
  rfl

/-- **C77.** The results file: with `--save_figures` the losses of the network with the final parameters on the long range data (if asked for) and the short range data; the entries `norm_penalty` are the norm losses. -/
theorem C77_saved (o : Opts) (longRange : Bool) (env : Env K α G M S) (d : Data α) (initQ : Option (List K)) (w : World K M S) (s : SWorld K M S) (r : Option (SSaved K)) (h : spiral o longRange env d initQ w = (s, .ok r)) :
    ∃ m, env.loss s.w.vals true d.show' = .ok m ∧ (longRange = true → ∃ l, env.loss s.w.vals true d.test = .ok l ∧
      r = if o.saveFigures then some ⟨some ⟨l.loss, l.sim, l.normLoss, l.normLoss⟩, ⟨m.loss, m.sim, m.normLoss, m.normLoss⟩⟩ else none) ∧
      (longRange = false → r = if o.saveFigures then some ⟨none, ⟨m.loss, m.sim, m.normLoss, m.normLoss⟩⟩ else none) := by
  unfold spiral at h
  split at h
  · cases h
  · split at h
    · cases h
    · split at h
      · cases h
      · unfold spiralEnd at h
        split at h
        · cases h
        · next l hl =>
          split at h
          · cases h
          · split at h
            · cases h
            · next m hm =>
              cases h
              refine ⟨m, hm, ?_, ?_⟩
              · intro hlr
                rw [hlr, if_pos rfl] at hl
                cases ht : env.loss s.w.vals true d.test with
                | error err => rw [ht] at hl; cases hl
                | ok l' =>
                  rw [ht] at hl
                  cases hl
                  exact ⟨l', rfl, rfl⟩
              · intro hlr
                rw [hlr] at hl
                cases hl
                rfl

/-! ## Frozen particles -/

theorem spiralEval_pars (o : Opts) (env : Env K α G M S) (e : Nat) (b : List α) (s : SWorld K M S) : (spiralEval o env e b s).1.w.pars = s.w.pars := by
  unfold spiralEval
  split
  · rfl
  · rfl
  · split
    · split <;> rfl
    · rfl

theorem spiralShow_pars (o : Opts) (env : Env K α G M S) (e : Nat) (b : List α) (s : SWorld K M S) : (spiralShow o env e b s).1.w.pars = s.w.pars := by
  unfold spiralShow
  split
  · rfl
  · rfl
  · split <;> rfl

/-- **C77.** Frozen particles stay where they were put, whatever happens, if they are not unfrozen during the run. -/
theorem C77_frozen (o : Opts) (longRange : Bool) (env : Env K α G M S) (d : Data α) (initQ : List K) (w : World K M S) (hb : 0 < o.batchSize) (hp : o.freeRnn = false ∧ o.freeTime = false) (hfr : o.freezing = true)
    (hu : o.unfreezeAt < 0 ∨ o.niters < o.unfreezeAt) (hn : hasName "q1" w.pars = true) : ∀ p ∈ (spiral o longRange env d (some initQ) w).1.w.pars, p.name = "q1" → p.val = initQ := by
  let I : SWorld K M S → Prop := fun s => ∀ p ∈ s.w.pars, p.name = "q1" → p.val = initQ ∧ p.rg = false
  suffices h : I (spiral o longRange env d (some initQ) w).1 from fun p hp' hn' => (h p hp' hn').1
  have h0 : ∃ w1, spiralSetup o (some initQ) w = (w1, .ok ()) ∧ I ⟨w1, false, false⟩ := by
    unfold spiralSetup
    rw [if_pos (by simp [spiralUses, hp])]
    simp only
    rw [modify_ok _ _ _ hn]
    simp only [andThen, hfr, if_true]
    rw [modify_ok _ _ _ (by rw [hasName_map _ _ (fun p => by split <;> rfl)]; exact hn)]
    refine ⟨_, rfl, ?_⟩
    intro p hp' hname
    simp only [List.mem_map, exists_exists_and_eq_and] at hp'
    obtain ⟨a, -, rfl⟩ := hp'
    by_cases hA : a.name = "q1"
    · simp [hA]
    · simp [hA] at hname
  obtain ⟨w1, h1, h2⟩ := h0
  have h3 := forLoop_inv I (spiralEpoch o env d (trainBatches o.batchSize d.train)) (epochs o) (fun e he v hv => by
    have hne : ¬ (e : Int) = o.unfreezeAt := by
      rw [epochs, List.mem_range] at he
      omega
    unfold spiralEpoch
    refine andThen_inv I _ _ ?_ fun v hv => ?_
    · unfold spiralUnfreeze
      rw [if_neg (by simp [hne])]
      exact hv
    · refine andThen_inv I _ _ ?_ fun v hv => ?_
      · refine forLoop_inv I _ _ (fun x _ v hv => ?_) v hv
        unfold spiralBatch trainBatch
        cases hl : env.loss v.w.vals false x.1 with
        | error err => exact hv
        | ok l =>
          intro p hp' hname
          obtain ⟨a, ha, rfl⟩ := List.mem_map.1 hp'
          rw [update_name] at hname
          have := hv a ha hname
          rw [update_frozen _ _ _ _ this.2]
          exact this
      · refine andThen_inv I _ _ ?_ fun v hv => ?_
        · change ∀ p ∈ _, _
          rw [spiralEval_pars]
          exact hv
        · change ∀ p ∈ _, _
          rw [spiralShow_pars]
          exact hv) ⟨w1, false, false⟩ h2
  unfold spiral
  rw [if_neg (by omega), h1]
  simp only
  cases hl : forLoop (spiralEpoch o env d (trainBatches o.batchSize d.train)) (epochs o) ⟨w1, false, false⟩ with
  | mk s r =>
    rw [hl] at h3
    cases r with
    | error err => exact h3
    | ok u =>
      simp only
      unfold spiralEnd
      split
      · exact h3
      · split
        · exact h3
        · split <;> exact h3

end Verif.Training
