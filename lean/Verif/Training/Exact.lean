import Verif.Training.Runs

/-!
# C76, C77: what is learned, exactly
-/

namespace Verif.Training
open Verif

variable {K α G M S : Type}

/-- Parameters with `requires_grad` as the specification says for epochs before `e` (so `e + 1`: during epoch `e`). -/
def atEpoch (frozen : Option Int) (e : Nat) (ps : List (Par K M)) : List (Par K M) :=
  ps.map fun p => { p with rg := match frozen with | none => p.rg | some u => if p.name = "q1" then decide (0 ≤ u ∧ u < (e : Int)) else p.rg }

theorem vals_atEpoch (frozen : Option Int) (e : Nat) (ps : List (Par K M)) : ((atEpoch frozen e ps).map fun q => (q.name, q.val)) = ps.map fun q => (q.name, q.val) := by
  rw [atEpoch, List.map_map]
  rfl

theorem rg_atEpoch (frozen : Option Int) (e : Nat) (p : Par K M) : (match frozen with | none => p.rg | some u => if p.name = "q1" then decide (0 ≤ u ∧ u < ((e + 1 : Nat) : Int)) else p.rg) = trained frozen e p := by
  cases frozen with
  | none => rfl
  | some u =>
    unfold trained
    simp only [Nat.cast_add, Nat.cast_one, Int.lt_add_one_iff]

/-- One optimizer step with clamping, on parameters that are in the right state of freezing. -/
theorem learn_update (env : Env K α G M S) (clamp : List K → List K) (frozen : Option Int) (e : Nat) (ps : List (Par K M)) (b : List α) (w : World K M S) (hw : w.pars = atEpoch frozen (e + 1) ps) :
    ((w.pars.map (update env w b)).map fun p => if p.name = "q1" then { p with val := clamp p.val } else p) = atEpoch frozen (e + 1) (learnStep env.grad (env.adam w.sched) clamp frozen e ps b) := by
  have hv : w.vals = ps.map fun q => (q.name, q.val) := by rw [World.vals, hw, vals_atEpoch]
  rw [hw, atEpoch, atEpoch, learnStep, List.map_map, List.map_map, List.map_map]
  apply List.map_congr_left
  intro p _
  simp only [Function.comp]
  rw [rg_atEpoch]
  unfold update
  rw [hv]
  by_cases ht : trained frozen e p = true
  · simp only [ht, if_true]
    cases hg : env.grad (ps.map fun q => (q.name, q.val)) b p.name with
    | none =>
      simp only
      split <;> rfl
    | some g =>
      simp only
      split <;> rfl
  · simp only [Bool.not_eq_true] at ht
    simp only [ht, Bool.false_eq_true, if_false]
    split <;> rfl

/-- The effect of unfreezing. -/
theorem learn_unfreeze (freezing : Bool) (unfreezeAt : Int) (e : Nat) (ps : List (Par K M)) :
    (if freezing = true ∧ (e : Int) = unfreezeAt then (atEpoch (if freezing then some unfreezeAt else none) e ps).map fun p => if p.name = "q1" then { p with rg := true } else p
      else atEpoch (if freezing then some unfreezeAt else none) e ps) = atEpoch (if freezing then some unfreezeAt else none) (e + 1) ps := by
  cases freezing with
  | false => simp [atEpoch]
  | true =>
    simp only [true_and, if_true]
    split
    · next h =>
      rw [atEpoch, atEpoch, List.map_map]
      apply List.map_congr_left
      intro p _
      simp only [Function.comp]
      by_cases hp : p.name = "q1"
      · have h1 : decide (0 ≤ unfreezeAt ∧ unfreezeAt < ((e + 1 : Nat) : Int)) = true := by
          rw [decide_eq_true_eq]
          push_cast
          omega
        simp only [hp, if_true, h1]
      · simp only [hp, if_false]
    · next h =>
      rw [atEpoch, atEpoch]
      apply List.map_congr_left
      intro p _
      have h1 : decide (0 ≤ unfreezeAt ∧ unfreezeAt < ((e + 1 : Nat) : Int)) = decide (0 ≤ unfreezeAt ∧ unfreezeAt < (e : Int)) := by
        rw [decide_eq_decide]
        push_cast
        omega
      simp only [h1]

theorem forLoop_append {A X : Type} (body : X → A → A × Py Unit) (xs ys : List X) (w : A) : forLoop body (xs ++ ys) w = andThen (forLoop body xs w) id (forLoop body ys) := by
  induction xs generalizing w with
  | nil => rfl
  | cons x xs ih =>
    rw [List.cons_append, forLoop, forLoop]
    cases body x w with
    | mk w' r =>
      cases r with
      | error e => rfl
      | ok u =>
        simp only [andThen]
        exact ih w'

/-- A loop over `0 .. m-1` that follows a fold. -/
theorem forLoop_range {A T : Type} (R : Nat → A → T → Prop) (body : Nat → A → A × Py Unit) (f : T → Nat → T) (h : ∀ e w t, R e w t → ∃ w', body e w = (w', .ok ()) ∧ R (e + 1) w' (f t e)) (m : Nat) (w : A) (t : T) (h0 : R 0 w t) :
    ∃ w', forLoop body (List.range m) w = (w', .ok ()) ∧ R m w' ((List.range m).foldl f t) := by
  induction m with
  | zero => exact ⟨w, rfl, h0⟩
  | succ m ih =>
    obtain ⟨w1, h1, h2⟩ := ih
    obtain ⟨w2, h3, h4⟩ := h m w1 _ h2
    refine ⟨w2, ?_, ?_⟩
    · rw [List.range_succ, forLoop_append, h1]
      simp only [andThen, forLoop, h3]
    · rw [List.range_succ, List.foldl_append]
      exact h4

theorem forLoop_fold {A X T : Type} (R : A → T → Prop) (body : X → A → A × Py Unit) (f : T → X → T) (h : ∀ x w t, R w t → ∃ w', body x w = (w', .ok ()) ∧ R w' (f t x)) (xs : List X) (w : A) (t : T) (h0 : R w t) :
    ∃ w', forLoop body xs w = (w', .ok ()) ∧ R w' (xs.foldl f t) := by
  induction xs generalizing w t with
  | nil => exact ⟨w, rfl, h0⟩
  | cons x xs ih =>
    obtain ⟨w1, h1, h2⟩ := h x w t h0
    obtain ⟨w2, h3, h4⟩ := ih w1 _ h2
    refine ⟨w2, ?_, h4⟩
    rw [forLoop, h1]
    exact h3

theorem foldl_zipIdx {X T : Type} (f : T → X → T) (l : List X) (i : Nat) (t : T) : (l.zipIdx i).foldl (fun t x => f t x.1) t = l.foldl f t := by
  induction l generalizing i t with
  | nil => rfl
  | cons x l ih =>
    rw [List.zipIdx_cons, List.foldl_cons, List.foldl_cons, ih]

theorem hasName_atEpoch (n : String) (frozen : Option Int) (e : Nat) (ps : List (Par K M)) : hasName n (atEpoch frozen e ps) = hasName n ps := by
  rw [atEpoch]
  exact hasName_map n _ (fun p => by rfl) ps

theorem hasName_learnStep (n : String) (grad : List (String × List K) → List α → String → Option G) (adam : M → G → List K → List K × M) (clamp : List K → List K) (frozen : Option Int) (e : Nat) (ps : List (Par K M)) (b : List α) :
    hasName n (learnStep grad adam clamp frozen e ps b) = hasName n ps := by
  rw [learnStep]
  exact hasName_map n _ (fun p => by rfl) ps

/-- **C76.** What is learned: with a shooting network, the parameters, the state of the optimizer and the learning rate at the end of the functional mapping program are those of the specification: particles placed at the start (if there
are particles), then for every epoch the full batches in order, frozen particles until they are unfrozen, particles brought back into the range after every step with `--clamp_range`, the learning rate adapted every `test_freq` epochs to the
loss on the evaluation data. -/
theorem C76_learned [Field K] [LinearOrder K] (o : Opts) (xrange : K) (env : Env K α G M S) (d : Data α) (initQ : List K) (w : World K M S) (hs : net o = .shooting) (hb : 0 < o.batchSize) (htf : o.testFreq ≠ 0)
    (hvf : o.vizFreq ≠ 0) (L : List (String × List K) → Bool → List α → Losses K) (hL : ∀ v b l, env.loss v b l = .ok (L v b l)) (hp : o.freeRnn = false ∧ o.freeTime = false) (hq : hasName "q1" w.pars = true) :
    ∃ st, st = (List.range (o.niters + 1).toNat).foldl (learnEpoch env.grad env.adam env.rate (fun v => (L v false d.eval).loss) (if o.clamp then clampTo xrange else id) (if o.freezing then some o.unfreezeAt else none)
        (fun e => o.testFreq ∣ (e : Int)) (trainBatches o.batchSize d.train)) (place initQ w.pars, w.sched) ∧
      ((mapping o xrange env d initQ w).1.pars.map fun p => (p.name, p.val, p.mom)) = (st.1.map fun p => (p.name, p.val, p.mom)) ∧ (mapping o xrange env d initQ w).1.sched = st.2 := by
  have hf : Fine o := ⟨hb, htf, hvf⟩
  have ht : Total env := fun v b l => ⟨_, hL v b l⟩
  have hup : usesParticles o = some true := by rw [usesParticles_eq o hs, hp.1, hp.2]; rfl
  refine ⟨_, rfl, ?_⟩
  set frozen : Option Int := if o.freezing then some o.unfreezeAt else none with hfz
  set clamp : List K → List K := if o.clamp then clampTo xrange else id with hcl
  have hsetup : mappingSetup o initQ w = ({ w with pars := atEpoch frozen 0 (place initQ w.pars) }, .ok ()) := by
    unfold mappingSetup
    rw [hup]
    simp only
    rw [modify_ok _ _ _ hq]
    simp only [andThen]
    have hn1 : hasName "q1" (w.pars.map fun p => if p.name = "q1" then { p with val := initQ } else p) = true := by
      rw [hasName_map _ _ (fun p => by split <;> rfl)]
      exact hq
    cases hfrz : o.freezing with
    | true =>
      simp only [if_true]
      rw [modify_ok _ _ _ hn1]
      simp only [hfz, hfrz, if_true]
      congr 2
      rw [place, atEpoch]
      apply List.map_congr_left
      intro p _
      by_cases hpn : p.name = "q1"
      · have : decide (0 ≤ o.unfreezeAt ∧ o.unfreezeAt < ((0 : Nat) : Int)) = false := by
          rw [decide_eq_false_iff_not]
          push_cast
          omega
        simp only [hpn, if_true, this]
      · simp only [hpn, if_false]
    | false =>
      simp only [Bool.false_eq_true, if_false, hfz, hfrz]
      congr 2
      rw [place, atEpoch, List.map_map]
      rfl
  let R : Nat → World K M S → List (Par K M) × S → Prop := fun e v st => v.pars = atEpoch frozen e st.1 ∧ v.sched = st.2 ∧ hasName "q1" st.1 = true
  obtain ⟨w2, h4, h5, h6, -⟩ := forLoop_range R (mappingEpoch o xrange env d.eval (trainBatches o.batchSize d.train))
    (learnEpoch env.grad env.adam env.rate (fun v => (L v false d.eval).loss) clamp frozen (fun e => o.testFreq ∣ (e : Int)) (trainBatches o.batchSize d.train)) (fun e v st hv => by
      obtain ⟨hv1, hv2, hv3⟩ := hv
      have hunf : mappingUnfreeze o e v = ({ v with pars := atEpoch frozen (e + 1) st.1 }, .ok ()) := by
        unfold mappingUnfreeze
        rw [hup]
        simp only [Bool.true_and]
        have hle := learn_unfreeze o.freezing o.unfreezeAt e st.1
        rw [← hfz, ← hv1] at hle
        by_cases hc : o.freezing = true ∧ (e : Int) = o.unfreezeAt
        · rw [if_pos hc] at hle
          rw [if_pos (by simp [hc]), modify_ok _ _ _ (by rw [hv1, hasName_atEpoch]; exact hv3), hle]
        · rw [if_neg hc] at hle
          rw [if_neg (by simpa using hc), ← hle]
      have hbat := forLoop_fold (fun (v' : World K M S) (ps : List (Par K M)) => v'.pars = atEpoch frozen (e + 1) ps ∧ v'.sched = st.2 ∧ hasName "q1" ps = true)
        (fun (x : List α × Nat) => mappingBatch o xrange env e x.2 x.1) (fun ps x => learnStep env.grad (env.adam st.2) clamp frozen e ps x.1) (fun x v' ps hv' => by
          obtain ⟨a1, a2, a3⟩ := hv'
          have hl := learn_update env clamp frozen e ps x.1 v' a1
          rw [a2] at hl
          show ∃ w', mappingBatch o xrange env e x.2 x.1 v' = (w', .ok ()) ∧ _
          unfold mappingBatch
          rw [trainBatch_ok env ht]
          simp only [andThen]
          cases hclamp : o.clamp with
          | true =>
            rw [if_pos (by simp [hs]), modify_ok _ _ _ (by simp only; rw [hasName_map _ _ (update_name env v' x.1), a1, hasName_atEpoch]; exact a3)]
            refine ⟨_, rfl, ?_, a2, by rw [hasName_learnStep]; exact a3⟩
            simp only
            rw [← hl, hcl, hclamp]
            rfl
          | false =>
            rw [if_neg (by simp)]
            refine ⟨_, rfl, ?_, a2, by rw [hasName_learnStep]; exact a3⟩
            simp only
            rw [← hl, hcl, hclamp]
            conv_lhs => rw [← List.map_id (v'.pars.map (update env v' x.1))]
            apply List.map_congr_left
            intro p _
            simp) (trainBatches o.batchSize d.train e).zipIdx ({ v with pars := atEpoch frozen (e + 1) st.1 }) st.1 ⟨rfl, hv2, hv3⟩
      obtain ⟨v2, b1, b2, b3, b4⟩ := hbat
      rw [foldl_zipIdx (fun ps x => learnStep env.grad (env.adam st.2) clamp frozen e ps x)] at b2 b4
      obtain ⟨v3, c1, c2, c3, -⟩ := mappingEval_ok o hf env ht e d.eval v2
      refine ⟨v3, ?_, ?_, ?_, ?_⟩
      · unfold mappingEpoch
        rw [hunf]
        simp only [andThen]
        rw [b1]
        exact c1
      · rw [c2, b2]
        rfl
      · rw [c3 _ (hL _ _ _), b3, World.vals, b2, vals_atEpoch]
        rfl
      · exact b4) (o.niters + 1).toNat ({ w with pars := atEpoch frozen 0 (place initQ w.pars) }) (place initQ w.pars, w.sched) ⟨rfl, rfl, by
        simp only
        rw [place, hasName_map _ _ (fun p => by split <;> rfl)]
        exact hq⟩
  have m1 : (mapping o xrange env d initQ w).1 = w2 := by
    unfold mapping
    rw [if_neg (by omega), hsetup]
    simp only [hs, weightDecay]
    rw [epochs, h4]
    dsimp only
    rw [mappingEnd, hL]
    dsimp only
    rw [if_pos hs, hL]
  rw [m1, h5, h6]
  refine ⟨?_, rfl⟩
  rw [atEpoch, List.map_map]
  rfl

theorem spiral_place (initQ : Option (List K)) (w : World K M S) (hq : hasName "q1" w.pars = true) :
    (match initQ with | none => (w, .ok ()) | some q => modify "q1" (fun p => { p with val := q }) w : World K M S × Py Unit) = ({ w with pars := initQ.elim w.pars fun q => place q w.pars }, .ok ()) := by
  cases initQ with
  | none => rfl
  | some q =>
    simp only
    rw [modify_ok _ _ _ hq]
    rfl

/-- **C77.** What is learned by the spiral program, likewise; the particles are placed only with `--custom_parameter_initialization`, there is no clamping, and the learning rate is adapted in all epochs in which the evaluation data are used. -/
theorem C77_learned [Field K] [LinearOrder K] (o : Opts) (longRange : Bool) (env : Env K α G M S) (d : Data α) (initQ : Option (List K)) (w : World K M S) (hb : 0 < o.batchSize) (htf : o.testFreq ≠ 0)
    (hvf : o.vizFreq ≠ 0) (L : List (String × List K) → Bool → List α → Losses K) (hL : ∀ v b l, env.loss v b l = .ok (L v b l)) (n : Nat) (hn : ∀ e, (d.train e).length = n) (hle : o.batchSize ≤ n)
    (hp : o.freeRnn = false ∧ o.freeTime = false) (hq : hasName "q1" w.pars = true) :
    ∃ st, st = (List.range (o.niters + 1).toNat).foldl (learnEpoch env.grad env.adam env.rate (fun v => (L v false d.eval).loss) id (if o.freezing then some o.unfreezeAt else none)
        (fun e => o.testFreq ∣ (e : Int) ∨ o.vizFreq ∣ (e : Int) ∨ (e : Int) = o.niters) (trainBatches o.batchSize d.train)) ((initQ.elim w.pars fun q => place q w.pars), w.sched) ∧
      ((spiral o longRange env d initQ w).1.w.pars.map fun p => (p.name, p.val, p.mom)) = (st.1.map fun p => (p.name, p.val, p.mom)) ∧ (spiral o longRange env d initQ w).1.w.sched = st.2 := by
  have hf : Fine o := ⟨hb, htf, hvf⟩
  have ht : Total env := fun v b l => ⟨_, hL v b l⟩
  refine ⟨_, rfl, ?_⟩
  set frozen : Option Int := if o.freezing then some o.unfreezeAt else none with hfz
  set start : List (Par K M) := (initQ.elim w.pars fun q => place q w.pars) with hstart
  have hqs : hasName "q1" start = true := by
    rw [hstart]
    cases initQ with
    | none => exact hq
    | some q =>
      simp only [Option.elim]
      rw [place, hasName_map _ _ (fun p => by split <;> rfl)]
      exact hq
  have hsetup : spiralSetup o initQ w = ({ w with pars := atEpoch frozen 0 start }, .ok ()) := by
    unfold spiralSetup
    rw [if_pos (by simp [spiralUses, hp])]
    have h1 := spiral_place initQ w hq
    rw [← hstart] at h1
    refine (congrArg (fun x => andThen x id _) h1).trans ?_
    simp only [andThen]
    cases hfrz : o.freezing with
    | true =>
      simp only [if_true]
      rw [modify_ok _ _ _ hqs]
      simp only [hfz, hfrz, if_true]
      congr 2
      rw [atEpoch]
      apply List.map_congr_left
      intro p _
      by_cases hpn : p.name = "q1"
      · have : decide (0 ≤ o.unfreezeAt ∧ o.unfreezeAt < ((0 : Nat) : Int)) = false := by
          rw [decide_eq_false_iff_not]
          push_cast
          omega
        simp only [hpn, if_true, this]
      · simp only [hpn, if_false]
    | false =>
      simp only [Bool.false_eq_true, if_false, hfz, hfrz]
      congr 2
      rw [atEpoch]
      simp
  let R : Nat → SWorld K M S → List (Par K M) × S → Prop := fun e v st => v.w.pars = atEpoch frozen e st.1 ∧ v.w.sched = st.2 ∧ hasName "q1" st.1 = true
  obtain ⟨s2, h4, h5, h6, -⟩ := forLoop_range R (spiralEpoch o env d (trainBatches o.batchSize d.train))
    (learnEpoch env.grad env.adam env.rate (fun v => (L v false d.eval).loss) id frozen (fun e => o.testFreq ∣ (e : Int) ∨ o.vizFreq ∣ (e : Int) ∨ (e : Int) = o.niters) (trainBatches o.batchSize d.train)) (fun e v st hv => by
      obtain ⟨hv1, hv2, hv3⟩ := hv
      obtain ⟨v1, a1, -, -, -, -, a6, a7⟩ := spiralUnfreeze_ok o e v (fun _ _ => by rw [hv1, hasName_atEpoch]; exact hv3)
      have hunf : v1.w.pars = atEpoch frozen (e + 1) st.1 := by
        have hle := learn_unfreeze o.freezing o.unfreezeAt e st.1
        rw [← hfz, ← hv1] at hle
        rw [← hle, a7]
        simp only [hp.1, hp.2, and_true]
      have hbat := forLoop_fold (fun (v' : SWorld K M S) (ps : List (Par K M)) => v'.w.pars = atEpoch frozen (e + 1) ps ∧ v'.w.sched = st.2 ∧ hasName "q1" ps = true)
        (fun (x : List α × Nat) => spiralBatch env e x.2 x.1) (fun ps x => learnStep env.grad (env.adam st.2) id frozen e ps x.1) (fun x v' ps hv' => by
          obtain ⟨b1, b2, b3⟩ := hv'
          have hl := learn_update env id frozen e ps x.1 v'.w b1
          rw [b2] at hl
          refine ⟨_, spiralBatch_ok env ht e x.2 x.1 v', ?_, b2, by rw [hasName_learnStep]; exact b3⟩
          simp only
          rw [← hl]
          conv_lhs => rw [← List.map_id (v'.w.pars.map (update env v'.w x.1))]
          apply List.map_congr_left
          intro p _
          simp) (trainBatches o.batchSize d.train e).zipIdx v1 st.1 ⟨hunf, by rw [a6, hv2], hv3⟩
      obtain ⟨v2, b1, b2, b3, b4⟩ := hbat
      rw [foldl_zipIdx (fun ps x => learnStep env.grad (env.adam st.2) id frozen e ps x)] at b2 b4
      have hne : trainBatches o.batchSize d.train e ≠ [] := by
        intro h
        have := trainBatches_length o.batchSize hb d.train e
        rw [h, hn, List.length_nil] at this
        have h2 := Nat.div_pos (show o.batchSize.toNat ≤ n by omega) (show 0 < o.batchSize.toNat by omega)
        omega
      have set2 : v2.lossSet = true := by
        obtain ⟨z, z1, -, z3, -⟩ := spiralBatches_ok env ht e (trainBatches o.batchSize d.train e) v1
        rw [b1] at z1
        cases z1
        exact z3 (Or.inr hne)
      obtain ⟨v3, c1, c2, -, -, c5, -⟩ := spiralEval_ok o hf env ht e d.eval v2 set2
      obtain ⟨v4, d1, d2, d3, -⟩ := spiralShow_ok o hf env ht e d.test v3
      refine ⟨v4, ?_, ?_, ?_, ?_⟩
      · unfold spiralEpoch
        rw [a1]
        simp only [andThen]
        rw [b1]
        simp only
        rw [c1]
        exact d1
      · rw [d2, c2, b2]
        rfl
      · rw [d3, c5 _ (hL _ _ _), b3, World.vals, b2, vals_atEpoch]
        rfl
      · exact b4) (o.niters + 1).toNat ⟨{ w with pars := atEpoch frozen 0 start }, false, false⟩ (start, w.sched) ⟨rfl, rfl, hqs⟩
  have m1 : (spiral o longRange env d initQ w).1 = s2 := by
    unfold spiral
    rw [if_neg (by omega), hsetup]
    simp only
    rw [epochs, h4]
    dsimp only
    rw [spiralEnd, hL, hL]
    cases longRange with
    | false => rfl
    | true =>
      simp only [if_true, Except.map]
      split <;> rfl
  rw [m1, h5, h6]
  refine ⟨?_, rfl⟩
  rw [atEpoch, List.map_map]
  rfl

example : (mapping demoOpts 1 demoEnv demoData [1] demoWorld).1.sched = 1 / 16 := by
  obtain ⟨st, h1, -, h3⟩ := C76_learned demoOpts 1 demoEnv demoData [1] demoWorld rfl (by decide) (by decide) (by decide) _ (fun _ _ _ => rfl) ⟨rfl, rfl⟩ rfl
  rw [h3, h1]
  decide +kernel

example : (spiral demoSpiral true demoEnv demoData (some [1]) demoWorld).1.w.sched = 1 / 32 := by
  obtain ⟨st, h1, -, h3⟩ := C77_learned demoSpiral true demoEnv demoData (some [1]) demoWorld (by decide) (by decide) (by decide) _ (fun _ _ _ => rfl) 5 (fun _ => rfl) (by decide) ⟨rfl, rfl⟩ rfl
  rw [h3, h1]
  decide +kernel

end Verif.Training
