import Verif.Training.Spec
import Verif.Spheres.Props

/-!
# Lemmas about the training loops
-/

namespace Verif.Training
open Verif

variable {K α G M S : Type}

/-- A property kept by the body of a loop is kept by the loop, however it ends. -/
theorem forLoop_inv {A X : Type} (I : A → Prop) (body : X → A → A × Py Unit) (xs : List X) (h : ∀ x ∈ xs, ∀ w, I w → I (body x w).1) (w : A) (hw : I w) : I (forLoop body xs w).1 := by
  induction xs generalizing w with
  | nil => exact hw
  | cons x xs ih =>
    have h1 := h x (by simp) w hw
    rw [forLoop]
    cases hb : body x w with
    | mk w' r =>
      rw [hb] at h1
      cases r with
      | error e => exact h1
      | ok u => exact ih (fun y hy => h y (by simp [hy])) w' h1

/-- A loop whose body never fails. -/
theorem forLoop_ok {A X T : Type} (I : A → Prop) (tags : A → List T) (body : X → A → A × Py Unit) (f : X → List T) (xs : List X)
    (h : ∀ x ∈ xs, ∀ w, I w → ∃ w', body x w = (w', .ok ()) ∧ I w' ∧ tags w' = tags w ++ f x) (w : A) (hw : I w) :
    ∃ w', forLoop body xs w = (w', .ok ()) ∧ I w' ∧ tags w' = tags w ++ xs.flatMap f := by
  induction xs generalizing w with
  | nil => exact ⟨w, rfl, hw, by simp⟩
  | cons x xs ih =>
    obtain ⟨w1, h1, h2, h3⟩ := h x (by simp) w hw
    obtain ⟨w2, h4, h5, h6⟩ := ih (fun y hy => h y (by simp [hy])) w1 h2
    refine ⟨w2, ?_, h5, ?_⟩
    · rw [forLoop, h1]; exact h4
    · rw [h6, h3]; simp

/-- Two loops over the same list that keep a relation. -/
theorem forLoop_rel {A B X : Type} (R : A → B → Prop) (body : X → A → A × Py Unit) (body' : X → B → B × Py Unit) (xs : List X)
    (h : ∀ x ∈ xs, ∀ w v, R w v → ∃ w' v', body x w = (w', .ok ()) ∧ body' x v = (v', .ok ()) ∧ R w' v') (w : A) (v : B) (hw : R w v) :
    ∃ w' v', forLoop body xs w = (w', .ok ()) ∧ forLoop body' xs v = (v', .ok ()) ∧ R w' v' := by
  induction xs generalizing w v with
  | nil => exact ⟨w, v, rfl, rfl, hw⟩
  | cons x xs ih =>
    obtain ⟨w1, v1, h1, h2, h3⟩ := h x (by simp) w v hw
    obtain ⟨w2, v2, h4, h5, h6⟩ := ih (fun y hy => h y (by simp [hy])) w1 v1 h3
    refine ⟨w2, v2, ?_, ?_, h6⟩
    · rw [forLoop, h1]; exact h4
    · rw [forLoop, h2]; exact h5

theorem update_name (env : Env K α G M S) (w : World K M S) (b : List α) (p : Par K M) : (update env w b p).name = p.name := by
  unfold update
  split <;> rfl

theorem update_frozen (env : Env K α G M S) (w : World K M S) (b : List α) (p : Par K M) (h : p.rg = false) : update env w b p = p := by
  unfold update
  rw [h]
  rfl

theorem update_rg (env : Env K α G M S) (w : World K M S) (b : List α) (p : Par K M) : (update env w b p).rg = p.rg := by
  unfold update
  split <;> rfl

theorem hasName_map (n : String) (f : Par K M → Par K M) (hf : ∀ p, (f p).name = p.name) (ps : List (Par K M)) : hasName n (ps.map f) = hasName n ps := by
  unfold hasName
  rw [List.any_map]
  congr 1
  funext p
  simp [hf]

theorem length_flatten_const {X : Type} (size : Nat) (bs : List (List X)) (h : ∀ b ∈ bs, b.length = size) : bs.flatten.length = bs.length * size := by
  induction bs with
  | nil => simp
  | cons b bs ih =>
    rw [List.flatten_cons, List.length_append, ih (fun x hx => h x (by simp [hx])), h b (by simp), List.length_cons]
    ring

/-- The batches of an epoch: as many as there are full ones. -/
theorem trainBatches_length (size : Int) (hs : 0 < size) (train : Nat → List α) (e : Nat) : (trainBatches size train e).length = (train e).length / size.toNat := by
  obtain ⟨bs, h1, h2, h3⟩ := (Spheres.C72_loader size.toNat (by omega) (train e)).2
  have h4 : trainBatches size train e = bs := by unfold trainBatches; rw [h1]
  rw [h4]
  have h5 := length_flatten_const _ bs h3
  have h6 := Nat.div_add_mod (train e).length size.toNat
  have h7 := Nat.mod_le (train e).length size.toNat
  rw [h2, List.length_take, Nat.min_eq_left (by omega)] at h5
  have h8 : bs.length * size.toNat = size.toNat * ((train e).length / size.toNat) := by omega
  rw [Nat.mul_comm] at h8
  exact Nat.eq_of_mul_eq_mul_left (by omega) h8

theorem multiple_ok (e : Nat) (f : Int) (hf : f ≠ 0) : multiple e f = .ok (decide (f ∣ (e : Int))) := by rw [multiple, if_neg hf]

theorem evaluates_ok (o : Opts) (e : Nat) (ht : o.testFreq ≠ 0) (hv : o.vizFreq ≠ 0) :
    evaluates o e = .ok (decide (o.testFreq ∣ (e : Int) ∨ o.vizFreq ∣ (e : Int) ∨ (e : Int) = o.niters)) := by
  unfold evaluates
  rw [multiple_ok e _ ht, multiple_ok e _ hv]
  by_cases h1 : o.testFreq ∣ (e : Int) <;> by_cases h2 : o.vizFreq ∣ (e : Int) <;> simp [h1, h2, bind, Except.bind]

/-- The tags of a run. -/
def World.tags (w : World K M S) : List Tag := w.log.map Event.tag

theorem modify_ok (n : String) (f : Par K M → Par K M) (w : World K M S) (h : hasName n w.pars = true) :
    modify n f w = ({ w with pars := w.pars.map fun p => if p.name = n then f p else p }, .ok ()) := by rw [modify, if_pos h]

theorem hasName_modify (n m : String) (f : Par K M → Par K M) (hf : ∀ p, (f p).name = p.name) (w : World K M S) : hasName m (modify n f w).1.pars = hasName m w.pars := by
  unfold modify
  split
  · apply hasName_map
    intro p
    split
    · exact hf p
    · rfl
  · rfl

theorem modify_tags (n : String) (f : Par K M → Par K M) (w : World K M S) : (modify n f w).1.tags = w.tags := by
  unfold modify
  split <;> rfl

theorem trainBatch_ok (env : Env K α G M S) (ht : Total env) (e k : Nat) (b : List α) (w : World K M S) :
    trainBatch env e k b w = (⟨w.pars.map (update env w b), w.sched, w.log ++ [.step e k]⟩, .ok ()) := by
  obtain ⟨r, hr⟩ := ht w.vals false b
  rw [trainBatch, hr]

/-- Options with which the mapping program can run: the loops are well defined, the network is the shooting network, and particles exist if they are needed. -/
structure Fine (o : Opts) : Prop where
  size : 0 < o.batchSize
  test : o.testFreq ≠ 0
  viz : o.vizFreq ≠ 0

theorem mappingBatch_ok [Field K] [LinearOrder K] (o : Opts) (xrange : K) (env : Env K α G M S) (ht : Total env) (e k : Nat) (b : List α) (w : World K M S)
    (hq : o.clamp = true → hasName "q1" w.pars = true) : ∃ w', mappingBatch o xrange env e k b w = (w', .ok ()) ∧ hasName "q1" w'.pars = hasName "q1" w.pars ∧ w'.tags = w.tags ++ [.step e k] := by
  unfold mappingBatch
  rw [trainBatch_ok env ht]
  have h1 : hasName "q1" (w.pars.map (update env w b)) = hasName "q1" w.pars := hasName_map _ _ (update_name env w b) _
  simp only [andThen]
  split
  · next hc =>
    simp only [Bool.and_eq_true, decide_eq_true_eq] at hc
    rw [modify_ok _ _ _ (by rw [h1]; exact hq hc.1)]
    refine ⟨_, rfl, ?_, by simp [World.tags, Event.tag]⟩
    rw [hasName_map _ _ (fun p => by split <;> rfl), h1]
  · exact ⟨_, rfl, h1, by simp [World.tags, Event.tag]⟩

theorem mappingEval_ok (o : Opts) (hf : Fine o) (env : Env K α G M S) (ht : Total env) (e : Nat) (b : List α) (w : World K M S) :
    ∃ w', mappingEval o env e b w = (w', .ok ()) ∧ w'.pars = w.pars ∧ (∀ l, env.loss w.vals false b = .ok l → w'.sched = if o.testFreq ∣ (e : Int) then env.rate l.loss w.sched else w.sched) ∧ w'.tags = w.tags ++
      ((if o.testFreq ∣ (e : Int) ∨ o.vizFreq ∣ (e : Int) ∨ (e : Int) = o.niters then [Tag.evaluated e] else []) ++
        ((if o.testFreq ∣ (e : Int) then [Tag.rate e] else []) ++
        (if (o.viz || o.saveFigures) = true ∧ (o.vizFreq ∣ (e : Int) ∨ (e : Int) = o.niters) then [Tag.figure e] else []))) := by
  obtain ⟨r, hr⟩ := ht w.vals false b
  unfold mappingEval
  rw [evaluates_ok o e hf.test hf.viz, multiple_ok e _ hf.test, multiple_ok e _ hf.viz, hr]
  by_cases h3 : (e : Int) = o.niters
  · rw [h3]
    by_cases h1 : o.testFreq ∣ o.niters <;> by_cases h2 : o.vizFreq ∣ o.niters <;> by_cases h4 : (o.viz || o.saveFigures) = true <;> simp [h1, h2, h4, World.tags, Event.tag]
  · by_cases h1 : o.testFreq ∣ (e : Int) <;> by_cases h2 : o.vizFreq ∣ (e : Int) <;> by_cases h4 : (o.viz || o.saveFigures) = true <;> simp [h1, h2, h3, h4, World.tags, Event.tag]

end Verif.Training
