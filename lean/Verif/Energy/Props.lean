import Verif.Energy.Spec
import Verif.Dicts.Lemmas
import Mathlib.Algebra.Order.Field.Basic
import Mathlib.Algebra.BigOperators.Group.List.Basic
import Mathlib.Algebra.BigOperators.Ring.List
import Mathlib.Algebra.Order.BigOperators.Group.List
import Mathlib.Algebra.Order.Ring.Rat
import Mathlib.Tactic.Ring
import Mathlib.Tactic.Linarith
import Mathlib.Tactic.Positivity
import Mathlib.Tactic.NormNum

/-!
# C36 and the dictionary side of C32 and C33
-/

namespace Verif.Energy
open Verif

variable {α : Type}

section Field
variable [Field α]

theorem penalty_eq (o : Obj α) (k : String) (t : List α) :
    penalty o.weights k t = (t.map (fun x => weightOf o k * x ^ 2)).sum := by
  unfold penalty weightOf
  cases h : SDict.get? o.weights k with
  | none => simp
  | some w => cases w with
    | none => simp
    | some w => simp [List.sum_map_mul_left]

theorem inner_loop (o : Obj α) (pars : SDict String (List α)) (e : α) :
    pars.foldl (fun e p => e + penalty o.weights p.1 p.2) e =
      e + ((pars.flatMap (fun p => p.2.map (fun x => (weightOf o p.1, x)))).map (fun wx => wx.1 * wx.2 ^ 2)).sum := by
  induction pars generalizing e with
  | nil => simp
  | cons p pars ih =>
    rw [List.foldl_cons, ih, penalty_eq]
    simp [List.map_map, Function.comp_def, add_assoc]

theorem outer_loop (objs : SDict String (Obj α)) (e : α) :
    objs.foldl (fun e o => o.2.pars.foldl (fun e p => e + penalty o.2.weights p.1 p.2) e) e =
      e + ((terms objs).map (fun wx => wx.1 * wx.2 ^ 2)).sum := by
  induction objs generalizing e with
  | nil => simp [terms]
  | cons o objs ih =>
    rw [List.foldl_cons, ih, inner_loop]
    simp [terms, add_assoc]

/-- **C36** The kinetic energy is half the weighted sum of squares of all scalar parameters; parameters without
a weight (no entry, or `None`) count with weight 1. -/
theorem C36_value (objs : SDict String (Obj α)) :
    kineticEnergy objs = ((terms objs).map (fun wx => wx.1 * wx.2 ^ 2)).sum / 2 := by
  unfold kineticEnergy
  rw [outer_loop]
  ring

/-- Two layers: weight 2 for the matrix of the first, no entry for its bias, `None` for the second. -/
def sampleObjs : SDict String (Obj ℚ) :=
  [("l1", ⟨[("bias", [1, -1]), ("weight", [1, 2, 3, 4])], [("weight", some 2)]⟩),
   ("l2", ⟨[("weight", [5])], [("weight", none)]⟩)]

example : kineticEnergy sampleObjs = ((2 : ℚ) * (1 + 4 + 9 + 16) + 1 * (1 + 1) + 1 * 25) / 2 := by
  rw [C36_value]
  have : ("weight" : String) ≠ "bias" := by decide
  norm_num [sampleObjs, terms, weightOf, SDict.get?, this]

/-- **C36** Scaling all parameters by `c` scales the energy by `c²`. -/
theorem C36_quadratic (c : α) (objs : SDict String (Obj α)) :
    kineticEnergy (scale c objs) = c ^ 2 * kineticEnergy objs := by
  rw [C36_value, C36_value]
  have : terms (scale c objs) = (terms objs).map (fun wx => (wx.1, c * wx.2)) := by
    unfold terms scale SDict.mapVals
    rw [List.flatMap_map, List.map_flatMap]
    refine List.flatMap_congr fun o _ => ?_
    rw [List.flatMap_map, List.map_flatMap]
    refine List.flatMap_congr fun p _ => ?_
    simp [weightOf, List.map_map, Function.comp_def]
  rw [this, List.map_map]
  have e : ((fun wx : α × α => wx.1 * wx.2 ^ 2) ∘ fun wx : α × α => (wx.1, c * wx.2)) = fun wx : α × α => c ^ 2 * (wx.1 * wx.2 ^ 2) := by
    funext wx
    simp
    ring
  rw [e, List.sum_map_mul_left]
  ring

example : kineticEnergy (scale 3 sampleObjs) = 9 * kineticEnergy sampleObjs := by
  rw [C36_quadratic]; norm_num

/-- **C36** The energy of a network is the sum of the energies of its layers. -/
theorem C36_additive (a b : SDict String (Obj α)) : kineticEnergy (a ++ b) = kineticEnergy a + kineticEnergy b := by
  rw [C36_value, C36_value, C36_value]
  simp [terms]
  ring

end Field

section Ordered
variable [Field α] [LinearOrder α] [IsStrictOrderedRing α]

/-- **C36** With non-negative weights the energy is not negative. -/
theorem C36_nonneg (objs : SDict String (Obj α)) (hw : ∀ wx ∈ terms objs, 0 ≤ wx.1) : 0 ≤ kineticEnergy objs := by
  rw [C36_value]
  refine div_nonneg (List.sum_nonneg ?_) (by norm_num)
  intro y hy
  obtain ⟨wx, hwx, rfl⟩ := List.mem_map.1 hy
  exact mul_nonneg (hw wx hwx) (sq_nonneg _)

example : 0 ≤ kineticEnergy sampleObjs := C36_nonneg _ (by
  simp [sampleObjs, terms, weightOf, SDict.get?])

/-- **C36** With positive weights the energy is zero only if all parameters are. -/
theorem C36_definite (objs : SDict String (Obj α)) (hw : ∀ wx ∈ terms objs, 0 < wx.1) :
    kineticEnergy objs = 0 ↔ ∀ o ∈ objs, ∀ p ∈ o.2.pars, ∀ x ∈ p.2, x = 0 := by
  rw [C36_value]
  constructor
  · intro h
    have h2 : ((terms objs).map (fun wx => wx.1 * wx.2 ^ 2)).sum = 0 := by
      rcases div_eq_zero_iff.1 h with h | h
      · exact h
      · norm_num at h
    have h3 : ∀ l : List (α × α), (∀ wx ∈ l, 0 < wx.1) → (l.map (fun wx => wx.1 * wx.2 ^ 2)).sum = 0 → ∀ wx ∈ l, wx.2 = 0 := by
      intro l
      induction l with
      | nil => simp
      | cons a l ih =>
        intro hp hs
        simp only [List.map_cons, List.sum_cons] at hs
        have ha : 0 ≤ a.1 * a.2 ^ 2 := mul_nonneg (hp a (by simp)).le (sq_nonneg _)
        have hl : 0 ≤ (l.map (fun wx => wx.1 * wx.2 ^ 2)).sum := by
          refine List.sum_nonneg fun y hy => ?_
          obtain ⟨wx, hwx, rfl⟩ := List.mem_map.1 hy
          exact mul_nonneg (hp wx (by simp [hwx])).le (sq_nonneg _)
        have h0 : a.1 * a.2 ^ 2 = 0 := by linarith
        have h1 : (l.map (fun wx => wx.1 * wx.2 ^ 2)).sum = 0 := by linarith
        intro wx hwx
        rcases List.mem_cons.1 hwx with rfl | hwx
        · rcases mul_eq_zero.1 h0 with h | h
          · exact absurd h (hp wx (by simp)).ne'
          · exact pow_eq_zero_iff (by norm_num) |>.1 h
        · exact ih (fun x hx => hp x (by simp [hx])) h1 wx hwx
    intro o ho p hp x hx
    exact h3 _ hw h2 (weightOf o.2 p.1, x) (by
      unfold terms
      exact List.mem_flatMap.2 ⟨o, ho, List.mem_flatMap.2 ⟨p, hp, List.mem_map.2 ⟨x, hx, rfl⟩⟩⟩)
  · intro h
    have : ∀ y ∈ (terms objs).map (fun wx => wx.1 * wx.2 ^ 2), y = 0 := by
      intro y hy
      obtain ⟨wx, hwx, rfl⟩ := List.mem_map.1 hy
      obtain ⟨o, ho, hwx⟩ := List.mem_flatMap.1 hwx
      obtain ⟨p, hp, hwx⟩ := List.mem_flatMap.1 hwx
      obtain ⟨x, hx, rfl⟩ := List.mem_map.1 hwx
      simp [h o ho p hp x hx]
    rw [List.sum_eq_zero this]
    simp

example : kineticEnergy sampleObjs ≠ 0 := by
  intro h
  have := (C36_definite sampleObjs (by simp [sampleObjs, terms, weightOf, SDict.get?])).1 h
  simp [sampleObjs] at this

/-- **C36** Positivity is needed: with weight 0 a non-zero parameter costs nothing. -/
theorem C36_zero_weight : kineticEnergy ([("l1", ⟨[("weight", [5])], [("weight", some 0)]⟩)] : SDict String (Obj ℚ)) = 0 := by
  rw [C36_value]
  norm_num [terms, weightOf, SDict.get?]

end Ordered

/-! ## Storing gradients -/

section Store
variable [Field α]

theorem divided_eq (o : Obj α) (k : String) (g : List α) : divided o.weights k g = g.map (fun x => x / weightOf o k) := by
  unfold divided weightOf
  cases h : SDict.get? o.weights k with
  | none => simp
  | some w => cases w <;> simp

omit [Field α] in
theorem zipLoop_go (f : String → List α → List α → List α) (l : SDict String (List α)) (vals : SDict String (List α))
    (hlen : vals.length = l.length) (acc : SDict String (List α)) (hs : SDict.Sorted (acc ++ l)) :
    (l.zip vals).foldl (fun d pf => d.set pf.1.1 (f pf.1.1 pf.1.2 pf.2.2)) (acc ++ l) =
      acc ++ (l.zip vals).map (fun pf => (pf.1.1, f pf.1.1 pf.1.2 pf.2.2)) := by
  induction l generalizing vals acc with
  | nil => simp
  | cons p l ih =>
    cases vals with
    | nil => simp at hlen
    | cons v vals =>
      rw [List.zip_cons_cons, List.foldl_cons]
      have e : SDict.set (acc ++ p :: l) p.1 (f p.1 p.2 v.2) = (acc ++ [(p.1, f p.1 p.2 v.2)]) ++ l := by
        clear ih
        have hlt : ∀ k ∈ SDict.keys acc, k < p.1 := by
          intro k hk
          exact (SDict.sorted_append.1 hs).2.2 k hk p.1 (by simp)
        clear hs
        induction acc with
        | nil => simp [SDict.set]
        | cons a acc ih2 =>
          have h1 : a.1 < p.1 := hlt a.1 (by simp)
          obtain ⟨ak, av⟩ := a
          simp only [List.cons_append, SDict.set]
          rw [if_neg (not_lt.2 h1.le), if_neg (ne_of_lt h1), ih2 (fun k hk => hlt k (by simp [hk]))]
      rw [e, ih vals (by simpa using hlen) _ (by
        unfold SDict.Sorted at hs ⊢
        simpa using hs)]
      simp

omit [Field α] in
theorem zipLoop_eq (f : String → List α → List α → List α) (pars vals : SDict String (List α))
    (hlen : vals.length = pars.length) (hs : SDict.Sorted pars) :
    zipLoop f pars vals = (pars.zip vals).map (fun pf => (pf.1.1, f pf.1.1 pf.1.2 pf.2.2)) := by
  unfold zipLoop
  exact (zipLoop_go f pars vals hlen [] hs).trans (by simp)

/-- The gradient dictionary for given gradients `g object name`. -/
def gradDict (g : String → String → List α) (objs : SDict String (Obj α)) : Dicts.DDict (List α) :=
  objs.map (fun o => (o.1, o.2.pars.map (fun p => ("grad_" ++ p.1, g o.1 p.1))))

omit [Field α] in
theorem get?_gradDict (g : String → String → List α) (objs : SDict String (Obj α)) (hs : SDict.Sorted objs)
    (o : String × Obj α) (ho : o ∈ objs) :
    SDict.get? (gradDict g objs) o.1 = some (o.2.pars.map (fun p => ("grad_" ++ p.1, g o.1 p.1))) := by
  refine SDict.get?_eq_some_of_mem ?_ ?_
  · have := hs.nodup
    unfold SDict.keys gradDict at *
    simpa [List.map_map, Function.comp_def] using this
  · exact List.mem_map.2 ⟨o, ho, rfl⟩

theorem updateObjects_go (f : SDict String (Option α) → String → List α → List α → List α) (G : Dicts.DDict (List α))
    (g : String → String → List α) (l : SDict String (Obj α))
    (hG : ∀ o ∈ l, SDict.get? G o.1 = some (o.2.pars.map (fun p => ("grad_" ++ p.1, g o.1 p.1))))
    (hp : ∀ o ∈ l, SDict.Sorted o.2.pars)
    (acc : SDict String (Obj α)) (hs : SDict.Sorted (acc ++ l)) :
    l.foldlM (fun (acc : SDict String (Obj α)) o =>
      match SDict.get? G o.1 with
      | none => (.error .keyError : Py _)
      | some fp => .ok (acc.set o.1 { o.2 with pars := zipLoop (f o.2.weights) o.2.pars fp })) (acc ++ l) =
    .ok (acc ++ l.map (fun o => (o.1, { o.2 with pars := o.2.pars.map (fun p => (p.1, f o.2.weights p.1 p.2 (g o.1 p.1))) }))) := by
  induction l generalizing acc with
  | nil => simp [pure, Except.pure]
  | cons o l ih =>
    rw [List.foldlM_cons, hG o (by simp)]
    have hz : zipLoop (f o.2.weights) o.2.pars (o.2.pars.map (fun p => ("grad_" ++ p.1, g o.1 p.1))) =
        o.2.pars.map (fun p => (p.1, f o.2.weights p.1 p.2 (g o.1 p.1))) := by
      rw [zipLoop_eq _ _ _ (by simp) (hp o (by simp)), List.zip_map_right, List.map_map]
      generalize o.2.pars = l
      induction l with
      | nil => rfl
      | cons a l ih => simpa using ih
    simp only [hz]
    have e : SDict.set (acc ++ o :: l) o.1 { o.2 with pars := o.2.pars.map (fun p => (p.1, f o.2.weights p.1 p.2 (g o.1 p.1))) } =
        (acc ++ [(o.1, { o.2 with pars := o.2.pars.map (fun p => (p.1, f o.2.weights p.1 p.2 (g o.1 p.1))) })]) ++ l := by
      clear ih
      have hlt : ∀ k ∈ SDict.keys acc, k < o.1 := by
        intro k hk
        exact (SDict.sorted_append.1 hs).2.2 k hk o.1 (by simp)
      clear hs
      induction acc with
      | nil => simp [SDict.set]
      | cons a acc ih2 =>
        have h1 : a.1 < o.1 := hlt a.1 (by simp)
        obtain ⟨ak, av⟩ := a
        simp only [List.cons_append, SDict.set]
        rw [if_neg (not_lt.2 h1.le), if_neg (ne_of_lt h1), ih2 (fun k hk => hlt k (by simp [hk]))]
    change (List.foldlM _ (SDict.set (acc ++ o :: l) o.1 _) l : Py _) = _
    rw [e, ih (fun o ho => hG o (by simp [ho])) (fun o ho => hp o (by simp [ho])) _ (by
      unfold SDict.Sorted at hs ⊢
      simpa using hs)]
    simp

theorem updateObjects_eq (f : SDict String (Option α) → String → List α → List α → List α)
    (g : String → String → List α) (objs : SDict String (Obj α)) (hs : SortedObjs objs) :
    updateObjects f objs (gradDict g objs) =
      .ok (objs.map (fun o => (o.1, { o.2 with pars := o.2.pars.map (fun p => (p.1, f o.2.weights p.1 p.2 (g o.1 p.1))) }))) := by
  unfold updateObjects
  exact (updateObjects_go f (gradDict g objs) g objs (get?_gradDict g objs hs.1) hs.2 [] hs.1).trans (by simp)

omit [Field α] in
theorem keys_dicts_pars (o : Obj α) : SDict.keys (SDict.mapVals some o.pars) = o.pars.keys := by
  simp

omit [Field α] in
theorem slots_dicts (objs : SDict String (Obj α)) : Dicts.slots (dicts objs) = names objs := by
  unfold Dicts.slots dicts names SDict.mapVals
  rw [List.flatMap_map]
  refine List.flatMap_congr fun o _ => ?_
  simp [SDict.keys, List.map_map, Function.comp_def]

omit [Field α] in
theorem readBlocks_names (g : String → String → List α) (objs : SDict String (Obj α)) (pref : List (List α)) :
    Dicts.readBlocks (pref ++ (names objs).map (fun s => g s.1 s.2)) "grad_" (dicts objs) pref.length = gradDict g objs := by
  induction objs generalizing pref with
  | nil => rfl
  | cons o objs ih =>
    have hn : names (o :: objs) = o.2.pars.keys.map (fun k => (o.1, k)) ++ names objs := by simp [names]
    have hd : dicts (o :: objs) = (o.1, SDict.mapVals some o.2.pars) :: dicts objs := by simp [dicts, SDict.mapVals]
    rw [hd, Dicts.readBlocks, keys_dicts_pars, hn]
    have hg : gradDict g (o :: objs) = (o.1, o.2.pars.map (fun p => ("grad_" ++ p.1, g o.1 p.1))) :: gradDict g objs := by
      simp [gradDict]
    rw [hg]
    congr 1
    · simp only [List.drop_left]
      congr 1
      have : (o.2.pars.keys.map (fun k => "grad_" ++ k)).zip
          (((o.2.pars.keys.map (fun k => (o.1, k))).map (fun s => g s.1 s.2)) ++ (names objs).map (fun s => g s.1 s.2)) =
          o.2.pars.map (fun p => ("grad_" ++ p.1, g o.1 p.1)) := by
        generalize (names objs).map (fun s => g s.1 s.2) = rest
        generalize o.2.pars = pars
        induction pars with
        | nil => simp
        | cons p pars ihp => simpa [SDict.keys] using ihp
      simpa using this
    · have := ih (pref ++ (o.2.pars.keys.map (fun k => (o.1, k))).map (fun s => g s.1 s.2))
      simpa [SDict.keys] using this

omit [Field α] in
theorem sortedDicts_dicts (objs : SDict String (Obj α)) (hs : SortedObjs objs) : Dicts.SortedDicts (dicts objs) := by
  refine ⟨hs.1.mapVals _, ?_⟩
  intro b hb
  obtain ⟨o, ho, rfl⟩ := List.mem_map.1 hb
  exact (hs.2 o ho).mapVals _

omit [Field α] in
theorem extract_grads (g : String → String → List α) (objs : SDict String (Obj α)) (hs : SortedObjs objs) :
    Dicts.extractParameterObjects ((names objs).map (fun s => g s.1 s.2)) (dicts objs) "grad_" = .ok (gradDict g objs) := by
  have h := Dicts.extractDicts_eq ((names objs).map (fun s => g s.1 s.2)) (dicts objs) (sortedDicts_dicts objs hs) "grad_"
  rw [if_pos (by rw [slots_dicts]; simp)] at h
  have e := readBlocks_names g objs []
  simp only [List.nil_append, List.length_nil] at e
  rw [e] at h
  exact h

/-- **C32** Storing the gradients: whatever the gradient of each parameter is, every parameter of every object becomes
its own gradient divided by its own weight; names and weights stay as they are. -/
theorem C32_store (g : String → String → List α) (objs : SDict String (Obj α)) (hs : SortedObjs objs) :
    storeGradients objs ((names objs).map (fun s => g s.1 s.2)) =
      .ok (mapParameters (fun o k _ w => (g o k).map (fun x => x / w)) objs) := by
  unfold storeGradients
  rw [extract_grads g objs hs]
  change divideAndStore objs (gradDict g objs) = _
  unfold divideAndStore mapParameters
  rw [updateObjects_eq _ g objs hs]
  simp only [divided_eq]

theorem sampleObjs_sorted : SortedObjs sampleObjs := by
  refine ⟨by decide +kernel, ?_⟩
  decide +kernel

example : storeGradients sampleObjs [[6, 8], [2, 4, 6, 8], [7]] =
    .ok [("l1", ⟨[("bias", [6, 8]), ("weight", [1, 2, 3, 4])], [("weight", some 2)]⟩),
         ("l2", ⟨[("weight", [7])], [("weight", none)]⟩)] := by
  have := C32_store (fun o k => if o = "l2" then [7] else if k = "bias" then [6, 8] else [2, 4, 6, 8]) sampleObjs sampleObjs_sorted
  simp [sampleObjs, names, mapParameters, weightOf, SDict.get?, SDict.keys] at this
  norm_num at this
  exact this

/-- **C33** One pass of the iteration: every parameter changes by `-rate` times its own gradient, weights are not used here. -/
theorem C33_step (rate : α) (g : String → String → List α) (objs : SDict String (Obj α)) (hs : SortedObjs objs) :
    gradientStep rate objs ((names objs).map (fun s => g s.1 s.2)) =
      .ok (mapParameters (fun o k old _ => List.zipWith (fun x y => x - rate * y) old (g o k)) objs) := by
  unfold gradientStep
  rw [extract_grads g objs hs]
  change addMultiple (-rate) objs (gradDict g objs) = _
  unfold addMultiple mapParameters
  rw [updateObjects_eq _ g objs hs]
  simp only [neg_mul, sub_eq_add_neg]

example : gradientStep (1 / 2) sampleObjs [[6, 8], [2, 4, 6, 8], [7]] =
    .ok [("l1", ⟨[("bias", [-2, -5]), ("weight", [0, 0, 0, 0])], [("weight", some 2)]⟩),
         ("l2", ⟨[("weight", [3 / 2])], [("weight", none)]⟩)] := by
  have := C33_step (1 / 2) (fun o k => if o = "l2" then [7] else if k = "bias" then [6, 8] else [2, 4, 6, 8]) sampleObjs sampleObjs_sorted
  simp [sampleObjs, names, mapParameters, SDict.keys] at this
  norm_num at this
  exact this

/-- **C32** A gradient dictionary that lacks one of the objects is rejected with a `KeyError`. -/
theorem C32_missing_object (objs : SDict String (Obj α)) (generic : Dicts.DDict (List α))
    (h : ∃ o ∈ objs, SDict.get? generic o.1 = none) : divideAndStore objs generic = .error .keyError := by
  unfold divideAndStore updateObjects
  have go : ∀ (l acc : SDict String (Obj α)), (∃ o ∈ l, SDict.get? generic o.1 = none) →
      l.foldlM (fun (acc : SDict String (Obj α)) o =>
        match SDict.get? generic o.1 with
        | none => (.error .keyError : Py _)
        | some fp => .ok (acc.set o.1 { o.2 with pars := zipLoop (fun k _ new => divided o.2.weights k new) o.2.pars fp })) acc =
      .error .keyError := by
    intro l
    induction l with
    | nil => rintro acc ⟨o, ho, -⟩; simp at ho
    | cons o l ih =>
      rintro acc ⟨o', ho', h'⟩
      rw [List.foldlM_cons]
      cases hg : SDict.get? generic o.1 with
      | none => rfl
      | some fp =>
        change (List.foldlM _ _ l : Py _) = _
        rcases List.mem_cons.1 ho' with rfl | ho'
        · rw [hg] at h'; cases h'
        · exact ih _ ⟨o', ho', h'⟩
  exact go objs objs h

example : divideAndStore sampleObjs [("l1", [("grad_bias", [1, 1])])] = .error .keyError :=
  C32_missing_object _ _ ⟨("l2", ⟨[("weight", [5])], [("weight", none)]⟩), by simp [sampleObjs], by decide +kernel⟩

end Store

end Verif.Energy
