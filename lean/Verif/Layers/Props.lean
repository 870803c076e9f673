import Verif.Layers.Model

/-!
# C47: parameter removal
-/

namespace Verif.Layers
open Verif

variable {T W : Type}

theorem sorted_moveStep {d : SDict String T} (hd : SDict.Sorted d) (p : String × Option T) : SDict.Sorted (moveStep d p) := by
  unfold moveStep
  split
  · exact hd.set _ _
  · exact hd

theorem sorted_move (ps : PDict String (Option T)) {d : SDict String T} (hd : SDict.Sorted d) :
    SDict.Sorted (ps.foldl moveStep d) := by
  induction ps generalizing d with
  | nil => exact hd
  | cons p ps ih => exact ih (sorted_moveStep hd p)

theorem get?_move (ps : PDict String (Option T)) (hn : (PDict.keys ps).Nodup) {d : SDict String T} (hd : SDict.Sorted d) (k : String) :
    SDict.get? (ps.foldl moveStep d) k = ((PDict.get? ps k).join).or (SDict.get? d k) := by
  induction ps generalizing d with
  | nil => rfl
  | cons p ps ih =>
    obtain ⟨a, v⟩ := p
    simp only [PDict.keys_cons, List.nodup_cons] at hn
    rw [List.foldl_cons, ih hn.2 (sorted_moveStep hd _), PDict.get?_cons]
    by_cases hk : a = k
    · subst hk
      rw [PDict.get?_eq_none_iff.2 hn.1]
      cases v with
      | none => simp [moveStep]
      | some t => simp [moveStep, SDict.get?_set d hd]
    · cases v with
      | none => simp [moveStep, hk]
      | some t => simp [moveStep, SDict.get?_set d hd, hk]

theorem sorted_weights (ks : List String) (w : Option W) (d : SDict String (Option W)) (hd : SDict.Sorted d) :
    SDict.Sorted (ks.foldl (fun d k => d.set k w) d) := by
  induction ks generalizing d with
  | nil => exact hd
  | cons a ks ih => exact ih _ (hd.set _ _)

theorem get?_weights (ks : List String) (w : Option W) (d : SDict String (Option W)) (hd : SDict.Sorted d) (k : String) :
    SDict.get? (ks.foldl (fun d k => d.set k w) d) k = if k ∈ ks then some w else SDict.get? d k := by
  induction ks generalizing d with
  | nil => simp
  | cons a ks ih =>
    rw [List.foldl_cons, ih _ (hd.set _ _), SDict.get?_set _ hd]
    by_cases h1 : k ∈ ks
    · simp [h1]
    · by_cases h2 : a = k
      · simp [h2]
      · simp [h1, h2, Ne.symm h2]

/-- **C47.** After the removal the layer has no parameters of its own; its parameter dictionary holds exactly the parameters that are not
`None`, with their values; and the weight dictionary gives every one of them (and nothing else) the common weight. -/
theorem C47_remove (l : Layer T W) (hn : (PDict.keys l.parameters).Nodup) :
    (removeParameters l).parameters = [] ∧ SDict.Sorted (removeParameters l).weightDict ∧
    ∃ d, (removeParameters l).parameterDict = some d ∧ SDict.Sorted d ∧
      (∀ k t, SDict.get? d k = some t ↔ PDict.get? l.parameters k = some (some t)) ∧
      (∀ k t, PDict.get? l.parameters k = some (some t) → SDict.get? (removeParameters l).weightDict k = some l.weight) ∧
      ∀ k, (∀ t, PDict.get? l.parameters k ≠ some (some t)) → SDict.get? (removeParameters l).weightDict k = none := by
  have key : ∀ k, k ∈ SDict.keys (l.parameters.foldl moveStep []) ↔ ∃ t, PDict.get? l.parameters k = some (some t) := by
    intro k
    rw [← not_iff_not, ← SDict.get?_eq_none_iff, get?_move _ hn SDict.sorted_nil]
    cases h : PDict.get? l.parameters k with
    | none => simp
    | some o => cases o <;> simp
  have hw : ∀ k, SDict.get? (removeParameters l).weightDict k =
      if k ∈ SDict.keys (l.parameters.foldl moveStep []) then some l.weight else none :=
    fun k => get?_weights _ _ _ SDict.sorted_nil k
  refine ⟨rfl, sorted_weights _ _ _ SDict.sorted_nil, _, rfl, sorted_move _ SDict.sorted_nil, ?_, ?_, ?_⟩
  · intro k t
    rw [get?_move _ hn SDict.sorted_nil]
    cases h : PDict.get? l.parameters k with
    | none => simp
    | some o => cases o <;> simp
  · intro k t h
    rw [hw, if_pos ((key k).2 ⟨t, h⟩)]
  · intro k h
    rw [hw, if_neg (fun hk => by obtain ⟨t, ht⟩ := (key k).1 hk; exact h t ht)]

/-- **C47.** Removing twice changes the dictionary to the empty one: the second removal finds no parameters any more. -/
theorem C47_remove_twice (l : Layer T W) : (removeParameters (removeParameters l)).parameterDict = some [] := rfl

/-- **C47.** Setting an individual weight changes exactly that one; unknown names raise `ValueError`; before the removal the call raises
`TypeError`. -/
theorem C47_add_weight (l : Layer T W) (hl : SDict.Sorted l.weightDict) (name : String) (w : Option W) :
    (l.parameterDict = none → addWeight l name w = .error .typeError) ∧
    (∀ d, l.parameterDict = some d → SDict.has d name = false → addWeight l name w = .error .valueError) ∧
    (∀ d, l.parameterDict = some d → SDict.has d name = true →
      ∃ l', addWeight l name w = .ok l' ∧ l'.parameterDict = l.parameterDict ∧ l'.weight = l.weight ∧
        SDict.Sorted l'.weightDict ∧ SDict.get? l'.weightDict name = some w ∧
        ∀ k, k ≠ name → SDict.get? l'.weightDict k = SDict.get? l.weightDict k) := by
  refine ⟨fun h => by simp [addWeight, h], fun d h hk => by simp [addWeight, h, hk], fun d h hk => ?_⟩
  refine ⟨{ l with weightDict := l.weightDict.set name w }, by simp [addWeight, h, hk], rfl, rfl, hl.set _ _, ?_, ?_⟩
  · simp [SDict.get?_set _ hl]
  · intro k hne
    simp [SDict.get?_set _ hl, Ne.symm hne]

/-- **C47.** Any sequence of weight settings: the weight in force for a parameter is the last one set for it, else the common one. -/
theorem C47_last_weight (l : Layer T W) (hl : SDict.Sorted l.weightDict) (d : SDict String T) (hd : l.parameterDict = some d)
    (sets : List (String × Option W))
    (hs : ∀ p ∈ sets, SDict.has d p.1 = true) :
    ∃ l', sets.foldlM (fun l p => addWeight l p.1 p.2) l = .ok l' ∧ l'.parameterDict = some d ∧
      ∀ k, SDict.get? l'.weightDict k = ((sets.reverse.find? (fun p => p.1 == k)).map Prod.snd).or (SDict.get? l.weightDict k) := by
  induction sets generalizing l with
  | nil => exact ⟨l, rfl, hd, fun k => by simp⟩
  | cons p sets ih =>
    obtain ⟨l1, h1, h2, _, h5, h3, h4⟩ := (C47_add_weight l hl p.1 p.2).2.2 d hd (hs p (by simp))
    obtain ⟨l', g1, g2, g3⟩ := ih l1 h5 (h2.trans hd) (fun q hq => hs q (by simp [hq]))
    refine ⟨l', ?_, g2, ?_⟩
    · rw [List.foldlM_cons, h1]
      exact g1
    · intro k
      rw [g3 k, List.reverse_cons, List.find?_append]
      cases hf : sets.reverse.find? (fun q => q.1 == k) with
      | some q => rfl
      | none =>
        by_cases hk : p.1 = k
        · subst hk
          simp [h3]
        · simp [hk, h4 k (Ne.symm hk)]

/-- **C47.** Moving a layer to another device or precision (`_apply`) changes every stored parameter and keeps the names and the weights. -/
theorem C47_apply (fn : T → T) (l : Layer T W) (d : SDict String T) (hd : l.parameterDict = some d) :
    ∃ l', applyFn fn l = .ok l' ∧ l'.weightDict = l.weightDict ∧
      ∃ d', l'.parameterDict = some d' ∧ SDict.keys d' = SDict.keys d ∧ ∀ k, SDict.get? d' k = (SDict.get? d k).map fn := by
  refine ⟨{ l with parameterDict := some (SDict.mapVals fn d) }, by simp [applyFn, hd], rfl, _, rfl, ?_, ?_⟩
  · simp
  · intro k
    exact SDict.get?_mapVals fn d k

theorem bias_lt_weight : String.ltb (String.Legacy.iter "bias") (String.Legacy.iter "weight") = true :=
  String.lt_iff_ltb.1 (by decide +kernel)

theorem damp_lt_weight : String.ltb (String.Legacy.iter "dampening") (String.Legacy.iter "weight") = true :=
  String.lt_iff_ltb.1 (by decide +kernel)

theorem not_damp_lt_bias : String.ltb (String.Legacy.iter "dampening") (String.Legacy.iter "bias") = false :=
  Bool.eq_false_iff.2 (fun h => absurd (String.lt_iff_ltb.2 h) (by decide +kernel))

/-- **C47**, use: the constructed linear layers hand exactly their parameters to the computation, with or without bias. -/
theorem C47_linear_forward (on : Bool) (weight bias damp : T) (w : Option W) :
    forwardParameters .linear (construct .linear on weight bias damp w) = .ok (weight, if on then some bias else none, none) ∧
    forwardParameters .linearDampening (construct .linearDampening on weight bias damp w)
      = .ok (weight, if on then some bias else none, some damp) := by
  cases on <;> constructor <;>
    simp [forwardParameters, construct, removeParameters, init, torchParameters, moveStep, SDict.set, PDict.set, lookup, SDict.has,
      SDict.get?_cons, bind, Except.bind, bias_lt_weight, damp_lt_weight, not_damp_lt_bias]

/-- **C47**, use: convolution and group normalisation only work with bias / affine parameters; without them `forward` raises
`KeyError` although the layer could be constructed. -/
theorem C47_conv_forward (on : Bool) (weight bias damp : T) (w : Option W) (kind : Kind) (hk : kind = .conv2d ∨ kind = .groupNorm) :
    forwardParameters kind (construct kind on weight bias damp w) =
      if on then .ok (weight, some bias, none) else .error .keyError := by
  rcases hk with rfl | rfl <;> cases on <;>
    simp [forwardParameters, construct, removeParameters, init, torchParameters, moveStep, SDict.set, lookup,
      SDict.get?_cons, bind, Except.bind, bias_lt_weight]

/-- Every constructed layer has no torch parameters left, except a group normalisation without affine parameters (whose are `None`). -/
theorem C47_constructed_empty (kind : Kind) (on : Bool) (weight bias damp : T) (w : Option W) :
    ∀ p ∈ (construct kind on weight bias damp w).parameters, p.2 = none := by
  cases kind <;> cases on <;> simp [construct, removeParameters, init, torchParameters]

/-- **C47.** Every constructed layer starts with the weight given at construction, for each of the parameters it has, and with weights for nothing else. -/
theorem C47_constructed_weights (kind : Kind) (on : Bool) (weight bias damp : T) (w : Option W) (k : String) :
    SDict.get? (construct kind on weight bias damp w).weightDict k =
      if (k = "weight" ∧ (kind = .groupNorm → on = true)) ∨ (k = "bias" ∧ on = true) ∨ (k = "dampening" ∧ kind = .linearDampening) then some w else none := by
  have h : ∀ l : Layer T W, l.weight = w → (PDict.keys l.parameters).Nodup → SDict.get? (removeParameters l).weightDict k =
      if ((PDict.get? l.parameters k).join).isSome then some w else none := by
    intro l hl hn
    obtain ⟨-, -, d, -, -, -, h1, h2⟩ := C47_remove l hn
    cases hg : PDict.get? l.parameters k with
    | none => simpa using h2 k (by simp [hg])
    | some o =>
      cases o with
      | none => simpa using h2 k (by simp [hg])
      | some t => simpa [hl] using h1 k t hg
  cases kind <;> cases on <;> simp only [construct, if_true, if_false, Bool.false_eq_true] <;> first
    | (simp [init]; done)
    | (rw [h _ rfl (by simp [init, torchParameters, PDict.set, PDict.keys])]
       simp only [init, torchParameters, PDict.set, PDict.get?_cons]
       by_cases h1 : k = "weight"
       · subst h1; simp [PDict.get?_cons]
       · by_cases h2 : k = "bias"
         · subst h2; simp [PDict.get?_cons]
         · by_cases h3 : k = "dampening"
           · subst h3; simp [PDict.get?_cons]
           · simp [PDict.get?_cons, h1, h2, h3, Ne.symm h1, Ne.symm h2, Ne.symm h3])

example : (construct .linear true 1 2 3 (some 5) : Layer Nat Nat).parameterDict = some [("bias", 2), ("weight", 1)] := by rfl
example : (construct .linear true 1 2 3 (some 5) : Layer Nat Nat).weightDict = [("bias", some 5), ("weight", some 5)] := by rfl

end Verif.Layers
