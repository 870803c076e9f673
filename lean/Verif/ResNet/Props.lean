import Verif.ResNet.Lemmas
import Mathlib.Data.List.Nodup

/-!
# C42: the residual network
-/

namespace Verif.ResNet
open Verif Block

variable {α T Θ R β : Type}

/-! ## Construction -/

/-- C42: the channels that the layers `0, …, i` add sum to the number of channels of layer `i`. -/
theorem C42_channels (channels : List Nat) (i c : Nat) (h : channels[i]? = some c) :
    (additional channels).length = channels.length ∧ ((additional channels).take (i + 1)).sum = (c : Int) := by
  refine ⟨additional_length _, ?_⟩
  cases channels with
  | nil => cases h
  | cons c' cs =>
    cases i with
    | zero =>
      simp only [List.getElem?_cons_zero, Option.some.injEq] at h
      subst h
      simp [additional]
    | succ i =>
      have := additionalFrom_sum c' cs i c h
      simp only [additional, List.take_succ_cons, List.sum_cons] at this ⊢
      exact this

/-- C42: the channels added are never negative exactly for lists that do not decrease. -/
theorem C42_channels_nonneg (channels : List Nat) :
    (∀ a ∈ additional channels, 0 ≤ a) ↔ channels.IsChain (· ≤ ·) := by
  have key : ∀ (cs : List Nat) (p : Nat), (∀ a ∈ additionalFrom p cs, 0 ≤ a) ↔ (p :: cs).IsChain (· ≤ ·) := by
    intro cs
    induction cs with
    | nil => intro p; simp [additionalFrom]
    | cons c cs ih =>
      intro p
      rw [List.isChain_cons_cons, ← ih c]
      simp only [additionalFrom, List.mem_cons, forall_eq_or_imp]
      constructor
      · rintro ⟨h1, h2⟩; exact ⟨by omega, h2⟩
      · rintro ⟨h1, h2⟩; exact ⟨by omega, h2⟩
  cases channels with
  | nil => simp [additional]
  | cons c cs =>
    rw [← key cs c]
    simp only [additional, List.mem_cons, forall_eq_or_imp]
    exact ⟨fun h => h.2, fun h => ⟨by omega, h⟩⟩

/-- C42: the layers that are built.  Layer `i` has the requested number of blocks, all with the requested channels and particle size;
only the first block owns particles, with the channels that the layer adds. -/
theorem C42_layers (channels blocks : List Nat) (sizes : List (List Nat)) (hs : channels.length = sizes.length) :
    (blocks.length < channels.length → createLayers channels blocks sizes = .error .indexError) ∧
    (channels.length ≤ blocks.length → ∃ specs, createLayers channels blocks sizes = .ok specs ∧ specs.length = channels.length ∧
      ∀ (i c n : Nat) (s : List Nat), channels[i]? = some c → blocks[i]? = some n → sizes[i]? = some s →
        ∃ l a, specs[i]? = some l ∧ (additional channels)[i]? = some a ∧ l.length = n ∧
          ∀ b : Nat, b < n → l[b]? = some ⟨blockName i b, c, s, a, decide (0 < b)⟩) := by
  constructor
  · intro h
    exact createLayersFrom_short _ _ _ 0 _ (by omega) (by omega)
  · intro h
    refine ⟨_, createLayersFrom_ok blocks sizes (additional channels) 0 channels (by omega) (by omega) (by rw [additional_length]; omega), by simp, ?_⟩
    intro i c n s hc hn hsz
    have hi : i < channels.length := (List.getElem?_eq_some_iff.1 hc).1
    have hia : i < (additional channels).length := by rw [additional_length]; exact hi
    have hz : (channels.zipIdx 0)[i]? = some (c, i) := by
      rw [List.getElem?_zipIdx, hc]
      simp
    refine ⟨_, (additional channels)[i], by rw [List.getElem?_map, hz]; rfl, List.getElem?_eq_getElem hia, ?_, ?_⟩
    · simp [createLayer, List.getD, hn]
    · intro b hb
      simp [createLayer, List.getD, hn, hsz, hia, hb]

/-- C42: all blocks have different names. -/
theorem C42_names (channels blocks : List Nat) (sizes : List (List Nat)) (hs : channels.length = sizes.length) (specs : List (List BlockSpec))
    (h : createLayers channels blocks sizes = .ok specs) : (specs.flatten.map BlockSpec.name).Nodup := by
  have hb : channels.length ≤ blocks.length := by
    by_contra hc
    rw [(C42_layers channels blocks sizes hs).1 (by omega)] at h
    cases h
  have hok := createLayersFrom_ok blocks sizes (additional channels) 0 channels (by omega) (by omega) (by rw [additional_length]; omega)
  unfold createLayers at h
  rw [hok] at h
  cases h
  have key : ∀ (cs : List Nat) (i : Nat), ((cs.zipIdx i |>.map fun c => createLayer c.2 c.1 (blocks.getD c.2 0) (sizes.getD c.2 [])
      ((additional channels).getD c.2 0)).flatten.map BlockSpec.name).Nodup ∧
      ∀ n ∈ (cs.zipIdx i |>.map fun c => createLayer c.2 c.1 (blocks.getD c.2 0) (sizes.getD c.2 [])
        ((additional channels).getD c.2 0)).flatten.map BlockSpec.name, ∃ j b, i ≤ j ∧ n = blockName j b := by
    intro cs
    induction cs with
    | nil => intro i; simp
    | cons c cs ih =>
      intro i
      obtain ⟨h1, h2⟩ := ih (i + 1)
      have hl : ∀ n s d, (createLayer i c n s d).map BlockSpec.name = (List.range n).map (blockName i) := by
        intro n s d
        simp [createLayer, Function.comp_def]
      simp only [List.zipIdx_cons, List.map_cons, List.flatten_cons, List.map_append, hl]
      constructor
      · rw [List.nodup_append]
        refine ⟨List.Nodup.map (fun a b hab => (blockName_injective hab).2) List.nodup_range, h1, ?_⟩
        intro x hx y hy
        obtain ⟨b, _, rfl⟩ := List.mem_map.1 hx
        obtain ⟨j, b', hj, rfl⟩ := h2 _ hy
        intro hxy
        have := (blockName_injective hxy).1
        omega
      · intro n hn
        rcases List.mem_append.1 hn with hn | hn
        · obtain ⟨b, _, rfl⟩ := List.mem_map.1 hn
          exact ⟨i, b, le_rfl, rfl⟩
        · obtain ⟨j, b, hj, rfl⟩ := h2 n hn
          exact ⟨j, b, by omega, rfl⟩
  exact (key channels 0).1

/-- C42: every block is a registered submodule: looking up the name of a block finds its position. -/
theorem C42_registered (channels blocks : List Nat) (sizes : List (List Nat)) (hs : channels.length = sizes.length) (specs : List (List BlockSpec))
    (h : createLayers channels blocks sizes = .ok specs) (i b : Nat) (l : List BlockSpec) (q : BlockSpec) (hl : specs[i]? = some l) (hq : l[b]? = some q) :
    PDict.get? (registerBlocks specs) q.name = some (i, b) := by
  have hkeys : ∀ (n : Nat) (specs : List (List BlockSpec)), PDict.keys ((specs.zipIdx n).flatMap fun l => l.1.zipIdx.map fun b => (b.1.name, (l.2, b.2))) =
      specs.flatten.map BlockSpec.name := by
    intro n specs
    induction specs generalizing n with
    | nil => rfl
    | cons l specs ih =>
      rw [List.zipIdx_cons, List.flatMap_cons, PDict.keys_append, ih, List.flatten_cons, List.map_append]
      congr 1
      unfold PDict.keys
      rw [List.map_map]
      have : (Prod.fst ∘ fun b : BlockSpec × Nat => (b.1.name, (n, b.2))) = BlockSpec.name ∘ Prod.fst := rfl
      dsimp only
      rw [this, ← List.map_map, List.zipIdx_map_fst]
  have hnd := C42_names channels blocks sizes hs specs h
  rw [← hkeys 0] at hnd
  show PDict.get? (PDict.update [] _) q.name = _
  rw [PDict.get?_update _ _ hnd, PDict.get?_eq_some_of_mem hnd (v := (i, b))]
  · rfl
  · rw [List.mem_flatMap]
    refine ⟨(l, i), ?_, ?_⟩
    · rw [List.mem_zipIdx_iff_getElem?]
      exact hl
    · rw [List.mem_map]
      exact ⟨(q, b), by rw [List.mem_zipIdx_iff_getElem?]; exact hq, rfl⟩

/-- C42: a striding block after every layer but the last, over dimensions 2 and 3. -/
theorem C42_strides (n : Nat) (s : Int) : createStriding (downsampling n (some s)) = .ok (List.replicate (n - 1) (some ⟨[s, s], [2, 3]⟩) ++ [none]) := by
  unfold createStriding downsampling
  generalize n - 1 = m
  induction m with
  | zero => rfl
  | succ m ih =>
    rw [List.replicate_succ, List.cons_append, List.mapM_cons, ih]
    rfl

example : createLayers [4, 6] [2, 1] [[5, 5], [3, 3]] = .ok
    [[⟨"shooting_layer_0_0", 4, [5, 5], 4, false⟩, ⟨"shooting_layer_0_1", 4, [5, 5], 4, true⟩], [⟨"shooting_layer_1_0", 6, [3, 3], 2, false⟩]] := by
  decide +kernel

/-! ## Data flow -/

/-- C42: a forward pass succeeds with value `y` if and only if the stem does, the blocks and striding blocks succeed one after the other,
each getting what the one before it returned, and the head gives `y` for the value returned by the last block. -/
theorem C42_flow [Zero α] (net : Net α T Θ R β) (r : R) (x : Tensor α) (y : β) :
    (forward net r x).2 = .ok y ↔ ∃ x0 os, net.stem x = .ok x0 ∧ Flow r (stages net.layers net.strides) ⟨some x0, none, none, none⟩ os ∧
      net.head (final x0 os) = .ok y := by
  have hfin : ∀ x0 os, retAfter (α := α) none (.tensor x0) os = final x0 os := by
    intro x0 os
    rcases os with _ | ⟨o, _ | ⟨o', os⟩⟩
    · rfl
    · rfl
    · simp only [retAfter, final, List.length_cons, List.getLast?_cons, Option.getD_some, Option.map_some]
      rw [if_neg (by omega)]
  unfold forward
  cases net.stem x with
  | error e =>
    constructor
    · intro h; cases h
    · rintro ⟨x0, os, h, _⟩; cases h
  | ok x0 =>
    have key := fun ret => runLayers_ok_iff r x0 net.layers net.strides ⟨.tensor x0, none⟩ ret
    dsimp only at key ⊢
    cases hrun : runLayers r x0 net.layers net.strides ⟨.tensor x0, none⟩ with
    | mk l z =>
      rw [hrun] at key
      dsimp only at key
      cases z with
      | error e =>
        constructor
        · intro h; cases h
        · rintro ⟨x0', os, h1, h2, _⟩
          cases h1
          obtain ⟨d, hd⟩ := (key _).2 ⟨os, h2, rfl⟩
          cases hd
      | ok L =>
        dsimp only
        have hy : (match net.head L.ret with
            | .error e => (({ net with layers := l } : Net α T Θ R β), (.error e : Py β))
            | .ok y => ({ net with layers := l, notYet := false }, .ok y)).2 = .ok y ↔ net.head L.ret = .ok y := by
          cases net.head L.ret <;> simp
        refine Iff.trans hy ?_
        constructor
        · intro h
          obtain ⟨os, h1, h2⟩ := (key L.ret).1 ⟨L.dicts, rfl⟩
          refine ⟨x0, os, rfl, h1, ?_⟩
          rw [← hfin, ← h2]
          exact h
        · rintro ⟨x0', os, h1, h2, h3⟩
          cases h1
          obtain ⟨d, hd⟩ := (key _).2 ⟨os, h2, rfl⟩
          cases hd
          dsimp only
          rw [← hfin] at h3
          exact h3

/-- C42, in the words of the property: with at least two blocks the head gets the value returned by the last block, which was computed from
the outputs of the block before it, and so on back to the stem. -/
theorem C42_last_block [Zero α] (net : Net α T Θ R β) (r : R) (x x0 : Tensor α) (os : List (Out α)) (o : Out α) (hx : net.stem x = .ok x0)
    (hf : Flow r (stages net.layers net.strides) ⟨some x0, none, none, none⟩ (os ++ [o])) (hne : os ≠ []) :
    (forward net r x).2 = net.head o.result := by
  have hfin : final x0 (os ++ [o]) = o.result := by
    unfold final
    rw [if_neg]
    · simp
    · obtain ⟨a, os, rfl⟩ := List.exists_cons_of_ne_nil hne
      simp
  cases hh : net.head o.result with
  | ok y => exact (C42_flow net r x y).2 ⟨x0, _, hx, hf, by rw [hfin]; exact hh⟩
  | error e =>
    -- the run of the blocks succeeds, so the error of the head is the result
    obtain ⟨d, hd⟩ := (runLayers_ok_iff r x0 net.layers net.strides ⟨.tensor x0, none⟩ _).2 ⟨_, hf, rfl⟩
    have hret : retAfter none (.tensor x0) (os ++ [o]) = o.result := by
      obtain ⟨a, os, rfl⟩ := List.exists_cons_of_ne_nil hne
      simp [retAfter, List.getLast?_append]
    rw [hret] at hd
    unfold forward
    rw [hx]
    dsimp only
    cases hrun : runLayers r x0 net.layers net.strides ⟨.tensor x0, none⟩ with
    | mk l z =>
      rw [hrun] at hd
      dsimp only at hd
      subst hd
      dsimp only
      rw [hh]

/-- C42 is violated by networks with a single block: the value returned by the first block is thrown away (line 186), so the head is applied to
the output of the stem; whatever the block computes, the result of the network is the same. -/
theorem C42_single_block_ignored [Zero α] (net : Net α T Θ R β) (cfg : Cfg α T Θ R) (s : St α T Θ) (hl : net.layers = [[(cfg, s)]])
    (hs : net.strides = [none]) (r : R) (x : Tensor α) (y : β) (h : (forward net r x).2 = .ok y) :
    ∃ x0, net.stem x = .ok x0 ∧ net.head (.tensor x0) = .ok y := by
  obtain ⟨x0, os, h1, h2, h3⟩ := (C42_flow net r x y).1 h
  refine ⟨x0, h1, ?_⟩
  rw [hl, hs] at h2
  have : os.length ≤ 1 := by
    cases h2 with
    | block _ _ _ _ o os _ h =>
      cases h
      simp
  simpa [final, this] using h3

/-- C42: a network whose first layer is empty and is followed by a striding block does not work: the dictionaries are not bound. -/
theorem C42_empty_first_layer [Zero α] (net : Net α T Θ R β) (l : List (List (Cfg α T Θ R × St α T Θ))) (p : Striding.Block)
    (ps : List (Option Striding.Block)) (hl : net.layers = [] :: l) (hs : net.strides = some p :: ps) (r : R) (x x0 : Tensor α)
    (hx : net.stem x = .ok x0) : (forward net r x).2 = .error .unboundLocal := by
  unfold forward
  rw [hx, hl, hs]
  rfl

/-! ## Parameters -/

/-- C42: the parameters can be listed if and only if one of the passes so far succeeded. -/
theorem C42_parameters [Zero α] (net : Net α T Θ R β) (hn : net.notYet = true) (xs : List (R × Tensor α)) :
    let run := fun (net : Net α T Θ R β) (p : R × Tensor α) => (forward net p.1 p.2).1
    (parameters (xs.foldl run net) = .ok () ↔
      ∃ a p b y, xs = a ++ p :: b ∧ (forward (a.foldl run net) p.1 p.2).2 = .ok y) ∧
    ∀ e, parameters (xs.foldl run net) = .error e → e = .valueError := by
  intro run
  have hstep : ∀ (net : Net α T Θ R β) (p : R × Tensor α), (run net p).notYet = (net.notYet && !(match (forward net p.1 p.2).2 with | .ok _ => true | .error _ => false)) := by
    intro net p
    show (forward net p.1 p.2).1.notYet = _
    unfold forward
    split
    · simp
    · split
      · simp
      · split <;> simp
  have hpar : ∀ net : Net α T Θ R β, parameters net = .ok () ↔ net.notYet = false := by
    intro net
    unfold parameters
    cases net.notYet <;> simp
  constructor
  · rw [hpar]
    have key : ∀ (xs : List (R × Tensor α)) (net : Net α T Θ R β), (xs.foldl run net).notYet = false ↔
        net.notYet = false ∨ ∃ a p b y, xs = a ++ p :: b ∧ (forward (a.foldl run net) p.1 p.2).2 = .ok y := by
      intro xs
      induction xs with
      | nil => intro net; simp
      | cons q xs ih =>
        intro net
        rw [List.foldl_cons, ih, hstep]
        constructor
        · rintro (h | ⟨a, p, b, y, h1, h2⟩)
          · rw [Bool.and_eq_false_iff] at h
            rcases h with h | h
            · exact .inl h
            · right
              cases hf : (forward net q.1 q.2).2 with
              | error e => rw [hf] at h; simp at h
              | ok y => exact ⟨[], q, xs, y, rfl, hf⟩
          · right
            exact ⟨q :: a, p, b, y, by rw [h1]; rfl, h2⟩
        · rintro (h | ⟨a, p, b, y, h1, h2⟩)
          · left; rw [h]; rfl
          · cases a with
            | nil =>
              simp only [List.nil_append, List.cons.injEq] at h1
              left
              rw [h1.1, show (forward net p.1 p.2).2 = .ok y from h2]
              simp
            | cons a as =>
              simp only [List.cons_append, List.cons.injEq] at h1
              right
              refine ⟨as, p, b, y, h1.2, ?_⟩
              rw [h1.1]
              exact h2
    rw [key]
    simp [hn]
  · intro e he
    unfold parameters at he
    split at he
    · cases he; rfl
    · cases he

end Verif.ResNet
