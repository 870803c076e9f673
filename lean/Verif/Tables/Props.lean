import Verif.Tables.Lemmas
import Verif.ResNet.Lemmas

/-!
# C88: tables and pictures of the parameters of a network, layer by layer
-/

namespace Verif.Tables
open Verif Verif.Figures

variable {R : Type}

/-- **C88.** For a network with at least one layer and at least one parameter per layer, whose layers have the same parameters with the same shapes: one table for each parameter, in the order of the parameters; row `i` is the parameter of layer `i`. -/
theorem C88_tables [Zero R] (top : Str) (ht : '.' ∉ top) (ls : List Str) (hl : ls ≠ []) (hd : ∀ x ∈ ls, '.' ∉ x) (hls : ls.Nodup) (ps : List Str) (hne : ps ≠ []) (hps : ps.Nodup) (v : ℕ → Str → Arr R) (shape : Str → List ℕ)
    (hs : ∀ i < ls.length, ∀ p ∈ ps, (v i p).shape = shape p) :
    ∃ d, collect (ls.zipIdx.flatMap fun l => ps.map fun p => (top ++ '.' :: l.1 ++ '.' :: p, v l.2 p)) = .ok d ∧ d.keys = ps ∧ ∀ p ∈ ps, d.get? p = some ((List.range ls.length).map fun i => v i p) := by
  change ∃ d, collect (layered top ps v ls 0) = .ok d ∧ _
  obtain ⟨l, ls, rfl⟩ := List.exists_cons_of_ne_nil hl
  obtain ⟨p, ps', hpe⟩ := List.exists_cons_of_ne_nil hne
  have hlen : (layered top ps v (l :: ls) 0).length / (ps.map fun p => (p, (v 0 p).shape)).length = (l :: ls).length := by
    rw [length_layered, List.length_map, Nat.mul_div_cancel _ (by rw [hpe]; simp)]
  have hll := hd l (by simp)
  have hstart : collect (layered top ps v (l :: ls) 0) = fill l 0 ((ps.map fun p => (p, (v 0 p).shape)).map fun e => (e.1, zeros (l :: ls).length e.2)) (layered top ps v (l :: ls) 0) := by
    have hfb := firstBlock_layered ht (ps := ps) v 0 hd (List.nodup_cons.1 hls).1
    have hhead : ∃ rest, layered top ps v (l :: ls) 0 = (fullName top l p, v 0 p) :: rest := by
      rw [layered_cons, hpe]
      exact ⟨_, rfl⟩
    obtain ⟨rest, hr⟩ := hhead
    rw [← init_tables _ _ (by simpa [Function.comp_def] using hps), ← hlen]
    generalize layered top ps v (l :: ls) 0 = pars at *
    subst hr
    rw [collect]
    dsimp only
    rw [layerOf_full ht hll]
    dsimp only
    rw [hfb]
  rw [hstart, layered_cons]
  obtain ⟨d, h1, h2, h3⟩ := fill_within ht hll (k := 0) (n := (l :: ls).length) (shape := shape) (by simp) (hs 0 (by simp)) (layered top ps v ls (0 + 1)) ps (fun _ h => h) []
    ((ps.map fun p => (p, (v 0 p).shape)).map fun e => (e.1, zeros (l :: ls).length e.2)) (by simp [PDict.keys, Function.comp_def]) (by
      intro q hq
      refine PDict.get?_eq_some_of_mem (by simpa [PDict.keys, Function.comp_def] using hps) ?_
      rw [List.map_map, List.mem_map]
      refine ⟨q, hq, ?_⟩
      simp only [Function.comp, hs 0 (by simp) q hq, zeros, List.not_mem_nil, and_false, or_false, Nat.not_lt_zero, if_false]
      rw [List.map_const', List.length_range])
  rw [h1]
  obtain ⟨d', e1, e2⟩ := fill_layers ht hne (n := (l :: ls).length) hs ls l 0 (fun x hx => hd x (by simp [hx])) hls (by simp; omega) d ⟨h2, fun q hq => by
    rw [h3 q hq]
    congr 1
    refine List.map_congr_left fun j _ => ?_
    have : (j < 0 ∨ j = 0 ∧ q ∈ [] ++ ps) ↔ j < 0 + 1 := by
      rw [List.nil_append]
      exact ⟨by omega, fun h => .inr ⟨by omega, hq⟩⟩
    simp only [this]⟩
  refine ⟨d', e1, e2.keys, fun q hq => ?_⟩
  rw [e2.rows q hq]
  congr 1
  refine List.map_congr_left fun j hj => ?_
  rw [if_pos (List.mem_range.1 hj)]

/-- **C88.** Without parameters the result is a `ZeroDivisionError`. -/
theorem C88_empty [Zero R] : collect ([] : List (Str × Arr R)) = .error .zeroDivision := rfl

/-- **C88.** A name with fewer than two parts at the beginning (a parameter of the network itself): `IndexError`. -/
theorem C88_short_name [Zero R] (name : Str) (h : '.' ∉ name) (a : Arr R) (l : List (Str × Arr R)) : collect ((name, a) :: l) = .error .indexError := by
  have : splitDot name = [name] := by
    clear a l
    induction name with
    | nil => rfl
    | cons c s ih =>
      rw [List.mem_cons, not_or] at h
      rw [splitDot, if_neg (fun e => h.1 e.symm), ih h.2]
      rfl
  rw [collect]
  dsimp only
  rw [layerOf, this]
  rfl

/-- **C88.** A later layer with a parameter the first layer does not have: `KeyError`, even if all tables could be made. -/
theorem C88_other_parameter [Zero R] (top l m p q : Str) (ht : '.' ∉ top) (hl : '.' ∉ l) (hm : '.' ∉ m) (hlm : l ≠ m) (hpq : p ≠ q) (a b : Arr R) :
    collect [(top ++ '.' :: l ++ '.' :: p, a), (top ++ '.' :: m ++ '.' :: q, b)] = .error .keyError := by
  change collect [(fullName top l p, a), (fullName top m q, b)] = _
  have hfb : firstBlock l [(fullName top l p, a), (fullName top m q, b)] = .ok [(p, a.shape)] := by
    rw [firstBlock, layerOf_full ht hl]
    dsimp only
    rw [if_pos rfl, firstBlock, layerOf_full ht hm]
    dsimp only
    rw [if_neg hlm, inLayer_full ht hl]
  rw [collect]
  dsimp only
  rw [layerOf_full ht hl]
  dsimp only
  rw [hfb]
  dsimp only
  rw [List.foldl_cons, List.foldl_nil, PDict.set_of_not_mem (by simp), fill, layerOf_full ht hl]
  dsimp only
  rw [if_neg (by simp), inLayer_full ht hl]
  have hg : PDict.get? ([] ++ [(p, zeros (R := R) (List.length [(fullName top l p, a), (fullName top m q, b)] / List.length [(p, a.shape)]) a.shape)]) p = some (zeros 2 a.shape) := by
    rw [List.nil_append, PDict.get?_cons, if_pos rfl]
    simp
  rw [hg]
  dsimp only
  rw [setRow_same (zeros 2 a.shape) 0 a ⟨a.shape, fun _ => 0⟩ rfl rfl]
  dsimp only
  rw [fill, layerOf_full ht hm]
  dsimp only
  have hg' : ∀ x : List (Arr R), PDict.get? (PDict.set ([] ++ [(p, zeros (R := R) (List.length [(fullName top l p, a), (fullName top m q, b)] / List.length [(p, a.shape)]) a.shape)]) p x) q = none := by
    intro x
    rw [PDict.get?_set, if_neg hpq, List.nil_append, PDict.get?_cons, if_neg hpq]
    rfl
  rw [inLayer_full ht hm, hg']

/-! ## The pictures -/

/-- The weights of a layer in ascending order. -/
def ascending [LinearOrder R] (n : ℕ) (w : ℕ → R) : List R := ((List.range n).map w).mergeSort (· ≤ ·)

/-- What this is: all the weights, in ascending order. -/
theorem ascending_spec [LinearOrder R] (n : ℕ) (w : ℕ → R) : (ascending n w).Perm ((List.range n).map w) ∧ (ascending n w).Pairwise (· ≤ ·) :=
  ⟨List.mergeSort_perm _ _, List.pairwise_mergeSort' (fun a b : R => a ≤ b) ((List.range n).map w)⟩

theorem range_getD [Inhabited R] (l : List R) (n : ℕ) (h : l.length = n) : ((List.range n).map fun i => l[i]?.getD default) = l := by
  refine List.ext_getElem (by simp [h]) fun i h1 h2 => ?_
  simp [h2]

/-- The picture of a table with two dimensions left. -/
theorem imshow_transpose (a : Arr R) (n k : ℕ) (h : a.shape = [n, k]) : imshow (transpose a) = .ok ((List.range n).map fun i => (List.range k).map fun j => a.elem [i, j]) := by
  have : transpose a = ⟨[k, n], fun js => a.elem [js.tail.headD 0, js.headD 0]⟩ := by
    unfold transpose
    rw [h]
  rw [this]
  rfl

theorem imshow_line (a : Arr R) (h : a.shape.length < 2) : imshow (transpose a) = .error .typeError := by
  obtain ⟨s, f⟩ := a
  match s, h with
  | [], _ => rfl
  | [_], _ => rfl

theorem sortLast_two [LinearOrder R] [Inhabited R] (a : Arr R) (n k : ℕ) (h : a.shape = [n, k]) :
    sortLast a = ⟨[n, k], fun js => (ascending k fun j => a.elem [js.headD 0, j])[js.tail.headD 0]?.getD default⟩ := by
  unfold sortLast
  rw [h]
  rfl

theorem sortLast_shape [LinearOrder R] [Inhabited R] (a : Arr R) : (sortLast a).shape = a.shape := by
  unfold sortLast
  split
  · rename_i h; exact h.symm
  · rename_i h; exact h.symm
  · rfl

/-- The layers of the double network are layers with the same three parameters. -/
theorem double_layered (n k : ℕ) (w1 b1 w2 : ℕ → ℕ → R) : doubleParameters n k w1 b1 w2 =
    ((List.range n).map fun i => 'l' :: (Block.showNat i).toList).zipIdx.flatMap fun l => ["l1.weight".toList, "l1.bias".toList, "l2.weight".toList].map fun p => ("model".toList ++ '.' :: l.1 ++ '.' :: p,
      if p = "l1.weight".toList then ⟨[1, k], fun js => w1 l.2 (js.tail.headD 0)⟩ else if p = "l1.bias".toList then ⟨[1], fun js => b1 l.2 (js.headD 0)⟩ else ⟨[k, 1], fun js => w2 l.2 (js.headD 0)⟩) := by
  have e : ((List.range n).map fun i => 'l' :: (Block.showNat i).toList).zipIdx = (List.range n).map fun i => ('l' :: (Block.showNat i).toList, i) := by
    refine List.ext_getElem (by simp) fun i h1 h2 => ?_
    simp
  rw [e, doubleParameters, List.flatMap_map]
  refine congrArg (List.flatMap · _) (funext fun i => ?_)
  rw [List.map_cons, List.map_cons, List.map_singleton, if_pos rfl, if_neg (by decide), if_pos rfl, if_neg (by decide), if_neg (by decide)]
  have t : "model.l".toList = "model".toList ++ '.' :: ['l'] := by decide
  have t1 : ".l1.weight".toList = '.' :: "l1.weight".toList := by decide
  have t2 : ".l1.bias".toList = '.' :: "l1.bias".toList := by decide
  have t3 : ".l2.weight".toList = '.' :: "l2.weight".toList := by decide
  rw [t, t1, t2, t3]
  simp only [List.append_assoc, List.cons_append, List.nil_append]

theorem showNat_noDot (i : ℕ) : '.' ∉ 'l' :: (Block.showNat i).toList := by
  rw [List.mem_cons, not_or, ResNet.toList_showNat]
  refine ⟨by decide, fun h => ?_⟩
  have := Nat.isDigit_of_mem_toDigits (by decide) (by decide) h
  exact absurd this (by decide)

theorem double_tables [Zero R] (n k : ℕ) (hn : 0 < n) (w1 b1 w2 : ℕ → ℕ → R) : ∃ d, collect (doubleParameters n k w1 b1 w2) = .ok d ∧
    d.get? "l1.weight".toList = some ((List.range n).map fun i => ⟨[1, k], fun js => w1 i (js.tail.headD 0)⟩) ∧
    d.get? "l1.bias".toList = some ((List.range n).map fun i => ⟨[1], fun js => b1 i (js.headD 0)⟩) ∧
    d.get? "l2.weight".toList = some ((List.range n).map fun i => ⟨[k, 1], fun js => w2 i (js.headD 0)⟩) ∧
    d.get? "l2.bias".toList = none := by
  rw [double_layered]
  obtain ⟨d, h1, h2, h3⟩ := C88_tables "model".toList (by decide) ((List.range n).map fun i => 'l' :: (Block.showNat i).toList) (by simp; omega) (by
      rw [List.forall_mem_map]
      exact fun i _ => showNat_noDot i) (by
      refine List.Nodup.map_on (fun a _ b _ h => ?_) List.nodup_range
      exact ResNet.showNat_injective (String.toList_inj.1 (List.cons.inj h).2))
    ["l1.weight".toList, "l1.bias".toList, "l2.weight".toList] (by simp) (by decide)
    (fun i p => if p = "l1.weight".toList then ⟨[1, k], fun js => w1 i (js.tail.headD 0)⟩ else if p = "l1.bias".toList then ⟨[1], fun js => b1 i (js.headD 0)⟩ else ⟨[k, 1], fun js => w2 i (js.headD 0)⟩)
    (fun p => if p = "l1.weight".toList then [1, k] else if p = "l1.bias".toList then [1] else [k, 1]) (by
      intro i _ p _
      split_ifs <;> rfl)
  refine ⟨d, h1, ?_, ?_, ?_, ?_⟩
  · rw [h3 _ (by simp)]
    simp
  · rw [h3 _ (by simp)]
    simp
  · rw [h3 _ (by simp)]
    have : "l2.weight".toList ≠ "l1.weight".toList := by decide
    have : "l2.weight".toList ≠ "l1.bias".toList := by decide
    simp [*]
  · rw [PDict.get?_eq_none_iff, h2]
    decide

theorem stack_shape [Inhabited R] (n : ℕ) (hn : 0 < n) (s : List ℕ) (f : ℕ → List ℕ → R) : (stack ((List.range n).map fun i => (⟨s, f i⟩ : Arr R))).shape = n :: s := by
  obtain ⟨m, rfl⟩ : ∃ m, n = m + 1 := ⟨n - 1, by omega⟩
  simp [stack, List.range_succ_eq_map]

theorem stack_elem [Inhabited R] (n : ℕ) (s : List ℕ) (f : ℕ → List ℕ → R) (i : ℕ) (hi : i < n) (js : List ℕ) : (stack ((List.range n).map fun i => (⟨s, f i⟩ : Arr R))).elem (i :: js) = f i js := by
  simp [stack, hi]

/-- **C88.** The pictures of the double network with at least two layers and at least two hidden units: column `i` belongs to layer `i`; it shows the weights of this layer in ascending order, or its bias. -/
theorem C88_pictures [Zero R] [Inhabited R] [LinearOrder R] (n k : ℕ) (hn : 2 ≤ n) (hk : 2 ≤ k) (w1 b1 w2 : ℕ → ℕ → R) :
    pictures (doubleParameters n k w1 b1 w2) = .ok ⟨some ((List.range n).map fun i => ascending k (w1 i)), some ((List.range n).map fun i => [b1 i 0]), some ((List.range n).map fun i => ascending k (w2 i)), none⟩ := by
  obtain ⟨d, h1, h2, h3, h4, h5⟩ := double_tables n k (by omega) w1 b1 w2
  have a1 : picture d "l1.weight".toList (fun x => sortLast (squeeze x)) = .ok (some ((List.range n).map fun i => ascending k (w1 i))) := by
    rw [picture, h2]
    dsimp only
    have hsh := stack_shape n (by omega) [1, k] (fun i js => w1 i (js.tail.headD 0))
    have hsq : (squeeze (stack ((List.range n).map fun i => (⟨[1, k], fun js => w1 i (js.tail.headD 0)⟩ : Arr R)))).shape = [n, k] := by
      rw [squeeze, hsh]
      simp [show n ≠ 1 by omega, show k ≠ 1 by omega]
    rw [sortLast_two _ n k hsq, imshow_transpose _ n k rfl]
    dsimp only
    congr 2
    refine List.map_congr_left fun i hi => ?_
    simp only [List.headD_cons, List.tail_cons]
    have : (ascending k fun j => (squeeze (stack ((List.range n).map fun i => (⟨[1, k], fun js => w1 i (js.tail.headD 0)⟩ : Arr R)))).elem [i, j]) = ascending k (w1 i) := by
      congr 1
      funext j
      rw [squeeze]
      dsimp only
      rw [hsh]
      simp only [unsqueeze, show n ≠ 1 by omega, show k ≠ 1 by omega, if_false, if_true, List.headD_cons, List.tail_cons]
      rw [stack_elem n _ _ i (List.mem_range.1 hi)]
      rfl
    rw [this]
    exact range_getD _ _ (by simp [ascending])
  have a2 : picture d "l1.bias".toList id = .ok (some ((List.range n).map fun i => [b1 i 0])) := by
    rw [picture, h3]
    dsimp only [id]
    rw [imshow_transpose _ n 1 (stack_shape n (by omega) _ _)]
    dsimp only
    congr 2
    refine List.map_congr_left fun i hi => ?_
    rw [List.range_one, List.map_singleton, stack_elem n _ _ i (List.mem_range.1 hi)]
    rfl
  have a3 : picture d "l2.weight".toList (fun x => sortLast (squeeze x)) = .ok (some ((List.range n).map fun i => ascending k (w2 i))) := by
    rw [picture, h4]
    dsimp only
    have hsh := stack_shape n (by omega) [k, 1] (fun i js => w2 i (js.headD 0))
    have hsq : (squeeze (stack ((List.range n).map fun i => (⟨[k, 1], fun js => w2 i (js.headD 0)⟩ : Arr R)))).shape = [n, k] := by
      rw [squeeze, hsh]
      simp [show n ≠ 1 by omega, show k ≠ 1 by omega]
    rw [sortLast_two _ n k hsq, imshow_transpose _ n k rfl]
    dsimp only
    congr 2
    refine List.map_congr_left fun i hi => ?_
    simp only [List.headD_cons, List.tail_cons]
    have : (ascending k fun j => (squeeze (stack ((List.range n).map fun i => (⟨[k, 1], fun js => w2 i (js.headD 0)⟩ : Arr R)))).elem [i, j]) = ascending k (w2 i) := by
      congr 1
      funext j
      rw [squeeze]
      dsimp only
      rw [hsh]
      simp only [unsqueeze, show n ≠ 1 by omega, show k ≠ 1 by omega, if_false, if_true, List.headD_cons, List.tail_cons]
      rw [stack_elem n _ _ i (List.mem_range.1 hi)]
      rfl
    rw [this]
    exact range_getD _ _ (by simp [ascending])
  have a4 : picture d "l2.bias".toList squeeze = .ok none := by rw [picture, h5]
  rw [pictures, h1]
  dsimp only [bind, Except.bind]
  rw [a1]
  dsimp only
  rw [a2]
  dsimp only
  rw [a3]
  dsimp only
  rw [a4]

/-- **C88 fails for one layer and for one hidden unit**: there are no pictures but a `TypeError`, since a dimension of size one is removed. -/
theorem C88_one [Zero R] [Inhabited R] [LinearOrder R] (n k : ℕ) (hn : 0 < n) (h : n = 1 ∨ k = 1) (w1 b1 w2 : ℕ → ℕ → R) : pictures (doubleParameters n k w1 b1 w2) = .error .typeError := by
  obtain ⟨d, h1, h2, _⟩ := double_tables n k hn w1 b1 w2
  have a1 : picture d "l1.weight".toList (fun x => sortLast (squeeze x)) = .error .typeError := by
    rw [picture, h2]
    dsimp only
    rw [imshow_line]
    rw [sortLast_shape, squeeze, stack_shape n hn [1, k] (fun i js => w1 i (js.tail.headD 0))]
    rcases h with rfl | rfl
    · by_cases hk : k = 1 <;> simp [hk]
    · by_cases hn : n = 1 <;> simp [hn]
  rw [pictures, h1]
  dsimp only [bind, Except.bind]
  rw [a1]

/-! ## The hypotheses are met -/

/-- Two layers with two hidden units. -/
example : pictures (doubleParameters 2 2 (fun i j => (if j = 0 then 3 else (i : ℤ))) (fun i _ => 10 + i) (fun i j => i - j)) = .ok ⟨some [[0, 3], [1, 3]], some [[10], [11]], some [[-1, 0], [0, 1]], none⟩ := by
  rw [C88_pictures 2 2 (by decide) (by decide)]
  congr 1
  simp [ascending, List.range_succ, List.mergeSort, List.MergeSort.Internal.splitInTwo, List.merge]

end Verif.Tables
