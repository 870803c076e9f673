import Verif.Tables.Model

/-!
# Lemmas for the tables of parameters
-/

namespace Verif.Tables
open Verif Verif.Figures

variable {R : Type}

theorem splitDot_dot (a s : Str) (h : '.' ∉ a) : splitDot (a ++ '.' :: s) = a :: splitDot s := by
  induction a with
  | nil => simp [splitDot]
  | cons c a ih =>
    rw [List.mem_cons, not_or] at h
    rw [List.cons_append, splitDot, if_neg (fun e => h.1 e.symm), ih h.2]
    rfl

theorem splitDot_ne (s : Str) : splitDot s ≠ [] := by
  cases s with
  | nil => simp [splitDot]
  | cons c s => rw [splitDot]; split_ifs <;> simp

theorem joinDot_split (s : Str) : joinDot (splitDot s) = s := by
  induction s with
  | nil => rfl
  | cons c s ih =>
    obtain ⟨a, l, e⟩ := List.exists_cons_of_ne_nil (splitDot_ne s)
    rw [e] at ih
    rw [splitDot, e]
    split_ifs with h
    · rw [joinDot, ih, h]
      rfl
    · cases l with
      | nil => simpa [joinDot] using ih
      | cons b l =>
        simp only [List.headD_cons, List.tail_cons, joinDot] at ih ⊢
        rw [List.cons_append, ih]

/-- The name of a parameter: the attribute, the layer, the name in the layer. -/
def fullName (top layer p : Str) : Str := top ++ '.' :: layer ++ '.' :: p

theorem split_full {top layer : Str} (ht : '.' ∉ top) (hl : '.' ∉ layer) (p : Str) : splitDot (fullName top layer p) = top :: layer :: splitDot p := by
  rw [fullName, List.append_assoc, List.cons_append, splitDot_dot _ _ ht, splitDot_dot _ _ hl]

theorem layerOf_full {top layer : Str} (ht : '.' ∉ top) (hl : '.' ∉ layer) (p : Str) : layerOf (fullName top layer p) = .ok layer := by
  rw [layerOf, split_full ht hl]
  rfl

theorem inLayer_full {top layer : Str} (ht : '.' ∉ top) (hl : '.' ∉ layer) (p : Str) : inLayer (fullName top layer p) = p := by
  rw [inLayer, split_full ht hl]
  exact joinDot_split p

/-- The named parameters of a network of layers with the same parameters. -/
def layered (top : Str) (ps : List Str) (v : ℕ → Str → Arr R) (ls : List Str) (k : ℕ) : List (Str × Arr R) :=
  (ls.zipIdx k).flatMap fun l => ps.map fun p => (fullName top l.1 p, v l.2 p)

theorem layered_cons (top : Str) (ps : List Str) (v : ℕ → Str → Arr R) (l : Str) (ls : List Str) (k : ℕ) :
    layered top ps v (l :: ls) k = (ps.map fun p => (fullName top l p, v k p)) ++ layered top ps v ls (k + 1) := by
  rw [layered, List.zipIdx_cons, List.flatMap_cons]
  rfl

theorem length_layered (top : Str) (ps : List Str) (v : ℕ → Str → Arr R) (ls : List Str) (k : ℕ) : (layered top ps v ls k).length = ls.length * ps.length := by
  induction ls generalizing k with
  | nil => simp [layered]
  | cons l ls ih => rw [layered_cons, List.length_append, List.length_map, ih, List.length_cons, Nat.succ_mul, Nat.add_comm]

theorem firstBlock_layered {top : Str} (ht : '.' ∉ top) {ps : List Str} (v : ℕ → Str → Arr R) {l : Str} {ls : List Str} (k : ℕ) (hd : ∀ x ∈ l :: ls, '.' ∉ x) (hn : l ∉ ls) :
    firstBlock l (layered top ps v (l :: ls) k) = .ok (ps.map fun p => (p, (v k p).shape)) := by
  rw [layered_cons]
  have hl := hd l (by simp)
  have hrest : firstBlock l (layered top ps v ls (k + 1)) = .ok [] := by
    clear hl
    cases ls with
    | nil => rfl
    | cons m ls =>
      cases ps with
      | nil =>
        have : layered top [] v (m :: ls) (k + 1) = [] := by
          rw [← List.length_eq_zero_iff, length_layered, List.length_nil, Nat.mul_zero]
        rw [this]
        rfl
      | cons p ps =>
        rw [layered_cons, List.map_cons, List.cons_append, firstBlock, layerOf_full ht (hd m (by simp))]
        exact if_neg fun e => hn (by simp [e])
  induction ps with
  | nil => exact hrest
  | cons p ps ih =>
    have key : ∀ qs : List Str, firstBlock l ((qs.map fun p => (fullName top l p, v k p)) ++ layered top (p :: ps) v ls (k + 1)) = .ok (qs.map fun p => (p, (v k p).shape)) := by
      intro qs
      induction qs with
      | nil => exact hrest
      | cons q qs ihq =>
        rw [List.map_cons, List.cons_append, firstBlock, layerOf_full ht hl]
        dsimp only
        rw [if_pos rfl, ihq, inLayer_full ht hl]
        rfl
    exact key _

theorem init_tables [Zero R] (n : ℕ) (ns : List (Str × List ℕ)) (h : (ns.map Prod.fst).Nodup) :
    ns.foldl (fun d e => PDict.set d e.1 (zeros n e.2)) ([] : PDict Str (List (Arr R))) = ns.map fun e => (e.1, zeros n e.2) := by
  have key : ∀ (ns : List (Str × List ℕ)) (d : PDict Str (List (Arr R))), (d.keys ++ ns.map Prod.fst).Nodup → ns.foldl (fun d e => PDict.set d e.1 (zeros n e.2)) d = d ++ ns.map fun e => (e.1, zeros n e.2) := by
    intro ns
    induction ns with
    | nil => intro d _; simp
    | cons e ns ih =>
      intro d hd
      have hne : e.1 ∉ d.keys := by
        intro hm
        rw [List.nodup_append] at hd
        exact hd.2.2 _ hm _ (by simp) rfl
      rw [List.foldl_cons, PDict.set_of_not_mem hne, ih]
      · simp
      · rw [PDict.keys_append]
        simpa using hd
  simpa using key ns [] (by simpa using h)

/-- The tables after `k` layers. -/
structure Upto [Zero R] (ps : List Str) (n : ℕ) (v : ℕ → Str → Arr R) (shape : Str → List ℕ) (k : ℕ) (d : PDict Str (List (Arr R))) : Prop where
  keys : d.keys = ps
  rows : ∀ p ∈ ps, d.get? p = some ((List.range n).map fun j => if j < k then v j p else ⟨shape p, fun _ => 0⟩)

theorem set_range {α : Type} (n k : ℕ) (f : ℕ → α) (x : α) : ((List.range n).map f).set k x = (List.range n).map fun j => if j = k then x else f j := by
  refine List.ext_getElem (by simp) fun j h1 h2 => ?_
  rw [List.getElem_set]
  simp only [List.getElem_map, List.getElem_range]
  by_cases h : k = j
  · rw [if_pos h, if_pos h.symm]
  · rw [if_neg h, if_neg (fun e => h e.symm)]

theorem broadcasts_self (s : List ℕ) : broadcasts s s = true := by
  have key : ∀ l : List ℕ, broadcasts.go l l = true := by
    intro l
    induction l with
    | nil => rfl
    | cons a l ih => simp [broadcasts.go, ih]
  exact key _

theorem setRow_same (rows : List (Arr R)) (k : ℕ) (v old : Arr R) (h : rows[k]? = some old) (hs : v.shape = old.shape) : setRow rows k v = .ok (rows.set k v) := by
  rw [setRow, h]
  dsimp only
  rw [hs, broadcasts_self, if_pos rfl, if_pos rfl]

/-- Within one layer. -/
theorem fill_within [Zero R] {top l : Str} (ht : '.' ∉ top) (hl : '.' ∉ l) {ps : List Str} {n : ℕ} {v : ℕ → Str → Arr R} {shape : Str → List ℕ} {k : ℕ} (hk : k < n) (hs : ∀ p ∈ ps, (v k p).shape = shape p)
    (rest : List (Str × Arr R)) (qs : List Str) (hq : ∀ q ∈ qs, q ∈ ps) (done : List Str) (d : PDict Str (List (Arr R))) (hkeys : d.keys = ps)
    (hd : ∀ p ∈ ps, d.get? p = some ((List.range n).map fun j => if j < k ∨ (j = k ∧ p ∈ done) then v j p else ⟨shape p, fun _ => 0⟩)) :
    ∃ d' : PDict Str (List (Arr R)), fill l k d ((qs.map fun p => (fullName top l p, v k p)) ++ rest) = fill l k d' rest ∧ d'.keys = ps ∧
      ∀ p ∈ ps, d'.get? p = some ((List.range n).map fun j => if j < k ∨ (j = k ∧ p ∈ done ++ qs) then v j p else ⟨shape p, fun _ => 0⟩) := by
  induction qs generalizing d done with
  | nil => exact ⟨d, rfl, hkeys, by simpa using hd⟩
  | cons q qs ih =>
    have hqp := hq q (by simp)
    have hrow : ((List.range n).map fun j => if j < k ∨ (j = k ∧ q ∈ done) then v j q else ⟨shape q, fun _ => 0⟩)[k]? = some (if q ∈ done then v k q else ⟨shape q, fun _ => 0⟩) := by
      rw [List.getElem?_map, List.getElem?_range hk]
      simp
    have hset := setRow_same _ k (v k q) _ hrow (by split_ifs <;> [rfl; exact hs q hqp])
    obtain ⟨d', h1, h2, h3⟩ := ih (fun x hx => hq x (by simp [hx])) (done ++ [q]) (PDict.set d q (((List.range n).map fun j => if j < k ∨ (j = k ∧ q ∈ done) then v j q else ⟨shape q, fun _ => 0⟩).set k (v k q)))
      (by rw [PDict.keys_set, if_pos (by rw [hkeys]; exact hqp), hkeys]) (by
        intro p hp
        rw [PDict.get?_set]
        by_cases he : q = p
        · subst he
          rw [if_pos rfl, set_range]
          congr 1
          refine List.map_congr_left fun j _ => ?_
          by_cases hj : j = k
          · subst hj; simp
          · simp [hj]
        · rw [if_neg he, hd p hp]
          congr 1
          refine List.map_congr_left fun j _ => ?_
          have : p ∈ done ++ [q] ↔ p ∈ done := by
            rw [List.mem_append, List.mem_singleton]
            exact ⟨fun h => h.resolve_right fun e => he e.symm, .inl⟩
          simp only [this])
    refine ⟨d', ?_, h2, by simpa using h3⟩
    rw [List.map_cons, List.cons_append, fill, layerOf_full ht hl]
    dsimp only
    rw [inLayer_full ht hl, hd q hqp, if_neg (by simp)]
    dsimp only
    rw [hset]
    exact h1

theorem fill_layers [Zero R] {top : Str} (ht : '.' ∉ top) {ps : List Str} (hne : ps ≠ []) {n : ℕ} {v : ℕ → Str → Arr R} {shape : Str → List ℕ} (hs : ∀ i < n, ∀ p ∈ ps, (v i p).shape = shape p)
    (ls : List Str) (cur : Str) (k : ℕ) (hd : ∀ x ∈ ls, '.' ∉ x) (hc : (cur :: ls).Nodup) (hk : k + 1 + ls.length = n) (d : PDict Str (List (Arr R))) (h : Upto ps n v shape (k + 1) d) :
    ∃ d', fill cur k d (layered top ps v ls (k + 1)) = .ok d' ∧ Upto ps n v shape n d' := by
  induction ls generalizing cur k d with
  | nil =>
    refine ⟨d, rfl, ?_⟩
    rw [List.length_nil, Nat.add_zero] at hk
    subst hk
    exact h
  | cons l ls ih =>
    rw [List.length_cons] at hk
    obtain ⟨p, ps', rfl⟩ := List.exists_cons_of_ne_nil hne
    have hl := hd l (by simp)
    have hcl : cur ≠ l := fun e => (List.nodup_cons.1 hc).1 (by simp [e])
    have hw : fill cur k d ((((p :: ps').map fun p => (fullName top l p, v (k + 1) p))) ++ layered top (p :: ps') v ls (k + 1 + 1)) =
        fill l (k + 1) d ((((p :: ps').map fun p => (fullName top l p, v (k + 1) p))) ++ layered top (p :: ps') v ls (k + 1 + 1)) := by
      rw [List.map_cons, List.cons_append, fill, fill, layerOf_full ht hl]
      dsimp only
      rw [if_pos hcl, if_neg (by simp)]
    rw [layered_cons, hw]
    obtain ⟨d', h1, h2, h3⟩ := fill_within ht hl (k := k + 1) (n := n) (by omega) (hs (k + 1) (by omega)) (layered top (p :: ps') v ls (k + 1 + 1)) (p :: ps') (fun _ h => h) [] d h.keys (by
      intro p hp
      rw [h.rows p hp]
      simp)
    rw [h1]
    refine ih l (k + 1) (fun x hx => hd x (by simp [hx])) (List.nodup_cons.1 hc).2 (by omega) d' ⟨h2, fun r hp => ?_⟩
    rw [h3 r hp]
    congr 1
    refine List.map_congr_left fun j _ => ?_
    have : (j < k + 1 ∨ j = k + 1 ∧ r ∈ [] ++ p :: ps') ↔ j < k + 1 + 1 := by
      rw [List.nil_append]
      constructor
      · omega
      · intro hj
        by_cases hjk : j < k + 1
        · exact .inl hjk
        · exact .inr ⟨by omega, hp⟩
    simp only [this]

end Verif.Tables
