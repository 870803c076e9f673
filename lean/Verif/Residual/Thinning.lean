import Verif.Residual.Spec
import Verif.Striding.Props

/-!
# Striding blocks on rows
-/

namespace Verif.Residual
open Verif Verif.Tensor Verif.Whole Verif.Evolution Verif.Flow Verif.Later Verif.Striding

variable {K Kp K' Kp' : Type}

/-- A striding block for strides and dimensions `ps` of the rows (in a tensor the rows are dimension 0, so every dimension is one higher). -/
def strider (ps : List (Nat × Nat)) : Striding.Block := ⟨ps.map fun q => (q.1 : Int), ps.map fun q => ((q.2 + 1 : Nat) : Int)⟩

/-- Strides and dimensions that are accepted: positive strides, no channels, no dimension twice. -/
def Allowed (ps : List (Nat × Nat)) : Prop := (∀ q ∈ ps, 0 < q.1 ∧ 1 ≤ q.2 ∧ q.2 ≤ 4) ∧ (ps.map Prod.snd).Nodup

/-- One dimension higher. -/
def raise (ps : List (Nat × Nat)) : List (Nat × Nat) := ps.map fun q => (q.1, q.2 + 1)

theorem strideFor_raise (ps : List (Nat × Nat)) (k : Nat) : strideFor (raise ps) (k + 1) = strideFor ps k := by
  induction ps with
  | nil => rfl
  | cons q ps ih =>
    show (if q.2 + 1 = k + 1 then q.1 else strideFor (raise ps) (k + 1)) = if q.2 = k then q.1 else strideFor ps k
    rw [ih]
    by_cases h : q.2 = k
    · rw [if_pos h, if_pos (by omega)]
    · rw [if_neg h, if_neg (by omega)]

theorem strideFor_zero (ps : List (Nat × Nat)) : strideFor (raise ps) 0 = 1 := by
  induction ps with
  | nil => rfl
  | cons q ps ih =>
    show (if q.2 + 1 = 0 then q.1 else strideFor (raise ps) 0) = 1
    rw [if_neg (by omega), ih]

theorem targetShape_raise (ps : List (Nat × Nat)) (n : Nat) (sh : List Nat) : targetShape (raise ps) (n :: sh) = n :: targetShape ps sh := by
  unfold targetShape
  rw [List.mapIdx_cons, strideFor_zero, Nat.div_one]
  congr 1
  apply List.ext_getElem?
  intro i
  simp only [List.getElem?_mapIdx, strideFor_raise]

theorem sourceIndex_raise (ps : List (Nat × Nat)) (n i : Nat) (sh idx : List Nat) : sourceIndex (raise ps) (n :: sh) (i :: idx) = i :: sourceIndex ps sh idx := by
  unfold sourceIndex
  rw [List.mapIdx_cons, strideFor_zero, Nat.mod_one, Nat.one_mul, Nat.zero_add]
  congr 1
  apply List.ext_getElem?
  intro j
  simp only [List.getElem?_mapIdx, strideFor_raise]
  rfl

theorem dims_lt {s idx : List Nat} (h : Valid s idx) : ∀ k, k < s.length → idx.getD k 0 < dimSize s k := by
  induction h with
  | nil => intro k hk; simp at hk
  | cons h1 _ ih =>
    intro k hk
    cases k with
    | zero => simpa [dimSize] using h1
    | succ k => simpa [dimSize] using ih k (by simpa using hk)

theorem valid_source {ps : List (Nat × Nat)} {s idx : List Nat} (h : Valid (targetShape ps s) idx) : Valid s (sourceIndex ps s idx) := by
  have hl := h.length_eq
  simp only [targetShape, List.length_mapIdx] at hl
  unfold Valid at h ⊢
  rw [List.forall₂_iff_get] at h ⊢
  refine ⟨by simp [sourceIndex, hl], fun i h1 h2 => ?_⟩
  have h3 := h.2 i (by omega) (by simp [targetShape]; omega)
  simp only [List.get_eq_getElem, targetShape, sourceIndex, List.getElem_mapIdx] at h3 ⊢
  have e : dimSize s i = s[i] := by simp [dimSize, List.getD_eq_getElem?_getD, h2]
  rw [e]
  exact position_lt h3

theorem stride_enc {Lp : Lay Kp} {L : Lay K} {σ : K → Kp} {ps : List (Nat × Nat)} (hLp : Lp.Ok) (hL : L.Ok) (hps : Allowed ps) (h : Strided Lp L σ ps) (nm pre : String) (n : Nat) (x : Fin n × Kp → ℝ) :
    strideDicts (strider ps).stride (strider ps).dims 0 [(nm, enc Lp pre n x)] = .ok [(nm, enc L pre n (thin σ x))] := by
  rw [strideDicts_ok_iff (strider ps) 0 _ _ (by simp [SDict.Sorted]) (by
    intro p hp
    rw [List.mem_singleton] at hp
    subst hp
    exact enc_sorted hLp pre n x)]
  refine .cons ⟨rfl, ?_⟩ .nil
  obtain ⟨l, hl, hl', h⟩ := h.parts
  unfold enc
  rw [hl, hl', List.map_map, List.map_map, List.forall₂_map_left_iff, List.forall₂_map_right_iff, List.forall₂_same]
  intro p hp
  refine ⟨rfl, ?_⟩
  obtain ⟨h1, h2, h3⟩ := h p hp
  obtain ⟨r, r1, r2, r3, r4⟩ := C21_many (tab (n :: p.2.1) (value Lp n x p.1)) (tab_wf _ _) (raise ps) 0 (by
    intro q' hq'
    obtain ⟨q, hq, rfl⟩ := List.mem_map.1 hq'
    have g1 := hps.1 q hq
    have g2 := h1 q hq
    simp only [tab, List.length_cons]
    omega) (by
    have := hps.2.map (f := fun k => k + 1) fun a b h => by simpa using h
    unfold raise
    rw [List.map_map] at this ⊢
    exact this)
  have e1 : (raise ps).map (fun q => (q.1 : Int)) = (strider ps).stride := by
    unfold raise strider
    rw [List.map_map]
    rfl
  have e2 : (raise ps).map (fun q => (q.2 : Int) - 0) = (strider ps).dims := by
    unfold raise strider
    rw [List.map_map]
    apply List.map_congr_left
    intro q _
    simp
  rw [e1, e2] at r1
  simp only [Function.comp]
  rw [r1]
  congr 1
  have hsh : (tab (n :: p.2.1) (value Lp n x p.1)).shape = n :: p.2.1 := rfl
  rw [hsh, targetShape_raise, ← h2] at r3
  have hr := tab_get? r2 0
  rw [← hr, r3]
  unfold tab
  congr 1
  apply tabData_congr
  intro idx hv
  rw [r4 idx (by
    intro k hk
    rw [r3]
    exact dims_lt hv k (by
      have := congrArg List.length r3
      rw [hsh] at hk
      simp only [List.length_cons] at hk ⊢
      have e := congrArg List.length h2
      simp only [targetShape, List.length_mapIdx] at e
      omega)) (by
    have e := congrArg List.length h2
    simp only [targetShape, List.length_mapIdx] at e
    have := hv.length_eq
    rw [hsh]
    simp only [List.length_cons] at this ⊢
    omega)]
  cases hv with
  | @cons i _ idx _ hi hv =>
    rw [hsh, sourceIndex_raise]
    have hm : (p.1, p.2.2) ∈ L.names := by rw [hl']; exact List.mem_map.2 ⟨p, hp, rfl⟩
    have hm' : (p.1, p.2.1) ∈ Lp.names := by rw [hl]; exact List.mem_map.2 ⟨p, hp, rfl⟩
    obtain ⟨k, k1, k2, k3⟩ := hL.onto _ hm idx hv
    dsimp only at k1 k2 k3
    have h4 := h3 idx hv
    rw [k1, Option.map_some] at h4
    have hvs : Valid p.2.1 (sourceIndex ps p.2.1 idx) := valid_source (by rw [← h2]; exact hv)
    rw [get?_tab (.cons hi hvs), value_coord x h4 ⟨i, hi⟩, Option.getD_some]
    exact (value_coord (thin σ x) k1 ⟨i, hi⟩).symm

/-- C80: a striding block leaves out the same pixels of states, costates and data; of what is left nothing is changed. -/
theorem C80_stride {Lp : Lay Kp} {L : Lay K} {Lp' : Lay Kp'} {L' : Lay K'} {σ : K → Kp} {σ' : K' → Kp'} {ps : List (Nat × Nat)} (hLp : Lp.Ok) (hL : L.Ok) (hLp' : Lp'.Ok) (hL' : L'.Ok)
    (hps : Allowed ps) (h : Strided Lp L σ ps) (h' : Strided Lp' L' σ' ps) (hrank : Lp.names.head?.map (fun e => e.2.length) = Lp'.names.head?.map (fun e => e.2.length))
    (nm : String) {n B : Nat} (y : Sys2 (Fin n) (Fin B) Kp Kp') :
    Striding.forward (strider ps) [(nm, enc Lp "" n y.1)] [(nm, enc Lp "p_" n y.2.1)] [(nm, enc Lp' "" B y.2.2)] =
      .ok ([(nm, enc L "" n (thin σ y.1))], [(nm, enc L "p_" n (thin σ y.2.1))], [(nm, enc L' "" B (thin σ' y.2.2))]) := by
  have hs : ∀ (S C D S' C' D' : Dicts.DDict (Tensor ℝ)) (a b : List Nat), strideDicts (strider ps).stride (strider ps).dims 0 S = .ok S' → strideDicts (strider ps).stride (strider ps).dims 0 C = .ok C' →
      Dicts.sizeOfDicts S = .ok a → Dicts.sizeOfDicts D = .ok b → a.length = b.length → strideDicts (strider ps).stride (strider ps).dims 0 D = .ok D' →
      Striding.forward (strider ps) S C D = .ok (S', C', D') := by
    intro S C D S' C' D' a b h1 h2 h3 h4 h5 h6
    unfold Striding.forward
    rw [h1, h2, h3, h4]
    simp only [bind, Except.bind, h5, sub_self, h6]
  have hsz : ∀ {k : Type} (M : Lay k) (m : Nat) (z : Fin m × k → ℝ), M.Ok → ∃ e, M.names.head? = some e ∧ Dicts.sizeOfDicts [(nm, enc M "" m z)] = .ok (m :: e.2) := by
    intro k M m z hM
    cases hn : M.names with
    | nil => exact absurd hn hM.ne
    | cons e es =>
      refine ⟨e, rfl, ?_⟩
      unfold enc
      rw [hn]
      rfl
  obtain ⟨e, he, h1⟩ := hsz Lp n y.1 hLp
  obtain ⟨e', he', h2⟩ := hsz Lp' B y.2.2 hLp'
  rw [he, he'] at hrank
  exact hs _ _ _ _ _ _ _ _ (stride_enc hLp hL hps h nm "" n y.1) (stride_enc hLp hL hps h nm "p_" n y.2.1) h1 h2 (by simpa using hrank) (stride_enc hLp' hL' hps h' nm "" B y.2.2)

end Verif.Residual
