import Verif.Later.Spec
import Verif.Whole.Block
import Verif.Concat.Props
import Verif.Block.ChainProps

/-!
# Concatenating and splitting two blocks of rows
-/

namespace Verif.Later
open Verif Verif.Tensor Verif.Assembly Verif.Evolution Verif.Flow Verif.Whole

variable {K Ka Kb : Type}

theorem left_beside {n : Nat} (e : Ka ⊕ Kb ≃ K) (xa : Fin n × Ka → ℝ) (xb : Fin n × Kb → ℝ) : left e (beside e xa xb) = xa := by
  funext k
  simp [left, beside]

theorem right_beside {n : Nat} (e : Ka ⊕ Kb ≃ K) (xa : Fin n × Ka → ℝ) (xb : Fin n × Kb → ℝ) : right e (beside e xa xb) = xb := by
  funext k
  simp [right, beside]

theorem beside_parts {n : Nat} (e : Ka ⊕ Kb ≃ K) (x : Fin n × K → ℝ) : beside e (left e x) (right e x) = x := by
  funext k
  unfold beside left right
  rcases h : e.symm k.2 with a | b
  · rw [Sum.elim_inl, ← h, e.apply_symm_apply]
  · rw [Sum.elim_inr, ← h, e.apply_symm_apply]

/-- Slices of a tensor given by a function. -/
theorem tab_slice {α : Type} (s : List Nat) (f : List Nat → α) (k lo m : Nat) (hk : k < s.length) (hm : lo + m ≤ dimSize s k) :
    (tab s f).sliceDim k lo (lo + m) = tab (s.set k m) fun idx => f (idx.set k (lo + idx.getD k 0)) := by
  unfold sliceDim Tensor.select
  have h1 : (tab s f).shape = s := rfl
  rw [h1]
  dsimp only
  rw [Nat.min_eq_left (by omega), Nat.min_eq_left hm, Nat.add_sub_cancel_left, List.length_range']
  unfold tab
  congr 1
  have hsel : ∀ i ∈ List.range' lo m, i < dimSize s k := by
    intro i hi
    rw [List.mem_range'_1] at hi
    omega
  have hlen := selData_length (a := tabData s f) hk (tabData_length s f) (List.range' lo m) hsel
  rw [List.length_range'] at hlen
  apply data_ext (s.set k m) _ _ hlen (tabData_length _ _)
  intro idx
  by_cases hv : Valid (s.set k m) idx
  · have hidx := (valid_iff _ _).1 hv
    rw [List.length_set] at hidx
    have hg := getData?_selData (a := tabData s f) hk (tabData_length s f) (List.range' lo m) hsel idx hidx.1
    rw [List.length_range'] at hg
    rw [hg, getData?_tabData _ _ _ hv]
    have hi : idx.getD k 0 < m := by
      have := hidx.2 k hk
      rwa [dimSize_set m hk] at this
    rw [List.getElem?_range' hi]
    dsimp only
    rw [Nat.one_mul]
    apply getData?_tabData
    rw [valid_iff]
    refine ⟨by rw [List.length_set]; exact hidx.1, ?_⟩
    intro j hj
    by_cases hjk : j = k
    · subst hjk
      simp only [List.getD_eq_getElem?_getD, List.getElem?_set_self (hidx.1 ▸ hj), Option.getD_some]
      simp only [List.getD_eq_getElem?_getD] at hi
      omega
    · have := hidx.2 j hj
      simp only [dimSize, List.getD_eq_getElem?_getD, List.getElem?_set_ne (Ne.symm hjk)] at this ⊢
      exact this
  · have hn : ∀ (a : List α), a.length = vol (s.set k m) → getData? (s.set k m) a idx = none := by
      intro a ha
      rw [← Option.not_isSome_iff_eq_none, getData?_isSome_iff _ _ ha, ← valid_iff]
      exact hv
    rw [hn _ hlen, hn _ (tabData_length _ _)]

section
variable {L : Lay K} {La : Lay Ka} {Lb : Lay Kb} {e : Ka ⊕ Kb ≃ K} {dim : Nat}

/-- The two blocks of rows. -/
noncomputable def two (La : Lay Ka) (Lb : Lay Kb) (e : Ka ⊕ Kb ≃ K) (a b pre : String) (n : Nat) (x : Fin n × K → ℝ) : TDicts ℝ :=
  [(a, enc La pre n (left e x)), (b, enc Lb pre n (right e x))]

theorem two_sorted (La : Lay Ka) (Lb : Lay Kb) (e : Ka ⊕ Kb ≃ K) {a b : String} (hab : a < b) (pre : String) (n : Nat) (x : Fin n × K → ℝ) :
    SDict.Sorted (two La Lb e a b pre n x) := by
  exact List.pairwise_cons.2 ⟨fun c hc => by rw [List.mem_singleton.1 hc]; exact hab, List.pairwise_singleton _ _⟩

/-- Splitting: every block gets its own coordinates, whatever values the blocks that give the sizes have. -/
theorem split_two (hL : L.Ok) (hLa : La.Ok) (hLb : Lb.Ok) (h : Joined L La Lb e dim) {a b : String} (hab : a < b) (pre pre' : String) (n : Nat) (x y : Fin n × K → ℝ) :
    Concat.splitDicts (enc L pre n x) (two La Lb e a b pre' n y) dim = .ok (two La Lb e a b pre n x) := by
  obtain ⟨d, rfl⟩ : ∃ d, dim = d + 1 := ⟨dim - 1, by have := h.pos; omega⟩
  obtain ⟨l, ha, hb, hl, hp⟩ := h.parts
  simp only [Nat.add_sub_cancel] at hl hp
  have hlen : ∀ p ∈ l, d < p.2.1.length ∧ d < p.2.2.length := fun p h' => by
    have := (hp p h').1.length
    omega
  rw [Concat.splitDicts_eq h.le _ (enc_sorted hL pre n x) (by
    intro p hp'
    obtain ⟨q, hq, rfl⟩ := List.mem_map.1 hp'
    rw [hl] at hq
    obtain ⟨r, hr, rfl⟩ := List.mem_map.1 hq
    have := (hlen r hr).1
    simp only [tab, List.length_cons, List.length_set]
    omega) _ (two_sorted La Lb e hab pre' n y) (by
    intro c hc
    simp only [two, List.mem_cons, List.not_mem_nil, or_false] at hc
    rcases hc with rfl | rfl
    · refine ⟨enc_sorted hLa pre' n _, ?_, by simp [enc, ha, hl]⟩
      intro p hp'
      obtain ⟨q, hq, rfl⟩ := List.mem_map.1 hp'
      rw [ha] at hq
      obtain ⟨r, hr, rfl⟩ := List.mem_map.1 hq
      have := (hlen r hr).1
      simp only [tab, List.length_cons]
      omega
    · refine ⟨enc_sorted hLb pre' n _, ?_, by simp [enc, hb, hl]⟩
      intro p hp'
      obtain ⟨q, hq, rfl⟩ := List.mem_map.1 hp'
      rw [hb] at hq
      obtain ⟨r, hr, rfl⟩ := List.mem_map.1 hq
      have := (hlen r hr).2
      simp only [tab, List.length_cons]
      omega)]
  congr 1
  simp only [two, Concat.splitAll]
  have hA : Concat.splitItems (d + 1) (fun _ => 0) (enc L pre n x) (enc La pre' n (left e y)) = enc La pre n (left e x) := by
    unfold Concat.splitItems enc
    rw [ha, hl, List.map_map, List.map_map, List.map_map, List.zipWith_map, List.zipWith_self]
    apply List.map_congr_left
    intro p hp'
    obtain ⟨hc, h1, _⟩ := hp p hp'
    simp only [Function.comp_apply]
    congr 1
    have hs : dimSize (tab (n :: p.2.1) (value La n (left e y) p.1)).shape (d + 1) = dimSize p.2.1 d := by simp [tab, dimSize]
    rw [hs, tab_slice _ _ _ _ _ (by simp; exact (hlen p hp').1) (by
      simp only [dimSize, List.getD_cons_succ]
      simp only [List.getD_eq_getElem?_getD, List.getElem?_set_self (hlen p hp').1, Option.getD_some]
      omega)]
    unfold tab
    have hsh : (n :: p.2.1.set d (dimSize p.2.1 d + dimSize p.2.2 d)).set (d + 1) (dimSize p.2.1 d) = n :: p.2.1 := by
      simp only [List.set_cons_succ, List.set_set]
      rw [(Compat.refl (hlen p hp').1).set_eq]
    rw [hsh]
    congr 1
    apply tabData_congr
    intro idx hv
    cases hv with
    | @cons i _ is _ hi hv =>
      have e1 : is.set d (0 + (i :: is).getD (d + 1) 0) = is := by
        have hd : d < is.length := by rw [hv.length_eq]; exact (hlen p hp').1
        rw [Nat.zero_add, List.getD_cons_succ, List.getD_eq_getElem?_getD, List.getElem?_eq_getElem hd, Option.getD_some, List.set_getElem_self]
      rw [List.set_cons_succ, e1]
      unfold value
      simp only [hi, dif_pos, h1 is hv, Option.map_map, left, Function.comp_def]
  have hB : Concat.splitItems (d + 1) (Concat.bump (d + 1) (fun _ => 0) (enc La pre' n (left e y))) (enc L pre n x) (enc Lb pre' n (right e y)) = enc Lb pre n (right e x) := by
    have hoff : ∀ p ∈ l, Concat.bump (d + 1) (fun _ => 0) (enc La pre' n (left e y)) (pre' ++ p.1) = dimSize p.2.1 d := by
      intro p hp'
      unfold Concat.bump
      rw [enc_get? hLa pre' n (left e y) (e := (p.1, p.2.1)) (by rw [ha]; exact List.mem_map.2 ⟨p, hp', rfl⟩)]
      simp [tab, dimSize]
    unfold Concat.splitItems
    rw [show enc L pre n x = l.map fun p => (pre ++ p.1, tab (n :: p.2.1.set d (dimSize p.2.1 d + dimSize p.2.2 d)) (value L n x p.1)) by
        unfold enc; rw [hl, List.map_map]; rfl,
      show enc Lb pre' n (right e y) = l.map fun p => (pre' ++ p.1, tab (n :: p.2.2) (value Lb n (right e y) p.1)) by
        unfold enc; rw [hb, List.map_map]; rfl,
      show enc Lb pre n (right e x) = l.map fun p => (pre ++ p.1, tab (n :: p.2.2) (value Lb n (right e x) p.1)) by
        unfold enc; rw [hb, List.map_map]; rfl,
      List.zipWith_map, List.zipWith_self]
    apply List.map_congr_left
    intro p hp'
    obtain ⟨hc, _, h2⟩ := hp p hp'
    congr 1
    have hs : dimSize (tab (n :: p.2.2) (value Lb n (right e y) p.1)).shape (d + 1) = dimSize p.2.2 d := by simp [tab, dimSize]
    dsimp only
    rw [hs, hoff p hp', tab_slice _ _ _ _ _ (by simp; exact (hlen p hp').1) (by
      simp only [dimSize, List.getD_cons_succ]
      simp only [List.getD_eq_getElem?_getD, List.getElem?_set_self (hlen p hp').1, Option.getD_some]
      omega)]
    unfold tab
    have hsh : (n :: p.2.1.set d (dimSize p.2.1 d + dimSize p.2.2 d)).set (d + 1) (dimSize p.2.2 d) = n :: p.2.2 := by
      simp only [List.set_cons_succ, List.set_set]
      rw [hc.set_eq]
    rw [hsh]
    congr 1
    apply tabData_congr
    intro idx hv
    cases hv with
    | @cons i _ is _ hi hv =>
      rw [List.set_cons_succ, List.getD_cons_succ]
      unfold value
      simp only [hi, dif_pos, h2 is hv, Option.map_map, right, Function.comp_def]
  rw [hA, hB]

theorem fits_two (hLa : La.Ok) (hLb : Lb.Ok) (h : Joined L La Lb e dim) {a b : String} (hab : a < b) (pre : String) (n : Nat) (x : Fin n × K → ℝ) :
    Concat.Fits dim (two La Lb e a b pre n x) := by
  obtain ⟨d, rfl⟩ : ∃ d, dim = d + 1 := ⟨dim - 1, by have := h.pos; omega⟩
  obtain ⟨l, ha, hb, hl, hp⟩ := h.parts
  simp only [Nat.add_sub_cancel] at hl hp
  have hka : SDict.keys (enc La pre n (left e x)) = l.map fun p => pre ++ p.1 := by simp [SDict.keys, enc, ha]
  have hkb : SDict.keys (enc Lb pre n (right e x)) = l.map fun p => pre ++ p.1 := by simp [SDict.keys, enc, hb]
  have hmem : ∀ c ∈ two La Lb e a b pre n x, c = (a, enc La pre n (left e x)) ∨ c = (b, enc Lb pre n (right e x)) := by
    intro c hc
    simpa [two] using hc
  refine ⟨two_sorted La Lb e hab pre n x, ?_, ?_, ?_, ?_⟩
  · intro c hc
    rcases hmem c hc with rfl | rfl
    · exact enc_sorted hLa pre n _
    · exact enc_sorted hLb pre n _
  · intro c hc c' hc'
    have : ∀ c ∈ two La Lb e a b pre n x, SDict.keys c.2 = l.map fun p => pre ++ p.1 := by
      intro c hc
      rcases hmem c hc with rfl | rfl
      · exact hka
      · exact hkb
    rw [this c hc, this c' hc']
  · intro c hc p hp'
    rcases hmem c hc with rfl | rfl <;>
    · obtain ⟨q, _, rfl⟩ := List.mem_map.1 hp'
      exact tab_wf _ _
  · have key : ∀ k, ∀ t ∈ Concat.column (two La Lb e a b pre n x) k, ∃ p ∈ l, k = pre ++ p.1 ∧ (t.shape = n :: p.2.1 ∨ t.shape = n :: p.2.2) := by
      intro k t ht
      obtain ⟨c, hc, hg⟩ := List.mem_filterMap.1 ht
      have hm := SDict.mem_of_get?_eq_some hg
      rcases hmem c hc with rfl | rfl
      · obtain ⟨q, hq, he⟩ := List.mem_map.1 hm
        rw [ha] at hq
        obtain ⟨p, hp', rfl⟩ := List.mem_map.1 hq
        cases he
        exact ⟨p, hp', rfl, .inl rfl⟩
      · obtain ⟨q, hq, he⟩ := List.mem_map.1 hm
        rw [hb] at hq
        obtain ⟨p, hp', rfl⟩ := List.mem_map.1 hq
        cases he
        exact ⟨p, hp', rfl, .inr rfl⟩
    intro k t ht t' ht'
    obtain ⟨p, hp1, hk1, h1⟩ := key k t ht
    obtain ⟨p', hp2, hk2, h2⟩ := key k t' ht'
    have hpp : p = p' := by
      have hkk : p.1 = p'.1 := pre_inj (hk1.symm.trans hk2)
      have hs := hLa.sorted.nodup
      rw [ha] at hs
      have hs' : (l.map fun p => p.1).Nodup := by
        simpa [SDict.keys, List.map_map, Function.comp_def] using hs
      exact List.inj_on_of_nodup_map hs' hp1 hp2 hkk
    subst hpp
    have hc := (hp p hp1).1
    have hlen := hc.length
    rcases h1 with h1 | h1 <;> rcases h2 with h2 | h2 <;> rw [h1, h2]
    · exact ⟨rfl, Compat.refl (by omega)⟩
    · exact ⟨rfl, hc⟩
    · exact ⟨rfl, hc.symm⟩
    · exact ⟨rfl, Compat.refl (by omega)⟩

/-- Concatenating gives the rows with all coordinates. -/
theorem concat_two (hL : L.Ok) (hLa : La.Ok) (hLb : Lb.Ok) (h : Joined L La Lb e dim) {a b : String} (hab : a < b) (pre : String) (n : Nat) (x : Fin n × K → ℝ) :
    Concat.concatDicts (two La Lb e a b pre n x) dim = .ok (enc L pre n x) := by
  have hs := split_two hL hLa hLb h hab pre pre n x x
  have hf := fits_two hLa hLb h hab pre n x
  obtain ⟨d, rfl⟩ : ∃ d, dim = d + 1 := ⟨dim - 1, by have := h.pos; omega⟩
  obtain ⟨l, ha, hb, hl, hp⟩ := h.parts
  simp only [Nat.add_sub_cancel] at hl hp
  obtain ⟨r, h1, _, _, _, h5⟩ := Concat.C07_split_concat h.le (a, enc La pre n (left e x)) [(b, enc Lb pre n (right e x))] hf (enc L pre n x) (enc_sorted hL pre n x) (by
    have hka : SDict.keys (enc La pre n (left e x)) = l.map fun p => pre ++ p.1 := by simp [SDict.keys, enc, ha]
    rw [show SDict.keys (a, enc La pre n (left e x)).2 = l.map fun p => pre ++ p.1 from hka,
      show enc L pre n x = l.map fun p => (pre ++ p.1, tab (n :: p.2.1.set d (dimSize p.2.1 d + dimSize p.2.2 d)) (value L n x p.1)) by
        unfold enc; rw [hl, List.map_map]; rfl, List.forall₂_map_left_iff, List.forall₂_map_right_iff, List.forall₂_same]
    intro p hp'
    have hc := (hp p hp').1
    have hlen := hc.length
    have hgA := enc_get? hLa pre n (left e x) (e := (p.1, p.2.1)) (by rw [ha]; exact List.mem_map.2 ⟨p, hp', rfl⟩)
    have hgB := enc_get? hLb pre n (right e x) (e := (p.1, p.2.2)) (by rw [hb]; exact List.mem_map.2 ⟨p, hp', rfl⟩)
    have hcol : Concat.column [(a, enc La pre n (left e x)), (b, enc Lb pre n (right e x))] (pre ++ p.1)
        = [tab (n :: p.2.1) (value La n (left e x) p.1), tab (n :: p.2.2) (value Lb n (right e x) p.1)] := by
      simp [Concat.column, hgA, hgB]
    refine ⟨tab_wf _ _, ?_, ?_⟩
    · intro t ht
      rw [hcol] at ht
      have hset : Compat d (p.2.1.set d (dimSize p.2.1 d + dimSize p.2.2 d)) p.2.1 := Compat.set _ (by omega)
      simp only [List.mem_cons, List.not_mem_nil, or_false] at ht
      rcases ht with rfl | rfl
      · exact ⟨rfl, hset⟩
      · exact ⟨rfl, hset.trans hc⟩
    · unfold Concat.columnSize
      rw [hcol]
      simp only [tab, List.map_cons, List.map_nil, List.sum_cons, List.sum_nil, dimSize, List.getD_cons_succ]
      simp only [List.getD_eq_getElem?_getD, List.getElem?_set_self (show d < p.2.1.length by omega), Option.getD_some]
      rfl)
  have e1 : r = two La Lb e a b pre n x := by
    have : Except.ok r = Except.ok (two La Lb e a b pre n x) := h1.symm.trans hs
    exact Except.ok.inj this
  rw [← e1]
  exact h5

end

end Verif.Later
