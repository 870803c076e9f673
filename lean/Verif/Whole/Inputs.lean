import Verif.Whole.Instance

/-!
# C67: classes whose second state does not start at zero
-/

namespace Verif.Whole
open Verif Verif.Tensor Verif.Assembly Verif.Evolution Verif.Flow Verif.Models

section
variable {α : Type}

/-- Place of an index in row-major data. -/
def place : List Nat → List Nat → Nat
  | _ :: s, i :: is => i * vol s + place s is
  | _, _ => 0

theorem place_lt {s idx : List Nat} (h : Valid s idx) : place s idx < vol s := by
  induction h with
  | nil => simp [place]
  | @cons i n is s hi _ ih =>
    have : (i + 1) * vol s ≤ n * vol s := Nat.mul_le_mul_right _ hi
    simp only [place, vol_cons]
    rw [Nat.succ_mul] at this
    omega

theorem getData?_place {s idx : List Nat} (h : Valid s idx) (d : List α) : getData? s d idx = d[place s idx]? := by
  induction h generalizing d with
  | nil => rfl
  | @cons i n is s hi hs ih =>
    simp only [getData?, if_pos hi, place]
    rw [ih, List.getElem?_take, if_pos (place_lt hs), List.getElem?_drop]

theorem place_three (a b c i j k : Nat) : place [a, b, c] [i, j, k] = (i * b + j) * c + k := by
  simp [place, vol]
  ring

/-- Elements of the concatenation of lists of equal length. -/
theorem getElem?_flatten_const (m : Nat) (ls : List (List α)) (h : ∀ l ∈ ls, l.length = m) (i j : Nat) (hj : j < m) : ls.flatten[i * m + j]? = ls[i]?.bind fun l => l[j]? := by
  induction ls generalizing i with
  | nil => simp
  | cons l ls ih =>
    have hl := h l (by simp)
    rw [List.flatten_cons]
    cases i with
    | zero => rw [List.getElem?_append_left (by omega)]; simp
    | succ i =>
      rw [List.getElem?_append_right (by rw [hl, Nat.succ_mul]; omega), hl]
      have : (i + 1) * m + j - m = i * m + j := by rw [Nat.succ_mul]; omega
      rw [this, ih fun l hl => h l (by simp [hl])]
      simp

theorem getElem?_replicate_flatten (r : List α) (k j : Nat) (hj : j < r.length * k) : (List.replicate k r).flatten[j]? = r[j % r.length]? := by
  have hpos : 0 < r.length := Nat.pos_of_mul_pos_right (Nat.lt_of_le_of_lt (Nat.zero_le j) hj)
  have h1 : j = j / r.length * r.length + j % r.length := by rw [Nat.mul_comm]; exact (Nat.div_add_mod j r.length).symm
  have h2 : j / r.length < k := Nat.div_lt_of_lt_mul hj
  conv_lhs => rw [h1]
  rw [getElem?_flatten_const r.length _ (by simp) _ _ (Nat.mod_lt _ hpos)]
  simp [h2]

end

/-- `q1` and `q3` are the tensor, `q2` repeats every row of the tensor. -/
noncomputable def dataThree (X : Tensor ℝ) (B c d e : Nat) : Fin B × Three (Fin c) (Fin d) (Fin e) → ℝ
  | (b, .inl a) => elem X b a.1 a.2
  | (b, .inr (.inl a)) => elem X b a.1 (a.2 % d)
  | (b, .inr (.inr a)) => elem X b a.1 a.2

/-- `q1` is the tensor, `q2` is the same trained table for all samples. -/
noncomputable def dataTrained (q20 : List ℝ) (X : Tensor ℝ) (B c d e : Nat) : Fin B × Two (Fin c) (Fin d) (Fin e) → ℝ
  | (b, .inl a) => elem X b a.1 a.2
  | (_, .inr a) => q20.getD (a.1 * e + a.2) 0

theorem repeatLast_three (X : Tensor ℝ) (hw : X.WF) (B c d k : Nat) (hs : X.shape = [B, c, d]) :
    ∃ Y : Tensor ℝ, Shapes.repeatLast k X = .ok Y ∧ Y.WF ∧ Y.shape = [B, c, d * k] ∧ ∀ b i j, b < B → i < c → j < d * k → elem Y b i j = elem X b i (j % d) := by
  have hlen : X.data.length = B * c * d := by
    have := hw
    unfold Tensor.WF at this
    rw [hs] at this
    rw [this]
    simp [vol, Nat.mul_assoc]
  have hv : vol [B, c] = B * c := by simp [vol]
  have hrow : ∀ r ∈ rows d (B * c) X.data, r.length = d := mem_rows_length d (B * c) _ hlen
  let Z : List (List ℝ) := (rows d (B * c) X.data).map fun r => (List.replicate k r).flatten
  have hZ : ∀ l ∈ Z, l.length = d * k := by
    intro l hl
    obtain ⟨r, hr, rfl⟩ := List.mem_map.1 hl
    rw [length_flatten_const (n := d) (by simp [hrow r hr]), List.length_replicate, Nat.mul_comm]
  refine ⟨⟨[B, c, d * k], Z.flatten⟩, ?_, ?_, rfl, ?_⟩
  · unfold Shapes.repeatLast
    rw [hs]
    simp only [List.getLast?_cons_cons, List.getLast?_singleton, List.dropLast_cons_cons, List.dropLast_singleton, hv, List.cons_append, List.nil_append]
    rw [List.flatMap_def]
  · unfold Tensor.WF
    show Z.flatten.length = _
    rw [length_flatten_const hZ]
    simp [Z, vol, Nat.mul_assoc]
  · intro b i j hb hi hj
    have hd : 0 < d := Nat.pos_of_mul_pos_right (Nat.lt_of_le_of_lt (Nat.zero_le j) hj)
    have hbi : b * c + i < B * c := by
      have : (b + 1) * c ≤ B * c := Nat.mul_le_mul_right _ hb
      rw [Nat.succ_mul] at this
      omega
    have hmod := Nat.mod_lt j hd
    unfold elem Tensor.get?
    rw [hs]
    rw [getData?_place (.cons hb (.cons hi (.cons hj .nil))), getData?_place (.cons hb (.cons hi (.cons hmod .nil))), place_three, place_three,
      getElem?_flatten_const (d * k) Z hZ _ _ hj]
    have hr : (rows d (B * c) X.data)[b * c + i]? = some ((X.data.drop ((b * c + i) * d)).take d) := by
      rw [List.getElem?_eq_getElem (by simpa using hbi), rows_getElem]
    have hl : ((X.data.drop ((b * c + i) * d)).take d).length = d := hrow _ (List.mem_of_getElem? hr)
    have hz : Z[b * c + i]? = some (List.replicate k ((X.data.drop ((b * c + i) * d)).take d)).flatten := by simp only [Z, List.getElem?_map, hr, Option.map_some]
    rw [hz, Option.bind_some, getElem?_replicate_flatten _ _ _ (by rw [hl]; exact hj), hl, List.getElem?_take, if_pos hmod, List.getElem?_drop]

theorem direct_three (cfg : Shapes.Cfg) (q20 : List ℝ) (X : Tensor ℝ) (B c d : Nat) (hs : X.shape = [B, c, d]) (hc : cfg.particleDimension = c) (hd : cfg.particleSize = .num d)
    (hq : q20.length = c * (d * cfg.inflation)) :
    ∃ Y : Tensor ℝ, Shapes.direct cfg q20 X = .ok Y ∧ Y.WF ∧ Y.shape = [B, c, d * cfg.inflation] ∧
      ∀ b i j, b < B → i < c → j < d * cfg.inflation → elem Y b i j = q20.getD (i * (d * cfg.inflation) + j) 0 := by
  have hlen : ∀ l ∈ List.replicate B q20, l.length = c * (d * cfg.inflation) := by simp [hq]
  refine ⟨⟨[B, c, d * cfg.inflation], (List.replicate B q20).flatten⟩, ?_, ?_, rfl, ?_⟩
  · unfold Shapes.direct
    simp only [hd, Shapes.times, hs, hc]
    simp [vol]
  · unfold Tensor.WF
    show ((List.replicate B q20).flatten).length = _
    rw [length_flatten_const hlen]
    simp [vol]
  · intro b i j hb hi hj
    have hij : i * (d * cfg.inflation) + j < c * (d * cfg.inflation) := by
      have : (i + 1) * (d * cfg.inflation) ≤ c * (d * cfg.inflation) := Nat.mul_le_mul_right _ hi
      rw [Nat.succ_mul] at this
      omega
    unfold elem Tensor.get?
    rw [getData?_place (.cons hb (.cons hi (.cons hj .nil))), place_three]
    have e : (b * c + i) * (d * cfg.inflation) + j = b * (c * (d * cfg.inflation)) + (i * (d * cfg.inflation) + j) := by ring
    rw [e, getElem?_flatten_const _ _ hlen _ _ hij]
    simp [hb, List.getD_eq_getElem?_getD]

/-- C67: the data of the symmetrized class start with the tensor as `q1` and `q3` and with the tensor, every row repeated, as `q2`; with trained starting values for `q2` (mode `direct`)
every sample starts with the same table. -/
theorem C67_initial_values (cfg : Shapes.Cfg) (l : Shapes.Learned ℝ) (X : Tensor ℝ) (hw : X.WF) (B c d : Nat) (hs : X.shape = [B, c, d]) :
    (∀ m, Shapes.initialData .symmetrized cfg m l X = .ok (enc (layThree c d (d * cfg.inflation)) "" B (dataThree X B c d _))) ∧
    (cfg.particleDimension = c → cfg.particleSize = .num d → l.q20.length = c * (d * cfg.inflation) →
      ∀ cls ∈ [Shapes.Cls.upDown, .universal, .general, .periodic],
        Shapes.initialData cls cfg .direct l X = .ok (enc (layTwo c d (d * cfg.inflation)) "" B (dataTrained l.q20 X B c d _))) := by
  have hX : (X.WF ∧ X.shape ≠ []) := ⟨hw, by simp [hs]⟩
  refine ⟨fun m => ?_, fun hc hd hq cls hcls => ?_⟩
  · obtain ⟨Y, h1, h2, h3, h4⟩ := repeatLast_three X hw B c d cfg.inflation hs
    have hr : HasRows (layThree c d (d * cfg.inflation)) "" B [("q1", X), ("q2", Y), ("q3", X)] := by
      refine ⟨⟨by show List.Pairwise (· < ·) ["q1", "q2", "q3"]; decide, ?_⟩, by simp [layThree, hs, h3]⟩
      intro p hp
      simp only [List.mem_cons, List.not_mem_nil, or_false] at hp
      rcases hp with rfl | rfl | rfl
      · exact hX
      · exact ⟨h2, by simp [h3]⟩
      · exact hX
    have e : Shapes.initialData .symmetrized cfg m l X = .ok [("q1", X), ("q2", Y), ("q3", X)] := by
      simp only [Shapes.initialData, h1, bind, Except.bind]
    rw [e, ← enc_dec (layThree_ok c d _) hr]
    congr 2
    funext k
    obtain ⟨b, k | k | k⟩ := k
    · simp [dec, layThree, SDict.get?, elem, dataThree]
    · have := h4 b k.1 k.2 b.2 k.1.2 k.2.2
      simpa [dec, layThree, SDict.get?, elem, dataThree] using this
    · simp [dec, layThree, SDict.get?, elem, dataThree]
  · obtain ⟨Y, h1, h2, h3, h4⟩ := direct_three cfg l.q20 X B c d hs hc hd hq
    have hr : HasRows (layTwo c d (d * cfg.inflation)) "" B [("q1", X), ("q2", Y)] := by
      refine ⟨⟨by show List.Pairwise (· < ·) ["q1", "q2"]; decide, ?_⟩, by simp [layTwo, hs, h3]⟩
      intro p hp
      simp only [List.mem_cons, List.not_mem_nil, or_false] at hp
      rcases hp with rfl | rfl
      · exact hX
      · exact ⟨h2, by simp [h3]⟩
    have e : Shapes.initialData cls cfg .direct l X = .ok [("q1", X), ("q2", Y)] := by
      simp only [List.mem_cons, List.not_mem_nil, or_false] at hcls
      rcases hcls with rfl | rfl | rfl | rfl <;> simp only [Shapes.initialData, Shapes.startQ2, h1, bind, Except.bind]
    rw [e, ← enc_dec (layTwo_ok c d _) hr]
    congr 2
    funext k
    obtain ⟨b, k | k⟩ := k
    · simp [dec, layTwo, SDict.get?, elem, dataTrained]
    · have := h4 b k.1 k.2 b.2 k.1.2 k.2.2
      simpa [dec, layTwo, SDict.get?, elem, dataTrained] using this

/-- Two samples with two numbers, inflation 2: `q2` of the first is `1, 2, 1, 2`. -/
example : ∃ x : Fin 2 × Three (Fin 1) (Fin 2) (Fin 4) → ℝ,
    Shapes.initialData .symmetrized ⟨2, 1, .num 2, 2, 3⟩ .zero ⟨[], fun _ => [], fun _ => []⟩ ⟨[2, 1, 2], [1, 2, 3, 4]⟩ = .ok (enc (layThree 1 2 4) "" 2 x) ∧
    x (0, .inr (.inl (0, 2))) = 1 ∧ x (1, .inr (.inl (0, 3))) = 4 :=
  ⟨_, (C67_initial_values ⟨2, 1, .num 2, 2, 3⟩ _ ⟨[2, 1, 2], [1, 2, 3, 4]⟩ rfl 2 1 2 rfl).1 .zero, by
    norm_num [dataThree, elem, Tensor.get?, getData?, vol], by norm_num [dataThree, elem, Tensor.get?, getData?, vol]⟩

/-- One trained table for all samples. -/
example : ∃ x : Fin 2 × Two (Fin 1) (Fin 2) (Fin 4) → ℝ,
    Shapes.initialData .upDown ⟨2, 1, .num 2, 2, 3⟩ .direct ⟨[5, 6, 7, 8], fun _ => [], fun _ => []⟩ ⟨[2, 1, 2], [1, 2, 3, 4]⟩ = .ok (enc (layTwo 1 2 4) "" 2 x) ∧
    x (0, .inr (0, 2)) = 7 ∧ x (1, .inr (0, 2)) = 7 :=
  ⟨_, (C67_initial_values ⟨2, 1, .num 2, 2, 3⟩ ⟨[5, 6, 7, 8], fun _ => [], fun _ => []⟩ ⟨[2, 1, 2], [1, 2, 3, 4]⟩ rfl 2 1 2 rfl).2 rfl rfl rfl .upDown (by simp), rfl, rfl⟩

end Verif.Whole
