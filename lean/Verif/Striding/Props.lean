import Verif.Striding.Lemmas
import Verif.Striding.Spec

/-!
# C21, C22: striding
-/

namespace Verif.Striding
open Verif Tensor

variable {α : Type}

/-! ## C21 -/

/-- **C21.** Striding one dimension: the size becomes `⌊n/s⌋`, the other sizes stay, and position `j` of the
result is position `n mod s + s * j` of the input. -/
theorem C21_single (t : Tensor α) (ht : t.WF) (s d n : Nat) (hs : 0 < s) (h2 : 2 ≤ d) (h5 : d ≤ 5)
    (hn : t.shape[d]? = some n) :
    ∃ r, strideSingle t s d = .ok r ∧ r.WF ∧ r.shape = t.shape.set d (n / s) ∧
      ∀ (idx : List Nat) (j : Nat), idx.length = t.shape.length → idx[d]? = some j →
        r.get? idx = if j < n / s then t.get? (idx.set d (n % s + s * j)) else none := by
  have hd : d < t.shape.length := (List.getElem?_eq_some_iff.1 hn).1
  have hdim : dimSize t.shape d = n := by simp [dimSize, List.getD, hn]
  refine ⟨_, strideSingle_ok t s d hs h2 h5 hd, select_wf t ht s d hs hd, ?_, ?_⟩
  · rw [select_shape t s d hs, hdim]
  · intro idx j hidx hj
    rw [select_get? t ht s d hs hd idx hidx, hdim]
    simp [List.getD, hj]

/-- **C21.** The positions that are kept are exactly those congruent to `n` modulo the stride; there are
`⌊n/s⌋` of them (previous theorem) and, if there is one at all, the last is `n - s`. -/
theorem C21_kept_positions (n s : Nat) (hs : 0 < s) (i : Nat) :
    ((∃ j, j < n / s ∧ i = n % s + s * j) ↔ i < n ∧ i % s = n % s ∧ s ≤ n) ∧
    (s ≤ n → n / s - 1 < n / s ∧ n % s + s * (n / s - 1) = n - s) := by
  have hdm := Nat.div_add_mod n s
  refine ⟨⟨?_, ?_⟩, ?_⟩
  · rintro ⟨j, hj, rfl⟩
    refine ⟨position_lt hj, by simp, ?_⟩
    have : 0 < n / s := by omega
    exact (Nat.div_pos_iff.1 this).2
  · rintro ⟨h1, h2, h3⟩
    refine ⟨i / s, ?_, ?_⟩
    · have hi := Nat.div_add_mod i s
      have : s * (i / s) < s * (n / s) := by omega
      exact Nat.lt_of_mul_lt_mul_left this
    · have hi := Nat.div_add_mod i s
      omega
  · intro h
    have hpos : 0 < n / s := Nat.div_pos h hs
    refine ⟨by omega, ?_⟩
    have h1 : s ≤ s * (n / s) := Nat.le_mul_of_pos_right s hpos
    rw [Nat.mul_sub, Nat.mul_one]
    omega

/-- **C21.** Consequence: striding a dimension that is smaller than the stride leaves an empty tensor. -/
theorem C21_small_dimension_vanishes (t : Tensor α) (ht : t.WF) (s d n : Nat) (h2 : 2 ≤ d) (h5 : d ≤ 5)
    (hn : t.shape[d]? = some n) (hlt : n < s) :
    ∃ r, strideSingle t s d = .ok r ∧ r.data = [] := by
  obtain ⟨r, h, hwf, hsh, _⟩ := C21_single t ht s d n (by omega) h2 h5 hn
  refine ⟨r, h, ?_⟩
  have hd : d < t.shape.length := (List.getElem?_eq_some_iff.1 hn).1
  have hvol : ∀ (sh : List Nat) (k : Nat), k < sh.length → vol (sh.set k 0) = 0 := by
    intro sh
    induction sh with
    | nil => intro k hk; simp at hk
    | cons m sh ih =>
      intro k hk
      cases k with
      | zero => simp
      | succ k => simp [ih k (by simpa using hk)]
  unfold Tensor.WF at hwf
  rw [hsh, Nat.div_eq_of_lt hlt, hvol _ _ hd] at hwf
  exact List.length_eq_zero_iff.1 hwf

/-- **C21.** The comment in the code says that the center element is picked for odd sizes.  With stride 2 this
holds exactly for sizes 3, 7, 11, ...: for 5, 9, ... the center element is dropped. -/
theorem C21_center_kept_iff (m : Nat) :
    (∃ j, j < (2 * m + 1) / 2 ∧ m = (2 * m + 1) % 2 + 2 * j) ↔ m % 2 = 1 := by
  constructor
  · rintro ⟨j, _, h⟩; omega
  · intro h; exact ⟨m / 2, by omega, by omega⟩

/-- **C21.** What is rejected: everything that is not a positive stride in an existing dimension from 2 to 5. -/
theorem C21_rejected (t : Tensor α) (s d : Int) :
    (∃ r, strideSingle t s d = .ok r) ↔ 0 < s ∧ 2 ≤ d ∧ d ≤ 5 ∧ d < t.shape.length := by
  unfold strideSingle
  constructor
  · rintro ⟨r, h⟩
    by_contra hc
    split at h; · cases h
    split at h; · cases h
    split at h; · cases h
    split at h; · cases h
    split at h; · cases h
    apply hc
    omega
  · rintro ⟨h1, h2, h3, h4⟩
    rw [if_neg (by omega), if_neg (by omega), if_neg (by omega), if_neg (by omega), if_neg (by omega)]
    exact ⟨_, rfl⟩

/-- **C21.** Striding several dimensions: every (stride, dimension) pair acts on its dimension, all other
dimensions and entries are untouched. -/
theorem C21_many (t : Tensor α) (ht : t.WF) (ps : List (Nat × Nat)) (off : Int)
    (hps : ∀ p ∈ ps, 0 < p.1 ∧ 2 ≤ p.2 ∧ p.2 ≤ 5 ∧ p.2 < t.shape.length)
    (hnd : (ps.map Prod.snd).Nodup) :
    ∃ r, strideMany t (ps.map (fun p => (p.1 : Int))) (ps.map (fun p => (p.2 : Int) - off)) off = .ok r ∧
      r.WF ∧ r.shape = targetShape ps t.shape ∧
      ∀ idx, (∀ k, k < t.shape.length → idx.getD k 0 < dimSize r.shape k) → idx.length = t.shape.length →
        r.get? idx = t.get? (sourceIndex ps t.shape idx) := by
  induction ps generalizing t with
  | nil =>
    refine ⟨t, rfl, ht, ?_, ?_⟩
    · apply List.ext_getElem?
      intro i; simp [targetShape, strideFor, List.getElem?_mapIdx]
    · intro idx _ _
      congr 1
      apply List.ext_getElem?
      intro i; simp [sourceIndex, strideFor, List.getElem?_mapIdx, Nat.mod_one]
  | cons p ps ih =>
    obtain ⟨s, d⟩ := p
    obtain ⟨hs, h2, h5, hd⟩ := hps (s, d) (by simp)
    simp only at hs h2 h5 hd
    rw [List.map_cons, List.nodup_cons] at hnd
    have hok := strideSingle_ok t s d hs h2 h5 hd
    have hwf := select_wf t ht s d hs hd
    have hsh := select_shape t s d hs
    have hget := select_get? t ht s d hs hd
    generalize t.select d (slicePositions (dimSize t.shape d) (dimSize t.shape d % s) s) = t1 at hok hwf hsh hget
    have hlen : t1.shape.length = t.shape.length := by rw [hsh]; simp
    obtain ⟨r, h1, hrwf, hrsh, hrget⟩ := ih t1 hwf
      (fun q hq => by rw [hlen]; exact hps q (by simp [hq])) hnd.2
    have hfor : strideFor ps d = 1 := by
      have : d ∉ ps.map Prod.snd := hnd.1
      clear * - this
      induction ps with
      | nil => rfl
      | cons q ps ih =>
        simp only [List.map_cons, List.mem_cons, not_or] at this
        rw [strideFor, if_neg (fun h => this.1 h.symm)]
        exact ih this.2
    have hforne : ∀ k, k ≠ d → strideFor ((s, d) :: ps) k = strideFor ps k := by
      intro k hk; rw [strideFor, if_neg (fun h => hk h.symm)]
    have hford : strideFor ((s, d) :: ps) d = s := by rw [strideFor, if_pos rfl]
    refine ⟨r, ?_, hrwf, ?_, ?_⟩
    · unfold strideMany at h1 ⊢
      rw [List.map_cons, List.map_cons, List.zip_cons_cons, List.foldlM_cons]
      have : ((d : Int) - off + off) = d := by omega
      simp only [this, hok]
      exact h1
    · rw [hrsh, hsh]
      apply List.ext_getElem?
      intro i
      simp only [targetShape, List.getElem?_mapIdx, List.getElem?_set]
      by_cases hid : d = i
      · subst hid
        simp only [if_true, hd, hford, hfor, Option.map_some, Nat.div_one]
        rw [List.getElem?_eq_getElem hd]
        simp [dimSize, List.getD, hd]
      · rw [if_neg hid, hforne i (Ne.symm hid)]
    · intro idx hin hidx
      rw [hrget idx (fun k hk => hin k (by omega)) (by omega)]
      have hsrclen : (sourceIndex ps t1.shape idx).length = t.shape.length := by
        simp [sourceIndex, hidx]
      rw [hget _ hsrclen]
      have hval : (sourceIndex ps t1.shape idx).getD d 0 = idx.getD d 0 := by
        have hdi : d < idx.length := by omega
        simp [sourceIndex, List.getD, hfor, Nat.mod_one, hdi]
      have hrd : dimSize r.shape d = dimSize t.shape d / s := by
        rw [hrsh, hsh]
        simp [targetShape, dimSize, List.getD, hfor, hd]
      rw [hval, if_pos (by have := hin d hd; rw [hrd] at this; exact this)]
      congr 1
      apply List.ext_getElem?
      intro i
      simp only [sourceIndex, List.getElem?_set, List.getElem?_mapIdx, List.length_mapIdx]
      by_cases hid : d = i
      · subst hid
        have hdi : d < idx.length := by omega
        simp [hdi, hford, List.getD]
      · rw [if_neg hid, hforne i (Ne.symm hid), hsh, dimSize_set_ne (Ne.symm hid)]

/-- a 1 × 1 × 5 × 3 tensor, strided by 2 and 3 -/
example : (⟨[1, 1, 5, 3], List.range 15⟩ : Tensor Nat).WF ∧
    strideMany (⟨[1, 1, 5, 3], List.range 15⟩ : Tensor Nat) [2, 3] [2, 3] 0 =
      .ok ⟨[1, 1, 2, 1], [3, 9]⟩ := by decide +kernel

/-! ## C22 -/

/-- **C22.** Construction: dimensions and strides are accepted as number, tuple or list; one number is used for all
dimensions; lists of different lengths and other types are a `ValueError`. -/
theorem C22_construct (stride dims : Arg) (b : Block) :
    construct stride dims = .ok b ↔
      (dims = .tuple b.dims ∨ dims = .list b.dims ∨ ∃ n, dims = .int n ∧ b.dims = [n]) ∧
      b.stride.length = b.dims.length ∧
      (stride = .tuple b.stride ∨ stride = .list b.stride ∨
        ∃ n, stride = .int n ∧ b.stride = List.replicate b.dims.length n) := by
  obtain ⟨bs, bd⟩ := b
  have hd : ∀ d, dimsOf dims = .ok d ↔
      (dims = .tuple d ∨ dims = .list d ∨ ∃ n, dims = .int n ∧ d = [n]) := by
    intro d
    cases dims <;> simp [dimsOf, eq_comm]
  have hs : ∀ n s, stridesOf n stride = .ok s ↔ s.length = n ∧
      (stride = .tuple s ∨ stride = .list s ∨ ∃ m, stride = .int m ∧ s = List.replicate n m) := by
    intro n s
    cases stride with
    | int m =>
      simp only [stridesOf, Except.ok.injEq, reduceCtorEq, Arg.int.injEq, false_or]
      constructor
      · rintro rfl; exact ⟨by simp, m, rfl, rfl⟩
      · rintro ⟨_, m', rfl, rfl⟩; rfl
    | tuple l =>
      simp only [stridesOf]
      split
      · next h => constructor
                  · intro h'; cases h'
                  · rintro ⟨h1, h2 | h2 | ⟨_, h2, _⟩⟩ <;> cases h2; exact absurd h1 h
      · next h => simp only [ne_eq, not_not] at h
                  constructor
                  · intro h'; cases h'; exact ⟨h, Or.inl rfl⟩
                  · rintro ⟨_, h2 | h2 | ⟨_, h2, _⟩⟩ <;> cases h2; rfl
    | list l =>
      simp only [stridesOf]
      split
      · next h => constructor
                  · intro h'; cases h'
                  · rintro ⟨h1, h2 | h2 | ⟨_, h2, _⟩⟩ <;> cases h2; exact absurd h1 h
      · next h => simp only [ne_eq, not_not] at h
                  constructor
                  · intro h'; cases h'; exact ⟨h, Or.inr (Or.inl rfl)⟩
                  · rintro ⟨_, h2 | h2 | ⟨_, h2, _⟩⟩ <;> cases h2; rfl
    | other => simp [stridesOf]
  rw [← hd, ← hs]
  unfold construct
  cases h1 : dimsOf dims with
  | error e => simp [bind, Except.bind]
  | ok d =>
    simp only [bind, Except.bind, Except.ok.injEq]
    cases h2 : stridesOf d.length stride with
    | error e =>
      simp only [reduceCtorEq, false_iff, not_and]
      rintro rfl h3
      rw [h2] at h3; cases h3
    | ok s =>
      simp only [Except.ok.injEq, Block.mk.injEq]
      constructor
      · rintro ⟨rfl, rfl⟩; exact ⟨rfl, h2⟩
      · rintro ⟨rfl, h3⟩; rw [h2] at h3; cases h3; exact ⟨rfl, rfl⟩

/-- **C22.** A rejected construction is always a `ValueError`. -/
theorem C22_construct_error (stride dims : Arg) (e : Err) (h : construct stride dims = .error e) :
    e = .valueError := by
  have hd : ∀ e, dimsOf dims = .error e → e = .valueError := by
    intro e h
    cases dims <;> cases h
    rfl
  have hs : ∀ n e, stridesOf n stride = .error e → e = .valueError := by
    intro n e h
    cases stride with
    | int m => cases h
    | tuple l => simp only [stridesOf] at h; split at h <;> cases h; rfl
    | list l => simp only [stridesOf] at h; split at h <;> cases h; rfl
    | other => cases h; rfl
  unfold construct at h
  cases h1 : dimsOf dims with
  | error e' => rw [h1] at h; cases h; exact hd _ h1
  | ok d =>
    rw [h1] at h
    cases h2 : stridesOf d.length stride with
    | error e' =>
      simp only [bind, Except.bind, h2] at h
      cases h; exact hs _ _ h2
    | ok s => simp only [bind, Except.bind, h2] at h; cases h

/-- Same block names and same keys, every tensor strided in the dimensions `dims + off`. -/
def StridedDicts (b : Block) (off : Int) (d r : Dicts.DDict (Tensor α)) : Prop :=
  List.Forall₂ (fun p q => p.1 = q.1 ∧
    List.Forall₂ (fun x y => x.1 = y.1 ∧ strideMany x.2 b.stride b.dims off = .ok y.2) p.2 q.2) d r

/-- The first tensor of the first block. -/
def firstTensor (d : Dicts.DDict (Tensor α)) : Option (Tensor α) :=
  match d with
  | (_, (_, t) :: _) :: _ => some t
  | _ => none

theorem strideDicts_ok_iff (b : Block) (off : Int) (d r : Dicts.DDict (Tensor α)) (hd : SDict.Sorted d)
    (hin : ∀ p ∈ d, SDict.Sorted p.2) :
    strideDicts b.stride b.dims off d = .ok r ↔ StridedDicts b off d r := by
  unfold strideDicts
  rw [SDict.mapLoop_ok_iff hd]
  unfold SDict.MapsTo StridedDicts
  have aux : ∀ (d r : Dicts.DDict (Tensor α)), (∀ p ∈ d, SDict.Sorted p.2) →
      (List.Forall₂ (fun p q => p.1 = q.1 ∧ strideDict b.stride b.dims off p.2 = .ok q.2) d r ↔
       List.Forall₂ (fun p q => p.1 = q.1 ∧
        List.Forall₂ (fun x y => x.1 = y.1 ∧ strideMany x.2 b.stride b.dims off = .ok y.2) p.2 q.2) d r) := by
    intro d
    induction d with
    | nil => intro r _; cases r <;> simp
    | cons p d ih =>
      intro r hin
      cases r with
      | nil => simp
      | cons q r =>
        rw [List.forall₂_cons, List.forall₂_cons, ih r (fun x hx => hin x (by simp [hx]))]
        have := SDict.mapLoop_ok_iff (f := fun t => strideMany t b.stride b.dims off) (hin p (by simp)) q.2
        unfold strideDict
        rw [this]
        rfl
  exact aux d r hin

/-- **C22.** The block returns three dictionaries exactly when all tensors can be strided and state and data are not
empty.  It keeps all names; states and costates are strided in the given dimensions, the data in the dimensions shifted
by the difference of the ranks of (the first tensor of) data and state. -/
theorem C22_forward (b : Block) (state costate data s c d : Dicts.DDict (Tensor α))
    (h1 : SDict.Sorted state) (h1' : ∀ p ∈ state, SDict.Sorted p.2)
    (h2 : SDict.Sorted costate) (h2' : ∀ p ∈ costate, SDict.Sorted p.2)
    (h3 : SDict.Sorted data) (h3' : ∀ p ∈ data, SDict.Sorted p.2) :
    forward b state costate data = .ok (s, c, d) ↔
      StridedDicts b 0 state s ∧ StridedDicts b 0 costate c ∧
      ∃ ts td, firstTensor state = some ts ∧ firstTensor data = some td ∧
        StridedDicts b ((td.shape.length : Int) - ts.shape.length) data d := by
  have i1 := fun r => strideDicts_ok_iff b 0 state r h1 h1'
  have i2 := fun r => strideDicts_ok_iff b 0 costate r h2 h2'
  have i3 := fun off r => strideDicts_ok_iff b off data r h3 h3'
  have hsz : ∀ x : Dicts.DDict (Tensor α), Dicts.sizeOfDicts x =
      match firstTensor x with | some t => .ok t.shape | none => .error .indexError := by
    intro x
    match x with
    | [] => rfl
    | (_, []) :: _ => rfl
    | (_, _ :: _) :: _ => rfl
  unfold forward
  rw [hsz, hsz]
  constructor
  · intro h
    cases e1 : strideDicts b.stride b.dims 0 state with
    | error e => rw [e1] at h; cases h
    | ok s' =>
      rw [e1] at h
      cases e2 : strideDicts b.stride b.dims 0 costate with
      | error e => rw [e2] at h; cases h
      | ok c' =>
        rw [e2] at h
        cases f1 : firstTensor state with
        | none => rw [f1] at h; cases h
        | some ts =>
          cases f2 : firstTensor data with
          | none => rw [f1, f2] at h; cases h
          | some td =>
            rw [f1, f2] at h
            simp only [bind, Except.bind] at h
            cases e3 : strideDicts b.stride b.dims ((td.shape.length : Int) - ts.shape.length) data with
            | error e => rw [e3] at h; cases h
            | ok d' =>
              rw [e3] at h
              cases h
              exact ⟨(i1 _).1 e1, (i2 _).1 e2, ts, td, rfl, rfl, (i3 _ _).1 e3⟩
  · rintro ⟨g1, g2, ts, td, f1, f2, g3⟩
    rw [(i1 _).2 g1, (i2 _).2 g2, f1, f2]
    simp only [bind, Except.bind]
    rw [(i3 _ _).2 g3]

/-- **C22.** Keys and block names are kept. -/
theorem C22_names (b : Block) (off : Int) (d r : Dicts.DDict (Tensor α)) (h : StridedDicts b off d r) :
    SDict.keys r = SDict.keys d ∧ List.Forall₂ (fun p q => SDict.keys q.2 = SDict.keys p.2) d r := by
  induction h with
  | nil => exact ⟨rfl, .nil⟩
  | @cons p q _ _ hpq _ ih =>
    refine ⟨by simp only [SDict.keys_cons, ih.1, hpq.1], .cons ?_ ih.2⟩
    exact SDict.MapsTo.keys (f := fun t => strideMany t b.stride b.dims off) hpq.2

/-- a state of rank 4 and data of rank 5 (an additional leading time dimension) -/
example : forward (α := Nat) ⟨[2], [2]⟩ [("b", [("q", ⟨[1, 1, 4], [0, 1, 2, 3]⟩)])]
    [("b", [("p", ⟨[1, 1, 4], [4, 5, 6, 7]⟩)])] [("b", [("q", ⟨[1, 1, 1, 3], [7, 8, 9]⟩)])]
    = .ok ([("b", [("q", ⟨[1, 1, 2], [0, 2]⟩)])], [("b", [("p", ⟨[1, 1, 2], [4, 6]⟩)])],
        [("b", [("q", ⟨[1, 1, 1, 1], [8]⟩)])]) := by rfl

end Verif.Striding
