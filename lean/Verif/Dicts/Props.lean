import Verif.Dicts.Lemmas

/-!
# Properties C05, C06, C49, C50: dictionary utilities
-/

namespace Verif.Dicts
open Verif

variable {V W : Type _}

def sample : DDict Nat := [("b1", [("q1", 1), ("q2", 2)]), ("b2", [("q1", 3)]), ("b3", [])]

/-! ## C05 merging -/

/-- **C05** Merging raises exactly when the block name is already taken. -/
theorem C05_merge_raises_iff (dict : Option (SDict String V)) (dicts : Option (DDict V))
    (name : String) :
    (merge dict dicts name = .error .valueError ↔
      ∃ d, dicts = some d ∧ name ∈ SDict.keys d) ∧
    ((∃ r, merge dict dicts name = .ok r) ↔ ¬ ∃ d, dicts = some d ∧ name ∈ SDict.keys d) := by
  cases dicts with
  | none => constructor <;> simp [merge]
  | some d =>
    unfold merge
    by_cases h : name ∈ SDict.keys d
    · have : SDict.has d name = true := SDict.has_iff.2 h
      constructor <;> simp [this, h]
    · have : SDict.has d name = false := SDict.has_eq_false_iff.2 h
      constructor <;> simp [this, h]

/-- **C05** Otherwise the result holds the new block (if there is one) under its name and every old
block, unchanged, under its own name, and nothing else. -/
theorem C05_merge_lookup (dict : Option (SDict String V)) (dicts : Option (DDict V))
    (name : String) (hd : ∀ d, dicts = some d → SortedDicts d) (r : DDict V)
    (h : merge dict dicts name = .ok r) :
    SDict.Sorted r ∧
    SDict.get? r name = dict ∧
    ∀ k, k ≠ name → SDict.get? r k = dicts.bind (fun d => SDict.get? d k) := by
  have hno : ¬ ∃ d, dicts = some d ∧ name ∈ SDict.keys d :=
    (C05_merge_raises_iff dict dicts name).2.1 ⟨r, h⟩
  unfold merge at h
  · have hbase : SDict.Sorted (single dict name) := by
      cases dict with
      | none => simp [single]
      | some g => exact SDict.sorted_nil.set _ _
    have hget : ∀ k, SDict.get? (single dict name) k = if k = name then dict else none := by
      intro k
      cases dict with
      | none => simp [single]
      | some g => simp [single, SDict.set, SDict.get?_cons, eq_comm]
    cases dicts with
    | none =>
      simp only [Bool.false_eq_true, if_false, Except.ok.injEq] at h
      subst h
      refine ⟨hbase, ?_, ?_⟩
      · rw [hget]; simp
      · intro k hk; rw [hget]; simp [hk]
    | some d =>
      have hno' : name ∉ SDict.keys d := fun hm => hno ⟨d, rfl, hm⟩
      rw [if_neg (by simp [SDict.has_eq_false_iff.2 hno'])] at h
      simp only [Except.ok.injEq] at h
      subst h
      have hsd := hd d rfl
      refine ⟨sorted_foldl_set d copyDict _ hbase, ?_, ?_⟩
      · rw [get?_foldl_set d copyDict hsd.1 _ hbase]
        rw [SDict.get?_eq_none_iff.2 hno']
        simp [hget]
      · intro k hk
        rw [get?_foldl_set d copyDict hsd.1 _ hbase]
        cases hv : SDict.get? d k with
        | none => simp [hget, hk, hv]
        | some v =>
          have hm : (k, v) ∈ d := SDict.mem_of_get?_eq_some hv
          simp [copyDict_eq v (hsd.2 _ hm), hv]

example : SortedDicts sample ∧ merge (some [("q1", 7)]) (some sample) "b15"
    = .ok [("b1", [("q1", 1), ("q2", 2)]), ("b15", [("q1", 7)]), ("b2", [("q1", 3)]), ("b3", [])] :=
  ⟨by decide, by decide⟩

example : merge (none : Option (SDict String Nat)) (some sample) "b2" = .error .valueError := by decide

/-! ## C06 tuples for autograd -/

/-- **C06** The values of a dictionary of dictionaries are handed to autograd in iteration order,
one per (block, name) pair, and no pair occurs twice. -/
theorem C06_tuple_order (d : DDict V) (hd : SortedDicts d) :
    (slots d).Nodup ∧ (tupleOfDicts d).length = (slots d).length ∧
    ∀ (i : Nat) (b m : String), (slots d)[i]? = some (b, m) → (tupleOfDicts d)[i]? = lookup d b m := by
  refine ⟨nodup_slots d hd, by rw [tupleOfDicts_eq, slots_length], ?_⟩
  intro i b m h
  rw [lookup_slot d hd i b m h, tupleOfDicts_eq]

/-- **C06** Rebuilding from a tuple that is long enough puts the `i`-th entry under the (prefixed)
name of the `i`-th variable and creates no other entries; prefixing neither merges nor reorders. -/
theorem C06_extract_slots (tuple : List V) (d : DDict W) (hd : SortedDicts d) (pre : String)
    (hlen : (slots d).length ≤ tuple.length) :
    ∃ r, extractDicts tuple d pre = .ok r ∧ SortedDicts r ∧ SDict.keys r = SDict.keys d ∧
      slots r = (slots d).map (fun s => (s.1, pre ++ s.2)) ∧
      ∀ (i : Nat) (b m : String), (slots d)[i]? = some (b, m) → lookup r b (pre ++ m) = tuple[i]? := by
  refine ⟨_, by rw [extractDicts_eq tuple d hd, if_pos hlen],
    readBlocks_sorted tuple pre d hd 0 (by omega), keys_readBlocks _ _ _ _,
    readBlocks_slots tuple pre d 0 (by omega), ?_⟩
  intro i b m h
  have hi : i < (slots d).length := by
    by_contra hc
    rw [List.getElem?_eq_none (by omega)] at h; cases h
  rw [lookup_slot _ (readBlocks_sorted tuple pre d hd 0 (by omega)) i b (pre ++ m) (by
    rw [readBlocks_slots tuple pre d 0 (by omega), List.getElem?_map, h]; rfl)]
  rw [readBlocks_values tuple pre d 0 (by omega)]
  simp [hi]

/-- **C06** A tuple that is too short raises. -/
theorem C06_extract_short_raises (tuple : List V) (d : DDict W) (hd : SortedDicts d) (pre : String)
    (hlen : tuple.length < (slots d).length) :
    extractDicts tuple d pre = .error .indexError := by
  rw [extractDicts_eq tuple d hd, if_neg (by omega)]

/-- **C06** Flatten, apply any per-variable operation (the gradient of each variable), rebuild: the
result for each variable is stored under its own (prefixed) name, and nowhere else. -/
theorem C06_gradient_goes_home (g : V → W) (d : DDict V) (hd : SortedDicts d) (pre : String) :
    ∃ r, extractDicts ((tupleOfDicts d).map g) d pre = .ok r ∧
      slots r = (slots d).map (fun s => (s.1, pre ++ s.2)) ∧
      ∀ b m, (b, m) ∈ slots d → lookup r b (pre ++ m) = (lookup d b m).map g := by
  obtain ⟨h1, h2, h3⟩ := C06_tuple_order d hd
  obtain ⟨r, e, -, -, hs, hl⟩ := C06_extract_slots ((tupleOfDicts d).map g) d hd pre (by simp [h2])
  refine ⟨r, e, hs, ?_⟩
  intro b m hm
  obtain ⟨i, hi⟩ := List.mem_iff_getElem?.1 hm
  rw [hl i b m hi, List.getElem?_map, h3 i b m hi]

/-- **C06** With an empty prefix the round trip is the identity on the structure: gradients of all
variables in place of the variables. -/
theorem C06_roundtrip (g : V → W) (d : DDict V) (hd : SortedDicts d) :
    extractDicts ((tupleOfDicts d).map g) d ""
      = .ok (SDict.mapVals (fun b => SDict.mapVals g b) d) := by
  rw [extractDicts_eq _ d hd, if_pos (by rw [tupleOfDicts_eq, slots_length]; simp), tupleOfDicts_eq]
  congr 1
  have gen : ∀ (d : DDict V) (l : List W),
      readBlocks (l ++ (flatValues d).map g) "" d l.length
        = SDict.mapVals (fun b => SDict.mapVals g b) d := by
    intro d
    induction d with
    | nil => intro l; rfl
    | cons b d ih =>
      intro l
      have e2 : flatValues (b :: d) = b.2.values ++ flatValues d := by simp [flatValues]
      simp only [readBlocks, e2, List.map_append, String.empty_append, List.map_id_fun', id]
      have e3 : SDict.mapVals (fun b => SDict.mapVals g b) (b :: d)
          = (b.1, SDict.mapVals g b.2) :: SDict.mapVals (fun b => SDict.mapVals g b) d := rfl
      rw [e3]
      congr 1
      · congr 1
        rw [List.drop_left]
        have : ∀ (x : SDict String V) (t : List W),
            x.keys.zip (x.values.map g ++ t) = SDict.mapVals g x := by
          intro x
          induction x with
          | nil => intro t; rfl
          | cons p x ihx =>
            intro t
            have := ihx t
            simp only [SDict.values, SDict.mapVals] at this ⊢
            simpa using this
        exact this _ _
      · have := ih (l ++ b.2.values.map g)
        simp only [List.append_assoc, List.length_append, List.length_map] at this
        have hk : b.2.values.length = b.2.keys.length := by simp [SDict.values, SDict.keys]
        rw [hk] at this
        exact this
  exact gen d []

example : SortedDicts sample ∧ tupleOfDicts sample = [1, 2, 3] ∧
    extractDicts [10, 20, 30] sample "p_" =
      .ok [("b1", [("p_q1", 10), ("p_q2", 20)]), ("b2", [("p_q1", 30)]), ("b3", [])] :=
  ⟨by decide, by decide, by decide⟩

/-- **C06** The same for a single dictionary. -/
theorem C06_single_dict (tuple : List V) (d : SDict String W) (hd : SDict.Sorted d) (pre : String) :
    extractDict tuple d pre =
      if d.length ≤ tuple.length then
        .ok ((d.keys.map (fun k => pre ++ k)).zip tuple)
      else .error .indexError := by
  unfold extractDict
  have hk : d.keys.length = d.length := by simp [SDict.keys]
  rw [takeNext_loop tuple pre d.keys [] 0 (by simpa using sorted_prefix pre _ hd)]
  by_cases h : d.length ≤ tuple.length
  · rw [if_pos (by left; omega), if_pos h]
    simp [bind, Except.bind]
  · rw [if_neg (by
      rintro (h' | h')
      · omega
      · rw [h'] at hk; simp at hk; omega), if_neg h]
    rfl

/-- **C06** For a single dictionary: flatten, differentiate, rebuild. -/
theorem C06_single_dict_roundtrip (g : V → W) (d : SDict String V) (hd : SDict.Sorted d) :
    extractDict ((tupleOfDict d).map g) d "" = .ok (SDict.mapVals g d) := by
  rw [C06_single_dict _ d hd, tupleOfDict_eq, if_pos (by simp [SDict.values])]
  congr 1
  simp only [String.empty_append, List.map_id_fun', id]
  clear hd
  induction d with
  | nil => rfl
  | cons p d ih =>
    simp only [SDict.values, SDict.mapVals] at ih ⊢
    simpa using ih

/-- **C06** Parameter objects without `None` entries: the gradient of each parameter is stored under
the parameter's own (prefixed) name and nothing else is stored. -/
theorem C06_parameter_objects (g : V → W) (objs : DDict (Option V)) (hd : SortedDicts objs)
    (hnone : ∀ o ∈ objs, ∀ p ∈ o.2, p.2 ≠ none) (pre : String) :
    ∃ r, extractParameterObjects ((tupleOfParameterObjects objs).map g) objs pre = .ok r ∧
      slots r = (slots objs).map (fun s => (s.1, pre ++ s.2)) ∧
      ∀ o k v, lookup objs o k = some (some v) → lookup r o (pre ++ k) = some (g v) := by
  have hall : ∀ x ∈ flatValues objs, x ≠ none := by
    intro x hx
    simp only [flatValues, List.mem_flatMap, SDict.values, List.mem_map] at hx
    obtain ⟨o, ho, p, hp, rfl⟩ := hx
    exact hnone o ho p hp
  have hsome : ((flatValues objs).filterMap id).map some = flatValues objs := by
    revert hall
    generalize flatValues objs = l
    induction l with
    | nil => intro _; rfl
    | cons x l ih =>
      intro h
      simp only [List.mem_cons, forall_eq_or_imp] at h
      cases x with
      | none => exact absurd rfl h.1
      | some x => simpa using ih h.2
  have hlen : (tupleOfParameterObjects objs).length = (slots objs).length := by
    rw [tupleOfParameterObjects_eq, slots_length, ← congrArg List.length hsome]
    simp
  obtain ⟨r, e, -, -, hs, hl⟩ := C06_extract_slots ((tupleOfParameterObjects objs).map g) objs hd pre
    (by simp [hlen])
  refine ⟨r, e, hs, ?_⟩
  intro o k v hv
  obtain ⟨i, hi⟩ := List.mem_iff_getElem?.1 ((mem_slots_iff objs hd o k).2 ⟨_, hv⟩)
  rw [hl i o k hi, List.getElem?_map]
  have h2 := lookup_slot objs hd i o k hi
  rw [hv, ← hsome, List.getElem?_map] at h2
  rw [tupleOfParameterObjects_eq]
  cases hx : ((flatValues objs).filterMap id)[i]? with
  | none => rw [hx] at h2; cases h2
  | some x =>
    rw [hx] at h2
    simp only [Option.map_some, Option.some.injEq] at h2
    rw [h2]; rfl

/-- **C06** With a `None` parameter the two loops disagree (one skips it, the other does not), and
rebuilding always raises `IndexError`. -/
theorem C06_none_parameter_raises (g : V → W) (objs : DDict (Option V)) (hd : SortedDicts objs)
    (pre : String) (hnone : ∃ o k, lookup objs o k = some none) :
    extractParameterObjects ((tupleOfParameterObjects objs).map g) objs pre
      = .error .indexError := by
  refine C06_extract_short_raises ((tupleOfParameterObjects objs).map g) objs hd pre ?_
  rw [List.length_map, tupleOfParameterObjects_eq, slots_length]
  obtain ⟨o, k, h⟩ := hnone
  have hmem : (none : Option V) ∈ flatValues objs := by
    obtain ⟨i, hi⟩ := List.mem_iff_getElem?.1 ((mem_slots_iff objs hd o k).2 ⟨_, h⟩)
    have := lookup_slot objs hd i o k hi
    rw [h] at this
    exact List.mem_of_getElem? this.symm
  revert hmem
  generalize flatValues objs = l
  intro hmem
  induction l with
  | nil => cases hmem
  | cons x l ih =>
    cases x with
    | none =>
      have : (l.filterMap id).length ≤ l.length := List.length_filterMap_le _ _
      simp only [List.filterMap_cons, id, List.length_cons] at this ⊢; omega
    | some x =>
      rcases List.mem_cons.1 hmem with h | h
      · cases h
      · have := ih h
        simpa using this

example : let objs : DDict (Option Nat) := [("l1", [("bias", some 1), ("weight", some 2)])]
    SortedDicts objs ∧ extractParameterObjects [10, 20] objs "" =
      .ok [("l1", [("bias", 10), ("weight", 20)])] := ⟨by decide, by decide⟩

example : let objs : DDict (Option Nat) := [("l1", [("bias", none), ("weight", some 2)])]
    SortedDicts objs ∧ lookup objs "l1" "bias" = some none := ⟨by decide, by decide⟩

/-! ## C49 zero padding -/

section
variable {α : Type _} [Zero α]

/-- A tensor all of whose entries are zero. -/
def IsZero (t : Tensor α) : Prop := t.WF ∧ ∀ x ∈ t.data, x = 0

theorem isZero_zeros (sz : List Nat) : IsZero (zeros sz : Tensor α) := by
  constructor
  · simp [zeros, Tensor.WF]
  · intro x hx; exact List.eq_of_mem_replicate hx

/-- **C49** The zero data for a block's own state: one all-zero tensor per state key, shaped like the
data except that the data's concatenation dimension takes its size from that state tensor. -/
theorem C49_zero_data (state : SDict String (Tensor α)) (hst : SDict.Sorted state)
    (data : DDict (Tensor α)) (sd dd : Nat) (sample : List Nat)
    (hsample : sizeOfDicts data = .ok sample) (hdd : dd < sample.length)
    (hsd : ∀ p ∈ state, sd < p.2.shape.length) :
    ∃ r, zeroDataDict state data sd dd = .ok r ∧ SDict.keys r = SDict.keys state ∧
      ∀ k t, SDict.get? state k = some t → ∃ z, SDict.get? r k = some z ∧ IsZero z ∧
        z.shape.length = sample.length ∧ z.shape[dd]? = t.shape[sd]? ∧
        ∀ j, j ≠ dd → z.shape[j]? = sample[j]? := by
  have loop : ∀ (l : SDict String (Tensor α)) (acc : SDict String (Tensor α)) (tgt : List Nat),
      (∀ p ∈ l, sd < p.2.shape.length) → tgt.length = sample.length →
      (∀ j, j ≠ dd → tgt[j]? = sample[j]?) → SDict.Sorted (acc ++ l) →
      ∃ r tgt', l.foldlM (zeroDataStep sd dd) (acc, tgt) = .ok (acc ++ r, tgt') ∧
        SDict.keys r = SDict.keys l ∧
        ∀ k t, SDict.get? l k = some t → ∃ z, SDict.get? r k = some z ∧ IsZero z ∧
          z.shape.length = sample.length ∧ z.shape[dd]? = t.shape[sd]? ∧
          ∀ j, j ≠ dd → z.shape[j]? = sample[j]? := by
    intro l
    induction l with
    | nil =>
      intro acc tgt _ _ _ _
      exact ⟨[], tgt, by simp [pure, Except.pure], rfl, by intro k t h; cases h⟩
    | cons p l ih =>
      intro acc tgt hl hlen hsame hsort
      simp only [List.mem_cons, forall_eq_or_imp] at hl
      have hlt : ∀ x ∈ SDict.keys acc, x < p.1 := by
        rw [SDict.sorted_append] at hsort
        intro x hx
        exact hsort.2.2 x hx p.1 (by simp)
      have hstep : zeroDataStep sd dd (acc, tgt) p
          = .ok (acc ++ [(p.1, zeros (tgt.set dd p.2.shape[sd]))], tgt.set dd p.2.shape[sd]) := by
        simp only [zeroDataStep, List.getElem?_eq_getElem hl.1, listSet]
        rw [if_pos (by omega)]
        simp [bind, Except.bind, SDict.set_of_forall_lt hlt]
      obtain ⟨r, tgt', h1, h2, h3⟩ := ih (acc ++ [(p.1, zeros (tgt.set dd p.2.shape[sd]))])
        (tgt.set dd p.2.shape[sd]) hl.2 (by simpa using hlen)
        (by intro j hj; rw [List.getElem?_set_ne (by omega)]; exact hsame j hj)
        (by
          have : SDict.keys (acc ++ [(p.1, zeros (tgt.set dd p.2.shape[sd]))] ++ l)
            = SDict.keys (acc ++ p :: l) := by simp
          unfold SDict.Sorted at hsort ⊢
          rwa [this])
      refine ⟨(p.1, zeros (tgt.set dd p.2.shape[sd])) :: r, tgt', ?_, by simp [h2], ?_⟩
      · rw [List.foldlM_cons, hstep]
        change (List.foldlM _ _ l : Py _) = _
        rw [h1]; simp
      · intro k t hk
        rw [SDict.get?_cons] at hk ⊢
        by_cases hpk : p.1 = k
        · simp only [hpk, if_true, Option.some.injEq] at hk ⊢
          refine ⟨_, rfl, isZero_zeros _, by simpa [zeros] using hlen, ?_, ?_⟩
          · simp only [zeros]
            rw [List.getElem?_set_self (by omega), ← hk, List.getElem?_eq_getElem hl.1]
          · intro j hj
            simp only [zeros]
            rw [List.getElem?_set_ne (by omega)]; exact hsame j hj
        · simp only [hpk, if_false] at hk ⊢
          exact h3 k t hk
  obtain ⟨r, tgt', h1, h2, h3⟩ := loop state [] sample hsd rfl (fun _ _ => rfl) (by simpa using hst)
  refine ⟨r, ?_, h2, h3⟩
  simp only [zeroDataDict, hsample]
  change ((List.foldlM _ _ state : Py _) >>= _) = _
  rw [h1]
  rfl

omit [Zero α] in
/-- **C49** The data concatenation dimension: absent without a state, the state's dimension shifted
by the rank difference otherwise, and data of lower rank is rejected. -/
theorem C49_data_concat_dim (data : DDict (Tensor α)) (sdim : Nat) :
    dataConcatDim (none : Option (SDict String (Tensor α))) data sdim = .ok none ∧
    ∀ (k : String) (t : Tensor α) (s : SDict String (Tensor α)) (sample : List Nat),
      sizeOfDicts data = .ok sample →
      (sample.length < t.shape.length →
        dataConcatDim (some ((k, t) :: s)) data sdim = .error .valueError) ∧
      (t.shape.length ≤ sample.length →
        ∃ d, dataConcatDim (some ((k, t) :: s)) data sdim = .ok (some d) ∧
          d + t.shape.length = sdim + sample.length) := by
  refine ⟨rfl, ?_⟩
  intro k t s sample h
  simp only [dataConcatDim, sizeOfDict, h]
  constructor
  · intro hlt
    simp [bind, Except.bind, hlt]
  · intro hle
    refine ⟨_, by simp [bind, Except.bind, Nat.not_lt.2 hle]; rfl, by omega⟩

/-- **C49** Zero dictionaries with the batch size (and channel size) replaced. -/
theorem C49_zero_like (d : SDict String (Tensor α)) (hd : SDict.Sorted d) (batch channel : Nat) :
    (zeroDictLike d = SDict.mapVals (fun t => zeros t.shape) d) ∧
    ((∀ p ∈ d, 1 ≤ p.2.shape.length) →
      zeroDictBatch d batch = .ok (SDict.mapVals (fun t => zeros (t.shape.set 0 batch)) d)) ∧
    ((∀ p ∈ d, 2 ≤ p.2.shape.length) →
      zeroDictBatchChannel d batch channel
        = .ok (SDict.mapVals (fun t => zeros ((t.shape.set 0 batch).set 1 channel)) d)) := by
  have gen : ∀ (f : List Nat → Py (List Nat)) (g : List Nat → List Nat)
      (l acc : SDict String (Tensor α)), (∀ p ∈ l, f p.2.shape = .ok (g p.2.shape)) →
      SDict.Sorted (acc ++ l) →
      l.foldlM (fun (acc : SDict String (Tensor α)) p => do
        let sz ← f p.2.shape
        (.ok (acc.set p.1 (zeros sz)) : Py _)) acc
        = .ok (acc ++ SDict.mapVals (fun t => zeros (g t.shape)) l) := by
    intro f g l
    induction l with
    | nil => intro acc _ _; simp [SDict.mapVals, pure, Except.pure]
    | cons p l ih =>
      intro acc hf hsort
      simp only [List.mem_cons, forall_eq_or_imp] at hf
      have hlt : ∀ x ∈ SDict.keys acc, x < p.1 := by
        rw [SDict.sorted_append] at hsort
        intro x hx
        exact hsort.2.2 x hx p.1 (by simp)
      rw [List.foldlM_cons, hf.1]
      change (List.foldlM _ _ l : Py _) = _
      rw [ih _ hf.2]
      · rw [SDict.set_of_forall_lt hlt]
        simp [SDict.mapVals]
      · rw [SDict.set_of_forall_lt hlt]
        unfold SDict.Sorted at hsort ⊢
        simpa using hsort
  refine ⟨foldl_set_map d (fun t => zeros t.shape) hd, ?_, ?_⟩
  · intro h
    have := gen (fun s => listSet s 0 batch) (fun s => s.set 0 batch) d [] (by
      intro p hp
      simp only [listSet]
      rw [if_pos (by have := h p hp; omega)]) (by simpa using hd)
    simpa [zeroDictBatch] using this
  · intro h
    have := gen (fun s => do let sz ← listSet s 0 batch; listSet sz 1 channel)
      (fun s => (s.set 0 batch).set 1 channel) d [] (by
      intro p hp
      have := h p hp
      simp only [listSet]
      rw [if_pos (by omega)]
      simp only [bind, Except.bind]
      rw [if_pos (by simp; omega)]) (by simpa using hd)
    simp only [bind_assoc] at this
    simpa [zeroDictBatchChannel] using this

/-- A loop with a step that cannot succeed. -/
theorem foldlM_indexError {σ β : Type} (f : σ → β → Py σ) (I : σ → Prop) (hI : ∀ s b s', I s → f s b = .ok s' → I s') (he : ∀ s b e, f s b = .error e → e = .indexError) (l : List β)
    (hb : ∃ b ∈ l, ∀ s, I s → ∀ s', f s b ≠ .ok s') (s : σ) (hs : I s) : l.foldlM f s = .error .indexError := by
  induction l generalizing s with
  | nil => obtain ⟨_, h, _⟩ := hb; simp at h
  | cons a l ih =>
    rw [List.foldlM_cons]
    cases h : f s a with
    | error e' => rw [he s a e' h]; rfl
    | ok s' =>
      refine ih ?_ s' (hI s a s' hs h)
      obtain ⟨b, hm, hb⟩ := hb
      rcases List.mem_cons.1 hm with rfl | hm
      · exact absurd h (hb s hs s')
      · exact ⟨b, hm, hb⟩

theorem listSet_cases (l : List Nat) (i x : Nat) : (i < l.length ∧ listSet l i x = .ok (l.set i x)) ∨ (l.length ≤ i ∧ listSet l i x = .error .indexError) := by
  unfold listSet
  by_cases h : i < l.length
  · exact .inl ⟨h, if_pos h⟩
  · exact .inr ⟨by omega, if_neg h⟩

/-- **C49.** A dimension that does not exist is an `IndexError`, never zeros of another size: the dimension of the data, the dimension of one of the states, and the first two dimensions for the dictionaries with another batch
or channel size. -/
theorem C49_dimension_rejected (state : SDict String (Tensor α)) (data : DDict (Tensor α)) (sd dd : Nat) (sample : List Nat) (hsample : sizeOfDicts data = .ok sample) (batch channel : Nat) :
    (state ≠ [] → sample.length ≤ dd → zeroDataDict state data sd dd = .error .indexError) ∧
    ((∃ p ∈ state, p.2.shape.length ≤ sd) → zeroDataDict state data sd dd = .error .indexError) ∧
    ((∃ p ∈ state, p.2.shape.length = 0) → zeroDictBatch state batch = .error .indexError) ∧
    ((∃ p ∈ state, p.2.shape.length < 2) → zeroDictBatchChannel state batch channel = .error .indexError) := by
  have step : ∀ (s : SDict String (Tensor α) × List Nat) (b : String × Tensor α), (∃ n, b.2.shape[sd]? = some n ∧ dd < s.2.length ∧ zeroDataStep sd dd s b = .ok (s.1.set b.1 (zeros (s.2.set dd n)), s.2.set dd n)) ∨
      ((b.2.shape.length ≤ sd ∨ s.2.length ≤ dd) ∧ zeroDataStep sd dd s b = .error .indexError) := by
    intro s b
    unfold zeroDataStep
    cases h : b.2.shape[sd]? with
    | none => exact .inr ⟨.inl (List.getElem?_eq_none_iff.1 h), rfl⟩
    | some n =>
      rcases listSet_cases s.2 dd n with ⟨h1, h2⟩ | ⟨h1, h2⟩
      · exact .inl ⟨n, rfl, h1, by simp only [h2, bind, Except.bind]⟩
      · exact .inr ⟨.inr h1, by simp only [h2, bind, Except.bind]⟩
  have run : ∀ (hb : ∃ b ∈ state, ∀ s : SDict String (Tensor α) × List Nat, s.2.length = sample.length → ∀ s', zeroDataStep sd dd s b ≠ .ok s'), zeroDataDict state data sd dd = .error .indexError := by
    intro hb
    have := foldlM_indexError (zeroDataStep sd dd) (fun s => s.2.length = sample.length) (fun s b s' hs h => ?_) (fun s b e h => ?_) state hb ([], sample) rfl
    · simp only [zeroDataDict, hsample, this, bind, Except.bind]
    · rcases step s b with ⟨n, _, _, e⟩ | ⟨_, e⟩
      · rw [e] at h
        obtain rfl := Except.ok.inj h
        simpa using hs
      · rw [e] at h; cases h
    · rcases step s b with ⟨n, _, _, e'⟩ | ⟨_, e'⟩
      · rw [e'] at h; cases h
      · rw [e'] at h; exact (Except.error.inj h).symm
  refine ⟨fun hne hdd => run ?_, fun ⟨p, hp, hl⟩ => run ⟨p, hp, fun s _ s' h => ?_⟩, fun ⟨p, hp, hl⟩ => ?_, fun ⟨p, hp, hl⟩ => ?_⟩
  · obtain ⟨p, l, rfl⟩ := List.exists_cons_of_ne_nil hne
    refine ⟨p, List.mem_cons_self, fun s hs s' h => ?_⟩
    rcases step s p with ⟨n, _, hlt, _⟩ | ⟨_, e⟩
    · omega
    · rw [e] at h; cases h
  · rcases step s p with ⟨n, hn, _, _⟩ | ⟨_, e⟩
    · rw [List.getElem?_eq_none hl] at hn; cases hn
    · rw [e] at h; cases h
  · refine foldlM_indexError _ (fun _ => True) (fun _ _ _ _ _ => trivial) (fun s b e h => ?_) state ⟨p, hp, fun s _ s' h => ?_⟩ [] trivial
    · rcases listSet_cases b.2.shape 0 batch with ⟨_, h2⟩ | ⟨_, h2⟩ <;> simp only [h2, bind, Except.bind] at h <;> cases h
      rfl
    · rcases listSet_cases p.2.shape 0 batch with ⟨h1, _⟩ | ⟨_, h2⟩
      · omega
      · simp only [h2, bind, Except.bind] at h; cases h
  · refine foldlM_indexError _ (fun _ => True) (fun _ _ _ _ _ => trivial) (fun s b e h => ?_) state ⟨p, hp, fun s _ s' h => ?_⟩ [] trivial
    · rcases listSet_cases b.2.shape 0 batch with ⟨_, h2⟩ | ⟨_, h2⟩
      · rcases listSet_cases (b.2.shape.set 0 batch) 1 channel with ⟨_, h3⟩ | ⟨_, h3⟩ <;> simp only [h2, h3, bind, Except.bind] at h <;> cases h
        rfl
      · simp only [h2, bind, Except.bind] at h; cases h; rfl
    · rcases listSet_cases p.2.shape 0 batch with ⟨_, h2⟩ | ⟨_, h2⟩
      · rcases listSet_cases (p.2.shape.set 0 batch) 1 channel with ⟨h1, _⟩ | ⟨_, h3⟩
        · rw [List.length_set] at h1; omega
        · simp only [h2, h3, bind, Except.bind] at h; cases h
      · simp only [h2, bind, Except.bind] at h; cases h

/-- One past the end. -/
example : zeroDataDict [("q1", (⟨[2, 3], [1, 2, 3, 4, 5, 6]⟩ : Tensor Int))] [("b", [("q1", ⟨[4, 3], List.replicate 12 0⟩)])] 1 2 = .error .indexError :=
  (C49_dimension_rejected _ _ 1 2 [4, 3] rfl 0 0).1 (by simp) (by decide)

omit [Zero α] in
/-- **C49** The sizes are those of the first tensor of the first block: the batch size is its first, the channel size its second
dimension; with too few dimensions, no block, or an empty first block, `IndexError`. -/
theorem C49_sizes (b k : String) (t : Tensor α) (d : SDict String (Tensor α)) (bs : DDict (Tensor α)) :
    sizeOfDicts ((b, (k, t) :: d) :: bs) = .ok t.shape ∧
    (∀ n sz, t.shape = n :: sz → batchSizeOfDicts ((b, (k, t) :: d) :: bs) = .ok n) ∧
    (∀ n c sz, t.shape = n :: c :: sz → channelSizeOfDicts ((b, (k, t) :: d) :: bs) = .ok c) ∧
    (t.shape = [] → batchSizeOfDicts ((b, (k, t) :: d) :: bs) = .error .indexError) ∧
    (t.shape.length < 2 → channelSizeOfDicts ((b, (k, t) :: d) :: bs) = .error .indexError) ∧
    (∀ e ∈ [([] : DDict (Tensor α)), (b, []) :: bs], sizeOfDicts e = .error .indexError ∧
      batchSizeOfDicts e = .error .indexError ∧ channelSizeOfDicts e = .error .indexError) := by
  refine ⟨rfl, ?_, ?_, ?_, ?_, ?_⟩
  · intro n sz h
    simp [batchSizeOfDicts, sizeOfDicts, sizeOfDict, bind, Except.bind, h]
  · intro n c sz h
    simp [channelSizeOfDicts, sizeOfDicts, sizeOfDict, bind, Except.bind, h]
  · intro h
    simp [batchSizeOfDicts, sizeOfDicts, sizeOfDict, bind, Except.bind, h]
  · intro h
    have : t.shape[1]? = none := List.getElem?_eq_none (by omega)
    simp [channelSizeOfDicts, sizeOfDicts, sizeOfDict, bind, Except.bind, this]
  · intro e he
    simp only [List.mem_cons, List.not_mem_nil, or_false] at he
    rcases he with rfl | rfl <;> exact ⟨rfl, rfl, rfl⟩

example : let d : DDict (Tensor Int) := [("b", [("q1", ⟨[2, 1, 1], [7, 8]⟩)])]
    batchSizeOfDicts d = .ok 2 ∧ channelSizeOfDicts d = .ok 1 := ⟨by decide, by decide⟩

example : let state : SDict String (Tensor Int) := [("q1", ⟨[3, 1, 2], [1, 2, 3, 4, 5, 6]⟩)]
    let data : DDict (Tensor Int) := [("d", [("q1", ⟨[2, 1, 1], [7, 8]⟩)])]
    SDict.Sorted state ∧ sizeOfDicts data = .ok [2, 1, 1] ∧
    zeroDataDict state data 2 2 = .ok [("q1", ⟨[2, 1, 2], [0, 0, 0, 0]⟩)] ∧
    dataConcatDim (some state) data 2 = .ok (some 2) := ⟨by decide, rfl, by decide, by decide⟩

end

/-! ## C50 extracting a key -/

/-- **C50** From a single block the value is returned directly, and a missing key raises. -/
theorem C50_single_block (b key : String) (d : SDict String V) :
    extractKey [(b, d)] key = match SDict.get? d key with
      | some x => .ok (.value x)
      | none => .error .indexError := by
  cases h : SDict.get? d key <;> simp [extractKey, onlyKey, SDict.set, h]

/-- **C50** From several blocks (or none) the result has the same block names and each block holds
exactly its entry for the key, if it has one. -/
theorem C50_several_blocks (d : DDict V) (hd : SortedDicts d) (key : String) (hlen : d.length ≠ 1) :
    ∃ r, extractKey d key = .ok (.blocks r) ∧ SDict.keys r = SDict.keys d ∧
      ∀ b m, lookup r b m = if m = key then lookup d b key else none := by
  let f : SDict String V → SDict String V := onlyKey key
  have hret : d.foldl (fun acc b => SDict.set acc b.1 (f b.2)) [] = SDict.mapVals f d :=
    foldl_set_map d f hd.1
  refine ⟨SDict.mapVals f d, ?_, by simp, ?_⟩
  · have hl : (SDict.mapVals f d).length = d.length := by simp [SDict.mapVals]
    unfold extractKey
    change (match (d.foldl (fun acc b => SDict.set acc b.1 (f b.2)) []) with
      | [b] => _
      | _ => _) = _
    rw [hret]
    split
    · next h => rw [h] at hl; simp at hl; omega
    · rfl
  · intro b m
    simp only [lookup, SDict.get?_mapVals]
    cases hb : SDict.get? d b with
    | none => simp
    | some x =>
      simp only [Option.map_some, Option.bind_some, f, onlyKey]
      cases hx : SDict.get? x key with
      | none => simp
      | some v => simp [SDict.set, SDict.get?_cons, eq_comm]

example : SortedDicts sample ∧ sample.length ≠ 1 ∧
    extractKey sample "q2" = .ok (.blocks [("b1", [("q2", 2)]), ("b2", []), ("b3", [])]) :=
  ⟨by decide, by decide, by decide⟩

end Verif.Dicts
