import Verif.Dicts.Spec

namespace Verif.Dicts
open Verif

variable {V W : Type _}

theorem copyDict_eq (d : SDict String V) (h : SDict.Sorted d) : copyDict d = d :=
  SDict.foldl_set_eq h

/-! ## Loops that assign all keys -/

section
variable {K : Type _} [LinearOrder K]

/-- Lookup after a loop that assigns `f p` under `p.1` for all items. -/
theorem get?_foldl_set (l : SDict K V) (f : V → W) (hl : SDict.Sorted l) (acc : SDict K W)
    (hacc : SDict.Sorted acc) (k : K) :
    SDict.get? (l.foldl (fun a p => SDict.set a p.1 (f p.2)) acc) k =
      match SDict.get? l k with
      | some v => some (f v)
      | none => SDict.get? acc k := by
  induction l generalizing acc with
  | nil => rfl
  | cons p l ih =>
    rw [List.foldl_cons, ih hl.tail _ (hacc.set _ _), SDict.get?_cons, SDict.get?_set _ hacc]
    have h0 := SDict.sorted_cons.1 hl
    by_cases h : p.1 = k
    · subst h
      rw [SDict.get?_eq_none_iff.2 (fun hm => lt_irrefl _ (h0.1 _ hm))]
      simp
    · simp [h]

theorem sorted_foldl_set (l : SDict K V) (f : V → W) (acc : SDict K W) (hacc : SDict.Sorted acc) :
    SDict.Sorted (l.foldl (fun a p => SDict.set a p.1 (f p.2)) acc) := by
  induction l generalizing acc with
  | nil => exact hacc
  | cons p l ih => exact ih _ (hacc.set _ _)

theorem foldl_set_map_append (l : SDict K V) (f : V → W) (acc : SDict K W)
    (h : SDict.Sorted (acc ++ SDict.mapVals f l)) :
    l.foldl (fun a p => SDict.set a p.1 (f p.2)) acc = acc ++ SDict.mapVals f l := by
  have := SDict.foldl_set_eq_append h
  rw [← this]
  simp only [SDict.mapVals, List.foldl_map]

theorem foldl_set_map (l : SDict K V) (f : V → W) (h : SDict.Sorted l) :
    l.foldl (fun a p => SDict.set a p.1 (f p.2)) [] = SDict.mapVals f l := by
  simpa using foldl_set_map_append l f [] (by simpa using h.mapVals f)

end

/-! ## Tuples -/

theorem tupleOfDict_eq (d : SDict String V) : tupleOfDict d = d.values := by
  have : ∀ (l : SDict String V) (acc : List V),
      l.foldl (fun acc p => acc ++ [p.2]) acc = acc ++ l.values := by
    intro l
    induction l with
    | nil => intro acc; simp [SDict.values]
    | cons p l ih => intro acc; rw [List.foldl_cons, ih]; simp [SDict.values]
  exact (this d []).trans (by simp)

theorem inner_tuple (l : SDict String V) (acc : List V) :
    l.foldl (fun acc p => acc ++ [p.2]) acc = acc ++ l.values := by
  induction l generalizing acc with
  | nil => simp [SDict.values]
  | cons p l ih => rw [List.foldl_cons, ih]; simp [SDict.values]

theorem tupleOfDicts_eq (d : DDict V) : tupleOfDicts d = flatValues d := by
  have : ∀ (l : DDict V) (acc : List V),
      l.foldl (fun acc b => b.2.foldl (fun acc p => acc ++ [p.2]) acc) acc
        = acc ++ flatValues l := by
    intro l
    induction l with
    | nil => intro acc; simp [flatValues]
    | cons p l ih => intro acc; rw [List.foldl_cons, ih, inner_tuple]; simp [flatValues]
  exact (this d []).trans (by simp)

theorem tupleOfParameterObjects_eq (d : DDict (Option V)) :
    tupleOfParameterObjects d = (flatValues d).filterMap id := by
  have h1 : ∀ (l : SDict String (Option V)) (acc : List V),
      l.foldl (fun acc p => match p.2 with
        | none => acc
        | some x => acc ++ [x]) acc = acc ++ l.values.filterMap id := by
    intro l
    induction l with
    | nil => intro acc; simp [SDict.values]
    | cons p l ih =>
      intro acc
      obtain ⟨k, v⟩ := p
      rw [List.foldl_cons, ih]
      cases v <;> simp [SDict.values]
  have h2 : ∀ (l : DDict (Option V)) (acc : List V),
      l.foldl (fun acc o => o.2.foldl (fun acc p => match p.2 with
        | none => acc
        | some x => acc ++ [x]) acc) acc = acc ++ (flatValues l).filterMap id := by
    intro l
    induction l with
    | nil => intro acc; simp [flatValues]
    | cons p l ih =>
      intro acc
      rw [List.foldl_cons, ih, h1]
      simp [flatValues, List.filterMap_append]
  have := h2 d []
  simp only [List.nil_append] at this
  exact this

theorem slots_length (d : DDict V) : (slots d).length = (flatValues d).length := by
  induction d with
  | nil => rfl
  | cons b d ih =>
    have e1 : slots (b :: d) = b.2.keys.map (fun m => (b.1, m)) ++ slots d := by simp [slots]
    have e2 : flatValues (b :: d) = b.2.values ++ flatValues d := by simp [flatValues]
    rw [e1, e2, List.length_append, List.length_append, ih]
    simp [SDict.keys, SDict.values]

/-- In a sorted dictionary of dictionaries the `i`-th slot holds the `i`-th value. -/
theorem lookup_slot (d : DDict V) (hd : SortedDicts d) (i : Nat) (b m : String)
    (h : (slots d)[i]? = some (b, m)) : lookup d b m = (flatValues d)[i]? := by
  let flat : List ((String × String) × V) := d.flatMap (fun b => b.2.map (fun p => ((b.1, p.1), p.2)))
  have e1 : slots d = flat.map Prod.fst := by
    simp [slots, flat, List.map_flatMap, SDict.keys, Function.comp_def]
  have e2 : flatValues d = flat.map Prod.snd := by
    simp [flatValues, flat, List.map_flatMap, SDict.values, Function.comp_def]
  rw [e1, List.getElem?_map] at h
  rw [e2, List.getElem?_map]
  cases hx : flat[i]? with
  | none => rw [hx] at h; cases h
  | some x =>
    rw [hx] at h
    simp only [Option.map_some, Option.some.injEq] at h
    have hm : x ∈ flat := List.mem_of_getElem? hx
    simp only [flat, List.mem_flatMap, List.mem_map] at hm
    obtain ⟨blk, hb, p, hp, rfl⟩ := hm
    simp only [Prod.mk.injEq] at h
    obtain ⟨rfl, rfl⟩ := h
    simp only [lookup, Option.map_some]
    rw [SDict.get?_eq_some_of_mem hd.1.nodup (k := blk.1) (v := blk.2) hb]
    simp only [Option.bind_some]
    exact SDict.get?_eq_some_of_mem (hd.2 blk hb).nodup hp

theorem mem_slots_iff (d : DDict V) (hd : SortedDicts d) (b m : String) :
    (b, m) ∈ slots d ↔ ∃ v, lookup d b m = some v := by
  constructor
  · intro h
    obtain ⟨i, hi⟩ := List.mem_iff_getElem?.1 h
    rw [lookup_slot d hd i b m hi]
    have : i < (flatValues d).length := by
      rw [← slots_length]
      by_contra hc
      rw [List.getElem?_eq_none (by omega)] at hi
      cases hi
    exact ⟨_, List.getElem?_eq_getElem this⟩
  · rintro ⟨v, hv⟩
    unfold lookup at hv
    cases hb : SDict.get? d b with
    | none => rw [hb] at hv; cases hv
    | some x =>
      rw [hb] at hv
      simp only [Option.bind_some] at hv
      simp only [slots, List.mem_flatMap, List.mem_map, Prod.mk.injEq]
      exact ⟨(b, x), SDict.mem_of_get?_eq_some hb, m,
        SDict.mem_keys_of_mem (SDict.mem_of_get?_eq_some hv), rfl, rfl⟩

theorem nodup_slots (d : DDict V) (hd : SortedDicts d) : (slots d).Nodup := by
  obtain ⟨ho, hi⟩ := hd
  induction d with
  | nil => simp [slots]
  | cons b d ih =>
    have e1 : slots (b :: d) = b.2.keys.map (fun m => (b.1, m)) ++ slots d := by simp [slots]
    have h0 := SDict.sorted_cons.1 ho
    rw [e1, List.nodup_append]
    refine ⟨?_, ih h0.2 (fun x hx => hi x (List.mem_cons_of_mem _ hx)), ?_⟩
    · unfold List.Nodup
      rw [List.pairwise_map]
      refine (hi b (by simp)).nodup.imp ?_
      intro x y h; simpa using h
    · intro x hx y hy hxy
      subst hxy
      obtain ⟨m, -, rfl⟩ := List.mem_map.1 hx
      simp only [slots, List.mem_flatMap, List.mem_map, Prod.mk.injEq] at hy
      obtain ⟨c, hc, m', -, hcb, -⟩ := hy
      have := h0.1 c.1 (SDict.mem_keys_of_mem hc)
      rw [hcb] at this
      exact lt_irrefl _ this

/-! ## Extraction from tuples -/

theorem sorted_prefix (pre : String) (ks : List String) (h : ks.Pairwise (· < ·)) :
    (ks.map (fun k => pre ++ k)).Pairwise (· < ·) := by
  rw [List.pairwise_map]
  exact h.imp (fun hab => (SDict.prefix_lt_prefix_iff pre _ _).2 hab)

theorem keys_zip (ks : List String) (l : List V) (h : ks.length ≤ l.length) :
    SDict.keys (ks.zip l) = ks := by
  simp [SDict.keys, List.map_fst_zip h]

theorem values_zip (ks : List String) (l : List V) :
    SDict.values (ks.zip l) = l.take ks.length := by
  induction ks generalizing l with
  | nil => simp [SDict.values]
  | cons k ks ih =>
    cases l with
    | nil => simp [SDict.values]
    | cons x l =>
      have := ih l
      simp only [SDict.values] at this
      simp [SDict.values, this]

theorem takeNext_loop (tuple : List V) (pre : String) (ks : List String) (acc : SDict String V)
    (i : Nat) (hs : (SDict.keys acc ++ ks.map (fun k => pre ++ k)).Pairwise (· < ·)) :
    ks.foldlM (takeNext tuple pre) (acc, i) =
      if i + ks.length ≤ tuple.length ∨ ks = [] then
        .ok (acc ++ (ks.map (fun k => pre ++ k)).zip (tuple.drop i), i + ks.length)
      else .error .indexError := by
  induction ks generalizing acc i with
  | nil => simp [pure, Except.pure]
  | cons k ks ih =>
    rw [List.foldlM_cons]
    simp only [reduceCtorEq, or_false, List.length_cons]
    by_cases hi : i < tuple.length
    · have e : takeNext tuple pre (acc, i) k = .ok (acc ++ [(pre ++ k, tuple[i])], i + 1) := by
        have hlt : ∀ x ∈ SDict.keys acc, x < pre ++ k := by
          rw [List.pairwise_append] at hs
          intro x hx
          exact hs.2.2 x hx (pre ++ k) (by simp)
        simp [takeNext, List.getElem?_eq_getElem hi, SDict.set_of_forall_lt hlt]
      rw [e]
      change (List.foldlM _ _ ks : Py _) = _
      rw [ih _ _ (by simpa using hs)]
      have hdrop : tuple.drop i = tuple[i] :: tuple.drop (i + 1) := List.drop_eq_getElem_cons hi
      by_cases hk : i + (ks.length + 1) ≤ tuple.length
      · rw [if_pos (by left; omega), if_pos hk, hdrop]
        simp only [List.map_cons, List.zip_cons_cons, List.append_assoc, List.cons_append,
          List.nil_append, Nat.add_assoc, Nat.add_comm 1]
      · rw [if_neg (by
          rintro (h | h)
          · omega
          · subst h; simp at hk; omega), if_neg hk]
    · have e : takeNext tuple pre (acc, i) k = .error .indexError := by
        simp [takeNext, List.getElem?_eq_none (Nat.not_lt.1 hi)]
      rw [e, if_neg (by omega)]
      rfl

/-- Result of reading the blocks from position `i`. -/
def readBlocks (tuple : List V) (pre : String) : DDict W → Nat → DDict V
  | [], _ => []
  | b :: d, i => (b.1, (b.2.keys.map (fun k => pre ++ k)).zip (tuple.drop i)) ::
      readBlocks tuple pre d (i + b.2.keys.length)

@[simp] theorem keys_readBlocks (tuple : List V) (pre : String) (d : DDict W) (i : Nat) :
    SDict.keys (readBlocks tuple pre d i) = SDict.keys d := by
  induction d generalizing i with
  | nil => rfl
  | cons b d ih => simp [readBlocks, ih]

theorem slots_cons (b : String × SDict String V) (d : DDict V) :
    slots (b :: d) = b.2.keys.map (fun m => (b.1, m)) ++ slots d := by simp [slots]

theorem takeBlock_loop (tuple : List V) (pre : String) (d : DDict W) (hd : ∀ b ∈ d, SDict.Sorted b.2)
    (acc : DDict V) (i : Nat) (hs : (SDict.keys acc ++ SDict.keys d).Pairwise (· < ·)) :
    d.foldlM (takeBlock tuple pre) (acc, i) =
      if i + (slots d).length ≤ tuple.length ∨ slots d = [] then
        .ok (acc ++ readBlocks tuple pre d i, i + (slots d).length)
      else .error .indexError := by
  induction d generalizing acc i with
  | nil => simp [readBlocks, slots, pure, Except.pure]
  | cons b d ih =>
    rw [List.foldlM_cons]
    have hb : b.2.keys.foldlM (takeNext tuple pre) (([] : SDict String V), i) =
      if i + b.2.keys.length ≤ tuple.length ∨ b.2.keys = [] then
        .ok ((b.2.keys.map (fun k => pre ++ k)).zip (tuple.drop i), i + b.2.keys.length)
      else .error .indexError := by
      have := takeNext_loop tuple pre b.2.keys [] i (by
        simpa using sorted_prefix pre _ (hd b (by simp)))
      simpa using this
    have hlen : (slots (b :: d)).length = b.2.keys.length + (slots d).length := by
      simp [slots_cons]
    by_cases h1 : i + b.2.keys.length ≤ tuple.length ∨ b.2.keys = []
    · have e : takeBlock tuple pre (acc, i) b
          = .ok (acc ++ [(b.1, (b.2.keys.map (fun k => pre ++ k)).zip (tuple.drop i))],
              i + b.2.keys.length) := by
        have hlt : ∀ x ∈ SDict.keys acc, x < b.1 := by
          rw [List.pairwise_append] at hs
          intro x hx
          exact hs.2.2 x hx b.1 (by simp)
        simp only [takeBlock, hb, if_pos h1]
        simp [bind, Except.bind, SDict.set_of_forall_lt hlt]
      rw [e]
      change (List.foldlM _ _ d : Py _) = _
      rw [ih (fun c hc => hd c (List.mem_cons_of_mem _ hc)) _ _ (by simpa using hs)]
      by_cases h2 : i + (slots (b :: d)).length ≤ tuple.length ∨ slots (b :: d) = []
      · rw [if_pos h2, if_pos]
        · simp [readBlocks, hlen, Nat.add_assoc]
        · rcases h2 with h2 | h2
          · left; omega
          · right
            rw [slots_cons] at h2
            exact (List.append_eq_nil_iff.1 h2).2
      · rw [if_neg h2, if_neg]
        intro h3
        apply h2
        rcases h3 with h3 | h3
        · left; omega
        · rcases h1 with h1 | h1
          · left; rw [hlen, h3]; simpa using h1
          · right; rw [slots_cons, h1, h3]; rfl
    · have e : takeBlock tuple pre (acc, i) b = .error .indexError := by
        simp only [takeBlock, hb, if_neg h1]
        rfl
      rw [e, if_neg]
      · rfl
      · rintro (h | h)
        · apply h1; left; omega
        · apply h1; right
          rw [slots_cons] at h
          simpa using (List.append_eq_nil_iff.1 h).1

theorem extractDicts_eq (tuple : List V) (d : DDict W) (hd : SortedDicts d) (pre : String) :
    extractDicts tuple d pre =
      if (slots d).length ≤ tuple.length then .ok (readBlocks tuple pre d 0)
      else .error .indexError := by
  unfold extractDicts
  rw [takeBlock_loop tuple pre d hd.2 [] 0 (by
    have := hd.1; unfold SDict.Sorted at this; simpa using this)]
  by_cases h : (slots d).length ≤ tuple.length
  · rw [if_pos (by left; omega), if_pos h]
    simp [bind, Except.bind]
  · rw [if_neg (by
      rintro (h' | h')
      · omega
      · rw [h'] at h; simp at h), if_neg h]
    rfl

theorem readBlocks_values (tuple : List V) (pre : String) (d : DDict W) (i : Nat)
    (h : i + (slots d).length ≤ tuple.length) :
    flatValues (readBlocks tuple pre d i) = (tuple.drop i).take (slots d).length := by
  induction d generalizing i with
  | nil => simp [readBlocks, flatValues, slots]
  | cons b d ih =>
    have hlen : (slots (b :: d)).length = b.2.keys.length + (slots d).length := by
      simp [slots_cons]
    have e : flatValues (readBlocks tuple pre (b :: d) i)
        = SDict.values ((b.2.keys.map (fun k => pre ++ k)).zip (tuple.drop i))
          ++ flatValues (readBlocks tuple pre d (i + b.2.keys.length)) := by
      simp [readBlocks, flatValues]
    rw [e, ih _ (by omega), hlen, List.take_add, List.drop_drop]
    congr 1
    rw [values_zip]
    simp

theorem readBlocks_slots (tuple : List V) (pre : String) (d : DDict W) (i : Nat)
    (h : i + (slots d).length ≤ tuple.length) :
    slots (readBlocks tuple pre d i) = (slots d).map (fun s => (s.1, pre ++ s.2)) := by
  induction d generalizing i with
  | nil => rfl
  | cons b d ih =>
    have hlen : (slots (b :: d)).length = b.2.keys.length + (slots d).length := by
      simp [slots_cons]
    simp only [readBlocks, slots_cons, List.map_append]
    rw [ih _ (by omega), keys_zip _ _ (by simp; omega)]
    simp

theorem readBlocks_sorted (tuple : List V) (pre : String) (d : DDict W) (hd : SortedDicts d)
    (i : Nat) (h : i + (slots d).length ≤ tuple.length) :
    SortedDicts (readBlocks tuple pre d i) := by
  constructor
  · have := hd.1
    unfold SDict.Sorted at this ⊢
    rwa [keys_readBlocks]
  · have h2 := hd.2
    clear hd
    induction d generalizing i with
    | nil => intro b hb; cases hb
    | cons b d ih =>
      have hlen : (slots (b :: d)).length = b.2.keys.length + (slots d).length := by
        simp [slots_cons]
      intro c hc
      rcases List.mem_cons.1 hc with rfl | hc
      · unfold SDict.Sorted
        rw [keys_zip _ _ (by simp; omega)]
        exact sorted_prefix pre _ (h2 b (by simp))
      · exact ih _ (by omega) (fun x hx => h2 x (List.mem_cons_of_mem _ hx)) c hc

end Verif.Dicts
