import Verif.Block.Props

/-!
# Chains of blocks: vocabulary and lemmas
-/

namespace Verif.Block
open Verif Tensor

variable {α T Θ R : Type}

/-- A family of dictionaries: common keys, and a common shape per key up to the size in dimension `dim`. -/
structure Fam where
  dim : Nat
  keys : List String
  base : String → List Nat

/-- A reasonable family. -/
structure Fam.Good (F : Fam) : Prop where
  keys_ne : F.keys ≠ []
  dim_lt : ∀ k ∈ F.keys, F.dim < (F.base k).length
  dim_le : F.dim ≤ 4

/-- The dictionary belongs to the family; the tensor of key `k` has size `w k` in dimension `F.dim`. -/
structure Has (F : Fam) (w : String → Nat) (d : TDict α) : Prop where
  sorted : SDict.Sorted d
  keys : SDict.keys d = F.keys
  shape : ∀ p ∈ d, p.2.WF ∧ p.2.shape = (F.base p.1).set F.dim (w p.1)

theorem Has.mem_keys {F : Fam} {w : String → Nat} {d : TDict α} (h : Has F w d) {p : String × Tensor α} (hp : p ∈ d) : p.1 ∈ F.keys := by
  rw [← h.keys]
  exact List.mem_map_of_mem hp

theorem Has.ne {F : Fam} {w : String → Nat} {d : TDict α} (hF : F.Good) (h : Has F w d) : d ≠ [] := by
  rintro rfl
  exact hF.keys_ne h.keys.symm

theorem Has.congr {F : Fam} {w w' : String → Nat} {d : TDict α} (h : Has F w d) (hw : ∀ k ∈ F.keys, w k = w' k) : Has F w' d :=
  ⟨h.sorted, h.keys, fun p hp => ⟨(h.shape p hp).1, by rw [(h.shape p hp).2, hw _ (h.mem_keys hp)]⟩⟩

/-- Two blocks in the order of their names. -/
def pair {V : Type} (a b : String × V) : SDict String V := if a.1 < b.1 then [a, b] else [b, a]

theorem set_single {V : Type} (a b : String × V) (h : a.1 ≠ b.1) : SDict.set [a] b.1 b.2 = pair a b := by
  unfold pair
  obtain ⟨x, u⟩ := a
  obtain ⟨y, v⟩ := b
  dsimp only at h ⊢
  simp only [SDict.set]
  rcases lt_trichotomy x y with hl | he | hl
  · rw [if_neg (not_lt.2 hl.le), if_neg h, if_pos hl]
  · exact absurd he h
  · rw [if_pos hl, if_neg (not_lt.2 hl.le)]

theorem mem_pair {V : Type} (a b c : String × V) : c ∈ pair a b ↔ c = a ∨ c = b := by
  unfold pair
  split
  · simp
  · simp [or_comm]

theorem sum_pair {V : Type} (a b : String × V) (f : String × V → Nat) : ((pair a b).map f).sum = f a + f b := by
  unfold pair
  split
  · simp
  · simp [Nat.add_comm]

theorem pair_ne_nil {V : Type} (a b : String × V) : pair a b ≠ [] := by
  unfold pair
  split <;> simp

theorem length_pair {V : Type} (a b : String × V) : (pair a b).length = 2 := by
  unfold pair
  split <;> rfl

theorem sorted_pair {V : Type} (a b : String × V) (h : a.1 ≠ b.1) : SDict.Sorted (pair a b) := by
  rw [← set_single a b h]
  exact SDict.Sorted.set (by simp [SDict.Sorted]) _ _

theorem keys_pair {V W : Type} (a b : String × V) (a' b' : String × W) (h1 : a.1 = a'.1) (h2 : b.1 = b'.1) :
    SDict.keys (pair a b) = SDict.keys (pair a' b') := by
  unfold pair
  rw [h1, h2]
  split <;> simp [h1, h2]

theorem merge_pair {V : Type} (own st : SDict String V) (n name : String) (h : n ≠ name) (hs : SDict.Sorted st) :
    Dicts.merge (some own) (some [(n, st)]) name = .ok (pair (name, own) (n, st)) := by
  have h1 : SDict.has [(n, st)] name = false := by
    rw [SDict.has_eq_false_iff]
    simpa using fun hc => h hc.symm
  have h2 : Dicts.copyDict st = st := SDict.foldl_set_eq hs
  unfold Dicts.merge
  simp only
  rw [h1, if_neg (by decide)]
  show Except.ok (SDict.set [(name, own)] n (Dicts.copyDict st)) = _
  rw [h2, ← set_single (name, own) (n, st) (fun hc => h hc.symm)]

/-! ## Concatenation -/

theorem fits_of_has {F : Fam} (hF : F.Good) (d : TDicts α) (hs : SDict.Sorted d) (w : String → String → Nat)
    (h : ∀ b ∈ d, Has F (w b.1) b.2) : Concat.Fits F.dim d where
  sorted := hs
  sortedInner := fun b hb => (h b hb).sorted
  sameKeys := fun b hb b' hb' => by rw [(h b hb).keys, (h b' hb').keys]
  wf := fun b hb p hp => ((h b hb).shape p hp).1
  compat := by
    have key : ∀ k, ∀ t ∈ Concat.column d k, Compat F.dim (F.base k) t.shape := by
      intro k t ht
      obtain ⟨b, hb, hg⟩ := List.mem_filterMap.1 ht
      have hm := SDict.mem_of_get?_eq_some hg
      rw [((h b hb).shape _ hm).2]
      exact (Compat.set _ (hF.dim_lt _ ((h b hb).mem_keys hm))).symm
    intro k t ht t' ht'
    exact (key k t ht).symm.trans (key k t' ht')

theorem get?_of_has {F : Fam} {w : String → Nat} {d : TDict α} (h : Has F w d) (k : String) (hk : k ∈ F.keys) :
    ∃ t, SDict.get? d k = some t ∧ t.WF ∧ t.shape = (F.base k).set F.dim (w k) := by
  cases hg : SDict.get? d k with
  | none =>
    rw [SDict.get?_eq_none_iff, h.keys] at hg
    exact absurd hk hg
  | some t => exact ⟨t, rfl, h.shape _ (SDict.mem_of_get?_eq_some hg)⟩

theorem columnSize_of_has {F : Fam} (hF : F.Good) (d : TDicts α) (w : String → String → Nat)
    (h : ∀ b ∈ d, Has F (w b.1) b.2) (k : String) (hk : k ∈ F.keys) :
    Concat.columnSize F.dim d k = (d.map fun b => w b.1 k).sum := by
  induction d with
  | nil => rfl
  | cons b d ih =>
    obtain ⟨t, h1, _, h2⟩ := get?_of_has (h b (by simp)) k hk
    have hsz : dimSize t.shape F.dim = w b.1 k := by
      rw [h2]
      simp [dimSize, hF.dim_lt k hk]
    unfold Concat.columnSize at ih ⊢
    rw [Concat.column_cons, h1]
    simp only [List.singleton_append, List.map_cons, List.sum_cons, hsz]
    rw [ih fun b hb => h b (List.mem_cons_of_mem _ hb)]

/-- Concatenating blocks of a family gives a dictionary of the family; sizes add up, and the blocks can be recovered. -/
theorem concat_of_has {F : Fam} (hF : F.Good) (d : TDicts α) (hs : SDict.Sorted d) (hne : d ≠ []) (w : String → String → Nat)
    (h : ∀ b ∈ d, Has F (w b.1) b.2) :
    ∃ c, Concat.concatDicts d (F.dim : Int) = .ok c ∧ Has F (fun k => (d.map fun b => w b.1 k).sum) c ∧
      Concat.splitDicts c d (F.dim : Int) = .ok d ∧ ∀ k, SDict.get? c k = Concat.catList F.dim (Concat.column d k) := by
  have hf := fits_of_has hF d hs w h
  obtain ⟨c, h1, h2, h3, h4⟩ := Concat.C07_concat_split hF.dim_le d hne hf
  obtain ⟨b, d', rfl⟩ := List.exists_cons_of_ne_nil hne
  obtain ⟨c', h1', hinv, hk⟩ := Concat.concatDicts_eq hf
  have hcc : c' = c := by rw [h1] at h1'; cases h1'; rfl
  subst hcc
  have hkeys : SDict.keys c' = F.keys := by rw [hk, (h b (by simp)).keys]
  refine ⟨c', h1, ⟨hinv.sorted, hkeys, ?_⟩, h4, hinv.get⟩
  intro p hp
  have hpk : p.1 ∈ F.keys := by rw [← hkeys]; exact List.mem_map_of_mem hp
  have hget := (SDict.get?_eq_some_iff hinv.sorted).2 hp
  have hcat := hinv.get p.1
  rw [hget] at hcat
  obtain ⟨t, ht, hwf, hsh⟩ := get?_of_has (h b (by simp)) p.1 hpk
  rw [Concat.column_cons, ht] at hcat
  simp only [List.singleton_append, Concat.catList, Option.some.injEq] at hcat
  have hlt : F.dim < t.shape.length := by rw [hsh, List.length_set]; exact hF.dim_lt _ hpk
  obtain ⟨g1, g2, _, _⟩ := Concat.foldl_cat2_props (k := F.dim) (Concat.column d' p.1) t hwf hlt (by
    intro y hy
    have hy' : y ∈ Concat.column (b :: d') p.1 := by rw [Concat.column_cons]; exact List.mem_append_right _ hy
    refine ⟨Concat.column_wf hf hy', hf.compat p.1 t ?_ y hy'⟩
    rw [Concat.column_cons, ht]
    simp)
  rw [← hcat] at g1 g2
  refine ⟨g1, ?_⟩
  have hsize := h3 p.1 p.2 hget
  rw [columnSize_of_has hF (b :: d') w h p.1 hpk] at hsize
  have hb : Compat F.dim (F.base p.1) p.2.shape := by
    refine Compat.trans ?_ g2.symm
    rw [hsh]
    exact (Compat.set _ (hF.dim_lt _ hpk)).symm
  rw [← hb.set_eq, hsize]

/-! ## Reading blocks back from a vector -/

theorem decDict_has {F : Fam} (v : List α) (d : TDict α) (i : Nat) (hl : i + Assembly.plen (SDict.mapVals Tensor.shape d) ≤ v.length) :
    SDict.keys (Assembly.decDict (Assembly.readVec v) (SDict.mapVals Tensor.shape d) i) = SDict.keys d ∧
      ∀ w : String → Nat, (∀ p ∈ d, p.2.shape = (F.base p.1).set F.dim (w p.1)) →
        ∀ p ∈ Assembly.decDict (Assembly.readVec v) (SDict.mapVals Tensor.shape d) i, p.2.WF ∧ p.2.shape = (F.base p.1).set F.dim (w p.1) := by
  induction d generalizing i with
  | nil => exact ⟨rfl, fun w _ p hp => by cases hp⟩
  | cons e d ih =>
    have hpl : Assembly.plen (SDict.mapVals Tensor.shape (e :: d)) = vol e.2.shape + Assembly.plen (SDict.mapVals Tensor.shape d) := rfl
    rw [hpl] at hl
    obtain ⟨h1, h2⟩ := ih (i + vol e.2.shape) (by omega)
    constructor
    · show e.1 :: SDict.keys _ = e.1 :: SDict.keys d
      exact congrArg (e.1 :: ·) h1
    · intro w hw p hp
      rcases List.mem_cons.1 (show p ∈ _ :: Assembly.decDict (Assembly.readVec v) (SDict.mapVals Tensor.shape d) (i + vol e.2.shape) from hp) with rfl | hp
      · refine ⟨?_, hw e (by simp)⟩
        show (Assembly.slice v i (i + vol e.2.shape)).length = vol e.2.shape
        rw [Assembly.slice_length]
        omega
      · exact h2 w (fun q hq => hw q (List.mem_cons_of_mem _ hq)) p hp

theorem decDicts_has {F : Fam} (v : List α) (d : TDicts α) (w : String → String → Nat) (h : ∀ b ∈ d, Has F (w b.1) b.2) (i : Nat)
    (hl : i + Assembly.planLength (Assembly.shapesOf d) ≤ v.length) :
    SDict.keys (Assembly.decDicts (Assembly.readVec v) (Assembly.shapesOf d) i) = SDict.keys d ∧
      ∀ b ∈ Assembly.decDicts (Assembly.readVec v) (Assembly.shapesOf d) i, Has F (w b.1) b.2 := by
  induction d generalizing i with
  | nil => exact ⟨rfl, fun b hb => by cases hb⟩
  | cons e d ih =>
    have hpl : Assembly.planLength (Assembly.shapesOf (e :: d)) =
        Assembly.plen (SDict.mapVals Tensor.shape e.2) + Assembly.planLength (Assembly.shapesOf d) := Assembly.planLength_cons _ _
    rw [hpl] at hl
    obtain ⟨h1, h2⟩ := ih (fun b hb => h b (List.mem_cons_of_mem _ hb)) (i + Assembly.plen (SDict.mapVals Tensor.shape e.2)) (by omega)
    constructor
    · show e.1 :: SDict.keys _ = e.1 :: SDict.keys d
      exact congrArg (e.1 :: ·) h1
    · intro b hb
      rcases List.mem_cons.1 (show b ∈ (e.1, Assembly.decDict (Assembly.readVec v) (SDict.mapVals Tensor.shape e.2) i) ::
          Assembly.decDicts (Assembly.readVec v) (Assembly.shapesOf d) (i + Assembly.plen (SDict.mapVals Tensor.shape e.2)) from hb) with rfl | hb
      · have he := h e (by simp)
        obtain ⟨g1, g2⟩ := decDict_has (F := F) v e.2 i (by omega)
        refine ⟨?_, g1.trans he.keys, g2 _ fun p hp => (he.shape p hp).2⟩
        unfold SDict.Sorted
        rw [g1]
        exact he.sorted
      · exact h2 b hb

/-- The blocks before an integration and after: the same names, keys and shapes. -/
theorem roundtrip_has {F G H : Fam} (hF : F.Good) (hG : G.Good) (hH : H.Good) (s c d : TDicts α) (w cw dw : String → String → Nat)
    (ss : SDict.Sorted s) (sc : SDict.Sorted c) (sd : SDict.Sorted d) (ns : s ≠ []) (nc : c ≠ []) (nd : d ≠ [])
    (hs : ∀ b ∈ s, Has F (w b.1) b.2) (hc : ∀ b ∈ c, Has G (cw b.1) b.2) (hd : ∀ b ∈ d, Has H (dw b.1) b.2) :
    ∃ x0 plans, Assembly.assembleTensor s c d = .ok (x0, plans) ∧ ∀ row : List α, row.length = x0.length →
      ∃ s' c' d', Assembly.disassembleTensor (.vec row) (some plans) 0 = .ok (s', c', d') ∧
        (SDict.keys s' = SDict.keys s ∧ ∀ b ∈ s', Has F (w b.1) b.2) ∧ (SDict.keys c' = SDict.keys c ∧ ∀ b ∈ c', Has G (cw b.1) b.2) ∧
        (SDict.keys d' = SDict.keys d ∧ ∀ b ∈ d', Has H (dw b.1) b.2) := by
  have good : ∀ {F : Fam} (_ : F.Good) (s : TDicts α) (w : String → String → Nat), SDict.Sorted s → (∀ b ∈ s, Has F (w b.1) b.2) →
      Assembly.GoodDicts s ∧ Assembly.dropEmptyBlocks s = s := by
    intro F hF s w ss hs
    refine ⟨⟨ss, fun b hb => ⟨(hs b hb).sorted, fun p hp => ⟨((hs b hb).shape p hp).1, ?_⟩⟩⟩, ?_⟩
    · rw [((hs b hb).shape p hp).2]
      intro h0
      have h1 := congrArg List.length h0
      rw [List.length_set, List.length_nil] at h1
      have h2 := hF.dim_lt _ ((hs b hb).mem_keys hp)
      omega
    · unfold Assembly.dropEmptyBlocks
      rw [List.filter_eq_self]
      intro b hb
      have := (hs b hb).ne hF
      simpa using this
  obtain ⟨gs, es⟩ := good hF s w ss hs
  obtain ⟨gc, ec⟩ := good hG c cw sc hc
  obtain ⟨gd, ed⟩ := good hH d dw sd hd
  have ha := Assembly.assembleTensor_eq s c d gs gc gd
  rw [es, ec, ed, if_neg (by simp [ns, nc, nd])] at ha
  refine ⟨_, _, ha, ?_⟩
  intro row hrow
  have hlen := (Assembly.C02_layout s c d gs gc gd _ _ ha).2.1
  have gp : Assembly.GoodAllPlans ⟨Assembly.shapesOf s, Assembly.shapesOf c, Assembly.shapesOf d⟩ := by
    have p1 := Assembly.goodPlans_shapesOf s gs
    have p2 := Assembly.goodPlans_shapesOf c gc
    have p3 := Assembly.goodPlans_shapesOf d gd
    rw [es] at p1
    rw [ec] at p2
    rw [ed] at p3
    exact ⟨p1, p2, p3⟩
  have hdis := Assembly.disassembleTensor_vec row _ gp
  rw [if_pos (by rw [hrow, hlen])] at hdis
  have htot : row.length = Assembly.planLength (Assembly.shapesOf s) + Assembly.planLength (Assembly.shapesOf c) +
      Assembly.planLength (Assembly.shapesOf d) := by rw [hrow, hlen]; rfl
  refine ⟨_, _, _, hdis, decDicts_has row s w hs 0 (by omega), decDicts_has row c cw hc _ (by dsimp only; omega),
    decDicts_has row d dw hd _ (by dsimp only; omega)⟩

/-! ## Pieces of a forward pass -/

theorem concat_single (b : String × TDict α) (hb : SDict.Sorted b.2) (k : Int) : Concat.concatDicts [b] k = .ok b.2 := by
  have h := Concat.catStep_copy k b.2 [] (by simpa using hb)
  unfold Concat.concatDicts Concat.catLoop
  rw [List.foldlM_cons, h]
  simp [bind, Except.bind, pure, Except.pure]

theorem sorted_of_keys {V W : Type} {a : SDict String V} {b : SDict String W} (h : SDict.keys a = SDict.keys b) (hb : SDict.Sorted b) :
    SDict.Sorted a := by
  unfold SDict.Sorted
  rw [h]
  exact hb

/-- The zeros added to the data for a new block. -/
theorem zero_has [Zero α] {F H : Fam} (hF : F.Good) (hH : H.Good) (hk : H.keys = F.keys) (db : List Nat) (hb : H.base = fun _ => db)
    (hr : ∀ k ∈ F.keys, (F.base k).length ≤ db.length ∧ H.dim + (F.base k).length = F.dim + db.length)
    (own : TDict α) (v : String → Nat) (ho : Has F v own) (n : String) (d : TDict α) (dw : String → Nat) (hd : Has H dw d) :
    Dicts.dataConcatDim (some own) [(n, d)] F.dim = .ok (some H.dim) ∧
      ∃ z, Dicts.zeroDataDict own [(n, d)] F.dim H.dim = .ok z ∧ Has H v z := by
  obtain ⟨p, d', rfl⟩ := List.exists_cons_of_ne_nil (hd.ne hH)
  obtain ⟨q, own', rfl⟩ := List.exists_cons_of_ne_nil (ho.ne hF)
  have hsz : Dicts.sizeOfDicts [(n, p :: d')] = .ok (db.set H.dim (dw p.1)) := by
    have := (hd.shape p (by simp)).2
    rw [hb] at this
    simp only [Dicts.sizeOfDicts, Dicts.sizeOfDict, this]
  have hq : q.2.shape.length = (F.base q.1).length := by rw [(ho.shape q (by simp)).2, List.length_set]
  have hqk : q.1 ∈ F.keys := ho.mem_keys (by simp)
  have hdd : H.dim < db.length := by
    have := hH.dim_lt q.1 (by rw [hk]; exact hqk)
    rwa [hb] at this
  constructor
  · obtain ⟨_, h2⟩ := (Dicts.C49_data_concat_dim [(n, p :: d')] F.dim).2 q.1 q.2 own' _ hsz
    obtain ⟨dd, h3, h4⟩ := h2 (by rw [hq, List.length_set]; exact (hr _ hqk).1)
    rw [show (q :: own' : TDict α) = (q.1, q.2) :: own' from rfl, h3]
    have := (hr _ hqk).2
    rw [hq, List.length_set] at h4
    congr 2
    omega
  · obtain ⟨z, h1, h2, h3⟩ := Dicts.C49_zero_data (q :: own') ho.sorted [(n, p :: d')] F.dim H.dim _ hsz (by rw [List.length_set]; exact hdd)
      (fun x hx => by rw [(ho.shape x hx).2, List.length_set]; exact hF.dim_lt _ (ho.mem_keys hx))
    refine ⟨z, h1, sorted_of_keys h2 ho.sorted, by rw [h2, ho.keys, hk], ?_⟩
    intro x hx
    have hxk : x.1 ∈ SDict.keys (q :: own') := by rw [← h2]; exact List.mem_map_of_mem hx
    obtain ⟨t, ht, _, hts⟩ := get?_of_has ho x.1 (by rw [← ho.keys]; exact hxk)
    obtain ⟨z', g1, g2, g3, g4, g5⟩ := h3 x.1 t ht
    have hz : z' = x.2 := by
      have := (SDict.get?_eq_some_iff (sorted_of_keys h2 ho.sorted)).2 hx
      rw [g1] at this
      exact Option.some.inj this
    subst hz
    refine ⟨g2.1, ?_⟩
    rw [hb]
    apply List.ext_getElem?
    intro j
    by_cases hj : j = H.dim
    · subst hj
      rw [g4, hts, List.getElem?_set_self hdd, List.getElem?_set_self (hF.dim_lt _ (by rw [← ho.keys]; exact hxk))]
    · rw [g5 j hj, List.getElem?_set_ne (Ne.symm hj), List.getElem?_set_ne (Ne.symm hj)]

theorem extractKey_eq {V : Type} (d : Dicts.DDict V) (hd : SDict.Sorted d) (hl : d.length ≠ 1) (key : String) :
    Dicts.extractKey d key = .ok (.blocks (SDict.mapVals (Dicts.onlyKey key) d)) := by
  have h : d.foldl (fun (acc : Dicts.DDict V) b => acc.set b.1 (Dicts.onlyKey key b.2)) [] = SDict.mapVals (Dicts.onlyKey key) d := by
    have := SDict.foldl_set_eq (hd.mapVals (Dicts.onlyKey key))
    unfold SDict.mapVals at this
    rw [List.foldl_map] at this
    exact this
  unfold Dicts.extractKey
  dsimp only
  rw [h]
  rcases d with _ | ⟨a, _ | ⟨b, d⟩⟩
  · rfl
  · exact absurd rfl hl
  · rfl

/-- The output value of several blocks, concatenated. -/
theorem concatResult_has {H : Fam} (hH : H.Good) (d : TDicts α) (hs : SDict.Sorted d) (hl : d.length ≠ 1) (hne : d ≠ []) (w : String → String → Nat)
    (h : ∀ b ∈ d, Has H (w b.1) b.2) (key : String) (hk : key ∈ H.keys) :
    ∃ e t, Dicts.extractKey d key = .ok e ∧ concatResult H.dim e = .ok (.tensor t) ∧
      Concat.catList H.dim (Concat.column d key) = some t := by
  let H1 : Fam := ⟨H.dim, [key], H.base⟩
  have hH1 : H1.Good := ⟨by simp [H1], fun k hk' => by simp only [H1, List.mem_singleton] at hk'; subst hk'; exact hH.dim_lt _ hk, hH.dim_le⟩
  have honly : ∀ b ∈ d, ∃ t, SDict.get? b.2 key = some t ∧ Dicts.onlyKey key b.2 = [(key, t)] ∧ Has H1 (w b.1) [(key, t)] := by
    intro b hb
    obtain ⟨t, h1, h2, h3⟩ := get?_of_has (h b hb) key hk
    refine ⟨t, h1, ?_, by simp [SDict.Sorted], rfl, ?_⟩
    · unfold Dicts.onlyKey
      rw [h1]
      rfl
    · intro p hp
      rw [List.mem_singleton] at hp
      subst hp
      exact ⟨h2, h3⟩
  have hcol : Concat.column (SDict.mapVals (Dicts.onlyKey key) d) key = Concat.column d key := by
    unfold Concat.column SDict.mapVals
    rw [List.filterMap_map]
    apply List.filterMap_congr
    intro b hb
    obtain ⟨t, h1, h2, _⟩ := honly b hb
    simp only [Function.comp, h1, h2]
    simp [SDict.get?]
  obtain ⟨c, h1, h2, _, h4⟩ := concat_of_has hH1 (SDict.mapVals (Dicts.onlyKey key) d) (hs.mapVals _)
    (by unfold SDict.mapVals; simpa using hne) w (by
      intro b hb
      obtain ⟨b', hb', rfl⟩ := List.mem_map.1 hb
      obtain ⟨t, _, e2, e3⟩ := honly b' hb'
      show Has H1 (w b'.1) (Dicts.onlyKey key b'.2)
      rw [e2]
      exact e3)
  have hkc := h2.keys
  obtain ⟨k', t, rfl⟩ : ∃ k' t, c = [(k', t)] := by
    rcases c with _ | ⟨a, _ | ⟨b, c⟩⟩
    · cases hkc
    · exact ⟨a.1, a.2, rfl⟩
    · cases hkc
  have hk' : k' = key := by
    have : [k'] = [key] := hkc
    simpa using this
  subst hk'
  refine ⟨_, t, extractKey_eq d hs hl k', ?_, ?_⟩
  · unfold concatResult
    dsimp only
    rw [show (H.dim : Int) = (H1.dim : Int) from rfl, h1]
    rfl
  · rw [← hcol]
    have := h4 k'
    rw [show H.dim = H1.dim from rfl, ← this]
    simp [SDict.get?]

end Verif.Block
