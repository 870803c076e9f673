import Verif.Concat.Lemmas
import Mathlib.Data.List.Forall2
import Mathlib.Data.List.Perm.Subperm

/-!
# Properties C07 and C08: concatenating and splitting blocks
-/

namespace Verif.Concat
open Verif Tensor

variable {α : Type _}

/-! ## C07 -/

/-- Concatenating fitting blocks succeeds, has the keys of the blocks, its size along the
concatenation dimension is the sum of the sizes of the pieces, and splitting it by the same block
structure returns exactly the blocks. -/
theorem C07_concat_split {k : Nat} (hk : k ≤ 4) (d : TDicts α) (hne : d ≠ []) (hf : Fits k d) :
    ∃ c, concatDicts d (k : Int) = .ok c ∧
      (∀ b ∈ d, SDict.keys c = SDict.keys b.2) ∧
      (∀ key t, SDict.get? c key = some t → dimSize t.shape k = columnSize k d key) ∧
      splitDicts c d (k : Int) = .ok d := by
  obtain ⟨b, d', rfl⟩ := List.exists_cons_of_ne_nil hne
  obtain ⟨c, e, hinv, hkeys⟩ := concatDicts_eq hf
  have hall : ∀ b' ∈ b :: d', SDict.keys c = SDict.keys b'.2 := fun b' hb' => by
    rw [hkeys]; exact hf.sameKeys b (by simp) b' hb'
  have hprops : ∀ key t, SDict.get? c key = some t →
      k < t.shape.length ∧ dimSize t.shape k = columnSize k (b :: d') key := by
    intro key t ht
    rw [hinv.get] at ht
    have hmem : ∀ y ∈ column (b :: d') key, y.WF ∧ ∀ y' ∈ column (b :: d') key,
        Compat k y.shape y'.shape :=
      fun y hy => ⟨column_wf hf hy, fun y' hy' => hf.compat key y hy y' hy'⟩
    unfold columnSize
    revert ht hmem
    cases column (b :: d') key with
    | nil => intro ht; cases ht
    | cons y ys =>
      intro ht hmem
      simp only [catList, Option.some.injEq] at ht
      subst ht
      have hy := hmem y (by simp)
      have hp := foldl_cat2_props ys y hy.1 (hy.2 y (by simp)).length.2
        (fun z hz => ⟨(hmem z (by simp [hz])).1, hy.2 z (by simp [hz])⟩)
      exact ⟨hp.2.1.length.2, by rw [hp.2.2.1]; simp⟩
  refine ⟨c, e, hall, fun key t ht => (hprops key t ht).2, ?_⟩
  rw [splitDicts_eq hk c hinv.sorted
    (fun p hp => (hprops p.1 p.2 (SDict.get?_eq_some_of_mem hinv.sorted.nodup hp)).1) (b :: d')
    hf.sorted]
  · have := splitAll_eq_self hf c hinv hall [] (b :: d') rfl
    have h0 : columnSize k ([] : TDicts α) = fun _ => 0 := rfl
    rw [h0] at this
    rw [this]
  · intro b' hb'
    refine ⟨hf.sortedInner b' hb', ?_, ?_⟩
    · intro p hp
      have hg := SDict.get?_eq_some_of_mem (hf.sortedInner b' hb').nodup (k := p.1) (v := p.2) hp
      have hm := mem_column_of_mem hb' hg
      exact (hf.compat p.1 p.2 hm p.2 hm).length.2
    · have := congrArg List.length (hall b' hb')
      simpa [SDict.keys] using this.symm

/-- Every entry of every block is found at its own index shifted by the sizes of the earlier blocks. -/
theorem C07_elements {k : Nat} (pre post : TDicts α) (b : String × TDict α)
    (hf : Fits k (pre ++ b :: post)) (key : String) (t : Tensor α) (ht : SDict.get? b.2 key = some t) :
    ∃ c x, concatDicts (pre ++ b :: post) (k : Int) = .ok c ∧ SDict.get? c key = some x ∧
      ∀ idx v, t.get? idx = some v →
        x.get? (idx.set k (columnSize k pre key + idx.getD k 0)) = some v := by
  have hne : pre ++ b :: post ≠ [] := by simp
  obtain ⟨b0, d0, hd0⟩ := List.exists_cons_of_ne_nil hne
  obtain ⟨c, e, hinv, hkeys⟩ := concatDicts_eq (hd0 ▸ hf)
  rw [← hd0] at e hinv
  have hcol : column (pre ++ b :: post) key = column pre key ++ t :: column post key := by
    rw [column_append, column_cons, ht]; rfl
  have htm : t ∈ column (pre ++ b :: post) key := by rw [hcol]; simp
  have hx : ∃ x, catList k (column (pre ++ b :: post) key) = some x := by
    rw [hcol]; cases column pre key <;> exact ⟨_, rfl⟩
  obtain ⟨x, hx⟩ := hx
  refine ⟨c, x, e, by rw [hinv.get, hx], ?_⟩
  have hall : ∀ y ∈ column (pre ++ b :: post) key, y.WF ∧ Compat k t.shape y.shape :=
    fun y hy => ⟨column_wf hf hy, hf.compat key t htm y hy⟩
  have hslice := catList_slice (column pre key) (column post key) t x
    (by rw [← hcol]; exact hall) (by rw [← hcol]; exact hx)
  have hxp : x.WF ∧ k < x.shape.length ∧ x.shape.length = t.shape.length ∧
      dimSize x.shape k = columnSize k (pre ++ b :: post) key := by
    unfold columnSize
    revert hx hall
    cases column (pre ++ b :: post) key with
    | nil => intro hx; cases hx
    | cons y ys =>
      intro hx hall
      simp only [catList, Option.some.injEq] at hx
      subst hx
      have hy := hall y (by simp)
      have hp := foldl_cat2_props ys y hy.1 (by have := hy.2.length; omega)
        (fun z hz => ⟨(hall z (by simp [hz])).1, hy.2.symm.trans (hall z (by simp [hz])).2⟩)
      refine ⟨hp.1, hp.2.1.length.2, ?_, by rw [hp.2.2.1]; simp⟩
      rw [hp.2.1.length.1, hy.2.length.1]
  intro idx v hv
  have hsome := (getData?_isSome_iff t.shape t.data (column_wf hf htm) idx).1 (by
    have : getData? t.shape t.data idx = some v := hv
    simp [this])
  have htk : k < t.shape.length := (hf.compat key t htm t htm).length.2
  have hik := hsome.2 k htk
  have hsz : columnSize k (pre ++ b :: post) key
      = columnSize k pre key + (dimSize t.shape k + columnSize k post key) := by
    unfold columnSize; rw [hcol]; simp
  set lo := columnSize k pre key with hlo
  have hlo' : ((column pre key).map (fun y => dimSize y.shape k)).sum = lo := rfl
  rw [hlo'] at hslice
  have hmin : min lo (dimSize x.shape k) = lo := by omega
  have hmin2 : min (lo + dimSize t.shape k) (dimSize x.shape k) - lo = dimSize t.shape k := by omega
  have hsel := getData?_selData hxp.2.1 hxp.1 (List.range' lo (dimSize t.shape k))
    (by intro i hi; simp only [List.mem_range'_1] at hi; omega) idx (by rw [hsome.1, hxp.2.2.1])
  have hshape : t.shape = x.shape.set k (List.range' lo (dimSize t.shape k)).length := by
    have := congrArg Tensor.shape hslice
    simp only [sliceDim, select, hmin, hmin2] at this
    exact this.symm
  have hdata : t.data = selData k x.shape (List.range' lo (dimSize t.shape k)) x.data := by
    have := congrArg Tensor.data hslice
    simp only [sliceDim, select, hmin, hmin2] at this
    exact this.symm
  have hr : (List.range' lo (dimSize t.shape k))[idx.getD k 0]? = some (lo + idx.getD k 0) := by
    rw [List.getElem?_range' hik]; simp
  rw [hr, ← hdata, ← hshape] at hsel
  exact hsel.symm.trans hv

/-- Splitting a right-hand side `c` (whose keys may be renamed, e.g. `dot_q` for `q`, in the same
order) by the block structure `d` gives, for every block, the keys of `c` with tensors of the block's
shapes, and concatenating the pieces gives `c` back: the pieces are disjoint and cover everything. -/
theorem C07_split_concat {k : Nat} (hk : k ≤ 4) (b : String × TDict α) (d : TDicts α)
    (hf : Fits k (b :: d)) (c : TDict α) (hc : SDict.Sorted c)
    (hm : List.Forall₂ (fun (x : String × Tensor α) key => x.2.WF ∧
        (∀ t ∈ column (b :: d) key, Compat k x.2.shape t.shape) ∧
        dimSize x.2.shape k = columnSize k (b :: d) key) c (SDict.keys b.2)) :
    ∃ r, splitDicts c (b :: d) (k : Int) = .ok r ∧
      SDict.keys r = SDict.keys (b :: d) ∧
      (∀ b' ∈ r, SDict.keys b'.2 = SDict.keys c) ∧
      (∀ (i : Nat) (x : String × Tensor α) (key : String), c[i]? = some x →
        (SDict.keys b.2)[i]? = some key →
        (column r x.1).map Tensor.shape = (column (b :: d) key).map Tensor.shape) ∧
      concatDicts r (k : Int) = .ok c := by
  have hl : c.length = (SDict.keys b.2).length := hm.length_eq
  have hkeyOf : ∀ (i : Nat) (x : String × Tensor α), c[i]? = some x → ∃ key, (SDict.keys b.2)[i]? = some key := by
    intro i x hx
    have hi : i < c.length := (List.getElem?_eq_some_iff.1 hx).1
    exact ⟨_, List.getElem?_eq_getElem (by omega)⟩
  have hrel : ∀ (i : Nat) (x : String × Tensor α) (key : String), c[i]? = some x → (SDict.keys b.2)[i]? = some key →
      x.2.WF ∧ (∀ t ∈ column (b :: d) key, Compat k x.2.shape t.shape) ∧
        dimSize x.2.shape k = columnSize k (b :: d) key := by
    intro i x key hx hkey
    obtain ⟨hi, rfl⟩ := List.getElem?_eq_some_iff.1 hx
    obtain ⟨hi', rfl⟩ := List.getElem?_eq_some_iff.1 hkey
    exact hm.get hi hi'
  have hcolne : ∀ (i : Nat) (key : String), (SDict.keys b.2)[i]? = some key → ∃ t ts, column (b :: d) key = t :: ts := by
    intro i key hkey
    have hmem : key ∈ SDict.keys b.2 := List.mem_of_getElem? hkey
    cases hg : SDict.get? b.2 key with
    | none => exact absurd hmem (SDict.get?_eq_none_iff.1 hg)
    | some t => exact ⟨t, column d key, by rw [column_cons, hg]; rfl⟩
  have hxprops : ∀ x ∈ c, x.2.WF ∧ k < x.2.shape.length := by
    intro x hx
    obtain ⟨i, hi⟩ := List.mem_iff_getElem?.1 hx
    obtain ⟨key, hkey⟩ := hkeyOf i x hi
    obtain ⟨t, ts, hcol⟩ := hcolne i key hkey
    obtain ⟨h1, h2, -⟩ := hrel i x key hi hkey
    exact ⟨h1, (h2 t (by rw [hcol]; simp)).length.2⟩
  have hblocks : ∀ b' ∈ b :: d, SDict.Sorted b'.2 ∧ SDict.keys b'.2 = SDict.keys b.2 :=
    fun b' hb' => ⟨hf.sortedInner b' hb', hf.sameKeys b' hb' b (by simp)⟩
  have hlen : ∀ b' ∈ b :: d, b'.2.length = c.length := by
    intro b' hb'
    have := congrArg List.length (hblocks b' hb').2
    rw [hl]; simpa [SDict.keys] using this
  set r := splitAll k c (fun _ => 0) (b :: d) with hr
  have hcolr : ∀ (i : Nat) (x : String × Tensor α) (key : String), c[i]? = some x → (SDict.keys b.2)[i]? = some key →
      column r x.1 = slicesOf k x.2 0 (column (b :: d) key) := fun i x key hx hkey =>
    column_splitAll c hc (SDict.keys b.2) hl (b :: d) hblocks i x key hx hkey (fun _ => 0)
  have hrk : ∀ b' ∈ r, SDict.keys b'.2 = SDict.keys c := by
    intro b' hb'
    obtain ⟨b'', hb'', off', rfl⟩ := mem_splitAll c (b :: d) _ b' hb'
    exact keys_splitItems c b''.2 (hlen b'' hb'').symm
  have hkeysr : SDict.keys r = SDict.keys (b :: d) := keys_splitAll c (b :: d) _
  have hget_none : ∀ key, key ∉ SDict.keys c → column r key = [] := by
    intro key hkey
    unfold column
    rw [List.filterMap_eq_nil_iff]
    intro b' hb'
    exact SDict.get?_eq_none_iff.2 (by rw [hrk b' hb']; exact hkey)
  have hidx : ∀ key, key ∈ SDict.keys c → ∃ (i : Nat) (x : String × Tensor α) (key' : String),
      c[i]? = some x ∧ x.1 = key ∧ (SDict.keys b.2)[i]? = some key' := by
    intro key hkey
    obtain ⟨x, hx, rfl⟩ := List.mem_map.1 hkey
    obtain ⟨i, hi⟩ := List.mem_iff_getElem?.1 hx
    obtain ⟨key', hk'⟩ := hkeyOf i x hi
    exact ⟨i, x, key', hi, rfl, hk'⟩
  have hsl : ∀ (x : Tensor α) (ts : List (Tensor α)) (off : Nat), ∀ y ∈ slicesOf k x off ts,
      ∃ lo hi, y = x.sliceDim k lo hi := by
    intro x ts
    induction ts with
    | nil => intro off y hy; cases hy
    | cons t ts ih =>
      intro off y hy
      rw [slicesOf, List.mem_cons] at hy
      rcases hy with rfl | hy
      · exact ⟨_, _, rfl⟩
      · exact ih _ y hy
  have hfr : Fits k r := by
    refine ⟨?_, ?_, ?_, ?_, ?_⟩
    · unfold SDict.Sorted; rw [hkeysr]; exact hf.sorted
    · intro b' hb'; unfold SDict.Sorted; rw [hrk b' hb']; exact hc
    · intro b' hb' b'' hb''; rw [hrk b' hb', hrk b'' hb'']
    · intro b' hb' p hp
      obtain ⟨b'', -, off', rfl⟩ := mem_splitAll c (b :: d) _ b' hb'
      obtain ⟨x, hx, lo, hi, rfl⟩ := mem_splitItems c b''.2 p hp
      exact sliceDim_wf (hxprops x hx).1 (hxprops x hx).2 lo hi
    · intro key t ht t' ht'
      by_cases hkey : key ∈ SDict.keys c
      · obtain ⟨i, x, key', hi, rfl, hk'⟩ := hidx key hkey
        rw [hcolr i x key' hi hk'] at ht ht'
        obtain ⟨lo, hi1, rfl⟩ := hsl _ _ _ t ht
        obtain ⟨lo', hi2, rfl⟩ := hsl _ _ _ t' ht'
        have hxk := (hxprops x (List.mem_of_getElem? hi)).2
        exact (Compat.set _ hxk).trans (Compat.set _ hxk).symm
      · rw [hget_none key hkey] at ht; cases ht
  refine ⟨r, ?_, hkeysr, hrk, ?_, ?_⟩
  · exact splitDicts_eq hk c hc (fun p hp => (hxprops p hp).2) (b :: d) hf.sorted
      (fun b' hb' => ⟨(hblocks b' hb').1, fun p hp => by
        have hg := SDict.get?_eq_some_of_mem (hf.sortedInner b' hb').nodup (k := p.1) (v := p.2) hp
        have hmm := mem_column_of_mem hb' hg
        exact (hf.compat p.1 p.2 hmm p.2 hmm).length.2, hlen b' hb'⟩)
  · intro i x key hx hkey
    rw [hcolr i x key hx hkey]
    obtain ⟨hxw, hxc, hxs⟩ := hrel i x key hx hkey
    have hgen : ∀ (ts : List (Tensor α)) (off : Nat), (∀ t ∈ ts, Compat k x.2.shape t.shape) →
        off + (ts.map (fun t => dimSize t.shape k)).sum ≤ dimSize x.2.shape k →
        (slicesOf k x.2 off ts).map Tensor.shape = ts.map Tensor.shape := by
      intro ts
      induction ts with
      | nil => intros; rfl
      | cons t ts ih =>
        intro off h1 h2
        simp only [List.mem_cons, forall_eq_or_imp] at h1
        simp only [List.map_cons, List.sum_cons] at h2
        rw [slicesOf, List.map_cons, List.map_cons, ih _ h1.2 (by omega)]
        congr 1
        simp only [sliceDim, select, List.length_range']
        have e : min (off + dimSize t.shape k) (dimSize x.2.shape k) - min off (dimSize x.2.shape k)
            = dimSize t.shape k := by omega
        rw [e]
        exact h1.1.set_eq
    exact hgen _ 0 hxc (by rw [hxs]; simp [columnSize])
  · have hrne : r = (b.1, splitItems k (fun _ => 0) c b.2) ::
        splitAll k c (bump k (fun _ => 0) b.2) d := rfl
    obtain ⟨c', e, hinv, hkeys⟩ := concatDicts_eq (hrne ▸ hfr)
    rw [← hrne] at e hinv
    rw [e]
    congr 1
    apply SDict.ext_get? hinv.sorted hc
    intro key
    rw [hinv.get]
    by_cases hkey : key ∈ SDict.keys c
    · obtain ⟨i, x, key', hi, rfl, hk'⟩ := hidx key hkey
      rw [hcolr i x key' hi hk']
      obtain ⟨t, ts, hcol⟩ := hcolne i key' hk'
      obtain ⟨hxw, hxc, hxs⟩ := hrel i x key' hi hk'
      rw [catList_slicesOf hxw (hxprops x (List.mem_of_getElem? hi)).2 _ (by rw [hcol]; simp) hxs.symm]
      exact (SDict.get?_eq_some_of_mem hc.nodup (List.mem_of_getElem? hi)).symm
    · rw [hget_none key hkey, SDict.get?_eq_none_iff.2 hkey]; rfl

/-- Three blocks with two keys and different feature sizes (dimension 2, as for vector-valued models). -/
def sampleBlocks : TDicts Nat :=
  [("b0", [("q1", ⟨[1, 1, 2], [1, 2]⟩), ("q2", ⟨[1, 1, 1], [3]⟩)]),
   ("b1", [("q1", ⟨[1, 1, 1], [4]⟩), ("q2", ⟨[1, 1, 0], []⟩)]),
   ("b2", [("q1", ⟨[1, 1, 3], [5, 6, 7]⟩), ("q2", ⟨[1, 1, 2], [8, 9]⟩)])]

theorem sampleBlocks_fits : Fits 2 sampleBlocks := by
  refine ⟨by decide, by decide, by decide, by decide, ?_⟩
  intro k t ht t' ht'
  have hk : k = "q1" ∨ k = "q2" := by
    obtain ⟨b, hb, hg⟩ := List.mem_filterMap.1 ht
    have := SDict.mem_keys_of_mem (p := (k, t)) (SDict.mem_of_get?_eq_some hg)
    simp only [sampleBlocks, List.mem_cons, List.not_mem_nil, or_false] at hb
    rcases hb with rfl | rfl | rfl <;> simpa [SDict.keys] using this
  rcases hk with rfl | rfl
  · have h : ∀ t ∈ column sampleBlocks "q1", ∀ t' ∈ column sampleBlocks "q1",
        Compat 2 t.shape t'.shape := by decide
    exact h t ht t' ht'
  · have h : ∀ t ∈ column sampleBlocks "q2", ∀ t' ∈ column sampleBlocks "q2",
        Compat 2 t.shape t'.shape := by decide
    exact h t ht t' ht'

example : Fits 2 sampleBlocks ∧ sampleBlocks ≠ [] := ⟨sampleBlocks_fits, by decide⟩

example : List.Forall₂ (fun (x : String × Tensor Nat) key => x.2.WF ∧
    (∀ t ∈ column sampleBlocks key, Compat 2 x.2.shape t.shape) ∧
    dimSize x.2.shape 2 = columnSize 2 sampleBlocks key)
    [("dot_q1", ⟨[1, 1, 6], [1, 2, 3, 4, 5, 6]⟩), ("dot_q2", ⟨[1, 1, 3], [7, 8, 9]⟩)]
    ["q1", "q2"] := by
  refine .cons ?_ (.cons ?_ .nil) <;> decide

/-! ## C08 -/

/-- The full statement of C08 is false of the code: a later block that lacks a key is accepted. -/
theorem C08_missing_key_accepted :
    ∃ (d : TDicts Nat) (c : TDict Nat), SDict.Sorted d ∧ (∀ b ∈ d, SDict.Sorted b.2) ∧
      (∃ b ∈ d, ∃ b' ∈ d, SDict.keys b.2 ≠ SDict.keys b'.2) ∧ concatDicts d 1 = .ok c ∧
      splitDicts c d 1 ≠ .ok d := by
  refine ⟨[("a", [("p", ⟨[1, 1], [1]⟩), ("q", ⟨[1, 1], [2]⟩)]), ("b", [("q", ⟨[1, 1], [3]⟩)])],
    [("p", ⟨[1, 1], [1]⟩), ("q", ⟨[1, 2], [2, 3]⟩)], ?_⟩
  decide

/-- What the code does guarantee about keys: if concatenation succeeds, the result has exactly the
keys of the first block and every other block has a subset of them; so an additional key in a later
block is always rejected. -/
theorem C08_keys_partial {k : Int} (b : String × TDict α) (d : TDicts α) (c : TDict α)
    (hb : SDict.Sorted b.2) (h : concatDicts (b :: d) k = .ok c) :
    SDict.keys c = SDict.keys b.2 ∧ ∀ b' ∈ d, ∀ key ∈ SDict.keys b'.2, key ∈ SDict.keys b.2 := by
  have hstep : ∀ (l : TDict α) (acc r : TDict α), SDict.Sorted acc →
      l.foldlM (catStep k) acc = .ok r → SDict.Sorted r ∧
        ∀ key, key ∈ SDict.keys r ↔ key ∈ SDict.keys acc ∨ key ∈ SDict.keys l := by
    intro l
    induction l with
    | nil =>
      intro acc r hacc hr
      simp only [List.foldlM_nil, pure, Except.pure, Except.ok.injEq] at hr
      subst hr
      exact ⟨hacc, by simp⟩
    | cons p l ih =>
      intro acc r hacc hr
      rw [List.foldlM_cons] at hr
      cases hs : catStep k acc p with
      | error e => rw [hs] at hr; cases hr
      | ok acc' =>
        rw [hs] at hr
        have hacc' : ∃ v, acc' = SDict.set acc p.1 v := by
          unfold catStep at hs
          split at hs
          · exact ⟨_, (Except.ok.inj hs).symm⟩
          · split at hs
            · exact ⟨_, (Except.ok.inj hs).symm⟩
            · cases hs
        obtain ⟨v, rfl⟩ := hacc'
        obtain ⟨h1, h2⟩ := ih _ r (hacc.set _ _) hr
        refine ⟨h1, fun key => ?_⟩
        rw [h2, SDict.mem_keys_set, SDict.keys_cons, List.mem_cons]
        tauto
  have hloop : ∀ (d : TDicts α) (acc r : TDict α), SDict.Sorted acc →
      catLoop k d acc = .ok r → SDict.Sorted r ∧
        ∀ key, key ∈ SDict.keys r ↔ key ∈ SDict.keys acc ∨ ∃ b' ∈ d, key ∈ SDict.keys b'.2 := by
    intro d
    induction d with
    | nil =>
      intro acc r hacc hr
      simp only [catLoop, List.foldlM_nil, pure, Except.pure, Except.ok.injEq] at hr
      subst hr
      exact ⟨hacc, by simp⟩
    | cons p d ih =>
      intro acc r hacc hr
      unfold catLoop at hr
      rw [List.foldlM_cons] at hr
      cases hs : p.2.foldlM (catStep k) acc with
      | error e => rw [hs] at hr; cases hr
      | ok acc' =>
        rw [hs] at hr
        obtain ⟨h1, h2⟩ := hstep _ _ _ hacc hs
        obtain ⟨h3, h4⟩ := ih acc' r h1 hr
        refine ⟨h3, fun key => ?_⟩
        rw [h4, h2]
        simp only [List.mem_cons, exists_eq_or_imp]
        tauto
  unfold concatDicts at h
  cases hl : catLoop k (b :: d) [] with
  | error e => rw [hl] at h; cases h
  | ok c' =>
    rw [hl] at h
    simp only [bind, Except.bind] at h
    split at h
    · cases h
    · next hlen =>
      simp only [Except.ok.injEq] at h
      subst h
      obtain ⟨hs, hk⟩ := hloop _ _ _ (by simp) hl
      have hlen' : (SDict.keys c').length = (SDict.keys b.2).length := by
        simpa [SDict.keys] using hlen
      have hsub : SDict.keys b.2 ⊆ SDict.keys c' := fun key hkey =>
        (hk key).2 (Or.inr ⟨b, by simp, hkey⟩)
      have hperm : (SDict.keys b.2).Perm (SDict.keys c') :=
        (List.subperm_of_subset hb.nodup hsub).perm_of_length_le (by omega)
      have heq : SDict.keys b.2 = SDict.keys c' :=
        hperm.eq_of_pairwise (le := fun a b => a < b) (fun a b _ _ h1 h2 => absurd h1 (lt_asymm h2))
          hb hs
      refine ⟨heq.symm, fun b' hb' key hkey => ?_⟩
      rw [heq]
      exact (hk key).2 (Or.inr ⟨b', by simp [hb'], hkey⟩)

/-- Concatenation of at least one block never fails with anything but `ValueError`, and concatenation
of no blocks is an `IndexError`. -/
theorem C08_only_valueError (d : TDicts α) (k : Int) (e : Err) (h : concatDicts d k = .error e) :
    e = if d = [] then .indexError else .valueError := by
  have hstep : ∀ (l : TDict α) (acc : TDict α) (e : Err),
      l.foldlM (catStep k) acc = .error e → e = .valueError := by
    intro l
    induction l with
    | nil => intro acc e hr; cases hr
    | cons p l ih =>
      intro acc e hr
      rw [List.foldlM_cons] at hr
      cases hs : catStep k acc p with
      | ok acc' => rw [hs] at hr; exact ih _ _ hr
      | error e' =>
        rw [hs] at hr
        cases hr
        unfold catStep at hs
        split at hs
        · cases hs
        · split at hs
          · cases hs
          · cases hs; rfl
  have hloop : ∀ (d : TDicts α) (acc : TDict α) (e : Err),
      catLoop k d acc = .error e → e = .valueError := by
    intro d
    induction d with
    | nil => intro acc e hr; cases hr
    | cons p d ih =>
      intro acc e hr
      unfold catLoop at hr
      rw [List.foldlM_cons] at hr
      cases hs : p.2.foldlM (catStep k) acc with
      | error e' => rw [hs] at hr; cases hr; exact hstep _ _ _ hs
      | ok acc' => rw [hs] at hr; exact ih _ _ hr
  unfold concatDicts at h
  cases d with
  | nil => simp [catLoop, pure, Except.pure, bind, Except.bind] at h; simp [← h]
  | cons b d =>
    simp only [reduceCtorEq, if_false]
    cases hl : catLoop k (b :: d) [] with
    | error e' => rw [hl] at h; cases h; exact hloop _ _ _ hl
    | ok c' =>
      rw [hl] at h
      simp only [bind, Except.bind] at h
      split at h
      · cases h; rfl
      · cases h

/-- Splitting along a dimension outside `0..4` raises `ValueError` as soon as there is anything to
split. -/
theorem C08_split_dim (c : TDict α) (d : TDicts α) (k : Int) (hk : k < 0 ∨ 4 < k) (hc : c ≠ [])
    (hd : ∃ b ∈ d, b.2 ≠ []) (hs : ∀ b ∈ d, SDict.Sorted b.2) :
    splitDicts c d k = .error .valueError := by
  have hk' : ¬ (0 ≤ k ∧ k ≤ 4) := by omega
  have hloop : ∀ (d : TDicts α), (∃ b ∈ d, b.2 ≠ []) → (∀ b ∈ d, SDict.Sorted b.2) →
      ∀ acc, d.foldlM (splitBlock c k) acc = .error .valueError := by
    intro d
    induction d with
    | nil => rintro ⟨b, hb, -⟩; cases hb
    | cons b d ih =>
      intro hd hs acc
      rw [List.foldlM_cons]
      cases hb : b.2 with
      | nil =>
        have hstep : splitBlock c k acc b = .ok (acc.1.set b.1 [], acc.2) := by
          simp [splitBlock, hb, SDict.keys, pure, Except.pure, bind, Except.bind]
        rw [hstep]
        refine ih ?_ (fun b' hb' => hs b' (by simp [hb'])) _
        obtain ⟨b', hb', hne⟩ := hd
        simp only [List.mem_cons] at hb'
        rcases hb' with rfl | hb'
        · exact absurd hb hne
        · exact ⟨b', hb', hne⟩
      | cons q qs =>
        obtain ⟨p, c', rfl⟩ := List.exists_cons_of_ne_nil hc
        have hq : SDict.get? b.2 q.1 = some q.2 :=
          SDict.get?_eq_some_of_mem (hs b (by simp)).nodup (by rw [hb]; simp)
        have hstep : splitBlock (p :: c') k acc b = .error .valueError := by
          unfold splitBlock
          have : SDict.keys b.2 = q.1 :: SDict.keys qs := by rw [hb]; rfl
          rw [this, SDict.keys_cons, List.zip_cons_cons, List.foldlM_cons]
          have : splitStep (p :: c') b.2 k ([], acc.2) (p.1, q.1) = .error .valueError := by
            simp [splitStep, hq, hk']
          rw [this]
          rfl
        rw [hstep]
        rfl
  unfold splitDicts
  rw [hloop d hd hs]
  rfl

example : splitDicts ([("q", ⟨[1], [1]⟩)] : TDict Nat) [("e", []), ("b", [("q", ⟨[1], [1]⟩)])] 5
    = .error .valueError := by decide

/-- Shapes that disagree outside the concatenation dimension are rejected: if concatenation in
dimension `k` succeeds, all tensors stored under a key that are not the empty tensor `[0]` (skipped by
torch) agree with each other outside dimension `k`. -/
theorem C08_shapes {k : Nat} (d : TDicts α) (hs : ∀ b ∈ d, SDict.Sorted b.2) (c : TDict α)
    (h : concatDicts d (k : Int) = .ok c) (key : String) :
    (column d key).Pairwise (fun t t' => t.shape = [0] ∨ t'.shape = [0] ∨
      Compat k t.shape t'.shape) := by
  have hd : catLoop (k : Int) d [] = .ok c := by
    unfold concatDicts at h
    cases hl : catLoop (k : Int) d [] with
    | error e => rw [hl] at h; cases h
    | ok c' =>
      rw [hl] at h
      simp only [bind, Except.bind] at h
      split at h
      · cases h
      · split at h
        · cases h
        · rw [← Except.ok.inj h]
  have hinv := shapeInv_loop d hs [] c (fun _ => []) hd (by simp) (by intro key; simp [ShapeInv])
  have := hinv key
  unfold ShapeInv at this
  cases hg : SDict.get? c key with
  | none =>
    rw [hg] at this
    simp only [List.nil_append] at this
    rw [this]
    exact List.Pairwise.nil
  | some a =>
    rw [hg] at this
    simpa using this.2.2

example : concatDicts ([("a", [("q", ⟨[2, 1], [1, 2]⟩)]), ("b", [("q", ⟨[1, 1], [3]⟩)])] : TDicts Nat) 1
    = .error .valueError := by decide

end Verif.Concat
