import Verif.Concat.Spec
import Verif.Base.TensorLemmas

namespace Verif.Concat
open Verif Tensor

variable {α : Type _}

theorem cat_eq {k : Nat} {a b : Tensor α} (ha : a.WF) (hb : b.WF) (h : Compat k a.shape b.shape) :
    cat a b (k : Int) = .ok (cat2 k a b) := by
  have hl := h.length
  have hn : ∀ r, k < r → normDim r (k : Int) = some k := by
    intro r hr; simp [normDim, hr]
  unfold cat
  split
  · next h0 =>
    rw [hn _ (by omega)]
    obtain ⟨s, d⟩ := a
    obtain ⟨s', d'⟩ := b
    simp only at h0 h hl
    subst h0
    have hk : k = 0 := by simp at hl; omega
    subst hk
    cases s' with
    | nil => simp [Compat] at h
    | cons n s' =>
      simp only [Compat] at h
      subst h
      have : d = [] := by simpa [WF] using ha
      subst this
      simp [cat2, catData, dimSize]
  · split
    · next h1 h0 =>
      rw [hn _ (by omega)]
      obtain ⟨s, d⟩ := a
      obtain ⟨s', d'⟩ := b
      simp only at h0 h hl
      subst h0
      have hk : k = 0 := by simp at hl; omega
      subst hk
      cases s with
      | nil => simp [Compat] at h
      | cons n s =>
        simp only [Compat] at h
        subst h
        have : d' = [] := by simpa [WF] using hb
        subst this
        simp [cat2, catData, dimSize]
    · rw [hn _ (by omega)]
      simp [h]

/-- Concatenation of a non-empty list of tensors. -/
def catList (k : Nat) : List (Tensor α) → Option (Tensor α)
  | [] => none
  | t :: ts => some (ts.foldl (cat2 k) t)

theorem foldl_cat2_props {k : Nat} (ts : List (Tensor α)) (a : Tensor α) (ha : a.WF)
    (hk : k < a.shape.length)
    (hts : ∀ t ∈ ts, t.WF ∧ Compat k a.shape t.shape) :
    (ts.foldl (cat2 k) a).WF ∧ Compat k (ts.foldl (cat2 k) a).shape a.shape ∧
      dimSize (ts.foldl (cat2 k) a).shape k
        = dimSize a.shape k + (ts.map (fun t => dimSize t.shape k)).sum ∧
      ∀ lo hi, hi ≤ dimSize a.shape k →
        (ts.foldl (cat2 k) a).sliceDim k lo hi = a.sliceDim k lo hi := by
  induction ts generalizing a with
  | nil => exact ⟨ha, Compat.refl hk, by simp, fun _ _ _ => rfl⟩
  | cons t ts ih =>
    simp only [List.mem_cons, forall_eq_or_imp] at hts
    have hc := hts.1.2
    have hcc := compat_cat2 hc
    obtain ⟨h1, h2, h3, h4⟩ := ih (cat2 k a t) (ha.cat2 hts.1.1 hc) hcc.length.2
      (fun t' ht' => ⟨(hts.2 t' ht').1, hcc.trans (hts.2 t' ht').2⟩)
    rw [List.foldl_cons]
    refine ⟨h1, h2.trans hcc, ?_, ?_⟩
    · rw [h3, dimSize_cat2 hc]; simp [Nat.add_assoc]
    · intro lo hi hhi
      rw [h4 lo hi (by rw [dimSize_cat2 hc]; omega), sliceDim_cat_left ha hts.1.1 hc lo hi hhi]

/-- The `i`-th tensor is the slice that starts after all earlier ones. -/
theorem catList_slice {k : Nat} (pre post : List (Tensor α)) (t x : Tensor α)
    (hwf : ∀ y ∈ pre ++ t :: post, y.WF ∧ Compat k t.shape y.shape)
    (hx : catList k (pre ++ t :: post) = some x) :
    x.sliceDim k ((pre.map (fun y => dimSize y.shape k)).sum)
      ((pre.map (fun y => dimSize y.shape k)).sum + dimSize t.shape k) = t := by
  have ht := hwf t (by simp)
  have hkt := ht.2.length.2
  cases pre with
  | nil =>
    simp only [List.nil_append, catList, Option.some.injEq] at hx
    subst hx
    have hp := foldl_cat2_props post t ht.1 hkt (fun y hy => hwf y (by simp [hy]))
    rw [List.map_nil, List.sum_nil, Nat.zero_add, hp.2.2.2 0 _ (Nat.le_refl _)]
    exact sliceDim_full ht.1 hkt
  | cons p pre =>
    simp only [List.cons_append, catList, Option.some.injEq] at hx
    subst hx
    have hpw := hwf p (by simp)
    have hp := foldl_cat2_props pre p hpw.1 (by have := hpw.2.length; omega) (fun y hy =>
      ⟨(hwf y (by simp [hy])).1, hpw.2.symm.trans (hwf y (by simp [hy])).2⟩)
    set A := pre.foldl (cat2 k) p with hA
    have hc : Compat k A.shape t.shape := hp.2.1.trans hpw.2.symm
    have hcc := compat_cat2 hc
    have hq := foldl_cat2_props post (cat2 k A t) (hp.1.cat2 ht.1 hc) hcc.length.2 (fun y hy =>
      ⟨(hwf y (by simp [hy])).1, hcc.trans (hc.trans (hwf y (by simp [hy])).2)⟩)
    have e : ((p :: pre).map (fun y => dimSize y.shape k)).sum = dimSize A.shape k := by
      rw [hp.2.2.1]; simp
    rw [e, List.foldl_append, List.foldl_cons, ← hA,
      hq.2.2.2 _ _ (by rw [dimSize_cat2 hc])]
    exact sliceDim_cat_right hp.1 ht.1 hc

theorem catList_append {k : Nat} (l : List (Tensor α)) (t x : Tensor α) (h : catList k l = some x) :
    catList k (l ++ [t]) = some (cat2 k x t) := by
  cases l with
  | nil => cases h
  | cons y l =>
    simp only [catList, Option.some.injEq] at h
    subst h
    simp [catList]

/-! ## The concatenation loop -/

theorem catStep_loop {k : Nat} (l : TDict α) (hl : SDict.Sorted l) (acc : TDict α)
    (hacc : SDict.Sorted acc)
    (h : ∀ p ∈ l, p.2.WF ∧ ∃ t, SDict.get? acc p.1 = some t ∧ t.WF ∧ Compat k t.shape p.2.shape) :
    ∃ r, l.foldlM (catStep (k : Int)) acc = .ok r ∧ SDict.Sorted r ∧ SDict.keys r = SDict.keys acc ∧
      ∀ key, SDict.get? r key = match SDict.get? l key with
        | none => SDict.get? acc key
        | some t => (SDict.get? acc key).map (fun a => cat2 k a t) := by
  induction l generalizing acc with
  | nil => exact ⟨acc, rfl, hacc, rfl, fun _ => rfl⟩
  | cons p l ih =>
    simp only [List.mem_cons, forall_eq_or_imp] at h
    obtain ⟨⟨hpw, t, hget, htw, hc⟩, h2⟩ := h
    have hstep : catStep (k : Int) acc p = .ok (SDict.set acc p.1 (cat2 k t p.2)) := by
      simp [catStep, hget, cat_eq htw hpw hc]
    have hl0 := SDict.sorted_cons.1 hl
    have hmem : p.1 ∈ SDict.keys acc := by
      exact SDict.mem_keys_of_mem (p := (p.1, t)) (SDict.mem_of_get?_eq_some hget)
    obtain ⟨r, e, hs, hk, hr⟩ := ih hl0.2 (SDict.set acc p.1 (cat2 k t p.2)) (hacc.set _ _) (by
      intro q hq
      refine ⟨(h2 q hq).1, ?_⟩
      have hne : p.1 ≠ q.1 := ne_of_lt (hl0.1 q.1 (SDict.mem_keys_of_mem hq))
      rw [SDict.get?_set _ hacc, if_neg hne]
      exact (h2 q hq).2)
    refine ⟨r, ?_, hs, by rw [hk, SDict.keys_set_of_mem hacc hmem], ?_⟩
    · rw [List.foldlM_cons, hstep]; exact e
    · intro key
      rw [hr key, SDict.get?_cons, SDict.get?_set _ hacc]
      by_cases hpk : p.1 = key
      · subst hpk
        rw [SDict.get?_eq_none_iff.2 (fun hm => lt_irrefl _ (hl0.1 _ hm))]
        simp [hget]
      · simp [hpk]

theorem column_append (a b : TDicts α) (k : String) : column (a ++ b) k = column a k ++ column b k := by
  simp [column, List.filterMap_append]

theorem column_cons (b : String × TDict α) (d : TDicts α) (k : String) :
    column (b :: d) k = (match SDict.get? b.2 k with | some t => [t] | none => []) ++ column d k := by
  unfold column
  rw [List.filterMap_cons]
  cases SDict.get? b.2 k <;> rfl

theorem mem_column_of_mem {d : TDicts α} {b : String × TDict α} (hb : b ∈ d) {k : String}
    {t : Tensor α} (h : SDict.get? b.2 k = some t) : t ∈ column d k :=
  List.mem_filterMap.2 ⟨b, hb, h⟩

theorem column_wf {dim : Nat} {d : TDicts α} (hf : Fits dim d) {k : String} {t : Tensor α}
    (h : t ∈ column d k) : t.WF := by
  obtain ⟨b, hb, hk⟩ := List.mem_filterMap.1 h
  exact hf.wf b hb _ (SDict.mem_of_get?_eq_some hk)

/-- State of the loop after some blocks. -/
structure CatInv (k : Nat) (pre : TDicts α) (acc : TDict α) : Prop where
  sorted : SDict.Sorted acc
  get : ∀ key, SDict.get? acc key = catList k (column pre key)

theorem catLoop_inv {k : Nat} {d : TDicts α} (hf : Fits k d) (pre post : TDicts α)
    (hd : d = pre ++ post) (hpre : pre ≠ []) (acc : TDict α) (hinv : CatInv k pre acc) :
    ∃ r, catLoop (k : Int) post acc = .ok r ∧ CatInv k d r ∧ SDict.keys r = SDict.keys acc := by
  induction post generalizing pre acc with
  | nil =>
    refine ⟨acc, rfl, ?_, rfl⟩
    simpa [hd] using hinv
  | cons b post ih =>
    have hbd : b ∈ d := by simp [hd]
    obtain ⟨p0, pre', hp0⟩ := List.exists_cons_of_ne_nil hpre
    have hp0d : p0 ∈ d := by simp [hd, hp0]
    have hcat : ∀ key t, SDict.get? b.2 key = some t → ∃ x, catList k (column pre key) = some x ∧
        x.WF ∧ Compat k x.shape t.shape := by
      intro key t ht
      have hkeys := hf.sameKeys p0 hp0d b hbd
      have hkm : key ∈ SDict.keys p0.2 := by
        rw [hkeys]; exact SDict.mem_keys_of_mem (SDict.mem_of_get?_eq_some ht)
      cases h0 : SDict.get? p0.2 key with
      | none => exact absurd hkm (SDict.get?_eq_none_iff.1 h0)
      | some t0 =>
        have hcol : column pre key = t0 :: column pre' key := by
          rw [hp0, column_cons, h0]; rfl
        have hsub : ∀ y ∈ column pre key, y ∈ column d key := by
          intro y hy; rw [hd, column_append]; exact List.mem_append_left _ hy
        have ht0 : t0 ∈ column d key := hsub _ (by rw [hcol]; simp)
        have htd : t ∈ column d key := mem_column_of_mem hbd ht
        have hp := foldl_cat2_props (column pre' key) t0 (column_wf hf ht0)
          (hf.compat key t0 ht0 t0 ht0).length.2 (fun y hy => by
            have hy' : y ∈ column d key := hsub _ (by rw [hcol]; simp [hy])
            exact ⟨column_wf hf hy', hf.compat key t0 ht0 y hy'⟩)
        refine ⟨_, by rw [hcol]; rfl, hp.1, hp.2.1.trans (hf.compat key t0 ht0 t htd)⟩
    obtain ⟨r, e, hs, hk, hr⟩ := catStep_loop (k := k) b.2 (hf.sortedInner b hbd) acc hinv.sorted (by
      intro p hp
      refine ⟨hf.wf b hbd p hp, ?_⟩
      have hget := SDict.get?_eq_some_of_mem (hf.sortedInner b hbd).nodup (k := p.1) (v := p.2) hp
      obtain ⟨x, hx, hxw, hxc⟩ := hcat p.1 p.2 hget
      exact ⟨x, by rw [hinv.get, hx], hxw, hxc⟩)
    have hinv' : CatInv k (pre ++ [b]) r := by
      refine ⟨hs, ?_⟩
      intro key
      rw [hr key, hinv.get, column_append, column_cons]
      cases hb : SDict.get? b.2 key with
      | none => simp [column]
      | some t =>
        obtain ⟨x, hx, -, -⟩ := hcat key t hb
        rw [hx]
        have hnil : column ([] : TDicts α) key = [] := rfl
        simp only [Option.map_some, hnil, List.append_nil]
        exact (catList_append _ t x hx).symm
    obtain ⟨r', e', h1, h2⟩ := ih (pre ++ [b]) (by simp [hd]) (by simp) r hinv'
    refine ⟨r', ?_, h1, by rw [h2, hk]⟩
    unfold catLoop at e' ⊢
    rw [List.foldlM_cons, e]
    exact e'

theorem catStep_copy (dim : Int) (l acc : TDict α) (h : SDict.Sorted (acc ++ l)) :
    l.foldlM (catStep dim) acc = .ok (acc ++ l) := by
  induction l generalizing acc with
  | nil => simp [pure, Except.pure]
  | cons p l ih =>
    have hs := SDict.sorted_append.1 h
    have hlt : ∀ x ∈ SDict.keys acc, x < p.1 := fun x hx => hs.2.2 x hx p.1 (by simp)
    have hget : SDict.get? acc p.1 = none :=
      SDict.get?_eq_none_iff.2 (fun hm => lt_irrefl _ (hlt _ hm))
    rw [List.foldlM_cons]
    simp only [catStep, hget, SDict.set_of_forall_lt hlt]
    change (List.foldlM _ _ l : Py _) = _
    rw [ih _ (by simpa using h)]
    simp

theorem concatDicts_eq {k : Nat} {b : String × TDict α} {d : TDicts α} (hf : Fits k (b :: d)) :
    ∃ c, concatDicts (b :: d) (k : Int) = .ok c ∧ CatInv k (b :: d) c ∧
      SDict.keys c = SDict.keys b.2 := by
  have h1 : b.2.foldlM (catStep (k : Int)) [] = .ok b.2 := by
    simpa using catStep_copy (k : Int) b.2 [] (by simpa using hf.sortedInner b (by simp))
  have hinv : CatInv k [b] b.2 := by
    refine ⟨hf.sortedInner b (by simp), ?_⟩
    intro key
    rw [column_cons]
    cases SDict.get? b.2 key <;> simp [column, catList]
  obtain ⟨c, e, hc, hk⟩ := catLoop_inv hf [b] d rfl (by simp) b.2 hinv
  refine ⟨c, ?_, hc, hk⟩
  have hl : c.length = b.2.length := by
    have := congrArg List.length hk
    simpa [SDict.keys] using this
  unfold concatDicts catLoop
  rw [List.foldlM_cons, h1]
  change ((List.foldlM _ b.2 d : Py _) >>= _) = _
  unfold catLoop at e
  rw [e]
  simp [bind, Except.bind, hl]

/-! ## The splitting loop -/

/-- One block of the split result: for the `i`-th entries of `c` and of the block `b`. -/
def splitItems (k : Nat) (off : String → Nat) (c b : TDict α) : TDict α :=
  List.zipWith (fun x t => (x.1, x.2.sliceDim k (off t.1) (off t.1 + dimSize t.2.shape k))) c b

/-- Offsets after a block. -/
def bump (k : Nat) (off : String → Nat) (b : TDict α) (key : String) : Nat :=
  off key + (match SDict.get? b key with | some t => dimSize t.shape k | none => 0)

def splitAll (k : Nat) (c : TDict α) : (String → Nat) → TDicts α → TDicts α
  | _, [] => []
  | off, b :: d => (b.1, splitItems k off c b.2) :: splitAll k c (bump k off b.2) d

theorem splitStep_loop {k : Nat} (hk4 : k ≤ 4) (c g : TDict α) (c' g' : TDict α)
    (hc : ∀ p ∈ c', SDict.get? c p.1 = some p.2 ∧ k < p.2.shape.length)
    (hg : ∀ p ∈ g', SDict.get? g p.1 = some p.2 ∧ k < p.2.shape.length)
    (hg' : SDict.Sorted g')
    (acc : TDict α) (ix : SDict String Nat) (off : String → Nat) (hix : SDict.Sorted ix)
    (hoff : ∀ key ∈ SDict.keys g', (ix.get? key).getD 0 = off key)
    (hs : SDict.Sorted (acc ++ c')) (hlen : c'.length = g'.length) :
    ∃ ix', (SDict.keys c' |>.zip (SDict.keys g')).foldlM (splitStep c g (k : Int)) (acc, ix)
        = .ok (acc ++ splitItems k off c' g', ix') ∧ SDict.Sorted ix' ∧
      ∀ key, (ix'.get? key).getD 0 = match SDict.get? g' key with
        | some t => off key + dimSize t.shape k
        | none => (ix.get? key).getD 0 := by
  induction c' generalizing g' acc ix with
  | nil =>
    cases g' with
    | cons q g' => simp at hlen
    | nil => exact ⟨ix, by simp [splitItems, pure, Except.pure], hix, fun _ => rfl⟩
  | cons p c' ih =>
    cases g' with
    | nil => simp at hlen
    | cons q g' =>
      have hg0 := SDict.sorted_cons.1 hg'
      simp only [List.mem_cons, forall_eq_or_imp] at hc hg
      have hs' := SDict.sorted_append.1 hs
      have hlt : ∀ x ∈ SDict.keys acc, x < p.1 := fun x hx => hs'.2.2 x hx p.1 (by simp)
      have hq : (ix.get? q.1).getD 0 = off q.1 := hoff q.1 (by simp)
      have hqs : q.2.shape[k]? = some (dimSize q.2.shape k) := by
        rw [List.getElem?_eq_getElem hg.1.2]
        simp [dimSize, List.getD, hg.1.2]
      have hstep : splitStep c g (k : Int) (acc, ix) (p.1, q.1)
          = .ok (acc ++ [(p.1, p.2.sliceDim k (off q.1) (off q.1 + dimSize q.2.shape k))],
              ix.set q.1 (off q.1 + dimSize q.2.shape k)) := by
        have h04 : (0 : Int) ≤ (k : Int) ∧ (k : Int) ≤ 4 := by omega
        simp only [splitStep, hg.1.1, hc.1.1, hq, h04, Int.toNat_natCast, hqs, hc.1.2, if_true,
          SDict.set_of_forall_lt hlt, and_self]
      obtain ⟨ix', e, hsx, hx⟩ := ih g' hc.2 hg.2 hg0.2
        (acc ++ [(p.1, p.2.sliceDim k (off q.1) (off q.1 + dimSize q.2.shape k))])
        (ix.set q.1 (off q.1 + dimSize q.2.shape k)) (hix.set _ _)
        (by
          intro key hkey
          have hne : q.1 ≠ key := ne_of_lt (hg0.1 key hkey)
          rw [SDict.get?_set _ hix, if_neg hne]
          exact hoff key (by simp [hkey]))
        (by
          have : SDict.keys (acc ++ [(p.1, p.2.sliceDim k (off q.1) (off q.1 + dimSize q.2.shape k))] ++ c')
              = SDict.keys (acc ++ p :: c') := by simp
          unfold SDict.Sorted at hs ⊢
          rwa [this]) (by simpa using hlen)
      refine ⟨ix', ?_, hsx, ?_⟩
      · rw [SDict.keys_cons, SDict.keys_cons, List.zip_cons_cons, List.foldlM_cons, hstep]
        change (List.foldlM _ _ _ : Py _) = _
        rw [e]
        simp [splitItems]
      · intro key
        rw [hx key, SDict.get?_cons]
        by_cases hqk : q.1 = key
        · subst hqk
          rw [SDict.get?_eq_none_iff.2 (fun hm => lt_irrefl _ (hg0.1 _ hm))]
          simp [SDict.get?_set _ hix]
        · simp [hqk, SDict.get?_set _ hix]

theorem splitDicts_loop {k : Nat} (hk4 : k ≤ 4) (c : TDict α) (hcs : SDict.Sorted c)
    (hck : ∀ p ∈ c, k < p.2.shape.length) (d : TDicts α)
    (hd : ∀ b ∈ d, SDict.Sorted b.2 ∧ (∀ p ∈ b.2, k < p.2.shape.length) ∧ b.2.length = c.length)
    (acc : TDicts α) (ix : SDict String Nat) (off : String → Nat) (hix : SDict.Sorted ix)
    (hoff : ∀ key, (ix.get? key).getD 0 = off key) (hs : SDict.Sorted (acc ++ d)) :
    ∃ ix', d.foldlM (splitBlock c (k : Int)) (acc, ix) = .ok (acc ++ splitAll k c off d, ix') := by
  induction d generalizing acc ix off with
  | nil => exact ⟨ix, by simp [splitAll, pure, Except.pure]⟩
  | cons b d ih =>
    simp only [List.mem_cons, forall_eq_or_imp] at hd
    obtain ⟨ix', e, hsx, hx⟩ := splitStep_loop hk4 c b.2 c b.2
      (fun p hp => ⟨SDict.get?_eq_some_of_mem hcs.nodup hp, hck p hp⟩)
      (fun p hp => ⟨SDict.get?_eq_some_of_mem hd.1.1.nodup hp, hd.1.2.1 p hp⟩) hd.1.1 [] ix off hix
      (fun key _ => hoff key) (by simpa using hcs) hd.1.2.2.symm
    have hs' := SDict.sorted_append.1 hs
    have hlt : ∀ x ∈ SDict.keys acc, x < b.1 := fun x hx => hs'.2.2 x hx b.1 (by simp)
    have hstep : splitBlock c (k : Int) (acc, ix) b
        = .ok (acc ++ [(b.1, splitItems k off c b.2)], ix') := by
      simp only [splitBlock]
      have : (c.keys.zip b.2.keys).foldlM (splitStep c b.2 (k : Int)) ([], ix)
        = .ok (splitItems k off c b.2, ix') := by simpa using e
      rw [this]
      simp [bind, Except.bind, SDict.set_of_forall_lt hlt]
    obtain ⟨ix'', e'⟩ := ih hd.2 (acc ++ [(b.1, splitItems k off c b.2)]) ix' (bump k off b.2) hsx
      (by
        intro key
        rw [hx key, bump]
        cases SDict.get? b.2 key with
        | none => simp [hoff key]
        | some t => rfl)
      (by
        have : SDict.keys (acc ++ [(b.1, splitItems k off c b.2)] ++ d)
            = SDict.keys (acc ++ b :: d) := by simp
        unfold SDict.Sorted at hs ⊢
        rwa [this])
    refine ⟨ix'', ?_⟩
    rw [List.foldlM_cons, hstep]
    change (List.foldlM _ _ _ : Py _) = _
    rw [e']
    simp [splitAll]

theorem splitDicts_eq {k : Nat} (hk4 : k ≤ 4) (c : TDict α) (hcs : SDict.Sorted c)
    (hck : ∀ p ∈ c, k < p.2.shape.length) (d : TDicts α) (hds : SDict.Sorted d)
    (hd : ∀ b ∈ d, SDict.Sorted b.2 ∧ (∀ p ∈ b.2, k < p.2.shape.length) ∧ b.2.length = c.length) :
    splitDicts c d (k : Int) = .ok (splitAll k c (fun _ => 0) d) := by
  obtain ⟨ix', e⟩ := splitDicts_loop hk4 c hcs hck d hd [] [] (fun _ => 0) (by simp)
    (by intro key; rfl) (by simpa using hds)
  unfold splitDicts
  rw [e]
  simp [bind, Except.bind]

/-! ## Splitting gives the blocks back -/

theorem columnSize_append (k : Nat) (a b : TDicts α) (key : String) :
    columnSize k (a ++ b) key = columnSize k a key + columnSize k b key := by
  simp [columnSize, column_append]

theorem bump_columnSize (k : Nat) (pre : TDicts α) (b : String × TDict α) :
    bump k (columnSize k pre) b.2 = columnSize k (pre ++ [b]) := by
  funext key
  rw [columnSize_append, bump]
  congr 1
  rw [columnSize, column_cons]
  cases SDict.get? b.2 key <;> simp [column]

theorem splitItems_eq_self {k : Nat} {off : String → Nat} (c b : TDict α)
    (hk : SDict.keys c = SDict.keys b)
    (h : ∀ p ∈ c, ∀ q ∈ b, p.1 = q.1 →
      p.2.sliceDim k (off q.1) (off q.1 + dimSize q.2.shape k) = q.2) :
    splitItems k off c b = b := by
  induction c generalizing b with
  | nil => cases b with
    | nil => rfl
    | cons q b => simp at hk
  | cons p c ih => cases b with
    | nil => simp at hk
    | cons q b =>
      simp only [SDict.keys_cons, List.cons.injEq] at hk
      have h1 := h p (by simp) q (by simp) hk.1
      have h2 := ih b hk.2 (fun p' hp' q' hq' => h p' (by simp [hp']) q' (by simp [hq']))
      unfold splitItems at h2 ⊢
      rw [List.zipWith_cons_cons, h2, h1, hk.1]

theorem splitAll_eq_self {k : Nat} {d : TDicts α} (hf : Fits k d) (c : TDict α)
    (hc : CatInv k d c) (hkeys : ∀ b ∈ d, SDict.keys c = SDict.keys b.2)
    (pre post : TDicts α) (hd : d = pre ++ post) :
    splitAll k c (columnSize k pre) post = post := by
  induction post generalizing pre with
  | nil => rfl
  | cons b post ih =>
    have hbd : b ∈ d := by simp [hd]
    rw [splitAll, bump_columnSize, ih (pre ++ [b]) (by simp [hd])]
    have : splitItems k (columnSize k pre) c b.2 = b.2 := by
      apply splitItems_eq_self _ _ (hkeys b hbd)
      intro p hp q hq hpq
      have hq' : SDict.get? b.2 q.1 = some q.2 :=
        SDict.get?_eq_some_of_mem (hf.sortedInner b hbd).nodup hq
      have hp' : SDict.get? c p.1 = some p.2 := SDict.get?_eq_some_of_mem hc.sorted.nodup hp
      rw [hc.get, hpq] at hp'
      have hcol : column d q.1 = column pre q.1 ++ q.2 :: column post q.1 := by
        rw [hd, column_append, column_cons, hq']; rfl
      have hqd : q.2 ∈ column d q.1 := by rw [hcol]; simp
      refine catList_slice (column pre q.1) (column post q.1) q.2 p.2 ?_ (by rw [← hcol]; exact hp')
      intro y hy
      rw [← hcol] at hy
      exact ⟨column_wf hf hy, hf.compat _ _ hqd _ hy⟩
    rw [this]

/-! ## Concatenating the pieces again -/

/-- Adjacent slices of `x` with the sizes of `ts`. -/
def slicesOf (k : Nat) (x : Tensor α) : Nat → List (Tensor α) → List (Tensor α)
  | _, [] => []
  | off, t :: ts => x.sliceDim k off (off + dimSize t.shape k) ::
      slicesOf k x (off + dimSize t.shape k) ts

theorem foldl_slicesOf {k : Nat} {x : Tensor α} (hx : x.WF) (hk : k < x.shape.length)
    (ts : List (Tensor α)) (n : Nat)
    (hn : n + (ts.map (fun t => dimSize t.shape k)).sum ≤ dimSize x.shape k) :
    (slicesOf k x n ts).foldl (cat2 k) (x.sliceDim k 0 n)
      = x.sliceDim k 0 (n + (ts.map (fun t => dimSize t.shape k)).sum) := by
  induction ts generalizing n with
  | nil => simp [slicesOf]
  | cons t ts ih =>
    simp only [List.map_cons, List.sum_cons] at hn ⊢
    rw [slicesOf, List.foldl_cons, cat2_sliceDim_adjacent hx hk n _ (by omega), ih _ (by omega),
      Nat.add_assoc]

theorem catList_slicesOf {k : Nat} {x : Tensor α} (hx : x.WF) (hk : k < x.shape.length)
    (ts : List (Tensor α)) (hne : ts ≠ [])
    (hn : (ts.map (fun t => dimSize t.shape k)).sum = dimSize x.shape k) :
    catList k (slicesOf k x 0 ts) = some x := by
  cases ts with
  | nil => exact absurd rfl hne
  | cons t ts =>
    simp only [List.map_cons, List.sum_cons] at hn
    rw [slicesOf, catList, Nat.zero_add, foldl_slicesOf hx hk ts _ (by omega), hn,
      sliceDim_full hx hk]

theorem keys_splitItems {k : Nat} {off : String → Nat} (c b : TDict α) (h : c.length = b.length) :
    SDict.keys (splitItems k off c b) = SDict.keys c := by
  unfold splitItems SDict.keys
  rw [List.map_zipWith]
  induction c generalizing b with
  | nil => simp
  | cons p c ih => cases b with
    | nil => simp at h
    | cons q b => simp [ih b (by simpa using h)]

theorem get?_splitItems {k : Nat} {off : String → Nat} (c b : TDict α) (hc : SDict.Sorted c)
    (h : c.length = b.length) (i : Nat) (x t : String × Tensor α) (hx : c[i]? = some x)
    (ht : b[i]? = some t) :
    SDict.get? (splitItems k off c b) x.1
      = some (x.2.sliceDim k (off t.1) (off t.1 + dimSize t.2.shape k)) := by
  have hs : SDict.Sorted (splitItems k off c b) := by
    unfold SDict.Sorted; rw [keys_splitItems c b h]; exact hc
  apply SDict.get?_eq_some_of_mem hs.nodup
  have : (splitItems k off c b)[i]? = some (x.1, x.2.sliceDim k (off t.1) (off t.1 + dimSize t.2.shape k)) := by
    simp [splitItems, List.getElem?_zipWith, hx, ht]
  exact List.mem_of_getElem? this

theorem column_splitAll {k : Nat} (c : TDict α) (hc : SDict.Sorted c) (ks : List String)
    (hl : c.length = ks.length) (d : TDicts α)
    (hd : ∀ b ∈ d, SDict.Sorted b.2 ∧ SDict.keys b.2 = ks)
    (i : Nat) (x : String × Tensor α) (key : String) (hx : c[i]? = some x) (hkey : ks[i]? = some key)
    (off : String → Nat) :
    column (splitAll k c off d) x.1 = slicesOf k x.2 (off key) (column d key) := by
  induction d generalizing off with
  | nil => rfl
  | cons b d ih =>
    simp only [List.mem_cons, forall_eq_or_imp] at hd
    obtain ⟨⟨hbs, hbk⟩, hd⟩ := hd
    have hbl : c.length = b.2.length := by
      rw [hl, ← hbk]; simp [SDict.keys]
    have hbi : ∃ t, b.2[i]? = some (key, t) := by
      have : (SDict.keys b.2)[i]? = some key := by rw [hbk]; exact hkey
      simp only [SDict.keys, List.getElem?_map, Option.map_eq_some_iff] at this
      obtain ⟨p, hp, rfl⟩ := this
      exact ⟨p.2, hp⟩
    obtain ⟨t, ht⟩ := hbi
    have hget : SDict.get? b.2 key = some t :=
      SDict.get?_eq_some_of_mem hbs.nodup (List.mem_of_getElem? ht)
    rw [splitAll, column_cons, get?_splitItems c b.2 hc hbl i x (key, t) hx ht, column_cons, hget]
    simp only [List.cons_append, List.nil_append, slicesOf]
    rw [ih hd]
    simp [bump, hget]

theorem mem_splitAll {k : Nat} (c : TDict α) (d : TDicts α) (off : String → Nat)
    (r : String × TDict α) (hr : r ∈ splitAll k c off d) :
    ∃ b ∈ d, ∃ off', r = (b.1, splitItems k off' c b.2) := by
  induction d generalizing off with
  | nil => cases hr
  | cons b d ih =>
    rw [splitAll, List.mem_cons] at hr
    rcases hr with rfl | hr
    · exact ⟨b, by simp, off, rfl⟩
    · obtain ⟨b', hb', off', e⟩ := ih _ hr
      exact ⟨b', by simp [hb'], off', e⟩

theorem keys_splitAll {k : Nat} (c : TDict α) (d : TDicts α) (off : String → Nat) :
    SDict.keys (splitAll k c off d) = SDict.keys d := by
  induction d generalizing off with
  | nil => rfl
  | cons b d ih => simp [splitAll, ih]

theorem mem_splitItems {k : Nat} {off : String → Nat} (c b : TDict α) (p : String × Tensor α)
    (hp : p ∈ splitItems k off c b) : ∃ x ∈ c, ∃ lo hi, p = (x.1, x.2.sliceDim k lo hi) := by
  unfold splitItems at hp
  rw [List.mem_iff_getElem?] at hp
  obtain ⟨i, hi⟩ := hp
  rw [List.getElem?_zipWith] at hi
  cases hx : c[i]? with
  | none => simp [hx] at hi
  | some x =>
    cases hb : b[i]? with
    | none => simp [hx, hb] at hi
    | some t =>
      simp only [hx, hb, Option.some.injEq] at hi
      exact ⟨x, List.mem_of_getElem? hx, _, _, hi.symm⟩

/-! ## What a successful concatenation says about the shapes -/

/-- `a` is what has been concatenated so far for a key, `ts` the tensors it was made of. -/
def ShapeInv (k : Nat) (a : Option (Tensor α)) (ts : List (Tensor α)) : Prop :=
  match a with
  | none => ts = []
  | some a => (a.shape = [0] → ∀ t ∈ ts, t.shape = [0]) ∧
      (∀ t ∈ ts, t.shape = [0] ∨ a.shape = t.shape ∨ Compat k a.shape t.shape) ∧
      ts.Pairwise (fun t t' => t.shape = [0] ∨ t'.shape = [0] ∨ Compat k t.shape t'.shape)

theorem shapeInv_cat {k : Nat} {a t r : Tensor α} {ts : List (Tensor α)}
    (h : ShapeInv k (some a) ts) (hr : cat a t (k : Int) = .ok r) :
    ShapeInv k (some r) (ts ++ [t]) := by
  obtain ⟨h1, h2, h3⟩ := h
  simp only [ShapeInv, List.mem_append, List.mem_singleton, List.pairwise_append,
    List.pairwise_singleton, true_and, forall_eq]
  unfold cat at hr
  split at hr
  · next ha =>
    split at hr
    · cases hr
    · cases hr
      have h1' := h1 ha
      refine ⟨?_, ?_, h3, fun x hx => Or.inl (h1' x hx)⟩
      · rintro hr t' (ht' | rfl)
        · exact h1' t' ht'
        · exact hr
      · rintro t' (ht' | rfl)
        · exact Or.inl (h1' t' ht')
        · exact Or.inr (Or.inl rfl)
  · next ha =>
    split at hr
    · next ht =>
      split at hr
      · cases hr
      · cases hr
        refine ⟨fun h => absurd h ha, ?_, h3, fun x hx => Or.inr (Or.inl ht)⟩
        rintro t' (ht' | rfl)
        · exact h2 t' ht'
        · exact Or.inl ht
    · next ht =>
      split at hr
      · cases hr
      · next k' hk' =>
        have : k' = k := by
          simp only [normDim, Int.natCast_nonneg, if_true, Int.toNat_natCast] at hk'
          split at hk'
          · exact (Option.some.inj hk').symm
          · cases hk'
        subst this
        split at hr
        · next hc =>
          cases hr
          have hcc := compat_cat2 hc
          refine ⟨?_, ?_, h3, ?_⟩
          · intro h0
            exfalso
            apply ha
            have hl := hcc.length
            rw [h0] at hl
            obtain ⟨m, hm⟩ := List.length_eq_one_iff.1 (by simpa using hl.1.symm : a.shape.length = 1)
            have hk0 : k' = 0 := by simp at hl; omega
            subst hk0
            have := dimSize_cat2 hc
            rw [h0, hm] at this
            simp [dimSize] at this
            have hm0 : m = 0 := by omega
            rw [hm, hm0]
          · rintro t' (ht' | rfl)
            · rcases h2 t' ht' with h | h | h
              · exact Or.inl h
              · exact Or.inr (Or.inr (h ▸ hcc))
              · exact Or.inr (Or.inr (hcc.trans h))
            · exact Or.inr (Or.inr (hcc.trans hc))
          · intro x hx
            rcases h2 x hx with h | h | h
            · exact Or.inl h
            · exact Or.inr (Or.inr (h ▸ hc))
            · exact Or.inr (Or.inr (h.symm.trans hc))
        · cases hr

theorem shapeInv_step {k : Nat} (l : TDict α) (hl : SDict.Sorted l) (acc r : TDict α)
    (pre : String → List (Tensor α)) (h : l.foldlM (catStep (k : Int)) acc = .ok r)
    (hacc : SDict.Sorted acc) (hinv : ∀ key, ShapeInv k (SDict.get? acc key) (pre key)) :
    SDict.Sorted r ∧
      ∀ key, ShapeInv k (SDict.get? r key) (pre key ++ (SDict.get? l key).toList) := by
  induction l generalizing acc pre with
  | nil =>
    simp only [List.foldlM_nil, pure, Except.pure, Except.ok.injEq] at h
    subst h
    exact ⟨hacc, by simpa using hinv⟩
  | cons p l ih =>
    have hl0 := SDict.sorted_cons.1 hl
    rw [List.foldlM_cons] at h
    cases hs : catStep (k : Int) acc p with
    | error e => rw [hs] at h; cases h
    | ok acc' =>
      rw [hs] at h
      have hnew : ∃ v, acc' = SDict.set acc p.1 v ∧ ShapeInv k (some v) (pre p.1 ++ [p.2]) := by
        have hp := hinv p.1
        unfold catStep at hs
        split at hs
        · next hg =>
          rw [hg] at hp
          refine ⟨_, (Except.ok.inj hs).symm, ?_⟩
          have : pre p.1 = [] := hp
          rw [this]
          simp [ShapeInv]
        · next a hg =>
          rw [hg] at hp
          split at hs
          · next v hv => exact ⟨v, (Except.ok.inj hs).symm, shapeInv_cat hp hv⟩
          · cases hs
      obtain ⟨v, rfl, hv⟩ := hnew
      obtain ⟨h1, h2⟩ := ih hl0.2 (SDict.set acc p.1 v)
        (fun key => if p.1 = key then pre key ++ [p.2] else pre key) h (hacc.set _ _) (by
          intro key
          rw [SDict.get?_set _ hacc]
          by_cases hk : p.1 = key
          · subst hk; simpa using hv
          · simpa [hk] using hinv key)
      refine ⟨h1, fun key => ?_⟩
      have := h2 key
      rw [SDict.get?_cons]
      by_cases hk : p.1 = key
      · subst hk
        rw [SDict.get?_eq_none_iff.2 (fun hm => lt_irrefl _ (hl0.1 _ hm))] at this
        simpa using this
      · simpa [hk] using this

theorem shapeInv_loop {k : Nat} (d : TDicts α) (hd : ∀ b ∈ d, SDict.Sorted b.2) (acc r : TDict α)
    (pre : String → List (Tensor α)) (h : catLoop (k : Int) d acc = .ok r)
    (hacc : SDict.Sorted acc) (hinv : ∀ key, ShapeInv k (SDict.get? acc key) (pre key)) :
    ∀ key, ShapeInv k (SDict.get? r key) (pre key ++ column d key) := by
  induction d generalizing acc pre with
  | nil =>
    simp only [catLoop, List.foldlM_nil, pure, Except.pure, Except.ok.injEq] at h
    subst h
    simpa [column] using hinv
  | cons b d ih =>
    simp only [List.mem_cons, forall_eq_or_imp] at hd
    unfold catLoop at h
    rw [List.foldlM_cons] at h
    cases hs : b.2.foldlM (catStep (k : Int)) acc with
    | error e => rw [hs] at h; cases h
    | ok acc' =>
      rw [hs] at h
      obtain ⟨h1, h2⟩ := shapeInv_step b.2 hd.1 acc acc' pre hs hacc hinv
      intro key
      have := ih hd.2 acc' _ h h1 h2 key
      rw [column_cons]
      cases hg : SDict.get? b.2 key <;> simpa [hg] using this

end Verif.Concat
