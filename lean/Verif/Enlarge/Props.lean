import Verif.Enlarge.Lemmas

/-!
# C23, C24: enlarging tensors
-/

namespace Verif.Enlarge
open Verif Tensor

variable {α : Type}

/-! ## C23 -/

/-- **C23.** Enlarging a tensor to a target size that is at least as large in every dimension and has the same number of channels, with as
many new values as entries are missing: the result has the target size, contains the original in the middle and every new value
exactly once. -/
theorem C23_enlarge (t : Tensor α) (ht : t.WF) (target : List Nat) (hfit : Fits t.shape target)
    (h2 : 2 ≤ t.shape.length) (hch : t.shape[1]? = target[1]?) (pars : List α)
    (hp : pars.length = vol target - vol t.shape) :
    ∃ r, enlargeTensor t pars (List.zipWith (fun (c n : Nat) => (n : Int) - (c : Int)) t.shape target) = .ok r ∧
      Enlarged t target pars r := by
  have hcast := diffs_cast hfit
  have hadd := addFrom_diffs hfit
  obtain ⟨r, h1, h3, h4, h5, h6⟩ := growLoop_ok pars 0 (diffs t.shape target) t 0 ht
    (by simp [diffs]) (by rw [hadd, hp]; omega)
  rw [hadd] at h4 h6
  have h1' : 1 < t.shape.length := by omega
  have h1'' : 1 < target.length := by rw [← hfit.1]; omega
  refine ⟨r, ?_, h3, h4, ?_, ?_⟩
  · rw [hcast]
    unfold enlargeTensor
    have hone : ((diffs t.shape target).map (fun (d : Nat) => (d : Int)))[1]? = some 0 := by
      rw [List.getElem?_eq_getElem h1', List.getElem?_eq_getElem h1''] at hch
      simp only [Option.some.injEq] at hch
      simp [diffs, h1', h1'', hch]
    rw [hone]
    simp only [ne_eq, not_true_eq_false, if_false]
    exact h1
  · intro idx x hx
    have := h5 idx x hx
    rwa [addFrom_half hfit.1] at this
  · rw [List.drop_zero, List.take_of_length_le (by omega)] at h6
    exact h6

/-- **C23.** The embedding keeps distinct entries distinct and in range, so the original is really contained. -/
theorem C23_embedding (current target idx idx' : List Nat) (hl : idx.length = idx'.length)
    (h : shifted current target idx = shifted current target idx') : idx = idx' := by
  apply List.ext_getElem?
  intro i
  have := congrArg (fun l => l[i]?) h
  simp only [shifted, List.getElem?_mapIdx] at this
  by_cases hi : i < idx.length
  · have hi' : i < idx'.length := by omega
    simp only [List.getElem?_eq_getElem hi, List.getElem?_eq_getElem hi', Option.map_some,
      Option.some.injEq, Nat.add_right_cancel_iff] at this ⊢
    exact this
  · rw [List.getElem?_eq_none (by omega), List.getElem?_eq_none (by omega)]

/-- **C23.** A change of the number of channels is rejected. -/
theorem C23_channels_fixed (t : Tensor α) (pars : List α) (diff : List Int) (d : Int)
    (h : diff[1]? = some d) (hd : d ≠ 0) : enlargeTensor t pars diff = .error .valueError := by
  unfold enlargeTensor
  rw [h]
  simp [hd]

/-- **C23.** Too few new values are a `RuntimeError`. -/
theorem C23_too_few (t : Tensor α) (ht : t.WF) (target : List Nat) (hfit : Fits t.shape target)
    (h2 : 2 ≤ t.shape.length) (hch : t.shape[1]? = target[1]?) (pars : List α)
    (hp : pars.length < vol target - vol t.shape) :
    enlargeTensor t pars ((diffs t.shape target).map (fun (d : Nat) => (d : Int))) = .error .runtimeError := by
  have h1' : 1 < t.shape.length := by omega
  have h1'' : 1 < target.length := by rw [← hfit.1]; omega
  unfold enlargeTensor
  have hone : ((diffs t.shape target).map (fun (d : Nat) => (d : Int)))[1]? = some 0 := by
    rw [List.getElem?_eq_getElem h1', List.getElem?_eq_getElem h1''] at hch
    simp only [Option.some.injEq] at hch
    simp [diffs, h1', h1'', hch]
  rw [hone]
  simp only [ne_eq, not_true_eq_false, if_false]
  apply growLoop_short pars 0 _ t 0 ht (by simp [diffs]) (by omega)
  rw [addFrom_diffs hfit]; omega

/-- a 1 × 1 × 2 tensor in the middle of a 1 × 1 × 5 tensor (one new value before, two after) -/
example : enlargeTensor (⟨[1, 1, 2], [10, 20]⟩ : Tensor Nat) [1, 2, 3] [0, 0, 3]
    = .ok ⟨[1, 1, 5], [1, 10, 20, 2, 3]⟩ := by rfl
example : Fits [1, 1, 2] [1, 1, 5] ∧ ([1, 1, 2] : List Nat)[1]? = ([1, 1, 5] : List Nat)[1]? := by
  refine ⟨⟨rfl, ?_⟩, rfl⟩
  intro i c t h1 h2
  match i with
  | 0 => cases h1; cases h2; decide
  | 1 => cases h1; cases h2; decide
  | 2 => cases h1; cases h2; decide
  | n + 3 => simp at h1
/-- growing two dimensions of a 1 × 1 × 1 × 1 tensor to 3 × 2 -/
example : enlargeTensor (⟨[1, 1, 1, 1], [100]⟩ : Tensor Nat) [1, 2, 3, 4, 5] [0, 0, 2, 1]
    = .ok ⟨[1, 1, 3, 2], [1, 3, 100, 4, 2, 5]⟩ := by rfl

/-! ## C24 -/

/-- **C24.** For a desired size that is at least the current size: nothing is created if the sizes agree, otherwise exactly the
number of parameters that are missing, together with the size differences. -/
theorem C24_created (cur target : List Nat) (h : Fits cur target) :
    createOne target cur = .ok (if cur = target then none else
      some (vol target - vol cur, List.zipWith (fun (c n : Nat) => (n : Int) - (c : Int)) cur target)) := by
  rw [createOne_fits h, diffs_cast h]

/-- **C24.** A desired size that is smaller in some dimension is rejected. -/
theorem C24_smaller_rejected (cur target : List Nat) (hl : cur.length = target.length)
    (h : ¬ Fits cur target) : createOne target cur = .error .valueError := by
  have key : ∀ (cs : List Nat) (i : Nat), i + cs.length ≤ target.length →
      (∃ (j c d : Nat), cs[j]? = some c ∧ target[i + j]? = some d ∧ d < c) →
      diffLoop target i cs = .error .valueError := by
    intro cs
    induction cs with
    | nil => rintro i _ ⟨j, c, d, h1, _⟩; simp at h1
    | cons c cs ih =>
      rintro i hlen ⟨j, c', d, h1, h2, h3⟩
      have hi : i < target.length := by simp at hlen; omega
      rw [diffLoop, List.getElem?_eq_getElem hi]
      simp only
      split
      · rfl
      · next hge =>
        cases j with
        | zero =>
          simp only [List.getElem?_cons_zero, Option.some.injEq] at h1
          rw [Nat.add_zero, List.getElem?_eq_getElem hi, Option.some.injEq] at h2
          omega
        | succ j =>
          rw [ih (i + 1) (by simp at hlen; omega) ⟨j, c', d, by simpa using h1,
            by rw [show i + 1 + j = i + (j + 1) by omega]; exact h2, h3⟩]
          rfl
  unfold createOne
  rw [key cur 0 (by omega) ?_]
  · rfl
  · by_contra hcon
    apply h
    refine ⟨hl, fun i c t h1 h2 => ?_⟩
    by_contra hlt
    exact hcon ⟨i, c, t, h1, by simpa using h2, by omega⟩

/-- **C24.** What is created is what the enlargement needs: creating and enlarging a tensor always works and gives the
target size (any number of values the initializer produces, as long as it is the requested number). -/
theorem C24_create_then_enlarge (t : Tensor α) (ht : t.WF) (target : List Nat) (hfit : Fits t.shape target)
    (h2 : 2 ≤ t.shape.length) (hch : t.shape[1]? = target[1]?) (mk : Nat → List α)
    (hmk : ∀ n, (mk n).length = n) :
    ∃ e r, createOne target t.shape = .ok e ∧
      enlargeEntry (t, e.map (fun c => (mk c.1, c.2))) = .ok r ∧
      Enlarged t target (mk (vol target - vol t.shape)) r := by
  rw [C24_created _ _ hfit]
  by_cases hc : t.shape = target
  · refine ⟨_, t, by rw [if_pos hc], rfl, ht, hc, ?_, ?_⟩
    · intro idx x hx
      have : shifted t.shape target idx = idx := by
        rw [hc]
        apply List.ext_getElem?
        intro i
        simp [shifted, List.getElem?_mapIdx]
      rw [this]; exact hx
    · have : mk (vol target - vol t.shape) = [] := by
        apply List.length_eq_zero_iff.1
        rw [hmk, hc, Nat.sub_self]
      rw [this, List.append_nil]
  · obtain ⟨r, h1, h2⟩ := C23_enlarge t ht target hfit h2 hch (mk (vol target - vol t.shape)) (hmk _)
    rw [if_neg hc]
    exact ⟨_, r, rfl, h1, h2⟩

/-- **C24.** The whole operation on dictionaries of dictionaries.  If every block has the keys of the desired dictionary and
every tensor fits into the desired size (with its own number of channels), parameters can be created and the enlargement works: all
names are kept and every tensor is enlarged to the desired size, using exactly the parameters created for it. -/
theorem C24_dictionaries (mk : String → String → Nat → List α) (hmk : ∀ dk k n, (mk dk k n).length = n)
    (g : Dicts.DDict (Tensor α)) (hg : SDict.Sorted g) (hgs : ∀ b ∈ g, SDict.Sorted b.2)
    (desired : SDict String (Tensor α)) (hd : SDict.Sorted desired) (hne : desired ≠ []) (dims : List Nat)
    (hkeys : ∀ b ∈ g, SDict.keys b.2 = SDict.keys desired) (hwf : ∀ b ∈ g, ∀ p ∈ b.2, p.2.WF)
    (hfit : ∀ b ∈ g, ∀ k t D, SDict.get? b.2 k = some t → SDict.get? desired k = some D →
      2 ≤ t.shape.length ∧ Fits t.shape (D.shape.set 1 (dimSize t.shape 1))) :
    ∃ enl r, create mk g (some desired) (some dims) = .ok (some enl) ∧ enlargeDicts g (some enl) = .ok r ∧
      SDict.keys r = SDict.keys g ∧
      ∀ dk b, SDict.get? g dk = some b → ∃ b', SDict.get? r dk = some b' ∧ SDict.keys b' = SDict.keys b ∧
        ∀ k t D, SDict.get? b k = some t → SDict.get? desired k = some D →
          ∃ t', SDict.get? b' k = some t' ∧
            Enlarged t (D.shape.set 1 (dimSize t.shape 1))
              (mk dk k (vol (D.shape.set 1 (dimSize t.shape 1)) - vol t.shape)) t' := by
  -- the entry created for key `k` of block `b`
  let ent : String → String × SDict String (Tensor α) → Entry α := fun k b =>
    match SDict.get? desired k, SDict.get? b.2 k with
    | some D, some t => (match entryFor mk D.shape k b.1 t with | .ok e => e | .error _ => none)
    | _, _ => none
  have hone : ∀ b ∈ g, ∀ k t D, SDict.get? b.2 k = some t → SDict.get? desired k = some D →
      entryFor mk D.shape k b.1 t = .ok (ent k b) ∧ ∃ t', enlargeEntry (t, ent k b) = .ok t' ∧
        Enlarged t (D.shape.set 1 (dimSize t.shape 1))
          (mk b.1 k (vol (D.shape.set 1 (dimSize t.shape 1)) - vol t.shape)) t' := by
    intro b hb k t D ht hD
    obtain ⟨h2, hf⟩ := hfit b hb k t D ht hD
    have htwf : t.WF := hwf b hb (k, t) (SDict.mem_of_get?_eq_some ht)
    have hl : 1 < D.shape.length := by have := hf.1; rw [List.length_set] at this; omega
    have hl' : 1 < t.shape.length := by omega
    have hch : t.shape[1]? = (D.shape.set 1 (dimSize t.shape 1))[1]? := by
      simp [dimSize, List.getD, hl, hl']
    obtain ⟨e, r, h1, h3, h4⟩ := C24_create_then_enlarge t htwf _ hf h2 hch (mk b.1 k) (hmk b.1 k)
    have hset : setChannel D.shape t.shape = .ok (D.shape.set 1 (dimSize t.shape 1)) := by
      unfold setChannel
      simp [hl, hl', dimSize, List.getD]
    have hentry : entryFor mk D.shape k b.1 t = .ok (e.map (fun c => (mk b.1 k c.1, c.2))) := by
      unfold entryFor
      rw [hset]
      simp only [bind, Except.bind, h1]
    have hent : ent k b = e.map (fun c => (mk b.1 k c.1, c.2)) := by
      simp only [ent, hD, ht, hentry]
    rw [hent]
    exact ⟨hentry, r, h3, h4⟩
  have hcreate := create_ok (mk := mk) ent g hg desired hd hne dims (by
    intro p hp b hb
    have hpk : p.1 ∈ SDict.keys b.2 := by rw [hkeys b hb]; exact SDict.mem_keys_of_mem hp
    obtain ⟨t, ht⟩ : ∃ t, SDict.get? b.2 p.1 = some t := by
      cases hx : SDict.get? b.2 p.1 with
      | none => exact absurd hpk (SDict.get?_eq_none_iff.1 hx)
      | some t => exact ⟨t, rfl⟩
    exact ⟨t, ht, (hone b hb p.1 t p.2 ht (SDict.get?_eq_some_of_mem hd.nodup hp)).1⟩)
  -- the enlargement of one block
  have hblock : ∀ b ∈ g, ∃ b', SDict.mapLoop enlargeEntry
      (zipItems b.2 ((SDict.keys desired).map (fun k => (k, ent k b)))) = .ok b' ∧
      SDict.keys b' = SDict.keys b.2 ∧ ∀ k t D, SDict.get? b.2 k = some t → SDict.get? desired k = some D →
          ∃ t', SDict.get? b' k = some t' ∧
            Enlarged t (D.shape.set 1 (dimSize t.shape 1))
              (mk b.1 k (vol (D.shape.set 1 (dimSize t.shape 1)) - vol t.shape)) t' := by
    intro b hb
    rw [← hkeys b hb, zipItems_keys]
    have hk : SDict.keys (b.2.map (fun p => (p.1, (p.2, ent p.1 b)))) = SDict.keys b.2 := by
      simp [SDict.keys, Function.comp_def]
    have hs : SDict.Sorted (b.2.map (fun p => (p.1, (p.2, ent p.1 b)))) := by
      unfold SDict.Sorted; rw [hk]; exact hgs b hb
    have hdes : ∀ k t, SDict.get? b.2 k = some t → ∃ D, SDict.get? desired k = some D := by
      intro k t ht
      have hkk : k ∈ SDict.keys desired := by
        rw [← hkeys b hb]
        exact SDict.mem_keys_of_mem (SDict.mem_of_get?_eq_some ht)
      cases hx : SDict.get? desired k with
      | none => exact absurd hkk (SDict.get?_eq_none_iff.1 hx)
      | some D => exact ⟨D, rfl⟩
    obtain ⟨b', hb'⟩ := SDict.exists_mapsTo (f := enlargeEntry)
      (b.2.map (fun p => (p.1, (p.2, ent p.1 b)))) (by
        intro q hq
        obtain ⟨p, hp, rfl⟩ := List.mem_map.1 hq
        have hp' := SDict.get?_eq_some_of_mem (hgs b hb).nodup (k := p.1) (v := p.2) hp
        obtain ⟨D, hD⟩ := hdes _ _ hp'
        obtain ⟨_, t', ht', _⟩ := hone b hb p.1 p.2 D hp' hD
        exact ⟨t', ht'⟩)
    refine ⟨b', (SDict.mapLoop_ok_iff hs b').2 hb', hb'.keys.trans hk, ?_⟩
    intro k t D ht hD
    obtain ⟨_, t', h1, h2⟩ := hone b hb k t D ht hD
    have hin : SDict.get? (b.2.map (fun p => (p.1, (p.2, ent p.1 b)))) k = some (t, ent k b) := by
      apply SDict.get?_eq_some_of_mem hs.nodup
      exact List.mem_map.2 ⟨(k, t), SDict.mem_of_get?_eq_some ht, rfl⟩
    obtain ⟨w, hw1, hw2⟩ := hb'.get? hin
    rw [h1] at hw1
    cases hw1
    exact ⟨t', hw2, h2⟩
  have hzip := zipItems_map g (row ent (SDict.keys desired))
  have hkz : SDict.keys (g.map (fun b => (b.1, (b.2, (row ent (SDict.keys desired) b).2)))) = SDict.keys g := by
    simp [SDict.keys, Function.comp_def]
  have hsz : SDict.Sorted (g.map (fun b => (b.1, (b.2, (row ent (SDict.keys desired) b).2)))) := by
    unfold SDict.Sorted; rw [hkz]; exact hg
  obtain ⟨r, hr⟩ := SDict.exists_mapsTo
    (f := fun (x : SDict String (Tensor α) × SDict String (Entry α)) =>
      SDict.mapLoop enlargeEntry (zipItems x.1 x.2))
    (g.map (fun b => (b.1, (b.2, (row ent (SDict.keys desired) b).2)))) (by
      intro q hq
      obtain ⟨b, hb, rfl⟩ := List.mem_map.1 hq
      obtain ⟨b', h1, _⟩ := hblock b hb
      exact ⟨b', h1⟩)
  refine ⟨_, r, hcreate, ?_, hr.keys.trans hkz, ?_⟩
  · unfold enlargeDicts
    simp only
    rw [hzip]
    exact (SDict.mapLoop_ok_iff hsz r).2 hr
  · intro dk b hb
    have hmem : (dk, b) ∈ g := SDict.mem_of_get?_eq_some hb
    obtain ⟨b', h1, h2, h3⟩ := hblock (dk, b) hmem
    have hin : SDict.get? (g.map (fun b => (b.1, (b.2, (row ent (SDict.keys desired) b).2)))) dk
        = some (b, (row ent (SDict.keys desired) (dk, b)).2) := by
      apply SDict.get?_eq_some_of_mem hsz.nodup
      exact List.mem_map.2 ⟨(dk, b), hmem, rfl⟩
    obtain ⟨w, hw1, hw2⟩ := hr.get? hin
    have : (Except.ok w : Py _) = .ok b' := by rw [← hw1]; exact h1
    cases this
    exact ⟨b', hw2, h2, h3⟩

/-- **C24.** Blocks without own state, or models without enlargement dimensions: nothing is created and everything is passed on
unchanged. -/
theorem C24_nothing_to_do (mk : String → String → Nat → List α) (g : Dicts.DDict (Tensor α))
    (desired : Option (SDict String (Tensor α))) (dims : Option (List Nat)) (h : desired = none ∨ dims = none) :
    create mk g desired dims = .ok none ∧ enlargeDicts g none = .ok g := by
  refine ⟨?_, rfl⟩
  rcases h with rfl | rfl
  · rfl
  · cases desired <;> rfl

/-- **C24**, where the code is fragile (1): the two dictionaries are paired by position (`zip`), not by key.  If a block has a key that
the desired dictionary lacks, the parameters are applied to the wrong tensor and a tensor is silently lost. -/
theorem C24_extra_key_lost :
    ∃ (g : Dicts.DDict (Tensor Nat)) (desired : SDict String (Tensor Nat)) (enl : Dicts.DDict (Entry Nat))
      (r : Dicts.DDict (Tensor Nat)),
      create (fun _ _ n => List.replicate n 0) g (some desired) (some [2]) = .ok (some enl) ∧
      enlargeDicts g (some enl) = .ok r ∧
      g = [("b", [("a", ⟨[1, 1, 1], [7]⟩), ("q", ⟨[1, 1, 1], [8]⟩)])] ∧
      r = [("b", [("a", ⟨[1, 1, 2], [7, 0]⟩)])] :=
  ⟨[("b", [("a", ⟨[1, 1, 1], [7]⟩), ("q", ⟨[1, 1, 1], [8]⟩)])], [("q", ⟨[1, 1, 2], [1, 2]⟩)],
    [("b", [("q", some ([0], [0, 0, 1]))])], _, rfl, rfl, rfl, rfl⟩

/-- **C24**, where the code is fragile (2): the target size stored with the parameters is one shared tensor, so with several blocks every
block's stored target has the number of channels of the *last* block.  (The enlargement itself does not use it.) -/
theorem C24_stored_target_is_shared (mk : String → String → Nat → List α) (enl enl' : Dicts.DDict (Entry α))
    (g : Dicts.DDict (Tensor α)) (b : String × SDict String (Tensor α)) (k : String) (T : Tensor α)
    (D : List Nat) (t : Tensor α) (ht : SDict.get? b.2 k = some t)
    (h : createKey mk (g ++ [b]) enl (k, T) = .ok (enl', D)) :
    D[1]? = t.shape[1]? := by
  unfold createKey at h
  rw [List.foldlM_append] at h
  cases h1 : List.foldlM (createStep mk k) (enl, T.shape) g with
  | error e => simp only [h1] at h; cases h
  | ok st =>
    simp only [h1] at h
    change List.foldlM (createStep mk k) st [b] = _ at h
    rw [List.foldlM_cons] at h
    unfold createStep at h
    simp only [ht] at h
    cases h2 : setChannel st.2 t.shape with
    | error e => simp only [h2] at h; cases h
    | ok d =>
      simp only [h2] at h
      cases h3 : createOne d t.shape with
      | error e => simp only [bind, Except.bind, h3] at h; cases h
      | ok o =>
        simp only [bind, Except.bind, h3, List.foldlM_nil, pure, Except.pure] at h
        cases h
        unfold setChannel at h2
        split at h2
        · next c x hc hx =>
          cases h2
          have hl := (List.getElem?_eq_some_iff.1 hx).1
          rw [hc]
          simp [hl]
        · cases h2

/-- **C24**, where the code is fragile (3): only the leading dimensions are compared.  A desired tensor with more dimensions is
accepted, too many parameters are created and the desired size is not reached. -/
theorem C24_more_dimensions_accepted :
    createOne [2, 1, 3, 5] [1, 1, 3] = .ok (some (27, [1, 0, 0])) ∧
      enlargeTensor (⟨[1, 1, 3], [1, 2, 3]⟩ : Tensor Nat) (List.replicate 27 0) [1, 0, 0]
        = .ok ⟨[2, 1, 3], [1, 2, 3, 0, 0, 0]⟩ := ⟨by rfl, by rfl⟩

/-- two blocks with different channel numbers -/
example : create (fun _ _ n => List.replicate n 0)
    [("a", [("q", ⟨[1, 1, 2], [1, 2]⟩)]), ("b", [("q", ⟨[1, 2, 1], [3, 4]⟩)])]
    (some [("q", (⟨[1, 9, 2], []⟩ : Tensor Nat))]) (some [2]) =
    .ok (some [("a", [("q", none)]), ("b", [("q", some ([0, 0], [0, 0, 1]))])]) := by rfl

end Verif.Enlarge
