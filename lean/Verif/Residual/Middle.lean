import Verif.Block.Enlarging
import Verif.Whole.Lemmas

/-!
# What enlarged tensors contain

The values around the middle depend on the enlargement parameters only: where they are is found by enlarging a tensor of symbols.
-/

namespace Verif.Residual
open Verif Verif.Tensor Verif.Whole Verif.Enlarge

variable {α β : Type}

/-- The same tensor with other elements. -/
def remap (f : α → β) (t : Tensor α) : Tensor β := ⟨t.shape, t.data.map f⟩

theorem rows_map (f : α → β) (m n : Nat) (d : List α) : rows m n (d.map f) = (rows m n d).map fun l => l.map f := by
  induction n generalizing d with
  | zero => rfl
  | succ n ih => simp only [rows, ← List.map_take, ← List.map_drop, ih, List.map_cons]

theorem catData_map (f : α → β) (k : Nat) (s s' : List Nat) (a b : List α) : catData k s s' (a.map f) (b.map f) = (catData k s s' a b).map f := by
  induction k generalizing s s' a b with
  | zero => simp [catData]
  | succ k ih =>
    match s, s' with
    | n :: s, n' :: s' =>
      simp only [catData, rows_map, List.map_flatten, List.map_zipWith, List.zipWith_map, ih]
    | [], _ => simp [catData]
    | _ :: _, [] => simp [catData]

theorem cat2_map (f : α → β) (k : Nat) (a b : Tensor α) : cat2 k (remap f a) (remap f b) = remap f (cat2 k a b) := by
  simp only [cat2, remap, catData_map]

theorem viewSlice_map (f : α → β) (pars : List α) (lo : Nat) (size : List Nat) : viewSlice (pars.map f) lo size = (viewSlice pars lo size).map (remap f) := by
  unfold viewSlice
  simp only [← List.map_drop, ← List.map_take, List.length_map]
  split <;> rfl

theorem growLoop_map (f : α → β) (pars : List α) (c : Nat) (ds : List Int) (t : Tensor α) (indx : Nat) :
    growLoop (pars.map f) c ds (remap f t) indx = (growLoop pars c ds t indx).map (remap f) := by
  induction ds generalizing c t indx with
  | nil => rfl
  | cons d ds ih =>
    unfold growLoop
    have hsh : (remap f t).shape = t.shape := rfl
    rw [hsh]
    split
    · split
      · dsimp only
        rw [viewSlice_map]
        cases viewSlice pars indx (t.shape.set c (d.toNat / 2)) with
        | error e => rfl
        | ok b =>
          simp only [Except.map, bind, Except.bind]
          rw [viewSlice_map]
          cases viewSlice pars (indx + vol (t.shape.set c (d.toNat / 2))) (t.shape.set c (d.toNat - d.toNat / 2)) with
          | error e => rfl
          | ok e =>
            simp only [Except.map]
            rw [cat2_map, cat2_map, ih]
            rfl
      · rfl
    · exact ih _ _ _

theorem enlargeTensor_map (f : α → β) (t : Tensor α) (pars : List α) (diff : List Int) :
    enlargeTensor (remap f t) (pars.map f) diff = (enlargeTensor t pars diff).map (remap f) := by
  unfold enlargeTensor
  split
  · rfl
  · split
    · rfl
    · exact growLoop_map f pars 0 diff t 0

theorem getData?_map (f : α → β) (s : List Nat) (d : List α) (idx : List Nat) : getData? s (d.map f) idx = (getData? s d idx).map f := by
  induction s generalizing d idx with
  | nil => cases idx <;> simp [getData?]
  | cons n s ih =>
    cases idx with
    | nil => rfl
    | cons i is =>
      simp only [getData?, ← List.map_drop, ← List.map_take, ih]
      split <;> rfl

theorem get?_remap (f : α → β) (t : Tensor α) (idx : List Nat) : (remap f t).get? idx = (t.get? idx).map f := getData?_map f _ _ _

theorem remap_tab (f : α → β) (s : List Nat) (g : List Nat → α) : remap f (tab s g) = tab s fun idx => f (g idx) := by
  unfold remap tab
  rw [tabData_map]

theorem valid_of_get? {t : Tensor α} (ht : t.WF) {idx : List Nat} {x : α} (h : t.get? idx = some x) : Valid t.shape idx :=
  (valid_iff _ _).2 (get?_length ht h)

theorem get?_of_valid {t : Tensor α} (ht : t.WF) {idx : List Nat} (h : Valid t.shape idx) : ∃ x, t.get? idx = some x := by
  have := (getData?_isSome_iff t.shape t.data ht idx).2 ((valid_iff _ _).1 h)
  exact Option.isSome_iff_exists.1 this

/-- Different places of a tensor without repetitions have different elements. -/
theorem get?_inj {t : Tensor α} (ht : t.WF) (hn : t.data.Nodup) {idx idx' : List Nat} {x : α} (h : t.get? idx = some x) (h' : t.get? idx' = some x) : idx = idx' := by
  have e := tab_get? ht x
  have hd : (indices t.shape).map (fun idx => (t.get? idx).getD x) = t.data := by
    rw [← tabData_eq]
    exact congrArg Tensor.data e
  rw [← hd] at hn
  have hi : ∀ {idx}, t.get? idx = some x → idx ∈ indices t.shape := fun h => (mem_indices _ _).2 (valid_of_get? ht h)
  exact List.inj_on_of_nodup_map hn (hi h) (hi h') (by rw [h, h'])

theorem mem_data {t : Tensor α} (ht : t.WF) {idx : List Nat} {x : α} (h : t.get? idx = some x) : x ∈ t.data := by
  have e := congrArg Tensor.data (tab_get? ht x)
  rw [← e]
  show x ∈ tabData _ _
  rw [tabData_eq, List.mem_map]
  exact ⟨idx, (mem_indices _ _).2 (valid_of_get? ht h), by rw [h]; rfl⟩

theorem shifted_self (s idx : List Nat) : shifted s s idx = idx := by
  apply List.ext_getElem?
  intro i
  simp [shifted, List.getElem?_mapIdx]

/-- Enlarging with given parameters from one size to another: there are values such that for every tensor of the first size the result has the tensor in the middle and these values around it. -/
theorem entry_around [Inhabited α] (cur tgt : List Nat) (hfit : Fits cur tgt) (h2 : 2 ≤ cur.length) (hch : cur[1]? = tgt[1]?) (e : Entry α) (he : Block.EntryFits cur tgt e) :
    ∃ g : List Nat → α, ∀ t : Tensor α, t.WF → t.shape = cur → ∃ r, enlargeEntry (t, e) = .ok r ∧ r.WF ∧ r.shape = tgt ∧
      (∀ idx x, t.get? idx = some x → r.get? (shifted cur tgt idx) = some x) ∧
      ∀ idx, Valid tgt idx → (∀ idx', Valid cur idx' → shifted cur tgt idx' ≠ idx) → r.get? idx = some (g idx) := by
  cases e with
  | none =>
    have he : cur = tgt := he
    subst he
    refine ⟨fun _ => default, fun t ht hs => ⟨t, rfl, ht, hs, ?_, ?_⟩⟩
    · intro idx x h
      rw [shifted_self]
      exact h
    · intro idx hv hne
      exact absurd (shifted_self cur idx) (hne idx hv)
  | some e =>
    obtain ⟨h3, h4⟩ := he
    let t0 : Tensor (List Nat ⊕ Nat) := tab cur Sum.inl
    let p0 : List (List Nat ⊕ Nat) := (List.range e.1.length).map Sum.inr
    obtain ⟨r0, h5, h6⟩ := C23_enlarge t0 (tab_wf _ _) tgt hfit h2 hch p0 (by simpa [p0, t0, tab] using h3)
    have hnd : r0.data.Nodup := by
      rw [h6.entries.nodup_iff, List.nodup_append]
      refine ⟨?_, List.nodup_range.map fun _ _ h => Sum.inr.inj h, ?_⟩
      · show (tabData _ _).Nodup
        rw [tabData_eq]
        exact (nodup_indices cur).map fun _ _ h => Sum.inl.inj h
      · intro a ha b hb hab
        subst hab
        obtain ⟨j, _, rfl⟩ := List.mem_map.1 hb
        change Sum.inr j ∈ tabData _ _ at ha
        rw [tabData_eq] at ha
        obtain ⟨_, _, h⟩ := List.mem_map.1 ha
        cases h
    let val : (List Nat → α) → List Nat ⊕ Nat → α := fun f => Sum.elim f fun j => e.1.getD j default
    refine ⟨fun idx => ((r0.get? idx).map (val fun _ => default)).getD default, fun t ht hs => ?_⟩
    have ht0 : remap (val fun idx => (t.get? idx).getD default) t0 = t := by
      rw [remap_tab]
      subst hs
      exact tab_get? ht default
    have hp0 : p0.map (val fun idx => (t.get? idx).getD default) = e.1 := by
      apply List.ext_getElem
      · simp [p0]
      · intro i h1 h2
        simp [p0, val, h2]
    refine ⟨remap (val fun idx => (t.get? idx).getD default) r0, ?_, ?_, h6.shape, ?_, ?_⟩
    · show enlargeTensor t e.1 e.2 = _
      have := enlargeTensor_map (val fun idx => (t.get? idx).getD default) t0 p0 e.2
      rw [ht0, hp0] at this
      rw [this, h4]
      refine (congrArg _ h5).trans rfl
    · have := h6.wf
      unfold WF at this ⊢
      simpa [remap] using this
    · intro idx x hx
      have hv : Valid cur idx := by
        have := valid_of_get? ht hx
        rwa [hs] at this
      have hk : r0.get? (shifted cur tgt idx) = some (.inl idx) := h6.keeps idx (.inl idx) (get?_tab hv)
      rw [get?_remap, hk]
      simp [val, hx]
    · intro idx hv hne
      rw [get?_remap]
      obtain ⟨s, hs0⟩ := get?_of_valid h6.wf (idx := idx) (by rw [h6.shape]; exact hv)
      dsimp only
      rw [hs0]
      cases s with
      | inr j => rfl
      | inl idx' =>
        exfalso
        have hm := h6.entries.subset (mem_data h6.wf hs0)
        rcases List.mem_append.1 hm with hm | hm
        · change _ ∈ tabData _ _ at hm
          rw [tabData_eq] at hm
          obtain ⟨i', hi', h⟩ := List.mem_map.1 hm
          cases h
          have hv' := (mem_indices _ _).1 hi'
          exact hne idx' hv' (get?_inj h6.wf hnd (h6.keeps idx' _ (get?_tab hv')) hs0)
        · obtain ⟨j, _, h⟩ := List.mem_map.1 hm
          cases h

end Verif.Residual
