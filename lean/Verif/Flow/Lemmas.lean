import Verif.Flow.Model
import Verif.Assembly.Props

namespace Verif.Flow
open Verif Verif.Assembly

variable {α T σ : Type}

/-- The vector of dictionaries. -/
def vec (x : Trip α) : List α := elements x.1 ++ elements x.2.1 ++ elements x.2.2

theorem zipVec_append [Zero α] {δ : Type} (g : List α → α) (n m : Nat) (ds : List δ) (a b : δ → List α) (h : ∀ d ∈ ds, (a d).length = n) :
    zipVec g (n + m) (ds.map fun d => a d ++ b d) = zipVec g n (ds.map a) ++ zipVec g m (ds.map b) := by
  unfold zipVec
  rw [List.range_add, List.map_append, List.map_map]
  congr 1
  · apply List.map_congr_left
    intro j hj
    rw [List.mem_range] at hj
    congr 1
    rw [List.map_map, List.map_map]
    apply List.map_congr_left
    intro d hd
    simp only [Function.comp_apply]
    rw [List.getD_eq_getElem?_getD, List.getElem?_append_left (by rw [h d hd]; exact hj), ← List.getD_eq_getElem?_getD]
  · apply List.map_congr_left
    intro j _
    simp only [Function.comp_apply]
    congr 1
    rw [List.map_map, List.map_map]
    apply List.map_congr_left
    intro d hd
    simp only [Function.comp_apply]
    rw [List.getD_eq_getElem?_getD, List.getElem?_append_right (by rw [h d hd]; omega), h d hd, Nat.add_sub_cancel_left, ← List.getD_eq_getElem?_getD]

/-- One block. -/
theorem zip_block [Zero α] {δ : Type} (g : List α → α) (pl : Plan) (ds : List δ) (blk : δ → TDict α) (ℓ : δ → String → Nat → α)
    (hs : ∀ d ∈ ds, SDict.mapVals Tensor.shape (blk d) = pl) (hw : ∀ d ∈ ds, ∀ e ∈ blk d, e.2.WF)
    (hl : ∀ d ∈ ds, ∀ e ∈ blk d, ∀ j, ℓ d e.1 j = e.2.data.getD j 0) :
    (pl.flatMap fun k => (List.range (vol k.2)).map fun j => g (ds.map fun d => ℓ d k.1 j)) =
      zipVec g (plen pl) (ds.map fun d => (blk d).flatMap fun e => e.2.data) := by
  induction pl generalizing blk with
  | nil => simp [plen, zipVec]
  | cons k pl ih =>
    have hd : ∀ d ∈ ds, ∃ t, blk d = (k.1, t) :: (blk d).tail ∧ t.shape = k.2 ∧ SDict.mapVals Tensor.shape (blk d).tail = pl := by
      intro d hm
      have h1 := hs d hm
      cases hb : blk d with
      | nil => rw [hb] at h1; cases h1
      | cons e r =>
        rw [hb] at h1
        unfold SDict.mapVals at h1
        rw [List.map_cons, List.cons.injEq] at h1
        refine ⟨e.2, ?_, by rw [← h1.1], h1.2⟩
        rw [← h1.1]
        rfl
    have ih' := ih (fun d => (blk d).tail) (fun d hm => (hd d hm).choose_spec.2.2)
      (fun d hm e he => hw d hm e (List.mem_of_mem_tail he)) (fun d hm e he j => hl d hm e (List.mem_of_mem_tail he) j)
    have hsplit : (ds.map fun d => (blk d).flatMap fun e => e.2.data) =
        ds.map fun d => ((blk d).head?.map fun e => e.2.data).getD [] ++ (blk d).tail.flatMap fun e => e.2.data := by
      apply List.map_congr_left
      intro d hm
      obtain ⟨t, h1, _, _⟩ := hd d hm
      rw [h1]
      simp
    have hlen : ∀ d ∈ ds, (((blk d).head?.map fun e => e.2.data).getD []).length = vol k.2 := by
      intro d hm
      obtain ⟨t, h1, h2, _⟩ := hd d hm
      have h3 : t.WF := hw d hm (k.1, t) (by rw [h1]; exact List.mem_cons_self ..)
      rw [h1, ← h2]
      exact h3
    rw [List.flatMap_cons, ih', hsplit, show plen (k :: pl) = vol k.2 + plen pl by simp [plen],
      zipVec_append g _ _ ds (fun d => ((blk d).head?.map fun e => e.2.data).getD []) (fun d => (blk d).tail.flatMap fun e => e.2.data) hlen]
    congr 1
    unfold zipVec
    apply List.map_congr_left
    intro j _
    congr 1
    rw [List.map_map]
    apply List.map_congr_left
    intro d hm
    obtain ⟨t, h1, _, _⟩ := hd d hm
    have h2 := hl d hm (k.1, t) (by rw [h1]; exact List.mem_cons_self ..) j
    dsimp only at h2
    rw [h2, Function.comp_apply, h1]
    rfl

/-- All blocks. -/
theorem zip_blocks [Zero α] {δ : Type} (g : List α → α) (p : Plans) (ds : List δ) (blks : δ → TDicts α) (ℓ : δ → String → String → Nat → α)
    (hs : ∀ d ∈ ds, shapesOf (blks d) = p) (hw : ∀ d ∈ ds, ∀ b ∈ blks d, ∀ e ∈ b.2, e.2.WF)
    (hl : ∀ d ∈ ds, ∀ b ∈ blks d, ∀ e ∈ b.2, ∀ j, ℓ d b.1 e.1 j = e.2.data.getD j 0) :
    (p.flatMap fun b => b.2.flatMap fun k => (List.range (vol k.2)).map fun j => g (ds.map fun d => ℓ d b.1 k.1 j)) =
      zipVec g (planLength p) (ds.map fun d => elements (blks d)) := by
  induction p generalizing blks with
  | nil => simp [planLength, zipVec]
  | cons b p ih =>
    have hd : ∀ d ∈ ds, ∃ t, blks d = (b.1, t) :: (blks d).tail ∧ SDict.mapVals Tensor.shape t = b.2 ∧ shapesOf (blks d).tail = p := by
      intro d hm
      have h1 := hs d hm
      cases hb : blks d with
      | nil => rw [hb] at h1; cases h1
      | cons e r =>
        rw [hb] at h1
        unfold shapesOf at h1
        rw [List.map_cons, List.cons.injEq] at h1
        refine ⟨e.2, ?_, by rw [← h1.1]; rfl, h1.2⟩
        rw [← h1.1]
        rfl
    have ih' := ih (fun d => (blks d).tail) (fun d hm => (hd d hm).choose_spec.2.2)
      (fun d hm e he => hw d hm e (List.mem_of_mem_tail he)) (fun d hm e he j => hl d hm e (List.mem_of_mem_tail he) j)
    let hb : δ → TDict α := fun d => ((blks d).head?.map fun e => e.2).getD []
    have hhb : ∀ d ∈ ds, blks d = (b.1, hb d) :: (blks d).tail ∧ SDict.mapVals Tensor.shape (hb d) = b.2 := by
      intro d hm
      obtain ⟨t, h1, h2, _⟩ := hd d hm
      have : hb d = t := by show ((blks d).head?.map fun e => e.2).getD [] = t; rw [h1]; rfl
      rw [this]
      exact ⟨h1, h2⟩
    have hmem : ∀ d ∈ ds, (b.1, hb d) ∈ blks d := fun d hm => by rw [(hhb d hm).1]; exact List.mem_cons_self ..
    have hsplit : (ds.map fun d => elements (blks d)) =
        ds.map fun d => ((hb d).flatMap fun e => e.2.data) ++ elements (blks d).tail := by
      apply List.map_congr_left
      intro d hm
      conv_lhs => rw [(hhb d hm).1]
      rfl
    have hblk := zip_block g b.2 ds hb (fun d => ℓ d b.1) (fun d hm => (hhb d hm).2) (fun d hm e he => hw d hm _ (hmem d hm) e he)
      (fun d hm e he j => hl d hm _ (hmem d hm) e he j)
    rw [List.flatMap_cons, ih', hblk, hsplit, planLength_cons,
      zipVec_append g _ _ ds (fun d => (hb d).flatMap fun e => e.2.data) (fun d => elements (blks d).tail)]
    intro d hm
    rw [← plen_mapVals _ (fun e he => hw d hm _ (hmem d hm) e he), (hhb d hm).2]

theorem entry_eq [Zero α] {d : TDicts α} (hd : GoodDicts d) {b : String × TDict α} (hb : b ∈ d) {e : String × Tensor α} (he : e ∈ b.2) (j : Nat) :
    entry d b.1 e.1 j = e.2.data.getD j 0 := by
  unfold entry
  rw [(SDict.get?_eq_some_iff hd.1).2 hb]
  simp only [Option.bind_some]
  rw [(SDict.get?_eq_some_iff (hd.2 b hb).1).2 he]
  simp [List.getD]

theorem elements_pointwise [Zero α] (g : List α → α) (p : Plans) (ds : List (TDicts α)) (h : ∀ d ∈ ds, GoodDicts d ∧ shapesOf d = p) :
    elements (pointwise g p ds) = zipVec g (planLength p) (ds.map elements) := by
  have := zip_blocks g p ds id entry (fun d hd => (h d hd).2) (fun d hd b hb e he => (((h d hd).1.2 b hb).2 e he).1)
    (fun d hd b hb e he j => entry_eq (h d hd).1 hb he j)
  simp only [id] at this
  rw [← this]
  unfold elements pointwise
  rw [List.flatMap_map]
  congr 1
  funext b
  rw [List.flatMap_map]

theorem shapes_pointwise [Zero α] (g : List α → α) (p : Plans) (ds : List (TDicts α)) : shapesOf (pointwise g p ds) = p := by
  unfold shapesOf pointwise
  rw [List.map_map]
  conv_rhs => rw [← List.map_id p]
  apply List.map_congr_left
  intro b _
  simp only [Function.comp_apply, List.map_map, id]
  ext1
  · rfl
  · conv_rhs => rw [← List.map_id b.2]
    rfl

theorem good_pointwise [Zero α] (g : List α → α) (p : Plans) (hp : GoodPlans p) (ds : List (TDicts α)) : GoodDicts (pointwise g p ds) := by
  constructor
  · have := hp.1
    unfold SDict.Sorted SDict.keys at this ⊢
    unfold pointwise
    rw [List.map_map]
    exact this
  · intro b hb
    obtain ⟨b', hb', rfl⟩ := List.mem_map.1 hb
    obtain ⟨h1, h2⟩ := hp.2 b' hb'
    constructor
    · unfold SDict.Sorted SDict.keys at h1 ⊢
      rw [List.map_map]
      exact h1
    · intro e he
      obtain ⟨k, hk, rfl⟩ := List.mem_map.1 he
      exact ⟨by simp [Tensor.WF], h2 k hk⟩

theorem layout_pointwise3 [Zero α] (g : List α → α) (p : AllPlans) (hp : FullPlans p) (xs : List (Trip α)) : HasLayout p (pointwise3 g p xs) :=
  ⟨⟨good_pointwise _ _ hp.1.1 _, shapes_pointwise ..⟩, ⟨good_pointwise _ _ hp.1.2.1 _, shapes_pointwise ..⟩,
    ⟨good_pointwise _ _ hp.1.2.2 _, shapes_pointwise ..⟩⟩

theorem elements_length {p : Plans} {d : TDicts α} (h : GoodDicts d ∧ shapesOf d = p) : (elements d).length = planLength p := by
  obtain ⟨h1, rfl⟩ := h
  have h2 : ∀ b ∈ d, ∀ e ∈ b.2, e.2.WF := fun b hb e he => ((h1.2 b hb).2 e he).1
  clear h1
  induction d with
  | nil => rfl
  | cons b d ih =>
    have e1 : elements (b :: d) = (b.2.flatMap fun e => e.2.data) ++ elements d := rfl
    have e2 : shapesOf (b :: d) = (b.1, SDict.mapVals Tensor.shape b.2) :: shapesOf d := rfl
    rw [e1, List.length_append, ih (fun b' hb => h2 b' (List.mem_cons_of_mem _ hb)), e2, planLength_cons,
      plen_mapVals _ (h2 b (List.mem_cons_self ..))]

theorem vec_length {p : AllPlans} {x : Trip α} (h : HasLayout p x) : (vec x).length = totalLength p := by
  simp only [vec, List.length_append, elements_length h.1, elements_length h.2.1, elements_length h.2.2, totalLength]

theorem vec_pointwise3 [Zero α] (g : List α → α) (p : AllPlans) (xs : List (Trip α)) (h : ∀ x ∈ xs, HasLayout p x) :
    vec (pointwise3 g p xs) = zipVec g (totalLength p) (xs.map vec) := by
  have e1 := elements_pointwise g p.state (xs.map fun x => x.1) (by simpa using fun x y z hx => (h _ hx).1)
  have e2 := elements_pointwise g p.costate (xs.map fun x => x.2.1) (by simpa using fun x y z hx => (h _ hx).2.1)
  have e3 := elements_pointwise g p.data (xs.map fun x => x.2.2) (by simpa using fun x y z hx => (h _ hx).2.2)
  rw [List.map_map] at e1 e2 e3
  unfold vec totalLength pointwise3
  dsimp only
  rw [e1, e2, e3, zipVec_append g _ _ xs (fun x => elements x.1 ++ elements x.2.1) (fun x => elements x.2.2),
    zipVec_append g _ _ xs (fun x => elements x.1) (fun x => elements x.2.1)]
  · rfl
  · exact fun x hx => elements_length (h x hx).1
  · intro x hx
    rw [List.length_append, elements_length (h x hx).1, elements_length (h x hx).2.1]

theorem total_vec [AddMonoid α] (x : Trip α) : (vec x).sum = total x := by
  simp [vec, total, List.sum_append, add_assoc]

theorem drop_full {p : Plans} {d : TDicts α} (h : GoodDicts d ∧ shapesOf d = p) (hp : ∀ b ∈ p, b.2 ≠ []) : dropEmptyBlocks d = d := by
  obtain ⟨_, rfl⟩ := h
  unfold dropEmptyBlocks
  rw [List.filter_eq_self]
  intro b hb
  have := hp (b.1, b.2.map fun e => (e.1, e.2.shape)) (List.mem_map.2 ⟨b, hb, rfl⟩)
  simp only [ne_eq, List.map_eq_nil_iff] at this
  simpa using this

theorem nonempty_full {p : Plans} {d : TDicts α} (h : GoodDicts d ∧ shapesOf d = p) (hp : p ≠ []) : d ≠ [] := by
  obtain ⟨_, rfl⟩ := h
  rintro rfl
  exact hp rfl

theorem assemble_layout {p : AllPlans} (hp : FullPlans p) {x : Trip α} (h : HasLayout p x) : assembleTensor x.1 x.2.1 x.2.2 = .ok (vec x, p) := by
  obtain ⟨_, ⟨n1, n2, n3⟩, hb⟩ := hp
  have d1 := drop_full h.1 fun b hm => hb b (by simp [hm])
  have d2 := drop_full h.2.1 fun b hm => hb b (by simp [hm])
  have d3 := drop_full h.2.2 fun b hm => hb b (by simp [hm])
  rw [assembleTensor_eq _ _ _ h.1.1 h.2.1.1 h.2.2.1, d1, d2, d3,
    if_neg (by simp [nonempty_full h.1 n1, nonempty_full h.2.1 n2, nonempty_full h.2.2 n3]), h.1.2, h.2.1.2, h.2.2.2]
  rfl

theorem disassemble_layout {p : AllPlans} (hp : FullPlans p) {x : Trip α} (h : HasLayout p x) :
    disassembleTensor (.vec (vec x)) (some p) 0 = .ok x := by
  have ha := assemble_layout hp h
  obtain ⟨_, ⟨n1, n2, n3⟩, hb⟩ := hp
  have d1 := drop_full h.1 fun b hm => hb b (by simp [hm])
  have d2 := drop_full h.2.1 fun b hm => hb b (by simp [hm])
  have d3 := drop_full h.2.2 fun b hm => hb b (by simp [hm])
  obtain ⟨v, pl, h1, h2⟩ := C01_roundtrip x.1 x.2.1 x.2.2 h.1.1 h.2.1.1 h.2.2.1 ((hasTensor_iff _).2 (by rw [d1]; exact nonempty_full h.1 n1))
    ((hasTensor_iff _).2 (by rw [d2]; exact nonempty_full h.2.1 n2)) ((hasTensor_iff _).2 (by rw [d3]; exact nonempty_full h.2.2 n3))
  rw [ha] at h1
  cases h1
  rw [h2, d1, d2, d3]

/-! ## Names of derivatives -/

theorem dot_lt {a b : String} (h : a < b) : "dot_" ++ a < "dot_" ++ b := by
  rw [String.lt_iff_toList_lt] at h ⊢
  rw [String.toList_append, String.toList_append]
  exact List.append_left_lt h

theorem undotted_dotted (d : TDicts α) : undotted (dotted d) = d := by
  unfold undotted dotted
  rw [List.map_map]
  conv_rhs => rw [← List.map_id d]
  apply List.map_congr_left
  intro b _
  simp only [Function.comp_apply, List.map_map, id]
  ext1
  · rfl
  · conv_rhs => rw [← List.map_id b.2]
    apply List.map_congr_left
    intro e _
    simp [String.toList_append]

theorem undotted3_dotted3 (x : Trip α) : undotted3 (dotted3 x) = x := by
  simp only [undotted3, dotted3, undotted_dotted]

theorem elements_dotted (d : TDicts α) : elements (dotted d) = elements d := by
  unfold elements dotted
  simp only [List.flatMap_map]

theorem vec_dotted (x : Trip α) : vec (dotted3 x) = vec x := by
  simp only [vec, dotted3, elements_dotted]

theorem good_dotted {d : TDicts α} (h : GoodDicts d) : GoodDicts (dotted d) := by
  constructor
  · have := h.1
    unfold SDict.Sorted SDict.keys at this ⊢
    unfold dotted
    rw [List.map_map]
    exact this
  · intro b hb
    obtain ⟨b', hb', rfl⟩ := List.mem_map.1 hb
    obtain ⟨h1, h2⟩ := h.2 b' hb'
    constructor
    · unfold SDict.Sorted SDict.keys at h1 ⊢
      rw [List.map_map]
      rw [List.pairwise_map] at h1 ⊢
      exact h1.imp fun h => dot_lt h
    · intro e he
      obtain ⟨k, hk, rfl⟩ := List.mem_map.1 he
      exact h2 k hk

theorem full_dotted {d : TDicts α} {p : Plans} (h : GoodDicts d ∧ shapesOf d = p) (hn : p ≠ []) (hp : ∀ b ∈ p, b.2 ≠ []) : dropEmptyBlocks (dotted d) ≠ [] := by
  have e : dropEmptyBlocks (dotted d) = dotted d := by
    unfold dropEmptyBlocks
    rw [List.filter_eq_self]
    intro b hb
    obtain ⟨b', hb', rfl⟩ := List.mem_map.1 hb
    obtain ⟨_, rfl⟩ := h
    have := hp (b'.1, b'.2.map fun e => (e.1, e.2.shape)) (List.mem_map.2 ⟨b', hb', rfl⟩)
    simp only [ne_eq, List.map_eq_nil_iff] at this
    simpa using this
  rw [e]
  unfold dotted
  rw [ne_eq, List.map_eq_nil_iff]
  exact nonempty_full h hn

theorem assemble_dotted {p : AllPlans} (hp : FullPlans p) {x : Trip α} (h : HasLayout p x) :
    ∃ q, assembleTensor (dotted x.1) (dotted x.2.1) (dotted x.2.2) = .ok (vec x, q) := by
  obtain ⟨_, ⟨n1, n2, n3⟩, hb⟩ := hp
  rw [assembleTensor_eq _ _ _ (good_dotted h.1.1) (good_dotted h.2.1.1) (good_dotted h.2.2.1)]
  rw [if_neg (by
    simp only [not_or]
    exact ⟨full_dotted h.1 n1 fun b hm => hb b (by simp [hm]), full_dotted h.2.1 n2 fun b hm => hb b (by simp [hm]), full_dotted h.2.2 n3 fun b hm => hb b (by simp [hm])⟩)]
  rw [← vec_dotted x]
  exact ⟨_, rfl⟩

theorem vecRhs_vec {p : AllPlans} (hp : FullPlans p) {F : T → Trip α → σ → Py (Trip α × σ)} (hF : KeepsLayout p F) (t : T) {x : Trip α}
    (h : HasLayout p x) (s : σ) : vecRhs p F t (vec x) s = (F t x s).map fun y => (vec (undotted3 y.1), y.2) := by
  unfold vecRhs
  rw [disassemble_layout hp h]
  simp only [bind, Except.bind]
  cases hf : F t x s with
  | error e => rfl
  | ok y =>
    obtain ⟨y, s'⟩ := y
    obtain ⟨d, rfl, hl⟩ := hF t x s y s' h hf
    obtain ⟨q, hq⟩ := assemble_dotted hp hl
    dsimp only [dotted3]
    rw [hq]
    simp only [Except.map]
    rw [show undotted3 (dotted d.1, dotted d.2.1, dotted d.2.2) = d from undotted3_dotted3 d]

/-- The registers of the run on dictionaries keep the layout, and the run on vectors is its image. -/
theorem run_eq [AddMonoid α] {p : AllPlans} (hp : FullPlans p) {F : T → Trip α → σ → Py (Trip α × σ)} (hF : KeepsLayout p F) (M : Method α T)
    (xs : List (Trip α)) (hx : ∀ x ∈ xs, HasLayout p x) (s : σ) :
    runVec (totalLength p) (vecRhs p F) M (xs.map vec) s = (runDict p F M xs s).map (fun r => (r.1.map vec, r.2)) ∧
      ∀ r, runDict p F M xs s = .ok r → ∀ y ∈ r.1, HasLayout p y := by
  induction M generalizing xs s with
  | done outs =>
    constructor
    · unfold runVec runDict
      simp only [Except.map, List.map_map]
      congr 2
      apply List.map_congr_left
      intro g _
      exact (vec_pointwise3 g p xs hx).symm
    · intro r hr y hy
      unfold runDict at hr
      cases hr
      obtain ⟨g, _, rfl⟩ := List.mem_map.1 hy
      exact layout_pointwise3 g p hp xs
  | fail e =>
    exact ⟨rfl, fun r hr => by cases hr⟩
  | eval t g next ih =>
    unfold runVec runDict
    rw [← vec_pointwise3 g p xs hx, vecRhs_vec hp hF t (layout_pointwise3 g p hp xs) s]
    cases hf : F t (pointwise3 g p xs) s with
    | error e => exact ⟨rfl, fun r hr => by cases hr⟩
    | ok y =>
      obtain ⟨d, hd, hy⟩ := hF t _ s y.1 y.2 (layout_pointwise3 g p hp xs) hf
      rw [← undotted3_dotted3 d, ← hd] at hy
      have := ih (xs ++ [undotted3 y.1]) (fun x hm => by
        rcases List.mem_append.1 hm with hm | hm
        · exact hx x hm
        · rw [List.mem_singleton.1 hm]; exact hy) y.2
      rw [List.map_append] at this
      exact this
  | test q next ih =>
    unfold runVec runDict
    rw [← vec_pointwise3 q p xs hx, total_vec]
    exact ih _ xs hx s

end Verif.Flow
