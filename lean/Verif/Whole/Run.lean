import Verif.Whole.Lemmas

/-!
# Integrating functions is integrating dictionaries
-/

namespace Verif.Whole
open Verif Verif.Tensor Verif.Assembly Verif.Evolution Verif.Flow

variable {K K' P R : Type}

/-! ## One block -/

theorem concat_single (nm : String) (d : Concat.TDict ℝ) (hd : SDict.Sorted d) (dim : Nat) : Concat.concatDicts [(nm, d)] dim = .ok d := by
  have h1 : d.foldlM (Concat.catStep (dim : Int)) [] = .ok d := by
    simpa using Concat.catStep_copy (dim : Int) d [] (by simpa using hd)
  unfold Concat.concatDicts Concat.catLoop
  rw [List.foldlM_cons]
  rw [h1]
  simp [bind, Except.bind, pure, Except.pure]

theorem split_single {L : Lay K} (hL : L.Ok) (nm pre pre' : String) (n : Nat) (x y : Fin n × K → ℝ) (dim : Nat) (h4 : dim ≤ 4)
    (hd : ∀ e ∈ L.names, dim ≤ e.2.length) :
    Concat.splitDicts (enc L pre n x) [(nm, enc L pre' n y)] dim = .ok [(nm, enc L pre n x)] := by
  have hk : ∀ (pre : String) (x : Fin n × K → ℝ), ∀ p ∈ enc L pre n x, dim < p.2.shape.length := by
    intro pre x p hp
    obtain ⟨e, he, rfl⟩ := List.mem_map.1 hp
    have := hd e he
    simp only [tab, List.length_cons]
    omega
  rw [Concat.splitDicts_eq h4 _ (enc_sorted hL pre n x) (hk pre x) _ (by simp [SDict.Sorted]) (by
    intro b hb
    rw [List.mem_singleton.1 hb]
    exact ⟨enc_sorted hL pre' n y, hk pre' y, by simp [enc]⟩)]
  congr 1
  simp only [Concat.splitAll]
  congr 2
  unfold Concat.splitItems enc
  rw [List.zipWith_map, List.zipWith_self]
  apply List.map_congr_left
  intro e he
  congr 1
  simp only [Nat.zero_add]
  have : (tab (n :: e.2) (value L n y e.1)).shape = (tab (n :: e.2) (value L n x e.1)).shape := rfl
  rw [this]
  exact sliceDim_full (tab_wf _ _) (by have := hd e he; simp only [tab, List.length_cons]; omega)

/-! ## State, costate and data of one block -/

/-- State, costate and data with the given values, in one block `nm`. -/
noncomputable def trip (L : Lay K) (L' : Lay K') (nm : String) {n B : Nat} (z : Sys2 (Fin n) (Fin B) K K') : Trip ℝ :=
  ([(nm, enc L "" n z.1)], [(nm, enc L "p_" n z.2.1)], [(nm, enc L' "" B z.2.2)])

/-- Its names and shapes. -/
def plansOf (L : Lay K) (L' : Lay K') (nm : String) (n B : Nat) : AllPlans :=
  ⟨[(nm, L.names.map fun e => ("" ++ e.1, n :: e.2))], [(nm, L.names.map fun e => ("p_" ++ e.1, n :: e.2))],
    [(nm, L'.names.map fun e => ("" ++ e.1, B :: e.2))]⟩

theorem good_single (nm : String) {L : Lay K} (hL : L.Ok) (pre : String) (n : Nat) (x : Fin n × K → ℝ) : GoodDicts [(nm, enc L pre n x)] := by
  refine ⟨by simp [SDict.Sorted], ?_⟩
  intro b hb
  rw [List.mem_singleton.1 hb]
  exact (enc_hasRows hL pre n x).1

theorem shapes_single (nm : String) (L : Lay K) (pre : String) (n : Nat) (x : Fin n × K → ℝ) :
    shapesOf [(nm, enc L pre n x)] = [(nm, L.names.map fun e => (pre ++ e.1, n :: e.2))] := by
  unfold shapesOf
  simp only [List.map_cons, List.map_nil]
  rw [← enc_shapes L pre n x]

theorem trip_layout {L : Lay K} (hL : L.Ok) {L' : Lay K'} (hL' : L'.Ok) (nm : String) {n B : Nat} (z : Sys2 (Fin n) (Fin B) K K') : HasLayout (plansOf L L' nm n B) (trip L L' nm z) :=
  ⟨⟨good_single nm hL _ _ _, shapes_single nm L _ _ _⟩, ⟨good_single nm hL _ _ _, shapes_single nm L _ _ _⟩,
    ⟨good_single nm hL' _ _ _, shapes_single nm L' _ _ _⟩⟩

theorem full_plans {L : Lay K} (hL : L.Ok) {L' : Lay K'} (hL' : L'.Ok) (nm : String) (n B : Nat) : FullPlans (plansOf L L' nm n B) := by
  have hg : ∀ {K : Type} {L : Lay K}, L.Ok → ∀ pre (m : Nat), GoodPlans [(nm, L.names.map fun e => (pre ++ e.1, m :: e.2))] := by
    intro K L hL pre m
    refine ⟨by simp [SDict.Sorted], ?_⟩
    intro b hb
    rw [List.mem_singleton.1 hb]
    refine ⟨sorted_pre L.names hL.sorted pre _, ?_⟩
    intro e he
    obtain ⟨e', _, rfl⟩ := List.mem_map.1 he
    simp
  refine ⟨⟨hg hL _ _, hg hL _ _, hg hL' _ _⟩, ⟨by simp [plansOf], by simp [plansOf], by simp [plansOf]⟩, ?_⟩
  intro b hb
  simp only [plansOf, List.cons_append, List.nil_append, List.mem_cons, List.not_mem_nil, or_false] at hb
  rcases hb with rfl | rfl | rfl
  · simpa using hL.ne
  · simpa using hL.ne
  · simpa using hL'.ne

/-- A triple of dictionaries with these names and shapes has values. -/
theorem layout_trip {L : Lay K} (hL : L.Ok) {L' : Lay K'} (hL' : L'.Ok) (nm : String) {n B : Nat} (x : Trip ℝ) (hx : HasLayout (plansOf L L' nm n B) x) :
    ∃ z : Sys2 (Fin n) (Fin B) K K', x = trip L L' nm z := by
  have aux : ∀ {K : Type} {L : Lay K}, L.Ok → ∀ (pre : String) (m : Nat) (d : TDicts ℝ), GoodDicts d → shapesOf d = [(nm, L.names.map fun e => (pre ++ e.1, m :: e.2))] →
      ∃ y : Fin m × K → ℝ, d = [(nm, enc L pre m y)] := by
    intro K L hL pre m d hd hs
    unfold shapesOf at hs
    obtain ⟨b, rfl⟩ : ∃ b, d = [b] := by
      rw [← List.length_eq_one_iff]
      simpa using congrArg List.length hs
    simp only [List.map_cons, List.map_nil, List.cons.injEq, and_true, Prod.mk.injEq] at hs
    refine ⟨dec L pre m b.2, ?_⟩
    rw [enc_dec hL ⟨hd.2 b (by simp), hs.2⟩, ← hs.1]
  obtain ⟨a, b, c⟩ := x
  obtain ⟨h1, h2, h3⟩ := hx
  obtain ⟨y1, rfl⟩ := aux hL _ _ _ h1.1 h1.2
  obtain ⟨y2, rfl⟩ := aux hL _ _ _ h2.1 h2.2
  obtain ⟨y3, rfl⟩ := aux hL' _ _ _ h3.1 h3.2
  exact ⟨(y1, y2, y3), rfl⟩

/-! ## Combining -/

theorem entry_single (nm : String) {L : Lay K} (hL : L.Ok) (pre : String) (n : Nat) (x : Fin n × K → ℝ) {e : String × List Nat} (he : e ∈ L.names)
    (j : Nat) (hj : j < vol (n :: e.2)) :
    entry [(nm, enc L pre n x)] nm (pre ++ e.1) j = value L n x e.1 ((indices (n :: e.2))[j]'(by rw [indices_length]; exact hj)) := by
  unfold entry
  rw [SDict.get?_cons, if_pos rfl, Option.bind_some, enc_get? hL pre n x he, Option.bind_some]
  unfold tab
  simp only
  rw [tabData_eq, List.getElem?_map, List.getElem?_eq_getElem (by rw [indices_length]; exact hj)]
  rfl

theorem pointwise_single (nm : String) {L : Lay K} (hL : L.Ok) (pre : String) (n : Nat) (g : List ℝ → ℝ) {δ : Type} (ds : List δ) (x : δ → Fin n × K → ℝ) :
    pointwise g [(nm, L.names.map fun e => (pre ++ e.1, n :: e.2))] (ds.map fun d => [(nm, enc L pre n (x d))])
      = [(nm, enc L pre n fun k => g (ds.map fun d => x d k))] := by
  unfold pointwise
  simp only [List.map_cons, List.map_nil, List.map_map]
  congr 2
  unfold enc
  apply List.map_congr_left
  intro e he
  simp only [Function.comp_apply]
  congr 1
  unfold tab
  congr 1
  rw [tabData_eq]
  apply List.ext_getElem
  · simp [indices_length]
  intro j h1 h2
  have hj : j < vol (n :: e.2) := by simpa using h1
  simp only [List.getElem_map, List.getElem_range]
  have hg : ∀ l, l = (indices (n :: e.2))[j]'(by rw [indices_length]; exact hj) →
      g (List.map ((fun d => entry d nm (pre ++ e.1) j) ∘ fun d => [(nm, enc L pre n (x d))]) ds)
        = value L n (fun k => g (ds.map fun d => x d k)) e.1 l := by
    intro l hl
    have hv : Valid (n :: e.2) l := (mem_indices _ _).1 (hl ▸ List.getElem_mem _)
    have hmap : List.map ((fun d => entry d nm (pre ++ e.1) j) ∘ fun d => [(nm, enc L pre n (x d))]) ds
        = ds.map fun d => value L n (x d) e.1 l := by
      apply List.map_congr_left
      intro d _
      rw [hl]
      exact entry_single nm hL pre n (x d) he j hj
    rw [hmap]
    cases hv with
    | @cons a _ as _ ha hv =>
      obtain ⟨k, hk, _, _⟩ := hL.onto _ he as hv
      rw [value_coord _ hk ⟨a, ha⟩]
      congr 1
      apply List.map_congr_left
      intro d _
      rw [value_coord _ hk ⟨a, ha⟩]
  exact hg _ rfl

theorem pointwise3_trip (nm : String) {L : Lay K} (hL : L.Ok) {L' : Lay K'} (hL' : L'.Ok) {n B : Nat} (g : List ℝ → ℝ) (zs : List (Sys2 (Fin n) (Fin B) K K')) :
    pointwise3 g (plansOf L L' nm n B) (zs.map (trip L L' nm)) = trip L L' nm (combine g zs) := by
  unfold pointwise3 plansOf trip combine
  simp only [List.map_map]
  rw [show ((fun x : Trip ℝ => x.1) ∘ fun z : Sys2 (Fin n) (Fin B) K K' => ([(nm, enc L "" n z.1)], [(nm, enc L "p_" n z.2.1)], [(nm, enc L' "" B z.2.2)]))
      = fun z : Sys2 (Fin n) (Fin B) K K' => [(nm, enc L "" n z.1)] from rfl,
    show ((fun x : Trip ℝ => x.2.1) ∘ fun z : Sys2 (Fin n) (Fin B) K K' => ([(nm, enc L "" n z.1)], [(nm, enc L "p_" n z.2.1)], [(nm, enc L' "" B z.2.2)]))
      = fun z : Sys2 (Fin n) (Fin B) K K' => [(nm, enc L "p_" n z.2.1)] from rfl,
    show ((fun x : Trip ℝ => x.2.2) ∘ fun z : Sys2 (Fin n) (Fin B) K K' => ([(nm, enc L "" n z.1)], [(nm, enc L "p_" n z.2.1)], [(nm, enc L' "" B z.2.2)]))
      = fun z : Sys2 (Fin n) (Fin B) K K' => [(nm, enc L' "" B z.2.2)] from rfl,
    pointwise_single nm hL, pointwise_single nm hL, pointwise_single nm hL']

/-! ## Sums -/

/-- All rows and coordinates in the order in which they are stored. -/
def order (L : Lay K) (n : Nat) : List (Fin n × K) :=
  L.names.flatMap fun e => (List.finRange n).flatMap fun i => (indices e.2).filterMap fun idx => (L.coord e.1 idx).map fun k => (i, k)

theorem order_nodup {L : Lay K} (hL : L.Ok) (n : Nat) : (order L n).Nodup := by
  have key : ∀ e ∈ L.names, ∀ idx ∈ indices e.2, ∀ k, L.coord e.1 idx = some k → L.key k = e.1 ∧ L.idx k = idx := by
    intro e he idx hi k hk
    obtain ⟨k', h1, h2, h3⟩ := hL.onto e he idx ((mem_indices _ _).1 hi)
    rw [hk] at h1
    cases h1
    exact ⟨h2, h3⟩
  unfold order
  rw [List.nodup_flatMap]
  constructor
  · intro e he
    rw [List.nodup_flatMap]
    constructor
    · intro i _
      unfold List.Nodup
      rw [List.pairwise_filterMap]
      refine (nodup_indices e.2).imp_of_mem ?_
      intro a a' ha ha' hne b hb b' hb' hbb
      subst hbb
      obtain ⟨k, hk, rfl⟩ := Option.map_eq_some_iff.1 hb
      obtain ⟨k', hk', h⟩ := Option.map_eq_some_iff.1 hb'
      cases h
      exact hne ((key e he a ha k hk).2.symm.trans (key e he a' ha' k hk').2)
    · refine (List.nodup_finRange n).imp ?_
      intro i j hij p h1 h2
      obtain ⟨a, _, h1⟩ := List.mem_filterMap.1 h1
      obtain ⟨b, _, h2⟩ := List.mem_filterMap.1 h2
      obtain ⟨k, _, rfl⟩ := Option.map_eq_some_iff.1 h1
      obtain ⟨k', _, h⟩ := Option.map_eq_some_iff.1 h2
      exact hij (congrArg Prod.fst h).symm
  · have hs := hL.sorted
    unfold SDict.Sorted SDict.keys at hs
    rw [List.pairwise_map] at hs
    refine hs.imp_of_mem ?_
    intro e e' he he' hlt p h1 h2
    obtain ⟨i, _, h1⟩ := List.mem_flatMap.1 h1
    obtain ⟨j, _, h2⟩ := List.mem_flatMap.1 h2
    obtain ⟨a, ha, h1⟩ := List.mem_filterMap.1 h1
    obtain ⟨b, hb, h2⟩ := List.mem_filterMap.1 h2
    obtain ⟨k, hk, rfl⟩ := Option.map_eq_some_iff.1 h1
    obtain ⟨k', hk', h⟩ := Option.map_eq_some_iff.1 h2
    cases h
    have e1 := (key e he a ha k hk).1
    have e2 := (key e' he' b hb k hk').1
    rw [e1] at e2
    rw [e2] at hlt
    exact lt_irrefl _ hlt

theorem mem_order {L : Lay K} (hL : L.Ok) (n : Nat) (p : Fin n × K) : p ∈ order L n := by
  obtain ⟨i, k⟩ := p
  obtain ⟨s, hs, hv, hc⟩ := hL.into k
  refine List.mem_flatMap.2 ⟨_, hs, List.mem_flatMap.2 ⟨i, List.mem_finRange i, List.mem_filterMap.2 ⟨L.idx k, (mem_indices _ _).2 hv, ?_⟩⟩⟩
  rw [hc]
  rfl

theorem elements_order (nm : String) {L : Lay K} (hL : L.Ok) (pre : String) (n : Nat) (x : Fin n × K → ℝ) :
    elements [(nm, enc L pre n x)] = (order L n).map x := by
  unfold elements enc order
  simp only [List.flatMap_cons, List.flatMap_nil, List.append_nil, List.map_flatMap, List.flatMap_map]
  apply List.flatMap_congr
  intro e he
  unfold tab
  simp only [tabData]
  rw [← List.map_coe_finRange_eq_range, List.flatMap_map]
  apply List.flatMap_congr
  intro i _
  rw [tabData_eq, List.map_filterMap]
  have : ∀ l : List (List Nat), (∀ a ∈ l, Valid e.2 a) → l.map (fun idx => value L n x e.1 (i.1 :: idx))
      = l.filterMap fun idx => ((L.coord e.1 idx).map fun k => (i, k)).map x := by
    intro l
    induction l with
    | nil => intro _; rfl
    | cons a l ih =>
      intro h
      obtain ⟨k, hk, _, _⟩ := hL.onto e he a (h a (by simp))
      rw [List.map_cons, ih fun a ha => h a (by simp [ha]), value_coord x hk i]
      rw [List.filterMap_cons_some (b := x (i, k)) (by rw [hk]; rfl)]
  exact this _ fun a ha => (mem_indices _ _).1 ha

theorem sum_elements (nm : String) {L : Lay K} (hL : L.Ok) [Fintype K] (pre : String) (n : Nat) (x : Fin n × K → ℝ) :
    (elements [(nm, enc L pre n x)]).sum = ∑ k, x k := by
  classical
  rw [elements_order nm hL, ← List.sum_toFinset _ (order_nodup hL n)]
  congr 1
  rw [Finset.eq_univ_iff_forall]
  intro p
  exact List.mem_toFinset.2 (mem_order hL n p)

theorem total_trip (nm : String) {L : Lay K} (hL : L.Ok) {L' : Lay K'} (hL' : L'.Ok) [Fintype K] [Fintype K'] {n B : Nat} (z : Sys2 (Fin n) (Fin B) K K') : total (trip L L' nm z) = sumAll z := by
  unfold total sumAll trip
  simp only [sum_elements nm hL, sum_elements nm hL']

/-! ## Derivatives -/

/-- The derivatives under their names. -/
noncomputable def dotTrip (L : Lay K) (L' : Lay K') (nm : String) {n B : Nat} (z : Sys2 (Fin n) (Fin B) K K') : Trip ℝ :=
  ([(nm, enc L "dot_" n z.1)], [(nm, enc L "dot_p_" n z.2.1)], [(nm, enc L' "dot_" B z.2.2)])

theorem dotted_single (nm : String) (L : Lay K) (pre : String) (n : Nat) (x : Fin n × K → ℝ) :
    dotted [(nm, enc L pre n x)] = [(nm, enc L ("dot_" ++ pre) n x)] := by
  unfold dotted enc
  simp only [List.map_cons, List.map_nil, List.map_map, Function.comp_def, String.append_assoc]

theorem dotTrip_eq (nm : String) (L : Lay K) (L' : Lay K') {n B : Nat} (z : Sys2 (Fin n) (Fin B) K K') : dotTrip L L' nm z = dotted3 (trip L L' nm z) := by
  unfold dotTrip dotted3 trip
  simp only [dotted_single]
  rfl

/-! ## Runs -/

/-- If the right-hand side on dictionaries computes `fld` and keeps a property of its memory, methods on dictionaries do what they do on functions. -/
theorem run_sim [Fintype K] [Fintype K'] {L : Lay K} (hL : L.Ok) {L' : Lay K'} (hL' : L'.Ok) (nm : String) {n B : Nat} {σ : Type} (F : ℝ → Trip ℝ → σ → Py (Trip ℝ × σ))
    (fld : ℝ → Sys2 (Fin n) (Fin B) K K' → Sys2 (Fin n) (Fin B) K K') (Inv : σ → Prop)
    (hF : ∀ t z s, Inv s → ∃ s', F t (trip L L' nm z) s = .ok (dotTrip L L' nm (fld t z), s') ∧ Inv s') (M : Method ℝ ℝ) :
    ∀ (zs : List (Sys2 (Fin n) (Fin B) K K')) (s : σ), Inv s →
      ∃ s', runDict (plansOf L L' nm n B) F M (zs.map (trip L L' nm)) s = (runSys fld M zs).map (fun ys => (ys.map (trip L L' nm), s')) ∧
        ∀ ys, runSys fld M zs = .ok ys → Inv s' := by
  induction M with
  | done outs =>
    intro zs s hs
    refine ⟨s, ?_, fun _ _ => hs⟩
    unfold runDict runSys
    simp only [pointwise3_trip nm hL hL', Except.map, List.map_map]
    rfl
  | fail e =>
    intro zs s hs
    exact ⟨s, rfl, fun _ _ => hs⟩
  | eval t g next ih =>
    intro zs s hs
    obtain ⟨s1, h1, hi⟩ := hF t (combine g zs) s hs
    obtain ⟨s2, h2, hi2⟩ := ih (zs ++ [fld t (combine g zs)]) s1 hi
    refine ⟨s2, ?_, hi2⟩
    unfold runDict runSys
    rw [pointwise3_trip nm hL hL', h1, ← h2]
    simp only [List.map_append, List.map_cons, List.map_nil, dotTrip_eq, undotted3_dotted3]
  | test q next ih =>
    intro zs s hs
    obtain ⟨s2, h2, hi2⟩ := ih (sumAll (combine q zs)) zs s hs
    refine ⟨s2, ?_, hi2⟩
    unfold runDict runSys
    rw [pointwise3_trip nm hL hL', total_trip nm hL hL']
    exact h2

end Verif.Whole
