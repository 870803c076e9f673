import Verif.Assembly.Lemmas

/-!
# Properties C01-C04: vectorisation of state, costate and data dictionaries
-/

namespace Verif.Assembly
open Verif

variable {α : Type _}

/-- A small network state used to show that hypotheses are satisfiable: two blocks, one of them with
two keys, a zero-size tensor and an empty block. -/
def sample : TDicts Nat :=
  [("a", [("q1", ⟨[2, 1], [1, 2]⟩), ("q2", ⟨[1, 3], [3, 4, 5]⟩)]), ("b", []),
   ("c", [("q1", ⟨[0, 4], []⟩), ("q9", ⟨[2], [6, 7]⟩)])]

def sampleData : TDicts Nat := [("d", [("q1", ⟨[1], [9]⟩)])]

/-- **C01** Assembling and reading back gives the same blocks, keys, shapes and values; only blocks
without entries disappear. -/
theorem C01_roundtrip (s c d : TDicts α) (hs : GoodDicts s) (hc : GoodDicts c) (hd : GoodDicts d)
    (ts : HasTensor s) (tc : HasTensor c) (td : HasTensor d) :
    ∃ v plans, assembleTensor s c d = .ok (v, plans) ∧
      disassembleTensor (.vec v) (some plans) 0
        = .ok (dropEmptyBlocks s, dropEmptyBlocks c, dropEmptyBlocks d) := by
  rw [hasTensor_iff] at ts tc td
  refine ⟨_, _, by rw [assembleTensor_eq s c d hs hc hd, if_neg (by tauto)], ?_⟩
  have wf : ∀ x : TDicts α, GoodDicts x → ∀ b ∈ dropEmptyBlocks x, ∀ p ∈ b.2, p.2.WF :=
    fun x hx b hb p hp => ((hx.2 b (List.mem_of_mem_filter hb)).2 p hp).1
  have len : ∀ x : TDicts α, GoodDicts x →
      planLength (shapesOf (dropEmptyBlocks x)) = (elements x).length := by
    intro x hx
    rw [planLength_shapesOf _ (wf x hx), elements_dropEmpty]
  rw [disassembleTensor_vec _ _
    ⟨goodPlans_shapesOf s hs, goodPlans_shapesOf c hc, goodPlans_shapesOf d hd⟩]
  rw [if_pos (by simp [totalLength, len s hs, len c hc, len d hd, Nat.add_assoc])]
  have r1 := decDicts_roundtrip (dropEmptyBlocks s) (wf s hs) [] (elements c ++ elements d)
  have r2 := decDicts_roundtrip (dropEmptyBlocks c) (wf c hc) (elements s) (elements d)
  have r3 := decDicts_roundtrip (dropEmptyBlocks d) (wf d hd) (elements s ++ elements c) []
  simp only [elements_dropEmpty, List.append_assoc, List.nil_append, List.append_nil,
    List.length_nil, List.length_append] at r1 r2 r3
  simp only [len s hs, len c hc, List.append_assoc, r1, r2, r3]

/-- **C01** (corollary) Without empty blocks the round trip is the identity. -/
theorem C01_roundtrip_identity (s c d : TDicts α) (hs : GoodDicts s) (hc : GoodDicts c)
    (hd : GoodDicts d) (ns : s ≠ []) (nc : c ≠ []) (nd : d ≠ [])
    (es : ∀ b ∈ s, b.2 ≠ []) (ec : ∀ b ∈ c, b.2 ≠ []) (ed : ∀ b ∈ d, b.2 ≠ []) :
    ∃ v plans, assembleTensor s c d = .ok (v, plans) ∧
      disassembleTensor (.vec v) (some plans) 0 = .ok (s, c, d) := by
  have drop : ∀ x : TDicts α, (∀ b ∈ x, b.2 ≠ []) → dropEmptyBlocks x = x := by
    intro x hx
    unfold dropEmptyBlocks
    rw [List.filter_eq_self]
    intro b hb
    have := hx b hb
    simpa using this
  have has : ∀ x : TDicts α, x ≠ [] → (∀ b ∈ x, b.2 ≠ []) → HasTensor x := by
    intro x hx he
    cases x with
    | nil => exact absurd rfl hx
    | cons b x => exact ⟨b, by simp, he b (by simp)⟩
  obtain ⟨v, plans, h1, h2⟩ := C01_roundtrip s c d hs hc hd (has s ns es) (has c nc ec) (has d nd ed)
  exact ⟨v, plans, h1, by rw [h2, drop s es, drop c ec, drop d ed]⟩

example : GoodDicts sample ∧ HasTensor sample ∧ GoodDicts sampleData ∧ HasTensor sampleData := by
  refine ⟨by decide, ⟨_, List.mem_cons_self, by simp⟩, by decide, ⟨_, List.mem_cons_self, by simp⟩⟩

/-- **C02** The assembled vector is the state's elements, then the costate's, then the data's, and
nothing else; the plans record exactly the shapes of the non-empty blocks. -/
theorem C02_layout (s c d : TDicts α) (hs : GoodDicts s) (hc : GoodDicts c) (hd : GoodDicts d)
    (v : List α) (plans : AllPlans) (h : assembleTensor s c d = .ok (v, plans)) :
    v = elements s ++ elements c ++ elements d ∧
    v.length = totalLength plans ∧
    plans.state = shapesOf (dropEmptyBlocks s) ∧
    plans.costate = shapesOf (dropEmptyBlocks c) ∧
    plans.data = shapesOf (dropEmptyBlocks d) := by
  rw [assembleTensor_eq s c d hs hc hd] at h
  split at h
  · cases h
  · simp only [Except.ok.injEq, Prod.mk.injEq] at h
    obtain ⟨rfl, rfl⟩ := h
    have wf : ∀ x : TDicts α, GoodDicts x → ∀ b ∈ dropEmptyBlocks x, ∀ p ∈ b.2, p.2.WF :=
      fun x hx b hb p hp => ((hx.2 b (List.mem_of_mem_filter hb)).2 p hp).1
    have len : ∀ x : TDicts α, GoodDicts x →
        planLength (shapesOf (dropEmptyBlocks x)) = (elements x).length := by
      intro x hx
      rw [planLength_shapesOf _ (wf x hx), elements_dropEmpty]
    refine ⟨rfl, ?_, rfl, rfl, rfl⟩
    simp [totalLength, len s hs, len c hc, len d hd, Nat.add_assoc]

example : ∃ v plans, assembleTensor sample sample sampleData = .ok (v, plans) ∧
    v = [1, 2, 3, 4, 5, 6, 7, 1, 2, 3, 4, 5, 6, 7, 9] := ⟨_, _, rfl, rfl⟩

/-- **C03** Disassembling a stack of `T` vectors (`dim=1`) gives tensors with a leading dimension
`T`, and the slice at time `i` of every one of them is what disassembling vector `i` gives. -/
theorem C03_stack_rowwise (n : Nat) (rs : List (List α)) (hrs : ∀ r ∈ rs, r.length = n)
    (p : AllPlans) (hp : GoodAllPlans p) (hn : totalLength p ≤ n) :
    ∃ S C D, disassembleTensor (.stack n rs) (some p) 1 = .ok (S, C, D) ∧
      LeadingDim rs.length S ∧ LeadingDim rs.length C ∧ LeadingDim rs.length D ∧
      ∀ i (hi : i < rs.length), disassembleTensor (.vec rs[i]) (some p) 0
        = .ok (atTime i S, atTime i C, atTime i D) := by
  refine ⟨_, _, _, by rw [disassembleTensor_stack n rs hrs p hp, if_pos (Or.inl hn)], ?_⟩
  have lead : ∀ (q : Plans) (j : Nat), j + planLength q ≤ n →
      LeadingDim rs.length (decDicts (readStack rs) q j) := by
    have l1 : ∀ (q : Plan) (j : Nat), j + plen q ≤ n →
        ∀ e ∈ decDict (readStack rs) q j, ∃ s, e.2.shape = rs.length :: s ∧ e.2.WF := by
      intro q
      induction q with
      | nil => intro j _ e he; cases he
      | cons a q ih =>
        intro j hj e he
        simp only [plen_cons] at hj
        rcases List.mem_cons.1 he with rfl | he
        · refine ⟨a.2, rfl, ?_⟩
          simp only [Tensor.WF, readStack, vol]
          rw [flatten_length_const (n := vol a.2)]
          · simp
          · intro r hr
            obtain ⟨r', hr', rfl⟩ := List.mem_map.1 hr
            rw [slice_length, hrs r' hr']; omega
        · exact ih _ (by omega) e he
    intro q
    induction q with
    | nil => intro j _ b hb; cases hb
    | cons a q ih =>
      intro j hj b hb
      rw [planLength_cons] at hj
      rcases List.mem_cons.1 hb with rfl | hb
      · exact l1 a.2 j (by omega)
      · exact ih _ (by omega) b hb
  unfold totalLength at hn
  refine ⟨lead _ _ (by omega), lead _ _ (by omega), lead _ _ (by omega), ?_⟩
  intro i hi
  have hri : rs[i].length = n := hrs _ (List.getElem_mem hi)
  rw [disassembleTensor_vec _ _ hp, if_pos (by rw [hri]; exact hn)]
  have key : ∀ (q : Plans) (j : Nat), j + planLength q ≤ n →
      atTime i (decDicts (readStack rs) q j) = decDicts (readVec rs[i]) q j := by
    have k0 : ∀ (s : List Nat) (j : Nat), j + vol s ≤ n →
        (readStack rs s j).index0 i = readVec rs[i] s j := by
      intro s j hj
      simp only [readStack, Tensor.index0, readVec, List.tail_cons]
      congr 1
      have gen : ∀ (xs : List (List α)), (∀ x ∈ xs, x.length = vol s) → ∀ i (hi : i < xs.length),
          (xs.flatten.drop (i * vol s)).take (vol s) = xs[i] := by
        intro xs hx
        induction xs with
        | nil => intro i hi; simp at hi
        | cons x xs ih =>
          simp only [List.mem_cons, forall_eq_or_imp] at hx
          intro i hi
          cases i with
          | zero => simp [← hx.1]
          | succ i =>
            have := ih hx.2 i (by simpa using hi)
            simp only [List.flatten_cons, List.getElem_cons_succ]
            rw [← this, List.drop_append, List.drop_of_length_le (by rw [hx.1, Nat.succ_mul]; omega)]
            rw [hx.1, Nat.succ_mul]
            simp
      rw [gen _ (by
        intro x hx
        obtain ⟨r, hr, rfl⟩ := List.mem_map.1 hx
        rw [slice_length, hrs r hr]; omega) i (by simpa using hi)]
      simp
    have k1 : ∀ (q : Plan) (j : Nat), j + plen q ≤ n →
        SDict.mapVals (fun t => t.index0 i) (decDict (readStack rs) q j)
          = decDict (readVec rs[i]) q j := by
      intro q
      induction q with
      | nil => intro j _; rfl
      | cons a q ih =>
        intro j hj
        rw [plen_cons] at hj
        have h1 := k0 a.2 j (by omega)
        have h2 := ih (j + vol a.2) (by omega)
        simp only [SDict.mapVals] at h2
        simp [decDict, SDict.mapVals, h1, h2]
    intro q
    induction q with
    | nil => intro j _; rfl
    | cons a q ih =>
      intro j hj
      rw [planLength_cons] at hj
      have h1 := k1 a.2 j (by omega)
      have h2 := ih (j + plen a.2) (by omega)
      simp only [atTime, SDict.mapVals] at h1 h2 ⊢
      simp [decDicts, h1, h2]
  rw [key _ _ (by omega), key _ _ (by omega), key _ _ (by omega)]

example : ∃ p : AllPlans, GoodAllPlans p ∧ totalLength p = 6 ∧
    ∀ r ∈ [[1, 2, 3, 4, 5, 6], [7, 8, 9, 10, 11, 12]], r.length = 6 :=
  ⟨⟨[("a", [("q", [2, 2])])], [("a", [("p", [1])])], [("d", [("q", [1])])]⟩,
    ⟨by decide, by decide, by decide⟩, by decide, by decide⟩

/-- **C03** (consequence) A stack whose row `i` is the vectorisation of a state of step `i`, all with
the same shapes, gives back, at each time, that state. -/
theorem C03_trajectory_roundtrip (n : Nat) (p : AllPlans)
    (steps : List (TDicts α × TDicts α × TDicts α)) (rs : List (List α))
    (hlen : steps.length = rs.length) (hp : GoodAllPlans p)
    (hgood : ∀ x ∈ steps, GoodDicts x.1 ∧ GoodDicts x.2.1 ∧ GoodDicts x.2.2)
    (hasm : ∀ i (h1 : i < steps.length) (h2 : i < rs.length),
      assembleTensor steps[i].1 steps[i].2.1 steps[i].2.2 = .ok (rs[i], p))
    (hn : totalLength p = n) :
    ∃ S C D, disassembleTensor (.stack n rs) (some p) 1 = .ok (S, C, D) ∧
      ∀ i (h : i < steps.length), atTime i S = dropEmptyBlocks steps[i].1 ∧
        atTime i C = dropEmptyBlocks steps[i].2.1 ∧ atTime i D = dropEmptyBlocks steps[i].2.2 := by
  have hrs : ∀ r ∈ rs, r.length = n := by
    intro r hr
    obtain ⟨i, hi, rfl⟩ := List.getElem_of_mem hr
    have hg := hgood _ (List.getElem_mem (by omega : i < steps.length))
    have := C02_layout _ _ _ hg.1 hg.2.1 hg.2.2 _ _ (hasm i (by omega) hi)
    rw [this.2.1, hn]
  obtain ⟨S, C, D, h, -, -, -, hrow⟩ := C03_stack_rowwise n rs hrs p hp (by omega)
  refine ⟨S, C, D, h, ?_⟩
  intro i hi
  have hg := hgood _ (List.getElem_mem hi)
  have ha := hasm i hi (by omega)
  have hr := hrow i (by omega)
  have hne : HasTensor steps[i].1 ∧ HasTensor steps[i].2.1 ∧ HasTensor steps[i].2.2 := by
    rw [assembleTensor_eq _ _ _ hg.1 hg.2.1 hg.2.2] at ha
    split at ha
    · cases ha
    · next hno => simp only [hasTensor_iff]; tauto
  obtain ⟨v, plans, e1, e2⟩ := C01_roundtrip _ _ _ hg.1 hg.2.1 hg.2.2 hne.1 hne.2.1 hne.2.2
  rw [ha] at e1
  simp only [Except.ok.injEq, Prod.mk.injEq] at e1
  obtain ⟨rfl, rfl⟩ := e1
  rw [hr] at e2
  simp only [Except.ok.injEq, Prod.mk.injEq] at e2
  exact e2

example : ∃ v p, assembleTensor sample sample sampleData = .ok (v, p) ∧ v.length = totalLength p :=
  ⟨_, _, rfl, by decide⟩

/-- **C04** Assembling raises exactly when one of the three sections has no tensor. -/
theorem C04_assemble_raises_iff (s c d : TDicts α) (hs : GoodDicts s) (hc : GoodDicts c)
    (hd : GoodDicts d) :
    assembleTensor s c d = .error .typeError ↔ ¬ (HasTensor s ∧ HasTensor c ∧ HasTensor d) := by
  rw [assembleTensor_eq s c d hs hc hd, hasTensor_iff, hasTensor_iff, hasTensor_iff]
  split <;> simp <;> tauto

/-- **C04** Dimensions other than 0 and 1 are rejected, whatever the input. -/
theorem C04_bad_dim (x : Input α) (p : Option AllPlans) (dim : Int) (h : dim ≠ 0 ∧ dim ≠ 1) :
    disassembleTensor x p dim = .error .valueError := by
  unfold disassembleTensor; rw [if_pos h]

/-- **C04** A missing plan is rejected. -/
theorem C04_no_plan (x : Input α) (dim : Int) :
    disassembleTensor x none dim = .error .valueError := by
  unfold disassembleTensor; split <;> rfl

/-- **C04** A vector is accepted exactly when it is at least as long as the plan requires; a shorter
one raises. -/
theorem C04_vector_length (v : List α) (p : AllPlans) (hp : GoodAllPlans p) :
    ((∃ r, disassembleTensor (.vec v) (some p) 0 = .ok r) ↔ totalLength p ≤ v.length) ∧
    (v.length < totalLength p → disassembleTensor (.vec v) (some p) 0 = .error .runtimeError) := by
  rw [disassembleTensor_vec v p hp]
  constructor
  · split <;> simp_all
  · intro h; rw [if_neg (by omega)]

/-- **C04** Surplus entries at the end of the vector do not influence the result. -/
theorem C04_surplus_ignored (v w : List α) (p : AllPlans) (hp : GoodAllPlans p)
    (hv : totalLength p ≤ v.length) :
    disassembleTensor (.vec (v ++ w)) (some p) 0 = disassembleTensor (.vec v) (some p) 0 := by
  rw [disassembleTensor_vec _ p hp, disassembleTensor_vec _ p hp, if_pos hv,
    if_pos (by simp; omega)]
  have k0 : ∀ (s : List Nat) (j : Nat), j + vol s ≤ v.length →
      readVec (v ++ w) s j = readVec v s j := by
    intro s j hj
    simp only [readVec, slice]
    congr 1
    rw [List.drop_append_of_le_length (by omega), List.take_append_of_le_length (by simp; omega)]
  have k1 : ∀ (q : Plan) (j : Nat), j + plen q ≤ v.length →
      decDict (readVec (v ++ w)) q j = decDict (readVec v) q j := by
    intro q
    induction q with
    | nil => intro j _; rfl
    | cons a q ih =>
      intro j hj
      rw [plen_cons] at hj
      simp [decDict, k0 a.2 j (by omega), ih (j + vol a.2) (by omega)]
  have k2 : ∀ (q : Plans) (j : Nat), j + planLength q ≤ v.length →
      decDicts (readVec (v ++ w)) q j = decDicts (readVec v) q j := by
    intro q
    induction q with
    | nil => intro j _; rfl
    | cons a q ih =>
      intro j hj
      rw [planLength_cons] at hj
      simp [decDicts, k1 a.2 j (by omega), ih (j + plen a.2) (by omega)]
  unfold totalLength at hv
  rw [k2 _ _ (by omega), k2 _ _ (by omega), k2 _ _ (by omega)]

/-- **C04** What the code does with a rank-0 tensor (outside the quantifier of C01): assembling
works, but disassembling the result raises. -/
theorem C04_rank0_not_readable (x : α) (s d : TDicts α) (hs : GoodDicts s) (hd : GoodDicts d)
    (ts : HasTensor s) (td : HasTensor d) (bn kn : String) :
    ∃ v plans, assembleTensor [(bn, [(kn, ⟨[], [x]⟩)])] s d = .ok (v, plans) ∧
      disassembleTensor (.vec v) (some plans) 0 = .error .typeError := by
  rw [hasTensor_iff] at ts td
  refine ⟨[x] ++ elements s ++ elements d,
    ⟨[(bn, [(kn, [])])], shapesOf (dropEmptyBlocks s), shapesOf (dropEmptyBlocks d)⟩, ?_, ?_⟩
  · unfold assembleTensor
    rw [assembleDicts_eq s (fun p hp => (hs.2 p hp).1), assembleDicts_eq d (fun p hp => (hd.2 p hp).1)]
    simp [ts, td, assembleDicts, assembleDict, SDict.set]
  · rfl

example : (GoodDicts sampleData) ∧ assembleTensor sampleData [("b", [])] sampleData
    = (.error .typeError : Py (List Nat × AllPlans)) := ⟨by decide, rfl⟩

end Verif.Assembly
