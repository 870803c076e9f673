import Verif.Assembly.Spec

namespace Verif.Assembly
open Verif

variable {α : Type _}

/-! ## Assembling -/

theorem assemble_loop (d : TDict α) (l : List (List α)) (pl : Plan)
    (h : SDict.Sorted (pl ++ SDict.mapVals Tensor.shape d)) :
    d.foldl (fun (acc : List (List α) × Plan) p =>
      (acc.1 ++ [p.2.data], acc.2.set p.1 p.2.shape)) (l, pl)
      = (l ++ d.map (fun p => p.2.data), pl ++ SDict.mapVals Tensor.shape d) := by
  induction d generalizing l pl with
  | nil => simp [SDict.mapVals]
  | cons p d ih =>
    have e : SDict.mapVals Tensor.shape (p :: d) = (p.1, p.2.shape) :: SDict.mapVals Tensor.shape d :=
      rfl
    rw [e] at h ⊢
    rw [List.foldl_cons]
    have hlt : ∀ x ∈ SDict.keys pl, x < p.1 := by
      rw [SDict.sorted_append] at h
      intro x hx
      exact h.2.2 x hx p.1 (by simp)
    rw [SDict.set_of_forall_lt hlt, ih]
    · simp
    · simpa using h

theorem assembleDict_eq (d : TDict α) (h : SDict.Sorted d) :
    assembleDict d = if d = [] then none
      else some (d.flatMap (fun p => p.2.data), SDict.mapVals Tensor.shape d) := by
  unfold assembleDict
  rw [assemble_loop d [] [] (by simpa using h.mapVals Tensor.shape)]
  cases d with
  | nil => simp
  | cons p d => simp [List.flatMap_def]

theorem assembleDicts_loop (d : TDicts α) (hd : ∀ p ∈ d, SDict.Sorted p.2)
    (acc : Option (List α) × Plans) :
    d.foldl (fun (acc : Option (List α) × Plans) p =>
      match assembleDict p.2 with
      | none => acc
      | some (v, plan) =>
        (match acc.1 with
          | none => some v
          | some w => some (w ++ v),
         acc.2 ++ [(p.1, plan)])) acc
      = ((if dropEmptyBlocks d = [] then acc.1 else some (acc.1.getD [] ++ elements d)),
         acc.2 ++ shapesOf (dropEmptyBlocks d)) := by
  induction d generalizing acc with
  | nil => simp [dropEmptyBlocks, shapesOf]
  | cons p d ih =>
    rw [List.foldl_cons, ih (fun q hq => hd q (List.mem_cons_of_mem _ hq))]
    rw [assembleDict_eq p.2 (hd p (by simp))]
    obtain ⟨k, b⟩ := p
    by_cases hb : b = []
    · subst hb
      have e : dropEmptyBlocks ((k, []) :: d) = dropEmptyBlocks d := by
        simp [dropEmptyBlocks]
      have e2 : elements ((k, []) :: d) = elements d := by simp [elements]
      rw [e, e2]; simp
    · have hne : (dropEmptyBlocks ((k, b) :: d)) = (k, b) :: dropEmptyBlocks d := by
        simp [dropEmptyBlocks, hb]
      rw [hne]
      simp only [hb, if_false]
      obtain ⟨a1, a2⟩ := acc
      have he : elements ((k, b) :: d) = b.flatMap (fun p => p.2.data) ++ elements d := by
        simp [elements]
      have hz : dropEmptyBlocks d = [] → elements d = [] := by
        intro h0
        have : ∀ q ∈ d, q.2 = [] := by
          intro q hq
          by_contra hne
          have hmem : q ∈ dropEmptyBlocks d := by simp [dropEmptyBlocks, hq, hne]
          rw [h0] at hmem; cases hmem
        simp only [elements, List.flatMap_eq_nil_iff]
        intro q hq; simp [this q hq]
      cases a1 with
      | none =>
        by_cases h0 : dropEmptyBlocks d = []
        · simp [h0, he, hz h0, shapesOf, SDict.mapVals]
        · simp [h0, he, shapesOf, SDict.mapVals]
      | some w =>
        by_cases h0 : dropEmptyBlocks d = []
        · simp [h0, he, hz h0, shapesOf, SDict.mapVals]
        · simp [h0, he, shapesOf, SDict.mapVals]

theorem assembleDicts_eq (d : TDicts α) (hd : ∀ p ∈ d, SDict.Sorted p.2) :
    assembleDicts d = ((if dropEmptyBlocks d = [] then none else some (elements d)),
         shapesOf (dropEmptyBlocks d)) := by
  unfold assembleDicts
  exact (assembleDicts_loop d hd (none, [])).trans (by simp)

theorem hasTensor_iff (d : TDicts α) : HasTensor d ↔ dropEmptyBlocks d ≠ [] := by
  unfold HasTensor dropEmptyBlocks
  rw [ne_eq, List.filter_eq_nil_iff]
  simp

theorem elements_dropEmpty (d : TDicts α) : elements (dropEmptyBlocks d) = elements d := by
  induction d with
  | nil => rfl
  | cons p d ih =>
    obtain ⟨k, b⟩ := p
    by_cases hb : b = []
    · subst hb
      have e : dropEmptyBlocks ((k, []) :: d) = dropEmptyBlocks d := by
        simp [dropEmptyBlocks]
      rw [e, ih]; simp [elements]
    · have e : dropEmptyBlocks ((k, b) :: d) = (k, b) :: dropEmptyBlocks d := by
        simp [dropEmptyBlocks, hb]
      rw [e]
      have e2 : ∀ x : TDicts α, elements ((k, b) :: x) = b.flatMap (fun p => p.2.data) ++ elements x := by
        intro x; simp [elements]
      rw [e2, e2, ih]

theorem assembleTensor_eq (s c d : TDicts α) (hs : GoodDicts s) (hc : GoodDicts c)
    (hd : GoodDicts d) :
    assembleTensor s c d =
      if dropEmptyBlocks s = [] ∨ dropEmptyBlocks c = [] ∨ dropEmptyBlocks d = [] then
        .error .typeError
      else .ok (elements s ++ elements c ++ elements d,
        ⟨shapesOf (dropEmptyBlocks s), shapesOf (dropEmptyBlocks c),
          shapesOf (dropEmptyBlocks d)⟩) := by
  unfold assembleTensor
  rw [assembleDicts_eq s (fun p hp => (hs.2 p hp).1), assembleDicts_eq c (fun p hp => (hc.2 p hp).1),
    assembleDicts_eq d (fun p hp => (hd.2 p hp).1)]
  by_cases h1 : dropEmptyBlocks s = [] <;> by_cases h2 : dropEmptyBlocks c = [] <;>
    by_cases h3 : dropEmptyBlocks d = [] <;> simp [h1, h2, h3]

/-! ## Disassembling -/

/-- Length of the vector part described by one plan. -/
def plen (p : Plan) : Nat := (p.map (fun e => vol e.2)).sum

@[simp] theorem plen_nil : plen [] = 0 := rfl
@[simp] theorem plen_cons (e : String × List Nat) (p : Plan) :
    plen (e :: p) = vol e.2 + plen p := by simp [plen]

theorem planLength_cons (b : String × Plan) (p : Plans) :
    planLength (b :: p) = plen b.2 + planLength p := by simp [planLength, plen]

/-- Reading a plan from offset `i` with a reader for single entries. -/
def decDict (f : List Nat → Nat → Tensor α) : Plan → Nat → TDict α
  | [], _ => []
  | e :: p, i => (e.1, f e.2 i) :: decDict f p (i + vol e.2)

def decDicts (f : List Nat → Nat → Tensor α) : Plans → Nat → TDicts α
  | [], _ => []
  | b :: p, i => (b.1, decDict f b.2 i) :: decDicts f p (i + plen b.2)

@[simp] theorem keys_decDict (f : List Nat → Nat → Tensor α) (p : Plan) (i : Nat) :
    SDict.keys (decDict f p i) = SDict.keys p := by
  induction p generalizing i with
  | nil => rfl
  | cons e p ih => simp [decDict, ih]

@[simp] theorem keys_decDicts (f : List Nat → Nat → Tensor α) (p : Plans) (i : Nat) :
    SDict.keys (decDicts f p i) = SDict.keys p := by
  induction p generalizing i with
  | nil => rfl
  | cons e p ih => simp [decDicts, ih]

/-- Entry reader for `dim = 0` on a vector. -/
def readVec (v : List α) (s : List Nat) (i : Nat) : Tensor α := ⟨s, slice v i (i + vol s)⟩

/-- Entry reader for `dim = 1` on a stack. -/
def readStack (rs : List (List α)) (s : List Nat) (i : Nat) : Tensor α :=
  ⟨rs.length :: s, (rs.map (fun r => slice r i (i + vol s))).flatten⟩

theorem slice_length (v : List α) (i n : Nat) :
    (slice v i (i + n)).length = min n (v.length - i) := by
  simp [slice]

theorem entry_vec (v : List α) (s : List Nat) (hs : s ≠ []) (i : Nat) :
    disassembleEntry (.vec v) s 0 i =
      if i + vol s ≤ v.length ∨ vol s = 0 then .ok (readVec v s i, i + vol s)
      else .error .runtimeError := by
  unfold disassembleEntry
  simp only [hs, if_false, if_true, view, slice_length]
  by_cases h : i + vol s ≤ v.length ∨ vol s = 0
  · rw [if_pos (by omega), if_pos h]; rfl
  · rw [if_neg (by omega), if_neg h]; rfl

theorem flatten_length_const {rs : List (List α)} {n : Nat} (h : ∀ r ∈ rs, r.length = n) :
    rs.flatten.length = rs.length * n := by
  induction rs with
  | nil => simp
  | cons r rs ih =>
    simp only [List.mem_cons, forall_eq_or_imp] at h
    simp [ih h.2, h.1, Nat.succ_mul, Nat.add_comm]

theorem entry_stack (n : Nat) (rs : List (List α)) (hrs : ∀ r ∈ rs, r.length = n)
    (s : List Nat) (hs : s ≠ []) (i : Nat) :
    disassembleEntry (.stack n rs) s 1 i =
      if i + vol s ≤ n ∨ vol s = 0 ∨ rs = [] then .ok (readStack rs s i, i + vol s)
      else .error .runtimeError := by
  unfold disassembleEntry
  have hlen : ((rs.map (fun r => slice r i (i + vol s))).flatten).length
      = rs.length * min (vol s) (n - i) := by
    rw [flatten_length_const (n := min (vol s) (n - i))]
    · simp
    · intro r hr
      obtain ⟨r', hr', rfl⟩ := List.mem_map.1 hr
      rw [slice_length, hrs r' hr']
  have e : (1 : Int) ≠ 0 := by decide
  simp only [hs, if_false, e, if_true, view, hlen, vol]
  by_cases h0 : rs = []
  · subst h0; simp [readStack]; rfl
  · have hpos : 0 < rs.length := List.length_pos_iff.2 h0
    by_cases h : i + vol s ≤ n ∨ vol s = 0
    · have hm : min (vol s) (n - i) = vol s := by omega
      rw [if_pos (by rw [hm]), if_pos (by tauto)]; rfl
    · have hm : min (vol s) (n - i) ≠ vol s := by omega
      rw [if_neg (fun hc => hm (Nat.eq_of_mul_eq_mul_left hpos hc)), if_neg (by tauto)]; rfl

/-- Generic description of `disassembleDict` for an input whose entries are read by `f` whenever the
entry fits. -/
theorem disassembleDict_loop (input : Input α) (dim : Int) (f : List Nat → Nat → Tensor α)
    (ok : Nat → Nat → Bool)
    (hok0 : ∀ i, ok i 0)
    (hsplit : ∀ i a b, (ok i a ∧ ok (i + a) b) ↔ ok i (a + b))
    (hentry : ∀ s i, s ≠ [] → disassembleEntry input s dim i =
      if ok i (vol s) then .ok (f s i, i + vol s) else .error .runtimeError)
    (p : Plan) (hp : ∀ e ∈ p, e.2 ≠ []) (acc : TDict α) (i : Nat)
    (hsort : SDict.Sorted (acc ++ decDict f p i)) :
    p.foldlM (fun (acc : TDict α × Nat) p => do
      let (t, incr') ← disassembleEntry input p.2 dim acc.2
      (.ok (acc.1.set p.1 t, incr') : Py _)) (acc, i)
      = if ok i (plen p) then .ok (acc ++ decDict f p i, i + plen p) else .error .runtimeError := by
  induction p generalizing acc i with
  | nil => simp [decDict, hok0, pure, Except.pure]
  | cons e p ih =>
    obtain ⟨k, s⟩ := e
    simp only [List.mem_cons, forall_eq_or_imp] at hp
    rw [List.foldlM_cons]
    simp only [hentry s i hp.1]
    by_cases h1 : ok i (vol s)
    · simp only [h1, if_true]
      change (List.foldlM _ (SDict.set acc k (f s i), i + vol s) p : Py _) = _
      have hlt : ∀ x ∈ SDict.keys acc, x < k := by
        rw [SDict.sorted_append] at hsort
        intro x hx
        exact hsort.2.2 x hx k (by simp [decDict])
      rw [SDict.set_of_forall_lt hlt, ih hp.2]
      · have := hsplit i (vol s) (plen p)
        simp only [plen_cons]
        by_cases h2 : ok (i + vol s) (plen p)
        · rw [if_pos h2, if_pos (this.1 ⟨h1, h2⟩)]
          simp [decDict, Nat.add_assoc]
        · rw [if_neg h2, if_neg (fun h => h2 (this.2 h).2)]
      · simpa [decDict] using hsort
    · have := hsplit i (vol s) (plen p)
      simp only [h1, plen_cons]
      rw [if_neg (fun h => h1 (this.2 h).1)]
      rfl

theorem disassembleDicts_loop (input : Input α) (dim : Int) (f : List Nat → Nat → Tensor α)
    (ok : Nat → Nat → Bool)
    (hok0 : ∀ i, ok i 0)
    (hsplit : ∀ i a b, (ok i a ∧ ok (i + a) b) ↔ ok i (a + b))
    (hentry : ∀ s i, s ≠ [] → disassembleEntry input s dim i =
      if ok i (vol s) then .ok (f s i, i + vol s) else .error .runtimeError)
    (p : Plans) (hp : ∀ b ∈ p, SDict.Sorted b.2 ∧ ∀ e ∈ b.2, e.2 ≠ []) (acc : TDicts α) (i : Nat)
    (hsort : SDict.Sorted (acc ++ decDicts f p i)) :
    p.foldlM (fun (acc : TDicts α × Nat) p => do
      let (d, incr') ← disassembleDict input p.2 dim acc.2
      (.ok (acc.1.set p.1 d, incr') : Py _)) (acc, i)
      = if ok i (planLength p) then .ok (acc ++ decDicts f p i, i + planLength p)
        else .error .runtimeError := by
  induction p generalizing acc i with
  | nil => simp [decDicts, hok0, planLength, pure, Except.pure]
  | cons b p ih =>
    obtain ⟨k, pl⟩ := b
    simp only [List.mem_cons, forall_eq_or_imp] at hp
    rw [List.foldlM_cons]
    have hd : disassembleDict input pl dim i = if ok i (plen pl) then
        .ok (decDict f pl i, i + plen pl) else .error .runtimeError := by
      unfold disassembleDict
      have := disassembleDict_loop input dim f ok hok0 hsplit hentry pl hp.1.2 [] i (by
        have := hp.1.1
        unfold SDict.Sorted at this ⊢
        simpa using this)
      simpa using this
    simp only [hd, planLength_cons]
    have hsp := hsplit i (plen pl) (planLength p)
    by_cases h1 : ok i (plen pl)
    · simp only [h1, if_true]
      change (List.foldlM _ (SDict.set acc k (decDict f pl i), i + plen pl) p : Py _) = _
      have hlt : ∀ x ∈ SDict.keys acc, x < k := by
        rw [SDict.sorted_append] at hsort
        intro x hx
        exact hsort.2.2 x hx k (by simp [decDicts])
      rw [SDict.set_of_forall_lt hlt, ih hp.2]
      · by_cases h2 : ok (i + plen pl) (planLength p)
        · rw [if_pos h2, if_pos (hsp.1 ⟨h1, h2⟩)]
          simp [decDicts, Nat.add_assoc]
        · rw [if_neg h2, if_neg (fun h => h2 (hsp.2 h).2)]
      · simpa [decDicts] using hsort
    · simp only [h1]
      rw [if_neg (fun h => h1 (hsp.2 h).1)]
      rfl

theorem disassembleDicts_gen (input : Input α) (dim : Int) (f : List Nat → Nat → Tensor α)
    (ok : Nat → Nat → Bool)
    (hok0 : ∀ i, ok i 0)
    (hsplit : ∀ i a b, (ok i a ∧ ok (i + a) b) ↔ ok i (a + b))
    (hentry : ∀ s i, s ≠ [] → disassembleEntry input s dim i =
      if ok i (vol s) then .ok (f s i, i + vol s) else .error .runtimeError)
    (p : Plans) (hp : GoodPlans p) (i : Nat) :
    disassembleDicts input p dim i
      = if ok i (planLength p) then .ok (decDicts f p i, i + planLength p)
        else .error .runtimeError := by
  unfold disassembleDicts
  have := disassembleDicts_loop input dim f ok hok0 hsplit hentry p hp.2 [] i (by
    have := hp.1
    unfold SDict.Sorted at this ⊢
    simpa using this)
  simpa using this

theorem disassembleTensor_gen (input : Input α) (dim : Int) (hdim : dim = 0 ∨ dim = 1)
    (f : List Nat → Nat → Tensor α)
    (ok : Nat → Nat → Bool)
    (hok0 : ∀ i, ok i 0)
    (hsplit : ∀ i a b, (ok i a ∧ ok (i + a) b) ↔ ok i (a + b))
    (hentry : ∀ s i, s ≠ [] → disassembleEntry input s dim i =
      if ok i (vol s) then .ok (f s i, i + vol s) else .error .runtimeError)
    (p : AllPlans) (hp : GoodAllPlans p) :
    disassembleTensor input (some p) dim
      = if ok 0 (totalLength p) then
          .ok (decDicts f p.state 0, decDicts f p.costate (planLength p.state),
            decDicts f p.data (planLength p.state + planLength p.costate))
        else .error .runtimeError := by
  unfold disassembleTensor
  rw [if_neg (by rcases hdim with h | h <;> simp [h])]
  simp only [disassembleDicts_gen input dim f ok hok0 hsplit hentry _ hp.1,
    disassembleDicts_gen input dim f ok hok0 hsplit hentry _ hp.2.1,
    disassembleDicts_gen input dim f ok hok0 hsplit hentry _ hp.2.2]
  have e1 := hsplit 0 (planLength p.state) (planLength p.costate)
  have e2 := hsplit 0 (planLength p.state + planLength p.costate) (planLength p.data)
  unfold totalLength
  by_cases h1 : ok 0 (planLength p.state)
  · simp only [h1, if_true, Nat.zero_add] at e1 e2 ⊢
    by_cases h2 : ok (planLength p.state) (planLength p.costate)
    · by_cases h3 : ok (planLength p.state + planLength p.costate) (planLength p.data)
      · rw [if_pos (e2.1 ⟨e1.1 ⟨trivial, h2⟩, h3⟩)]
        simp [h2, h3, bind, Except.bind]
      · rw [if_neg (fun h => h3 (e2.2 h).2)]
        simp [h2, h3, bind, Except.bind]
    · rw [if_neg (fun h => h2 (e1.2 (e2.2 h).1).2)]
      simp [h2, bind, Except.bind]
  · rw [if_neg (fun h => h1 (e1.2 (e2.2 h).1).1)]
    simp [h1, bind, Except.bind]

theorem disassembleTensor_vec (v : List α) (p : AllPlans) (hp : GoodAllPlans p) :
    disassembleTensor (.vec v) (some p) 0
      = if totalLength p ≤ v.length then
          .ok (decDicts (readVec v) p.state 0, decDicts (readVec v) p.costate (planLength p.state),
            decDicts (readVec v) p.data (planLength p.state + planLength p.costate))
        else .error .runtimeError := by
  rw [disassembleTensor_gen (.vec v) 0 (Or.inl rfl) (readVec v)
    (fun i n => decide (i + n ≤ v.length ∨ n = 0)) (by simp)
    (by intro i a b; simp only [decide_eq_true_eq]; omega)
    (fun s i hs => by simp only [decide_eq_true_eq]; exact entry_vec v s hs i) p hp]
  simp only [decide_eq_true_eq]
  by_cases h : totalLength p ≤ v.length
  · rw [if_pos h, if_pos (by omega)]
  · rw [if_neg h, if_neg (by omega)]

theorem disassembleTensor_stack (n : Nat) (rs : List (List α)) (hrs : ∀ r ∈ rs, r.length = n)
    (p : AllPlans) (hp : GoodAllPlans p) :
    disassembleTensor (.stack n rs) (some p) 1
      = if totalLength p ≤ n ∨ rs = [] then
          .ok (decDicts (readStack rs) p.state 0,
            decDicts (readStack rs) p.costate (planLength p.state),
            decDicts (readStack rs) p.data (planLength p.state + planLength p.costate))
        else .error .runtimeError := by
  rw [disassembleTensor_gen (.stack n rs) 1 (Or.inr rfl) (readStack rs)
    (fun i m => decide (i + m ≤ n ∨ m = 0) || rs.isEmpty) (by simp) (by
      intro i a b
      simp only [Bool.or_eq_true, decide_eq_true_eq, List.isEmpty_iff]
      by_cases h0 : rs = []
      · simp [h0]
      · simp only [h0, or_false]; omega)
    (fun s i hs => by
      simp only [Bool.or_eq_true, decide_eq_true_eq, List.isEmpty_iff, or_assoc]
      exact entry_stack n rs hrs s hs i) p hp]
  simp only [Bool.or_eq_true, decide_eq_true_eq, List.isEmpty_iff, or_assoc]
  by_cases h : totalLength p ≤ n ∨ rs = []
  · rw [if_pos h, if_pos (by rcases h with h | h; (left; omega); (right; right; exact h))]
  · rw [if_neg h, if_neg (by
      intro h'
      apply h
      rcases h' with h' | h' | h'
      · left; omega
      · left; omega
      · right; exact h')]

/-! ## Round trip -/

theorem slice_append (pre x post : List α) (n : Nat) (hn : x.length = n) :
    slice (pre ++ x ++ post) pre.length (pre.length + n) = x := by
  subst hn
  simp [slice]

theorem decDict_roundtrip (d : TDict α) (hd : ∀ p ∈ d, p.2.WF) (pre post : List α) :
    decDict (readVec (pre ++ d.flatMap (fun p => p.2.data) ++ post))
      (SDict.mapVals Tensor.shape d) pre.length = d := by
  induction d generalizing pre with
  | nil => rfl
  | cons p d ih =>
    simp only [List.mem_cons, forall_eq_or_imp] at hd
    have e : SDict.mapVals Tensor.shape (p :: d) = (p.1, p.2.shape) :: SDict.mapVals Tensor.shape d :=
      rfl
    rw [e]
    simp only [decDict]
    have hlen : p.2.data.length = vol p.2.shape := hd.1
    congr 1
    · obtain ⟨k, sh, dat⟩ := p
      simp only [readVec]
      have := slice_append pre dat (d.flatMap (fun p => p.2.data) ++ post) (vol sh) hlen
      simp only [List.flatMap_cons, List.append_assoc] at this ⊢
      rw [this]
    · have := ih hd.2 (pre ++ p.2.data)
      simp only [List.flatMap_cons, List.append_assoc, List.length_append, hlen] at this ⊢
      exact this

theorem plen_mapVals (d : TDict α) (hd : ∀ p ∈ d, p.2.WF) :
    plen (SDict.mapVals Tensor.shape d) = (d.flatMap (fun p => p.2.data)).length := by
  induction d with
  | nil => rfl
  | cons p d ih =>
    simp only [List.mem_cons, forall_eq_or_imp] at hd
    have e : SDict.mapVals Tensor.shape (p :: d) = (p.1, p.2.shape) :: SDict.mapVals Tensor.shape d :=
      rfl
    rw [e, plen_cons, ih hd.2, List.flatMap_cons, List.length_append]
    have hlen : p.2.data.length = vol p.2.shape := hd.1
    simp only [hlen]

theorem planLength_shapesOf (d : TDicts α) (hd : ∀ b ∈ d, ∀ p ∈ b.2, p.2.WF) :
    planLength (shapesOf d) = (elements d).length := by
  induction d with
  | nil => rfl
  | cons b d ih =>
    simp only [List.mem_cons, forall_eq_or_imp] at hd
    have e : shapesOf (b :: d) = (b.1, SDict.mapVals Tensor.shape b.2) :: shapesOf d := rfl
    rw [e, planLength_cons, ih hd.2, plen_mapVals b.2 hd.1]
    simp [elements]

theorem decDicts_roundtrip (d : TDicts α) (hd : ∀ b ∈ d, ∀ p ∈ b.2, p.2.WF) (pre post : List α) :
    decDicts (readVec (pre ++ elements d ++ post)) (shapesOf d) pre.length = d := by
  induction d generalizing pre with
  | nil => rfl
  | cons b d ih =>
    simp only [List.mem_cons, forall_eq_or_imp] at hd
    have e : shapesOf (b :: d) = (b.1, SDict.mapVals Tensor.shape b.2) :: shapesOf d := rfl
    rw [e]
    simp only [decDicts]
    have ee : elements (b :: d) = b.2.flatMap (fun p => p.2.data) ++ elements d := by
      simp [elements]
    congr 1
    · have := decDict_roundtrip b.2 hd.1 pre (elements d ++ post)
      rw [ee]
      simp only [List.append_assoc] at this ⊢
      rw [this]
    · have := ih hd.2 (pre ++ b.2.flatMap (fun p => p.2.data))
      rw [ee, plen_mapVals b.2 hd.1]
      simp only [List.append_assoc, List.length_append] at this ⊢
      exact this

theorem goodPlans_shapesOf (d : TDicts α) (hd : GoodDicts d) :
    GoodPlans (shapesOf (dropEmptyBlocks d)) := by
  constructor
  · have h1 : SDict.Sorted (dropEmptyBlocks d) := by
      have := hd.1
      unfold SDict.Sorted SDict.keys at this ⊢
      exact this.sublist (List.Sublist.map _ List.filter_sublist)
    exact h1.mapVals _
  · intro block hb
    obtain ⟨b, hb', rfl⟩ := List.mem_map.1 hb
    have hbd : b ∈ d := List.mem_of_mem_filter hb'
    constructor
    · exact (hd.2 b hbd).1.mapVals Tensor.shape
    · intro e he
      obtain ⟨q, hq, rfl⟩ := List.mem_map.1 he
      exact ((hd.2 b hbd).2 q hq).2

/-! ## Time stacks -/

theorem decDicts_mapVals (f g : List Nat → Nat → Tensor α) (h : Tensor α → Tensor α)
    (p : Plans) (i : Nat) (hfg : ∀ s j, h (f s j) = g s j) :
    SDict.mapVals (fun block => SDict.mapVals h block) (decDicts f p i) = decDicts g p i := by
  have hd : ∀ (q : Plan) (j : Nat), SDict.mapVals h (decDict f q j) = decDict g q j := by
    intro q
    induction q with
    | nil => intro j; rfl
    | cons e q ih =>
      intro j
      have := ih (j + vol e.2)
      simp only [SDict.mapVals] at this
      simp [decDict, SDict.mapVals, hfg, this]
  induction p generalizing i with
  | nil => rfl
  | cons b p ih =>
    have h1 := ih (i + plen b.2)
    have h2 := hd b.2 i
    simp only [SDict.mapVals] at h1 h2 ⊢
    simp [decDicts, h1, h2]

end Verif.Assembly
