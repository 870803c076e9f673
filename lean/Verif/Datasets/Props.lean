import Verif.Datasets.Lemmas
import Mathlib.Data.List.Perm.Basic
import Mathlib.Logic.Function.Iterate

/-!
# C89: what the loaders hand out
-/

namespace Verif.Datasets
open Verif Verif.Batches

variable {Y τ A : Type}

/-! ## Windows of a trajectory -/

/-- C89: a pass over the training data of `spiral.py`.  Whatever the order of the indices, the pass yields as many full batches as there are in the number of samples; every window of every batch belongs to a new
random number (the index of the sample is not used), lies inside the trajectory, starts at the initial value handed out with it and comes with the first times of the trajectory. -/
theorem C89_training [Inhabited Y] (rng : Nat → Nat) (d : Traj Y τ) (l : Loader Y τ) (b B : Nat) (hb : l.opts.batchTime = b) (hB : 0 < B) (hl : l.size = B) (ho : l.opts.online = true)
    (h : Usable d b l.opts.distanceBased) (order : List Nat) (pos : Nat) :
    ∃ s rs, pass rng d l order pos = ((s, pos + order.length / B * B), .ok rs) ∧ rs.length = order.length / B ∧ (B ≤ order.length → s.t = some (d.t.take b)) ∧
      ∀ k < order.length / B, ∃ batch, rs[k]? = some batch ∧
        Windows d b ((List.range B).map fun j => picked (startIndices d b l.opts.distanceBased) (rng (pos + k * B + j))) batch := by
  have hlb : loaderBatches l.size order = .ok ((List.range (order.length / B)).map fun k => (order.drop (k * B)).take B) := by
    unfold loaderBatches
    rw [hl, if_neg (by omega), Int.toNat_natCast, fullBatches_eq B hB]
  have hlen : ∀ b' ∈ (List.range (order.length / B)).map (fun k => (order.drop (k * B)).take B), b'.length = B := by
    intro b' hb'
    obtain ⟨k, hk, rfl⟩ := List.mem_map.1 hb'
    rw [List.mem_range] at hk
    have h1 : (k + 1) * B ≤ order.length := le_trans (Nat.mul_le_mul_right _ hk) (Nat.div_mul_le_self _ _)
    rw [Nat.add_mul] at h1
    rw [List.length_take, List.length_drop]
    omega
  refine ⟨{ l.stored with t := if (List.range (order.length / B)).map (fun k => (order.drop (k * B)).take B) = [] then l.stored.t else some (d.t.take b) },
    (List.range (order.length / B)).map fun k => windowsAt d b ((List.range B).map fun j => picked (startIndices d b l.opts.distanceBased) (rng (pos + k * B + j))), ?_, ?_, ?_, ?_⟩
  · unfold pass
    rw [hlb]
    dsimp only
    rw [visit_online rng d l.opts b hb ho h B hB _ hlen]
    simp only [List.length_map, List.length_range]
  · simp
  · intro hle
    have : 0 < order.length / B := Nat.div_pos hle hB
    dsimp only
    rw [if_neg (by
      intro he
      have := congrArg List.length he
      simp at this
      omega)]
  · intro k hk
    refine ⟨_, by rw [List.getElem?_map, List.getElem?_range hk]; rfl, ?_⟩
    apply windowsAt_spec
    intro s hs
    obtain ⟨j, _, rfl⟩ := List.mem_map.1 hs
    exact startIndices_inside d b _ h _ (picked_mem _ (startIndices_ne d b _ h) _)

/-- C89: shuffling the training data of `spiral.py` has no influence: only the number of indices counts. -/
theorem C89_shuffle_irrelevant [Inhabited Y] (rng : Nat → Nat) (d : Traj Y τ) (l : Loader Y τ) (b B : Nat) (hb : l.opts.batchTime = b) (hB : 0 < B) (hl : l.size = B) (ho : l.opts.online = true)
    (h : Usable d b l.opts.distanceBased) (order order' : List Nat) (hp : order.length = order'.length) (pos : Nat) : pass rng d l order pos = pass rng d l order' pos := by
  have key : ∀ o : List Nat, pass rng d l o pos = (({ l.stored with t := if (List.range (o.length / B)) = [] then l.stored.t else some (d.t.take b) }, pos + o.length / B * B),
      .ok ((List.range (o.length / B)).map fun k => windowsAt d b ((List.range B).map fun j => picked (startIndices d b l.opts.distanceBased) (rng (pos + k * B + j))))) := by
    intro o
    unfold pass loaderBatches
    rw [hl, if_neg (by omega), Int.toNat_natCast, fullBatches_eq B hB]
    dsimp only
    rw [visit_online rng d l.opts b hb ho h B hB _ (by
      intro b' hb'
      obtain ⟨k, hk, rfl⟩ := List.mem_map.1 hb'
      rw [List.mem_range] at hk
      have h1 : (k + 1) * B ≤ o.length := le_trans (Nat.mul_le_mul_right _ hk) (Nat.div_mul_le_self _ _)
      rw [Nat.add_mul] at h1
      rw [List.length_take, List.length_drop]
      omega)]
    simp only [List.length_map, List.length_range, List.map_eq_nil_iff]
  rw [key, key, hp]

/-- A loader without shuffling that hands out the same single batch each time, whatever the random numbers are by then, and does not use any. -/
def Always (rng : Nat → Nat) (d : Traj Y τ) (l : Loader Y τ) (batch : List Y × Option (List τ) × List (List Y)) : Prop :=
  ∀ pos, firstBatch rng d l pos = ((l.stored, pos), .ok [batch]) ∧ pass rng d l (List.range l.opts.n) pos = ((l.stored, pos), .ok [batch])

theorem newLoader_fixed [Inhabited Y] (rng : Nat → Nat) (d : Traj Y τ) (o : SetOpts) (b : Nat) (hb : o.batchTime = b) (ho : o.online = false) (hv : (o.validation && o.longRange) = false)
    (hn : 0 < o.n) (h : Usable d b o.distanceBased) (pos : Nat) :
    newLoader rng d o o.n pos = (pos + o.n, .ok ⟨o, ⟨some (windowsAt d b ((List.range o.n).map fun j => picked (startIndices d b o.distanceBased) (rng (pos + j)))).1,
      some (d.t.take b), some (windowsAt d b ((List.range o.n).map fun j => picked (startIndices d b o.distanceBased) (rng (pos + j)))).2.2⟩, o.n⟩) := by
  unfold newLoader newSet createData drawBatch
  rw [ho, hv, hb, getBatch_eq d b o.distanceBased h]
  simp only [Bool.false_eq_true, if_false]
  rw [if_neg (by omega)]
  unfold windowsAt
  simp only [List.map_map]
  rfl

theorem always_fixed [Inhabited Y] (rng : Nat → Nat) (d : Traj Y τ) (o : SetOpts) (ho : o.online = false) (b : Nat) (ss : List Nat) (hs : ss.length = o.n) (hn : 0 < o.n) :
    Always rng d ⟨o, ⟨some (windowsAt d b ss).1, some (d.t.take b), some (windowsAt d b ss).2.2⟩, o.n⟩ (windowsAt d b ss) := by
  intro pos
  have hne : ss ≠ [] := by intro he; rw [he] at hs; simp at hs; omega
  have := visit_fixed rng d o ho b ss hne pos
  rw [hs] at this
  constructor
  · unfold firstBatch
    dsimp only
    rw [one_batch o.n hn]
    exact this
  · unfold pass
    dsimp only
    rw [one_batch o.n hn]
    exact this

/-- C89: the loaders of `spiral.py`.  Training evaluation and short range data (and the test data, if the long range trajectory is not used) are windows that are drawn once, from the first random numbers after
the seed was set; every later access hands out the same batch.  With long range validation the test data are the whole trajectory.  The drawn windows depend neither on the batch size nor on what was
done in between. -/
theorem C89_loaders [Inhabited Y] (rng : Nat → Nat) (d : Traj Y τ) (a : DataArgs) (b : Nat) (hb : a.batchTime = b) (hB : 0 < a.batchSize) (h : Usable d b (!a.disableDistanceBased))
    (nTrain nEval nShort nTest : Nat) (h1 : 0 < nTrain) (h2 : 0 < nEval) (h3 : 0 < nShort) (h4 : 0 < nTest) (pos : Nat) :
    ∃ L bEval bShort bTest, dataLoaders rng d a nTrain nEval nShort nTest pos = (pos + nEval + nShort + (if a.longRange then 0 else nTest), .ok L) ∧
      L.train = ⟨trainOpts a nTrain, ⟨none, none, none⟩, a.batchSize⟩ ∧ L.train.opts.online = true ∧
      Always rng d L.trainEval bEval ∧ Always rng d L.shortRange bShort ∧ Always rng d L.test bTest ∧
      Windows d b ((List.range nEval).map fun j => picked (startIndices d b (!a.disableDistanceBased)) (rng (pos + j))) bEval ∧
      Windows d b ((List.range nShort).map fun j => picked (startIndices d b (!a.disableDistanceBased)) (rng (pos + nEval + j))) bShort ∧
      (a.longRange = true → bTest = ([d.y0], some d.t, d.y.map fun p => [p])) ∧
      (a.longRange = false → Windows d b ((List.range nTest).map fun j => picked (startIndices d b (!a.disableDistanceBased)) (rng (pos + nEval + nShort + j))) bTest) := by
  have hspec : ∀ n p, Windows d b ((List.range n).map fun j => picked (startIndices d b (!a.disableDistanceBased)) (rng (p + j)))
      (windowsAt d b ((List.range n).map fun j => picked (startIndices d b (!a.disableDistanceBased)) (rng (p + j)))) := by
    intro n p
    apply windowsAt_spec
    intro s hs
    obtain ⟨j, _, rfl⟩ := List.mem_map.1 hs
    exact startIndices_inside d b _ h _ (picked_mem _ (startIndices_ne d b _ h) _)
  have e1 : newLoader rng d (trainOpts a nTrain) a.batchSize pos = (pos, .ok ⟨trainOpts a nTrain, ⟨none, none, none⟩, a.batchSize⟩) := by
    unfold newLoader newSet
    rw [show (trainOpts a nTrain).online = true from rfl]
    simp only [if_true]
    rw [if_neg (by omega)]
  have e2 := newLoader_fixed rng d (fixedOpts a nEval) b hb rfl rfl h2 h pos
  have e3 := newLoader_fixed rng d (fixedOpts a nShort) b hb rfl rfl h3 h (pos + nEval)
  have a2 := always_fixed rng d (fixedOpts a nEval) rfl b ((List.range nEval).map fun j => picked (startIndices d b (!a.disableDistanceBased)) (rng (pos + j))) (by simp [fixedOpts]) h2
  have a3 := always_fixed rng d (fixedOpts a nShort) rfl b ((List.range nShort).map fun j => picked (startIndices d b (!a.disableDistanceBased)) (rng (pos + nEval + j))) (by simp [fixedOpts]) h3
  cases hlr : a.longRange with
  | false =>
    have e4 := newLoader_fixed rng d (testOpts a nTest) b hb rfl (by simp [testOpts, hlr]) (by simp [testOpts, hlr]; exact h4) h (pos + nEval + nShort)
    have hn : (testOpts a nTest).n = nTest := by simp [testOpts, hlr]
    rw [hn] at e4
    have a4 := always_fixed rng d (testOpts a nTest) rfl b ((List.range nTest).map fun j => picked (startIndices d b (!a.disableDistanceBased)) (rng (pos + nEval + nShort + j))) (by simp [hn]) (by rw [hn]; exact h4)
    rw [hn] at a4
    refine ⟨⟨⟨trainOpts a nTrain, ⟨none, none, none⟩, a.batchSize⟩, _, _, _⟩, _, _, _, ?_, rfl, rfl, a2, a3, a4, hspec _ _, hspec _ _, (by intro h; cases h), fun _ => hspec _ _⟩
    unfold dataLoaders
    rw [e1]
    dsimp only
    rw [if_neg (by omega), show ((fixedOpts a nEval).n : Int) = nEval from rfl] at *
    rw [e2]
    dsimp only
    rw [show ((fixedOpts a nShort).n : Int) = nShort from rfl] at e3
    rw [show (fixedOpts a nEval).n = nEval from rfl, e3]
    dsimp only
    rw [show (fixedOpts a nShort).n = nShort from rfl, hn, e4]
    simp [fixedOpts, testOpts]
  | true =>
    have hn : (testOpts a nTest).n = 1 := by simp [testOpts, hlr]
    have e4 : ∀ p, newLoader rng d (testOpts a nTest) (1 : Nat) p = (p, .ok ⟨testOpts a nTest, ⟨some [d.y0], some d.t, some (d.y.map fun p => [p])⟩, (1 : Nat)⟩) := by
      intro p
      unfold newLoader newSet createData
      have : (testOpts a nTest).online = false := rfl
      rw [this]
      have : ((testOpts a nTest).validation && (testOpts a nTest).longRange) = true := by simp [testOpts, hlr]
      rw [this]
      simp
    have hg : ∀ p, visit rng d (testOpts a nTest) [[0]] (⟨some [d.y0], some d.t, some (d.y.map fun p => [p])⟩, p) =
        ((⟨some [d.y0], some d.t, some (d.y.map fun p => [p])⟩, p), .ok [([d.y0], some d.t, d.y.map fun p => [p])]) := by
      intro p
      have hi : getItems rng d (testOpts a nTest) [0] (⟨some [d.y0], some d.t, some (d.y.map fun p => [p])⟩, p) =
          ((⟨some [d.y0], some d.t, some (d.y.map fun p => [p])⟩, p), .ok [(d.y0, d.y)]) := by
        unfold getItems getItem
        have : (testOpts a nTest).online = false := rfl
        rw [this]
        simp only [Bool.false_eq_true, if_false]
        unfold sampleAt
        rw [item_ok _ 0 d.y0 rfl]
        simp only [bind, Except.bind]
        rw [column_ok _ 0 (fun row => row.getD 0 default) (by
          intro row hr
          obtain ⟨q, _, rfl⟩ := List.mem_map.1 hr
          rfl), List.map_map]
        have : d.y.map ((fun row => row.getD 0 default) ∘ fun p => [p]) = d.y := by
          conv_rhs => rw [← List.map_id d.y]
          rfl
        rw [this]
        rfl
      unfold visit
      rw [hi]
      dsimp only
      rw [collate_ok _ _ (by simp) d.y.length (by simp)]
      dsimp only
      have ht : transposed d.y.length [d.y] = d.y.map fun p => [p] := by
        unfold transposed
        apply List.ext_getElem?
        intro k
        by_cases hk : k < d.y.length
        · rw [List.getElem?_map, List.getElem?_range hk, List.getElem?_map, List.getElem?_eq_getElem hk]
          simp [List.getElem?_eq_getElem hk]
        · rw [List.getElem?_eq_none (by simpa using hk), List.getElem?_eq_none (by simpa using hk)]
      simp only [List.map_cons, List.map_nil, ht]
      rfl
    refine ⟨⟨⟨trainOpts a nTrain, ⟨none, none, none⟩, a.batchSize⟩, _, _, ⟨testOpts a nTest, ⟨some [d.y0], some d.t, some (d.y.map fun p => [p])⟩, (1 : Nat)⟩⟩, _, _,
      ([d.y0], some d.t, d.y.map fun p => [p]), ?_, rfl, rfl, a2, a3, ?_, hspec _ _, hspec _ _, fun _ => rfl, (by intro h; cases h)⟩
    · unfold dataLoaders
      rw [e1]
      dsimp only
      rw [if_neg (by omega), show ((fixedOpts a nEval).n : Int) = nEval from rfl] at *
      rw [e2]
      dsimp only
      rw [show ((fixedOpts a nShort).n : Int) = nShort from rfl] at e3
      rw [show (fixedOpts a nEval).n = nEval from rfl, e3]
      dsimp only
      rw [show (fixedOpts a nShort).n = nShort from rfl, hn, e4]
      simp [fixedOpts]
    · intro p
      constructor
      · unfold firstBatch
        dsimp only
        rw [hn, one_batch 1 (by omega)]
        exact hg p
      · unfold pass
        dsimp only
        rw [hn, one_batch 1 (by omega)]
        exact hg p

/-- C89: the loaders cannot be made if there is nothing to draw from. -/
theorem C89_too_short (rng : Nat → Nat) (d : Traj Y τ) (a : DataArgs) (hd : a.disableDistanceBased = true) (ht : (d.t.length : Int) ≤ a.batchTime) (hB : 0 < a.batchSize)
    (nTrain nEval nShort nTest : Nat) (h1 : 0 < nTrain) (h2 : 0 < nEval) (pos : Nat) :
    (dataLoaders rng d a nTrain nEval nShort nTest pos).2 = .error .valueError := by
  have e1 : newLoader rng d (trainOpts a nTrain) a.batchSize pos = (pos, .ok ⟨trainOpts a nTrain, ⟨none, none, none⟩, a.batchSize⟩) := by
    unfold newLoader newSet
    rw [show (trainOpts a nTrain).online = true from rfl]
    simp only [if_true]
    rw [if_neg (by omega)]
  have e2 : newLoader rng d (fixedOpts a nEval) nEval pos = (pos + nEval, .error .valueError) := by
    have hc : arange (d.t.length - a.batchTime) = [] := by
      unfold arange
      rw [show (d.t.length - a.batchTime : Int).toNat = 0 by omega]
      rfl
    have hr : (List.range nEval).map (fun i => rng (pos + i)) ≠ [] := by
      intro he
      have := congrArg List.length he
      simp at this
      omega
    unfold newLoader newSet createData drawBatch getBatch fixedOpts
    simp only [hd, Bool.not_true, Bool.false_and, Bool.false_eq_true, if_false]
    rw [hc]
    unfold choice
    rw [if_neg hr]
    rfl
  unfold dataLoaders
  rw [e1]
  dsimp only
  rw [if_neg (by omega), e2]

/-- C89: the points of every window follow the law of the trajectory: if each point of the trajectory arises from the previous one by a map `f`, then the points of a window arise from its initial value by repeating `f`. -/
theorem C89_same_law (d : Traj Y τ) (f : Y → Y) (hf : ∀ i p, d.y[i]? = some p → i + 1 < d.y.length → d.y[i + 1]? = some (f p)) (b : Nat) (ss : List Nat)
    (batch : List Y × Option (List τ) × List (List Y)) (h : Windows d b ss batch) (k : Nat) (hk : k < b) : ∃ row, batch.2.2[k]? = some row ∧ row = batch.1.map f^[k] := by
  obtain ⟨row, h1, h2⟩ := h.points k hk
  refine ⟨row, h1, ?_⟩
  have hlen : row.length = ss.length := by simpa using congrArg List.length h2
  have hlen' : batch.1.length = ss.length := by simpa using congrArg List.length h.starts
  have hit : ∀ (m i : Nat) (p : Y), d.y[i]? = some p → i + m < d.y.length → d.y[i + m]? = some (f^[m] p) := by
    intro m
    induction m with
    | zero => intro i p hp _; simpa using hp
    | succ m ih =>
      intro i p hp hi
      rw [show i + (m + 1) = (i + 1) + m by omega] at hi ⊢
      exact ih (i + 1) (f p) (hf i p hp (by omega)) hi
  apply List.ext_getElem?
  intro j
  by_cases hj : j < ss.length
  · have e1 := congrArg (·[j]?) h.starts
    have e2 := congrArg (·[j]?) h2
    simp only [List.getElem?_map, List.getElem?_eq_getElem hj, Option.map_some] at e1 e2
    rw [List.getElem?_eq_getElem (by omega)] at e1 e2
    simp only [Option.map_some, Option.some.injEq] at e1 e2
    have hin := h.inside ss[j] (List.getElem_mem hj)
    rw [hit k ss[j] _ e1.symm (by omega)] at e2
    rw [List.getElem?_map, List.getElem?_eq_getElem (by omega), List.getElem?_eq_getElem (by omega), Option.map_some, Option.some.inj e2]
  · rw [List.getElem?_eq_none (by omega), List.getElem?_eq_none (by simp; omega)]

/-! ## Values of a function -/

/-- C89: a pass over the training data of `simple_functional_mapping_example.py`: the batches are full, no sample is used twice, and exactly the samples that do not fill a batch are left out. -/
theorem C89_functional (samples : List A) (B : Nat) (hB : 0 < B) (order : List Nat) (ho : order.Perm (List.range samples.length)) :
    ∃ rs rest, fixedPass samples B order = .ok rs ∧ rs.length = samples.length / B ∧ (∀ b ∈ rs, b.length = B) ∧ (rs.flatten ++ rest).Perm samples ∧
      rest.length = samples.length % B := by
  rcases samples with _ | ⟨a, l⟩
  · have : order = [] := by simpa using ho
    subst this
    refine ⟨[], [], ?_, by simp, by simp, by simp, by simp⟩
    unfold fixedPass loaderBatches
    rw [if_neg (by omega)]
    rfl
  · have : Inhabited A := ⟨a⟩
    have hlo : order.length = (a :: l).length := by simpa using ho.length_eq
    generalize hsam : a :: l = sam at *
    have hget : ∀ i ∈ order, sam[i]? = some (sam.getD i default) := by
      intro i hi
      have := (ho.mem_iff).1 hi
      rw [List.mem_range] at this
      exact at_of_lt sam i this
    have hmapM : ∀ m, m ≤ order.length / B → ((List.range m).map fun k => (order.drop (k * B)).take B).mapM (fixedBatch sam) =
        .ok (((List.range m).map fun k => (order.drop (k * B)).take B).map fun b => b.map fun i => sam.getD i default) := by
      intro m _
      apply mapM_ok
      intro b hb
      obtain ⟨k, _, rfl⟩ := List.mem_map.1 hb
      exact mapM_item sam _ _ fun i hi => hget i (List.mem_of_mem_drop (List.mem_of_mem_take hi))
    have hfl : ∀ m, ((List.range m).map fun k => (order.drop (k * B)).take B).flatten = order.take (m * B) := by
      intro m
      induction m with
      | zero => simp
      | succ m ih =>
        rw [List.range_succ, List.map_append, List.flatten_append, ih]
        simp only [List.map_cons, List.map_nil, List.flatten_cons, List.flatten_nil, List.append_nil]
        rw [Nat.add_mul, Nat.one_mul, List.take_add]
    have hall : (order.map fun i => sam.getD i default).Perm sam := by
      have h1 := ho.map fun i => sam.getD i default
      have h2 : (List.range sam.length).map (fun i => sam.getD i default) = sam := by
        apply List.ext_getElem?
        intro i
        by_cases hi : i < sam.length
        · rw [List.getElem?_map, List.getElem?_range hi, Option.map_some, at_of_lt sam i hi]
        · rw [List.getElem?_eq_none (by simpa using hi), List.getElem?_eq_none (by omega)]
      rwa [h2] at h1
    refine ⟨((List.range (order.length / B)).map fun k => (order.drop (k * B)).take B).map (fun b => b.map fun i => sam.getD i default),
      (order.drop (order.length / B * B)).map fun i => sam.getD i default, ?_, by simp [hlo], ?_, ?_, ?_⟩
    · unfold fixedPass loaderBatches
      rw [if_neg (by omega), Int.toNat_natCast, fullBatches_eq B hB]
      exact hmapM _ (le_refl _)
    · intro b hb
      obtain ⟨b', hb', rfl⟩ := List.mem_map.1 hb
      obtain ⟨k, hk, rfl⟩ := List.mem_map.1 hb'
      rw [List.mem_range] at hk
      have h1 : (k + 1) * B ≤ order.length := le_trans (Nat.mul_le_mul_right _ hk) (Nat.div_mul_le_self _ _)
      rw [Nat.add_mul] at h1
      rw [List.length_map, List.length_take, List.length_drop]
      omega
    · rw [← List.map_flatten, hfl, ← List.map_append, List.take_append_drop]
      exact hall
    · rw [List.length_map, List.length_drop, hlo]
      have := Nat.div_add_mod sam.length B
      rw [Nat.mul_comm] at this
      omega

/-- C89: the loaders for evaluation, testing and figures hand out all samples in their order, in one batch. -/
theorem C89_functional_all (samples : List A) (h : samples ≠ []) : fixedPass samples samples.length (List.range samples.length) = .ok [samples] := by
  have hpos : 0 < samples.length := List.length_pos_iff.2 h
  have : Inhabited A := ⟨samples.head h⟩
  unfold fixedPass
  rw [one_batch _ hpos]
  dsimp only
  have : fixedBatch samples (List.range samples.length) = .ok samples := by
    unfold fixedBatch
    rw [mapM_item samples (fun i => samples.getD i default) _ fun i hi => at_of_lt samples i (List.mem_range.1 hi)]
    congr 1
    apply List.ext_getElem?
    intro i
    by_cases hi : i < samples.length
    · rw [List.getElem?_map, List.getElem?_range hi, Option.map_some, at_of_lt samples i hi]
    · rw [List.getElem?_eq_none (by simpa using hi), List.getElem?_eq_none (by omega)]
  rw [List.mapM_cons, this]
  rfl

/-- C89: with a batch size above the number of training samples an epoch has no batches. -/
theorem C89_no_batches (B : Int) (order : List Nat) (h : (order.length : Int) < B) : loaderBatches B order = .ok [] := by
  obtain ⟨b, rfl⟩ : ∃ b : Nat, B = b := ⟨B.toNat, by omega⟩
  unfold loaderBatches
  rw [if_neg (by omega), Int.toNat_natCast, fullBatches_step b (by omega), if_pos (by omega)]

/-! ## Examples -/

/-- A trajectory of six points with distances 1, 2, 3, 4, 5. -/
def demo : Traj Nat Nat := ⟨0, [0, 1, 2, 3, 4, 5], [0, 1, 3, 6, 10, 15], [0, 1, 1, 2, 2, 2]⟩
example : Usable demo 3 true := ⟨by decide, rfl, fun _ => by decide, by decide⟩
example : Usable demo 3 false := ⟨by decide, rfl, (fun h => (by cases h)), by decide⟩
/-- Training windows, batches of two, five samples: two batches. -/
example : pass (fun i => i) demo ⟨⟨5, 3, true, false, true, false⟩, ⟨none, none, none⟩, 2⟩ [4, 2, 0, 1, 3] 10 =
    ((⟨none, some [0, 1, 2], none⟩, 14), .ok [([6 - 3, 6 - 3], some [0, 1, 2], [[3, 3], [6, 6], [10, 10]]), ([0, 1], some [0, 1, 2], [[0, 1], [1, 3], [3, 6]])]) := by decide
example : (dataLoaders (fun i => i) demo ⟨3, 2, false, true⟩ 4 2 3 7 0).1 = 5 := by decide
/-- Powers of two: each point arises from the previous one by doubling. -/
example : ∀ (i p : Nat), ([1, 2, 4, 8, 16] : List Nat)[i]? = some p → i + 1 < 5 → ([1, 2, 4, 8, 16] : List Nat)[i + 1]? = some (2 * p) := by
  intro i p h hi
  have : i < 4 := by omega
  rcases i with _ | _ | _ | _ | i <;> first | omega | (simp at h; subst h; rfl)
example : fixedPass ["a", "b", "c", "d", "e"] 2 [3, 0, 4, 1, 2] = .ok [["d", "a"], ["e", "b"]] := by decide
example : [3, 0, 4, 1, 2].Perm (List.range 5) := by decide

end Verif.Datasets
