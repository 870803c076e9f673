import Verif.Notebooks.Lemmas
import Verif.Notebooks.Spec
import Mathlib.Data.List.Sort
import Mathlib.Tactic.Linarith
import Mathlib.Tactic.FieldSimp

/-! # C109: the notebook on concentric circles -/

namespace Verif.Notebooks
open Verif

variable {α K X Y P : Type}

/-! ## How often the data are separated -/

theorem separated_last (l : List (ℝ × ℝ × ℝ)) (r : ℝ × ℝ × ℝ) : separated (l ++ [r]) = .ok (decide (|r.2.2 - 100| < 1)) := by
  unfold separated
  rw [lastItem_append]
  rfl

theorem countSeparated_ok (runs : List (List (ℝ × ℝ × ℝ) × (ℝ × ℝ × ℝ))) (sep : Nat) :
    countSeparated (runs.map fun r => r.1 ++ [r.2]) sep = .ok (sep + runs.countP fun r => decide (|r.2.2.2 - 100| < 1)) := by
  induction runs generalizing sep with
  | nil => rfl
  | cons r rs ih =>
    rw [List.map_cons, countSeparated, separated_last]
    simp only [bind, Except.bind]
    rw [ih, List.countP_cons]
    by_cases h : |r.2.2.2 - 100| < 1
    · rw [decide_eq_true h, if_pos rfl, if_pos rfl]
      congr 1
      omega
    · rw [decide_eq_false h, if_neg (by simp), if_neg (by simp)]
      rfl

/-- **C109.** The printed rate is the percentage of runs whose accuracy after the last epoch is above 99 %. -/
theorem C109_rate (runs : List (List (ℝ × ℝ × ℝ) × (ℝ × ℝ × ℝ))) (hne : runs ≠ []) (hp : ∀ r ∈ runs, r.2.2.2 ≤ 100) :
    successRate (runs.map fun r => r.1 ++ [r.2]) = .ok (100 * (runs.countP fun r => decide (99 < r.2.2.2) : ℕ) / runs.length) := by
  unfold successRate
  rw [countSeparated_ok]
  simp only [bind, Except.bind, List.length_map]
  rw [if_neg fun h => hne (List.length_eq_zero_iff.1 h), Nat.zero_add]
  have : (runs.countP fun r => decide (|r.2.2.2 - 100| < 1)) = runs.countP fun r => decide (99 < r.2.2.2) := by
    refine List.countP_congr fun r hr => ?_
    have := hp r hr
    rw [decide_eq_true_eq, decide_eq_true_eq, abs_lt]
    constructor
    · intro h
      linarith [h.1]
    · intro h
      constructor <;> linarith
  rw [this]
  congr 1
  ring

example : ∃ runs : List (List (ℝ × ℝ × ℝ) × (ℝ × ℝ × ℝ)), runs ≠ [] ∧ (∀ r ∈ runs, r.2.2.2 ≤ 100) ∧ successRate (runs.map fun r => r.1 ++ [r.2]) = .ok 50 := by
  have hp : ∀ r ∈ ([([], (1, 1, 100)), ([], (1, 1, 80))] : List (List (ℝ × ℝ × ℝ) × (ℝ × ℝ × ℝ))), r.2.2.2 ≤ 100 := by
    intro r hr
    simp only [List.mem_cons, List.not_mem_nil, or_false] at hr
    obtain rfl | rfl := hr <;> norm_num
  refine ⟨[([], (1, 1, 100)), ([], (1, 1, 80))], by simp, hp, ?_⟩
  rw [C109_rate _ (by simp) hp]
  norm_num [List.countP_cons]

/-- **C109.** The notebook stops if a run has no epoch. -/
theorem C109_no_epoch (runs : List (List (ℝ × ℝ × ℝ) × (ℝ × ℝ × ℝ))) (rest : List (List (ℝ × ℝ × ℝ))) :
    successRate ((runs.map fun r => r.1 ++ [r.2]) ++ [] :: rest) = .error .indexError := by
  have : ∀ sep, countSeparated ((runs.map fun r => r.1 ++ [r.2]) ++ [] :: rest) sep = .error .indexError := by
    induction runs with
    | nil => exact fun sep => rfl
    | cons r rs ih =>
      intro sep
      rw [List.map_cons, List.cons_append, countSeparated, separated_last]
      exact ih _
  unfold successRate
  rw [this]
  rfl

/-- **C109.** A run counts as a perfect fit exactly if fewer than one in hundred test samples are wrong. -/
theorem C109_perfect (loss : ℝ → ℕ → ℝ) (batches : List Spheres.Batch) (hne : batches.flatten ≠ []) (r : ℝ × ℝ) (h : Spheres.test loss batches.flatten.length batches = .ok r)
    (earlier : List (ℝ × ℝ × ℝ)) (train : ℝ) :
    ∃ b, separated (earlier ++ [(train, r)]) = .ok b ∧ (b = true ↔ 100 * (batches.flatten.countP fun p => decide (¬ p.2 = if 0 < p.1 then 1 else 0)) < batches.flatten.length) := by
  rw [Spheres.C72_test loss batches hne] at h
  obtain rfl := Except.ok.inj h
  refine ⟨_, separated_last _ _, ?_⟩
  generalize batches.flatten = l at hne ⊢
  have hsum := List.length_eq_countP_add_countP (l := l) fun p => decide (p.2 = if 0 < p.1 then 1 else 0)
  have e : (l.countP fun p => decide (¬ p.2 = if 0 < p.1 then 1 else 0)) = l.countP fun p => decide (¬ decide (p.2 = if 0 < p.1 then 1 else 0) = true) :=
    List.countP_congr fun p _ => by simp
  rw [e]
  generalize (l.countP fun p => decide (p.2 = if 0 < p.1 then 1 else 0)) = c at hsum ⊢
  generalize (l.countP fun p => decide (¬ decide (p.2 = if 0 < p.1 then 1 else 0) = true)) = w at hsum ⊢
  have hl : 0 < (l.length : ℝ) := by exact_mod_cast List.length_pos_iff.2 hne
  have hs : (l.length : ℝ) = c + w := by exact_mod_cast hsum
  rw [decide_eq_true_eq, abs_lt]
  dsimp only
  have key : 100 * (c : ℝ) / l.length - 100 = - (100 * w / l.length) := by
    rw [hs] at hl ⊢
    field_simp
    ring
  rw [key]
  have hw : 0 ≤ 100 * (w : ℝ) / l.length := by positivity
  constructor
  · intro h1
    have h2 : 100 * (w : ℝ) / l.length < 1 := by linarith [h1.1]
    rw [div_lt_one hl] at h2
    exact_mod_cast h2
  · intro h1
    have h2 : 100 * (w : ℝ) / l.length < 1 := by
      rw [div_lt_one hl]
      exact_mod_cast h1
    constructor <;> linarith

theorem right_iff (p : ℝ × ℕ) : Right p ↔ p.2 = if 0 < p.1 then 1 else 0 := by
  unfold Right
  split <;> rename_i h
  · constructor
    · rintro (h1 | h1)
      · exact h1.2
      · exact absurd h (not_lt.2 h1.1)
    · exact fun h1 => .inl ⟨h, h1⟩
  · constructor
    · rintro (h1 | h1)
      · exact absurd h1.1 h
      · exact h1.2
    · exact fun h1 => .inr ⟨not_lt.1 h, h1⟩

/-- **C109 (partial).** With at most hundred test samples a run counts as a perfect fit exactly if every test sample is right.  Missing: larger test sets, see `C109_not_perfect`. -/
theorem C109_perfect_partial (loss : ℝ → ℕ → ℝ) (batches : List Spheres.Batch) (hne : batches.flatten ≠ []) (hl : batches.flatten.length ≤ 100) (r : ℝ × ℝ)
    (h : Spheres.test loss batches.flatten.length batches = .ok r) (earlier : List (ℝ × ℝ × ℝ)) (train : ℝ) :
    ∃ b, separated (earlier ++ [(train, r)]) = .ok b ∧ (b = true ↔ ∀ p ∈ batches.flatten, Right p) := by
  obtain ⟨b, hb, hiff⟩ := C109_perfect loss batches hne r h earlier train
  refine ⟨b, hb, hiff.trans ?_⟩
  have hpos : 0 < batches.flatten.length := List.length_pos_iff.2 hne
  constructor
  · intro h1 p hp
    have h0 : (batches.flatten.countP fun p => decide (¬ p.2 = if 0 < p.1 then 1 else 0)) = 0 := by omega
    rw [List.countP_eq_zero] at h0
    have := h0 p hp
    rw [decide_eq_true_eq, not_not] at this
    exact (right_iff p).2 this
  · intro h1
    have h0 : (batches.flatten.countP fun p => decide (¬ p.2 = if 0 < p.1 then 1 else 0)) = 0 := by
      rw [List.countP_eq_zero]
      intro p hp
      rw [decide_eq_true_eq, not_not]
      exact (right_iff p).1 (h1 p hp)
    omega

/-- **C109, violated.** With the 3000 test samples of the experiment, a run with 29 wrong samples counts as a perfect fit. -/
theorem C109_not_perfect (loss : ℝ → ℕ → ℝ) : ∃ (batches : List Spheres.Batch) (r : ℝ × ℝ), batches.flatten.length = 3000 ∧
    Spheres.test loss batches.flatten.length batches = .ok r ∧ separated [(0, r)] = .ok true ∧ (batches.flatten.filter fun p => decide (p.1 ≤ 0 ∧ p.2 = 1)).length = 29 := by
  obtain ⟨l, hl⟩ : ∃ l : List (ℝ × ℕ), l = List.replicate 29 (-1, 1) ++ List.replicate 2971 (1, 1) := ⟨_, rfl⟩
  have e : [l].flatten = l := by rw [List.flatten_cons, List.flatten_nil, List.append_nil]
  have hlen : [l].flatten.length = 3000 := by rw [e, hl, List.length_append, List.length_replicate, List.length_replicate]
  have hne : [l].flatten ≠ [] := fun h => by rw [h] at hlen; cases hlen
  have ht := Spheres.C72_test loss [l] hne
  obtain ⟨b, hb, hiff⟩ := C109_perfect loss [l] hne _ ht [] 0
  refine ⟨[l], _, hlen, ht, ?_, ?_⟩
  · rw [List.nil_append] at hb
    rw [hb, hiff.2]
    have h1 : ([l].flatten.countP fun p => decide (¬ p.2 = if 0 < p.1 then 1 else 0)) = 29 := by
      rw [e, hl, List.countP_append, List.countP_replicate, List.countP_replicate]
      norm_num
    rw [h1, hlen]
    norm_num
  · rw [e, hl, List.filter_append, List.filter_replicate, List.filter_replicate, List.length_append]
    norm_num

/-! ## Trajectories -/

/-- **C109.** Every sample is drawn with its own trajectory in the colour of its own class, however the samples are divided into batches, if the model treats the samples separately. -/
theorem C109_trajectories {τ : Type} (times : List τ) (φ : τ → X → Y) (ds : List (X × ℕ)) (hne : ds ≠ []) (traj : List X → Py (List (List Y)))
    (h : ∀ b, traj b = .ok (times.map fun t => b.map (φ t))) :
    plotTrajectory traj ds = .ok (ds.map fun s => (times.map fun t => φ t s.1, if s.2 = 0 then Colour.red else Colour.blue)) := by
  obtain ⟨hfl, -⟩ := Spheres.chunks_flatten 32 (by norm_num) ds.length ds le_rfl
  have hcne := chunks_ne_nil (size := 32) hne
  unfold plotTrajectory
  rw [loader_ok (by norm_num)]
  generalize Spheres.chunks 32 ds.length ds = bs at hfl hcne
  have h1 : (bs.mapM fun b => traj (b.map Prod.fst)) = .ok ((bs.map fun b => b.map Prod.fst).map fun b => times.map fun t => b.map (φ t)) := by
    rw [List.map_map]
    exact mapM_ok _ _ _ fun b _ => h _
  have h2 := catTime_ok times φ (bs.map fun b => b.map Prod.fst) (by simpa using hcne)
  simp only [bind, Except.bind, h1, h2]
  rw [← List.map_flatten, ← List.map_flatten, hfl, List.length_map]
  have h3 : ∀ i ∈ List.range ds.length, line (times.map fun t => (ds.map Prod.fst).map (φ t)) (ds.map Prod.snd) i =
      .ok ((ds[i]?.map fun s => (times.map fun t => φ t s.1, if s.2 = 0 then Colour.red else Colour.blue)).getD ([], .red)) := by
    intro i hi
    rw [List.mem_range] at hi
    unfold line
    have h4 : ((times.map fun t => (ds.map Prod.fst).map (φ t)).mapM fun row => item row i) = .ok (times.map fun t => φ t ds[i].1) := by
      refine mapM_map_ok _ _ _ _ fun t _ => item_ok.2 ?_
      rw [List.map_map, List.getElem?_map, List.getElem?_eq_getElem hi]
      rfl
    rw [h4]
    simp only [bind, Except.bind]
    have h5 : item (ds.map Prod.snd) i = .ok ds[i].2 := item_ok.2 (by rw [List.getElem?_map, List.getElem?_eq_getElem hi]; rfl)
    rw [h5, List.getElem?_eq_getElem hi]
    rfl
  rw [mapM_ok _ _ _ h3]
  congr 1
  refine List.ext_getElem? fun i => ?_
  by_cases hi : i < ds.length
  · rw [List.getElem?_map, List.getElem?_range hi, List.getElem?_map, List.getElem?_eq_getElem hi]
    simp [List.getElem?_eq_getElem hi]
  · rw [List.getElem?_eq_none (by simpa using hi), List.getElem?_eq_none (by simpa using hi)]

example : plotTrajectory (fun b : List ℕ => .ok ([0, 1, 2].map fun t => b.map fun x => x + t)) [(5, 0), (7, 1)] =
    .ok [([5, 6, 7], Colour.red), ([7, 8, 9], Colour.blue)] := by decide +kernel

/-- **C109.** Nothing can be drawn without samples. -/
theorem C109_no_trajectories (traj : List X → Py (List (List Y))) : plotTrajectory traj [] = .error .runtimeError := rfl

/-! ## The picture of the decision boundary -/

/-- **C109.** The picture has a pixel for every point of the grid: the one in row `i` from the top and column `j` from the left shows the prediction at the `j`-th `x` and the `i`-th `y`.
So `y` grows downwards: the picture is upside down compared with the scatter plot of the data. -/
theorem C109_boundary (f : K × K → Y) (xs ys : List K) :
    (inputSpace f xs ys).length = ys.length ∧ ∀ (i j : ℕ) (x y : K), xs[j]? = some x → ys[i]? = some y → ∃ r : List Y, (inputSpace f xs ys)[i]? = some r ∧ r.length = xs.length ∧ r[j]? = some (f (x, y)) := by
  refine ⟨by simp [inputSpace, reshape], ?_⟩
  intro i j x y hx hy
  have hj : j < xs.length := by
    by_contra h
    rw [List.getElem?_eq_none (not_lt.1 h)] at hx
    cases hx
  have hi : i < ys.length := by
    by_contra h
    rw [List.getElem?_eq_none (not_lt.1 h)] at hy
    cases hy
  have h1 : (List.replicate ys.length xs).flatten[i * xs.length + j]? = some x := by
    rw [flatten_get xs.length _ (fun l hl => by rw [(List.mem_replicate.1 hl).2]) i j hj xs (by rw [List.getElem?_replicate, if_pos hi]), hx]
  have h2 : (ys.map fun y => List.replicate xs.length y).flatten[i * xs.length + j]? = some y := by
    rw [flatten_get xs.length _ (fun l hl => by obtain ⟨y', -, rfl⟩ := List.mem_map.1 hl; rw [List.length_replicate]) i j hj (List.replicate xs.length y)
      (by rw [List.getElem?_map, hy]; rfl), List.getElem?_replicate, if_pos hj]
  have h3 : ((gridPoints xs ys).map f)[i * xs.length + j]? = some (f (x, y)) := by
    rw [List.getElem?_map, gridPoints, (List.getElem?_zip_eq_some (z := (x, y))).2 ⟨h1, h2⟩]
    rfl
  have hlen : ((gridPoints xs ys).map f).length = ys.length * xs.length := by
    rw [List.length_map, gridPoints, List.length_zip, List.length_flatten, List.length_flatten, List.map_map]
    simp [Function.comp_def]
  refine ⟨_, by rw [inputSpace, reshape, List.getElem?_map, List.getElem?_range hi]; rfl, ?_, ?_⟩
  · rw [List.length_take, List.length_drop, hlen]
    have : (i + 1) * xs.length ≤ ys.length * xs.length := Nat.mul_le_mul_right _ hi
    rw [Nat.succ_mul] at this
    omega
  · rw [List.getElem?_take_of_lt hj, List.getElem?_drop, h3]

example : inputSpace (fun p : ℤ × ℤ => p) [0, 1, 2] [-1, 1] = [[(0, -1), (1, -1), (2, -1)], [(0, 1), (1, 1), (2, 1)]] := by decide +kernel

/-! ## Recorded values in the order of time -/

section
variable [LinearOrder K]

theorem maximum_spec (l : List K) (m : K) (h : maximum l = .ok m) : m ∈ l ∧ ∀ x ∈ l, x ≤ m := by
  cases l with
  | nil => cases h
  | cons a l =>
    obtain rfl := Except.ok.inj h
    clear h
    induction l generalizing a with
    | nil => simp
    | cons b l ih =>
      obtain ⟨h1, h2⟩ := ih (max a b)
      rw [List.foldl_cons]
      constructor
      · rcases List.mem_cons.1 h1 with h1 | h1
        · rw [h1]
          rcases max_choice a b with h | h <;> rw [h] <;> simp
        · exact List.mem_cons_of_mem _ (List.mem_cons_of_mem _ h1)
      · have h3 := h2 _ (List.mem_cons_self ..)
        intro x hx
        rcases List.mem_cons.1 hx with rfl | hx
        · exact (le_max_left _ _).trans h3
        · rcases List.mem_cons.1 hx with rfl | hx
          · exact (le_max_right _ _).trans h3
          · exact h2 x (List.mem_cons_of_mem _ hx)

/-- **C109.** The values of the curve "Nuc." are drawn in the order of time, each recorded one once: the largest singular value with its time. -/
theorem C109_time_order (idx : List ℕ) (t : List K) (S : List (List K)) (hi : SortsTimes idx t) (hl : S.length = t.length) (hS : ∀ s ∈ S, s ≠ []) :
    ∃ c, nucCurve idx t S = .ok c ∧ (c.Pairwise fun p q => p.1 ≤ q.1) ∧
      ∃ ms, List.Forall₂ (fun s m => m ∈ s ∧ ∀ x ∈ s, x ≤ m) S ms ∧ c.Perm (List.zip t ms) := by
  obtain ⟨hp, hs⟩ := hi
  have hM : ∀ s ∈ S, ∃ m, maximum s = .ok m := by
    intro s hsS
    cases s with
    | nil => exact absurd rfl (hS _ hsS)
    | cons a s => exact ⟨_, rfl⟩
  have hms : ∃ ms : List K, ms.length = S.length ∧ ∀ (i : ℕ) (s : List K) (m : K), S[i]? = some s → ms[i]? = some m → maximum s = .ok m := by
    clear hp hs hl hS
    induction S with
    | nil => exact ⟨[], rfl, fun i s m h => by simp at h⟩
    | cons s S ih =>
      obtain ⟨ms, h1, h2⟩ := ih fun s hs => hM s (List.mem_cons_of_mem _ hs)
      obtain ⟨m, hm⟩ := hM s (List.mem_cons_self ..)
      refine ⟨m :: ms, by rw [List.length_cons, List.length_cons, h1], ?_⟩
      intro i s' m' hs' hm'
      cases i with
      | zero =>
        cases hs'
        cases hm'
        exact hm
      | succ i => exact h2 i s' m' hs' hm'
  obtain ⟨ms, hlm, hm⟩ := hms
  have hlz : (List.zip t ms).length = t.length := by
    rw [List.length_zip]
    omega
  have hlt : ∀ i ∈ idx, i < t.length := fun i hi => List.mem_range.1 (hp.mem_iff.1 hi)
  rcases Nat.eq_zero_or_pos t.length with h0 | hpos
  · have : idx = [] := by
      rw [h0] at hp
      exact List.Perm.eq_nil hp
    subst this
    have ht : t = [] := List.length_eq_zero_iff.1 h0
    have hSn : S = [] := List.length_eq_zero_iff.1 (by omega)
    subst ht hSn
    exact ⟨[], rfl, List.Pairwise.nil, [], List.Forall₂.nil, by simp⟩
  · let d : K × K := (List.zip t ms)[0]'(by omega)
    have h1 : ∀ i ∈ idx, (do
        let s ← item S i
        let m ← maximum s
        let u ← item t i
        Except.ok (u, m) : Py (K × K)) = .ok (((List.zip t ms)[i]?).getD d) := by
      intro i hi
      have hit := hlt i hi
      have e1 := item_get (l := S) (i := i) (by omega)
      have e2 := hm i S[i] ms[i] (List.getElem?_eq_getElem _) (List.getElem?_eq_getElem _)
      have e3 := item_get (l := t) hit
      simp only [bind, Except.bind, e1, e2, e3]
      rw [List.getElem?_eq_getElem (by omega)]
      simp
    have hmap : (idx.map fun i => ((List.zip t ms)[i]?).getD d).Perm (List.zip t ms) := by
      have h2 := hp.map fun i => ((List.zip t ms)[i]?).getD d
      refine h2.trans (List.Perm.of_eq ?_)
      refine List.ext_getElem? fun i => ?_
      by_cases hi : i < t.length
      · rw [List.getElem?_map, List.getElem?_range hi, List.getElem?_eq_getElem (by omega)]
        simp [List.getElem?_eq_getElem (show i < (List.zip t ms).length by omega)]
      · rw [List.getElem?_eq_none (by simpa using hi), List.getElem?_eq_none (by omega)]
    refine ⟨_, mapM_ok _ _ _ h1, ?_, ms, ?_, hmap⟩
    · rw [List.pairwise_map]
      refine hs.imp_of_mem ?_
      intro i j hi hj h
      have hi' := hlt i hi
      have hj' := hlt j hj
      have := h t[i] t[j] (List.getElem?_eq_getElem _) (List.getElem?_eq_getElem _)
      rw [List.getElem?_eq_getElem (by omega), List.getElem?_eq_getElem (by omega)]
      simpa using this
    · refine List.forall₂_iff_get.2 ⟨hlm.symm, fun i h1 h2 => ?_⟩
      refine maximum_spec _ _ (hm i _ _ (List.getElem?_eq_getElem h1) (List.getElem?_eq_getElem h2))

example : SortsTimes [0, 2, 1] [(0 : ℤ), 2, 1] := by
  refine ⟨by decide, ?_⟩
  have : [0, 2, 1].Pairwise fun i j => ∀ a ∈ ([0, 2, 1] : List ℤ)[i]?, ∀ b ∈ ([0, 2, 1] : List ℤ)[j]?, a ≤ b := by decide
  exact this.imp fun h a b ha hb => h a ha b hb

/-- **C109.** If no time was recorded twice, there is only one order of time and so only one figure. -/
theorem C109_distinct_times (idx idx' : List ℕ) (t : List K) (h : SortsTimes idx t) (h' : SortsTimes idx' t) (ht : t.Nodup) : idx = idx' := by
  refine List.Perm.eq_of_pairwise (le := fun i j => ∀ a b, t[i]? = some a → t[j]? = some b → a ≤ b) ?_ h.2 h'.2 (h.1.trans h'.1.symm)
  intro i j hi hj h1 h2
  have hi' := List.mem_range.1 (h.1.mem_iff.1 hi)
  have hj' := List.mem_range.1 (h'.1.mem_iff.1 hj)
  have := le_antisymm (h1 t[i] t[j] (List.getElem?_eq_getElem hi') (List.getElem?_eq_getElem hj')) (h2 t[j] t[i] (List.getElem?_eq_getElem hj') (List.getElem?_eq_getElem hi'))
  exact (List.Nodup.getElem_inj_iff ht).1 this

end

/-- **C109.** The path of a particle goes through all its recorded positions in the order of time, each once. -/
theorem C109_path [LinearOrder K] (idx : List ℕ) (t : List K) (q : List Y) (hi : SortsTimes idx t) (hl : q.length = t.length) :
    ∃ p, particlePath idx q = .ok p ∧ List.Forall₂ (fun i y => q[i]? = some y) idx p ∧ p.Perm q := by
  obtain ⟨hp, -⟩ := hi
  have hlt : ∀ i ∈ idx, i < q.length := fun i hi => by rw [hl]; exact List.mem_range.1 (hp.mem_iff.1 hi)
  have h1 : ∃ p, particlePath idx q = .ok p ∧ List.Forall₂ (fun i y => q[i]? = some y) idx p := by
    unfold particlePath
    clear hp
    induction idx with
    | nil => exact ⟨[], rfl, .nil⟩
    | cons i idx ih =>
      obtain ⟨p, h1, h2⟩ := ih fun i hi => hlt i (List.mem_cons_of_mem _ hi)
      have hi := hlt i (List.mem_cons_self ..)
      refine ⟨q[i] :: p, ?_, .cons (List.getElem?_eq_getElem hi) h2⟩
      rw [List.mapM_cons, item_get hi, h1]
      rfl
  obtain ⟨p, h1, h2⟩ := h1
  refine ⟨p, h1, h2, ?_⟩
  have h3 : p.map some = idx.map fun i => q[i]? := by
    clear * - h2
    induction h2 with
    | nil => rfl
    | cons h _ ih => rw [List.map_cons, List.map_cons, ih, h]
  have h4 : (idx.map fun i => q[i]?).Perm (q.map some) := by
    refine (hp.map fun i => q[i]?).trans (List.Perm.of_eq ?_)
    refine List.ext_getElem? fun i => ?_
    by_cases hi : i < q.length
    · rw [List.getElem?_map, List.getElem?_range (by omega), List.getElem?_map, Option.map_some, List.getElem?_eq_getElem hi]
      rfl
    · rw [List.getElem?_eq_none (by rw [List.length_map, List.length_range]; omega), List.getElem?_eq_none (by rw [List.length_map]; omega)]
  rw [← h3] at h4
  exact (List.map_perm_map_iff (Option.some_injective _)).1 h4

/-- **C109, violated.** With a time that was recorded twice, as by every step of the classical Runge-Kutta method, the path of a particle depends on the sorting algorithm. -/
theorem C109_repeated_times : ∃ (t : List ℚ) (q : List ℕ) (idx idx' : List ℕ), t = [0, 1 / 2, 1 / 2, 1] ∧ SortsTimes idx t ∧ SortsTimes idx' t ∧
    particlePath idx q = .ok [0, 1, 2, 3] ∧ particlePath idx' q = .ok [0, 2, 1, 3] := by
  have key : ∀ idx : List ℕ, (idx.Pairwise fun i j => ∀ a ∈ ([0, 1 / 2, 1 / 2, 1] : List ℚ)[i]?, ∀ b ∈ ([0, 1 / 2, 1 / 2, 1] : List ℚ)[j]?, a ≤ b) →
      idx.Pairwise fun i j => ∀ a b, ([0, 1 / 2, 1 / 2, 1] : List ℚ)[i]? = some a → ([0, 1 / 2, 1 / 2, 1] : List ℚ)[j]? = some b → a ≤ b :=
    fun idx h => h.imp fun h a b ha hb => h a ha b hb
  exact ⟨_, [0, 1, 2, 3], [0, 1, 2, 3], [0, 2, 1, 3], rfl, ⟨by decide, key _ (by decide +kernel)⟩, ⟨by decide, key _ (by decide +kernel)⟩, by decide +kernel, by decide +kernel⟩

/-- **C109.** The curve labelled "Nuc." shows the nuclear norm exactly where at most one singular value is positive; otherwise it lies below. -/
theorem C109_nuc (s : List ℝ) (m : ℝ) (h : maximum s = .ok m) (hs : ∀ x ∈ s, 0 ≤ x) : m ≤ nuclear s ∧ (m = nuclear s ↔ (s.filter fun x => decide (0 < x)).length ≤ 1) := by
  obtain ⟨hm, hmax⟩ := maximum_spec s m h
  have hp := List.perm_cons_erase hm
  generalize s.erase m = r at hp
  have hr : ∀ x ∈ r, 0 ≤ x := fun x hx => hs x (hp.mem_iff.2 (List.mem_cons_of_mem _ hx))
  have hrm : ∀ x ∈ r, x ≤ m := fun x hx => hmax x (hp.mem_iff.2 (List.mem_cons_of_mem _ hx))
  have e1 : nuclear s = m + r.sum := by
    unfold nuclear
    rw [hp.sum_eq, List.sum_cons]
  have e2 : (s.filter fun x => decide (0 < x)).length = ((m :: r).filter fun x => decide (0 < x)).length := (hp.filter _).length_eq
  have hsum : 0 ≤ r.sum := List.sum_nonneg hr
  have hzero : r.sum = 0 ↔ ∀ x ∈ r, x = 0 := by
    clear * - hr
    induction r with
    | nil => simp
    | cons a r ih =>
      have ha := hr a (List.mem_cons_self ..)
      have hr' : ∀ x ∈ r, 0 ≤ x := fun x hx => hr x (List.mem_cons_of_mem _ hx)
      have h0 : 0 ≤ r.sum := List.sum_nonneg hr'
      rw [List.sum_cons, List.forall_mem_cons, ← ih hr']
      exact ⟨fun h => ⟨by linarith, by linarith⟩, fun h => by linarith [h.1, h.2]⟩
  rw [e1, e2]
  refine ⟨by linarith, ?_⟩
  have e3 : m = m + r.sum ↔ r.sum = 0 := by
    constructor <;> intro h <;> linarith
  rw [e3, hzero]
  by_cases hm0 : 0 < m
  · rw [List.filter_cons_of_pos (by simpa using hm0), List.length_cons]
    constructor
    · intro h
      rw [List.filter_eq_nil_iff.2 fun x hx => by rw [h x hx]; simp]
      simp
    · intro h x hx
      have h0 : (r.filter fun x => decide (0 < x)) = [] := List.length_eq_zero_iff.1 (by omega)
      have := List.filter_eq_nil_iff.1 h0 x hx
      rw [decide_eq_true_eq] at this
      exact le_antisymm (not_lt.1 this) (hr x hx)
  · have h0 : ∀ x ∈ r, x = 0 := fun x hx => le_antisymm ((hrm x hx).trans (not_lt.1 hm0)) (hr x hx)
    constructor
    · intro _
      rw [List.filter_cons_of_neg (by simpa using hm0), List.filter_eq_nil_iff.2 fun x hx => by rw [h0 x hx]; simp]
      simp
    · exact fun _ => h0

/-- **C109, violated.** Two equal singular values: the label "Nuc." is wrong. -/
example : maximum [(1 : ℝ), 1] = .ok 1 ∧ nuclear [(1 : ℝ), 1] = 2 := by
  refine ⟨?_, ?_⟩
  · unfold maximum
    simp
  · unfold nuclear
    norm_num

end Verif.Notebooks
