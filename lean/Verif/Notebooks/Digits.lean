import Verif.Notebooks.Lemmas
import Verif.Notebooks.Spec

/-! # C109: the notebook on rotated digits -/

namespace Verif.Notebooks
open Verif

variable {α K X Y P : Type}

/-! ## The table of the runs -/

section
variable [Field K]

/-- **C109.** The average that the notebook computes is the test error that the program printed and recorded for the last epoch. -/
theorem C109_average (i : ℕ) (a : Args K) (earlier : List (Entry K)) (simLoss : K) (errors : List K) (h : errors ≠ []) :
    ∃ r, tableRow i (a, earlier ++ [record simLoss errors]) = .ok r ∧ r.resId = i ∧ r.args = a ∧ r.avg = some (record simLoss errors).allEvalError := by
  refine ⟨⟨i, a, mean errors⟩, ?_, rfl, rfl, ?_⟩
  · unfold tableRow
    rw [lastItem_append]
    rfl
  · unfold mean
    rw [if_neg fun h0 => h (List.length_eq_zero_iff.1 h0)]
    rfl

theorem tableFrom_ok (n : ℕ) (ds : List (Args K × List (Entry K) × Entry K)) :
    tableFrom n (ds.map fun d => (d.1, d.2.1 ++ [d.2.2])) = .ok (ds.zipIdx n |>.map fun d => ⟨d.2, d.1.1, mean d.1.2.2.imgEvalErrors⟩) := by
  induction ds generalizing n with
  | nil => rfl
  | cons d ds ih =>
    have h1 : tableRow n (d.1, d.2.1 ++ [d.2.2]) = .ok ⟨n, d.1, mean d.2.2.imgEvalErrors⟩ := by
      unfold tableRow
      rw [lastItem_append]
      rfl
    rw [List.map_cons, tableFrom, h1, ih]
    simp only [bind, Except.bind]
    rw [List.zipIdx_cons, List.map_cons]

/-- **C109.** The table has a row for every run, in order: its number, its arguments and the average error of its last epoch. -/
theorem C109_table (ds : List (Args K × List (Entry K) × Entry K)) :
    ∃ rows, tableFrom 0 (ds.map fun d => (d.1, d.2.1 ++ [d.2.2])) = .ok rows ∧ rows.length = ds.length ∧
      ∀ (i : ℕ) (d : Args K × List (Entry K) × Entry K), ds[i]? = some d → ∃ r, rows[i]? = some r ∧ r.resId = i ∧ r.args = d.1 ∧
        (d.2.2.imgEvalErrors ≠ [] → r.avg = some (d.2.2.imgEvalErrors.sum / d.2.2.imgEvalErrors.length)) ∧ (d.2.2.imgEvalErrors = [] → r.avg = none) := by
  refine ⟨_, tableFrom_ok 0 ds, by simp, ?_⟩
  intro i d hd
  refine ⟨⟨i, d.1, mean d.2.2.imgEvalErrors⟩, ?_, rfl, rfl, ?_, ?_⟩
  · rw [List.getElem?_map, List.getElem?_zipIdx, hd]
    simp
  · intro h
    show mean _ = _
    rw [mean, if_neg fun h0 => h (List.length_eq_zero_iff.1 h0)]
  · intro h
    show mean _ = _
    rw [mean, if_pos (by rw [h]; rfl)]

/-- **C109.** A run without an epoch stops the notebook. -/
theorem C109_table_fails (ds : List (Args K × List (Entry K) × Entry K)) (a : Args K) (rest : List (Args K × List (Entry K))) :
    tableFrom 0 ((ds.map fun d => (d.1, d.2.1 ++ [d.2.2])) ++ (a, []) :: rest) = .error .indexError := by
  have : ∀ n, tableFrom n ((ds.map fun d => (d.1, d.2.1 ++ [d.2.2])) ++ (a, []) :: rest) = .error .indexError := by
    induction ds with
    | nil => exact fun n => rfl
    | cons d ds ih =>
      intro n
      have h1 : tableRow n (d.1, d.2.1 ++ [d.2.2]) = .ok ⟨n, d.1, mean d.2.2.imgEvalErrors⟩ := by
        unfold tableRow
        rw [lastItem_append]
        rfl
      rw [List.map_cons, List.cons_append, tableFrom, h1]
      simp only [bind, Except.bind]
      rw [ih]
  exact this 0

variable [DecidableEq K]

omit [Field K] in
theorem wanted_iff (w : K) (free : Bool) (a : Args K) : wanted w free a = true ↔ a.inflation = 10 ∧ a.normWeight = w ∧ a.rnn = false ∧ a.free = free := by
  unfold wanted
  simp only [Bool.and_eq_true, decide_eq_true_eq, Bool.not_eq_true', beq_iff_eq, and_assoc]

/-- **C109.** The figures of a group are those of the runs with its arguments: a number is in the list exactly if the run with this number has them. -/
theorem C109_group (w : K) (free : Bool) (ds : List (Args K × List (Entry K) × Entry K)) (rows : List (Row K))
    (h : tableFrom 0 (ds.map fun d => (d.1, d.2.1 ++ [d.2.2])) = .ok rows) (i : ℕ) :
    i ∈ queryIds w free rows ↔ ∃ d, ds[i]? = some d ∧ d.1.inflation = 10 ∧ d.1.normWeight = w ∧ d.1.rnn = false ∧ d.1.free = free := by
  rw [tableFrom_ok] at h
  obtain rfl := Except.ok.inj h
  unfold queryIds
  constructor
  · intro hi
    obtain ⟨r, hr, rfl⟩ := List.mem_map.1 hi
    obtain ⟨hr1, hr2⟩ := List.mem_filter.1 hr
    obtain ⟨d, hd, rfl⟩ := List.mem_map.1 hr1
    exact ⟨d.1, List.mem_zipIdx_iff_getElem?.1 hd, (wanted_iff ..).1 hr2⟩
  · rintro ⟨d, hd, hw⟩
    exact List.mem_map.2 ⟨⟨i, d.1, mean d.2.2.imgEvalErrors⟩, List.mem_filter.2 ⟨List.mem_map.2 ⟨(d, i), List.mem_zipIdx_iff_getElem?.2 hd, rfl⟩, (wanted_iff ..).2 hw⟩, rfl⟩

/-- **C109.** The two groups that are compared have no run in common. -/
theorem C109_groups_disjoint (w : K) (ds : List (Args K × List (Entry K) × Entry K)) (rows : List (Row K))
    (h : tableFrom 0 (ds.map fun d => (d.1, d.2.1 ++ [d.2.2])) = .ok rows) (i : ℕ) : ¬ (i ∈ queryIds w false rows ∧ i ∈ queryIds w true rows) := by
  rintro ⟨h1, h2⟩
  obtain ⟨d, hd, -, -, -, e⟩ := (C109_group w false ds rows h i).1 h1
  obtain ⟨d', hd', -, -, -, e'⟩ := (C109_group w true ds rows h i).1 h2
  rw [hd] at hd'
  obtain rfl := Option.some.inj hd'
  rw [e] at e'
  cases e'

theorem queryMean_eq (w : K) (free : Bool) (ds : List (Args K × List (Entry K) × Entry K)) (n : ℕ) :
    queryMean w free (ds.zipIdx n |>.map fun d => ⟨d.2, d.1.1, mean d.1.2.2.imgEvalErrors⟩) =
      mean ((ds.filter fun d => wanted w free d.1).filterMap fun d => mean d.2.2.imgEvalErrors) := by
  unfold queryMean
  congr 1
  induction ds generalizing n with
  | nil => rfl
  | cons d ds ih =>
    rw [List.zipIdx_cons, List.map_cons]
    by_cases hw : wanted w free d.1 = true
    · rw [List.filter_cons_of_pos (by simpa using hw), List.filter_cons_of_pos (by simpa using hw), List.filterMap_cons, List.filterMap_cons, ih]
    · rw [List.filter_cons_of_neg (by simpa using hw), List.filter_cons_of_neg (by simpa using hw), ih]

/-- **C109.** The printed error of a group is the mean, over the runs with its arguments, of the test errors after the last epoch. -/
theorem C109_mse (w : K) (free : Bool) (ds : List (Args K × List (Entry K) × Entry K)) (hne : ∀ d ∈ ds, d.2.2.imgEvalErrors ≠ []) (rows : List (Row K))
    (h : tableFrom 0 (ds.map fun d => (d.1, d.2.1 ++ [d.2.2])) = .ok rows) (group : List (Args K × List (Entry K) × Entry K))
    (hg : group = ds.filter fun d => decide (d.1.inflation = 10 ∧ d.1.normWeight = w ∧ d.1.rnn = false ∧ d.1.free = free)) :
    (group = [] → queryMean w free rows = none) ∧
      (group ≠ [] → queryMean w free rows = some ((group.map fun d => d.2.2.imgEvalErrors.sum / (d.2.2.imgEvalErrors.length : K)).sum / group.length)) := by
  rw [tableFrom_ok] at h
  obtain rfl := Except.ok.inj h
  rw [queryMean_eq]
  have e1 : (ds.filter fun d => wanted w free d.1) = group := by
    rw [hg]
    refine List.filter_congr fun d _ => ?_
    rw [Bool.eq_iff_iff, wanted_iff, decide_eq_true_eq]
  rw [e1]
  have hgs : ∀ d ∈ group, d.2.2.imgEvalErrors ≠ [] := fun d hd => hne d (by rw [hg] at hd; exact (List.mem_filter.1 hd).1)
  have e2 : (group.filterMap fun d => mean d.2.2.imgEvalErrors) = group.map fun d => d.2.2.imgEvalErrors.sum / (d.2.2.imgEvalErrors.length : K) := by
    clear hg e1
    induction group with
    | nil => rfl
    | cons d l ih =>
      have hd := hgs d (List.mem_cons_self ..)
      rw [List.filterMap_cons, List.map_cons, ih fun d hd => hgs d (List.mem_cons_of_mem _ hd), mean, if_neg fun h0 => hd (List.length_eq_zero_iff.1 h0)]
  rw [e2, mean, List.length_map]
  constructor
  · rintro rfl
    rfl
  · intro hn
    rw [if_neg fun h0 => hn (List.length_eq_zero_iff.1 h0)]

/-- **C109.** The printed error does not depend on the order in which the directories are listed. -/
theorem C109_listing (w : K) (free : Bool) (ds ds' : List (Args K × List (Entry K) × Entry K)) (hp : ds.Perm ds') (rows rows' : List (Row K))
    (h : tableFrom 0 (ds.map fun d => (d.1, d.2.1 ++ [d.2.2])) = .ok rows) (h' : tableFrom 0 (ds'.map fun d => (d.1, d.2.1 ++ [d.2.2])) = .ok rows') :
    queryMean w free rows = queryMean w free rows' := by
  rw [tableFrom_ok] at h h'
  obtain rfl := Except.ok.inj h
  obtain rfl := Except.ok.inj h'
  rw [queryMean_eq, queryMean_eq]
  have := (hp.filter fun d => wanted w free d.1).filterMap fun d => mean d.2.2.imgEvalErrors
  unfold mean at this ⊢
  rw [this.length_eq, this.sum_eq]

end

/-- Three runs, one of them of the other group. -/
def threeRuns : List (Args ℚ × List (Entry ℚ) × Entry ℚ) :=
  [(⟨10, 1 / 20, false, false⟩, [], record 1 [1, 3]), (⟨10, 1 / 20, false, true⟩, [record 5 [9, 9]], record 1 [5, 5]), (⟨10, 1 / 20, false, false⟩, [], record 1 [4, 4])]

example : ∃ rows, tableFrom 0 (threeRuns.map fun d => (d.1, d.2.1 ++ [d.2.2])) = .ok rows ∧ queryIds (1 / 20) false rows = [0, 2] ∧ queryMean (1 / 20) false rows = some 3 ∧
    queryMean (1 / 20) true rows = some 5 ∧ queryMean 1 true rows = none := ⟨_, tableFrom_ok 0 _, by decide +kernel, by decide +kernel, by decide +kernel, by decide +kernel⟩

/-! ## Curves of the losses -/

theorem range_mapM (f : ℕ → Py α) (g : ℕ → α) (n m : ℕ) (h : ∀ i, n ≤ i → i < n + m → f i = .ok (g i)) : (List.range' n m).mapM f = .ok ((List.range' n m).map g) :=
  mapM_ok _ _ _ fun i hi => by
    rw [List.mem_range'_1] at hi
    exact h i hi.1 hi.2

/-- A loop over a range fails if the list is too short. -/
theorem range_mapM_short {β : Type} (l : List β) (f : β → α) (n m : ℕ) (hn : l.length < n + m) (hm : 0 < m) :
    ((List.range' n m).mapM fun i => do
      let e ← item l i
      Except.ok (f e) : Py (List α)) = .error .indexError := by
  induction m generalizing n with
  | zero => omega
  | succ m ih =>
    rw [List.range'_succ, List.mapM_cons]
    by_cases h : n < l.length
    · have h1 := item_get h
      rw [h1]
      have := ih (n + 1) (by omega) (by omega)
      simp only [bind, Except.bind] at this ⊢
      rw [this]
    · rw [item_error (not_lt.1 h)]
      rfl

/-- **C109.** The curves of the losses can be drawn exactly if there are at least 300 epochs; they show the 299 epochs after the first one. -/
theorem C109_curves (tracker : List (Entry K)) :
    (tracker.length < 300 → lossCurves tracker = .error .indexError) ∧
      (300 ≤ tracker.length → ∃ a b, lossCurves tracker = .ok (a, b) ∧ a.length = 299 ∧ b.length = 299 ∧
        ∀ (k : ℕ) (e : Entry K), k < 299 → tracker[k + 1]? = some e → a[k]? = some e.simLoss ∧ b[k]? = some e.allEvalError) := by
  constructor
  · intro h
    unfold lossCurves
    rw [range_mapM_short tracker (fun e => e.simLoss) 1 299 (by omega) (by omega)]
    rfl
  · intro h
    have key : ∀ f : Entry K → K, ∃ a : List K, ((List.range' 1 299).mapM fun i => do
        let e ← item tracker i
        Except.ok (f e) : Py (List K)) = .ok a ∧ a.length = 299 ∧ ∀ (k : ℕ) (e : Entry K), k < 299 → tracker[k + 1]? = some e → a[k]? = some (f e) := by
      intro f
      let d : Entry K := tracker[0]'(by omega)
      refine ⟨_, range_mapM _ (fun i => f ((tracker[i]?).getD d)) 1 299 ?_, by rw [List.length_map, List.length_range'], ?_⟩
      · intro i _ hi
        have h1 := item_get (l := tracker) (i := i) (by omega)
        rw [h1, List.getElem?_eq_getElem (by omega)]
        rfl
      · intro k e hk he
        rw [List.getElem?_map, List.getElem?_range' hk, Option.map_some, show 1 + 1 * k = k + 1 by omega, he]
        rfl
    obtain ⟨a, ha, hla, ha'⟩ := key fun e => e.simLoss
    obtain ⟨b, hb, hlb, hb'⟩ := key fun e => e.allEvalError
    refine ⟨a, b, ?_, hla, hlb, fun k e hk he => ⟨ha' k e hk he, hb' k e hk he⟩⟩
    unfold lossCurves
    rw [ha, hb]
    rfl

/-- **C109, violated.** The first epoch and all after the 300th are not shown: other values there do not change the curves. -/
theorem C109_curves_hidden (first first' : Entry K) (middle rest rest' : List (Entry K)) (h : middle.length = 299) :
    lossCurves (first :: middle ++ rest) = lossCurves (first' :: middle ++ rest') := by
  have key : ∀ f : Entry K → K, ((List.range' 1 299).mapM fun i => do
        let e ← item (first :: middle ++ rest) i
        Except.ok (f e) : Py (List K)) = ((List.range' 1 299).mapM fun i => do
        let e ← item (first' :: middle ++ rest') i
        Except.ok (f e) : Py (List K)) := by
    intro f
    rw [range_mapM _ (fun i => f (((first :: middle ++ rest)[i]?).getD first)) 1 299, range_mapM _ (fun i => f (((first :: middle ++ rest)[i]?).getD first)) 1 299]
    · intro i h1 h2
      obtain ⟨k, rfl⟩ : ∃ k, i = k + 1 := ⟨i - 1, by omega⟩
      have e1 : ∀ (x : Entry K) (r : List (Entry K)), (x :: middle ++ r)[k + 1]? = some (middle[k]'(by omega)) := by
        intro x r
        rw [List.cons_append, List.getElem?_cons_succ, List.getElem?_append_left (by omega), List.getElem?_eq_getElem]
      rw [item_ok.2 (e1 first' rest'), e1]
      rfl
    · intro i h1 h2
      obtain ⟨k, rfl⟩ : ∃ k, i = k + 1 := ⟨i - 1, by omega⟩
      have e1 : ∀ (x : Entry K) (r : List (Entry K)), (x :: middle ++ r)[k + 1]? = some (middle[k]'(by omega)) := by
        intro x r
        rw [List.cons_append, List.getElem?_cons_succ, List.getElem?_append_left (by omega), List.getElem?_eq_getElem]
      rw [item_ok.2 (e1 first rest), e1]
      rfl
  unfold lossCurves
  rw [key, key]

example : (List.replicate 299 (record (1 : ℚ) [1])).length = 299 := List.length_replicate

/-! ## Representations and their embeddings -/

/-- **C109.** The representations are those of all test sequences, in order, if the model treats the samples separately. -/
theorem C109_representations (run : List X → Py (List (List Y))) (f : X → List Y) (h : ∀ b, run b = .ok (b.map f)) (firsts : List X) (hne : firsts ≠ []) :
    extract run firsts = .ok (firsts.map f) := by
  obtain ⟨hfl, -⟩ := Spheres.chunks_flatten 25 (by norm_num) firsts.length firsts le_rfl
  have hcne := chunks_ne_nil (size := 25) hne
  unfold extract
  rw [loader_ok (by norm_num)]
  generalize Spheres.chunks 25 firsts.length firsts = bs at hfl hcne
  rw [← hfl]
  have h1 : bs.mapM run = .ok (bs.map fun b => b.map f) := mapM_ok _ _ _ fun b _ => h b
  simp only [bind, Except.bind, h1]
  cases bs with
  | nil => exact absurd rfl hcne
  | cons b bs =>
    rw [List.map_flatten]
    rfl

example : ∀ b : List ℕ, (fun b : List ℕ => (.ok (b.map fun x => [x, x + 1]) : Py (List (List ℕ)))) b = .ok (b.map fun x => [x, x + 1]) := fun _ => rfl

theorem group_points (g : ℕ → ℕ) (a : ℕ) (ix : List ℕ) (emb pre : List P) (h : emb.length = ix.length) :
    (((ix.map g).zipIdx pre.length).filter fun p => decide (p.1 = a)).mapM (fun p => item (pre ++ emb) p.2) =
      .ok (((List.zip ix emb).filter fun p => decide (g p.1 = a)).map Prod.snd) := by
  induction ix generalizing emb pre with
  | nil =>
    obtain rfl := List.length_eq_zero_iff.1 h
    rfl
  | cons i ix ih =>
    cases emb with
    | nil => cases h
    | cons e emb =>
      have h1 := ih emb (pre ++ [e]) (by simpa using h)
      rw [List.append_assoc, List.singleton_append, List.length_append, List.length_singleton] at h1
      rw [List.map_cons, List.zipIdx_cons, List.zip_cons_cons]
      by_cases hg : g i = a
      · have h2 : item (pre ++ e :: emb) pre.length = .ok e := item_ok.2 (by simp)
        rw [List.filter_cons_of_pos (by simpa using hg), List.filter_cons_of_pos (by simpa using hg), List.mapM_cons, h2, h1]
        rfl
      · rw [List.filter_cons_of_neg (by simpa using hg), List.filter_cons_of_neg (by simpa using hg), h1]

theorem flatten_item (T : ℕ) (x : List (List Y)) (hx : ∀ s ∈ x, s.length = T) (r : ℕ) (hr : r < x.length * T) :
    ∃ s y, x[r / T]? = some s ∧ s[r % T]? = some y ∧ x.flatten[r]? = some y := by
  have hT : 0 < T := Nat.pos_of_ne_zero fun h => by rw [h] at hr; omega
  have h1 : r / T < x.length := Nat.div_lt_of_lt_mul (by rw [Nat.mul_comm]; exact hr)
  have h2 : r % T < T := Nat.mod_lt _ hT
  have hs := hx _ (List.getElem_mem h1)
  refine ⟨x[r / T], (x[r / T])[r % T]'(by omega), List.getElem?_eq_getElem h1, List.getElem?_eq_getElem _, ?_⟩
  have h3 := flatten_get T x hx (r / T) (r % T) h2 _ (List.getElem?_eq_getElem h1)
  rw [Nat.mul_comm, Nat.div_add_mod] at h3
  rw [h3]
  exact List.getElem?_eq_getElem _

theorem label_item (N T r : ℕ) (hr : r < N * T) : item (List.replicate N (List.range' 1 T)).flatten r = .ok (r % T + 1) := by
  obtain ⟨s, y, h1, h2, h3⟩ := flatten_item T (List.replicate N (List.range' 1 T)) (fun s hs => by rw [(List.mem_replicate.1 hs).2, List.length_range']) r (by rwa [List.length_replicate])
  have h4 : s = List.range' 1 T := (List.mem_replicate.1 (List.mem_of_getElem? h1)).2
  rw [h4] at h2
  have hT : 0 < T := Nat.pos_of_ne_zero fun h => by rw [h] at hr; omega
  rw [List.getElem?_range' (Nat.mod_lt _ hT)] at h2
  rw [item_ok, h3, ← Option.some.inj h2]
  congr 1
  omega

theorem sel_items (T : ℕ) (x : List (List Y)) (hx : ∀ s ∈ x, s.length = T) (ix : List ℕ) (hix : ∀ r ∈ ix, r < x.length * T) :
    ∃ sel, (ix.mapM fun r => item x.flatten r) = .ok sel ∧ List.Forall₂ (fun r y => ∃ s, x[r / T]? = some s ∧ s[r % T]? = some y) ix sel := by
  induction ix with
  | nil => exact ⟨[], rfl, .nil⟩
  | cons r ix ih =>
    obtain ⟨sel, h1, h2⟩ := ih fun r hr => hix r (List.mem_cons_of_mem _ hr)
    obtain ⟨s, y, h3, h4, h5⟩ := flatten_item T x hx r (hix r (List.mem_cons_self ..))
    refine ⟨y :: sel, ?_, .cons ⟨s, h3, h4⟩ h2⟩
    rw [List.mapM_cons, item_ok.2 h5, h1]
    rfl

/-- **C109.** Points are coloured by angle: with at most 16 angles, the representation of sample `r / T` at angle `r % T` is drawn with colour `r % T`, for every drawn number `r`, and nothing else is drawn. -/
theorem C109_tsne (embed : List Y → Py (List P)) (hembed : ∀ l, ∃ e, embed l = .ok e ∧ e.length = l.length) (T : ℕ) (hT : T ≤ 16) (x : List (List Y)) (hx : ∀ s ∈ x, s.length = T)
    (h0 : x.length * T ≠ 0) (ix : List ℕ) (hix : ∀ r ∈ ix, r < x.length * T) :
    ∃ sel emb groups, List.Forall₂ (fun r y => ∃ s, x[r / T]? = some s ∧ s[r % T]? = some y) ix sel ∧ embed sel = .ok emb ∧ plotTsne embed T x ix = .ok groups ∧ groups.length = T ∧
      ∀ a < T, groups[a]? = some (a, ((List.zip ix emb).filter fun p => decide (p.1 % T = a)).map Prod.snd) := by
  obtain ⟨sel, h1, h2⟩ := sel_items T x hx ix hix
  obtain ⟨emb, h3, h4⟩ := hembed sel
  have h5 : (ix.mapM fun r => item (List.replicate x.length (List.range' 1 T)).flatten r) = .ok (ix.map fun r => r % T + 1) := mapM_ok _ _ _ fun r hr => label_item _ _ _ (hix r hr)
  have hlen : emb.length = ix.length := h4.trans h2.length_eq.symm
  have h6 : ((List.range' 1 T).mapM fun a => tsneGroup (ix.map fun r => r % T + 1) emb a) =
      .ok ((List.range' 1 T).map fun a => (a - 1, ((List.zip ix emb).filter fun p => decide (p.1 % T + 1 = a)).map Prod.snd)) := by
    refine mapM_ok _ _ _ fun a ha => ?_
    rw [List.mem_range'_1] at ha
    unfold tsneGroup
    have h7 := group_points (fun r => r % T + 1) a ix emb [] hlen
    rw [List.nil_append, List.length_nil] at h7
    have h8 : item (List.range 16) (a - 1) = .ok (a - 1) := item_ok.2 (List.getElem?_range (by omega))
    simp only [bind, Except.bind, h7, h8]
  refine ⟨sel, emb, (List.range' 1 T).map fun a => (a - 1, ((List.zip ix emb).filter fun p => decide (p.1 % T + 1 = a)).map Prod.snd), h2, h3, ?_, ?_, ?_⟩
  · unfold plotTsne
    rw [if_neg h0, h1]
    simp only [bind, Except.bind, h5, h3]
    exact h6
  · rw [List.length_map, List.length_range']
  · intro a ha
    rw [List.getElem?_map, List.getElem?_range' ha, Option.map_some, show 1 + 1 * a - 1 = a by omega]
    congr 4
    funext p
    congr 1
    exact propext ⟨fun h => by omega, fun h => by omega⟩

example : plotTsne (fun l : List ℕ => .ok l) 2 [[10, 11], [20, 21], [30, 31]] [5, 0, 2, 5] = .ok [(0, [10, 20]), (1, [31, 31])] := by decide +kernel

/-- **C109.** More than 16 angles cannot be drawn; without samples nothing can be drawn at random. -/
theorem C109_tsne_fails (embed : List Y → Py (List P)) (hembed : ∀ l, ∃ e, embed l = .ok e ∧ e.length = l.length) (T : ℕ) (x : List (List Y)) (hx : ∀ s ∈ x, s.length = T) (ix : List ℕ)
    (hix : ∀ r ∈ ix, r < x.length * T) : (x.length * T = 0 → plotTsne embed T x ix = .error .valueError) ∧ (x.length * T ≠ 0 → 16 < T → plotTsne embed T x ix = .error .indexError) := by
  refine ⟨fun h => by rw [plotTsne, if_pos h], fun h0 hT => ?_⟩
  obtain ⟨sel, h1, h2⟩ := sel_items T x hx ix hix
  obtain ⟨emb, h3, h4⟩ := hembed sel
  have h5 : (ix.mapM fun r => item (List.replicate x.length (List.range' 1 T)).flatten r) = .ok (ix.map fun r => r % T + 1) := mapM_ok _ _ _ fun r hr => label_item _ _ _ (hix r hr)
  have hlen : emb.length = ix.length := h4.trans h2.length_eq.symm
  have h7 : ∀ a, (((ix.map fun r => r % T + 1).zipIdx.filter fun p => decide (p.1 = a)).mapM fun p => item emb p.2) =
      .ok (((List.zip ix emb).filter fun p => decide (p.1 % T + 1 = a)).map Prod.snd) := by
    intro a
    have := group_points (fun r => r % T + 1) a ix emb [] hlen
    rwa [List.nil_append, List.length_nil] at this
  unfold plotTsne
  rw [if_neg h0, h1]
  simp only [bind, Except.bind, h5, h3]
  have hr : List.range' 1 T = List.range' 1 16 ++ 17 :: List.range' 18 (T - 17) := by
    have e1 := List.range'_append_1 (s := 1) (m := 16) (n := T - 17 + 1)
    rw [show 16 + (T - 17 + 1) = T by omega] at e1
    have e2 : List.range' (1 + 16) (T - 17 + 1) = 17 :: List.range' 18 (T - 17) := List.range'_succ
    rw [← e1, e2]
  rw [hr]
  refine mapM_error _ (fun a => (a - 1, ((List.zip ix emb).filter fun p => decide (p.1 % T + 1 = a)).map Prod.snd)) _ _ _ _ ?_ ?_
  · intro a ha
    rw [List.mem_range'_1] at ha
    have h8 : item (List.range 16) (a - 1) = .ok (a - 1) := item_ok.2 (List.getElem?_range (by omega))
    unfold tsneGroup
    simp only [bind, Except.bind, h7, h8]
  · have h8 : item (List.range 16) (17 - 1) = .error .indexError := item_error (by simp)
    unfold tsneGroup
    simp only [bind, Except.bind, h7, h8]

/-- **C109.** The plots of the principal components show, for every drawn sample, its first 16 points, coloured by angle; with fewer than 16 angles the notebook stops. -/
theorem C109_pca (pca : List Y → Py (List P)) (hpca : ∀ l, ∃ e, pca l = .ok e ∧ e.length = l.length) (T : ℕ) (x : List (List Y)) (hx : ∀ s ∈ x, s.length = T) (draws : List ℕ)
    (hd : ∀ i ∈ draws, i < x.length) :
    (16 ≤ T → ∃ lines, plotPca pca x draws = .ok lines ∧ List.Forall₂ (fun i l => ∃ s e, x[i]? = some s ∧ pca s = .ok e ∧ l = (e.take 16).zip (List.range 16)) draws lines) ∧
      (T < 16 → draws ≠ [] → plotPca pca x draws = .error .indexError) := by
  constructor
  · intro hT
    unfold plotPca
    induction draws with
    | nil => exact ⟨[], rfl, .nil⟩
    | cons i draws ih =>
      obtain ⟨lines, h1, h2⟩ := ih fun i hi => hd i (List.mem_cons_of_mem _ hi)
      have hi := hd i (List.mem_cons_self ..)
      obtain ⟨e, he, hle⟩ := hpca x[i]
      have hs := hx _ (List.getElem_mem hi)
      have h3 : pcaOne pca x i = .ok ((e.take 16).zip (List.range 16)) := by
        unfold pcaOne
        rw [item_get hi]
        simp only [bind, Except.bind, he]
        let d : P := e[0]'(by omega)
        have h4 := mapM_ok (fun j => (item e j).bind fun p => Except.ok (p, j)) (fun j => ((e[j]?).getD d, j)) (List.range 16) (by
          intro j hj
          rw [List.mem_range] at hj
          rw [item_get (by omega), List.getElem?_eq_getElem (by omega)]
          rfl)
        refine Eq.trans h4 ?_
        congr 1
        refine List.ext_getElem? fun j => ?_
        by_cases hj : j < 16
        · rw [List.getElem?_map, List.getElem?_range hj, (List.getElem?_zip_eq_some (z := (e[j]'(by omega), j))).2
            ⟨by rw [List.getElem?_take_of_lt hj, List.getElem?_eq_getElem], List.getElem?_range hj⟩]
          rw [Option.map_some, List.getElem?_eq_getElem (by omega)]
          rfl
        · rw [List.getElem?_eq_none (by simpa using hj), List.getElem?_eq_none (by rw [List.length_zip, List.length_range]; omega)]
      refine ⟨_ :: lines, ?_, .cons ⟨_, e, List.getElem?_eq_getElem hi, he, rfl⟩ h2⟩
      rw [List.mapM_cons, h3, h1]
      rfl
  · intro hT hne
    cases draws with
    | nil => exact absurd rfl hne
    | cons i draws =>
      have hi := hd i (List.mem_cons_self ..)
      obtain ⟨e, he, hle⟩ := hpca x[i]
      have hs := hx _ (List.getElem_mem hi)
      have h3 : pcaOne pca x i = .error .indexError := by
        unfold pcaOne
        rw [item_get hi]
        simp only [bind, Except.bind, he]
        rw [List.range_eq_range']
        have key : ∀ (m n : ℕ), e.length < n + m → 0 < m → ((List.range' n m).mapM fun j => (item e j).bind fun p => Except.ok (p, j) : Py (List (P × ℕ))) = .error .indexError := by
          intro m
          induction m with
          | zero => intro n _ h; omega
          | succ m ih =>
            intro n hn _
            rw [List.range'_succ, List.mapM_cons]
            by_cases h : n < e.length
            · rw [item_get h]
              simp only [bind, Except.bind] at ih ⊢
              rw [ih (n + 1) (by omega) (by omega)]
            · rw [item_error (not_lt.1 h)]
              rfl
        exact key 16 0 (by omega) (by omega)
      unfold plotPca
      rw [List.mapM_cons, h3]
      rfl

example : plotPca (fun l : List ℕ => .ok l) [List.range 16, List.range' 5 16] [1] = .ok [(List.range' 5 16).zip (List.range 16)] := by decide +kernel

/-! ## Reconstructions -/

/-- **C109.** The picture for number `idx` of batch `b` shows the test sequence with number `25 b + idx`, unless its batch has only one sequence. -/
theorem C109_shown (seqs : List (List Y)) (hT : ∀ s ∈ seqs, 16 ≤ s.length) (b idx : ℕ) (hidx : idx < 25) (s : List Y) (hs : seqs[25 * b + idx]? = some s) (h1 : seqs.length ≠ 25 * b + 1) :
    ∃ bs, savedBatches seqs = .ok bs ∧ shown bs b idx = .ok (s.take 16) := by
  have hlt : 25 * b + idx < seqs.length := by
    by_contra h
    rw [List.getElem?_eq_none (not_lt.1 h)] at hs
    cases hs
  refine ⟨_, loader_ok (by norm_num) seqs, ?_⟩
  have hb : (Spheres.chunks 25 seqs.length seqs)[b]? = some ((seqs.drop (b * 25)).take 25) := by
    rw [chunks_get (by norm_num) _ _ le_rfl, if_pos (by omega)]
  have hi : ((seqs.drop (b * 25)).take 25)[idx]? = some s := by
    rw [List.getElem?_take_of_lt hidx, List.getElem?_drop, show b * 25 + idx = 25 * b + idx by omega, hs]
  have hl : 16 ≤ s.length := hT s (List.mem_of_getElem? hs)
  unfold shown
  rw [item_ok.2 hb]
  simp only [bind, Except.bind]
  rw [if_neg (by rw [List.length_take, List.length_drop]; omega), item_ok.2 hi]
  dsimp only
  let d : Y := s[0]'(by omega)
  refine (mapM_ok _ (fun i => (s[i]?).getD d) _ ?_).trans ?_
  · intro i hi
    rw [List.mem_range] at hi
    rw [item_get (by omega), List.getElem?_eq_getElem (by omega)]
    rfl
  · congr 1
    refine List.ext_getElem? fun i => ?_
    by_cases hi : i < 16
    · rw [List.getElem?_map, List.getElem?_range hi, List.getElem?_take_of_lt hi, Option.map_some, List.getElem?_eq_getElem (by omega)]
      rfl
    · rw [List.getElem?_eq_none (by simpa using hi), List.getElem?_eq_none (by rw [List.length_take]; omega)]

/-- The 542 test sequences with the pictures of the notebook meet the conditions. -/
example : (List.replicate 542 (List.replicate 16 0)).length ≠ 25 * 0 + 1 := by rw [List.length_replicate]; decide

/-- **C109, violated.** A last batch with one sequence cannot be shown. -/
theorem C109_not_shown (seqs : List (List Y)) (b idx : ℕ) (h : seqs.length = 25 * b + 1) : ∃ bs, savedBatches seqs = .ok bs ∧ shown bs b idx = .error .indexError := by
  refine ⟨_, loader_ok (by norm_num) seqs, ?_⟩
  have hb : (Spheres.chunks 25 seqs.length seqs)[b]? = some ((seqs.drop (b * 25)).take 25) := by
    rw [chunks_get (by norm_num) _ _ le_rfl, if_pos (by omega)]
  unfold shown
  rw [item_ok.2 hb]
  simp only [bind, Except.bind]
  rw [if_pos (by rw [List.length_take, List.length_drop]; omega)]

example : ([[1], [2]] : List (List ℕ)).length ≠ 25 * 0 + 1 ∧ (List.replicate 26 [1]).length = 25 * 1 + 1 := by decide

end Verif.Notebooks
