import Verif.LongRange.Lemmas

/-!
# Lemmas for C90: shooting blocks
-/

namespace Verif.LongRange
open Verif Verif.Chunks Verif.Tensor Verif.Evolution Verif.Flow Verif.Whole Verif.Converge

variable {K K' P R H D Θ Rb Q V W τ Z : Type}

/-! ## Tensors along the time -/

theorem index0_tab {α : Type} (n : Nat) (s : List Nat) (f : List Nat → α) (i : Nat) (hi : i < n) : (tab (n :: s) f).index0 i = tab s fun idx => f (i :: idx) := by
  unfold Tensor.index0 tab
  simp only [List.tail_cons, tabData]
  congr 1
  rw [List.flatMap_def]
  have hl : ((List.range n).map fun i => tabData s fun idx => f (i :: idx)).length = n := by simp
  have hr := rows_flatten (vol s) ((List.range n).map fun i => tabData s fun idx => f (i :: idx)) (by
    intro x hx
    obtain ⟨j, _, rfl⟩ := List.mem_map.1 hx
    exact tabData_length _ _)
  rw [hl] at hr
  have hi' : i < (rows (vol s) n ((List.range n).map fun i => tabData s fun idx => f (i :: idx)).flatten).length := by simpa using hi
  have hg := rows_getElem _ _ _ i hi'
  rw [← hg]
  simp only [hr]
  simp only [List.getElem_map, List.getElem_range]

theorem steps_tab {α : Type} (n : Nat) (s : List Nat) (f : List Nat → α) : steps (tab (n :: s) f) = (List.range n).map fun i => tab s fun idx => f (i :: idx) := by
  unfold steps
  apply List.map_congr_left
  intro i hi
  exact index0_tab n s f i (List.mem_range.1 hi)

theorem unpack_outTimes (L : Lay K) (L' : Lay K') (nm key : String) (sh : List Nat) {n B : Nat} (ys : List (Sys2 (Fin n) (Fin B) K K')) :
    unpack (outTimes L L' nm key sh ys).result = .ok (ys.map fun y => picture L' key sh B y.2.2) := by
  show Except.ok (steps _) = _
  rw [steps_tab]
  congr 1
  apply List.ext_getElem
  · simp
  · intro i h1 h2
    have hi : i < ys.length := by simpa using h2
    simp only [List.getElem_map, List.getElem_range, List.headD_cons, List.tail_cons, List.getElem?_eq_getElem hi, Option.map_some, Option.getD_some]
    rfl

theorem picture_congr {L' : Lay K'} (hL' : L'.Ok) {key : String} {sh : List Nat} (hkey : (key, sh) ∈ L'.names) {B : Nat} {x y : Fin B × K' → ℝ} (h : ∀ b k, L'.key k = key → x (b, k) = y (b, k)) :
    picture L' key sh B x = picture L' key sh B y := by
  unfold picture tab
  congr 1
  apply tabData_congr
  intro idx hi
  cases hi with
  | @cons i _ is _ h1 h2 =>
    obtain ⟨k, e1, e2, _⟩ := hL'.onto _ hkey is h2
    have hb := value_coord x e1 ⟨i, h1⟩
    have hb' := value_coord y e1 ⟨i, h1⟩
    rw [hb, hb', h ⟨i, h1⟩ k e2]

/-! ## Values on the grid of the times -/

section
variable [AddCommGroup V] [Module ℝ V] [AddCommGroup W] [Module ℝ W]

theorem outputs_times (Φ : ℝ → ℝ → V → V) (t : ℝ) (ts : List ℝ) (y : V) (h : (t :: ts).Pairwise (· < ·)) : y :: outputs Φ t y ts ts = gridValues Φ t y ts := by
  induction ts generalizing t y with
  | nil => rfl
  | cons t' ts ih =>
    have h1 : t < t' := (List.pairwise_cons.1 h).1 t' (by simp)
    have h2 := (List.pairwise_cons.1 h).2
    have h3 : ∀ s ∈ ts, t' < s := (List.pairwise_cons.1 h2).1
    have hw : ts.takeWhile (· ≤ t') = [] := by
      cases ts with
      | nil => rfl
      | cons u us => rw [List.takeWhile_cons]; simp [h3 u (by simp)]
    have hd : ts.dropWhile (· ≤ t') = ts := by
      cases ts with
      | nil => rfl
      | cons u us => rw [List.dropWhile_cons]; simp [h3 u (by simp)]
    rw [outputs, gridValues, List.takeWhile_cons, List.dropWhile_cons]
    simp only [le_refl, decide_true, if_true, hw, hd, List.map_cons, List.map_nil, List.singleton_append]
    rw [between, if_neg (ne_of_gt h1), if_pos rfl, ih _ _ h2]

theorem gridValues_length (Φ : ℝ → ℝ → V → V) (t : ℝ) (y : V) (ts : List ℝ) : (gridValues Φ t y ts).length = ts.length + 1 := by
  induction ts generalizing t y with
  | nil => rfl
  | cons t' ts ih => rw [gridValues, List.length_cons, ih, List.length_cons]

theorem gridValues_head (Φ : ℝ → ℝ → V → V) (t : ℝ) (y : V) (ts : List ℝ) : ∃ l, gridValues Φ t y ts = y :: l := by
  cases ts with
  | nil => exact ⟨_, rfl⟩
  | cons t' ts => exact ⟨_, rfl⟩

theorem slopes_map (π : V →ₗ[ℝ] W) {f : ℝ → V → V} {g : ℝ → W → W} (h : ∀ t z, π (f t z) = g t (π z)) (hh t : ℝ) (y : V) (ss : List (ℝ × List ℝ)) (ks : List V) :
    (slopes f hh t y ss ks).map π = slopes g hh t (π y) ss (ks.map π) := by
  induction ss generalizing ks with
  | nil => rfl
  | cons s ss ih =>
    rw [slopes, slopes, ih]
    congr 1
    rw [List.map_append, List.map_cons, List.map_nil, h, map_add, map_smul]
    congr 5
    exact comb_map π s.2 ks
where
  comb_map (π : V →ₗ[ℝ] W) (c : List ℝ) (ks : List V) : π (comb c ks) = comb c (ks.map π) := by
    induction c generalizing ks with
    | nil => cases ks <;> simp [comb]
    | cons a c ih => cases ks with
      | nil => simp [comb]
      | cons k ks =>
        have := ih ks
        unfold comb at this ⊢
        simp [this]

theorem solveAt_map (π : V →ₗ[ℝ] W) {f : ℝ → V → V} {g : ℝ → W → W} (h : ∀ t z, π (f t z) = g t (π z)) (T : Tableau) (y : V) (ts : List ℝ) :
    (solveAt (increment T f) y ts).map π = solveAt (increment T g) (π y) ts := by
  cases ts with
  | nil => rfl
  | cons t ts =>
    show (gridValues _ t y ts).map π = gridValues _ t (π y) ts
    induction ts generalizing t y with
    | nil => rfl
    | cons t' ts ih =>
      rw [gridValues, gridValues, List.map_cons, ih]
      congr 2
      rw [map_add, map_smul]
      unfold increment
      rw [slopes_map.comb_map, slopes_map π h]
      rfl

theorem increment_autonomous (T : Tableau) (g : V → V) (h t t' : ℝ) (y : V) : increment T (fun _ => g) h t y = increment T (fun _ => g) h t' y := by
  unfold increment
  congr 1
  generalize ([] : List V) = ks
  generalize T.stages = ss
  induction ss generalizing ks with
  | nil => rfl
  | cons s ss ih => rw [slopes, slopes, ih]

/-- Going through the pieces is going through all times. -/
theorem follow_tails (Φ : ℝ → ℝ → V → V) (cs : List (List ℝ)) (t : ℝ) (y : V) (h : ∀ c ∈ cs.head?, c.head? = some t) (hne : ∀ c ∈ cs, c ≠ []) (hch : cs.IsChain Overlap) :
    y :: ((follow (fun c z => solveAt Φ z c) y cs).map List.tail).flatten = gridValues Φ t y (cs.map List.tail).flatten := by
  induction cs generalizing t y with
  | nil => rfl
  | cons c cs ih =>
    obtain ⟨us, rfl⟩ : ∃ us, c = t :: us := by
      have := h c (by simp)
      cases c with
      | nil => exact absurd this (by simp)
      | cons a us => exact ⟨us, by simpa using this⟩
    have key : ∀ (us : List ℝ) (t : ℝ) (y : V) (rest : List ℝ), ∃ t' y', (t :: us).getLast? = some t' ∧ (gridValues Φ t y us).getLastD y = y' ∧
        gridValues Φ t y (us ++ rest) = gridValues Φ t y us ++ (gridValues Φ t' y' rest).tail := by
      intro us
      induction us with
      | nil =>
        intro t y rest
        refine ⟨t, y, rfl, rfl, ?_⟩
        obtain ⟨l, hl⟩ := gridValues_head Φ t y rest
        rw [List.nil_append, hl]
        rfl
      | cons u us ih2 =>
        intro t y rest
        obtain ⟨t', y', e1, e2, e3⟩ := ih2 u (y + (u - t) • Φ (u - t) t y) rest
        refine ⟨t', y', ?_, ?_, ?_⟩
        · rw [List.getLast?_cons_cons]; exact e1
        · rw [← e2, gridValues]
          obtain ⟨l, hl⟩ := gridValues_head Φ u (y + (u - t) • Φ (u - t) t y) us
          rw [hl]
          simp only [List.getLastD_eq_getLast?, List.getLast?_cons_cons]
          rw [List.getLast?_eq_some_getLast (by simp)]
          rfl
        · rw [List.cons_append, gridValues, e3]
          rfl
    obtain ⟨t', y', e1, e2, e3⟩ := key us t y ((cs.map List.tail).flatten)
    have hch' := hch
    have ih' := ih t' y' (by
        intro d hd
        obtain ⟨ds, rfl⟩ : ∃ ds, cs = d :: ds := by
          cases cs with
          | nil => exact absurd hd (by simp)
          | cons a ds => exact ⟨ds, by simp at hd; rw [hd]⟩
        obtain ⟨x, h1, h2⟩ := (List.isChain_cons_cons.1 hch).1
        rw [h2]
        rw [e1] at h1
        exact h1.symm) (fun d hd => hne d (by simp [hd])) hch.tail
    simp only [List.map_cons, List.flatten_cons, List.tail_cons, follow]
    rw [e3, ← ih']
    show y :: ((gridValues Φ t y us).tail ++ _) = _
    rw [show (solveAt Φ y (t :: us)).getLastD y = y' from e2]
    obtain ⟨l, hl⟩ := gridValues_head Φ t y us
    rw [hl]
    rfl

theorem follow_glue (Φ : ℝ → ℝ → V → V) (cs : List (List ℝ)) (y : V) (hne : ∀ c ∈ cs, c ≠ []) (hch : cs.IsChain Overlap) :
    glue (follow (fun c z => solveAt Φ z c) y cs) = solveAt Φ y (glue cs) := by
  cases cs with
  | nil => rfl
  | cons c cs =>
    cases c with
    | nil => exact absurd rfl (hne [] (by simp))
    | cons t us =>
      have h := follow_tails Φ ((t :: us) :: cs) t y (by intro c hc; simp at hc; rw [← hc]; rfl) hne hch
      rw [show glue ((t :: us) :: cs) = t :: (us ++ (cs.map List.tail).flatten) from rfl]
      show _ = gridValues Φ t y (us ++ (cs.map List.tail).flatten)
      rw [show us ++ (cs.map List.tail).flatten = (((t :: us) :: cs).map List.tail).flatten from rfl, ← h, follow, glue_cons_ne, List.map_cons, List.flatten_cons]
      obtain ⟨l, hl⟩ := gridValues_head Φ t y us
      rw [show solveAt Φ y (t :: us) = y :: l from hl]
      rfl

end

theorem follow_congr (F : List τ → Z → List Z) (cs cs' : List (List τ)) (h : List.Forall₂ (fun c c' => ∀ z, F c z = F c' z) cs cs') (z : Z) : follow F z cs = follow F z cs' := by
  induction h generalizing z with
  | nil => rfl
  | cons h _ ih => rw [follow, follow, h, ih]

theorem follow_fun_congr (F G : List τ → Z → List Z) (cs : List (List τ)) (h : ∀ c z, F c z = G c z) (z : Z) : follow F z cs = follow G z cs := by
  have : F = G := funext fun c => funext fun z => h c z
  rw [this]

/-! ## The block -/

theorem answers [Fintype K] [Fintype K'] {L : Lay K} {L' : Lay K'} (hL' : L'.Ok) {cfg : Block.Cfg ℝ ℝ Θ Rb} (r : Rb) (pen : Block.St ℝ ℝ Θ → Q) {n B : Nat} {q p : Fin n × K → ℝ} {sh : List Nat}
    (hkey : (cfg.outKey, sh) ∈ L'.names) {restart : (Fin B × K' → ℝ) → Fin B × K' → ℝ} (hr : Restarts L' cfg.outKey sh B cfg.initialData restart) {T : Tableau}
    {fld : ℝ → Sys2 (Fin n) (Fin B) K K' → Sys2 (Fin n) (Fin B) K K'}
    (hf : ∀ s X x ts, HasParticles L L' q p s → Block.Is s (.vector ts) → cfg.initialData X = .ok (enc L' "" B x) →
      Block.forward cfg r ⟨some X, none, none, none⟩ s = report L L' cfg.name cfg.outKey sh s (.vector ts) (runSys fld (solver T id ts) [(q, p, x)])) :
    Answers (asBlk cfg r pen) (HasParticles L L' q p) (fun ts => ts.Pairwise (· < ·)) (picture L' cfg.outKey sh B)
      (fun ts x => (solveAt (increment T fld) (q, p, restart x) ts).map fun y => y.2.2) where
  call := by
    intro s ts x hs hts hne
    obtain ⟨t, us, rfl⟩ : ∃ t us, ts = t :: us := by
      cases ts with
      | nil => exact absurd rfl hne
      | cons t us => exact ⟨t, us, rfl⟩
    have hrun := run_solver fld T id t us us (q, p, restart x) ((increasing_iff _).2 hts) rfl rfl
    have h := hf (Block.setTimeVector (t :: us) s) (picture L' cfg.outKey sh B x) (restart x) (t :: us) hs ⟨rfl, rfl⟩ (hr.init x)
    rw [hrun, outputs_times _ _ _ _ hts] at h
    refine ⟨{ Block.setTimeVector (t :: us) s with notYet := false }, ?_, hs⟩
    show ((Block.forward cfg r ⟨some (picture L' cfg.outKey sh B x), none, none, none⟩ (Block.setTimeVector (t :: us) s)).1,
      (Block.forward cfg r ⟨some (picture L' cfg.outKey sh B x), none, none, none⟩ (Block.setTimeVector (t :: us) s)).2.bind fun o => unpack o.result) = _
    rw [h]
    show (_, unpack (outTimes L L' cfg.name cfg.outKey sh (gridValues (increment T fld) t (q, p, restart x) us)).result) = _
    rw [unpack_outTimes, List.map_map]
    rfl
  length := by
    intro ts x hne
    cases ts with
    | nil => exact absurd rfl hne
    | cons t us =>
      rw [List.length_map]
      exact gridValues_length _ _ _ _
  first := by
    intro ts x hne
    cases ts with
    | nil => exact absurd rfl hne
    | cons t us =>
      obtain ⟨l, hl⟩ := gridValues_head (increment T fld) t (q, p, restart x) us
      show (((gridValues (increment T fld) t (q, p, restart x) us).map _).map _).head? = _
      rw [hl]
      simp only [List.map_cons, List.head?_cons]
      rw [picture_congr hL' hkey (hr.keeps x)]

end Verif.LongRange
