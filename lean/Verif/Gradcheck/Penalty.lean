import Verif.Gradcheck.Model
import Verif.Gradcheck.Spec
import Verif.Whole.Props
import Verif.Converge.Grid

/-!
# The norm penalty after a forward pass
-/

namespace Verif.Gradcheck
open Verif Verif.Assembly Verif.Flow Verif.Whole Verif.Evolution Verif.Converge

variable {K K' P R H D Θ Rb : Type}

/-- As `run_sim`, with a memory that depends on the last evaluation at time 0. -/
theorem run_last [Fintype K] [Fintype K'] {L : Lay K} (hL : L.Ok) {L' : Lay K'} (hL' : L'.Ok) (nm : String) {n B : Nat} {σ : Type} (F : ℝ → Trip ℝ → σ → Py (Trip ℝ × σ))
    (fld : ℝ → Sys2 (Fin n) (Fin B) K K' → Sys2 (Fin n) (Fin B) K K') (Inv : Option (Sys2 (Fin n) (Fin B) K K') → σ → Prop)
    (hF : ∀ t z a s, Inv a s → ∃ s', F t (trip L L' nm z) s = .ok (dotTrip L L' nm (fld t z), s') ∧ Inv (if t = 0 then some z else a) s') (M : Method ℝ ℝ) :
    ∀ (zs : List (Sys2 (Fin n) (Fin B) K K')) (a) (s : σ), Inv a s →
      ∃ s', runDict (plansOf L L' nm n B) F M (zs.map (trip L L' nm)) s = (runSys fld M zs).map (fun ys => (ys.map (trip L L' nm), s')) ∧
        Inv (lastAtZero fld M zs a) s' := by
  induction M with
  | done outs =>
    intro zs a s hs
    refine ⟨s, ?_, hs⟩
    unfold runDict runSys
    simp only [pointwise3_trip nm hL hL', Except.map, List.map_map]
    rfl
  | fail e =>
    intro zs a s hs
    exact ⟨s, rfl, hs⟩
  | eval t g next ih =>
    intro zs a s hs
    obtain ⟨s1, h1, hi⟩ := hF t (combine g zs) a s hs
    obtain ⟨s2, h2, hi2⟩ := ih (zs ++ [fld t (combine g zs)]) _ s1 hi
    refine ⟨s2, ?_, hi2⟩
    unfold runDict runSys
    rw [pointwise3_trip nm hL hL', h1, ← h2]
    simp only [List.map_append, List.map_cons, List.map_nil, dotTrip_eq, undotted3_dotted3]
  | test q next ih =>
    intro zs a s hs
    obtain ⟨s2, h2, hi2⟩ := ih (sumAll (combine q zs)) zs a s hs
    refine ⟨s2, ?_, hi2⟩
    unfold runDict runSys
    rw [pointwise3_trip nm hL hL', total_trip nm hL hL']
    exact h2

/-- The memory after a forward pass is that of the integration of the dictionaries. -/
theorem memory_at [Fintype K] [Fintype K'] {c : Cls K K' P R} (hL : c.lay.Ok) (hL' : c.dataLay.Ok) {M : List ℝ → Method ℝ ℝ}
    {icfg : Θ → Nat → Integrand.Cfg ℝ (Trip ℝ) (Par P R) (TDicts ℝ) ℝ R H D} {s0 : Integrand.St ℝ (Par P R) ℝ H D × (Nat → R × R)}
    {cfg : Block.Cfg ℝ ℝ Θ Rb} (hb : IsBlock c M icfg s0 cfg) {s : Block.St ℝ ℝ Θ} (hdd : DimOk c.dataLay s.dataDim) {w : Block.When ℝ} (hw : Block.Is s w)
    {n B : Nat} {q p : Fin n × K → ℝ} {x : Fin B × K' → ℝ} (hq : s.state = some (enc c.lay "" n q)) (hp : s.costate = some (enc c.lay "p_" n p))
    {X : Tensor ℝ} (hX : cfg.initialData X = .ok (enc c.dataLay "" B x)) (r : Rb) :
    memoryAfter M (fun th dd => ofIntegrand (icfg th dd)) s0 cfg r ⟨some X, none, none, none⟩ s =
      (runDict (plansOf c.lay c.dataLay cfg.name n B) (ofIntegrand (icfg s.theta s.dataDim)) (M w.times) [trip c.lay c.dataLay cfg.name (q, p, x)] s0).map Prod.snd := by
  have hgood : GoodDicts (trip c.lay c.dataLay cfg.name (q, p, x)).1 ∧ GoodDicts (trip c.lay c.dataLay cfg.name (q, p, x)).2.1 ∧ GoodDicts (trip c.lay c.dataLay cfg.name (q, p, x)).2.2 :=
    ⟨good_single _ hL _ _ _, good_single _ hL _ _ _, good_single _ hL' _ _ _⟩
  obtain ⟨hf, hl⟩ := full_layout hgood (by rw [full_trip hL hL']; simp [trip])
  rw [full_trip hL hL', layoutOf_trip] at hf hl
  have hk := keeps_layout hL hL' hb.dim hdd (hb.integrand s.theta s.dataDim) cfg.name n B
  have ht : timesOf s = some w.times := by
    unfold timesOf
    cases w with
    | upTo t => rw [hw.2]; exact hw.1
    | vector v => rw [hw.2]; rfl
  have ha : assembleTensor [(cfg.name, enc c.lay "" n q)] [(cfg.name, enc c.lay "p_" n p)] [(cfg.name, enc c.dataLay "" B x)]
      = .ok (vec (trip c.lay c.dataLay cfg.name (q, p, x)), plansOf c.lay c.dataLay cfg.name n B) := assemble_layout hf hl
  have hr := (run_eq hf hk (M w.times) [trip c.lay c.dataLay cfg.name (q, p, x)] (by simpa using hl) s0).1
  rw [List.map_singleton, ← vec_length hl] at hr
  unfold memoryAfter
  simp only [Block.checkInputs, Block.passThrough, Block.chooseData, hX, bind, Except.bind, Dicts.merge, Dicts.single, hq, hp, Block.padData, SDict.set, Block.initial, Option.isNone_some,
    Option.isNone_none, Bool.false_eq_true, false_and, if_false, ne_eq, not_true_eq_false, ha, ht]
  rw [hr]
  cases runDict (plansOf c.lay c.dataLay cfg.name n B) (ofIntegrand (icfg s.theta s.dataDim)) (M w.times) [trip c.lay c.dataLay cfg.name (q, p, x)] s0 <;> rfl

/-! ## Fixed-grid solvers -/

theorem lastAtZero_stage {ι β : Type} [Fintype ι] [Fintype β] [Fintype K] [Fintype K'] (fld : ℝ → Sys2 ι β K K' → Sys2 ι β K K') (t h : ℝ) (cur : List ℝ → ℝ)
    (next : List (List ℝ → ℝ) → ℕ → Method ℝ ℝ) (s : ℝ × List ℝ) (ss : List (ℝ × List ℝ)) (ks : List (List ℝ → ℝ)) (n : ℕ) (zs : List (Sys2 ι β K K')) (a : Option (Sys2 ι β K K')) :
    lastAtZero fld (stagesProg t h cur next (s :: ss) ks n) zs a
      = lastAtZero fld (stagesProg t h cur next ss (ks ++ [fun rs => rs.getD n 0]) (n + 1))
          (zs ++ [fld (t + s.1 * h) (combine (fun rs => cur rs + h * Evolution.comb s.2 (ks.map fun k => k rs)) zs)])
          (if t + s.1 * h = 0 then some (combine (fun rs => cur rs + h * Evolution.comb s.2 (ks.map fun k => k rs)) zs) else a) := rfl

/-- Evaluations at other times do not count. -/
theorem last_stages {ι β : Type} [Fintype ι] [Fintype β] [Fintype K] [Fintype K'] (fld : ℝ → Sys2 ι β K K' → Sys2 ι β K K') (t h : ℝ) (cur : List ℝ → ℝ)
    (next : List (List ℝ → ℝ) → ℕ → Method ℝ ℝ) (ss : List (ℝ × List ℝ)) (hs : ∀ s ∈ ss, t + s.1 * h ≠ 0) (ks : List (List ℝ → ℝ)) (n : ℕ) (zs : List (Sys2 ι β K K')) (a : Option (Sys2 ι β K K')) :
    ∃ ks' n' zs', lastAtZero fld (stagesProg t h cur next ss ks n) zs a = lastAtZero fld (next ks' n') zs' a := by
  induction ss generalizing ks n zs with
  | nil => exact ⟨ks, n, zs, rfl⟩
  | cons s ss ih =>
    rw [lastAtZero_stage, if_neg (hs s (by simp))]
    exact ih (fun s' h' => hs s' (by simp [h'])) _ _ _

/-- A method whose first stage is at the beginning of a step and whose other stages are later in it. -/
def Explicit (T : Tableau) : Prop := ∃ ss, T.stages = (0, []) :: ss ∧ ∀ s ∈ ss, 0 < s.1

theorem explicit_methods : Explicit Converge.euler ∧ Explicit Converge.midpoint ∧ Explicit Converge.rk4 ∧ Explicit rk38 := by
  refine ⟨⟨[], rfl, by simp⟩, ⟨_, rfl, by simp⟩, ⟨_, rfl, ?_⟩, ⟨_, rfl, ?_⟩⟩ <;>
  · intro s hs
    simp only [List.mem_cons, List.not_mem_nil, or_false] at hs
    rcases hs with rfl | rfl | rfl <;> norm_num

theorem last_loop {ι β : Type} [Fintype ι] [Fintype β] [Fintype K] [Fintype K'] (fld : ℝ → Sys2 ι β K K' → Sys2 ι β K K') {T : Tableau} (hT : Explicit T) {h : ℝ} (g : List ℝ) (n : ℕ) (cur : List ℝ → ℝ) (t : ℝ)
    (ht : 0 < t) (hg : Mesh h t g) (req : List ℝ) (outs : List (List ℝ → ℝ)) (zs : List (Sys2 ι β K K')) (a : Option (Sys2 ι β K K')) :
    lastAtZero fld (solverLoop T g n cur t req outs) zs a = a := by
  induction g generalizing n cur t req outs zs with
  | nil => rfl
  | cons t' g ih =>
    obtain ⟨h1, _, h2⟩ := hg
    obtain ⟨ss, hs, hc⟩ := hT
    unfold solverLoop
    obtain ⟨ks', n', zs', e⟩ := last_stages fld t (t' - t) cur (fun ks n' =>
      solverLoop T g n' (fun rs => cur rs + (t' - t) * Evolution.comb T.weights (ks.map fun k => k rs)) t' (req.dropWhile (· ≤ t'))
        (outs ++ (req.takeWhile (· ≤ t')).map fun τ rs => interp t t' (cur rs) (cur rs + (t' - t) * Evolution.comb T.weights (ks.map fun k => k rs)) τ)) T.stages (by
      intro s hs'
      rw [hs] at hs'
      have : 0 ≤ s.1 := by
        rcases List.mem_cons.1 hs' with rfl | h'
        · exact le_rfl
        · exact (hc s h').le
      nlinarith [mul_nonneg this (sub_nonneg.2 h1.le)]) [] n zs a
    rw [e]
    exact ih _ _ _ (ht.trans h1) h2 _ _ _

/-- From time 0 on, the last evaluation at time 0 is the first one, at the initial values. -/
theorem last_solver {ι β : Type} [Fintype ι] [Fintype β] [Fintype K] [Fintype K'] (fld : ℝ → Sys2 ι β K K' → Sys2 ι β K K') {T : Tableau} (hT : Explicit T) {h : ℝ} (G : List ℝ → List ℝ) (ts : List ℝ)
    (hi : (0 :: ts).Pairwise (· < ·)) (hts : ts ≠ []) (hG : Suits h G 0 ts) (z : Sys2 ι β K K') (a : Option (Sys2 ι β K K')) :
    lastAtZero fld (solver T G (0 :: ts)) [z] a = some z := by
  obtain ⟨g, h1, h2, h3⟩ := hG
  unfold solver
  dsimp only
  rw [if_neg (by simp [(increasing_iff _).2 hi]), h1, if_neg (by simp [h2])]
  cases g with
  | nil =>
    cases ts with
    | nil => exact absurd rfl hts
    | cons t' ts =>
      rw [List.getLast?_cons_cons] at h2
      have hm : (0 : ℝ) ∈ t' :: ts := List.mem_of_getLast? h2.symm
      exact absurd (List.rel_of_pairwise_cons hi hm) (lt_irrefl _)
  | cons t' g =>
    obtain ⟨h4, _, h5⟩ := h3
    obtain ⟨ss, hs, hc⟩ := hT
    rw [List.tail_cons]
    unfold solverLoop
    rw [hs]
    rw [lastAtZero_stage, if_pos (by ring)]
    have hz : combine (fun rs : List ℝ => rs.getD 0 0 + (t' - 0) * Evolution.comb [] (([] : List (List ℝ → ℝ)).map fun k => k rs)) [z] = z := by
      simp [combine, Evolution.comb]
    rw [hz]
    obtain ⟨ks', n', zs', e⟩ := last_stages fld 0 (t' - 0) (fun rs : List ℝ => rs.getD 0 0) _ ss (by
      intro s hs'
      have := hc s hs'
      have : 0 < s.1 * (t' - 0) := mul_pos this (by linarith)
      linarith) _ _ _ _
    rw [e]
    exact last_loop fld ⟨ss, hs, hc⟩ g _ _ _ h4 h5 _ _ _ _

end Verif.Gradcheck
