import Verif.LongRange.Blocks
import Verif.Whole.Instance

/-!
# C90: validation over a long range, in chunks, with shooting blocks
-/

namespace Verif.LongRange
open Verif Verif.Chunks Verif.Tensor Verif.Evolution Verif.Flow Verif.Whole Verif.Converge Verif.Models

variable {σ τ Y Z K K' P R H D Θ Rb Q : Type}

theorem direct {B : Blk σ τ Y Q} {Inv : σ → Prop} {ok : List τ → Prop} {e : Z → Y} {F : List τ → Z → List Z} (hB : Answers B Inv ok e F) {t : List τ} (ht : t ≠ []) (hok : ok t) (zero : Y) (z : Z)
    (chunk : Int) (zf : Bool) (fuel : Nat) (s : σ) (hs : Inv s) : ∃ s' p, computeValidation fuel B zero t (e z) false chunk zf s = some (s', .ok ((F t z).map e, p)) ∧ Inv s' := by
  obtain ⟨s', h1, h2⟩ := hB.call s t z hs hok ht
  refine ⟨s', B.penalty s', ?_, h2⟩
  unfold computeValidation
  rw [if_neg (by simp), h1]

section Blocks
variable [Fintype K] [Fintype K'] {c : Cls K K' P R} {icfg : Θ → Nat → Integrand.Cfg ℝ (Trip ℝ) (Par P R) (Concat.TDicts ℝ) ℝ R H D}
  {s0 : Integrand.St ℝ (Par P R) ℝ H D × (Nat → R × R)} {cfg : Block.Cfg ℝ ℝ Θ Rb} {T : Tableau}

theorem answers_particles (hL : c.lay.Ok) (hL' : c.dataLay.Ok) (hi : Indep c) (hb : IsBlock c (solver T id) icfg s0 cfg) (hu : s0.1.useRnn = false) (he : s0.1.external = false) (r : Rb)
    (pen : Block.St ℝ ℝ Θ → Q) {n B : Nat} (q p : Fin n × K → ℝ) {sh : List Nat} (hkey : (cfg.outKey, sh) ∈ c.dataLay.names) {restart : (Fin B × K' → ℝ) → Fin B × K' → ℝ}
    (hr : Restarts c.dataLay cfg.outKey sh B cfg.initialData restart) (r0 : R) :
    Answers (asBlk cfg r pen) (HasParticles c.lay c.dataLay q p) (fun ts => ts.Pairwise (· < ·)) (picture c.dataLay cfg.outKey sh B)
      fun ts x => (solveAt (increment T (field2 c.rhs c.dataRhs (modeOf c n r0))) (q, p, restart x) ts).map fun y => y.2.2 :=
  answers hL' r pen hkey hr fun _ _ _ _ hs hw hX => C67_forward hL hL' hi hb hu he hs.2.2 hw hs.1 hs.2.1 hX hkey r r0

theorem answers_rnn (hL : c.lay.Ok) (hL' : c.dataLay.Ok) (hT : T.Consistent) (hb : IsBlock c (solver T id) icfg s0 cfg) (hu : s0.1.useRnn = true) (he : s0.1.external = false) (hn : s0.1.cache = none)
    (r : Rb) (pen : Block.St ℝ ℝ Θ → Q) {n B : Nat} (q p : Fin n × K → ℝ) {sh : List Nat} (hkey : (cfg.outKey, sh) ∈ c.dataLay.names) {restart : (Fin B × K' → ℝ) → Fin B × K' → ℝ}
    (hr : Restarts c.dataLay cfg.outKey sh B cfg.initialData restart) :
    Answers (asBlk cfg r pen) (HasParticles c.lay c.dataLay q p) (fun ts => ts.Pairwise (· < ·)) (picture c.dataLay cfg.outKey sh B)
      fun ts x => solveAt (increment T fun _ => c.dataRhs (Fin B) (c.par n (s0.2 0).1 q p)) (restart x) ts := by
  have h := answers (T := T) (L := c.lay) (q := q) (p := p) hL' r pen hkey hr (fld := field2 c.rhs c.dataRhs (modeAt c n (c.par n (s0.2 0).1 q p, (s0.2 0).1))) fun s X x ts hs hw hX =>
    C67_forward_rnn hL hL' hb hu he hn hs.2.2 hw hs.1 hs.2.1 hX hkey r _ fun z hz => by rw [firstEval_solver hT id _ _ z hz]
  have e : (fun ts x => (solveAt (increment T (field2 c.rhs c.dataRhs (modeAt c n (c.par n (s0.2 0).1 q p, (s0.2 0).1)))) (q, p, restart x) ts).map fun y => y.2.2) =
      fun ts x => solveAt (increment T fun _ => c.dataRhs (Fin B) (c.par n (s0.2 0).1 q p)) (restart x) ts := by
    funext ts x
    exact solveAt_map (V := Sys2 (Fin n) (Fin B) K K') (LinearMap.snd ℝ _ _ ∘ₗ LinearMap.snd ℝ _ _) (fun _ _ => rfl) T _ ts
  rw [e] at h
  exact h

/-- C90: long range validation of a block whose parameters come from particles.  In chunks, every chunk is what the block predicts for the times of the chunk, with its particles where they are
at the start, from the last value predicted so far (as far as it is returned; everything else starts anew).  Not in chunks, it is one prediction for all times. -/
theorem C90_pieces (hL : c.lay.Ok) (hL' : c.dataLay.Ok) (hi : Indep c) (hb : IsBlock c (solver T id) icfg s0 cfg) (hu : s0.1.useRnn = false) (he : s0.1.external = false) (r : Rb)
    (pen : Block.St ℝ ℝ Θ → Q) {n B : Nat} (q p : Fin n × K → ℝ) {sh : List Nat} (hkey : (cfg.outKey, sh) ∈ c.dataLay.names) {restart : (Fin B × K' → ℝ) → Fin B × K' → ℝ}
    (hr : Restarts c.dataLay cfg.outKey sh B cfg.initialData restart) (r0 : R) {t : List ℝ} (ht : t ≠ []) (hinc : t.Pairwise (· < ·)) (zero : Tensor ℝ) (x : Fin B × K' → ℝ) (chunk : Int)
    (hc : 2 ≤ chunk) (zf : Bool) (fuel : Nat) (hf : t.length < fuel) (s : Block.St ℝ ℝ Θ) (hs : HasParticles c.lay c.dataLay q p s) :
    ∃ cs s1 s2 p1 p2, getTimeChunks fuel t chunk zf = some cs ∧
      computeValidation fuel (asBlk cfg r pen) zero t (picture c.dataLay cfg.outKey sh B x) true chunk zf s =
        some (s1, .ok ((glue (follow (fun ts x => (solveAt (increment T (field2 c.rhs c.dataRhs (modeOf c n r0))) (q, p, restart x) ts).map fun y => y.2.2) x cs)).map
          (picture c.dataLay cfg.outKey sh B), p1)) ∧
      computeValidation fuel (asBlk cfg r pen) zero t (picture c.dataLay cfg.outKey sh B x) false chunk zf s =
        some (s2, .ok ((solveAt (increment T (field2 c.rhs c.dataRhs (modeOf c n r0))) (q, p, restart x) t).map fun y => picture c.dataLay cfg.outKey sh B y.2.2, p2)) ∧
      HasParticles c.lay c.dataLay q p s1 ∧ HasParticles c.lay c.dataLay q p s2 := by
  have hA := answers_particles hL hL' hi hb hu he r pen q p hkey hr r0
  obtain ⟨cs, s1, p1, h1, h2, h3⟩ := computeValidation_follow hA ht (fun c hsub => hinc.sublist hsub) zero x chunk hc zf fuel hf s hs
  obtain ⟨s2, p2, h4, h5⟩ := direct hA ht hinc zero x chunk zf fuel s hs
  rw [List.map_map] at h4
  exact ⟨cs, s1, s2, p1, p2, h1, h2, h4, h3, h5⟩

/-- C90 in RNN mode, where the parameters are computed once from the initial particles: as `C90_pieces`, and the particles do not matter after that. -/
theorem C90_pieces_rnn (hL : c.lay.Ok) (hL' : c.dataLay.Ok) (hT : T.Consistent) (hb : IsBlock c (solver T id) icfg s0 cfg) (hu : s0.1.useRnn = true) (he : s0.1.external = false)
    (hn : s0.1.cache = none) (r : Rb) (pen : Block.St ℝ ℝ Θ → Q) {n B : Nat} (q p : Fin n × K → ℝ) {sh : List Nat} (hkey : (cfg.outKey, sh) ∈ c.dataLay.names)
    {restart : (Fin B × K' → ℝ) → Fin B × K' → ℝ} (hr : Restarts c.dataLay cfg.outKey sh B cfg.initialData restart) {t : List ℝ} (ht : t ≠ []) (hinc : t.Pairwise (· < ·)) (zero : Tensor ℝ)
    (x : Fin B × K' → ℝ) (chunk : Int) (hc : 2 ≤ chunk) (zf : Bool) (fuel : Nat) (hf : t.length < fuel) (s : Block.St ℝ ℝ Θ) (hs : HasParticles c.lay c.dataLay q p s) :
    ∃ cs s1 s2 p1 p2, getTimeChunks fuel t chunk zf = some cs ∧
      computeValidation fuel (asBlk cfg r pen) zero t (picture c.dataLay cfg.outKey sh B x) true chunk zf s =
        some (s1, .ok ((glue (follow (fun ts x => solveAt (increment T fun _ => c.dataRhs (Fin B) (c.par n (s0.2 0).1 q p)) (restart x) ts) x cs)).map
          (picture c.dataLay cfg.outKey sh B), p1)) ∧
      computeValidation fuel (asBlk cfg r pen) zero t (picture c.dataLay cfg.outKey sh B x) false chunk zf s =
        some (s2, .ok ((solveAt (increment T fun _ => c.dataRhs (Fin B) (c.par n (s0.2 0).1 q p)) (restart x) t).map (picture c.dataLay cfg.outKey sh B), p2)) ∧
      HasParticles c.lay c.dataLay q p s1 ∧ HasParticles c.lay c.dataLay q p s2 := by
  have hA := answers_rnn hL hL' hT hb hu he hn r pen q p hkey hr
  obtain ⟨cs, s1, p1, h1, h2, h3⟩ := computeValidation_follow hA ht (fun c hsub => hinc.sublist hsub) zero x chunk hc zf fuel hf s hs
  obtain ⟨s2, p2, h4, h5⟩ := direct hA ht hinc zero x chunk zf fuel s hs
  exact ⟨cs, s1, s2, p1, p2, h1, h2, h4, h3, h5⟩

theorem chunks_false {t : List τ} {chunk : Int} (hc : 2 ≤ chunk) {fuel : Nat} (hf : t.length < fuel) {cs : List (List τ)} (h : getTimeChunks fuel t chunk false = some cs) :
    glue cs = t ∧ cs.IsChain Overlap := by
  obtain ⟨out, h1, _, h2, h3, _⟩ := C45_chunks t chunk hc fuel hf
  rw [h] at h1
  cases h1
  exact ⟨h2, h3⟩

/-- C90: in RNN mode, when a sample has nothing but what is returned (the simple class), chunks make no difference: the trajectory is that of one prediction for all times, whatever the times
are, if chunks keep their times. -/
theorem C90_rnn_agree (hL : c.lay.Ok) (hL' : c.dataLay.Ok) (hT : T.Consistent) (hb : IsBlock c (solver T id) icfg s0 cfg) (hu : s0.1.useRnn = true) (he : s0.1.external = false)
    (hn : s0.1.cache = none) (r : Rb) (pen : Block.St ℝ ℝ Θ → Q) {n B : Nat} (q p : Fin n × K → ℝ) {sh : List Nat} (hkey : (cfg.outKey, sh) ∈ c.dataLay.names)
    (hr : Restarts c.dataLay cfg.outKey sh B cfg.initialData fun x => x) {t : List ℝ} (ht : t ≠ []) (hinc : t.Pairwise (· < ·)) (zero : Tensor ℝ)
    (x : Fin B × K' → ℝ) (chunk : Int) (hc : 2 ≤ chunk) (fuel : Nat) (hf : t.length < fuel) (s : Block.St ℝ ℝ Θ) (hs : HasParticles c.lay c.dataLay q p s) (zf : Bool)
    (hz : zf = true → ∃ a h m, 0 < h ∧ t = grid a h m) :
    ∃ s1 s2 p1 p2, computeValidation fuel (asBlk cfg r pen) zero t (picture c.dataLay cfg.outKey sh B x) true chunk zf s =
        some (s1, .ok ((solveAt (increment T fun _ => c.dataRhs (Fin B) (c.par n (s0.2 0).1 q p)) x t).map (picture c.dataLay cfg.outKey sh B), p1)) ∧
      computeValidation fuel (asBlk cfg r pen) zero t (picture c.dataLay cfg.outKey sh B x) false chunk zf s =
        some (s2, .ok ((solveAt (increment T fun _ => c.dataRhs (Fin B) (c.par n (s0.2 0).1 q p)) x t).map (picture c.dataLay cfg.outKey sh B), p2)) := by
  obtain ⟨cs, s1, s2, p1, p2, h1, h2, h3, _, _⟩ := C90_pieces_rnn hL hL' hT hb hu he hn r pen q p hkey hr ht hinc zero x chunk hc zf fuel hf s hs
  refine ⟨s1, s2, p1, p2, ?_, h3⟩
  rw [h2]
  obtain ⟨ds, g1, _, g2, _⟩ := getTimeChunks_ok t ht chunk hc false fuel hf
  obtain ⟨g3, g4⟩ := chunks_false hc hf g1
  have hglue := follow_glue (increment T fun _ : ℝ => c.dataRhs (Fin B) (c.par n (s0.2 0).1 q p)) ds x (fun d hd => (g2 d hd).2) g4
  rw [g3] at hglue
  suffices follow (fun ts x => solveAt (increment T fun _ : ℝ => c.dataRhs (Fin B) (c.par n (s0.2 0).1 q p)) x ts) x cs =
      follow (fun ts x => solveAt (increment T fun _ : ℝ => c.dataRhs (Fin B) (c.par n (s0.2 0).1 q p)) x ts) x ds by
    rw [this, hglue]
  cases hzf : zf with
  | false =>
    rw [hzf, g1] at h1
    cases h1
    rfl
  | true =>
    obtain ⟨a, h, m, hh, rfl⟩ := hz hzf
    obtain ⟨k, rfl⟩ : ∃ c : Nat, chunk = c := ⟨chunk.toNat, by omega⟩
    have hk : 2 ≤ k := by omega
    have hw : ∀ z, getTimeChunks fuel (grid a h m) (k : Int) z = some ((windows k (grid a h m).length fuel 0).map (chunkAt (grid a h m) z)) := by
      intro z
      unfold getTimeChunks
      rw [if_neg (by omega), Int.toNat_natCast, whileLoop_windows (grid a h m) k hk z fuel 0 [] (by omega) (by omega)]
      rfl
    rw [hzf, hw] at h1
    rw [hw] at g1
    cases h1
    cases g1
    refine follow_congr _ _ _ ?_ x
    rw [List.forall₂_map_left_iff, List.forall₂_map_right_iff, List.forall₂_same]
    intro w hw'
    have hin := (windows_inside k (grid a h m).length fuel 0 (by omega) (by omega) w hw').1
    rw [grid_length] at hin
    intro z
    have e1 : chunkAt (grid a h m) true w = grid a h w.2 := by
      have := slice_grid a h m 0 w.2 (by omega)
      rw [Nat.zero_add, zero_nsmul, add_zero] at this
      exact this
    have e2 : chunkAt (grid a h m) false w = grid (a + w.1 • h) h w.2 := slice_grid a h m w.1 w.2 hin
    rw [e1, e2]
    exact solveAt_grid _ (increment_autonomous T _) a _ h w.2 z
where
  solveAt_grid {V : Type} [AddCommGroup V] [Module ℝ V] (Φ : ℝ → ℝ → V → V) (hΦ : ∀ h t t' y, Φ h t y = Φ h t' y) (a b h : ℝ) (m : Nat) (y : V) : solveAt Φ y (grid a h m) = solveAt Φ y (grid b h m) := by
    have cons : ∀ (a : ℝ) (m : Nat), grid a h (m + 1) = a :: grid (a + h) h m := by
      intro a m
      unfold grid
      rw [List.range_succ_eq_map, List.map_cons, List.map_map, zero_nsmul, add_zero]
      congr 1
      apply List.map_congr_left
      intro i _
      show a + (i + 1) • h = a + h + i • h
      rw [succ_nsmul]
      ring
    have key : ∀ (m : Nat) (a b : ℝ) (y : V), gridValues Φ a y (grid (a + h) h m) = gridValues Φ b y (grid (b + h) h m) := by
      intro m
      induction m with
      | zero => intro a b y; rfl
      | succ m ih =>
        intro a b y
        rw [cons, cons, gridValues, gridValues, ih (a + h) (b + h)]
        rw [show a + h - a = h by ring, show b + h - b = h by ring, hΦ h a b y]
    cases m with
    | zero => rfl
    | succ m =>
      rw [cons, cons]
      exact key m a b y

end Blocks

end Verif.LongRange
