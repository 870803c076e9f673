import Verif.LongRange.Props

/-!
# C90: the classes of the library, and blocks for which chunks matter
-/

namespace Verif.LongRange
open Verif Verif.Chunks Verif.Tensor Verif.Evolution Verif.Flow Verif.Whole Verif.Converge Verif.Models

/-! ## Values given back to the block -/

theorem picture_elem {K' : Type} {L' : Lay K'} (hL' : L'.Ok) {key : String} {sh : List Nat} (hkey : (key, sh) ∈ L'.names) {X : Tensor ℝ} (hw : X.WF) {B : Nat} (hs : X.shape = B :: sh)
    (x : Fin B × K' → ℝ) (h : ∀ (b : Fin B) k, L'.key k = key → (X.get? (b.1 :: L'.idx k)).getD 0 = x (b, k)) : X = picture L' key sh B x := by
  rw [← tab_get? hw 0, hs]
  unfold picture tab
  congr 1
  apply tabData_congr
  intro idx hi
  cases hi with
  | @cons i _ is _ h1 h2 =>
    obtain ⟨k, e1, e2, e3⟩ := hL'.onto _ hkey is h2
    rw [value_coord x e1 ⟨i, h1⟩, ← h ⟨i, h1⟩ k e2, e3]

theorem picture_get {K' : Type} {L' : Lay K'} (hL' : L'.Ok) {key : String} {sh : List Nat} (hkey : (key, sh) ∈ L'.names) {B : Nat} (x : Fin B × K' → ℝ) (b : Fin B) (k : K') (hk : L'.key k = key) :
    (picture L' key sh B x).get? (b.1 :: L'.idx k) = some (x (b, k)) := by
  obtain ⟨s, hs, hv, hc⟩ := hL'.into k
  rw [hk] at hs hc
  have e : s = sh := by
    have h1 := (SDict.get?_eq_some_iff hL'.sorted).2 hs
    have h2 := (SDict.get?_eq_some_iff hL'.sorted).2 hkey
    rw [h1] at h2
    exact Option.some.inj h2
  subst e
  unfold picture
  rw [get?_tab (.cons b.2 hv), value_coord _ hc]

theorem picture_one (X : Tensor ℝ) (hw : X.WF) (B c d : Nat) (hs : X.shape = [B, c, d]) : X = picture (layOne c d) "q1" [c, d] B fun k => elem X k.1 k.2.1 k.2.2 :=
  picture_elem (layOne_ok c d) (by simp [layOne]) hw hs _ fun _ _ _ => rfl

theorem picture_two (X : Tensor ℝ) (hw : X.WF) (B c d e : Nat) (hs : X.shape = [B, c, d]) : X = picture (layTwo c d e) "q1" [c, d] B (dataTwo X B c d e) := by
  refine picture_elem (layTwo_ok c d e) (by simp [layTwo]) hw hs _ fun b k hk => ?_
  rcases k with k | k
  · rfl
  · exact absurd hk (by simp [layTwo])

/-- C90: what a returned value becomes as input.  For the simple class it is the same; for the classes with `q1` and `q2` the second variable is forgotten and starts again at zero. -/
theorem C90_restarts (cfg : Shapes.Cfg) (l : Shapes.Learned ℝ) (B c d : Nat) :
    Restarts (layOne c d) "q1" [c, d] B (Shapes.initialData .simple cfg .zero l) (fun x => x) ∧
    ∀ cls ∈ [Shapes.Cls.upDown, .universal, .general, .periodic, .dampenedQ2],
      Restarts (layTwo c d (d * cfg.inflation)) "q1" [c, d] B (Shapes.initialData cls cfg .zero l) forgetQ2 := by
  refine ⟨⟨fun x => ?_, fun _ _ _ _ => rfl⟩, fun cls hcls => ⟨fun x => ?_, fun x b k hk => ?_⟩⟩
  · rw [(C67_initial cfg l (picture (layOne c d) "q1" [c, d] B x) (tab_wf _ _) B c d rfl).1]
    congr 2
    funext ⟨b, k⟩
    have := picture_get (layOne_ok c d) (by simp [layOne]) x b k rfl (key := "q1") (sh := [c, d])
    show ((picture (layOne c d) "q1" [c, d] B x).get? (b.1 :: (layOne c d).idx k)).getD 0 = _
    rw [this]
    rfl
  · rw [(C67_initial cfg l (picture (layTwo c d (d * cfg.inflation)) "q1" [c, d] B x) (tab_wf _ _) B c d rfl).2.1 cls hcls]
    congr 2
    funext ⟨b, k⟩
    rcases k with k | k
    · have := picture_get (layTwo_ok c d (d * cfg.inflation)) (by simp [layTwo]) x b (.inl k) rfl (key := "q1") (sh := [c, d])
      show ((picture (layTwo c d (d * cfg.inflation)) "q1" [c, d] B x).get? (b.1 :: (layTwo c d (d * cfg.inflation)).idx (.inl k))).getD 0 = _
      rw [this]
      rfl
    · rfl
  · rcases k with k | k
    · rfl
    · exact absurd hk (by simp [layTwo])

/-! ## Particles move -/

theorem increment_euler {V : Type} [AddCommGroup V] [Module ℝ V] (f : ℝ → V → V) (h t : ℝ) (y : V) : increment Converge.euler f h t y = f t y := by
  simp [increment, Converge.euler, slopes, comb]

theorem three {V : Type} [AddCommGroup V] [Module ℝ V] (f : ℝ → V → V) (y : V) :
    solveAt (increment Converge.euler f) y [0, 1, 2] = [y, y + f 0 y, y + f 0 y + f 1 (y + f 0 y)] ∧ solveAt (increment Converge.euler f) y [0, 1] = [y, y + f 0 y] ∧
    solveAt (increment Converge.euler f) y [1, 2] = [y, y + f 1 y] := by
  refine ⟨?_, ?_, ?_⟩ <;> simp only [solveAt, gridValues, increment_euler] <;> norm_num

theorem chunks_three (zf : Bool) : getTimeChunks 4 [(0 : ℝ), 1, 2] 2 zf = some [[0, 1], if zf then [0, 1] else [1, 2]] := by
  cases zf <;> rfl

/-- One number per sample. -/
def spread {B : Nat} {J : Type} (x : Fin B → ℝ) : Fin B × J → ℝ := fun k => x k.1

/-- One particle, one number per sample. -/
def simpleSys {B : Nat} (q p : ℝ) (x : Fin B → ℝ) : Sys2 (Fin 1) (Fin B) (Fin 1 × Fin 1) (Fin 1 × Fin 1) := (fun _ => q, fun _ => p, spread x)

theorem simple_step {B : Nat} (t q p : ℝ) (x : Fin B → ℝ) : simpleSys q p x + field2 demoCls.rhs demoCls.dataRhs (modeOf demoCls 1 ()) t (simpleSys q p x) =
    simpleSys (q + (q * (p * q) + p)) (p - p * (p * q)) fun b => x b + (x b * (p * q) + p) := by
  have h := demo_field B t q p x
  show _ + field2 demoCls.rhs demoCls.dataRhs (modeOf demoCls 1 ()) t ((fun _ => q, fun _ => p, fun k => x k.1) : Sys (Fin 1) (Fin B) (Fin 1 × Fin 1)) = _
  rw [show field2 demoCls.rhs demoCls.dataRhs (modeOf demoCls 1 ()) t ((fun _ => q, fun _ => p, fun k => x k.1) : Sys (Fin 1) (Fin B) (Fin 1 × Fin 1)) = _ from h]
  rfl

/-- Chunks make a difference: a block of the simple class whose parameters come from its particle.  Predicted in one go, the particle moves on and the samples stop after the first
step; in chunks of two times the particle starts anew with every chunk, and the samples go on. -/
theorem C90_particles_differ (l : List ℝ) (zero : Tensor ℝ) (zf : Bool) :
    ∃ s1 s2 vs ws, computeValidation 4 (asBlk (demoCfg (solver Converge.euler id)) () fun _ => ()) zero [0, 1, 2] (demoInput l) true 2 zf demoSt = some (s1, .ok (vs, ())) ∧
      computeValidation 4 (asBlk (demoCfg (solver Converge.euler id)) () fun _ => ()) zero [0, 1, 2] (demoInput l) false 2 zf demoSt = some (s2, .ok (ws, ())) ∧
      ∀ b : Fin l.length, vs.map (fun v => v.get? [b, 0, 0]) = [some l[b], some (2 * l[b] + 1), some (4 * l[b] + 3)] ∧
        ws.map (fun v => v.get? [b, 0, 0]) = [some l[b], some (2 * l[b] + 1), some (2 * l[b] + 1)] := by
  have hin : demoInput l = picture demoCls.dataLay (demoCfg (solver Converge.euler id)).outKey [1, 1] l.length (spread fun b => l[b]) := by
    have := picture_one (demoInput l) (by simp [Tensor.WF, demoInput, vol]) l.length 1 1 rfl
    rw [demo_elem] at this
    exact this
  obtain ⟨cs, s1, s2, p1, p2, h1, h2, h3, _, _⟩ := C90_pieces (c := demoCls) (layOne_ok 1 1) (layOne_ok 1 1) (indep_analytic _ _ _ _ _) (demo_isBlock (solver Converge.euler id)) rfl rfl () (fun _ => ())
    (fun _ => 1) (fun _ => 1) (sh := [1, 1]) (by simp [layOne, demoCfg, demoCls, analyticCls]) (C90_restarts ⟨1, 1, .num 1, 1, 3⟩ ⟨[], fun _ => [], fun _ => []⟩ l.length 1 1).1 () (t := [0, 1, 2])
    (by simp) (by norm_num) zero (spread fun b => l[b]) 2 (by omega) zf 4 (by simp) demoSt ⟨rfl, rfl, ((C67_layouts 1 1 1).2 2 le_rfl).1⟩
  rw [chunks_three] at h1
  cases h1
  rw [← hin] at h2 h3
  refine ⟨s1, s2, _, _, h2, h3, fun b => ?_⟩
  have hget : ∀ x : Fin l.length → ℝ, (picture demoCls.dataLay (demoCfg (solver Converge.euler id)).outKey [1, 1] l.length (spread x)).get? [b.1, 0, 0] = some (x b) := fun x =>
    picture_get (L' := layOne 1 1) (layOne_ok 1 1) (by simp [layOne]) (spread x) b (0, 0) rfl (key := "q1") (sh := [1, 1])
  generalize hF : field2 demoCls.rhs demoCls.dataRhs (modeOf demoCls 1 ()) = F
  have step : ∀ (t q p : ℝ) (x : Fin l.length → ℝ), simpleSys q p x + F t (simpleSys q p x) = simpleSys (q + (q * (p * q) + p)) (p - p * (p * q)) fun b => x b + (x b * (p * q) + p) := by
    intro t q p x
    rw [← hF]
    exact simple_step t q p x
  have short : ∀ (x : Fin l.length → ℝ) (zf : Bool), (solveAt (increment Converge.euler F) (simpleSys 1 1 x) (if zf then [0, 1] else [1, 2])).map (fun y => y.2.2) =
      [spread x, spread fun b => x b + (x b * (1 * 1) + 1)] := by
    intro x zf
    cases zf with
    | true => rw [if_pos rfl, (three _ _).2.1, step]; rfl
    | false => rw [if_neg (by simp), (three _ _).2.2, step]; rfl
  constructor
  · have hg : glue (follow (fun ts x => (solveAt (increment Converge.euler F) ((fun _ => 1, fun _ => 1, x) : Sys2 (Fin 1) (Fin l.length) (Fin 1 × Fin 1) (Fin 1 × Fin 1)) ts).map fun y => y.2.2)
        (spread fun b => l[b]) [[0, 1], if zf then [0, 1] else [1, 2]]) =
        [spread fun b => l[b], spread fun b => l[b] + (l[b] * (1 * 1) + 1), spread fun b => l[b] + (l[b] * (1 * 1) + 1) + ((l[b] + (l[b] * (1 * 1) + 1)) * (1 * 1) + 1)] := by
      have e1 := short (fun b => l[b]) true
      have e2 := short (fun b => l[b] + (l[b] * (1 * 1) + 1)) zf
      rw [if_pos rfl] at e1
      unfold simpleSys at e1 e2
      simp only [follow, e1, List.getLastD_eq_getLast?, List.getLast?_cons_cons, List.getLast?_singleton, Option.getD_some, e2]
      rfl
    rw [hg]
    simp only [List.map_cons, List.map_nil, hget]
    refine congrArg₂ _ rfl (congrArg₂ _ (congrArg some ?_) (congrArg₂ _ (congrArg some ?_) rfl)) <;> ring
  · have e : solveAt (increment Converge.euler F) (simpleSys 1 1 fun b => l[b]) [0, 1, 2] = _ := (three F _).1
    rw [step, step] at e
    show (((solveAt (increment Converge.euler F) (simpleSys 1 1 fun b => l[b]) [0, 1, 2]).map _).map _) = _
    rw [e]
    simp only [List.map_cons, List.map_nil, simpleSys, hget]
    refine congrArg₂ _ rfl (congrArg₂ _ (congrArg some ?_) (congrArg₂ _ (congrArg some ?_) rfl)) <;> ring

/-- For the batch with the single number 0: 0, 1, 3 in chunks, 0, 1, 1 in one go. -/
example : ∃ s1 s2 vs ws, computeValidation 4 (asBlk (demoCfg (solver Converge.euler id)) () fun _ => ()) ⟨[], [0]⟩ [0, 1, 2] (demoInput [0]) true 2 true demoSt = some (s1, .ok (vs, ())) ∧
    computeValidation 4 (asBlk (demoCfg (solver Converge.euler id)) () fun _ => ()) ⟨[], [0]⟩ [0, 1, 2] (demoInput [0]) false 2 true demoSt = some (s2, .ok (ws, ())) ∧ vs ≠ ws := by
  obtain ⟨s1, s2, vs, ws, h1, h2, h3⟩ := C90_particles_differ [0] ⟨[], [0]⟩ true
  refine ⟨s1, s2, vs, ws, h1, h2, ?_⟩
  rintro rfl
  obtain ⟨h4, h5⟩ := h3 ⟨0, by simp⟩
  rw [h4] at h5
  simp at h5

/-! ## Variables that are not returned -/

/-- The up-down class with one number of each kind, without nonlinearity. -/
noncomputable def pairCls : Cls (Two (Fin 1) (Fin 1) (Fin 1)) (Two (Fin 1) (Fin 1) (Fin 1)) (UpDownPar (Fin 1) (Fin 1)) Unit :=
  analyticCls (layTwo 1 1 1) (fun _ => upDown id) (fun _ => upDownParams id) (fun _ => upDownCostate fun _ => 1) fun _ => none

noncomputable def pairInt (dd : Nat) : Integrand.Cfg ℝ (Trip ℝ) (Par (UpDownPar (Fin 1) (Fin 1)) Unit) (Concat.TDicts ℝ) ℝ Unit Unit Unit where
  rule := rule pairCls true 2 dd
  hookFails _ _ := none
  analytic := true
  transpose := false

/-- The integrand before an integration, in RNN mode. -/
def pairMem : Integrand.St ℝ (Par (UpDownPar (Fin 1) (Fin 1)) Unit) ℝ Unit Unit × (Nat → Unit × Unit) := (⟨true, false, none, none, none, [], 0, [], none⟩, fun _ => ((), ()))

noncomputable def pairCfg (M : List ℝ → Method ℝ ℝ) : Block.Cfg ℝ ℝ Unit Unit where
  name := "b"
  concatenate := true
  concatDim := 2
  enlargementDims := none
  enlarge := false
  keepZero := false
  initialData := Shapes.initialData .upDown ⟨1, 1, .num 1, 1, 3⟩ .zero ⟨[], fun _ => [], fun _ => []⟩
  outKey := "q1"
  solve := solveWith M (fun _ dd => ofIntegrand (pairInt dd)) pairMem
  mkState _ _ _ _ := []
  mkCostate _ _ _ _ := []

/-- One particle, all states and costates 1. -/
noncomputable def pairSt : Block.St ℝ ℝ Unit :=
  ⟨true, some [0, 1], none, some (enc (layTwo 1 1 1) "" 1 fun _ => 1), some (enc (layTwo 1 1 1) "p_" 1 fun _ => 1), none, none, [], 2, ()⟩

theorem pair_isBlock (M : List ℝ → Method ℝ ℝ) : IsBlock pairCls M (fun _ dd => pairInt dd) pairMem (pairCfg M) where
  solve := rfl
  concatenate := rfl
  integrand _ _ := ⟨rfl, fun _ _ => rfl, rfl⟩
  dim := ((C67_layouts 1 1 1).2 2 le_rfl).2.1
  key := ⟨[1, 1], by simp [pairCls, analyticCls, layTwo, pairCfg]⟩

/-- Samples with the two numbers. -/
def pairs {B : Nat} (x y : Fin B → ℝ) : Fin B × Two (Fin 1) (Fin 1) (Fin 1) → ℝ
  | (b, .inl _) => x b
  | (b, .inr _) => y b

theorem pair_step {B : Nat} (x y : Fin B → ℝ) : pairs x y + pairCls.dataRhs (Fin B) (pairCls.par 1 () (fun _ => 1) fun _ => 1) (pairs x y) = pairs (fun b => x b + (y b + 1)) fun b => y b + (x b + 1) := by
  funext k
  obtain ⟨b, k | k⟩ := k
  · simp [pairCls, analyticCls, upDown, upDownParams, Models.map, linear, pairs, q1, q2, join, Models.layer, Models.t, mean0, bmm, transpose12, Shooting.divideByWeight]
  · simp [pairCls, analyticCls, upDown, upDownParams, Models.map, linear, pairs, q1, q2, join, Models.layer, Models.t, mean0, bmm, transpose12, Shooting.divideByWeight]

/-- Chunks make a difference even when the parameters do not change: in RNN mode with the up-down class, the variable that is not returned starts again at zero with every chunk. -/
theorem C90_hidden_state_lost (l : List ℝ) (zero : Tensor ℝ) (zf : Bool) :
    ∃ s1 s2 vs ws, computeValidation 4 (asBlk (pairCfg (solver Converge.euler id)) () fun _ => ()) zero [0, 1, 2] (demoInput l) true 2 zf pairSt = some (s1, .ok (vs, ())) ∧
      computeValidation 4 (asBlk (pairCfg (solver Converge.euler id)) () fun _ => ()) zero [0, 1, 2] (demoInput l) false 2 zf pairSt = some (s2, .ok (ws, ())) ∧
      ∀ b : Fin l.length, vs.map (fun v => v.get? [b, 0, 0]) = [some l[b], some (l[b] + 1), some (l[b] + 2)] ∧
        ws.map (fun v => v.get? [b, 0, 0]) = [some l[b], some (l[b] + 1), some (2 * l[b] + 3)] := by
  have hin : demoInput l = picture pairCls.dataLay (pairCfg (solver Converge.euler id)).outKey [1, 1] l.length (pairs (fun b => l[b]) fun _ => 0) := by
    have := picture_two (demoInput l) (by simp [Tensor.WF, demoInput, vol]) l.length 1 1 1 rfl
    refine this.trans (congrArg (picture (layTwo 1 1 1) "q1" [1, 1] l.length) ?_)
    funext k
    obtain ⟨b, k | k⟩ := k
    · exact congrFun (demo_elem l) (b, k)
    · rfl
  obtain ⟨cs, s1, s2, p1, p2, h1, h2, h3, _, _⟩ := C90_pieces_rnn (c := pairCls) (layTwo_ok 1 1 1) (layTwo_ok 1 1 1) (T := Converge.euler) ⟨rfl, by simp [Converge.euler]⟩
    (pair_isBlock (solver Converge.euler id)) rfl rfl rfl () (fun _ => ())
    (fun _ => 1) (fun _ => 1) (sh := [1, 1]) (by simp [layTwo, pairCfg, pairCls, analyticCls])
    ((C90_restarts ⟨1, 1, .num 1, 1, 3⟩ ⟨[], fun _ => [], fun _ => []⟩ l.length 1 1).2 .upDown (by simp)) (t := [0, 1, 2])
    (by simp) (by norm_num) zero (pairs (fun b => l[b]) fun _ => 0) 2 (by omega) zf 4 (by simp) pairSt ⟨rfl, rfl, ((C67_layouts 1 1 1).2 2 le_rfl).2.1⟩
  rw [chunks_three] at h1
  cases h1
  rw [← hin] at h2 h3
  refine ⟨s1, s2, _, _, h2, h3, fun b => ?_⟩
  have hget : ∀ x y : Fin l.length → ℝ, (picture pairCls.dataLay (pairCfg (solver Converge.euler id)).outKey [1, 1] l.length (pairs x y)).get? [b.1, 0, 0] = some (x b) := fun x y =>
    picture_get (L' := layTwo 1 1 1) (layTwo_ok 1 1 1) (by simp [layTwo]) (pairs x y) b (.inl (0, 0)) rfl (key := "q1") (sh := [1, 1])
  generalize hF : (fun _ : ℝ => pairCls.dataRhs (Fin l.length) (pairCls.par 1 (pairMem.2 0).1 (fun _ => 1) fun _ => 1)) = F
  have step : ∀ (t : ℝ) (x y : Fin l.length → ℝ), pairs x y + F t (pairs x y) = pairs (fun b => x b + (y b + 1)) fun b => y b + (x b + 1) := by
    intro t x y
    rw [← hF]
    exact pair_step x y
  have hforget : ∀ x y : Fin l.length → ℝ, forgetQ2 (pairs x y) = pairs x fun _ => 0 := by
    intro x y
    funext k
    obtain ⟨b, k | k⟩ := k <;> rfl
  have short : ∀ (x : Fin l.length → ℝ) (zf : Bool), solveAt (increment Converge.euler F) (pairs x fun _ => 0) (if zf then [0, 1] else [1, 2]) =
      [pairs x fun _ => 0, pairs (fun b => x b + (0 + 1)) fun b => 0 + (x b + 1)] := by
    intro x zf
    cases zf with
    | true => rw [if_pos rfl, (three _ _).2.1, step]
    | false => rw [if_neg (by simp), (three _ _).2.2, step]
  constructor
  · have hg : glue (follow (fun ts x => solveAt (increment Converge.euler F) (forgetQ2 x) ts) (pairs (fun b => l[b]) fun _ => 0) [[0, 1], if zf then [0, 1] else [1, 2]]) =
        [pairs (fun b => l[b]) fun _ => 0, pairs (fun b => l[b] + (0 + 1)) fun b => 0 + (l[b] + 1), pairs (fun b => l[b] + (0 + 1) + (0 + 1)) fun b => 0 + (l[b] + (0 + 1) + 1)] := by
      have e1 := short (fun b => l[b]) true
      have e2 := short (fun b => l[b] + (0 + 1)) zf
      rw [if_pos rfl] at e1
      simp only [follow, hforget, e1, List.getLastD_eq_getLast?, List.getLast?_cons_cons, List.getLast?_singleton, Option.getD_some, e2]
      rfl
    rw [hg]
    simp only [List.map_cons, List.map_nil, hget]
    refine congrArg₂ _ rfl (congrArg₂ _ (congrArg some ?_) (congrArg₂ _ (congrArg some ?_) rfl)) <;> ring
  · have e := (three F (pairs (fun b => l[b]) fun _ => 0)).1
    rw [step, step] at e
    rw [hforget, e]
    simp only [List.map_cons, List.map_nil, hget]
    refine congrArg₂ _ rfl (congrArg₂ _ (congrArg some ?_) (congrArg₂ _ (congrArg some ?_) rfl)) <;> ring

/-! ## Chunks that make no difference -/

/-- The block of `demoCfg` in RNN mode. -/
noncomputable def keepCfg (M : List ℝ → Method ℝ ℝ) : Block.Cfg ℝ ℝ Unit Unit :=
  { demoCfg M with solve := solveWith M (fun _ dd => ofIntegrand (demoInt dd)) (⟨true, false, none, none, none, [], 0, [], none⟩, fun _ => ((), ())) }

/-- For the simple class in RNN mode chunks of any size give what one prediction gives, with the classical Runge-Kutta method and any number of times. -/
example (l : List ℝ) (zero : Tensor ℝ) (m : Nat) (hm : 0 < m) (chunk : Int) (hc : 2 ≤ chunk) (zf : Bool) : ∃ s1 s2 vs p1 p2,
    computeValidation (m + 1) (asBlk (keepCfg (solver rk4 id)) () fun _ => ()) zero (grid 0 (1 / 10) m) (demoInput l) true chunk zf demoSt = some (s1, .ok (vs, p1)) ∧
      computeValidation (m + 1) (asBlk (keepCfg (solver rk4 id)) () fun _ => ()) zero (grid 0 (1 / 10) m) (demoInput l) false chunk zf demoSt = some (s2, .ok (vs, p2)) ∧ vs.length = m := by
  have hb : IsBlock demoCls (solver rk4 id) (fun _ dd => demoInt dd) (⟨true, false, none, none, none, [], 0, [], none⟩, fun _ => ((), ())) (keepCfg (solver rk4 id)) :=
    ⟨rfl, rfl, (demo_isBlock (solver rk4 id)).integrand, (demo_isBlock (solver rk4 id)).dim, (demo_isBlock (solver rk4 id)).key⟩
  have hin : demoInput l = picture demoCls.dataLay (keepCfg (solver rk4 id)).outKey [1, 1] l.length (spread fun b => l[b]) := by
    have := picture_one (demoInput l) (by simp [Tensor.WF, demoInput, vol]) l.length 1 1 rfl
    rw [demo_elem] at this
    exact this
  have hinc : (grid (0 : ℝ) (1 / 10) m).Pairwise (· < ·) := by
    unfold grid
    rw [List.pairwise_map]
    refine List.pairwise_lt_range.imp fun {i j} h => ?_
    have : (i : ℝ) < j := Nat.cast_lt.2 h
    simp only [nsmul_eq_mul]
    linarith
  obtain ⟨s1, s2, p1, p2, h1, h2⟩ := C90_rnn_agree (c := demoCls) (layOne_ok 1 1) (layOne_ok 1 1) (T := rk4) ⟨rfl, by show (1 / 6 + (1 / 3 + (1 / 3 + (1 / 6 + 0))) : ℝ) = 1; norm_num⟩ hb rfl rfl rfl () (fun _ => ()) (fun _ => 1) (fun _ => 1)
    (sh := [1, 1]) (by simp [layOne, keepCfg, demoCfg, demoCls, analyticCls]) (C90_restarts ⟨1, 1, .num 1, 1, 3⟩ ⟨[], fun _ => [], fun _ => []⟩ l.length 1 1).1 (t := grid 0 (1 / 10) m)
    (by intro h; have := congrArg List.length h; simp [grid_length] at this; omega) hinc zero (spread fun b => l[b]) chunk hc (m + 1) (by rw [grid_length]; omega) demoSt
    ⟨rfl, rfl, ((C67_layouts 1 1 1).2 2 le_rfl).1⟩ zf fun _ => ⟨0, 1 / 10, m, by norm_num, rfl⟩
  rw [← hin] at h1 h2
  refine ⟨s1, s2, _, p1, p2, h1, h2, ?_⟩
  obtain ⟨k, rfl⟩ : ∃ k, m = k + 1 := ⟨m - 1, by omega⟩
  rw [List.length_map]
  have hl : (grid (0 : ℝ) (1 / 10) (k + 1)).length = k + 1 := grid_length _ _ _
  cases hg : grid (0 : ℝ) (1 / 10) (k + 1) with
  | nil => rw [hg] at hl; simp at hl
  | cons a as =>
    rw [hg] at hl
    show (gridValues _ a _ as).length = _
    rw [gridValues_length]
    simpa using hl

end Verif.LongRange
