import Verif.Figures.Props
import Mathlib.Algebra.Module.LinearMap.Defs
import Mathlib.Algebra.Module.Pi
import Mathlib.Algebra.Module.Prod
import Mathlib.Algebra.Ring.Rat

/-!
# C86: settings, figures of trajectories and particles, names of the files
-/

namespace Verif.Figures
open Verif

variable {F R : Type}

/-! ## Settings -/

theorem temporal_settings [Inhabited R] (env : Env) (d base block : String) (data : Data R) (v p : Bool) (w : World (Fig R)) :
    ((plotTemporal env d base block data v p w).2 = .ok () → Settings w.backend w.rc (plotTemporal env d base block data v p w).1) ∧
    (v = false → p = true → ∀ e, (plotTemporal env d base block data v p w).2 = .error e → Settings (setup w).backend (setup w).rc (plotTemporal env d base block data v p w).1) ∧
    (p = false → Settings w.backend w.rc (plotTemporal env d base block data v p w).1) :=
  framed_settings v p _ (fun _ _ w hw => seq_inv _ _ _ (plotEnergy_settings env p d base data w hw) fun w hw =>
    each_inv _ _ _ (fun e w hw => plotEntry_settings env p d base block _ e w hw) w hw) w

theorem basic_settings (env : Env) (d base : String) (itr : ℕ) (fig : Py F) (v p : Bool) (w : World F) :
    ((basicFramed env d base itr fig v p w).2 = .ok () → Settings w.backend w.rc (basicFramed env d base itr fig v p w).1) ∧
    (v = false → p = true → ∀ e, (basicFramed env d base itr fig v p w).2 = .error e → Settings (setup w).backend (setup w).rc (basicFramed env d base itr fig v p w).1) ∧
    (p = false → Settings w.backend w.rc (basicFramed env d base itr fig v p w).1) :=
  framed_settings v p _ (fun _ _ w hw => by
    cases fig with
    | error e => exact hw
    | ok fig => exact put_settings env p d _ fig w hw) w

/-- **C86.** Whenever a figure function returns, the backend and the settings of `matplotlib` are what they were. -/
theorem C86_settings [Inhabited R] [AddGroup R] (env : Env) (pca : Pca R) (sd : PDict String (Arr3 R)) (uses : Bool) (val pred train trainPred : Option (Series R)) (itr : ℕ) (block : String) (data : Data R)
    (args : Option Args) (w : World (Drawing R)) (v : World (Fig R)) :
    ((basicVisualize env pca sd uses val pred train trainPred itr args w).2 = .ok () →
      (basicVisualize env pca sd uses val pred train trainPred itr args w).1.backend = w.backend ∧ (basicVisualize env pca sd uses val pred train trainPred itr args w).1.rc = w.rc) ∧
    ((plotTemporalData env block data args v).2 = .ok () → (plotTemporalData env block data args v).1.backend = v.backend ∧ (plotTemporalData env block data args v).1.rc = v.rc) :=
  ⟨(byArgs_settings _ args w fun v p w => basic_settings env _ _ itr _ v p w).1, (byArgs_settings _ args v fun x p w => temporal_settings env _ _ block data x p w).1⟩

/-- **C86 fails when a figure function raises**: if figures are saved, the settings stay those for saving (so that later figures, also on the screen, use them). -/
theorem C86_settings_lost [Inhabited R] [AddGroup R] (env : Env) (pca : Pca R) (sd : PDict String (Arr3 R)) (uses : Bool) (val pred train trainPred : Option (Series R)) (itr : ℕ) (block : String) (data : Data R)
    (a : Args) (hv : a.viz = false) (hs : a.save = true) (w : World (Drawing R)) (v : World (Fig R)) :
    (∀ e, (basicVisualize env pca sd uses val pred train trainPred itr (some a) w).2 = .error e →
      (basicVisualize env pca sd uses val pred train trainPred itr (some a) w).1.backend = "pgf" ∧ (basicVisualize env pca sd uses val pred train trainPred itr (some a) w).1.rc "text.usetex" = .flag true) ∧
    (∀ e, (plotTemporalData env block data (some a) v).2 = .error e →
      (plotTemporalData env block data (some a) v).1.backend = "pgf" ∧ (plotTemporalData env block data (some a) v).1.rc "text.usetex" = .flag true) := by
  constructor
  · intro e he
    have := (byArgs_settings _ (some a) w fun v p w => basic_settings env _ _ itr _ v p w).2 a rfl hv hs e he
    exact ⟨this.1, by
      show (byArgs _ (some a) w).1.rc "text.usetex" = .flag true
      rw [this.2]; rfl⟩
  · intro e he
    have := (byArgs_settings _ (some a) v fun x p w => temporal_settings env _ _ block data x p w).2 a rfl hv hs e he
    exact ⟨this.1, by
      show (byArgs _ (some a) v).1.rc "text.usetex" = .flag true
      rw [this.2]; rfl⟩

/-! ## Trajectories and particles -/

/-- A path in the plane: the first two coordinates over time. -/
def points (y : Series R) (n : ℕ) : List (R × R) := (List.range y.len).map fun i => (y.elem i n 0 0, y.elem i n 0 1)

/-- Trajectories in the plane (or in a space of more dimensions). -/
def Planar (y : Series R) : Prop := 0 < y.m ∧ 1 < y.d

theorem both_ok {y p : Series R} (hy : Planar y) (hp : Planar p) (hn : y.n ≤ p.n) : both (some y) (some p) = .ok ((List.range y.n).map fun n => (points y n, points p n)) := by
  unfold both
  dsimp only
  refine mapM_ok _ _ _ fun n hn' => ?_
  have h1 : n < y.n := List.mem_range.1 hn'
  have e1 : path y n = .ok (points y n) := by rw [path, if_pos ⟨h1, hy⟩]; rfl
  have e2 : pathOf (some p) n = .ok (points p n) := by rw [pathOf, path, if_pos ⟨by omega, hp⟩]; rfl
  rw [e1, e2]
  rfl

/-- States and momenta of particles in the plane (or in a space of more dimensions). -/
def PlanarState (q p : Arr3 R) : Prop := 0 < q.n ∧ p.n = q.n ∧ q.m = 1 ∧ p.m = 1 ∧ 1 < q.d ∧ p.d = q.d

theorem arrows_ok {q p : Arr3 R} (h : PlanarState q p) : arrows q p = .ok ((List.range q.n).map fun i => ((q.elem i 0 0, q.elem i 0 1), (p.elem i 0 0, p.elem i 0 1))) := by
  obtain ⟨h1, h2, h3, h4, h5, h6⟩ := h
  rw [arrows, if_pos ⟨by omega, by omega, h5, by omega⟩, if_pos ⟨h1, h2.symm⟩]

/-- **C86.** The figure of trajectories and particles: for each trajectory the given and the predicted path in the plane, for each particle its place and its momentum; for `q2` in more than two dimensions the projections. -/
theorem C86_drawing [AddGroup R] (pca : Pca R) (sd : PDict String (Arr3 R)) (val pred train trainPred : Series R) (hv : Planar val) (hp : Planar pred) (hn : val.n ≤ pred.n) (ht : Planar train) (htp : Planar trainPred)
    (htn : train.n ≤ trainPred.n) (q1 p1 q2 p2 : Arr3 R) (h1 : sd.get? "q1" = some q1) (h2 : sd.get? "p_q1" = some p1) (h3 : sd.get? "q2" = some q2) (h4 : sd.get? "p_q2" = some p2)
    (hq1 : PlanarState q1 p1) (hq2 : PlanarState q2 p2) :
    ∃ dr, basicDrawing pca sd true (some val) (some pred) (some train) (some trainPred) = .ok dr ∧ dr.val = (List.range val.n).map (fun n => (points val n, points pred n)) ∧
      dr.train = (List.range train.n).map (fun n => (points train n, points trainPred n)) ∧
      dr.low = some ((List.range q1.n).map fun i => ((q1.elem i 0 0, q1.elem i 0 1), (p1.elem i 0 0, p1.elem i 0 1))) ∧
      (q2.d = 2 ∨ q2.n = 1 → dr.high = some ((List.range q2.n).map fun i => ((q2.elem i 0 0, q2.elem i 0 1), (p2.elem i 0 0, p2.elem i 0 1)))) ∧
      (2 < q2.d → 1 < q2.n → dr.high = some ((List.range q2.n).map fun i => (pca ((List.range q2.n).map (row q2)) (row q2 i),
        pca ((List.range q2.n).map (row q2)) (List.zipWith (· + ·) (row q2 i) (row p2 i)) - pca ((List.range q2.n).map (row q2)) (row q2 i)))) := by
  have e1 : trajectories (some val) (some pred) (some train) (some trainPred) =
      .ok ((List.range val.n).map (fun n => (points val n, points pred n)), (List.range train.n).map (fun n => (points train n, points trainPred n))) := by
    rw [trajectories, both_ok hv hp hn, both_ok ht htp htn]
    rfl
  have l1 : lookup sd "q1" = .ok q1 := by rw [lookup, h1]
  have l2 : lookup sd "p_q1" = .ok p1 := by rw [lookup, h2]
  have l3 : lookup sd "q2" = .ok q2 := by rw [lookup, h3]
  have l4 : lookup sd "p_q2" = .ok p2 := by rw [lookup, h4]
  have e2 : plotParticles q1 p1 = _ := arrows_ok hq1
  by_cases hc : 2 < q2.d ∧ 1 < q2.n
  · have e3 : plotHigher pca q2 p2 = .ok ((List.range q2.n).map fun i => (pca ((List.range q2.n).map (row q2)) (row q2 i),
        pca ((List.range q2.n).map (row q2)) (List.zipWith (· + ·) (row q2 i) (row p2 i)) - pca ((List.range q2.n).map (row q2)) (row q2 i))) := by
      obtain ⟨a1, a2, a3, a4, a5, a6⟩ := hq2
      rw [plotHigher, if_neg (by omega), if_neg (by omega), if_pos hc, if_pos ⟨a2.symm, a6.symm⟩]
    refine ⟨_, by rw [basicDrawing, e1]; dsimp only [bind, Except.bind]; rw [if_pos rfl, l1, l2, l3, l4]; dsimp only; rw [e2, e3], rfl, rfl, rfl, fun h => ?_, fun _ _ => rfl⟩
    omega
  · have e3 : plotHigher pca q2 p2 = .ok ((List.range q2.n).map fun i => ((q2.elem i 0 0, q2.elem i 0 1), (p2.elem i 0 0, p2.elem i 0 1))) := by
      obtain ⟨a1, a2, a3, a4, a5, a6⟩ := id hq2
      rw [plotHigher, if_neg (by omega), if_neg (by omega), if_neg hc]
      exact arrows_ok hq2
    refine ⟨_, by rw [basicDrawing, e1]; dsimp only [bind, Except.bind]; rw [if_pos rfl, l1, l2, l3, l4]; dsimp only; rw [e2, e3], rfl, rfl, rfl, fun _ => rfl, fun a b => ?_⟩
    exact absurd ⟨a, b⟩ hc

/-- **C86.** The arrows of projected states are the projections of the momenta: if the projection is `x ↦ V (x - μ)` with a linear `V`, the arrow of a momentum `p` is `V p`, wherever the particle is. -/
theorem C86_projection {K : Type} [Ring K] {d : ℕ} (V : (Fin d → K) →ₗ[K] K × K) (μ : Fin d → K) (f : List K → K × K) (hf : ∀ x : Fin d → K, f (List.ofFn x) = V (x - μ)) (q p : Arr3 K) (hq : q.d = d) (hp : p.d = d)
    (i : ℕ) : f (List.zipWith (· + ·) (row q i) (row p i)) - f (row q i) = V fun j => p.elem i 0 j := by
  subst hq
  have hr : ∀ a : Arr3 K, a.d = q.d → row a i = List.ofFn fun j : Fin q.d => a.elem i 0 j := by
    intro a ha
    rw [row, ha]
    refine List.ext_getElem (by simp) fun n h1 h2 => by simp
  rw [hr q rfl, hr p hp]
  have hz : List.zipWith (· + ·) (List.ofFn fun j : Fin q.d => q.elem i 0 j) (List.ofFn fun j : Fin q.d => p.elem i 0 j) = List.ofFn ((fun j : Fin q.d => q.elem i 0 j) + fun j : Fin q.d => p.elem i 0 j) := by
    refine List.ext_getElem (by simp) fun n h1 h2 => by simp
  rw [hz, hf, hf, ← map_sub]
  congr 1
  rw [sub_sub_sub_cancel_right, add_sub_cancel_left]

/-- **C86.** Saving this figure: three files with the number of the iteration in their names; all other files are as before. -/
theorem C86_basic_saved [AddGroup R] (env : Env) (pca : Pca R) (sd : PDict String (Arr3 R)) (uses : Bool) (val pred train trainPred : Option (Series R)) (itr : ℕ) (a : Args) (w : World (Drawing R))
    (hv : a.viz = false) (hs : a.save = true) (hw : Writable env a.dir w) (dr : Drawing R) (hd : basicDrawing pca sd uses val pred train trainPred = .ok dr) :
    ∃ w', basicVisualize env pca sd uses val pred train trainPred itr (some a) w = (w', .ok ()) ∧ w'.shown = w.shown ∧
      (∀ f ∈ ["png", "pdf", "pgf"], w'.files.get? (a.dir, "basic-viz-" ++ a.base ++ "-iter-" ++ pad 4 itr ++ "." ++ f) = some dr) ∧
      (∀ p, (∀ f ∈ ["png", "pdf", "pgf"], p ≠ (a.dir, "basic-viz-" ++ a.base ++ "-iter-" ++ pad 4 itr ++ "." ++ f)) → w'.files.get? p = w.files.get? p) := by
  obtain ⟨viz, save, d, base⟩ := a
  dsimp only at hv hs hw ⊢
  subst hv hs
  have hw0 : Writable env d (setup w) := hw
  obtain ⟨w1, a1, _, _, a4, _, a6, a7⟩ := saveAll_ok hw0 ("basic-viz-" ++ base ++ "-iter-" ++ pad 4 itr) dr
  refine ⟨reset (previous w) w1, ?_, a4, a6, a7⟩
  unfold basicVisualize byArgs
  simp only [Option.map_some, Option.getD_some, Bool.false_eq_true, if_false, if_true, seq]
  unfold basicFramed framed
  simp only [Bool.false_and, Bool.false_eq_true, if_false, Bool.not_true, Bool.and_false, if_true]
  rw [hd]
  dsimp only
  rw [put, if_pos rfl, a1]
  rfl

/-- **C86.** Figures of different iterations have different files, and up to the ten-thousandth iteration the alphabetical order of the files is the order of the iterations. -/
theorem C86_iterations (base : String) (i j : ℕ) (f f' : String) (hf : f ∈ ["png", "pdf", "pgf"]) (hf' : f' ∈ ["png", "pdf", "pgf"]) :
    ("basic-viz-" ++ base ++ "-iter-" ++ pad 4 i ++ "." ++ f = "basic-viz-" ++ base ++ "-iter-" ++ pad 4 j ++ "." ++ f' ↔ i = j ∧ f = f') ∧
    (i < j → j < 10000 → "basic-viz-" ++ base ++ "-iter-" ++ pad 4 i ++ "." ++ f < "basic-viz-" ++ base ++ "-iter-" ++ pad 4 j ++ "." ++ f') := by
  constructor
  · constructor
    · intro h
      obtain ⟨h1, h2⟩ := file_inj (pre := "basic-viz-" ++ base ++ "-iter-") hf hf' h
      exact ⟨pad_injective 4 h1, h2⟩
    · rintro ⟨rfl, rfl⟩; rfl
  · intro h hj
    rw [String.lt_iff_toList_lt]
    have := pad_lt (w := 4) (by omega) (by omega) h
    simp only [String.toList_append, List.append_assoc]
    refine lex_append_right (lex_append_right (lex_append_right ?_))
    exact lex_append_left this (by rw [length_pad (by omega) (by omega), length_pad (by omega) (by omega)]) _ _

/-- From the ten-thousandth iteration on this is no longer so. -/
theorem C86_iterations_order_lost (base : String) : "basic-viz-" ++ base ++ "-iter-" ++ pad 4 10000 ++ "." ++ "png" < "basic-viz-" ++ base ++ "-iter-" ++ pad 4 9999 ++ "." ++ "png" := by
  rw [String.lt_iff_toList_lt]
  simp only [String.toList_append, List.append_assoc]
  refine lex_append_right (lex_append_right (lex_append_right ?_))
  decide +kernel

/-- **C86 fails for models without `q2`** (the model `simple` of `spiral.py`): with particles, a figure is a `KeyError`, on the screen and in a file. -/
theorem C86_no_second_state [AddGroup R] (env : Env) (pca : Pca R) (sd : PDict String (Arr3 R)) (val pred train trainPred : Series R) (hv : Planar val) (hp : Planar pred) (hn : val.n ≤ pred.n) (ht : Planar train)
    (htp : Planar trainPred) (htn : train.n ≤ trainPred.n) (q1 p1 : Arr3 R) (h1 : sd.get? "q1" = some q1) (h2 : sd.get? "p_q1" = some p1) (h3 : sd.get? "q2" = none) (itr : ℕ) (a : Args)
    (ha : a.viz = true ∨ a.save = true) (w : World (Drawing R)) :
    (basicVisualize env pca sd true (some val) (some pred) (some train) (some trainPred) itr (some a) w).2 = .error .keyError := by
  have hd : basicDrawing pca sd true (some val) (some pred) (some train) (some trainPred) = .error .keyError := by
    rw [basicDrawing, trajectories, both_ok hv hp hn, both_ok ht htp htn]
    simp only [bind, Except.bind, if_true, lookup, h1, h2, h3]
  obtain ⟨viz, save, d, base⟩ := a
  unfold basicVisualize byArgs basicFramed framed
  rw [hd]
  cases viz <;> cases save <;> simp [seq] at ha ⊢

/-! ## The hypotheses are met -/

/-- A recording of two particles in the plane, of a weight and of a norm at three times. -/
def demoData : Data ℚ :=
  [("t", [scalar 0, scalar 1, scalar 2]), ("l1.weight", (List.range 3).map fun i => ⟨[2, 2], fun js => i + js.headD 0⟩), ("energy", [scalar 5, scalar 5, scalar 5]),
   ("b.state.q1", (List.range 3).map fun i => ⟨[2, 1, 2], fun js => i * js.headD 0⟩), ("b.dot_state.q1", [scalar 1, scalar 1, scalar 1]), ("sum_sqr_spectral_norm", [scalar 1, scalar 2, scalar 3])]

theorem demo_recorded : Recorded "b" demoData where
  times := by decide
  energies := by decide
  names := by decide
  shapes := by
    intro e he hx
    simp only [demoData, List.mem_cons, List.not_mem_nil, or_false] at he
    rcases he with rfl | rfl | rfl | rfl | rfl | rfl
    · exact absurd hx (by decide)
    · exact ⟨rfl, [2, 2], by decide, by simp⟩
    · exact absurd hx (by decide)
    · exact ⟨rfl, [2, 1, 2], by decide, by simp⟩
    · exact absurd hx (by decide)
    · exact ⟨rfl, [], by decide, by simp [scalar]⟩

def demoEnv : Env := ⟨fun _ => true, fun _ => true, true⟩

def demoWorld {F : Type} : World F := ⟨"agg", fun _ => .flag false, [], [], [], []⟩

/-- Twelve files are written, and everything else is as before. -/
example : ((plotTemporalData demoEnv "b" demoData (some ⟨false, true, "out", "x"⟩) demoWorld).1.files.keys.map Prod.snd) =
    ["x-energy.png", "x-energy.pdf", "x-energy.pgf", "x-l1.weight.png", "x-l1.weight.pdf", "x-l1.weight.pgf", "x-b.state.q1.png", "x-b.state.q1.pdf", "x-b.state.q1.pgf",
     "x-sum_sqr_spectral_norm.png", "x-sum_sqr_spectral_norm.pdf", "x-sum_sqr_spectral_norm.pgf"] := by
  decide +kernel

example : ∃ w', plotTemporalData demoEnv "b" demoData (some ⟨false, true, "out", "x"⟩) demoWorld = (w', .ok ()) ∧ w'.backend = "agg" :=
  let ⟨w', h1, h2, _⟩ := C86_saved demoEnv "b" demoData ⟨false, true, "out", "x"⟩ demoWorld demo_recorded rfl rfl ⟨.inr rfl, fun _ => rfl⟩
  ⟨w', h1, h2⟩

/-- Trajectories and particles. -/
def demoSeries : Series ℚ := ⟨3, 2, 1, 2, fun i n _ k => i + n + k⟩

def demoState : Arr3 ℚ := ⟨2, 1, 3, fun i _ k => i + k⟩

example : Planar demoSeries ∧ PlanarState demoState demoState := by
  unfold Planar PlanarState
  decide

/-- Without `q2`. -/
example : basicVisualize demoEnv (fun _ _ => (0, 0)) [("q1", demoState), ("p_q1", demoState)] true (some demoSeries) (some demoSeries) (some demoSeries) (some demoSeries) 7 (some ⟨false, true, "out", "x"⟩) demoWorld =
    (setup demoWorld, .error .keyError) := rfl

end Verif.Figures
