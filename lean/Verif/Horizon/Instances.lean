import Verif.Horizon.Props
import Verif.LongRange.Instances

/-!
# C91: blocks for which the times matter, and blocks for which they do not
-/

namespace Verif.Horizon
open Verif Verif.Chunks Verif.Tensor Verif.Evolution Verif.Flow Verif.Whole Verif.Converge Verif.LongRange Verif.Models

section Close
variable {ι β K K' : Type} [Fintype ι] [Fintype β] [Fintype K] [Fintype K']

/-- C91: whatever the times are, and for any two rules for the grid with the same largest step, the values at a common time differ by at most a constant times the step size: both are close to
the exact solution. -/
theorem C91_close {fld : ℝ → Sys2 ι β K K' → Sys2 ι β K K'} (hf : ContDiff ℝ 1 fun z : ℝ × Sys2 ι β K K' => fld z.1 z.2) {T : Tableau} (hT : T.Consistent) {a b : ℝ} {y : ℝ → Sys2 ι β K K'}
    (hy : Solves fld a b y) : ∃ C h₀ : ℝ, 0 ≤ C ∧ 0 < h₀ ∧ ∀ h, 0 < h → h ≤ h₀ → ∀ (G G' : List ℝ → List ℝ) (ts us : List ℝ), (a :: ts).Pairwise (· < ·) → (a :: us).Pairwise (· < ·) →
      (∀ τ ∈ a :: ts, τ ≤ b) → (∀ τ ∈ a :: us, τ ≤ b) → Suits h G a ts → Suits h G' a us →
      ∃ ys zs, runSys fld (solver T G (a :: ts)) [y a] = .ok ys ∧ runSys fld (solver T G' (a :: us)) [y a] = .ok zs ∧ ys.length = ts.length + 1 ∧ zs.length = us.length + 1 ∧
        ∀ (i j : ℕ) (Y Z : Sys2 ι β K K'), (a :: ts)[i]? = (a :: us)[j]? → ys[i]? = some Y → zs[j]? = some Z → ‖Y - Z‖ ≤ C * h := by
  obtain ⟨C, h₀, h1, h2, key⟩ := C68_converge hf hT hy
  refine ⟨2 * C, h₀, by positivity, h2, fun h hh hle G G' ts us hi hi' hts hus hg hg' => ?_⟩
  obtain ⟨ys, e1, e2⟩ := key h hh hle G ts hi hts hg
  obtain ⟨zs, e3, e4⟩ := key h hh hle G' us hi' hus hg'
  refine ⟨ys, zs, e1, e3, by simpa using e2.length_eq, by simpa using e4.length_eq, fun i j Y Z hij hY hZ => ?_⟩
  obtain ⟨i1, i2⟩ := List.getElem?_eq_some_iff.1 hY
  obtain ⟨j1, j2⟩ := List.getElem?_eq_some_iff.1 hZ
  have k1 : i < (a :: ts).length := by rw [← e2.length_eq]; exact i1
  have k2 : j < (a :: us).length := by rw [← e4.length_eq]; exact j1
  have d1 := e2.get i1 k1
  have d2 := e4.get j1 k2
  rw [List.getElem?_eq_getElem k1, List.getElem?_eq_getElem k2, Option.some.injEq] at hij
  simp only [List.get_eq_getElem, i2, j2] at d1 d2
  rw [← hij] at d2
  calc ‖Y - Z‖ = ‖(Y - y (a :: ts)[i]) - (Z - y (a :: ts)[i])‖ := by rw [sub_sub_sub_cancel_right]
    _ ≤ ‖Y - y (a :: ts)[i]‖ + ‖Z - y (a :: ts)[i]‖ := norm_sub_le _ _
    _ ≤ 2 * C * h := by linarith

end Close

/-! ## A concrete block -/

theorem demo_in (M : List ℝ → Method ℝ ℝ) (l : List ℝ) : demoInput l = picture demoCls.dataLay (demoCfg M).outKey [1, 1] l.length (spread fun b => l[b]) := by
  have := picture_one (demoInput l) (by simp [Tensor.WF, demoInput, vol]) l.length 1 1 rfl
  rw [demo_elem] at this
  exact this

theorem demo_key (M : List ℝ → Method ℝ ℝ) : ((demoCfg M).outKey, [1, 1]) ∈ demoCls.dataLay.names := by simp [layOne, demoCfg, demoCls, analyticCls]

theorem demo_particles : HasParticles demoCls.lay demoCls.dataLay (fun _ => 1 : Fin 1 × (Fin 1 × Fin 1) → ℝ) (fun _ => 1) demoSt := ⟨rfl, rfl, ((C67_layouts 1 1 1).2 2 le_rfl).1⟩

theorem demo_from (T : Tableau) : FromParticles demoCls T demoMem := ⟨rfl, .inl ⟨rfl, indep_analytic _ _ _ _ _⟩⟩

theorem demo_restarts (M : List ℝ → Method ℝ ℝ) (B : Nat) : Restarts demoCls.dataLay (demoCfg M).outKey [1, 1] B (demoCfg M).initialData fun x => x :=
  (C90_restarts ⟨1, 1, .num 1, 1, 3⟩ ⟨[], fun _ => [], fun _ => []⟩ B 1 1).1

theorem multiples_increase (m : Nat) {h : ℝ} (hh : 0 < h) : ((0 : ℝ) :: (List.range m).map fun i => ((i + 1 : ℕ) : ℝ) * h).Pairwise (· < ·) := by
  rw [List.pairwise_cons]
  constructor
  · intro s hs
    obtain ⟨i, _, rfl⟩ := List.mem_map.1 hs
    positivity
  · rw [List.pairwise_map]
    refine List.pairwise_lt_range.imp fun {i j} hij => ?_
    have : ((i + 1 : ℕ) : ℝ) < ((j + 1 : ℕ) : ℝ) := Nat.cast_lt.2 (by omega)
    exact mul_lt_mul_of_pos_right this hh

/-- The script: step size 1/10 and the classical Runge-Kutta method, any number of times 0, 1/10, 2/10, ... -/
example (l : List ℝ) (m : Nat) : ∃ s1 s2 vs,
    allAtOnce (demoCfg (solver rk4 (stepGrid (1 / 10)))) () (demoInput l) (0 :: (List.range m).map fun i => ((i + 1 : ℕ) : ℝ) * (1 / 10)) demoSt = (s1, .ok vs) ∧
    oneByOne (demoCfg (solver rk4 (stepGrid (1 / 10)))) () (demoInput l) (0 :: (List.range m).map fun i => ((i + 1 : ℕ) : ℝ) * (1 / 10)) demoSt = (s2, .ok vs) ∧ vs.length = m + 1 := by
  have h := C91_one_by_one (c := demoCls) (layOne_ok 1 1) (layOne_ok 1 1) (h := 1 / 10) (by norm_num) (demo_isBlock (solver rk4 (stepGrid (1 / 10)))) (demo_from _) demo_particles (demo_key _)
    (demo_restarts _ l.length) (spread fun b => l[b]) () () ((List.range m).map fun i => ((i + 1 : ℕ) : ℝ) * (1 / 10)) (multiples_increase m (by norm_num)) (.inr (by
      intro τ hτ
      obtain ⟨i, _, rfl⟩ := List.mem_map.1 hτ
      exact ⟨i + 1, rfl⟩))
  rw [← demo_in] at h
  simpa using h

/-- The same in RNN mode. -/
example (l : List ℝ) (m : Nat) : ∃ s1 s2 vs,
    allAtOnce (keepCfg (solver rk4 (stepGrid (1 / 10)))) () (demoInput l) (0 :: (List.range m).map fun i => ((i + 1 : ℕ) : ℝ) * (1 / 10)) demoSt = (s1, .ok vs) ∧
    oneByOne (keepCfg (solver rk4 (stepGrid (1 / 10)))) () (demoInput l) (0 :: (List.range m).map fun i => ((i + 1 : ℕ) : ℝ) * (1 / 10)) demoSt = (s2, .ok vs) ∧ vs.length = m + 1 := by
  have hb : IsBlock demoCls (solver rk4 (stepGrid (1 / 10))) (fun _ dd => demoInt dd) (⟨true, false, none, none, none, [], 0, [], none⟩, fun _ => ((), ())) (keepCfg (solver rk4 (stepGrid (1 / 10)))) :=
    ⟨rfl, rfl, (demo_isBlock (solver rk4 id)).integrand, (demo_isBlock (solver rk4 id)).dim, (demo_isBlock (solver rk4 id)).key⟩
  have h := C91_one_by_one (c := demoCls) (layOne_ok 1 1) (layOne_ok 1 1) (h := 1 / 10) (by norm_num) hb
    ⟨rfl, .inr ⟨rfl, rfl, rfl, by show (1 / 6 + (1 / 3 + (1 / 3 + (1 / 6 + 0))) : ℝ) = 1; norm_num⟩⟩ demo_particles (demo_key (solver rk4 id))
    (demo_restarts (solver rk4 id) l.length) (spread fun b => l[b]) () () ((List.range m).map fun i => ((i + 1 : ℕ) : ℝ) * (1 / 10)) (multiples_increase m (by norm_num)) (.inr (by
      intro τ hτ
      obtain ⟨i, _, rfl⟩ := List.mem_map.1 hτ
      exact ⟨i + 1, rfl⟩))
  rw [show (keepCfg (solver rk4 (stepGrid (1 / 10)))).outKey = (demoCfg (solver rk4 id)).outKey from rfl, ← demo_in] at h
  simpa using h

/-- More times between 0 and 1, in steps of 1/2: the value at 1/4 is the same. -/
example (l : List ℝ) : ∃ s1 s2 vs ws, allAtOnce (demoCfg (solver rk4 (stepGrid (1 / 2)))) () (demoInput l) [0, 1 / 4, 1] demoSt = (s1, .ok vs) ∧
    allAtOnce (demoCfg (solver rk4 (stepGrid (1 / 2)))) () (demoInput l) [0, 1 / 8, 1 / 4, 3 / 4] demoSt = (s2, .ok ws) ∧ vs.length = 3 ∧ ws.length = 4 ∧ vs[1]? = ws[2]? := by
  obtain ⟨s1, s2, vs, ws, h1, h2, h3, h4, h5⟩ := C91_more_times (c := demoCls) (layOne_ok 1 1) (layOne_ok 1 1) (h := 1 / 2) (by norm_num) (demo_isBlock (solver rk4 (stepGrid (1 / 2))))
    (demo_from _) demo_particles ((demo_in (solver rk4 (stepGrid (1 / 2))) l) ▸ (demo_restarts _ l.length).init (spread fun b => l[b])) () () 0 [1 / 4, 1] [1 / 8, 1 / 4, 3 / 4] (by norm_num) (by norm_num)
  exact ⟨s1, s2, vs, ws, h1, h2, h3, h4, h5 1 2 (1 / 4) rfl rfl (.inr ⟨1, by norm_num, by norm_num, by norm_num⟩)⟩

/-! ## Times that are not multiples of the step size -/

theorem demo_get (M : List ℝ → Method ℝ ℝ) {B : Nat} (x : Fin B → ℝ) (b : Fin B) : (picture demoCls.dataLay (demoCfg M).outKey [1, 1] B (spread x)).get? [b.1, 0, 0] = some (x b) :=
  picture_get (L' := layOne 1 1) (layOne_ok 1 1) (by simp [layOne]) (spread x) b (0, 0) rfl (key := "q1") (sh := [1, 1])

theorem demo_step {B : Nat} (a t q p : ℝ) (x : Fin B → ℝ) : simpleSys q p x + a • field2 demoCls.rhs demoCls.dataRhs (modeOf demoCls 1 ()) t (simpleSys q p x) =
    simpleSys (q + a * (q * (p * q) + p)) (p - a * (p * (p * q))) fun b => x b + a * (x b * (p * q) + p) := by
  have h := demo_field B t q p x
  show _ + a • field2 demoCls.rhs demoCls.dataRhs (modeOf demoCls 1 ()) t ((fun _ => q, fun _ => p, fun k => x k.1) : Sys (Fin 1) (Fin B) (Fin 1 × Fin 1)) = _
  rw [show field2 demoCls.rhs demoCls.dataRhs (modeOf demoCls 1 ()) t ((fun _ => q, fun _ => p, fun k => x k.1) : Sys (Fin 1) (Fin B) (Fin 1 × Fin 1)) = _ from h]
  refine Prod.ext rfl (Prod.ext ?_ rfl)
  funext k
  show p + a * -(p * (p * q)) = p - a * (p * (p * q))
  ring

theorem demo_equations {B : Nat} : equations demoCls demoMem B (fun _ => 1 : Fin 1 × (Fin 1 × Fin 1) → ℝ) (fun _ => 1) = field2 demoCls.rhs demoCls.dataRhs (modeOf demoCls 1 ()) := rfl

/-- One step of the midpoint rule from the initial particle. -/
theorem demo_midpoint {B : Nat} (a h : ℝ) (x : Fin B → ℝ) :
    simpleSys 1 1 x + a • increment Converge.midpoint (field2 demoCls.rhs demoCls.dataRhs (modeOf demoCls 1 ())) h 0 (simpleSys 1 1 x) =
      simpleSys 1 1 x + a • field2 demoCls.rhs demoCls.dataRhs (modeOf demoCls 1 ()) (h / 2) (simpleSys (1 + h) (1 - h / 2) fun b => x b + h / 2 * (x b + 1)) := by
  have hs : ∀ f : ℝ → Sys2 (Fin 1) (Fin B) (Fin 1 × Fin 1) (Fin 1 × Fin 1) → Sys2 (Fin 1) (Fin B) (Fin 1 × Fin 1) (Fin 1 × Fin 1), increment Converge.midpoint f h 0 (simpleSys 1 1 x) =
      f (h / 2) (simpleSys 1 1 x + (h / 2) • f 0 (simpleSys 1 1 x)) := by
    intro f
    simp only [increment, Converge.midpoint, slopes, comb, List.nil_append, List.zipWith_nil_right, List.sum_nil, List.cons_append, List.zipWith_cons_cons, List.sum_cons, smul_zero, add_zero, zero_mul,
      zero_smul, zero_add, one_smul, smul_smul]
    rw [show 1 / 2 * h = h / 2 by ring, show h * (1 / 2) = h / 2 by ring]
  rw [hs, demo_step]
  congr 4
  · ring
  · ring
  · funext b
    ring

theorem demo_x {B : Nat} (a t q p : ℝ) (x y : Fin B → ℝ) : (simpleSys 1 1 x + a • field2 demoCls.rhs demoCls.dataRhs (modeOf demoCls 1 ()) t (simpleSys q p y)).2.2 =
    spread fun b => x b + a * (y b * (p * q) + p) := by
  have h := demo_field B t q p y
  show ((fun k => x k.1) + a • (field2 demoCls.rhs demoCls.dataRhs (modeOf demoCls 1 ()) t ((fun _ => q, fun _ => p, fun k => y k.1) : Sys (Fin 1) (Fin B) (Fin 1 × Fin 1))).2.2) = _
  rw [show field2 demoCls.rhs demoCls.dataRhs (modeOf demoCls 1 ()) t ((fun _ => q, fun _ => p, fun k => y k.1) : Sys (Fin 1) (Fin B) (Fin 1 × Fin 1)) = _ from h]
  rfl

/-- C91: the condition on the times is needed.  With the midpoint rule in steps of 1, the value at 1/2 is on the straight line to the value at 1 when 1 is asked for as well, and the end of a
step of length 1/2 when it is not. -/
theorem C91_between_differ (l : List ℝ) : ∃ s1 s2 vs w, allAtOnce (demoCfg (solver Converge.midpoint (stepGrid 1))) () (demoInput l) [0, 1 / 2, 1] demoSt = (s1, .ok vs) ∧
    oneTime (demoCfg (solver Converge.midpoint (stepGrid 1))) () (demoInput l) (1 / 2) demoSt = (s2, .ok w) ∧
    ∀ b : Fin l.length, vs[1]?.map (fun v => v.get? [b, 0, 0]) = some (some ((112 * l[b] + 32) / 64)) ∧ w.get? [b, 0, 0] = some ((109 * l[b] + 33) / 64) := by
  obtain ⟨h1, h2⟩ := C91_forward (c := demoCls) (layOne_ok 1 1) (layOne_ok 1 1) (h := 1) (by norm_num) (demo_isBlock (solver Converge.midpoint (stepGrid 1))) (demo_from _) demo_particles
    ((demo_in (solver Converge.midpoint (stepGrid 1)) l) ▸ (demo_restarts _ l.length).init (spread fun b => l[b])) (demo_key _) ()
  obtain ⟨s1, _, e1⟩ := h1 0 [1 / 2, 1] (by norm_num)
  obtain ⟨s2, _, e2⟩ := h2 (1 / 2) (by norm_num)
  refine ⟨s1, s2, _, _, e1, e2, fun b => ?_⟩
  have hz : (((fun _ => 1, fun _ => 1, spread fun b => l[b]) : Sys2 (Fin 1) (Fin l.length) (Fin 1 × Fin 1) (Fin 1 × Fin 1))) = simpleSys 1 1 fun b => l[b] := rfl
  rw [demo_equations, hz]
  have v1 := valueAt_eq (increment Converge.midpoint (field2 demoCls.rhs demoCls.dataRhs (modeOf demoCls 1 ()))) (h := 1) (t := 0) (by norm_num) (simpleSys 1 1 fun b : Fin l.length => l[b]) 1
    (s := 1 / 2) (k := 0) (by norm_num) (by norm_num)
  have v2 := valueAt_eq (increment Converge.midpoint (field2 demoCls.rhs demoCls.dataRhs (modeOf demoCls 1 ()))) (h := 1) (t := 0) (by norm_num) (simpleSys 1 1 fun b : Fin l.length => l[b]) (1 / 2)
    (s := 1 / 2) (k := 0) (by norm_num) (by norm_num)
  have m1 : min ((0 : ℝ) + ((0 : ℕ) : ℝ) * 1 + 1) 1 = 1 := by norm_num
  have m2 : min ((0 : ℝ) + ((0 : ℕ) : ℝ) * 1 + 1) (1 / 2) = 1 / 2 := by norm_num
  have m0 : (0 : ℝ) + ((0 : ℕ) : ℝ) * 1 = 0 := by norm_num
  rw [m1, m0] at v1
  rw [m2, m0] at v2
  unfold between at v1 v2
  rw [if_neg (by norm_num), if_neg (by norm_num), stepped, add_sub_cancel_left, smul_smul, demo_midpoint] at v1
  rw [if_neg (by norm_num), if_pos rfl, stepped, demo_midpoint] at v2
  constructor
  · show some ((picture _ _ _ _ (valueAt _ 1 0 (simpleSys 1 1 fun b => l[b]) 1 (1 / 2)).2.2).get? _) = _
    rw [v1, demo_x, demo_get]
    congr 2
    ring
  · rw [v2, demo_x, demo_get]
    congr 1
    ring

/-- For the sample 0: 32/64 and 33/64. -/
example : ∃ s1 s2 vs w, allAtOnce (demoCfg (solver Converge.midpoint (stepGrid 1))) () (demoInput [0]) [0, 1 / 2, 1] demoSt = (s1, .ok vs) ∧
    oneTime (demoCfg (solver Converge.midpoint (stepGrid 1))) () (demoInput [0]) (1 / 2) demoSt = (s2, .ok w) ∧ vs[1]? ≠ some w := by
  obtain ⟨s1, s2, vs, w, h1, h2, h3⟩ := C91_between_differ [0]
  refine ⟨s1, s2, vs, w, h1, h2, fun h => ?_⟩
  obtain ⟨h4, h5⟩ := h3 ⟨0, by simp⟩
  rw [h, Option.map_some, h5] at h4
  norm_num at h4

/-- C91: a step size is needed.  Without one the grid consists of the times that are asked for, so that asking for one time is one step: here with explicit Euler and the times 1 and 2. -/
theorem C91_no_step_size (l : List ℝ) : ∃ s1 s2 vs w, allAtOnce (demoCfg (solver Converge.euler id)) () (demoInput l) [0, 1, 2] demoSt = (s1, .ok vs) ∧
    oneTime (demoCfg (solver Converge.euler id)) () (demoInput l) 2 demoSt = (s2, .ok w) ∧
    ∀ b : Fin l.length, vs[2]?.map (fun v => v.get? [b, 0, 0]) = some (some (2 * l[b] + 1)) ∧ w.get? [b, 0, 0] = some (3 * l[b] + 2) := by
  have hX : (demoCfg (solver Converge.euler id)).initialData (demoInput l) = .ok (enc demoCls.dataLay "" l.length (spread fun b => l[b])) :=
    (demo_in (solver Converge.euler id) l) ▸ (demo_restarts _ l.length).init (spread fun b => l[b])
  obtain ⟨s1, _, e1⟩ := allAtOnce_run (c := demoCls) (layOne_ok 1 1) (layOne_ok 1 1) (demo_isBlock (solver Converge.euler id)) (demo_from _) demo_particles hX (demo_key _) () [0, 1, 2]
  obtain ⟨s2, _, e2⟩ := oneTime_run (c := demoCls) (layOne_ok 1 1) (layOne_ok 1 1) (demo_isBlock (solver Converge.euler id)) (demo_from _) demo_particles hX (demo_key _) () 2
  have hz : (((fun _ => 1, fun _ => 1, spread fun b => l[b]) : Sys2 (Fin 1) (Fin l.length) (Fin 1 × Fin 1) (Fin 1 × Fin 1))) = simpleSys 1 1 fun b => l[b] := rfl
  rw [demo_equations, hz] at e1 e2
  rw [run_solver _ _ id 0 [1, 2] [1, 2] _ ((increasing_iff _).2 (by norm_num)) rfl rfl, outputs_times _ _ _ _ (by norm_num)] at e1
  rw [run_solver _ _ id 0 [2] [2] _ ((increasing_iff _).2 (by norm_num)) rfl rfl, outputs_times _ _ _ _ (by norm_num)] at e2
  refine ⟨s1, s2, _, _, e1, e2, fun b => ?_⟩
  constructor
  · have e := (three (field2 demoCls.rhs demoCls.dataRhs (modeOf demoCls 1 ())) (simpleSys 1 1 fun b : Fin l.length => l[b])).1
    rw [simple_step, simple_step] at e
    rw [show gridValues (increment Converge.euler (field2 demoCls.rhs demoCls.dataRhs (modeOf demoCls 1 ()))) 0 (simpleSys 1 1 fun b : Fin l.length => l[b]) [1, 2] = _ from e]
    show some ((picture _ _ _ _ (simpleSys _ _ _).2.2).get? _) = _
    rw [show ∀ (q p : ℝ) (x : Fin l.length → ℝ), (simpleSys q p x).2.2 = spread x from fun _ _ _ => rfl, demo_get]
    congr 2
    ring
  · show (picture _ _ _ _ (simpleSys 1 1 (fun b : Fin l.length => l[b]) + ((2 : ℝ) - 0) • increment Converge.euler (field2 demoCls.rhs demoCls.dataRhs (modeOf demoCls 1 ())) (2 - 0) 0 _).2.2).get? _ = _
    rw [increment_euler, demo_x, demo_get]
    congr 1
    ring

/-- For the sample 0: 1 and 2. -/
example : ∃ s1 s2 vs w, allAtOnce (demoCfg (solver Converge.euler id)) () (demoInput [0]) [0, 1, 2] demoSt = (s1, .ok vs) ∧
    oneTime (demoCfg (solver Converge.euler id)) () (demoInput [0]) 2 demoSt = (s2, .ok w) ∧ vs[2]? ≠ some w := by
  obtain ⟨s1, s2, vs, w, h1, h2, h3⟩ := C91_no_step_size [0]
  refine ⟨s1, s2, vs, w, h1, h2, fun h => ?_⟩
  obtain ⟨h4, h5⟩ := h3 ⟨0, by simp⟩
  rw [h, Option.map_some, h5] at h4
  norm_num at h4

/-- Times that go back are refused together; one after the other they are not. -/
example : ∃ s1 s2 v w, allAtOnce (demoCfg (solver rk4 (stepGrid 1))) () (demoInput [0]) [0, 2, 1] demoSt = (s1, .error .assertionError) ∧
    loop (demoCfg (solver rk4 (stepGrid 1))) () (demoInput [0]) [2, 1] demoSt = (s2, .ok [v, w]) := by
  have hX : (demoCfg (solver rk4 (stepGrid 1))).initialData (demoInput [0]) = .ok (enc demoCls.dataLay "" 1 (spread fun b => [(0 : ℝ)][b])) :=
    (demo_in (solver rk4 (stepGrid 1)) [0]) ▸ (demo_restarts _ 1).init (spread fun b => [(0 : ℝ)][b])
  have h := (C91_refused (c := demoCls) (layOne_ok 1 1) (layOne_ok 1 1) (demo_isBlock (solver rk4 (stepGrid 1))) (demo_from _) demo_particles hX ()).2.1 0 [2, 1] (by norm_num)
  obtain ⟨s2, _, e2⟩ := loop_ok (cfg := demoCfg (solver rk4 (stepGrid 1))) (Inv := HasParticles demoCls.lay demoCls.dataLay (fun _ => 1 : Fin 1 × (Fin 1 × Fin 1) → ℝ) (fun _ => 1)) (r := ())
    (X := demoInput [0]) [2, 1] (fun s hs τ hτ =>
      (C91_forward (c := demoCls) (layOne_ok 1 1) (layOne_ok 1 1) (h := 1) (by norm_num) (demo_isBlock (solver rk4 (stepGrid 1))) (demo_from _) hs hX (demo_key _) ()).2 τ (by
        rcases List.mem_cons.1 hτ with rfl | hτ
        · norm_num
        · rcases List.mem_cons.1 hτ with rfl | hτ
          · norm_num
          · simp at hτ)) demoSt demo_particles
  exact ⟨_, s2, _, _, h, e2⟩

end Verif.Horizon
