import Verif.Horizon.Lemmas
import Verif.Converge.Props
import Verif.Converge.Forward
import Verif.Whole.Instance

/-!
# C91: predictions for several times
-/

namespace Verif.Horizon
open Verif Verif.Tensor Verif.Evolution Verif.Flow Verif.Whole Verif.Converge Verif.LongRange Verif.Models

variable {K K' P R H D Θ Rb : Type}

/-! ## Any system of equations -/

section Systems
variable {ι β : Type} [Fintype ι] [Fintype β] [Fintype K] [Fintype K']

/-- C91: what a solver with a step size returns: full steps from the first time on, the last one as short as necessary, and straight lines between the ends of the steps. -/
theorem C91_values (fld : ℝ → Sys2 ι β K K' → Sys2 ι β K K') (T : Tableau) {h : ℝ} (hh : 0 < h) (t : ℝ) (ts : List ℝ) (hi : (t :: ts).Pairwise (· < ·)) (z : Sys2 ι β K K') :
    runSys fld (solver T (stepGrid h) (t :: ts)) [z] = .ok (z :: ts.map (valueAt (increment T fld) h t z ((t :: ts).getLast (by simp)))) :=
  run_steps fld T hh t ts hi z

theorem le_last {t : ℝ} {ts : List ℝ} (hi : (t :: ts).Pairwise (· < ·)) {s : ℝ} (hs : s ∈ t :: ts) : s ≤ (t :: ts).getLast (by simp) := by
  rcases List.mem_iff_getElem.1 hs with ⟨i, hi', rfl⟩
  rw [List.getLast_eq_getElem]
  rcases Nat.lt_or_eq_of_le (Nat.le_sub_one_of_lt hi') with h4 | h4
  · exact (List.pairwise_iff_getElem.1 hi i _ hi' (by omega) h4).le
  · simp only [h4, le_refl]

/-- The step that contains a time. -/
theorem exists_step {h t s : ℝ} (hh : 0 < h) (hs : t < s) : ∃ k : ℕ, t + k * h < s ∧ s ≤ t + (k + 1) * h := by
  refine ⟨⌈(s - t) / h⌉₊ - 1, ?_, ?_⟩
  · have hp : 0 < ⌈(s - t) / h⌉₊ := Nat.ceil_pos.2 (div_pos (by linarith) hh)
    have : ((⌈(s - t) / h⌉₊ - 1 : ℕ) : ℝ) < (s - t) / h := Nat.lt_ceil.1 (by omega)
    rw [lt_div_iff₀ hh] at this
    linarith
  · have hp : 0 < ⌈(s - t) / h⌉₊ := Nat.ceil_pos.2 (div_pos (by linarith) hh)
    have := Nat.le_ceil ((s - t) / h)
    rw [div_le_iff₀ hh] at this
    have e : ((⌈(s - t) / h⌉₊ - 1 : ℕ) : ℝ) + 1 = (⌈(s - t) / h⌉₊ : ℝ) := by
      rw [← Nat.cast_succ]
      congr 1
      omega
    rw [e]
    linarith

theorem valueAt_other {V : Type} [AddCommGroup V] [Module ℝ V] (Φ : ℝ → ℝ → V → V) {h t : ℝ} (hh : 0 < h) (y : V) {e e' s : ℝ} (hs : t < s) {k : ℕ} (h1 : s ≤ t + k * h) (h2 : t + k * h ≤ e)
    (h3 : t + k * h ≤ e') : valueAt Φ h t y e s = valueAt Φ h t y e' s := by
  obtain ⟨j, g1, g2⟩ := exists_step hh hs
  have hjk : (j : ℝ) + 1 ≤ k := by
    have : (j : ℝ) < k := by
      by_contra hc
      have := mul_le_mul_of_nonneg_right (not_lt.1 hc) hh.le
      linarith
    have : j < k := Nat.cast_lt.1 this
    exact_mod_cast this
  have hle := mul_le_mul_of_nonneg_right hjk hh.le
  rw [valueAt_eq Φ hh y e g1 g2, valueAt_eq Φ hh y e' g1 g2, min_eq_left (by linarith), min_eq_left (by linarith)]

/-- For explicit Euler the length of the last step does not matter. -/
theorem valueAt_euler {V : Type} [AddCommGroup V] [Module ℝ V] (f : ℝ → V → V) {h t : ℝ} (hh : 0 < h) (y : V) {e e' s : ℝ} (hs : t < s) (h2 : s ≤ e) (h3 : s ≤ e') :
    valueAt (increment Converge.euler f) h t y e s = valueAt (increment Converge.euler f) h t y e' s := by
  obtain ⟨j, g1, g2⟩ := exists_step hh hs
  have key : ∀ e, s ≤ e → valueAt (increment Converge.euler f) h t y e s =
      stepped (increment Converge.euler f) h t y j + (s - (t + j * h)) • f (t + j * h) (stepped (increment Converge.euler f) h t y j) := by
    intro e he
    have hpos : t + j * h < min (t + j * h + h) e := lt_min (by linarith) (by linarith)
    rw [valueAt_eq _ hh y e g1 g2]
    generalize min (t + j * h + h) e = m at hpos ⊢
    have hi : ∀ a b z, increment Converge.euler f a b z = f b z := fun a b z => by simp [increment, Converge.euler, slopes, comb]
    rw [hi]
    unfold between
    rw [if_neg (by linarith)]
    split
    · rename_i hm; rw [hm]
    · rw [add_sub_cancel_left, smul_smul, div_mul_cancel₀ _ (by linarith)]
  rw [key e h2, key e' h3]

/-- C91: the value at a time does not depend on the other times that are asked for: for two lists of times with the same first time, the values at a common time are the same if the end of the
step that contains it is not after the last time of either list; for explicit Euler always. -/
theorem C91_other_times (fld : ℝ → Sys2 ι β K K' → Sys2 ι β K K') (T : Tableau) {h : ℝ} (hh : 0 < h) (t : ℝ) (ts us : List ℝ) (hi : (t :: ts).Pairwise (· < ·)) (hi' : (t :: us).Pairwise (· < ·))
    (z : Sys2 ι β K K') : ∃ ys zs, runSys fld (solver T (stepGrid h) (t :: ts)) [z] = .ok ys ∧ runSys fld (solver T (stepGrid h) (t :: us)) [z] = .ok zs ∧
      ys.length = ts.length + 1 ∧ zs.length = us.length + 1 ∧
      ∀ (i j : ℕ) (s : ℝ), (t :: ts)[i]? = some s → (t :: us)[j]? = some s →
        (T = Converge.euler ∨ ∃ k : ℕ, s ≤ t + k * h ∧ t + k * h ≤ (t :: ts).getLast (by simp) ∧ t + k * h ≤ (t :: us).getLast (by simp)) → ys[i]? = zs[j]? := by
  refine ⟨_, _, C91_values fld T hh t ts hi z, C91_values fld T hh t us hi' z, by simp, by simp, ?_⟩
  intro i j s h1 h2 hT
  have hpos : ∀ {us : List ℝ} (_ : (t :: us).Pairwise (· < ·)) {i : ℕ}, (t :: us)[i + 1]? = some s → t < s := by
    intro us hu i hs
    rw [List.getElem?_cons_succ] at hs
    exact (List.pairwise_cons.1 hu).1 s (List.mem_of_getElem? hs)
  cases i with
  | zero =>
    cases j with
    | zero => rfl
    | succ j =>
      have := hpos hi' h2
      simp only [List.getElem?_cons_zero, Option.some.injEq] at h1
      linarith
  | succ i =>
    cases j with
    | zero =>
      have := hpos hi h1
      simp only [List.getElem?_cons_zero, Option.some.injEq] at h2
      linarith
    | succ j =>
      have hs := hpos hi h1
      have m1 := le_last hi (List.mem_of_getElem? h1)
      have m2 := le_last hi' (List.mem_of_getElem? h2)
      rw [List.getElem?_cons_succ] at h1 h2 ⊢
      rw [List.getElem?_cons_succ, List.getElem?_map, List.getElem?_map, h1, h2, Option.map_some, Option.map_some]
      congr 1
      rcases hT with rfl | ⟨k, g1, g2, g3⟩
      · exact valueAt_euler fld hh z hs m1 m2
      · exact valueAt_other _ hh z hs g1 g2 g3

end Systems

/-! ## Blocks -/

section Blocks
variable [Fintype K] [Fintype K'] {c : Cls K K' P R} {icfg : Θ → Nat → Integrand.Cfg ℝ (Trip ℝ) (Par P R) (Concat.TDicts ℝ) ℝ R H D}
  {s0 : Integrand.St ℝ (Par P R) ℝ H D × (Nat → R × R)} {cfg : Block.Cfg ℝ ℝ Θ Rb} {T : Tableau} {G : List ℝ → List ℝ}

/-- A block whose parameters come from its particles at every time, or once at the beginning (RNN mode). -/
def FromParticles (c : Cls K K' P R) (T : Tableau) (s0 : Integrand.St ℝ (Par P R) ℝ H D × (Nat → R × R)) : Prop :=
  s0.1.external = false ∧ (s0.1.useRnn = false ∧ Indep c ∨ s0.1.useRnn = true ∧ s0.1.cache = none ∧ T.Consistent)

/-- The equations of such a block. -/
noncomputable def equations (c : Cls K K' P R) (s0 : Integrand.St ℝ (Par P R) ℝ H D × (Nat → R × R)) {n : Nat} (B : Nat) (q p : Fin n × K → ℝ) :
    ℝ → Sys2 (Fin n) (Fin B) K K' → Sys2 (Fin n) (Fin B) K K' :=
  field2 c.rhs c.dataRhs (if s0.1.useRnn then modeAt c n (c.par n (s0.2 0).1 q p, (s0.2 0).1) else modeOf c n (s0.2 0).1)

theorem forward_equations (hL : c.lay.Ok) (hL' : c.dataLay.Ok) (hb : IsBlock c (solver T G) icfg s0 cfg) (hm : FromParticles c T s0) {s : Block.St ℝ ℝ Θ} {n B : Nat} {q p : Fin n × K → ℝ}
    (hs : HasParticles c.lay c.dataLay q p s) {w : Block.When ℝ} (hw : Block.Is s w) {X : Tensor ℝ} {x : Fin B × K' → ℝ} (hX : cfg.initialData X = .ok (enc c.dataLay "" B x)) {sh : List Nat}
    (hkey : (cfg.outKey, sh) ∈ c.dataLay.names) (r : Rb) :
    Block.forward cfg r ⟨some X, none, none, none⟩ s = report c.lay c.dataLay cfg.name cfg.outKey sh s w (runSys (equations c s0 B q p) (solver T G w.times) [(q, p, x)]) := by
  obtain ⟨he, ⟨hu, hi⟩ | ⟨hu, hn, hT⟩⟩ := hm
  · unfold equations
    rw [hu, if_neg (by simp)]
    exact C67_forward hL hL' hi hb hu he hs.2.2 hw hs.1 hs.2.1 hX hkey r _
  · unfold equations
    rw [hu, if_pos rfl]
    exact C67_forward_rnn hL hL' hb hu he hn hs.2.2 hw hs.1 hs.2.1 hX hkey r _ fun z hz => by rw [firstEval_solver hT G _ _ z hz]

theorem allAtOnce_run (hL : c.lay.Ok) (hL' : c.dataLay.Ok) (hb : IsBlock c (solver T G) icfg s0 cfg) (hm : FromParticles c T s0) {s : Block.St ℝ ℝ Θ} {n B : Nat} {q p : Fin n × K → ℝ}
    (hs : HasParticles c.lay c.dataLay q p s) {X : Tensor ℝ} {x : Fin B × K' → ℝ} (hX : cfg.initialData X = .ok (enc c.dataLay "" B x)) {sh : List Nat}
    (hkey : (cfg.outKey, sh) ∈ c.dataLay.names) (r : Rb) (ts : List ℝ) : ∃ s', HasParticles c.lay c.dataLay q p s' ∧ allAtOnce cfg r X ts s =
      (s', (runSys (equations c s0 B q p) (solver T G ts) [(q, p, x)]).map fun ys => ys.map fun y => picture c.dataLay cfg.outKey sh B y.2.2) := by
  have h := forward_equations hL hL' hb hm (s := Block.setTimeVector ts s) hs (w := .vector ts) ⟨rfl, rfl⟩ hX hkey r
  unfold allAtOnce
  dsimp only
  rw [h]
  show ∃ s', _ ∧ ((report _ _ _ _ _ _ _ (runSys (equations c s0 B q p) (solver T G ts) [(q, p, x)])).1, _) = _
  rw [show Block.When.times (.vector ts) = ts from rfl]
  cases runSys (equations c s0 B q p) (solver T G ts) [(q, p, x)] with
  | error e => exact ⟨Block.setTimeVector ts s, hs, rfl⟩
  | ok ys =>
    refine ⟨{ Block.setTimeVector ts s with notYet := false }, hs, ?_⟩
    show (_, unpack (outTimes c.lay c.dataLay cfg.name cfg.outKey sh ys).result) = _
    rw [unpack_outTimes]
    rfl

theorem oneTime_run (hL : c.lay.Ok) (hL' : c.dataLay.Ok) (hb : IsBlock c (solver T G) icfg s0 cfg) (hm : FromParticles c T s0) {s : Block.St ℝ ℝ Θ} {n B : Nat} {q p : Fin n × K → ℝ}
    (hs : HasParticles c.lay c.dataLay q p s) {X : Tensor ℝ} {x : Fin B × K' → ℝ} (hX : cfg.initialData X = .ok (enc c.dataLay "" B x)) {sh : List Nat}
    (hkey : (cfg.outKey, sh) ∈ c.dataLay.names) (r : Rb) (t : ℝ) : ∃ s', HasParticles c.lay c.dataLay q p s' ∧ oneTime cfg r X t s =
      (s', (runSys (equations c s0 B q p) (solver T G [0, t]) [(q, p, x)]).bind fun ys => (ys.getLast?).elim (.error .indexError) fun y => .ok (picture c.dataLay cfg.outKey sh B y.2.2)) := by
  have h := forward_equations hL hL' hb hm (s := Block.setTime t s) hs (w := .upTo t) ⟨rfl, rfl⟩ hX hkey r
  unfold oneTime
  dsimp only
  rw [h]
  rw [show Block.When.times (.upTo t) = [0, t] from rfl]
  cases runSys (equations c s0 B q p) (solver T G [0, t]) [(q, p, x)] with
  | error e => exact ⟨Block.setTime t s, hs, rfl⟩
  | ok ys =>
    unfold report
    dsimp only
    have hbind : ∀ k : List (Sys2 (Fin n) (Fin B) K K') → Py (Tensor ℝ), (Except.ok ys : Py _).bind k = k ys := fun _ => rfl
    rw [hbind]
    cases hl : ys.getLast? with
    | none => exact ⟨Block.setTime t s, hs, rfl⟩
    | some y => exact ⟨{ Block.setTime t s with notYet := false }, hs, rfl⟩

/-- C91: what a block with a step size predicts.  For a list of times: the input as the block represents it, then the values of C91_values at the times.  For one time: the value of the run that
ends there. -/
theorem C91_forward (hL : c.lay.Ok) (hL' : c.dataLay.Ok) {h : ℝ} (hh : 0 < h) (hb : IsBlock c (solver T (stepGrid h)) icfg s0 cfg) (hm : FromParticles c T s0) {s : Block.St ℝ ℝ Θ} {n B : Nat}
    {q p : Fin n × K → ℝ} (hs : HasParticles c.lay c.dataLay q p s) {X : Tensor ℝ} {x : Fin B × K' → ℝ} (hX : cfg.initialData X = .ok (enc c.dataLay "" B x)) {sh : List Nat}
    (hkey : (cfg.outKey, sh) ∈ c.dataLay.names) (r : Rb) :
    (∀ t ts, (t :: ts).Pairwise (· < ·) → ∃ s', HasParticles c.lay c.dataLay q p s' ∧ allAtOnce cfg r X (t :: ts) s = (s', .ok (picture c.dataLay cfg.outKey sh B x ::
      ts.map fun τ => picture c.dataLay cfg.outKey sh B (valueAt (increment T (equations c s0 B q p)) h t (q, p, x) ((t :: ts).getLast (by simp)) τ).2.2))) ∧
    (∀ τ, 0 < τ → ∃ s', HasParticles c.lay c.dataLay q p s' ∧
      oneTime cfg r X τ s = (s', .ok (picture c.dataLay cfg.outKey sh B (valueAt (increment T (equations c s0 B q p)) h 0 (q, p, x) τ τ).2.2))) := by
  constructor
  · intro t ts hi
    obtain ⟨s', h1, h2⟩ := allAtOnce_run hL hL' hb hm hs hX hkey r (t :: ts)
    refine ⟨s', h1, ?_⟩
    rw [h2, run_steps _ _ hh t ts hi]
    show (_, Except.ok (List.map _ (_ :: List.map _ _))) = _
    rw [List.map_cons, List.map_map]
    rfl
  · intro τ hτ
    obtain ⟨s', h1, h2⟩ := oneTime_run hL hL' hb hm hs hX hkey r τ
    refine ⟨s', h1, ?_⟩
    rw [h2, run_steps _ _ hh 0 [τ] (by simpa using hτ)]
    rfl

/-- C91: asking for more times, or for fewer, does not change the values at the others. -/
theorem C91_more_times (hL : c.lay.Ok) (hL' : c.dataLay.Ok) {h : ℝ} (hh : 0 < h) (hb : IsBlock c (solver T (stepGrid h)) icfg s0 cfg) (hm : FromParticles c T s0) {s : Block.St ℝ ℝ Θ} {n B : Nat}
    {q p : Fin n × K → ℝ} (hs : HasParticles c.lay c.dataLay q p s) {X : Tensor ℝ} {x : Fin B × K' → ℝ} (hX : cfg.initialData X = .ok (enc c.dataLay "" B x)) (r r' : Rb) (t : ℝ) (ts us : List ℝ)
    (hi : (t :: ts).Pairwise (· < ·)) (hi' : (t :: us).Pairwise (· < ·)) : ∃ s1 s2 vs ws, allAtOnce cfg r X (t :: ts) s = (s1, .ok vs) ∧ allAtOnce cfg r' X (t :: us) s = (s2, .ok ws) ∧
      vs.length = ts.length + 1 ∧ ws.length = us.length + 1 ∧
      ∀ (i j : ℕ) (τ : ℝ), (t :: ts)[i]? = some τ → (t :: us)[j]? = some τ →
        (T = Converge.euler ∨ ∃ k : ℕ, τ ≤ t + k * h ∧ t + k * h ≤ (t :: ts).getLast (by simp) ∧ t + k * h ≤ (t :: us).getLast (by simp)) → vs[i]? = ws[j]? := by
  obtain ⟨sh, hkey⟩ := hb.key
  obtain ⟨s1, _, e1⟩ := allAtOnce_run hL hL' hb hm hs hX hkey r (t :: ts)
  obtain ⟨s2, _, e2⟩ := allAtOnce_run hL hL' hb hm hs hX hkey r' (t :: us)
  obtain ⟨ys, zs, f1, f2, f3, f4, f5⟩ := C91_other_times (equations c s0 B q p) T hh t ts us hi hi' (q, p, x)
  rw [f1] at e1
  rw [f2] at e2
  refine ⟨s1, s2, _, _, e1, e2, by rw [List.length_map, f3], by rw [List.length_map, f4], fun i j τ h1 h2 h3 => ?_⟩
  rw [List.getElem?_map, List.getElem?_map, f5 i j τ h1 h2 h3]

theorem loop_ok {Inv : Block.St ℝ ℝ Θ → Prop} {r : Rb} {X : Tensor ℝ} {v : ℝ → Tensor ℝ} (ts : List ℝ) (h : ∀ s, Inv s → ∀ t ∈ ts, ∃ s', Inv s' ∧ oneTime cfg r X t s = (s', .ok (v t)))
    (s : Block.St ℝ ℝ Θ) (hs : Inv s) : ∃ s', Inv s' ∧ loop cfg r X ts s = (s', .ok (ts.map v)) := by
  induction ts generalizing s with
  | nil => exact ⟨s, hs, rfl⟩
  | cons t ts ih =>
    obtain ⟨s1, h1, e1⟩ := h s hs t (by simp)
    obtain ⟨s2, h2, e2⟩ := ih (fun s hs t ht => h s hs t (by simp [ht])) s1 h1
    refine ⟨s2, h2, ?_⟩
    rw [loop, e1]
    dsimp only
    rw [e2]
    rfl

/-- C91: predicting all times at once gives what predicting one time after the other gives, if the times start at 0 and are multiples of the step size, for every model whose parameters come
from particles, at every time or once; with explicit Euler for any times. -/
theorem C91_one_by_one (hL : c.lay.Ok) (hL' : c.dataLay.Ok) {h : ℝ} (hh : 0 < h) (hb : IsBlock c (solver T (stepGrid h)) icfg s0 cfg) (hm : FromParticles c T s0) {s : Block.St ℝ ℝ Θ} {n B : Nat}
    {q p : Fin n × K → ℝ} (hs : HasParticles c.lay c.dataLay q p s) {sh : List Nat} (hkey : (cfg.outKey, sh) ∈ c.dataLay.names) {restart : (Fin B × K' → ℝ) → Fin B × K' → ℝ}
    (hr : Restarts c.dataLay cfg.outKey sh B cfg.initialData restart) (x : Fin B × K' → ℝ) (r r' : Rb) (ts : List ℝ) (hi : (0 :: ts).Pairwise (· < ·))
    (hts : T = Converge.euler ∨ ∀ τ ∈ ts, ∃ k : ℕ, τ = k * h) :
    ∃ s1 s2 vs, allAtOnce cfg r (picture c.dataLay cfg.outKey sh B x) (0 :: ts) s = (s1, .ok vs) ∧ oneByOne cfg r' (picture c.dataLay cfg.outKey sh B x) (0 :: ts) s = (s2, .ok vs) ∧
      vs.length = ts.length + 1 := by
  obtain ⟨s1, _, e1⟩ := (C91_forward hL hL' hh hb hm hs (hr.init x) hkey r).1 0 ts hi
  have hpos : ∀ τ ∈ ts, 0 < τ := (List.pairwise_cons.1 hi).1
  obtain ⟨s2, _, e2⟩ := loop_ok (Inv := HasParticles c.lay c.dataLay q p) (r := r') (X := picture c.dataLay cfg.outKey sh B x) ts
    (fun s hs τ hτ => (C91_forward hL hL' hh hb hm hs (hr.init x) hkey r').2 τ (hpos τ hτ)) s hs
  refine ⟨s1, s2, _, e1, ?_, by simp⟩
  unfold oneByOne
  dsimp only
  rw [List.tail_cons, e2]
  show (_, Except.ok (_ :: _)) = _
  rw [picture_congr hL' hkey (hr.keeps x)]
  congr 3
  apply List.map_congr_left
  intro τ hτ
  have hle := le_last hi (List.mem_cons_of_mem 0 hτ)
  congr 3
  rcases hts with rfl | hk
  · exact valueAt_euler _ hh _ (hpos τ hτ) le_rfl hle
  · obtain ⟨k, hk⟩ := hk τ hτ
    exact valueAt_other _ hh _ (hpos τ hτ) (k := k) (by linarith) (by linarith) (by linarith)

/-- C91: times that do not increase are refused when they are asked for together, and one time that is not positive is refused, with any rule for the grid; nothing about the block changes
except its times. -/
theorem C91_refused (hL : c.lay.Ok) (hL' : c.dataLay.Ok) (hb : IsBlock c (solver T G) icfg s0 cfg) (hm : FromParticles c T s0) {s : Block.St ℝ ℝ Θ} {n B : Nat} {q p : Fin n × K → ℝ}
    (hs : HasParticles c.lay c.dataLay q p s) {X : Tensor ℝ} {x : Fin B × K' → ℝ} (hX : cfg.initialData X = .ok (enc c.dataLay "" B x)) (r : Rb) :
    (allAtOnce cfg r X [] s = (Block.setTimeVector [] s, .error .indexError)) ∧
    (∀ t ts, ¬ (t :: ts).Pairwise (· < ·) → allAtOnce cfg r X (t :: ts) s = (Block.setTimeVector (t :: ts) s, .error .assertionError)) ∧
    ∀ τ, τ ≤ 0 → oneTime cfg r X τ s = (Block.setTime τ s, .error .assertionError) := by
  obtain ⟨sh, hkey⟩ := hb.key
  obtain ⟨b1, b2⟩ := C68_bad_times T G (equations c s0 B q p) (q, p, x)
  refine ⟨?_, fun t ts ht => ?_, fun τ hτ => ?_⟩
  · unfold allAtOnce
    dsimp only
    rw [forward_equations hL hL' hb hm (s := Block.setTimeVector [] s) hs (w := .vector []) ⟨rfl, rfl⟩ hX hkey r, show Block.When.times (.vector []) = ([] : List ℝ) from rfl, b1]
    rfl
  · unfold allAtOnce
    dsimp only
    rw [forward_equations hL hL' hb hm (s := Block.setTimeVector (t :: ts) s) hs (w := .vector (t :: ts)) ⟨rfl, rfl⟩ hX hkey r, show Block.When.times (.vector (t :: ts)) = t :: ts from rfl, b2 t ts ht]
    rfl
  · unfold oneTime
    dsimp only
    rw [forward_equations hL hL' hb hm (s := Block.setTime τ s) hs (w := .upTo τ) ⟨rfl, rfl⟩ hX hkey r, show Block.When.times (.upTo τ) = [0, τ] from rfl, b2 0 [τ] (by simpa using hτ)]
    rfl

end Blocks

end Verif.Horizon
