import Verif.Recompute.Layout
import Verif.Assembly.Props
import Mathlib.Data.List.Induction

/-!
# C95: evaluations after a pass

The adjoint method and checkpoints evaluate the integrand again when gradients are computed.
-/

namespace Verif.Recompute
open Verif Verif.Assembly Verif.Flow

variable {α T σ : Type}

/-! ## Taking vectors apart -/

/-- **C95** (negation) `disassemble_tensor` documents an argument for plans, but every call with plans raises `ValueError`: vectors can be read only with the stored plans. -/
theorem C95_explicit_plans (m : Mem σ) (x : Input α) (p : AllPlans) (dim : Int) : takeApart m x (some p) dim = .error .valueError := rfl

/-- **C95** With stored plans the dictionaries an assembled vector came from are recovered; before any plans are stored every vector raises `ValueError`. -/
theorem C95_stored_plans_partial (m : Mem σ) (s c d : TDicts α) (hs : GoodDicts s) (hc : GoodDicts c) (hd : GoodDicts d) (ns : s ≠ []) (nc : c ≠ []) (nd : d ≠ [])
    (es : ∀ b ∈ s, b.2 ≠ []) (ec : ∀ b ∈ c, b.2 ≠ []) (ed : ∀ b ∈ d, b.2 ≠ []) :
    (∃ v p, assembleTensor s c d = .ok (v, p) ∧ takeApart (setPlans p m) (.vec v) none 0 = .ok (s, c, d)) ∧ ∀ (x : Input α) (dim : Int), m.plans = none → takeApart m x none dim = .error .valueError := by
  obtain ⟨v, p, h1, h2⟩ := C01_roundtrip_identity s c d hs hc hd ns nc nd es ec ed
  refine ⟨⟨v, p, h1, h2⟩, fun x dim h => ?_⟩
  unfold takeApart
  rw [h]
  exact C04_no_plan x dim

/-! ## The stored plans -/

section
variable [Add α] [Zero α]

/-- **C95** After any history of passes (also failed ones), evaluations and calls of `set_auto_assembly_plans` the stored plans are those of the last pass or call. -/
theorem C95_last_plans (reset : σ → σ) (F : T → Trip α → σ → σ × Py (Trip α)) (m : Mem σ) (es : List (Event α T)) : (after reset F m es).plans = (lastPlans es).or m.plans := by
  induction es using List.reverseRecOn with
  | nil => rfl
  | append_singleton es e ih =>
    have h : after reset F m (es ++ [e]) = step reset F (after reset F m es) e := by simp [after]
    rw [h]
    cases e with
    | pass M p x0 =>
      have : lastPlans (es ++ [Event.pass M p x0]) = some p := by simp [lastPlans, planOf]
      rw [this]
      exact (run_memory _ F M [x0] _).1
    | eval t v =>
      have : lastPlans (es ++ [Event.eval t v]) = lastPlans es := by simp [lastPlans, planOf]
      rw [this, ← ih]
      exact evaluate_plans F t v _
    | plans p =>
      have : lastPlans (es ++ [(Event.plans p : Event α T)]) = some p := by simp [lastPlans, planOf]
      rw [this]
      rfl

/-- **C95** A vector from before the last pass: if that pass had more elements, evaluating at the vector raises `RuntimeError`; if it had fewer, the derivative has another length than the vector. -/
theorem C95_other_sizes (reset : σ → σ) (F : T → Trip α → σ → σ × Py (Trip α)) (m : Mem σ) (es : List (Event α T)) (q : AllPlans) (hq : lastPlans es = some q) (hf : FullPlans q) (t : T) (v : List α) :
    (v.length < totalLength q → (evaluate F t v (after reset F m es)).2 = .error .runtimeError) ∧
    (totalLength q < v.length → KeepsShapes q F → ∀ w, (evaluate F t v (after reset F m es)).2 = .ok w → w.length = totalLength q ∧ w.length ≠ v.length) := by
  have hp : (after reset F m es).plans = some q := by rw [C95_last_plans, hq]; rfl
  constructor
  · intro h
    unfold evaluate takeApart
    rw [hp]
    dsimp only
    rw [(C04_vector_length v q hf.1).2 h]
  · intro h hk w hw
    obtain ⟨x, hx, hl⟩ := disassemble_some hf.1 (v := v) (by omega)
    unfold evaluate takeApart at hw
    rw [hp] at hw
    dsimp only at hw
    rw [hx] at hw
    dsimp only at hw
    cases hy : (F t x (after reset F m es).inner).2 with
    | error e => rw [hy] at hw; cases hw
    | ok y =>
      rw [hy] at hw
      obtain ⟨d, rfl, hd⟩ := hk t x _ y hl hy
      obtain ⟨p, hp⟩ := assemble_dotted hf hd
      have hw' : (assembleTensor (dotted d.1) (dotted d.2.1) (dotted d.2.2)).map Prod.fst = .ok w := hw
      rw [hp] at hw'
      obtain rfl : vec d = w := by injection hw'
      rw [vec_length hd]
      exact ⟨rfl, by omega⟩
end

/-! ## The same again -/

section
variable {Par N R H D : Type} [LinearOrder T] [OfNat T 0] [Field N] [Add α] [Zero α]

/-- **C95** The passes here are those of the model of the integration (C14, C45 and others): the same vectors and exceptions. -/
theorem C95_as_integration (cfg : Integrand.Cfg T (Trip α) Par (TDicts α) N R H D) (M : List T → Method α T) (ts : List T) (p : AllPlans) (x0 : List α)
    (m : Mem (Integrand.St T Par N H D × (Nat → R × R))) :
    (pass resetInner (derivatives cfg) (M ts) p x0 m).2.map some = solveWith M (fun (_ : Unit) _ => ofIntegrand cfg) (resetInner m.inner) () 0 p x0 ts := by
  have ho : ∀ t x s, ofIntegrand cfg t x s = (derivatives cfg t x s).2.map fun y => (y, (derivatives cfg t x s).1) := by
    intro t x s
    unfold ofIntegrand derivatives
    rcases Integrand.forward cfg.rule cfg.hookFails cfg.analytic cfg.transpose t x (s.2 0) s.1 with ⟨s', cs, e | o⟩ <;> rfl
  have hr : ∀ (M : Method α T) (rs : List (List α)) (s : Integrand.St T Par N H D × (Nat → R × R)),
      (runVec x0.length (vecRhs p (ofIntegrand cfg)) M rs s).map Prod.fst = (run x0.length (derivatives cfg) M rs ⟨some p, s⟩).2 := by
    intro M
    induction M with
    | done outs => intro rs s; rfl
    | fail e => intro rs s; rfl
    | test q next ih => intro rs s; exact ih _ rs s
    | eval t g next ih =>
      intro rs s
      rw [run_eval]
      unfold runVec
      unfold vecRhs evaluate takeApart
      dsimp only
      cases disassembleTensor (.vec (zipVec g x0.length rs)) (some p) 0 with
      | error e => rfl
      | ok x =>
        dsimp only [bind, Except.bind]
        rw [ho]
        cases (derivatives cfg t x s).2 with
        | error e => rfl
        | ok y =>
          dsimp only [Except.map]
          cases assembleTensor y.1 y.2.1 y.2.2 with
          | error e => rfl
          | ok w => exact ih _ _
  unfold pass solveWith
  rw [show (⟨some p, resetInner (setPlans p m).inner⟩ : Mem _) = ⟨some p, resetInner m.inner⟩ from rfl, ← hr]
  rcases runVec x0.length (vecRhs p (ofIntegrand cfg)) (M ts) [x0] (resetInner m.inner) with e | r <;> rfl

omit [LinearOrder T] [OfNat T 0] in
/-- The memory after evaluations. -/
theorem after_evals (F : T → Trip α → σ → σ × Py (Trip α)) (reset : σ → σ) (m : Mem σ) (l : List (T × List α)) :
    (after reset F m (evals l)).plans = m.plans ∧ Later F m.inner (after reset F m (evals l)).inner := by
  induction l generalizing m with
  | nil => exact ⟨rfl, .refl _⟩
  | cons e l ih =>
    obtain ⟨h1, h2⟩ := ih (evaluate F e.1 e.2 m).1
    exact ⟨h1.trans (evaluate_plans ..), (evaluate_later ..).trans h2⟩

/-- **C95** After a successful pass, with any number of evaluations in between (the adjoint method evaluates along the way back), integrating the same vector again without a reset gives the same rows.  This
holds with parameters recomputed at every evaluation and in RNN mode. -/
theorem C95_again (cfg : Integrand.Cfg T (Trip α) Par (TDicts α) N R H D) (hc : Calm cfg) (m : Mem (Integrand.St T Par N H D × (Nat → R × R))) (he : m.inner.1.external = false) (M : Method α T) (p : AllPlans)
    (x0 : List α) (rows : List (List α)) (h : (pass resetInner (derivatives cfg) M p x0 m).2 = .ok rows) (l : List (T × List α)) :
    (run x0.length (derivatives cfg) M [x0] (after resetInner (derivatives cfg) (pass resetInner (derivatives cfg) M p x0 m).1 (evals l))).2 = .ok rows := by
  obtain ⟨h1, h2⟩ := after_evals (derivatives cfg) resetInner (pass resetInner (derivatives cfg) M p x0 m).1 l
  unfold pass at h
  refine run_again (settles cfg hc (s0 := resetInner m.inner) he) _ M (m := ⟨some p, resetInner m.inner⟩) (.refl _) h ?_ h2
  rw [h1]
  exact (run_memory ..).1

/-- **C95** Integration in chunks with checkpoints: after it, every chunk integrated again from the vector it started with, in any order and with any evaluations in between, gives its rows again. -/
theorem C95_checkpoints (cfg : Integrand.Cfg T (Trip α) Par (TDicts α) N R H D) (hc : Calm cfg) (m : Mem (Integrand.St T Par N H D × (Nat → R × R))) (he : m.inner.1.external = false) (n : Nat)
    (Ms : List (Method α T)) (x0 : List α) (res : List (List (List α))) (h : (chunks n (derivatives cfg) Ms x0 m).2 = .ok res) (l : List (T × List α)) (k : Nat) (M : Method α T) (y : List α) (rows : List (List α))
    (hM : Ms[k]? = some M) (hy : (x0 :: res.filterMap List.getLast?)[k]? = some y) (hr : res[k]? = some rows) :
    (run n (derivatives cfg) M [y] (after resetInner (derivatives cfg) (chunks n (derivatives cfg) Ms x0 m).1 (evals l))).2 = .ok rows := by
  obtain ⟨h1, h2⟩ := after_evals (derivatives cfg) resetInner (chunks n (derivatives cfg) Ms x0 m).1 l
  have hp := h1.trans (chunks_memory n (derivatives cfg) Ms x0 m).1
  generalize after resetInner (derivatives cfg) (chunks n (derivatives cfg) Ms x0 m).1 (evals l) = m' at h2 hp
  clear h1
  induction Ms generalizing m x0 res k with
  | nil => cases hM
  | cons M1 Ms ih =>
    obtain ⟨p1, p2⟩ := run_memory n (derivatives cfg) M1 [x0] m
    unfold chunks at h h2
    rcases hrun : run n (derivatives cfg) M1 [x0] m with ⟨m1, e | rows1⟩
    · rw [hrun] at h; cases h
    · rw [hrun] at h h2 p1 p2
      dsimp only at h h2 p1 p2
      cases hg : rows1.getLast? with
      | none => rw [hg] at h; cases h
      | some y1 =>
        rw [hg] at h h2
        dsimp only at h h2
        rcases hch : chunks n (derivatives cfg) Ms y1 m1 with ⟨m2, e | more⟩
        · rw [hch] at h; cases h
        · rw [hch] at h h2
          dsimp only at h h2
          obtain rfl : rows1 :: more = res := by injection h
          have hm1 : m1.inner.1.external = false := (later_mode cfg p2).2.trans he
          have hc2 : Later (derivatives cfg) m1.inner m2.inner := by
            have := (chunks_memory n (derivatives cfg) Ms y1 m1).2
            rw [hch] at this
            exact this
          cases k with
          | zero =>
            obtain rfl : M1 = M := by simpa using hM
            obtain rfl : x0 = y := by simpa using hy
            obtain rfl : rows1 = rows := by simpa using hr
            refine run_again (settles cfg hc (s0 := m.inner) he) n M1 (m := m) (.refl _) (by rw [hrun]) hp ?_
            rw [hrun]
            exact hc2.trans h2
          | succ k =>
            refine ih m1 hm1 y1 more (by rw [hch]) k (by simpa using hM) ?_ (by simpa using hr) (by rw [hch]; exact h2) (hp.trans p1.symm)
            simpa [List.filterMap_cons, hg] using hy

/-- **C95** In RNN mode the parameters of the first evaluation of a successful pass are used by every evaluation after it: at all times and vectors the derivatives are those of an integrand that has these
parameters always. -/
theorem C95_rnn_parameters (cfg : Integrand.Cfg T (Trip α) Par (TDicts α) N R H D) (hc : Calm cfg) (m : Mem (Integrand.St T Par N H D × (Nat → R × R))) (he : m.inner.1.external = false)
    (hr : m.inner.1.useRnn = true) (t0 : T) (g : List α → α) (next : Method α T) (p : AllPlans) (x0 : List α) (rows : List (List α))
    (h : (pass resetInner (derivatives cfg) (.eval t0 g next) p x0 m).2 = .ok rows) :
    ∃ x θ, disassembleTensor (.vec (zipVec g x0.length [x0])) (some p) 0 = .ok x ∧ (∀ r, cfg.rule.compute r x = .ok θ) ∧
      ∀ (l : List (T × List α)) (t : T) (z : Trip α) (s : Integrand.St T Par N H D × (Nat → R × R)), s.1.external = false → s.1.useRnn = false →
        (derivatives cfg t z (after resetInner (derivatives cfg) (pass resetInner (derivatives cfg) (.eval t0 g next) p x0 m).1 (evals l)).inner).2 = (derivatives (withParameters cfg θ) t z s).2 := by
  obtain ⟨m0, hm0⟩ : ∃ m0 : Mem (Integrand.St T Par N H D × (Nat → R × R)), m0 = ⟨some p, resetInner m.inner⟩ := ⟨_, rfl⟩
  have he0 : m0.inner.1.external = false := by rw [hm0]; exact he
  have hr0 : m0.inner.1.useRnn = true := by rw [hm0]; exact hr
  have hp0 : m0.plans = some p := by rw [hm0]
  have hc0 : m0.inner.1.cache = none := by
    rw [hm0]
    show (if m.inner.1.external then m.inner.1.cache else none) = none
    rw [he]
    rfl
  have hpass : pass resetInner (derivatives cfg) (.eval t0 g next) p x0 m = run x0.length (derivatives cfg) (.eval t0 g next) [x0] m0 := by rw [hm0]; rfl
  rw [hpass] at h ⊢
  rw [run_eval] at h ⊢
  cases hw : (evaluate (derivatives cfg) t0 (zipVec g x0.length [x0]) m0).2 with
  | error e => rw [hw] at h; cases h
  | ok w =>
    rw [hw] at h
    dsimp only
    have hl := (run_memory x0.length (derivatives cfg) next ([x0] ++ [w]) (evaluate (derivatives cfg) t0 (zipVec g x0.length [x0]) m0).1).2
    generalize (run x0.length (derivatives cfg) next ([x0] ++ [w]) (evaluate (derivatives cfg) t0 (zipVec g x0.length [x0]) m0).1).1 = m1 at hl
    unfold evaluate takeApart at hw hl
    rw [hp0] at hw hl
    dsimp only at hw hl
    cases hx : disassembleTensor (.vec (zipVec g x0.length [x0])) (some p) 0 with
    | error e => rw [hx] at hw; cases hw
    | ok x =>
      rw [hx] at hw hl
      dsimp only at hw hl
      have hd := derivatives_result cfg hc t0 x (s := m0.inner) he0
      rw [hd] at hw
      cases hg : guards cfg x with
      | error e => rw [hg] at hw; cases hw
      | ok u =>
        rw [hg] at hw
        cases ho : own cfg m0.inner.1 (m0.inner.2 0).1 x with
        | error e => dsimp only [Except.bind] at hw; rw [ho] at hw; cases hw
        | ok θ =>
          have hθ : ∀ r, cfg.rule.compute r x = .ok θ := by
            intro r
            unfold own at ho
            rw [hr0, hc0] at ho
            exact (hc.2 _ _ _).trans ho
          refine ⟨x, θ, rfl, hθ, fun l t z s hs hs' => ?_⟩
          have hcache : (derivatives cfg t0 x m0.inner).1.1.cache = some θ := by
            rw [derivatives_cache cfg t0 x hr0 he0, hc0]
            show Integrand.ownParams cfg x (m0.inner.2 0) = some θ
            unfold guards at hg
            unfold Integrand.ownParams
            by_cases h1 : cfg.transpose = true ∧ (cfg.rule.nState x ≠ 0 ∨ cfg.rule.nCostate x ≠ 0 ∨ cfg.rule.nData x ≠ 0)
            · rw [if_pos ⟨h1.1, by tauto⟩] at hg
              cases hg
            · rw [if_neg h1]
              rw [if_neg (by tauto)] at hg
              by_cases h2 : cfg.analytic = true ∧ (cfg.rule.nState x ≠ 1 ∨ cfg.rule.nCostate x ≠ 1)
              · rw [if_pos h2] at hg
                cases hg
              · rw [if_neg h2, hθ]
                rfl
          have hall := hl.trans (after_evals (derivatives cfg) resetInner m1 l).2
          generalize (after resetInner (derivatives cfg) m1 (evals l)).inner = s' at hall
          obtain ⟨a1, b1⟩ := derivatives_mode cfg t0 x m0.inner
          obtain ⟨a2, b2⟩ := later_mode cfg hall
          have hcs := later_cache cfg hall (a1.trans hr0) (b1.trans he0) hcache
          rw [derivatives_result cfg hc t z (b2.trans (b1.trans he0)), derivatives_result (withParameters cfg θ) ⟨hc.1, fun _ _ _ => rfl⟩ t z hs]
          have o1 : own cfg s'.1 (s'.2 0).1 z = .ok θ := by
            unfold own
            rw [a2, a1, hr0, hcs]
            rfl
          have o2 : own (withParameters cfg θ) s.1 (s.2 0).1 z = .ok θ := by
            unfold own
            rw [hs']
            rfl
          rw [o1, o2]
          rfl

theorem after_mode (cfg : Integrand.Cfg T (Trip α) Par (TDicts α) N R H D) (m : Mem (Integrand.St T Par N H D × (Nat → R × R))) (es : List (Event α T)) :
    (after resetInner (derivatives cfg) m es).inner.1.useRnn = m.inner.1.useRnn ∧ (after resetInner (derivatives cfg) m es).inner.1.external = m.inner.1.external := by
  induction es generalizing m with
  | nil => exact ⟨rfl, rfl⟩
  | cons e es ih =>
    obtain ⟨h1, h2⟩ := ih (step resetInner (derivatives cfg) m e)
    suffices hs : (step resetInner (derivatives cfg) m e).inner.1.useRnn = m.inner.1.useRnn ∧ (step resetInner (derivatives cfg) m e).inner.1.external = m.inner.1.external from
      ⟨h1.trans hs.1, h2.trans hs.2⟩
    cases e with
    | pass M p x0 =>
      obtain ⟨a, b⟩ := later_mode cfg (run_memory x0.length (derivatives cfg) M [x0] ⟨some p, resetInner (setPlans p m).inner⟩).2
      exact ⟨a, b⟩
    | eval t v => exact later_mode cfg (evaluate_later ..)
    | plans p => exact ⟨rfl, rfl⟩

/-- **C95** Without RNN mode passes in between do no harm as long as the last of them had the same plans: integrating again gives what the pass gave, an exception included. -/
theorem C95_passes_between_partial (cfg : Integrand.Cfg T (Trip α) Par (TDicts α) N R H D) (hc : Calm cfg) (m : Mem (Integrand.St T Par N H D × (Nat → R × R))) (he : m.inner.1.external = false)
    (hr : m.inner.1.useRnn = false) (M : Method α T) (p : AllPlans) (x0 : List α) (es : List (Event α T)) (hes : (lastPlans es).getD p = p) :
    (run x0.length (derivatives cfg) M [x0] (after resetInner (derivatives cfg) (pass resetInner (derivatives cfg) M p x0 m).1 es)).2 = (pass resetInner (derivatives cfg) M p x0 m).2 := by
  obtain ⟨a, b⟩ := after_mode cfg (pass resetInner (derivatives cfg) M p x0 m).1 es
  have hstep := after_mode cfg m [.pass M p x0]
  refine run_plans (P := fun s => s.1.useRnn = false ∧ s.1.external = false) (fun t x s hs => ?_) (fun t x s s' hs hs' => derivatives_same cfg hc t x hs.2 hs'.2 hs.1 hs'.1) _ M [x0] ?_ ⟨hr, he⟩ ?_
  · obtain ⟨u, v⟩ := derivatives_mode cfg t x s
    exact ⟨u.trans hs.1, v.trans hs.2⟩
  · exact ⟨a.trans (hstep.1.trans hr), b.trans (hstep.2.trans he)⟩
  · rw [C95_last_plans]
    have hpl : (pass resetInner (derivatives cfg) M p x0 m).1.plans = some p := (run_memory ..).1
    rw [hpl]
    cases hq : lastPlans es with
    | none => rfl
    | some q =>
      rw [hq] at hes
      obtain rfl : q = p := hes
      rfl
end

end Verif.Recompute
